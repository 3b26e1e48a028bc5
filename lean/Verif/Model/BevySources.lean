import Verif.Model.TimedSources

/-!
# ResourceObservable, KeyboardObservable, MessageObservable

Models `crates/rx_bevy_observable_{resource,keyboard,message}/src/*_subscription.rs` as sources on the executor
(`Verif.Model.SchedulerClient`). All three schedule one continuous work that looks at a resource of the Bevy world in every
tick, and gives what it finds to the destination.

Simplifications, on top of those of `Verif.Model.TimedSources`: the resource is part of the state of the source, and
everybody else changes it by the operations of its `Poll`; that `ButtonInput` and `Messages` exist is assumed (`resource`
panics otherwise). What the operations of `ButtonInput`, `Messages`, and change detection do is Bevy's, see the comments.
-/

namespace Rx.Poll
open Rx.Sched Rx.Timed

/-- A resource, how others change it, and how a work reads it. -/
structure Poll (O : Type) where
  /-- the resource -/
  W : Type
  w0 : W
  /-- what others do to it -/
  Op : Type
  apply : Op → W → W
  /-- what the closure of the work captured by value -/
  M : Type
  m0 : M
  /-- what the work finds, in order -/
  read : M → W → M × List O
  /-- is the work done: whether the destination is closed at the end, and whether it was closed before something that was
  found could be given -/
  done : Bool → Bool → Bool

/-- What happens to the world, as far as the source can see. -/
inductive Event (Op : Type) where
  /-- somebody changes it -/
  | world (o : Op)
  /-- the work looks at it -/
  | look
deriving DecidableEq, Repr

/-- What can be done to the source. -/
inductive Input (Op : Type) where
  | subscribe
  /-- unsubscribing the subscription -/
  | unsubscribe
  /-- the destination is closed by somebody else -/
  | close
  | world (o : Op)

/-- The subscription: resource_subscription.rs:15-26, keyboard_subscription.rs:8-17, message_subscription.rs:6-16. With the
resource. Ghost: when it was subscribed; and in the record of the port, what happened to the world. -/
structure State {O : Type} (P : Poll O) (S E : Type) where
  port : Port S (Event P.Op) O E
  world : P.W := P.w0
  begun : Option Nat := none

/-- The loop of the work: keyboard_subscription.rs:50-56, message_subscription.rs:43-49 (checked after each value instead of
before the next one). The resource has one value at most, and `next` ignores it if the destination is closed
(resource_subscription.rs:65-70). Also, whether something was left because the destination was closed. -/
def giveAll {S I O E : Type} (D : Sub S O E) (now : Nat) : List O → Port S I O E → Port S I O E × Bool
  | [], p => (p, false)
  | v :: vs, p => if D.isClosed p.dest then (p, true) else giveAll D now vs (p.give D (.next v) now)

variable {S O E : Type}

/-- The source. -/
@[reducible] def poll (D : Sub S O E) (P : Poll O) : Client where
  St := State P S E
  B := P.M
  In := Input P.Op
  -- resource_subscription.rs:49-77, keyboard_subscription.rs:36-58, message_subscription.rs:33-52
  exec m _ now s :=
    let p := if D.isClosed s.port.dest then s.port else s.port.mark (.arrived (.next .look)) now
    let r := P.read m s.world
    let g := giveAll D now r.2 p
    (r.1, { s with port := g.1 }, s.port.teardown D g.1, if P.done (D.isClosed g.1.dest) g.2 then .done else .pending)
  input i now s :=
    match i with
    -- resource_subscription.rs:40-84, keyboard_subscription.rs:28-65, message_subscription.rs:24-58; the teardown is run at
    -- once if the destination is closed already
    | .subscribe =>
      if s.begun.isSome then (s, [])
      else
        ({ s with begun := some now },
          .schedule (.newContinuous P.m0) :: if D.isClosed s.port.dest then [.cancel] else [])
    -- `#[rx_delegate_subscription_like_to_destination]`: resource_subscription.rs:17, keyboard_subscription.rs:10,
    -- message_subscription.rs:8
    | .unsubscribe =>
      if s.begun.isNone then (s, [])
      else
        let s1 := { s with port := (s.port.mark (.arrived .unsubscribe) now).give D .unsubscribe now }
        (s1, s.port.teardown D s1.port)
    | .close =>
      let s1 := { s with port := s.port.close D now }
      (s1, if s.begun.isSome then s.port.teardown D s1.port else [])
    | .world o => ({ s with world := P.apply o s.world, port := s.port.mark (.arrived (.next (.world o))) now }, [])

/-! ### A resource -/

namespace Resource

/-- resource_observable_options.rs:2-13. -/
structure Options where
  added : Bool := true
  changed : Bool := true

/-- A resource, if it exists; and `is_resource_changed`: whether it was written since the system that ticks the executor ended
its last run. (Bevy compares the tick of the write with the `last_run` of the system that asks.) -/
structure World (V : Type) where
  value : Option V := none
  changed : Bool := false
deriving DecidableEq, Repr

/-- What others do. -/
inductive Op (V : Type) where
  /-- inserting it, or writing to it through a mutable reference -/
  | write (v : V)
  | remove
  /-- the system that ticks the executor ends its run -/
  | ran
deriving DecidableEq, Repr

def World.apply {V : Type} : Op V → World V → World V
  | .write v, _ => { value := some v, changed := true }
  | .remove, _ => { value := none, changed := false }
  | .ran, w => { w with changed := false }

/-- resource_subscription.rs:50-70, given `resource_existed_in_the_previous_tick`. -/
def read {V O : Type} (opt : Options) (reader : V → O) (existed : Bool) (w : World V) : Bool × List O :=
  let isAdded := !existed && w.value.isSome
  let isChangedCondition := opt.changed && w.changed && !isAdded
  let isAddedCondition := opt.added && isAdded
  (w.value.isSome,
    if isChangedCondition || isAddedCondition then
      match w.value with
      | some v => [reader v]
      | none => []
    else [])

end Resource

/-- `ResourceObservable`, resource_subscription.rs:34-91; done at 72-76. -/
@[reducible] def resource {V : Type} (opt : Resource.Options) (reader : V → O) : Poll O where
  W := Resource.World V
  w0 := {}
  Op := Resource.Op V
  apply := Resource.World.apply
  M := Bool
  m0 := false
  read := Resource.read opt reader
  done closed _ := closed

/-! ### The keyboard -/

namespace Keyboard
variable {K : Type} [DecidableEq K]

/-- keyboard_observable_options.rs:6-12. -/
inductive Emit where
  | justPressed
  | whilePressed
  | justReleased
deriving DecidableEq, Repr

/-- `ButtonInput`: three sets. They are hash sets, so the order in which they are read is not known; here it is the order in
which the keys came in, but no theorem is about the order. -/
structure World (K : Type) where
  pressed : List K := []
  justPressed : List K := []
  justReleased : List K := []
deriving DecidableEq, Repr

/-- What others do: `press`, `release`, `release_all` and `clear` of `ButtonInput`. Bevy's `keyboard_input_system` clears at the
beginning of a frame, then presses and releases, and releases all when the focus is lost. -/
inductive Op (K : Type) where
  | press (k : K)
  | release (k : K)
  | releaseAll
  | clear
deriving DecidableEq, Repr

/-- Inserting into a set. -/
def insert (k : K) (l : List K) : List K := if k ∈ l then l else l ++ [k]

def World.apply : Op K → World K → World K
  | .press k, w =>
    if k ∈ w.pressed then w else { w with pressed := w.pressed ++ [k], justPressed := insert k w.justPressed }
  | .release k, w =>
    if k ∈ w.pressed then { w with pressed := w.pressed.filter (· ≠ k), justReleased := insert k w.justReleased } else w
  | .releaseAll, w => { w with pressed := [], justReleased := w.pressed.foldl (fun l k => insert k l) w.justReleased }
  | .clear, w => { w with justPressed := [], justReleased := [] }

/-- keyboard_subscription.rs:38-48. -/
def World.keys (w : World K) : Emit → List K
  | .justPressed => w.justPressed
  | .justReleased => w.justReleased
  | .whilePressed => w.pressed

end Keyboard

/-- `KeyboardObservable`, keyboard_subscription.rs:23-68; done at 54. -/
@[reducible] def keyboard {K : Type} [DecidableEq K] (emit : Keyboard.Emit) : Poll K where
  W := Keyboard.World K
  w0 := {}
  Op := Keyboard.Op K
  apply := Keyboard.World.apply
  M := Unit
  m0 := ()
  read _ w := ((), w.keys emit)
  done _ left := left

/-! ### Messages -/

namespace Message
variable {M : Type}

/-- `Messages`: two buffers, the ids of their first messages, and how many messages there were. -/
structure World (M : Type) where
  old : List M := []
  oldStart : Nat := 0
  new : List M := []
  newStart : Nat := 0
  count : Nat := 0
deriving DecidableEq, Repr

/-- What others do: `write`, `update` and `clear` of `Messages`. Bevy's `message_update_system` updates once per frame (or in
fixed steps). -/
inductive Op (M : Type) where
  | write (m : M)
  | update
  | clear
deriving DecidableEq, Repr

def World.apply : Op M → World M → World M
  | .write m, w => { w with new := w.new ++ [m], count := w.count + 1 }
  | .update, w => { w with old := w.new, oldStart := w.newStart, new := [], newStart := w.count }
  | .clear, w => { w with old := [], oldStart := w.count, new := [], newStart := w.count }

/-- `MessageCursor::read`, for a cursor that has read all messages before `cursor`. -/
def read (cursor : Nat) (w : World M) : Nat × List M :=
  (w.count, w.old.drop (cursor - w.oldStart) ++ w.new.drop (cursor - w.newStart))

end Message

/-- `MessageObservable`, message_subscription.rs:23-61; done at 40 and 47. The cursor is `MessageCursor::default()` (line 30). -/
@[reducible] def message (M : Type) : Poll M where
  W := Message.World M
  w0 := {}
  Op := Message.Op M
  apply := Message.World.apply
  M := Nat
  m0 := 0
  read := Message.read
  done closed _ := closed

end Rx.Poll
