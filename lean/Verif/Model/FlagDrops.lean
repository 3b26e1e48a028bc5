import Verif.Model.Panics
import Verif.Model.Operators

/-!
# `take` and `element_at`, whose destinations may panic, and the flags they own

`crates/rx_core_operator_take/src/take_subscriber.rs`, `crates/rx_core_operator_element_at/src/element_at_subscriber.rs`,
`crates/rx_core_common/src/subscriptions/subscription_closed_flag.rs`. Debug assertions are on. Simplifications: one thread, the
destination does not call back; what it does when it is dropped is left out; providers of default values do not panic.
-/

namespace Rx.FlagDrops

open Rx.Panics (Fragile Out)

variable {S I E : Type}

/-- What both own: the destination and the flag. Ghost: what the destination was told; whether the subscriber was dropped;
whether the flag was dropped open (subscription_closed_flag.rs:33-45), which happens only while unwinding from a panic and then
aborts the program. -/
structure Core (S I E : Type) where
  dest : S
  closed : Bool
  log : List (SubscriberNotification I E) := []
  gone : Bool := false
  aborted : Bool := false

namespace Core

/-- The destination is told something. -/
def give (D : Fragile S I E) (x : Core S I E) (n : SubscriberNotification I E) : Out (Core S I E) :=
  let r := D.push x.dest n
  ⟨{ x with dest := r.st, log := x.log ++ [n] }, r.panicked⟩

/-- `self.closed.close()`, subscription_closed_flag.rs:69-71. -/
def close (x : Core S I E) : Out (Core S I E) := ⟨{ x with closed := true }, false⟩

/-- `is_closed`: take_subscriber.rs:72-74, element_at_subscriber.rs:119-121. -/
def isClosed (D : Fragile S I E) (x : Core S I E) : Bool := x.closed || D.isClosed x.dest

/-- `unsubscribe`: take_subscriber.rs:77-82, element_at_subscriber.rs:124-129. -/
def unsubscribe (D : Fragile S I E) (x : Core S I E) : Out (Core S I E) :=
  (if !x.isClosed D then x.give D .unsubscribe else ⟨x, false⟩).andThen close id

/-- `drop`: take_subscriber.rs:90-92, element_at_subscriber.rs:139-141, and then of the flag. -/
def drop (D : Fragile S I E) (x : Core S I E) : Out (Core S I E) :=
  let r := x.unsubscribe D
  ⟨{ r.st with gone := true, aborted := !r.st.closed }, r.panicked⟩

end Core

/-- What upstream does. -/
inductive Op (I E : Type) where
  | note (n : SubscriberNotification I E)
  | drop
deriving DecidableEq, Repr

/-! ## `take` -/

/-- `TakeSubscriber`, take_subscriber.rs:9-18. -/
structure Take (S I E : Type) where
  core : Core S I E
  count : Nat

/-- `new`, take_subscriber.rs:24-36, for a count that is not 0. -/
def Take.new (D : Fragile S I E) (s : S) (n : Nat) : Take S I E := ⟨⟨s, D.isClosed s, [], false, false⟩, n⟩

/-- `complete`, take_subscriber.rs:61-64. -/
def Take.complete (D : Fragile S I E) (x : Take S I E) : Out (Take S I E) :=
  let r := (x.core.give D .complete).andThen Core.close id
  ⟨{ x with core := r.st }, r.panicked⟩

/-- One of these; after the drop there is nothing left. `next`: 43-52, `error`: 55-58. -/
def Take.step (D : Fragile S I E) (x : Take S I E) (op : Op I E) : Out (Take S I E) :=
  if x.core.gone then ⟨x, false⟩
  else match op with
    | .note (.next v) =>
      if x.count > 0 then
        let r := x.core.give D (.next v)
        (⟨⟨r.st, x.count - 1⟩, r.panicked⟩ : Out (Take S I E)).andThen
          (fun x => if x.count == 0 && !x.core.isClosed D then x.complete D else ⟨x, false⟩) id
      else ⟨x, false⟩
    | .note (.error e) =>
      let r := (x.core.give D (.error e)).andThen Core.close id
      ⟨{ x with core := r.st }, r.panicked⟩
    | .note .complete => x.complete D
    | .note .unsubscribe =>
      let r := x.core.unsubscribe D
      ⟨{ x with core := r.st }, r.panicked⟩
    | .drop =>
      let r := x.core.drop D
      ⟨{ x with core := r.st }, r.panicked⟩

/-- One after the other, going on after a panic. -/
def Take.run (D : Fragile S I E) (x : Take S I E) (ops : List (Op I E)) : Take S I E :=
  ops.foldl (fun x op => (x.step D op).st) x

/-! ## `element_at` -/

/-- `ElementAtSubscriber`, element_at_subscriber.rs:21-35. -/
structure ElementAt (S I E : Type) where
  core : Core S I (ElementAtError E)
  index : Nat
  default : Option I
  observed : Nat := 0

/-- `new`, element_at_subscriber.rs:43-57. -/
def ElementAt.new (D : Fragile S I (ElementAtError E)) (s : S) (index : Nat) (d : Option I) : ElementAt S I E :=
  ⟨⟨s, D.isClosed s, [], false, false⟩, index, d, 0⟩

/-- A value, then the completion, then the flag: 73-75 and 98-100. -/
def ElementAt.deliver (D : Fragile S I (ElementAtError E)) (x : ElementAt S I E) (v : I) : Out (ElementAt S I E) :=
  let r := ((x.core.give D (.next v)).andThen (fun c => c.give D .complete) id).andThen Core.close id
  ⟨{ x with core := r.st }, r.panicked⟩

/-- An error, then the flag: 87-89 and 102-107. -/
def ElementAt.fail (D : Fragile S I (ElementAtError E)) (x : ElementAt S I E) (e : ElementAtError E) : Out (ElementAt S I E) :=
  let r := (x.core.give D (.error e)).andThen Core.close id
  ⟨{ x with core := r.st }, r.panicked⟩

/-- One of these; after the drop there is nothing left. `next`: 67-80, `error`: 83-90, `complete`: 93-109. -/
def ElementAt.step (D : Fragile S I (ElementAtError E)) (x : ElementAt S I E) (op : Op I E) : Out (ElementAt S I E) :=
  if x.core.gone then ⟨x, false⟩
  else match op with
    | .note (.next v) =>
      if x.core.isClosed D then ⟨x, false⟩
      else if x.observed = x.index then x.deliver D v
      else ⟨{ x with observed := x.observed + 1 }, false⟩
    | .note (.error e) => if x.core.isClosed D then ⟨x, false⟩ else x.fail D (.upstream e)
    | .note .complete =>
      if x.core.isClosed D then ⟨x, false⟩
      else match x.default with
        | some v => x.deliver D v
        | none => x.fail D (.indexOutOfRange x.index x.observed)
    | .note .unsubscribe =>
      let r := x.core.unsubscribe D
      ⟨{ x with core := r.st }, r.panicked⟩
    | .drop =>
      let r := x.core.drop D
      ⟨{ x with core := r.st }, r.panicked⟩

/-- One after the other, going on after a panic. -/
def ElementAt.run (D : Fragile S I (ElementAtError E)) (x : ElementAt S I E) (ops : List (Op I E)) : ElementAt S I E :=
  ops.foldl (fun x op => (x.step D op).st) x

end Rx.FlagDrops
