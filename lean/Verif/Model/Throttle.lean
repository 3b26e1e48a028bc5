import Verif.Model.Timed
import Verif.Model.SubscriberState

/-!
# throttle_time

Models `crates/rx_core_operator_throttle_time/src/{throttle_time_subscriber,throttle_time_options}.rs` as an operator on
the executor (`Verif.Model.SchedulerClient`), with the simplifications of `Verif.Model.Timed`.

Panics are explicit: after a failed `expect` or, as in a debug build, a failed `debug_assert!`, `panicked` is set, and
what the operator does afterwards is not modelled.
-/

namespace Rx.Timed
open Rx.Sched

/-- `ThrottleOutputBehavior`, throttle_time_options.rs:4-12. -/
inductive Throttle.Output where
  | leadingOnly
  | trailingOnly
  | leadingAndTrailing
deriving DecidableEq, Repr

/-- throttle_time_options.rs:16-18 -/
def Throttle.Output.emitsLeading : Throttle.Output → Bool
  | .leadingOnly => true
  | .trailingOnly => false
  | .leadingAndTrailing => true

/-- throttle_time_options.rs:21-23 -/
def Throttle.Output.emitsTrailing : Throttle.Output → Bool
  | .leadingOnly => false
  | .trailingOnly => true
  | .leadingAndTrailing => true

/-- `ThrottleTimeState` with the destination, throttle_time_subscriber.rs:15-20, 33-48, 69-76. -/
structure Throttle.State (S I E : Type) where
  port : Port S I I E
  lastValue : Option I := none
  lastTick : Nat := 0
  deadline : Option Nat := none
  up : SubscriberState := .default
  panicked : Bool := false

namespace Throttle.State
variable {S I E : Type}

/-- throttle_time_subscriber.rs:23-26 -/
def clear (s : State S I E) : State S I E := { s with deadline := none, lastValue := none }

/-- throttle_time_subscriber.rs:28-30 -/
def hasPending (o : Output) (s : State S I E) : Bool := o.emitsTrailing && s.lastValue.isSome

/-- Ghost. -/
def arrive (n : SubscriberNotification I E) (now : Nat) (s : State S I E) : State S I E :=
  { s with port := s.port.mark (.arrived n) now }

def panic (s : State S I E) : State S I E := { s with panicked := true }

/-- The part of the closure under the lock, for a deadline, throttle_time_subscriber.rs:95-125: whether to go on, and what
to give. -/
def window (o : Output) (t deadline : Nat) (s : State S I E) : State S I E × Bool × Option I :=
  if deadline < t then ({ s with deadline := none }, false, none)
  else
    let v := if o.emitsTrailing then s.lastValue else none
    ({ s with lastValue := none, deadline := if v.isSome then s.deadline else none }, v.isSome, v)

/-- The rest of the closure, throttle_time_subscriber.rs:128-150. -/
def deliver (D : Sub S I E) (now : Nat) (s : State S I E) (go : Bool) (v : Option I) : State S I E × WorkResult :=
  let s := match v with
    | some v => { s with port := s.port.give D (.next v) now }
    | none => s
  if v.isSome && D.isClosed s.port.dest then (s, .done)
  else if s.up.isCompleted then ({ s with port := s.port.give D .complete now }, .done)
  else if s.up.isClosedButNotCompleted then ({ s with port := s.port.give D .unsubscribe now }, .done)
  else (s, if go then .pending else .done)

/-- The closure, throttle_time_subscriber.rs:86-151. -/
def work (D : Sub S I E) (o : Output) (t now : Nat) (s : State S I E) : State S I E × WorkResult :=
  let s := { s with lastTick := t }
  match s.deadline with
  | none => (s.panic, .done)
  | some dl =>
    if t < dl then (s, .pending)
    else
      let r := s.window o t dl
      r.1.deliver D now r.2.1 r.2.2

/-- `next`, throttle_time_subscriber.rs:164-200, and whether work is scheduled. -/
def next (D : Sub S I E) (o : Output) (d : Nat) (v : I) (now : Nat) (s : State S I E) : State S I E × Bool :=
  match s.deadline with
  | none =>
    let s := { s with deadline := some (s.lastTick + d) }
    if o.emitsLeading then ({ s with port := s.port.give D (.next v) now }, true)
    else if o.emitsTrailing then ({ s with lastValue := some v }, true)
    else (s, true)
  | some dl =>
    if s.lastTick < dl then
      (if o.emitsTrailing then { s with lastValue := some v } else s, false)
    else if o.emitsTrailing then ({ s with deadline := some (s.lastTick + d), lastValue := some v }, false)
    else (s.panic, false)

/-- `error`, throttle_time_subscriber.rs:203-211. -/
def error (D : Sub S I E) (e : E) (now : Nat) (s : State S I E) : State S I E × Bool :=
  match s.up.error with
  | none => (s.panic, false)
  | some u =>
    let s := { s with up := u }.clear
    ({ s with port := s.port.give D (.error e) now }, true)

/-- `complete`, throttle_time_subscriber.rs:214-231, and whether the work is cancelled. -/
def complete (D : Sub S I E) (o : Output) (now : Nat) (s : State S I E) : State S I E × Bool :=
  match s.up.complete with
  | none => (s.panic, false)
  | some u =>
    let s := { s with up := u }
    if s.deadline.isNone || !s.hasPending o then
      let s := s.clear
      ({ s with port := s.port.give D .complete now }, true)
    else (s, false)

/-- `is_closed`, throttle_time_subscriber.rs:239-245. -/
def isClosed (D : Sub S I E) (s : State S I E) : Bool := D.isClosed s.port.dest || s.up.isClosed

/-- `unsubscribe`, throttle_time_subscriber.rs:247-269. -/
def unsubscribe (D : Sub S I E) (o : Output) (now : Nat) (s : State S I E) : State S I E × Bool :=
  if s.isClosed D then (s, false)
  else
    match s.up.unsubscribe with
    | none => (s.panic, false)
    | some u =>
      let s := { s with up := u }
      if s.deadline.isNone || !s.hasPending o then
        let s := s.clear
        ({ s with port := s.port.give D .unsubscribe now }, true)
      else (s, false)

end Throttle.State

variable {S I E : Type}

/-- `throttle_time`. It has one kind of closure. -/
@[reducible] def throttle (D : Sub S I E) (o : Throttle.Output) (d : Nat) : Client where
  St := Throttle.State S I E
  B := Unit
  In := Input I E
  exec _ t now s :=
    if s.panicked then ((), s, [], .done)
    else
      let r := s.work D o t now
      ((), r.1, s.port.teardown D r.1.port, r.2)
  input i now s :=
    if s.panicked then (s, [])
    else match i with
    | .note n =>
      let s0 := s.arrive n now
      match n with
      -- the destination is notified before the work is scheduled
      | .next v =>
        let r := s0.next D o d v now
        (r.1, s0.port.teardown D r.1.port ++ if r.2 then [.schedule (.newContinuous ())] else [])
      | .error e =>
        let r := s0.error D e now
        (r.1, (if r.2 then [.cancel] else []) ++ s0.port.teardown D r.1.port)
      | .complete =>
        let r := s0.complete D o now
        (r.1, (if r.2 then [.cancel] else []) ++ s0.port.teardown D r.1.port)
      | .unsubscribe =>
        let r := s0.unsubscribe D o now
        (r.1, (if r.2 then [.cancel] else []) ++ s0.port.teardown D r.1.port)
    | .close =>
      let s1 := { s with port := s.port.close D now }
      (s1, s.port.teardown D s1.port)

end Rx.Timed
