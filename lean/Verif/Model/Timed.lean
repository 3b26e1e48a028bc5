import Verif.Model.SchedulerClient
import Verif.Model.Operators

/-!
# delay, debounce_time, observe_on

Models `crates/rx_core_operator_{delay,debounce_time,observe_on}/src/*_subscriber.rs` as operators on the executor
(`Verif.Model.SchedulerClient`).

Simplifications, on top of those of `Verif.Model.SchedulerClient`: the shared destination is the destination
(`SharedSubscriber` is C25 and C26), and `scheduled_work_counter` does not overflow when it is increased.
When the destination closes, its teardowns run (C03); one of them, added by `new`, cancels the operator's work
(`Teardown::new_work_cancellation`, teardown.rs:61-66). `Drop` of the operator is `unsubscribe`.
-/

namespace Rx.Timed
open Rx.Sched

/-- What happens at an operator: upstream notifies it, it notifies its destination, or its destination is closed
by somebody else. -/
inductive Mark (I O E : Type) where
  | arrived (n : SubscriberNotification I E)
  | out (n : SubscriberNotification O E)
  | closed
deriving DecidableEq, Repr

/-- The destination, with a ghost record of what happened, and when. -/
structure Port (S I O E : Type) where
  dest : S
  trace : List (Mark I O E × Nat) := []

namespace Port
variable {S I O E : Type}

/-- Ghost. -/
def mark (m : Mark I O E) (now : Nat) (p : Port S I O E) : Port S I O E := { p with trace := p.trace ++ [(m, now)] }

/-- Notifying the destination, unless it is closed (all these calls are guarded by, or go through
`SharedSubscriber` which checks, `is_closed`; subscriber_shared.rs:325-392). -/
def give (D : Sub S O E) (n : SubscriberNotification O E) (now : Nat) (p : Port S I O E) : Port S I O E :=
  if D.isClosed p.dest then p else ({ p with dest := D.push p.dest n }.mark (.out n) now)

/-- Somebody else closes the destination. -/
def close (D : Sub S O E) (now : Nat) (p : Port S I O E) : Port S I O E :=
  if D.isClosed p.dest then p else ({ p with dest := D.unsubscribe p.dest }.mark .closed now)

/-- The teardown of the destination: has it closed, then the operator's work is cancelled. -/
def teardown {B : Type} (D : Sub S O E) (p p' : Port S I O E) : List (Req B) :=
  if !D.isClosed p.dest && D.isClosed p'.dest then [.cancel] else []

end Port

/-- What can be done to an operator. -/
inductive Input (I E : Type) where
  /-- upstream calls it (`unsubscribe` is also what unsubscribing the subscription does) -/
  | note (n : SubscriberNotification I E)
  /-- its destination is closed by somebody else -/
  | close

/-- `AtomicUsize::fetch_sub(1)`. -/
def fetchSub (n : Nat) : Nat := if n = 0 then usizeMax else n - 1

/-- The state of the three operators: delay_subscriber.rs:20-33, debounce_time_subscriber.rs:20-33,
observe_on_subscriber.rs:17-29. -/
structure State (S I E : Type) where
  port : Port S I I E
  completed : Bool := false
  unsubscribed : Bool := false
  counter : Nat := 0

variable {S I E : Type}

/-- The end of the closures of all three, given the counter before: delay_subscriber.rs:85-100,
debounce_time_subscriber.rs:87-102, observe_on_subscriber.rs:76-91. -/
def State.finish (D : Sub S I E) (prev now : Nat) (s : State S I E) : State S I E :=
  if s.completed && prev == 1 && !D.isClosed s.port.dest then { s with port := s.port.give D .complete now }
  else if s.unsubscribed && prev == 1 && !D.isClosed s.port.dest then
    { s with port := s.port.give D .unsubscribe now }
  else s

/-- `complete` of delay (delay_subscriber.rs:116-125), debounce (debounce_time_subscriber.rs:118-127), and observe_on
(observe_on_subscriber.rs:104-111) without its extra work. -/
def State.complete (D : Sub S I E) (now : Nat) (s : State S I E) : State S I E :=
  let s := { s with completed := true, unsubscribed := true }
  if s.counter = 0 then { s with port := s.port.give D .complete now } else s

/-- `error` of delay (delay_subscriber.rs:108-113) and debounce (debounce_time_subscriber.rs:110-115), without the
cancellation. -/
def State.error (D : Sub S I E) (e : E) (now : Nat) (s : State S I E) : State S I E :=
  { s with unsubscribed := true, counter := 0, port := s.port.give D (.error e) now }

/-- `unsubscribe` of delay (delay_subscriber.rs:138-148), debounce (debounce_time_subscriber.rs:140-150) and
observe_on (observe_on_subscriber.rs:135-145), given `is_closed` (delay 134-136, debounce 136-138, observe_on
131-133). -/
def State.unsubscribe (D : Sub S I E) (isClosed : Bool) (now : Nat) (s : State S I E) : State S I E :=
  if isClosed then s
  else
    let s := { s with unsubscribed := true }
    if s.counter = 0 then { s with port := s.port.give D .unsubscribe now } else s

/-- Ghost: the arrival is recorded first. -/
def State.arrive (m : Mark I I E) (now : Nat) (s : State S I E) : State S I E :=
  { s with port := s.port.mark m now }

/-- `delay(d)`. A closure is the value it captured. -/
@[reducible] def delay (D : Sub S I E) (d : Nat) : Client where
  St := State S I E
  B := I
  In := Input I E
  -- delay_subscriber.rs:76-101
  exec v _ now s :=
    let s1 := { s with port := s.port.give D (.next v) now, counter := fetchSub s.counter }
    let s2 := s1.finish D s.counter now
    (v, s2, s.port.teardown D s2.port, .done)
  input i now s :=
    match i with
    | .note n =>
      let s0 := s.arrive (.arrived n) now
      match n with
      -- delay_subscriber.rs:68-105
      | .next v => ({ s0 with counter := s0.counter + 1 }, [.schedule (.newDelayed v d)])
      | .error e =>
        let s1 := s0.error D e now
        (s1, .cancel :: s0.port.teardown D s1.port)
      | .complete =>
        let s1 := s0.complete D now
        (s1, s0.port.teardown D s1.port)
      | .unsubscribe =>
        let s1 := s0.unsubscribe D (D.isClosed s0.port.dest || s0.unsubscribed) now
        (s1, s0.port.teardown D s1.port)
    | .close =>
      let s1 := { s with port := s.port.close D now }
      (s1, s.port.teardown D s1.port)

/-- `debounce_time(d)`. -/
@[reducible] def debounce (D : Sub S I E) (d : Nat) : Client where
  St := State S I E
  B := I
  In := Input I E
  -- debounce_time_subscriber.rs:78-103
  exec v _ now s :=
    let s1 := { s with port := s.port.give D (.next v) now, counter := 0 }
    let s2 := s1.finish D s.counter now
    (v, s2, s.port.teardown D s2.port, .done)
  input i now s :=
    match i with
    | .note n =>
      let s0 := s.arrive (.arrived n) now
      match n with
      -- debounce_time_subscriber.rs:68-107
      | .next v => ({ s0 with counter := 1 }, [.cancel, .schedule (.newDelayed v d)])
      | .error e =>
        let s1 := s0.error D e now
        (s1, .cancel :: s0.port.teardown D s1.port)
      | .complete =>
        let s1 := s0.complete D now
        (s1, s0.port.teardown D s1.port)
      | .unsubscribe =>
        let s1 := s0.unsubscribe D (D.isClosed s0.port.dest || s0.unsubscribed) now
        (s1, s0.port.teardown D s1.port)
    | .close =>
      let s1 := { s with port := s.port.close D now }
      (s1, s.port.teardown D s1.port)

/-- The closures of `observe_on`: `none` is the one of observe_on_subscriber.rs:115-120. -/
abbrev ObserveOn.Body (I : Type) := Option I

/-- `observe_on`. -/
@[reducible] def observeOn (D : Sub S I E) : Client where
  St := State S I E
  B := ObserveOn.Body I
  In := Input I E
  exec b _ now s :=
    match b with
    -- observe_on_subscriber.rs:67-92
    | some v =>
      let s1 := { s with port := s.port.give D (.next v) now, counter := fetchSub s.counter }
      let s2 := s1.finish D s.counter now
      (b, s2, s.port.teardown D s2.port, .done)
    -- observe_on_subscriber.rs:116-118
    | none => (b, { s with counter := fetchSub s.counter }, [], .done)
  input i now s :=
    match i with
    | .note n =>
      let s0 := s.arrive (.arrived n) now
      match n with
      -- observe_on_subscriber.rs:59-95
      | .next v => ({ s0 with counter := s0.counter + 1 }, [.schedule (.newImmediate (some v))])
      -- observe_on_subscriber.rs:98-101
      | .error e =>
        let s1 := { s0 with unsubscribed := true, port := s0.port.give D (.error e) now }
        (s1, s0.port.teardown D s1.port)
      -- observe_on_subscriber.rs:104-122
      | .complete =>
        let s1 := s0.complete D now
        (s1, (if s0.counter = 0 then [] else [.schedule (.newImmediate none)]) ++ s0.port.teardown D s1.port)
      | .unsubscribe =>
        let s1 := s0.unsubscribe D (D.isClosed s0.port.dest) now
        (s1, s0.port.teardown D s1.port)
    | .close =>
      let s1 := { s with port := s.port.close D now }
      (s1, s.port.teardown D s1.port)

end Rx.Timed
