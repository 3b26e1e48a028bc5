import Verif.Model.Testing

/-!
# What tests are told
-/

namespace Rx.Testing

variable {I E : Type}

/-- The collector, after a history was recorded. -/
def recorded (l : List (SubscriberNotification I E)) : Collector I E := l.foldl Collector.push {}

/-- A history up to and including the first `unsubscribe`. -/
def upToUnsubscribe : List (SubscriberNotification I E) → List (SubscriberNotification I E)
  | [] => []
  | .unsubscribe :: _ => [.unsubscribe]
  | n :: l => n :: upToUnsubscribe l

/-- What comes after the first `unsubscribe`. -/
def behindUnsubscribe : List (SubscriberNotification I E) → List (SubscriberNotification I E)
  | [] => []
  | .unsubscribe :: l => l
  | _ :: l => behindUnsubscribe l

/-- This closes the `i`-th observer. -/
def MockOp.closes (i : Nat) : MockOp I E → Bool
  | .note k n => k == i && n.isClosing
  | .addTeardown _ _ => false
  | .drop k => k == i

/-- What the collector of mock observers is to record, if `before` was done before: every notification that any of them is given,
and that one is unsubscribed when it is dropped without having been closed. -/
def toRecord (before : List (MockOp I E)) : List (MockOp I E) → List (SubscriberNotification I E)
  | [] => []
  | op :: l =>
    (match op with
      | .note _ n => [n]
      | .addTeardown _ _ => []
      | .drop i => if before.any (MockOp.closes i) then [] else [.unsubscribe]) ++ toRecord (before ++ [op]) l

/-- The teardowns given to the `i`-th. -/
def teardownsOf (i : Nat) (l : List (MockOp I E)) : List Nat :=
  l.flatMap fun op => match op with
    | .addTeardown k t => if k = i then t.toList else []
    | _ => []

/-- The values of `next` calls on the `i`-th iterator. -/
def nexts (i : Nat) (l : List (TrackOp α)) : Nat :=
  l.countP fun op => match op with | .next k => k == i | _ => false

end Rx.Testing
