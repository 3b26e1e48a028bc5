import Verif.Model.Retry
import Verif.Spec.Recovery

/-!
# What `retry` should do
-/

namespace Rx.Retry

variable {S I E : Type}

/-- Attempts made. -/
def subsOf (l : List (Log I E)) : List Nat :=
  l.filterMap fun
    | .sub a => some a
    | _ => none

/-- Attempts that have ended. -/
def donesOf (l : List (Log I E)) : List Nat :=
  l.filterMap fun
    | .done a => some a
    | _ => none

/-- Attempts going on. -/
def live (l : List (Log I E)) : List Nat := (subsOf l).filter fun a => a ∉ donesOf l

/-- What a source notifies: values, and possibly how it ends. -/
def outcome : List (SubscriberNotification I E) → List I × Option (SubscriberNotification I E)
  | [] => ([], none)
  | .next v :: ns => (v :: (outcome ns).1, (outcome ns).2)
  | t :: _ => ([], some t)

/-- How far things are: what the destination should have been notified, the attempt going on, the number of attempts. -/
structure Ideal (I E : Type) where
  out : List (SubscriberNotification I E)
  current : Option Nat
  made : Nat
deriving DecidableEq, Repr

/-- The source is subscribed for the `k`-th time, and again if it fails, while `left` retries are left. -/
def Ideal.start (src : Source I E) : (left k : Nat) → Ideal I E
  | left, k =>
    match outcome (src k) with
    | (vs, none) => ⟨vs.map .next, some k, k + 1⟩
    | (vs, some (.error e)) =>
      match left with
      | 0 => ⟨vs.map .next ++ [.error e], none, k + 1⟩
      | left + 1 => { start src left (k + 1) with out := vs.map .next ++ (start src left (k + 1)).out }
    | (vs, some t) => ⟨vs.map .next ++ [t], none, k + 1⟩

/-- Then, what happens to the attempt going on. -/
def Ideal.step (max : Nat) (src : Source I E) (i : Ideal I E) : Event I E → Ideal I E
  | .source a n =>
    if i.current = some a then
      match n with
      | .next v => { i with out := i.out ++ [.next v] }
      | .error e =>
        if a < max then
          { Ideal.start src (max - (a + 1)) (a + 1) with
            out := i.out ++ (Ideal.start src (max - (a + 1)) (a + 1)).out }
        else { i with out := i.out ++ [.error e], current := none }
      | t => { i with out := i.out ++ [t], current := none }
    else i
  | .unsubscribe =>
    if i.current.isSome then { i with out := i.out ++ [.unsubscribe], current := none } else i

/-- What `retry(max)` should do. -/
def ideal (max : Nat) (src : Source I E) (es : List (Event I E)) : Ideal I E :=
  es.foldl (Ideal.step max src) (Ideal.start src max 0)

end Rx.Retry
