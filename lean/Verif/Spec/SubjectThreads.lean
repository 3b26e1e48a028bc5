import Verif.Spec.SharedClosing
import Verif.Model.SubjectThreads

/-!
# Reading runs of several threads that share a subject

`Dest.Contract` (Spec/SharedClosing.lean) is what is assumed of subscribers.
-/

namespace Rx.Crowd

open Closing (Dest)

variable {S I E : Type}

/-- What subscriber `i` was called with, in order. -/
def givesTo (i : Nat) (tr : List (Mark I E)) : List (SubscriberNotification I E) :=
  tr.filterMap fun m => match m with | .give _ j n => if j = i then some n else none | _ => none

/-- The values among them, with the numbers of the calls of `next`. -/
def valuesTo (i : Nat) (tr : List (Mark I E)) : List (Nat × I) :=
  tr.filterMap fun m => match m with | .give k j (.next v) => if j = i then some (k, v) else none | _ => none

/-- The values among calls, with the numbers of the calls. -/
def nexts (l : List (Call I E)) : List (Nat × I) :=
  l.filterMap fun c => match c.op with | .next v => some (c.id, v) | _ => none

/-- Subscriber `i` after all that. -/
def afterTo (D : Dest S I E) (s : Nat → S) (i : Nat) (tr : List (Mark I E)) : S :=
  (givesTo i tr).foldl D.push (s i)

/-- Call `j` had returned when call `k` had not begun. -/
def Before (tr : List (Mark I E)) (j k : Nat) : Prop :=
  ∃ a b, tr = a ++ b ∧ .ret j ∈ a ∧ ∀ t op, .call k t op ∉ a

/-- A call that ends the subject (`error`, `complete`, `unsubscribe`) has begun. -/
def Ending (tr : List (Mark I E)) : Prop := ∃ j t op, .call j t op ∈ tr ∧ op.isClosing = true

/-- What may make subscriber `i` be called with this on behalf of call `k`, a call of `op`. -/
def Reason (tr : List (Mark I E)) (k i : Nat) (op : Op I E) : SubscriberNotification I E → Prop
  | .next v => op = .next v
  | .error e => op = .error e ∨ (op = .subscribe ∧ k = i ∧ ∃ j t, .call j t (.error e) ∈ tr)
  | .complete => op = .complete ∨ (op = .subscribe ∧ k = i ∧ ∃ j t, .call j t .complete ∈ tr)
  | .unsubscribe => op = .unsubscribe ∨ op = .cancel i ∨ (op = .subscribe ∧ k = i ∧ Ending tr)

/-- A call that ends the subject had begun when call `k` had not returned. -/
def Excused (tr : List (Mark I E)) (k : Nat) : Prop := ∃ a b, tr = a ++ b ∧ .ret k ∉ a ∧ Ending a

/-- A call that ends the subject had returned when call `k` had not begun. -/
def Late (tr : List (Mark I E)) (k : Nat) : Prop :=
  ∃ j t op, .call j t op ∈ tr ∧ op.isClosing = true ∧ Before tr j k

/-- No call that ends the subject was made while call `i` was going on. -/
def Undisturbed (tr : List (Mark I E)) (i : Nat) : Prop :=
  ∀ j t op, .call j t op ∈ tr → op.isClosing = true → Before tr i j ∨ Before tr j i

/-- A call that ends the subject has returned. -/
def Ended (tr : List (Mark I E)) : Prop :=
  ∃ j t op, .call j t op ∈ tr ∧ op.isClosing = true ∧ .ret j ∈ tr

/-- The thread has the mutex of the set of subscribers: it is calling them, or about to, or just was. -/
def PC.holds : PC I E → Bool
  | .top _ _ | .deliver _ _ | .marking _ _ _ | .sealing _ | .give _ | .unlock _ => true
  | _ => false

/-- No thread is inside a call. -/
def AtRest (x : State S I E) : Prop := ∀ t, (x.pc t).isIdle = true

/-- A new subject, and the subscribers that may be subscribed to it: `s k` is the one passed to call `k`, if
that is a call of `subscribe`. -/
def init (s : Nat → S) : State S I E := { dests := s }

end Rx.Crowd
