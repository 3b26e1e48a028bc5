import Verif.Model.HigherOrder

/-!
# Specification vocabulary for higher-order operators

Everything is read off the history (`Event`s) and the log of what the operator did.
-/

namespace Rx.HigherOrder

variable {I E : Type}

def Log.asSub : Log I E → Option Nat
  | .sub a => some a
  | _ => none

def Log.asDone : Log I E → Option Nat
  | .done a => some a
  | _ => none

def Log.asOut : Log I E → Option (SubscriberNotification I E)
  | .out _ n => some n
  | _ => none

/-- The inner observables subscribed, in that order. -/
def subsOf (l : List (Log I E)) : List Nat := l.filterMap Log.asSub

/-- The inner observables that ended, in that order. -/
def donesOf (l : List (Log I E)) : List Nat := l.filterMap Log.asDone

/-- What the destination was given. -/
def outsOf (l : List (Log I E)) : List (SubscriberNotification I E) := l.filterMap Log.asOut

/-- The inner observables that are subscribed and have not ended. -/
def live (l : List (Log I E)) : List Nat := (subsOf l).filter fun a => !(donesOf l).contains a

/-- What the outer observable sent. -/
def outerNotes (es : List (Event I E)) : List (SubscriberNotification (Src I E) E) :=
  es.filterMap fun
    | .outer n => some n
    | .inner _ _ => none

/-- The number of inner observables that arrived. -/
def arrivals (es : List (Event I E)) : Nat := ((outerNotes es).filter fun
  | .next _ => true
  | _ => false).length

/-- The outer observable sends nothing after `error` or `complete` (it may be unsubscribed). -/
def Conforming : List (SubscriberNotification (Src I E) E) → Prop
  | [] => True
  | n :: ns => (n.isTerminal = true → ∀ m ∈ ns, m = .unsubscribe) ∧ Conforming ns

/-- Which notifications an event may bring, at once or, for an inner observable, when it is subscribed. -/
def Event.Only (ok : SubscriberNotification I E → Prop) : Event I E → Prop
  | .outer (.next src) => ∀ n ∈ src, ok n
  | .outer _ => True
  | .inner _ n => ok n

/-- No inner observable stops without completing or an error. -/
def Tidy (es : List (Event I E)) : Prop := ∀ e ∈ es, e.Only (· ≠ .unsubscribe)

/-- Nothing fails or is unsubscribed. -/
def Clean (es : List (Event I E)) : Prop :=
  (∀ e ∈ es, e.Only fun n => n ≠ .unsubscribe ∧ ∀ f, n ≠ .error f) ∧
    ∀ n ∈ outerNotes es, n ≠ .unsubscribe ∧ ∀ f, n ≠ .error f

/-- Told to close, the destination is closed. -/
def Closes {S : Type} (D : Sub S I E) : Prop :=
  ∀ (s : S) (n : SubscriberNotification I E), n.isClosing = true → D.isClosed (D.push s n) = true

/-- The destination does not close on values. -/
def Patient {S : Type} (D : Sub S I E) : Prop :=
  ∀ (s : S) (v : I), D.isClosed s = false → D.isClosed (D.next s v) = false

end Rx.HigherOrder
