import Verif.Model.MergeConcat
import Verif.Spec.HigherOrder

/-!
# Specification vocabulary for `merge` and `concat`
-/

namespace Rx.HigherOrder

variable {I E : Type}

/-- An input that emits everything while it is being subscribed: some values, then it fails or completes. -/
structure Sync (I E : Type) where
  values : List I
  fails : Option E := none
deriving DecidableEq

/-- How it ends. -/
def Sync.ending (p : Sync I E) : SubscriberNotification I E :=
  match p.fails with
  | some e => .error e
  | none => .complete

def Sync.src (p : Sync I E) : Src I E := p.values.map .next ++ [p.ending]

/-- One after the other, until one fails. -/
def playAll : List (Sync I E) → List (SubscriberNotification I E)
  | [] => [.complete]
  | p :: ps => p.values.map .next ++
      match p.fails with
      | some e => [.error e]
      | none => playAll ps

/-- Which input a value comes from. -/
def Log.valueOf : Log I E → Option Nat
  | .out (some a) (.next _) => some a
  | _ => none

/-- Which inputs the values the destination was given come from, in that order. -/
def valuesFrom (l : List (Log I E)) : List Nat := l.filterMap Log.valueOf

/-- No input stops without completing or an error. -/
def NoneStops (inputs : List (Src I E)) (l : List (After I E)) : Prop :=
  (∀ src ∈ inputs, .unsubscribe ∉ src) ∧ ∀ a, .input a .unsubscribe ∉ l

/-- No input fails either, and the whole is not unsubscribed. -/
def AllWell (inputs : List (Src I E)) (l : List (After I E)) : Prop :=
  NoneStops inputs l ∧ (∀ src ∈ inputs, ∀ e, .error e ∉ src) ∧ (∀ a e, .input a (.error e) ∉ l) ∧ .unsubscribe ∉ l

end Rx.HigherOrder
