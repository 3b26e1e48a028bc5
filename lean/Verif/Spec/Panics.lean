import Verif.Model.Panics

/-!
# What panics leave behind
-/

namespace Rx.Panics

/-- The teardowns up to and including the first that panics. -/
def upToPanic (bad : Nat → Bool) (ts : List Nat) : List Nat :=
  ts.takeWhile (fun t => !bad t) ++ (ts.dropWhile fun t => !bad t).take 1

/-- The teardowns behind the first that panics. -/
def behindPanic (bad : Nat → Bool) (ts : List Nat) : List Nat := (ts.dropWhile fun t => !bad t).drop 1

/-- The closures handed over. -/
def handedOver {I E : Type} (ops : List (Lock.Op I E)) : List Nat :=
  ops.filterMap fun | .call (.addTeardown t) => t | _ => none

/-- A call on the destination itself. -/
def Fragile.call {S I E : Type} (D : Fragile S I E) (s : S) : Call I E → Out S
  | .note n => D.push s n
  | .addTeardown t => D.addTeardown s t

/-- The same subscribers, if they did not panic. -/
def Fragile.steady {S I E : Type} (D : Fragile S I E) : Publish.Dest S I E := ⟨fun s n => .done (D.push s n).st, D.isClosed⟩

/-- The same destination, if it did not panic. -/
def Handling.steady {S I E : Type} : Handling S I E → React S I E
  | .done s => .done s
  | .panic s => .done s
  | .call n k => .call n k.steady
  | .isClosed k => .isClosed fun b => (k b).steady

/-- The same destination, if it did not panic. -/
def Touchy.steady {S I E : Type} (R : Touchy S I E) : ReDest S I E := ⟨fun s n => (R.push s n).steady, R.isClosed⟩

/-- However the handling ends, `p` holds of the state it leaves. -/
def Handling.Leaves {S I E : Type} (p : S → Prop) : Handling S I E → Prop
  | .done s => p s
  | .panic s => p s
  | .call _ k => k.Leaves p
  | .isClosed k => ∀ b, (k b).Leaves p

/-- What subscriber `i` was given. -/
def givenTo {I E : Type} (i : Nat) (log : List (Nat × Nat × SubscriberNotification I E)) : List (SubscriberNotification I E) :=
  log.filterMap fun x => if x.2.1 = i then some x.2.2 else none

/-- The last notification that was given to a subscriber made that subscriber panic. -/
def Blames {S I E : Type} (D : Fragile S I E) (y : Publish.State S I E) : Prop :=
  ∃ a t i n s, y.log = a ++ [(t, i, n)] ∧ (D.push s n).panicked = true ∧ y.dest i = (D.push s n).st

end Rx.Panics
