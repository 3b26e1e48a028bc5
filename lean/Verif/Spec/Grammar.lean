import Verif.Model.Signals

/-!
# The Rx grammar

Independent specification of what a well-formed notification sequence is, as stated in
`docs/contracts.md` and subscriber_state.rs:271-274: zero or more Next, then up to one Error or
Complete, then finally an Unsubscribe, then nothing else.
-/

namespace Rx

/-- How a stream can end. -/
inductive Term (E : Type) where
  | error (e : E)
  | complete
deriving DecidableEq, Repr

/-- A well-formed history of one stream: its values, its terminal signal if it had one, and
whether it was unsubscribed (afterwards). -/
structure Hist (I E : Type) where
  vals : List I
  term : Option (Term E)
  unsub : Bool
deriving DecidableEq, Repr

/-- The terminal signal as a notification. -/
def Term.note {I E : Type} : Term E → SubscriberNotification I E
  | .error e => .error e
  | .complete => .complete

/-- The notification sequence of a history. -/
def Hist.notes {I E : Type} (h : Hist I E) : List (SubscriberNotification I E) :=
  h.vals.map .next ++ (h.term.map Term.note).toList ++ (if h.unsub then [.unsubscribe] else [])

/-- `Next* (Error|Complete)? Unsubscribe?` -/
def RxGrammar {I E : Type} (ns : List (SubscriberNotification I E)) : Prop :=
  ∃ h : Hist I E, ns = h.notes

/-- What an observer may see: `Next* (Error|Complete)?`. -/
def ObserverGrammar {I E : Type} (ns : List (ObserverNotification I E)) : Prop :=
  ∃ (vs : List I) (t : Option (ObserverTerminalNotification E)),
    ns = vs.map .next ++ (t.map ObserverNotification.ofTerminal).toList

end Rx
