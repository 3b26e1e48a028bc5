import Verif.Model.Operators
import Verif.Spec.Operators

/-!
# What a user observes through one operator
-/

namespace Rx

variable {I E O F : Type}

/-- Subscribe an operator to a fresh observer, feed it a history, and look at what the observer was
called with. -/
def observe (P : OpImpl I E O F) (h : Hist I E) : List (ObserverNotification O F) :=
  ((P.sub (observerSubscriber O F)).run (P.init (observerSubscriber O F) ObsState.new) h.notes).2.seen

/-- Whether the operator's subscription is closed after the history. -/
def closedAfter (P : OpImpl I E O F) (h : Hist I E) : Bool :=
  (P.sub (observerSubscriber O F)).isClosed
    ((P.sub (observerSubscriber O F)).run (P.init (observerSubscriber O F) ObsState.new) h.notes)

/-- A history that ended (by a terminal signal or by unsubscription). -/
def Hist.ended (h : Hist I E) : Bool := h.term.isSome || h.unsub

/-- The terminal signal as a (possibly empty) list of notifications. -/
def Hist.termSeen (h : Hist I E) : List (ObserverNotification O E) :=
  (h.term.map Spec.termNotification).toList

end Rx
