import Verif.Model.CachingSubjects
import Verif.Spec.PublishSubject

/-!
# What subjects that remember values must do
-/

namespace Rx.Caching

open Rx.Publish (window endOf)

variable {S I E : Type}

/-- The values among some notifications. -/
def valuesOf : List (SubscriberNotification I E) → List I
  | [] => []
  | .next v :: ns => v :: valuesOf ns
  | _ :: ns => valuesOf ns

/-- All values sent. -/
def values (ops : List (Publish.Op S I E)) : List I := valuesOf (ops.filterMap Publish.Op.sent)

/-- The values sent before the subject ended. -/
def openValues (ops : List (Publish.Op S I E)) : List I :=
  valuesOf ((ops.filterMap Publish.Op.sent).takeWhile fun n => !n.isClosing)

/-- What subscriber `k` should get if it is subscribed between `a` and `b`, apart from what is replayed. -/
def later (k : Nat) (a b : List (Publish.Op S I E)) : List (SubscriberNotification I E) :=
  match endOf a with
  | none => window k b
  | some n => [n]

/-- The last `n` elements. -/
def lastN (n : Nat) (vs : List I) : List I := vs.drop (vs.length - n)

/-- The reduction of the values, if there are any. -/
def reduction (f : I → I → I) : List I → Option I
  | [] => none
  | v :: vs => some (vs.foldl f v)

/-- What a subscriber of an async subject should see if `vs` was sent before it subscribed and `ns` until it
was unsubscribed or the subject ended. -/
def onCompletion (f : I → I → I) (vs : List I) (ns : List (SubscriberNotification I E)) :
    List (ObserverNotification I E) :=
  match ns.find? (·.isClosing) with
  | some .complete => (reduction f (vs ++ valuesOf ns)).toList.map .next ++ [.complete]
  | some (.error e) => [.error e]
  | _ => []

end Rx.Caching

namespace Rx.Caching.Provenance

variable {P I E : Type} [DecidableEq P]

/-- Values sent with provenance `p`, and everything else. -/
def isFrom (p : P) : SubscriberNotification (I × P) E → Bool
  | .next v => v.2 == p
  | _ => true

/-- Without the provenance. -/
def stripped : SubscriberNotification (I × P) E → SubscriberNotification I E
  | .next v => .next v.1
  | .error e => .error e
  | .complete => .complete
  | .unsubscribe => .unsubscribe

/-- What an observer subscribed in this way should see, if `r` is replayed to it and `ns` is sent later. -/
def wanted (r : Option (I × P)) (ns : List (SubscriberNotification (I × P) E)) :
    (k : Kind P) → List (ObserverNotification (Out P I k) E)
  | .direct => (r.toList.map SubscriberNotification.next ++ ns).filterMap Publish.asObserved
  | .all => ((r.toList.map SubscriberNotification.next ++ ns).map stripped).filterMap Publish.asObserved
  | .only p => (((r.toList.map SubscriberNotification.next ++ ns).filter (isFrom p)).map stripped).filterMap Publish.asObserved
  | .replayThen p => ((r.toList.map SubscriberNotification.next ++ ns.filter (isFrom p)).map stripped).filterMap Publish.asObserved

end Rx.Caching.Provenance
