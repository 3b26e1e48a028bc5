import Verif.Model.Recovery
import Verif.Spec.HigherOrder

/-!
# What `catch` should do
-/

namespace Rx.Catch
open Rx.HigherOrder

variable {S I E F : Type}

/-- What the source notifies. -/
def sourceNotes (es : List (Event I E F)) : List (SubscriberNotification I E) :=
  es.filterMap fun
    | .source n => some n
    | .recovery _ => none

/-- The source notifies nothing after it has ended; unsubscribing may be repeated. -/
def Conforming : List (SubscriberNotification I E) → Prop
  | [] => True
  | n :: ns => (n.isTerminal = true → ∀ m ∈ ns, m = .unsubscribe) ∧ Conforming ns

/-- What the destination should be notified: what the source notifies, up to an error, and from then on what the
recovery observable made from the error notifies. -/
def expected (f : E → Src I F) : List (Event I E F) → List (SubscriberNotification I F)
  | [] => []
  | .source (.next v) :: es => .next v :: expected f es
  | .source .complete :: _ => [.complete]
  | .source .unsubscribe :: _ => [.unsubscribe]
  | .source (.error e) :: es => f e ++ recovering es
  | .recovery _ :: es => expected f es
where
  recovering : List (Event I E F) → List (SubscriberNotification I F)
    | [] => []
    | .source .unsubscribe :: _ => [.unsubscribe]
    | .source _ :: es => recovering es
    | .recovery n :: es => n :: recovering es

/-- A subscriber is notified until it is closed. -/
def feed (D : Sub S I F) (s : S) : List (SubscriberNotification I F) → S
  | [] => s
  | n :: ns => if D.isClosed s then s else feed D (D.push s n) ns

end Rx.Catch
