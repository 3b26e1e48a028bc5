import Verif.Model.Share
import Verif.Spec.HigherOrder

/-! What is said of `share`. -/

namespace Rx.Share
open Rx.HigherOrder (Patient)

variable {S I E : Type}

namespace State

/-- A subscription to the source that is open. -/
def Open (x : State S I E) (j : Nat) : Prop := j < x.sources ∧ x.isClosed j = false

/-- A subscriber that is open: the connector has it, and it is not closed. -/
def Subscribed (c : Cfg S I E) (x : State S I E) (i : Nat) : Prop :=
  i < x.size ∧ x.member i = true ∧ c.D.isClosed (x.dest i) = false

/-- The order in which a connector notifies its subscribers has all of them. -/
def _root_.Rx.Share.Cfg.Fair (c : Cfg S I E) : Prop := ∀ l, (c.ord l).Perm l

/-- The last notification of the source. -/
def IsEnd (n : SubscriberNotification I E) : Prop := n = .complete ∨ ∃ e, n = .error e

/-- Whether the connector is replaced then. -/
def _root_.Rx.Share.Cfg.resets (c : Cfg S I E) : SubscriberNotification I E → Bool
  | .complete => c.resetOnComplete
  | .error _ => c.resetOnError
  | _ => false

/-- Nobody closes on a value that the source gives while it is subscribed to; and if it ends then, the connector is kept. -/
def _root_.Rx.Share.Cfg.Mild (c : Cfg S I E) : Prop := ∀ j, ∀ n ∈ c.script j, c.resets n = false ∧
  ∀ v, n = .next v → ∀ s, c.D.isClosed s = false → c.D.isClosed (c.D.next s v) = false

/-- Asking the subscription never blocks, or nobody closes on a value. -/
def _root_.Rx.Share.Cfg.Free (c : Cfg S I E) : Prop := c.blocks = false ∨ Patient c.D

/-- What a user of `share` does who leaves the connection to it, and a source that does not unsubscribe its subscriber. -/
def _root_.Rx.Share.Op.Plain : Op S I E → Prop
  | .subscribe _ _ | .unsubscribe _ | .connect _ | .link => True
  | .emit _ n => n ≠ .unsubscribe
  | .disconnect _ | .attach _ | .unlink | .reset => False

/-- What a user of `share` does who never connects it but by subscribing; the source does not end in a way that makes a new
connector. -/
def _root_.Rx.Share.Op.Calm (c : Cfg S I E) : Op S I E → Prop
  | .subscribe _ s | .attach s => c.D.isClosed s = false
  | .unsubscribe _ | .disconnect _ | .unlink => True
  | .emit _ n => c.resets n = false
  | .connect _ | .link | .reset => False

end State
end Rx.Share
