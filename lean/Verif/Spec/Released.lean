import Verif.Spec.Timed

/-!
# No work is left behind

What the executor holds for an operator (or a source), and what an upstream may do for its operator to be released.
-/

namespace Rx.Sched

/-- The executor holds nothing of the operator: no active work is under its cancellation id, or has one of its closures, and
none of the requests in the queue is to activate work for it; nor has it any invoked work. -/
structure Released {c : Client} (R : Rest c) (e : Exec R.env) : Prop where
  active : ∀ p ∈ e.active, p.1 ∉ e.cancellationMap ownCid ∧ ∃ v : Work R.B, p.2 = v.map .inr
  queue : ∀ uid w, .activate ownCid uid w ∉ e.world.sched.queue
  invokable : ∀ i w, e.invokable i = some w → ∃ v : Work R.B, w = v.map .inr

end Rx.Sched

namespace Rx.Timed
variable {S I O E : Type}

/-- No value arrives when the destination is closed: this is how an upstream behaves that asks `is_closed` first. -/
def Considerate (D : Sub S O E) (s : S) (past : Line I O E) (m : Mark I O E × Nat) : Prop :=
  ∀ v, m.1 = .arrived (.next v) → D.isClosed (fed D s past) = false

end Rx.Timed
