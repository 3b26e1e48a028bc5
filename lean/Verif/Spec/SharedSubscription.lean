import Verif.Model.SharedSubscription

/-!
# What unsubscribing a graph of subscriptions should do
-/

namespace Rx.Graph

/-- `j` can be reached from `k` by following subscriptions that were added to each other. -/
inductive Reach (w : World) : Nat → Nat → Prop where
  | refl (k : Nat) : Reach w k k
  | step {k i j : Nat} : Reach w k i → .unsub j ∈ (w.node i).finalizers → Reach w k j

/-- `j` was added to `k`, or to something added to `k`, and so on, at any time in the history. -/
inductive Linked (ops : List Op) : Nat → Nat → Prop where
  | refl (k : Nat) : Linked ops k k
  | step {k i j : Nat} : Linked ops k i → .addSub i j ∈ ops → Linked ops k j

/-- How often callback `c` was added to subscription `k`. -/
def added (k c : Nat) (ops : List Op) : Nat := ops.count (.addCall k c)

/-- How often callback `c`, added to `k`, was called. -/
def called (k c : Nat) (w : World) : Nat := w.log.count (k, c)

/-- All subscriptions mentioned are among the first `n`. -/
def Below (n : Nat) : Op → Prop
  | .addCall k _ => k < n
  | .addSub k j => k < n ∧ j < n
  | .unsub k => k < n

end Rx.Graph
