import Verif.Model.SubscriptionDrops

/-!
# One subscription behind many handles: what histories say
-/

namespace Rx.SubscriptionDrops

open Rx.Panics (Data)

/-- What a history that starts with `k` handles means for a subscription without handles: it is dropped with the last, and
cloning and the other drops are nothing to it. -/
def asOne : Nat → List Op → List (Option SubscriptionOp)
  | _, [] => []
  | 0, _ :: ops => none :: asOne 0 ops
  | k + 1, .clone :: ops => none :: asOne (k + 2) ops
  | k + 1, .add t :: ops => some (.add t) :: asOne (k + 1) ops
  | k + 1, .unsubscribe :: ops => some .unsubscribe :: asOne (k + 1) ops
  | 1, .drop :: ops => some .drop :: asOne 0 ops
  | k + 2, .drop :: ops => none :: asOne (k + 1) ops

/-- Whether a call panics, for each thing in the history; nothing does not. -/
def panicsOf (bad : Nat → Bool) (x : Data) : List (Option SubscriptionOp) → List Bool
  | [] => []
  | none :: ops => false :: panicsOf bad x ops
  | some op :: ops => (x.step bad op).panicked :: panicsOf bad (x.step bad op).st ops

/-- How many handles there are after a history that starts with `k`. -/
def held : Nat → List Op → Nat
  | k, [] => k
  | 0, _ :: ops => held 0 ops
  | k + 1, .clone :: ops => held (k + 2) ops
  | k + 1, .drop :: ops => held k ops
  | k + 1, _ :: ops => held (k + 1) ops

/-- The history, as that of a subscription without handles. -/
def plain (ops : List Op) : List SubscriptionOp := (asOne 1 ops).filterMap id

end Rx.SubscriptionDrops
