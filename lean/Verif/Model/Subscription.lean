import Verif.Model.Signals

/-!
# `SubscriptionData` and `Teardown`

Models `crates/rx_core_common/src/subscriptions/{subscription_data,teardown}.rs`.

A teardown closure is identified by a `Nat`; calling it is recorded by returning its id. This model
is of teardowns that do not themselves call back into the subscription that owns them; the
re-entrant case is the subject of `Verif.Model.SharedSubscription`.
-/

namespace Rx

/-- `Teardown { teardown_fn: Option<..> }`, teardown.rs:24-26. `none` is a closed teardown. -/
abbrev Teardown := Option Nat

/-- `Teardown::execute`, teardown.rs:113-117: the closures it calls. -/
def Teardown.execute (t : Teardown) : List Nat := t.toList

/-- `Teardown::take`, teardown.rs:106-108. -/
def Teardown.take (t : Teardown) : Option Nat := t

/-- `Teardown::is_closed`, teardown.rs:120-122. -/
def Teardown.isClosed (t : Teardown) : Bool := t.isNone

/-- `SubscriptionData`, subscription_data.rs:17-20. -/
structure SubscriptionData where
  closed : Bool
  finalizers : List Nat
deriving DecidableEq, Repr

namespace SubscriptionData

/-- `Default`, subscription_data.rs:36-41. -/
def default : SubscriptionData := ⟨false, []⟩

/-- `new_with_teardown`, subscription_data.rs:23-32. -/
def newWithTeardown (t : Teardown) : SubscriptionData :=
  match t.take with
  | some f => ⟨false, [f]⟩
  | none => default

/-- `is_closed`, subscription_data.rs:46-48. -/
def isClosed (s : SubscriptionData) : Bool := s.closed

/-- `unsubscribe`, subscription_data.rs:50-58. Returns the teardowns it calls, in order. -/
def unsubscribe (s : SubscriptionData) : SubscriptionData × List Nat :=
  if !s.isClosed then ({ closed := true, finalizers := [] }, s.finalizers) else (s, [])

/-- `add_teardown`, subscription_data.rs:62-70. -/
def addTeardown (s : SubscriptionData) (t : Teardown) : SubscriptionData × List Nat :=
  if s.isClosed then (s, t.execute)
  else match t.take with
    | some f => ({ s with finalizers := s.finalizers ++ [f] }, [])
    | none => (s, [])

/-- `Drop`, subscription_data.rs:85-89. -/
def drop (s : SubscriptionData) : SubscriptionData × List Nat :=
  if !s.isClosed then s.unsubscribe else (s, [])

end SubscriptionData

/-- The operations a user can perform on a subscription. -/
inductive SubscriptionOp where
  | add (t : Teardown)
  | unsubscribe
  | drop
deriving DecidableEq, Repr

/-- One operation. -/
def SubscriptionData.step (s : SubscriptionData) : SubscriptionOp → SubscriptionData × List Nat
  | .add t => s.addTeardown t
  | .unsubscribe => s.unsubscribe
  | .drop => s.drop

/-- A sequence of operations; returns everything executed, in order. -/
def SubscriptionData.run (s : SubscriptionData) : List SubscriptionOp → SubscriptionData × List Nat
  | [] => (s, [])
  | op :: ops =>
    let r := s.step op
    let r' := r.1.run ops
    (r'.1, r.2 ++ r'.2)

end Rx
