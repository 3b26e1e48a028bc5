import Verif.Model.Subscription

/-!
# Subscriptions that may be absent

Models `OptionSubscription` (`crates/rx_core_common/src/subscriptions/subscription_option.rs`) and subscribing to an `Option` of an
observable (`crates/rx_core_common/src/observables/option_observable.rs`): `None` is not subscribed to, the destination is dropped.
-/

namespace Rx

/-- A subscription of any kind: its functions return the teardowns they call. -/
structure AnySubscription (S : Type) where
  isClosed : S → Bool
  unsubscribe : S → S × List Nat
  addTeardown : S → Teardown → S × List Nat
  drop : S → S × List Nat

namespace AnySubscription
variable {S : Type}

def step (A : AnySubscription S) (s : S) : SubscriptionOp → S × List Nat
  | .add t => A.addTeardown s t
  | .unsubscribe => A.unsubscribe s
  | .drop => A.drop s

/-- Calls one after the other: the teardowns that are called, and what `is_closed` says after each. -/
def run (A : AnySubscription S) (s : S) : List SubscriptionOp → List (List Nat × Bool)
  | [] => []
  | op :: ops => ((A.step s op).2, A.isClosed (A.step s op).1) :: A.run (A.step s op).1 ops

end AnySubscription

/-- `SubscriptionData`, subscription_data.rs:17-89. -/
def SubscriptionData.any : AnySubscription SubscriptionData := ⟨isClosed, unsubscribe, addTeardown, drop⟩

/-- `OptionSubscription`. -/
def optionSubscription {S : Type} (A : AnySubscription S) : AnySubscription (Option S) where
  -- subscription_option.rs:37-42
  isClosed
    | some s => A.isClosed s
    | none => true
  -- subscription_option.rs:44-48; what was taken is dropped
  unsubscribe
    | some s => (none, (A.unsubscribe s).2 ++ (A.drop (A.unsubscribe s).1).2)
    | none => (none, [])
  -- subscription_option.rs:25-30
  addTeardown
    | some s, t => (some (A.addTeardown s t).1, (A.addTeardown s t).2)
    | none, t => (none, t.execute)
  -- subscription_option.rs:51-59: `unsubscribe`; nothing is left to be dropped then
  drop
    | some s => (none, (A.unsubscribe s).2 ++ (A.drop (A.unsubscribe s).1).2)
    | none => (none, [])

/-- `Option<Observable>::subscribe`, option_observable.rs:26-40: `subscribe` is what subscribing to what is there gives. -/
def optionSubscribe {O S : Type} (subscribe : O → S) (o : Option O) : Option S := o.map subscribe

end Rx
