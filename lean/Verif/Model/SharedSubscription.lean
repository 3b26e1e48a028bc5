/-!
# Subscriptions that hold each other

Models `crates/rx_core_common/src/subscriptions/{subscription_shared,subscription_data,teardown}.rs` for
any number of subscriptions whose teardowns are callbacks or other subscriptions. Nodes are numbered.
Clones of a `SharedSubscription` are the same node.

One thread. `none` is a panic (or lack of fuel). Not modelled: what happens when the last reference is
dropped; callbacks that themselves add teardowns (adding to a subscription that is being unsubscribed
deadlocks: `add_teardown` locks, subscriber_arc_mutex.rs:104-114).
-/

namespace Rx.Graph

/-- A stored teardown closure: a callback, or `subscription.unsubscribe()` of another subscription
(teardown.rs:134-143). -/
inductive Tear where
  | call (c : Nat)
  | unsub (j : Nat)
deriving DecidableEq, Repr

/-- `SubscriptionData` (subscription_data.rs:17-20) behind a mutex (`locked`), with
`SubscriptionDeferredState` (subscription_shared.rs:16-26); `queue` counts the deferred unsubscribes. -/
structure Node where
  closed : Bool := false
  finalizers : List Tear := []
  locked : Bool := false
  queue : Nat := 0
  closedFlag : Bool := false
  observed : Bool := false
deriving DecidableEq, Repr

/-- All subscriptions; `log` records which callback was called, with the subscription it was added to. Ghost: `found` records
in which state the callback found that subscription. -/
structure World where
  node : Nat → Node
  log : List (Nat × Nat)
  found : List (Nat × Node) := []

/-- Change one node. -/
def World.update (w : World) (k : Nat) (f : Node → Node) : World :=
  { w with node := fun j => if j = k then f (w.node k) else w.node j }

/-- Calling finalizers in order; `un` is `unsubscribe` of other subscriptions. -/
def runTears (un : World → Nat → Option World) (k : Nat) : List Tear → World → Option World
  | [], w => some w
  | .call c :: ts, w => runTears un k ts { w with log := w.log ++ [(k, c)], found := w.found ++ [(k, w.node k)] }
  | .unsub j :: ts, w => (un w j).bind (runTears un k ts)

/-- `SubscriptionData::unsubscribe`, subscription_data.rs:50-58. -/
def dataUnsubscribe (un : World → Nat → Option World) (w : World) (k : Nat) : Option World :=
  if (w.node k).closed then some w
  else runTears un k (w.node k).finalizers
    (w.update k fun n => { n with closed := true, finalizers := [] })

/-- `apply_notification_queue`, subscription_shared.rs:121-162, with `d` turns left before the panic.
Only the first of the drained notifications can have an effect. -/
def applyQueue (un : World → Nat → Option World) (k : Nat) : Nat → World → Option World
  | 0, _ => none
  | d + 1, w =>
    if (w.node k).queue = 0 then some w
    else
      let w := w.update k fun n => { n with queue := 0 }
      (if (w.node k).closedFlag then some w else dataUnsubscribe un w k).bind fun w =>
        applyQueue un k d (w.update k fun n => { n with closedFlag := true })

/-- `try_apply_deferred`, subscription_shared.rs:110-119. -/
def tryApplyDeferred (un : World → Nat → Option World) (w : World) (k : Nat) : Option World :=
  if 0 < (w.node k).queue && !(w.node k).locked then
    (applyQueue un k 10 (w.update k fun n => { n with locked := true })).map
      (·.update k fun n => { n with locked := false })
  else some w

/-- `defer_notification`, subscription_shared.rs:28-39. -/
def defer (w : World) (k : Nat) : World :=
  w.update k fun n => if n.closedFlag && n.observed then n else { n with queue := n.queue + 1 }

/-- `try_unsubscribe`, subscription_shared.rs:164-179, when the lock is free. -/
def tryUnsubscribe (un : World → Nat → Option World) (w : World) (k : Nat) : Option World :=
  (applyQueue un k 10 (w.update k fun n => { n with locked := true })).bind fun w =>
    (dataUnsubscribe un (w.update k fun n => { n with closedFlag := true }) k).map
      (·.update k fun n => { n with locked := false })

/-- `SharedSubscription::unsubscribe`, subscription_shared.rs:192-209; for a subscription that is not
shared (`shared k = false`), `SubscriptionData::unsubscribe`. The first argument bounds the depth of
nested calls. -/
def unsubscribe (shared : Nat → Bool) : Nat → World → Nat → Option World
  | 0, _, _ => none
  | fuel + 1, w, k =>
    let un := unsubscribe shared fuel
    if shared k then
      (tryApplyDeferred un w k).bind fun w =>
        let wasUnsubscribed := (w.node k).observed
        let w := w.update k fun n => { n with observed := true }
        (if wasUnsubscribed then some w
          else if (w.node k).locked then some (defer w k)
          else tryUnsubscribe un w k).bind fun w =>
          tryApplyDeferred un w k
    else dataUnsubscribe un w k

/-- `is_closed`, subscription_shared.rs:182-190 and subscription_data.rs:46-48. -/
def isClosed (shared : Nat → Bool) (w : World) (k : Nat) : Bool :=
  if shared k then
    (w.node k).closedFlag || (w.node k).observed || (!(w.node k).locked && (w.node k).closed)
  else (w.node k).closed

/-- `add_teardown`, subscription_data.rs:62-70, called with the lock held (subscriber_arc_mutex.rs:104-108). -/
def addTeardown (shared : Nat → Bool) (fuel : Nat) (w : World) (k : Nat) (t : Option Tear) :
    Option World :=
  let w := w.update k fun n => { n with locked := true }
  let r := match t with
    | none => some w
    | some t =>
      if (w.node k).closed then runTears (unsubscribe shared fuel) k [t] w
      else some (w.update k fun n => { n with finalizers := n.finalizers ++ [t] })
  r.map (·.update k fun n => { n with locked := false })

/-- What users do. -/
inductive Op where
  /-- `k.add_fn(c)` -/
  | addCall (k c : Nat)
  /-- `k.add(j)` (of a clone of `j`, if `j` is shared) -/
  | addSub (k j : Nat)
  /-- `k.unsubscribe()` -/
  | unsub (k : Nat)
deriving DecidableEq, Repr

def step (shared : Nat → Bool) (fuel : Nat) (w : World) : Op → Option World
  | .addCall k c => addTeardown shared fuel w k (some (.call c))
  -- `Teardown::from`, teardown.rs:132-145
  | .addSub k j => addTeardown shared fuel w k (if isClosed shared w j then none else some (.unsub j))
  | .unsub k => unsubscribe shared fuel w k

def run (shared : Nat → Bool) (fuel : Nat) (w : World) (ops : List Op) : Option World :=
  ops.foldlM (step shared fuel) w

def init : World := { node := fun _ => {}, log := [] }

end Rx.Graph
