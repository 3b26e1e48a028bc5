import Verif.Model.Subscriber
import Verif.Model.SubscriberState

/-!
# Higher-order subscribers: merge/concat, switch, exhaust

Models `crates/rx_core_subscriber_higher_order/src`, `rx_core_subscriber_higher_order_concurrent/src`,
`rx_core_subscriber_higher_order_switch/src` and `rx_core_subscriber_higher_order_exhaust/src`. The
subscribers of `merge_all`, `concat_all`, `switch_all`, `exhaust_all` and the `_map` variants hand what
arrives to these after applying the mapper (higher_order_all_subscriber.rs, higher_order_map_subscriber.rs).

Simplifications.
* An inner observable is what it emits while it is being subscribed; what it emits later is part of the
  history (`Event.inner`). Unsubscribing its subscription calls `unsubscribe` of the inner subscriber, and
  the subscription is closed when the inner subscriber is.
* The destination does not call back into the operator. It is held by a `SharedSubscriber`, which then does
  nothing but ignore calls once the destination is closed (property C25). It executes the teardowns added to
  it when it becomes closed.
* A subscription that is unsubscribed while its own inner subscriber is handling a notification (`busy`)
  defers that until the notification is handled (property C56 for subjects). If the destination is closed,
  every inner subscriber closes itself before it is done handling a notification
  (higher_order_subscriber_inner.rs:194-200, 208, 227), so there the deferred call finds it closed; it is
  left out.
* Inner observables are numbered in the order of their arrival.
* `on_complete` and `on_unsubscribe` are `FnOnce`s in `Option`s; `complete` and `unsubscribe` get there only
  once. The flag `completed` of an inner subscriber is read only by `unsubscribe`, which `complete` calls
  last; it is an argument here.

Failed debug assertions and subtractions below zero are faults.
-/

namespace Rx.HigherOrder

inductive Fault where
  | panic
  /-- the model's recursion bound, never reached -/
  | fuel
deriving DecidableEq, Repr

/-- An inner observable: what it emits while it is being subscribed. -/
abbrev Src (I E : Type) := List (SubscriberNotification I E)

/-- What happens. Ghost: a log. -/
inductive Log (I E : Type) where
  /-- inner observable `a` is subscribed -/
  | sub (a : Nat)
  /-- it has completed, errored or was unsubscribed -/
  | done (a : Nat)
  /-- the destination is called, on behalf of an inner observable or not -/
  | out (src : Option Nat) (n : SubscriberNotification I E)
deriving DecidableEq, Repr

/-- `HigherOrderSubscriberState` (higher_order_subscriber_state.rs:30-39), with the queue of
concurrent_subscriber_queue.rs:8-13 (empty in the others), and the fields of the subscribers
(concurrent_subscriber.rs:21-32, switch_subscriber.rs:19-30, exhaust_subscriber.rs:20-31). -/
structure State (S I E : Type) where
  dest : S
  queue : List (Nat × Src I E) := []
  nonCompleted : Nat := 0
  nonUnsubscribed : Nat := 0
  up : SubscriberState := .default
  down : SubscriberState := .default
  /-- inner subscribers that are not closed -/
  opened : List Nat := []
  /-- those of them handling a notification, or being subscribed -/
  busy : List Nat := []
  /-- `HigherOrderInnerSubscriber::key` -/
  key : Nat → Nat := fun _ => 0
  /-- the slab of the concurrent subscriber: the subscription in each entry. Entries are removed only all
  at once (concurrent_subscriber.rs:49-52; `retain` in 149 keeps those not closed, and they are closed only
  after having been drained), so the vacant entry is the next. -/
  slab : List (Option Nat) := []
  /-- `inner_subscription` of the others -/
  current : Option Nat := none
  outerClosed : Bool := false
  /-- number of inner observables that have arrived -/
  arrived : Nat := 0
  log : List (Log I E) := []

variable {S I E : Type}

namespace State

/-- `x -= 1` on a `usize`. -/
def dec (n : Nat) : Except Fault Nat := if n = 0 then .error .panic else .ok (n - 1)

/-- A `debug_assert!`. -/
def check {α : Type} : Option α → Except Fault α
  | some a => .ok a
  | none => .error .panic

/-- `can_downstream_complete`, higher_order_subscriber_state.rs:55-60. -/
def canComplete (x : State S I E) : Bool :=
  x.queue.isEmpty && x.nonCompleted == 0 && x.up.isCompleted && !x.down.isClosed

/-- `can_downstream_unsubscribe`, higher_order_subscriber_state.rs:62-69. -/
def canUnsubscribe (x : State S I E) : Bool :=
  (x.queue.isEmpty && x.nonUnsubscribed == 0 && x.up.isUnsubscribed && !x.down.isUnsubscribed) ||
    x.up.isErrored || x.down.isClosed

/-- `upstream_completed_can_downstream` without its result, higher_order_subscriber_state.rs:71-76. -/
def upstreamCompleted (x : State S I E) : Except Fault (State S I E) := do
  let up ← check x.up.complete
  let up ← check up.unsubscribe
  pure { x with up := up }

/-- `upstream_error`, higher_order_subscriber_state.rs:112-115. -/
def upstreamError (x : State S I E) : Except Fault (State S I E) := do
  let up ← check x.up.error
  pure { x with queue := [], up := up }

/-- `downstream_error`, higher_order_subscriber_state.rs:117-120. -/
def downstreamError (x : State S I E) : Except Fault (State S I E) := do
  let down ← check x.down.error
  pure { x with queue := [], down := down }

/-- The counters of `inner_unsubscribed_and_downstream_is_not_yet_unsubscribed`,
higher_order_subscriber_state.rs:94-107. -/
def innerUnsubscribed (x : State S I E) (completed : Bool) : Except Fault (State S I E) := do
  let down := if x.canUnsubscribe then x.down.unsubscribeIfNotAlready else x.down
  let nonUnsubscribed ← dec x.nonUnsubscribed
  let nonCompleted ← if completed then .ok x.nonCompleted else dec x.nonCompleted
  pure { x with down := down, nonUnsubscribed := nonUnsubscribed, nonCompleted := nonCompleted }

/-- `non_completed_subscriptions += 1; non_unsubscribed_subscriptions += 1`. -/
def reserve (x : State S I E) : State S I E :=
  { x with nonCompleted := x.nonCompleted + 1, nonUnsubscribed := x.nonUnsubscribed + 1 }

end State

/-- Something a subscriber does. -/
abbrev Action (S I E : Type) := State S I E → Except Fault (State S I E)

section Inner
-- `D`: the destination, `T`: the teardowns it holds
variable (D : Sub S I E) (T : Action S I E)

/-- `next`, `error`, `complete`, `unsubscribe` of the shared destination. -/
def give (src : Option Nat) (n : SubscriberNotification I E) : Action S I E := fun x =>
  if D.isClosed x.dest then .ok x
  else
    let x := { x with dest := D.push x.dest n, log := x.log ++ [.out src n] }
    if D.isClosed x.dest then T x else .ok x

variable (onComplete onUnsubscribe : Nat → Action S I E)

/-- `HigherOrderInnerSubscriber::unsubscribe`, higher_order_subscriber_inner.rs:138-154. -/
def innerUnsubscribe (completed : Bool) (a : Nat) : Action S I E := fun x =>
  if a ∈ x.opened then do
    let x := { x with
      opened := x.opened.erase a
      log := if completed then x.log else x.log ++ [Log.done a] }
    let already := x.down.isUnsubscribed
    let x ← x.innerUnsubscribed completed
    if already then pure x else onUnsubscribe (x.key a) x
  else .ok x

/-- `HigherOrderInnerSubscriber::next`, higher_order_subscriber_inner.rs:69-81. -/
def innerNext (a : Nat) (v : I) : Action S I E := fun x => do
  let x ← give D T (some a) (.next v) x
  if D.isClosed x.dest then
    innerUnsubscribe onUnsubscribe false a { x with down := x.down.unsubscribeIfNotAlready }
  else pure x

/-- `HigherOrderInnerSubscriber::error`, higher_order_subscriber_inner.rs:83-89. -/
def innerError (a : Nat) (e : E) : Action S I E := fun x => do
  let x ← x.downstreamError
  let x ← give D T (some a) (.error e) x
  innerUnsubscribe onUnsubscribe false a x

/-- `inner_completed_can_downstream` (higher_order_subscriber_state.rs:78-88) and what follows,
higher_order_subscriber_inner.rs:98-104. -/
def innerCompleted (a : Nat) : Action S I E := fun x => do
  let nonCompleted ← State.dec x.nonCompleted
  let x := { x with nonCompleted := nonCompleted }
  if x.canComplete then do
    let down ← State.check x.down.complete
    give D T (some a) .complete { x with down := down }
  else pure x

/-- `HigherOrderInnerSubscriber::complete`, higher_order_subscriber_inner.rs:91-108. -/
def innerComplete (a : Nat) : Action S I E := fun x => do
  let x ← onComplete (x.key a) { x with log := x.log ++ [.done a] }
  let x ← innerCompleted D T a x
  innerUnsubscribe onUnsubscribe true a x

/-- A notification for the inner subscriber `a` while it is not closed. -/
def innerHandle (a : Nat) : SubscriberNotification I E → Action S I E
  | .next v => innerNext D T onUnsubscribe a v
  | .error e => innerError D T onUnsubscribe a e
  | .complete => innerComplete D T onComplete onUnsubscribe a
  | .unsubscribe => innerUnsubscribe onUnsubscribe false a

/-- The inner subscriber `a` is called. It ignores calls once it is closed. -/
def innerPush (a : Nat) (x : State S I E) (n : SubscriberNotification I E) : Except Fault (State S I E) :=
  if a ∈ x.opened then do
    let y ← innerHandle D T onComplete onUnsubscribe a n { x with busy := a :: x.busy }
    pure { y with busy := x.busy }
  else .ok x

/-- `next_observable.subscribe(HigherOrderInnerSubscriber::new(key, …))`. -/
def innerSubscribe (key a : Nat) (src : Src I E) : Action S I E := fun x => do
  let y ← src.foldlM (innerPush D T onComplete onUnsubscribe a) { x with
    opened := x.opened ++ [a]
    busy := a :: x.busy
    key := fun b => if b = a then key else x.key b
    log := x.log ++ [.sub a] }
  pure { y with busy := x.busy }

/-- The subscription of inner observable `a` is unsubscribed. -/
def innerCancel (a : Nat) : Action S I E := fun x =>
  if a ∈ x.busy then .ok x else innerUnsubscribe onUnsubscribe false a x

end Inner

/-! ## Concurrent: `merge_all`, `merge_map`; `concat_all`, `concat_map` have limit 1 -/

namespace Concurrent
variable (D : Sub S I E) (limit : Nat)

/-- What the destination is given as teardown. -/
def onUnsubscribe (T : Action S I E) (pop : Action S I E) (key : Nat) : Action S I E := fun x => do
  -- lines 147-155
  let others := ((List.range x.slab.length).filter (· != key)).length
  -- lines 156-169
  let x ← if others == limit - 1 && !x.down.isClosed then pop x else pure x
  -- lines 171-180
  if x.canUnsubscribe && !x.up.isErrored && !x.down.isErrored then do
    let x ← give D T none .unsubscribe x
    T x
  else pure x

/-- `create_inner_subscription`, concurrent_subscriber.rs:103-196. -/
def create (T : Action S I E) (pop : Action S I E) (a : Nat) (src : Src I E) : Action S I E := fun x => do
  let key := x.slab.length
  let x ← innerSubscribe D T (fun _ => pop) (onUnsubscribe D limit T pop) key a src
    { x with slab := x.slab ++ [none] }
  -- lines 184-195
  if a ∈ x.opened then
    if key < x.slab.length then pure { x with slab := x.slab.set key (some a) }
    else innerCancel (onUnsubscribe D limit T pop) a x
  else pure x

/-- `subscribe_to_next_in_queue`, concurrent_subscriber.rs:75-101. The inner observable it subscribes may
complete at once, and so start another; each time the queue gets shorter. -/
def pop (T : Action S I E) : Nat → Action S I E
  | 0, _ => .error .fuel
  | fuel + 1, x =>
    match x.queue with
    | [] => .ok x
    | (a, src) :: queue => create D limit T (pop T fuel) a src { x.reserve with queue := queue }

/-- The function held by `outer_teardown`, concurrent_subscriber.rs:48-60. While it runs, `outer_teardown` is
closed, so running it again does nothing. -/
def drain : Action S I E := fun x => do
  let subscriptions := x.slab.filterMap id
  let x ← subscriptions.foldlM
    (fun x a => innerCancel (onUnsubscribe D limit .ok (pop D limit .ok (x.queue.length + 1))) a x)
    { x with slab := [] }
  pure { x with up := x.up.unsubscribeIfNotAlready }

/-- `outer_teardown.unsubscribe()`. The destination holds it as a teardown, concurrent_subscriber.rs:62. -/
def teardown : Action S I E := fun x =>
  if x.outerClosed then .ok x else drain D limit { x with outerClosed := true }

/-- `is_closed`, concurrent_subscriber.rs:255-257. -/
def isClosed (x : State S I E) : Bool := D.isClosed x.dest || x.outerClosed

/-- `next`, concurrent_subscriber.rs:203-224. -/
def next (src : Src I E) : Action S I E := fun x =>
  let a := x.arrived
  let x := { x with arrived := a + 1 }
  if isClosed D x then .ok x
  else if x.nonCompleted < limit then
    create D limit (teardown D limit) (pop D limit (teardown D limit) (x.queue.length + 1)) a src x.reserve
  else .ok { x with queue := x.queue ++ [(a, src)] }

/-- `error`, concurrent_subscriber.rs:226-233. -/
def error (e : E) : Action S I E := fun x =>
  if isClosed D x then .ok x
  else do
    let x ← x.upstreamError
    let x ← give D (teardown D limit) none (.error e) x
    teardown D limit x

/-- `complete`, concurrent_subscriber.rs:235-245. -/
def complete : Action S I E := fun x =>
  if isClosed D x then .ok x
  else do
    let x ← x.upstreamCompleted
    if x.canComplete then do
      let x ← give D (teardown D limit) none .complete x
      teardown D limit x
    else pure x

/-- `unsubscribe`, concurrent_subscriber.rs:259-263. -/
def unsubscribe : Action S I E := fun x =>
  if isClosed D x then .ok x else give D (teardown D limit) none .unsubscribe x

/-- A notification for the inner subscriber `a`. -/
def inner (a : Nat) (n : SubscriberNotification I E) : Action S I E := fun x =>
  let fuel := x.queue.length + 1
  innerPush D (teardown D limit) (fun _ => pop D limit (teardown D limit) fuel)
    (onUnsubscribe D limit (teardown D limit) (pop D limit (teardown D limit) fuel)) a x n

end Concurrent

/-! ## Switch and exhaust -/

namespace Single
variable (D : Sub S I E)

/-- switch_subscriber.rs:75-83, exhaust_subscriber.rs:78-86. -/
def onUnsubscribe : Nat → Action S I E := fun _ x =>
  if x.canUnsubscribe then give D .ok none .unsubscribe { x with outerClosed := true } else pure x

/-- `inner_subscription.take()` and unsubscribe it. -/
def cancelCurrent : Action S I E := fun x =>
  match x.current with
  | some b => innerCancel (onUnsubscribe D) b { x with current := none }
  | none => pure x

/-- switch_subscriber.rs:70-89, exhaust_subscriber.rs:73-92. -/
def subscribe (a : Nat) (src : Src I E) : Action S I E := fun x => do
  let x ← innerSubscribe D .ok (fun _ => .ok) (onUnsubscribe D) 0 a src x
  if a ∈ x.opened then pure { x with current := some a } else pure x

/-- A notification for the inner subscriber `a`. -/
def inner (a : Nat) (n : SubscriberNotification I E) : Action S I E := fun x =>
  innerPush D .ok (fun _ => .ok) (onUnsubscribe D) a x n

/-- `error`, switch_subscriber.rs:97-104, exhaust_subscriber.rs:96-103. -/
def error (unsubscribe : Action S I E) (e : E) : Action S I E := fun x =>
  if x.outerClosed then .ok x
  else do
    let x ← x.upstreamError
    let x ← give D .ok none (.error e) x
    unsubscribe x

/-- `complete`, switch_subscriber.rs:106-116, exhaust_subscriber.rs:105-115. -/
def complete (unsubscribe : Action S I E) : Action S I E := fun x =>
  if x.outerClosed then .ok x
  else do
    let x ← x.upstreamCompleted
    if x.canComplete then do
      let x ← give D .ok none .complete x
      unsubscribe x
    else pure x

end Single

namespace Switch
variable (D : Sub S I E)

/-- `unsubscribe`, switch_subscriber.rs:147-155. -/
def unsubscribe : Action S I E := fun x =>
  if x.outerClosed then .ok x
  else do
    let x ← give D .ok none .unsubscribe { x with outerClosed := true }
    Single.cancelCurrent D x

/-- `next`, switch_subscriber.rs:55-95. -/
def next (src : Src I E) : Action S I E := fun x => do
  let a := x.arrived
  let x := { x with arrived := a + 1 }
  if x.outerClosed then .ok x
  else do
    let x ← Single.cancelCurrent D x.reserve
    let x ← Single.subscribe D a src x
    if D.isClosed x.dest then unsubscribe D x else pure x

end Switch

namespace Exhaust
variable (D : Sub S I E)

/-- `unsubscribe`, exhaust_subscriber.rs:130-139; the subscription is not taken out, but unsubscribing it
again does nothing. -/
def unsubscribe : Action S I E := fun x =>
  if x.outerClosed then .ok x
  else do
    let x ← Single.cancelCurrent D x
    give D .ok none .unsubscribe { x with outerClosed := true }

/-- `next`, exhaust_subscriber.rs:56-94. -/
def next (src : Src I E) : Action S I E := fun x => do
  let a := x.arrived
  let x := { x with arrived := a + 1 }
  if !x.outerClosed && x.nonUnsubscribed == 0 then do
    let x ← Single.cancelCurrent D x.reserve
    Single.subscribe D a src x
  else .ok x

end Exhaust

/-! ## Histories -/

/-- What happens to the operator: the outer observable notifies it (`unsubscribe` is also what happens when
the subscription of the whole is unsubscribed), or an inner observable, subscribed earlier, notifies its
subscriber. -/
inductive Event (I E : Type) where
  | outer (n : SubscriberNotification (Src I E) E)
  | inner (a : Nat) (n : SubscriberNotification I E)

/-- merge with a limit -/
def Concurrent.step (D : Sub S I E) (limit : Nat) (x : State S I E) : Event I E → Except Fault (State S I E)
  | .outer (.next src) => Concurrent.next D limit src x
  | .outer (.error e) => Concurrent.error D limit e x
  | .outer .complete => Concurrent.complete D limit x
  | .outer .unsubscribe => Concurrent.unsubscribe D limit x
  | .inner a n => Concurrent.inner D limit a n x

def Switch.step (D : Sub S I E) (x : State S I E) : Event I E → Except Fault (State S I E)
  | .outer (.next src) => Switch.next D src x
  | .outer (.error e) => Single.error D (Switch.unsubscribe D) e x
  | .outer .complete => Single.complete D (Switch.unsubscribe D) x
  | .outer .unsubscribe => Switch.unsubscribe D x
  | .inner a n => Single.inner D a n x

def Exhaust.step (D : Sub S I E) (x : State S I E) : Event I E → Except Fault (State S I E)
  | .outer (.next src) => Exhaust.next D src x
  | .outer (.error e) => Single.error D (Exhaust.unsubscribe D) e x
  | .outer .complete => Single.complete D (Exhaust.unsubscribe D) x
  | .outer .unsubscribe => Exhaust.unsubscribe D x
  | .inner a n => Single.inner D a n x

def Concurrent.run (D : Sub S I E) (limit : Nat) (x : State S I E) (es : List (Event I E)) :
    Except Fault (State S I E) := es.foldlM (Concurrent.step D limit) x

def Switch.run (D : Sub S I E) (x : State S I E) (es : List (Event I E)) : Except Fault (State S I E) :=
  es.foldlM (Switch.step D) x

def Exhaust.run (D : Sub S I E) (x : State S I E) (es : List (Event I E)) : Except Fault (State S I E) :=
  es.foldlM (Exhaust.step D) x

end Rx.HigherOrder
