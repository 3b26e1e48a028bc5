/-!
# Subscribing through Bevy commands

Models `Commands::subscribe` and everything between it and the subscription entity:
`crates/rx_bevy_common/src/observable/{command_subscribe,observable_component,subscribe_observer_satellite}.rs`,
`crates/rx_bevy_common/src/subscription/subscribe_event.rs`, `crates/rx_bevy_common/src/subscription_component.rs`,
`crates/rx_bevy_common/src/scheduler/{rx_plugin,subscribe_retry_plugin}.rs` and
`crates/rx_bevy_common/src/scheduler/work/work_despawn_entity.rs`.

What is assumed of Bevy (not part of the repository):

* Commands are applied one after the other, and the commands queued by hooks and observers while a command is applied are
  applied directly after it. So inserting a component, with what its hooks do, is one step here.
* `try_despawn` and `try_remove` do nothing for an entity that does not exist. `insert` for an entity that does not exist
  drops what was to be inserted, and calls Bevy's error handler, which panics unless the application has set
  another one: the call is recorded in `faults`, and the model goes on as with a handler that returns.
* A one-to-one relationship keeps its newest source: the reference on the target is to the entity inserted last. When the
  source of a reference is despawned, the reference is removed.
* An entity that is observed only on a despawned entity is despawned with it. Entity ids are not used again.
* The order in which the observers of an event are run is arbitrary.

Simplifications:

* The `k`-th `Commands::subscribe` has the `k`-th destination, and its subscription, if it gets one, is the `k`-th
  subscription. A subscription is open or closed; closing it, by whatever means, runs its teardowns once (C03), one of
  which asks for the entity to be despawned. Notifications are not modelled here.
* The destination does not reach the world while it is being subscribed (a destination has no access to the world).
* `spawn` of the reserved entity and the subscribe command are applied together (they are queued together).
* No observable is inserted into a satellite (nobody is told which entities are satellites).
* Components that are only there to be looked at (`SubscriptionOf`, `ObservableSubscriptions`, `ObservableOutputs`, `Name`)
  are not modelled.
-/

namespace Rx.Bevy

/-- What the rest of the program decides. -/
structure Cfg where
  /-- the output types of a type of observables -/
  out : Nat → Nat
  /-- the `k`-th subscription is already closed when `subscribe` returns, as for `just` -/
  sync : Nat → Bool
  /-- dropping the `k`-th destination unsubscribes it (every destination that is not shared) -/
  drops : Nat → Bool
  /-- the order in which observers are run -/
  ord : List Nat → List Nat

/-- The components of an entity. -/
structure Entity where
  /-- `UnfinishedSubscription`, subscribe_event.rs:31-37 -/
  unfinished : Bool := false
  /-- `SubscriptionComponent`, subscription_component.rs:13-23: which subscription -/
  subscription : Option Nat := none
  /-- `ObservableComponent<O>`, observable_component.rs:13-23: for which `O` -/
  observables : List Nat := []
  /-- `SubscribeObserverRef<O>`, subscribe_observer_satellite.rs:115-126 -/
  ref : Nat → Option Nat := fun _ => none
  /-- the `Observer` of a satellite, with `ErasedSubscribeObserverOf`, subscribe_observer_satellite.rs:23-56: the entity and `O` -/
  watches : Option (Nat × Nat) := none

/-- The entity that is the source of a reference is despawned. -/
def Entity.forget (s : Nat) (x : Entity) : Entity :=
  { x with ref := fun o => if x.ref o = some s then none else x.ref o }

/-- `SubscribeCommand` with its `Subscribe` event, command_subscribe.rs:18-25, subscribe_event.rs:9-29. -/
structure Command where
  /-- which destination -/
  k : Nat
  target : Nat
  types : Nat
  /-- `subscription_entity` -/
  reserved : Nat
  /-- `retries_remaining` -/
  retries : Nat
deriving DecidableEq

/-- `SUBSCRIBE_COMMAND_MAX_RETRIES`, command_subscribe.rs:16. -/
def maxRetries : Nat := 3

/-- The world, with what the destinations and subscriptions are like. -/
structure World where
  ent : Nat → Option Entity := fun _ => none
  next : Nat := 0
  /-- `SubscribesToRetry`, subscribe_retry_plugin.rs:17-20 -/
  pending : List Command := []
  /-- the despawn works scheduled for the schedule `Last` -/
  despawns : List Nat := []
  /-- the number of destinations so far -/
  size : Nat := 0
  closed : Nat → Bool := fun _ => false
  /-- the teardown of the subscription that despawns an entity, subscription_component.rs:41-45 -/
  teardown : Nat → Option Nat := fun _ => none
  /-- Ghost: how the `k`-th subscribe command was issued. -/
  issued : Nat → Option Command := fun _ => none
  /-- Ghost: the observables the `k`-th destination was subscribed to: the entity, and the type. -/
  made : Nat → List (Nat × Nat) := fun _ => []
  /-- Ghost: how often the `k`-th subscribe command was applied. -/
  attempts : Nat → Nat := fun _ => 0
  /-- the destinations for which a component was to be inserted into an entity that does not exist -/
  faults : List Nat := []

/-- Function update. -/
def set {α : Type} (f : Nat → α) (i : Nat) (a : α) : Nat → α := fun j => if j = i then a else f j

namespace World

/-- The `k`-th subscription (or the `k`-th destination, if there is no subscription yet) is closed. -/
def close (k : Nat) (w : World) : World :=
  if w.closed k then w
  else { w with closed := set w.closed k true, despawns := w.despawns ++ (w.teardown k).toList }

/-- `SubscriptionComponent` is removed, or its entity despawned: subscription_unsubscribe_on_remove,
subscription_component.rs:51-61. -/
def removeSubscription (e : Nat) (w : World) : World :=
  match w.ent e with
  | some x =>
    match x.subscription with
    | some k => { w with ent := set w.ent e (some { x with subscription := none }) }.close k
    | none => w
  | none => w

/-- An entity without satellites and without a subscription is despawned. References to it are removed. -/
def despawnSatellite (s : Nat) (w : World) : World :=
  match w.ent s with
  | some _ => { w with ent := fun e => if e = s then none else (w.ent e).map (·.forget s) }
  | none => w

/-- `ObservableComponent<O>` is inserted: observable_on_insert, observable_component.rs:58-67. A second satellite takes
over the reference from the first. -/
def insertObservable (e o : Nat) (w : World) : World :=
  match w.ent e with
  | some x =>
    if x.watches.isSome then w
    else { w with
      ent := set (set w.ent e (some { x with
          observables := if o ∈ x.observables then x.observables else x.observables ++ [o],
          ref := set x.ref o (some w.next) }))
        w.next (some { watches := some (e, o) })
      next := w.next + 1 }
  | none => w

/-- `ObservableComponent<O>` is removed: observable_on_remove, observable_component.rs:70-91. -/
def removeObservable (e o : Nat) (w : World) : World :=
  match w.ent e with
  | some x =>
    if o ∈ x.observables then
      let w := { w with ent := set w.ent e (some { x with observables := x.observables.filter (· != o) }) }
      match x.ref o with
      | some s => w.despawnSatellite s
      | none => w
    else w
  | none => w

/-- The satellites that observe an entity. -/
def satellites (e : Nat) (w : World) : List Nat :=
  (List.range w.next).filter fun s => match w.ent s with
    | some x => match x.watches with | some (e', _) => e' == e | none => false
    | none => false

/-- `try_despawn`. The hooks of its components are run, and its satellites are despawned. -/
def despawn (e : Nat) (w : World) : World :=
  let w := w.removeSubscription e
  let w := (w.satellites e).foldl (fun w s => w.despawnSatellite s) w
  w.despawnSatellite e

/-- The observers for the `Subscribe` event of these types on this entity: the satellites, with the `O` of each. -/
def observers (c : Cfg) (e types : Nat) (w : World) : List Nat :=
  (w.satellites e).filterMap fun s => match w.ent s with
    | some x => match x.watches with
      | some (_, o) => if c.out o = types then some o else none
      | none => none
    | none => none

/-- The rest of observable_subscribe_event_observer, once the destination is subscribed,
subscribe_observer_satellite.rs:83-111. -/
def attach (c : Cfg) (cmd : Command) (w : World) : World :=
  if c.sync cmd.k || w.closed cmd.k then (w.close cmd.k).despawn cmd.reserved
  else
    -- the teardown is added when the component is made, subscription_component.rs:36-48
    let w := { w with teardown := set w.teardown cmd.k (some cmd.reserved) }
    match w.ent cmd.reserved with
    | some x => { w with ent := set w.ent cmd.reserved (some { x with subscription := some cmd.k, unfinished := false }) }
    -- the component is dropped, and unsubscribes
    | none => { w with faults := w.faults ++ [cmd.k] }.close cmd.k

/-- `world.trigger(Subscribe)`: the first observer takes the destination, subscribe_observer_satellite.rs:58-83; the others
find it taken (70-76). If there is none, the event is dropped, subscribe_event.rs:74-90. -/
def trigger (c : Cfg) (cmd : Command) (w : World) : World :=
  match c.ord (w.observers c cmd.target cmd.types) with
  | [] => w.close cmd.k
  | o :: _ =>
    match w.ent cmd.target with
    | some x =>
      if o ∈ x.observables then
        { w with made := set w.made cmd.k (w.made cmd.k ++ [(cmd.target, o)]) }.attach c cmd
      -- `NotAnObservable`, 77-82: the destination is dropped
      else if c.drops cmd.k then w.close cmd.k else w
    | none => if c.drops cmd.k then w.close cmd.k else w

/-- `SubscribeCommand::apply`, command_subscribe.rs:76-109. -/
def apply (c : Cfg) (cmd : Command) (w : World) : World :=
  let w := { w with attempts := set w.attempts cmd.k (w.attempts cmd.k + 1) }
  if (w.observers c cmd.target cmd.types).isEmpty = false then w.trigger c cmd
  else if 0 < cmd.retries then { w with pending := w.pending ++ [{ cmd with retries := cmd.retries - 1 }] }
  else w.close cmd.k

/-- `Commands::subscribe`, command_subscribe.rs:129-147 and subscribe_event.rs:45-65. -/
def subscribe (c : Cfg) (target types : Nat) (w : World) : World :=
  let cmd : Command := ⟨w.size, target, types, w.next, maxRetries⟩
  { w with
    ent := set w.ent w.next (some { unfinished := true })
    next := w.next + 1
    size := w.size + 1
    issued := set w.issued w.size (some cmd) }.apply c cmd

/-- `execute_pending_retries`, in the schedule `First`, subscribe_retry_plugin.rs:32-45. -/
def retry (c : Cfg) (w : World) : World :=
  w.pending.foldl (fun w cmd => w.apply c cmd) { w with pending := [] }

/-- `clean_unfinished_subscriptions`, in the schedule `Last`, rx_plugin.rs:36-47. -/
def clean (w : World) : World :=
  ((List.range w.next).filter fun e => match w.ent e with | some x => x.unfinished | none => false).foldl
    (fun w e => w.despawn e) w

/-- The executor of the schedule `Last` is ticked: the despawn works are run, work_despawn_entity.rs:23-38, and the
commands they queue are applied. -/
def tick (w : World) : World :=
  w.despawns.foldl (fun w e => w.despawn e) { w with despawns := [] }

/-- `unsubscribe_all_subscriptions`, when the application exits, rx_plugin.rs:49-58. -/
def exit (c : Cfg) (w : World) : World :=
  let w := w.retry c
  ((List.range w.next).filterMap fun e => (w.ent e).bind (·.subscription)).foldl (fun w k => w.close k) w

/-- What can happen. -/
inductive Op where
  | spawn
  | insertObservable (e o : Nat)
  | removeObservable (e o : Nat)
  | removeSubscription (e : Nat)
  | despawn (e : Nat)
  | subscribe (target types : Nat)
  /-- the subscription completes, is unsubscribed through another handle, ... -/
  | close (k : Nat)
  | retry
  | clean
  | tick
  | exit

def step (c : Cfg) (w : World) : Op → World
  | .spawn => { w with ent := set w.ent w.next (some {}), next := w.next + 1 }
  | .insertObservable e o => w.insertObservable e o
  | .removeObservable e o => w.removeObservable e o
  | .removeSubscription e => w.removeSubscription e
  | .despawn e => w.despawn e
  | .subscribe t y => w.subscribe c t y
  | .close k => if k < w.size then w.close k else w
  | .retry => w.retry c
  | .clean => w.clean
  | .tick => w.tick
  | .exit => w.exit c

/-- A history, from the start of the application. -/
def run (c : Cfg) (ops : List Op) : World := ops.foldl (step c) {}

end World
end Rx.Bevy
