import Verif.Model.SharedClosing

/-!
# Events of an entity as an observable

Models `EventObservable`: `crates/rx_bevy_observable_event/src/{event_observable,event_subscription,event_forwarder_observer_system}.rs`,
with `SubscriptionSatellite` (`crates/rx_bevy_common/src/subscription/subscription_satellite.rs`), the despawn work
(`crates/rx_bevy_common/src/scheduler/work/work_despawn_entity.rs`) and as much of the ticking scheduler
(`crates/rx_core_scheduler_ticking/src/ticking_scheduler.rs`, modelled in full in `Verif.Model.Scheduler`) as the subscriptions use of it.

What is assumed of Bevy (not part of the repository):

* Commands are kept until they are applied (`flush`), in the order in which they were queued.
* The observers of an entity are run when an event is triggered on the entity. An event triggered on an entity that does
  not exist has no effect.
* When an entity is despawned, the relationship components that refer to it are removed, and the observers that observe
  nothing else are despawned. A relationship component inserted with an entity that does not exist is removed at once.
* `try_despawn` does nothing for an entity that does not exist. Entity ids are not used again.

Simplifications:

* The `k`-th subscription has the `k`-th destination, wrapped in a `SharedSubscriber` (C66, C67: used by one thread, its
  destination is given exactly what the shared one is given, and closing it runs the teardowns added to it once).
  A destination closes only because of what it is given, and giving it something does not reach the world, the scheduler (but
  for its teardown) or the other destinations.
* All types of events are one: subscriptions to different types of events do not concern each other.
* Of the scheduler's actions, only those of the subscriptions are modelled. Nobody else knows their ids. Nobody uses
  `cancel_invoked`, which forgets the invocations of others (C23).
-/

namespace Rx.Events

open Rx.Closing (Dest)

/-- The actions sent to the executor for the `k`-th subscription, ticking_scheduler.rs:58-97. -/
inductive Act where
  /-- `schedule_immediate_work`, event_subscription.rs:47 -/
  | add (k : Nat)
  /-- `schedule_invoked_despawn_entity`, event_subscription.rs:65-70 -/
  | addInvoked (k : Nat)
  /-- `invoke` by the teardown, teardown.rs:93 -/
  | invoke (k : Nat)
  /-- `cancel` by the teardown, teardown.rs:94 -/
  | cancel (k : Nat)
deriving DecidableEq

/-- Commands not yet applied. -/
inductive Cmd where
  /-- the satellite of the `k`-th subscription is to be spawned, event_subscription.rs:50-63 -/
  | spawn (k : Nat)
  /-- it is to be despawned, work_despawn_entity.rs:29-33 -/
  | despawn (k : Nat)
deriving DecidableEq

/-- What happens. -/
inductive Mark (I E : Type) where
  | spawned (e : Nat)
  | despawned (e : Nat)
  /-- an event is triggered on an entity that exists -/
  | triggered (e : Nat) (v : I)
  /-- the `k`-th subscription is made, to the events of `e` -/
  | subscribed (k e : Nat)
  /-- the satellite of the `k`-th subscription is spawned -/
  | started (k : Nat)
  /-- it is despawned, other than because of the entity observed -/
  | gone (k : Nat)
  /-- `unsubscribe` is called on the `k`-th subscription -/
  | unsubscribed (k : Nat)
  /-- the `k`-th destination is given a notification -/
  | give (k : Nat) (n : SubscriberNotification I E)
deriving DecidableEq

/-- The world, the executor and the destinations. -/
structure World (S I E : Type) where
  alive : Nat → Bool
  next : Nat
  /-- the number of subscriptions so far -/
  size : Nat
  target : Nat → Nat
  dest : Nat → S
  /-- the satellites that exist: of which subscriptions -/
  sats : List Nat
  /-- the executor's queue of actions -/
  queue : List Act
  /-- the immediate works the executor is going to run -/
  active : List Nat
  /-- the invoked works it has been given -/
  invokable : List Nat
  /-- those it was asked to run -/
  invoked : List Nat
  cmds : List Cmd
  trace : List (Mark I E)

def World.init (s : Nat → S) : World S I E where
  alive := fun _ => false
  next := 0
  size := 0
  target := fun _ => 0
  dest := s
  sats := []
  queue := []
  active := []
  invokable := []
  invoked := []
  cmds := []
  trace := []

/-- Function update. -/
def set {α : Type} (f : Nat → α) (i : Nat) (a : α) : Nat → α := fun j => if j = i then a else f j

/-- `new_work_invokation_and_cancellation`, teardown.rs:86-96. -/
def teardown (k : Nat) : List Act := [.invoke k, .cancel k]

/-- A notification for the `k`-th shared destination. If it closes, its teardown is run (event_subscription.rs:78-82). -/
def World.give (D : Dest S I E) (n : SubscriberNotification I E) (w : World S I E) (k : Nat) : World S I E :=
  if D.isClosed (w.dest k) then w
  else { w with
    dest := set w.dest k (D.push (w.dest k) n)
    queue := w.queue ++ (if D.isClosed (D.push (w.dest k) n) then teardown k else [])
    trace := w.trace ++ [.give k n] }

/-- The executor receives an action, ticking_executor.rs:157-186. -/
def World.act (w : World S I E) : Act → World S I E
  | .add k => { w with active := w.active ++ [k] }
  | .addInvoked k => { w with invokable := w.invokable ++ [k] }
  | .invoke k => { w with invoked := w.invoked ++ [k] }
  | .cancel k => { w with active := w.active.filter (· ≠ k) }

/-- A satellite is despawned, other than because of the entity observed. `subscription_satellite_of_on_remove`
(subscription_satellite.rs:48-63) unsubscribes the satellite's subscription, whose teardown completes the destination
(event_subscription.rs:59-61). -/
def World.despawnSat (D : Dest S I E) (k : Nat) (w : World S I E) : World S I E :=
  if k ∈ w.sats then
    World.give D .complete { w with sats := w.sats.filter (· ≠ k), trace := w.trace ++ [.gone k] } k
  else w

/-- A command is applied. A satellite of an entity that does not exist is not told of it later, but at once. -/
def World.apply (D : Dest S I E) (w : World S I E) : Cmd → World S I E
  | .spawn k =>
    let w1 : World S I E := { w with sats := w.sats ++ [k], trace := w.trace ++ [.started k] }
    if w.alive (w.target k) then w1 else w1.give D .complete k
  | .despawn k => w.despawnSat D k

/-- An invoked work is run, if the executor has it, and then it is done with: ticking_executor.rs:143-148,
work_despawn_entity.rs:24-35. -/
def World.runInvoked (w : World S I E) (k : Nat) : World S I E :=
  if k ∈ w.invokable then
    { w with invokable := w.invokable.filter (· ≠ k), cmds := w.cmds ++ [.despawn k] }
  else w

/-- What the program, or Bevy, or the executor does next. -/
inductive Op (I : Type) where
  /-- an entity is spawned, with the next id -/
  | spawn
  | despawn (e : Nat)
  | trigger (e : Nat) (v : I)
  /-- `EventObservable::new(e, ..).subscribe(..)` -/
  | subscribe (e : Nat)
  /-- `unsubscribe` on the `k`-th subscription -/
  | unsubscribe (k : Nat)
  /-- somebody else despawns the satellite of the `k`-th subscription -/
  | kill (k : Nat)
  /-- the executor receives the queued actions, at the start of a tick -/
  | drain
  /-- the executor runs the immediate work of the `k`-th subscription, if it has it -/
  | work (k : Nat)
  /-- the executor runs the invoked works, at the end of a tick -/
  | reap
  /-- the commands are applied -/
  | flush
deriving DecidableEq

/-- One step. Anything may happen between the phases of a tick, as other works are run in between. -/
def World.step (D : Dest S I E) (w : World S I E) : Op I → World S I E
  | .spawn => { w with alive := set w.alive w.next true, next := w.next + 1, trace := w.trace ++ [.spawned w.next] }
  -- subscription_satellite.rs:48-71, event_subscription.rs:53-62
  | .despawn e =>
    if w.alive e then
      (w.sats.filter (w.target · = e)).foldl (World.give D .complete)
        { w with
          alive := set w.alive e false
          sats := w.sats.filter (w.target · ≠ e)
          trace := w.trace ++ [.despawned e] }
    else w
  -- event_forwarder_observer_system.rs:13-16
  | .trigger e v =>
    if w.alive e then
      (w.sats.filter (w.target · = e)).foldl (World.give D (.next v)) { w with trace := w.trace ++ [.triggered e v] }
    else w
  -- event_subscription.rs:31-85; a teardown added to a closed destination is run at once
  | .subscribe e =>
    { w with
      size := w.size + 1
      target := set w.target w.size e
      queue := w.queue ++ .add w.size :: (if D.isClosed (w.dest w.size) then teardown w.size else [])
      trace := w.trace ++ [.subscribed w.size e] }
  | .unsubscribe k =>
    if k < w.size then World.give D .unsubscribe { w with trace := w.trace ++ [.unsubscribed k] } k else w
  | .kill k => w.despawnSat D k
  -- drain_scheduler_queue, ticking_executor.rs:152-189
  | .drain => w.queue.foldl World.act { w with queue := [] }
  -- event_subscription.rs:48-71
  | .work k =>
    if k ∈ w.active then
      { w with
        active := w.active.filter (· ≠ k)
        queue := w.queue ++ [.addInvoked k]
        cmds := w.cmds ++ [.spawn k] }
    else w
  -- execute_invoked, ticking_executor.rs:141-150
  | .reap => w.invoked.foldl World.runInvoked { w with invoked := [] }
  | .flush => w.cmds.foldl (World.apply D) { w with cmds := [] }

def World.run (D : Dest S I E) (w : World S I E) (l : List (Op I)) : World S I E := l.foldl (World.step D) w

end Rx.Events
