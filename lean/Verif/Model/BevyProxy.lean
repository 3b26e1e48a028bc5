import Verif.Model.SharedClosing

/-!
# Subscriptions that live on entities, made through the API of observables

Models the three observables whose subscriptions are kept on an entity of their own, while the caller is given a handle:

* `ProxyObservable`, which subscribes to an observable on another entity: `crates/rx_bevy_observable_proxy/src/{proxy_observable,proxy_subscription}.rs`.
* `EntityCommands::as_observable`: `crates/rx_bevy_common/src/observable/entity_commands_observable.rs`.
* `Observable::with_commands` and `Commands::with_observable`: `crates/rx_bevy_common/src/observable/commands_with_observable.rs`.

with `EntitySubscription` (`crates/rx_bevy_common/src/subscription/entity_subscription.rs`), `SubscriptionComponent`
(`crates/rx_bevy_common/src/subscription_component.rs`), the despawn works
(`crates/rx_bevy_common/src/scheduler/work/work_despawn_entity.rs`), subscribe commands
(`crates/rx_bevy_common/src/observable/command_subscribe.rs`, in full in `Verif.Model.BevyCommands`) and the parts of the ticking executor they use
(`crates/rx_core_scheduler_ticking/src/ticking_executor.rs`, in full in `Verif.Model.Scheduler`).

What is assumed of Bevy (not part of the repository):

* Commands are kept until they are applied, in the order in which they were queued: those of the system that subscribes, and
  those queued by works while the executor ticks. The former are applied at the next sync point of that system, and the
  executor may be ticked before: both may be systems of the same schedule, in any order.
* `try_despawn` does nothing for an entity that does not exist, also if it is to be spawned by a command not yet
  applied. Inserting into an entity that does not exist drops what was to be inserted, and is an error. Entity ids are not used again.

Simplifications:

* There is one subscription, in an environment that does anything else (`Op`). Other subscriptions, works and commands do not
  concern it: nobody else knows its ids, and nobody uses `cancel_invoked` (C23). That somebody despawns its entity is an `Op`.
* The destination is a `SharedSubscriber` for the first two, so that closing it runs its teardown once (C66, C67), and the
  handle of the third is a `SharedSubscription`, for which the same is true (C69).
* The subscription of the observable that is subscribed to is open or closed. Once it is closed, nothing comes from it, and
  its destination is closed (C57). It may be open while the destination is closed.
* What is on the entity that is subscribed to is decided by the environment: nothing, or an observable that, when
  subscribed, gives some notifications at once, and keeps the subscription open or not. That the observable is removed after
  it was found does not occur.
* The despawn works of `SubscriptionComponent` are scheduled with `schedule_despawn_entity`: their number is kept, not the
  queue they are in.
-/

namespace Rx.Proxy

open Rx.Closing (Dest)

/-- Which of the three. -/
inductive Kind where
  | proxy
  /-- `EntityCommands::as_observable` -/
  | command
  /-- `with_commands`, `with_observable` -/
  | direct
deriving DecidableEq

/-- The actions sent to the executor, ticking_scheduler.rs:58-97. -/
inductive Act where
  /-- `schedule_immediate_work`, proxy_subscription.rs:40 -/
  | add
  /-- `schedule_invoked_despawn_entity`, proxy_subscription.rs:49, entity_subscription.rs:32 -/
  | addInvoked
  /-- `invoke` by the teardown, teardown.rs:93, entity_subscription.rs:38 -/
  | invoke
  /-- `cancel` by the teardown, teardown.rs:94 -/
  | cancel
deriving DecidableEq

/-- Commands not yet applied. -/
inductive Cmd where
  /-- the subscription entity is spawned, and a `SubscribeCommand` is applied: subscribe_event.rs:52, command_subscribe.rs:140 -/
  | subscribe
  /-- it is spawned, and given its `SubscriptionComponent`: commands_with_observable.rs:94-103 -/
  | spawn
  /-- `try_despawn`, work_despawn_entity.rs:29-33 -/
  | despawn
deriving DecidableEq

/-- The subscription entity. -/
inductive Ent where
  /-- not yet spawned -/
  | none
  /-- it has an `UnfinishedSubscription`, subscribe_event.rs:31-37 -/
  | unfinished
  /-- it has a `SubscriptionComponent` -/
  | attached
  /-- its `SubscriptionComponent` was removed -/
  | bare
  | gone
deriving DecidableEq

/-- The subscription of the observable that is subscribed to. -/
inductive Source where
  | none
  | open
  | closed
deriving DecidableEq

/-- What an observable does when it is subscribed to. -/
structure Target (I E : Type) where
  /-- the notifications it gives at once -/
  sync : List (SubscriberNotification I E) := []
  /-- the subscription is open when `subscribe` returns -/
  stays : Bool := true

/-- What happens. -/
inductive Mark (I E : Type) where
  /-- the observable is subscribed to -/
  | joined
  /-- the observable has a notification for whoever is subscribed -/
  | emitted (n : SubscriberNotification I E)
  /-- its subscription is closed -/
  | ended
  /-- `unsubscribe` is called on the handle -/
  | unsubscribed
  /-- there is no such observable, and no more retries: the destination is unsubscribed, subscribe_event.rs:77-87 -/
  | missed
  /-- the destination is given a notification -/
  | gave (n : SubscriberNotification I E)
deriving DecidableEq

structure World (S I E : Type) where
  dest : S
  ent : Ent := .none
  source : Source := .none
  /-- a `SubscriptionComponent` was made, so its teardown is among those of the subscription, subscription_component.rs:42-46 -/
  made : Bool := false
  /-- the subscribe command is waiting to be tried again, with so many retries left -/
  waiting : Option Nat := none
  /-- what is on the entity subscribed to -/
  target : Option (Target I E) := none
  /-- the executor's queue of actions -/
  queue : List Act := []
  /-- how many immediate works of this subscription the executor is going to run -/
  active : Nat := 0
  /-- how many invoked works of it the executor has -/
  invokable : Nat := 0
  /-- how often the executor was asked to run them -/
  invoked : Nat := 0
  /-- the despawn works of `SubscriptionComponent` -/
  despawns : Nat := 0
  /-- the commands of the system that subscribes -/
  mine : List Cmd := []
  /-- the commands queued by works -/
  cmds : List Cmd := []
  /-- how often something was to be inserted into an entity that does not exist -/
  faults : Nat := 0
  trace : List (Mark I E) := []

/-- `SUBSCRIBE_COMMAND_MAX_RETRIES`, command_subscribe.rs:16. -/
def maxRetries : Nat := 3

/-- The teardown of the destination: proxy_subscription.rs:60-64 with teardown.rs:86-96, and entity_subscription.rs:36-39. -/
def teardown : Kind → List Act
  | .proxy => [.invoke, .cancel]
  | .command => [.invoke]
  | .direct => []

/-- A notification for the destination. If it closes, its teardown is run. -/
def World.give (D : Dest S I E) (K : Kind) (n : SubscriberNotification I E) (w : World S I E) : World S I E :=
  if D.isClosed w.dest then w
  else { w with
    dest := D.push w.dest n
    queue := w.queue ++ (if D.isClosed (D.push w.dest n) then teardown K else [])
    trace := w.trace ++ [.gave n] }

/-- The observable has a notification. -/
def World.emit (D : Dest S I E) (K : Kind) (w : World S I E) (n : SubscriberNotification I E) : World S I E :=
  let w' : World S I E := { w with trace := w.trace ++ [.emitted n] }
  if w.source = .open then w'.give D K n else w'

/-- The subscription of the observable is closed. Its teardowns are run: that of the component, subscription_component.rs:42-46,
and, if the handle is made of it, entity_subscription.rs:36-39. -/
def World.close (D : Dest S I E) (K : Kind) (w : World S I E) : World S I E :=
  if w.source = .open then
    World.give D K .unsubscribe { w with
      source := .closed
      despawns := w.despawns + (if w.made then 1 else 0)
      queue := w.queue ++ (if K = .direct then [.invoke] else [])
      trace := w.trace ++ [.ended] }
  else w

/-- `try_despawn` of the subscription entity, with subscription_unsubscribe_on_remove, subscription_component.rs:52-61. -/
def World.despawn (D : Dest S I E) (K : Kind) (w : World S I E) : World S I E :=
  match w.ent with
  | .none => w
  | .gone => w
  | .attached => { w with ent := .gone }.close D K
  | .unfinished => { w with ent := .gone }
  | .bare => { w with ent := .gone }

/-- An observable is subscribed to with the destination. -/
def World.join (D : Dest S I E) (K : Kind) (t : Target I E) (w : World S I E) : World S I E :=
  t.sync.foldl (World.emit D K) { w with source := .open, trace := w.trace ++ [.joined] }

/-- `SubscribeCommand::apply`, command_subscribe.rs:82-105, and observable_subscribe_event_observer, subscribe_observer_satellite.rs:58-112. -/
def World.connect (D : Dest S I E) (K : Kind) (retries : Nat) (w : World S I E) : World S I E :=
  match w.target with
  | some t =>
    let w := w.join D K t
    if t.stays then
      let w := { w with made := true }
      match w.ent with
      | .unfinished => { w with ent := .attached }
      -- the component is dropped, and unsubscribes
      | _ => { w with faults := w.faults + 1 }.close D K
    else (w.close D K).despawn D K
  | none =>
    if 0 < retries then { w with waiting := some (retries - 1) }
    else World.give D K .unsubscribe { w with trace := w.trace ++ [.missed] }

/-- A command is applied. -/
def World.apply (D : Dest S I E) (K : Kind) (w : World S I E) : Cmd → World S I E
  | .subscribe => { w with ent := .unfinished }.connect D K maxRetries
  | .spawn => { w with ent := .attached }
  | .despawn => w.despawn D K

/-- The executor receives an action, ticking_executor.rs:157-186. -/
def World.act (w : World S I E) : Act → World S I E
  | .add => { w with active := w.active + 1 }
  | .addInvoked => { w with invokable := w.invokable + 1 }
  | .invoke => { w with invoked := w.invoked + 1 }
  | .cancel => { w with active := 0 }

/-- `observable.subscribe(destination)`. A teardown added to what is closed is run at once (C03). `t` is the observable
of `with_commands`. -/
def World.start (D : Dest S I E) (K : Kind) (t : Target I E) (s : S) : World S I E :=
  match K with
  -- proxy_subscription.rs:26-67
  | .proxy => { dest := s, queue := .add :: (if D.isClosed s then teardown K else []) }
  -- entity_commands_observable.rs:113-137, entity_subscription.rs:20-44
  | .command => { dest := s, queue := .addInvoked :: (if D.isClosed s then teardown K else []), mine := [.subscribe] }
  -- commands_with_observable.rs:84-110, entity_subscription.rs:20-44
  | .direct =>
    let w := World.join D K t { dest := s, queue := [.addInvoked], mine := [.spawn], made := true }
    if t.stays then w else w.close D K

/-- `is_closed` of the handle, which is that of the shared destination, proxy_subscription.rs:9-18, entity_commands_observable.rs:132-136,
or that of the shared subscription, commands_with_observable.rs:105-109. -/
def World.isClosed (D : Dest S I E) (K : Kind) (w : World S I E) : Bool :=
  match K with
  | .direct => w.source != .open
  | _ => D.isClosed w.dest

/-- What the program, or Bevy, or the executor does next. -/
inductive Op (I E : Type) where
  /-- what is on the entity subscribed to changes -/
  | target (t : Option (Target I E))
  /-- the observable has a notification -/
  | emit (n : SubscriberNotification I E)
  /-- the observable closes its subscription -/
  | close
  /-- `unsubscribe` on the handle -/
  | unsubscribe
  /-- somebody despawns the subscription entity -/
  | kill
  /-- somebody removes its `SubscriptionComponent` -/
  | remove
  /-- the commands of the system that subscribes are applied -/
  | flushMine
  /-- the executor receives the queued actions -/
  | drain
  /-- the executor runs the immediate work, if it has it -/
  | work
  /-- the executor runs the invoked works -/
  | reap
  /-- the commands queued by works are applied -/
  | flush
  /-- `execute_pending_retries`, subscribe_retry_plugin.rs:32-45 -/
  | retry
  /-- `clean_unfinished_subscriptions`, rx_plugin.rs:36-47 -/
  | clean
  /-- the despawn works of `SubscriptionComponent` are run -/
  | last

/-- One step. Anything may happen between the phases of a tick, as other works are run in between. -/
def World.step (D : Dest S I E) (K : Kind) (w : World S I E) : Op I E → World S I E
  | .target t => { w with target := t }
  | .emit n => w.emit D K n
  | .close => w.close D K
  -- proxy_subscription.rs:9-18, entity_subscription.rs:10-17
  | .unsubscribe =>
    let w' : World S I E := { w with trace := w.trace ++ [.unsubscribed] }
    match K with
    | .direct => w'.close D K
    | _ => w'.give D K .unsubscribe
  | .kill => w.despawn D K
  | .remove => if w.ent = .attached then { w with ent := .bare }.close D K else w
  | .flushMine => w.mine.foldl (World.apply D K) { w with mine := [] }
  -- drain_scheduler_queue, ticking_executor.rs:152-189
  | .drain => w.queue.foldl World.act { w with queue := [] }
  -- proxy_subscription.rs:41-53
  | .work =>
    if 0 < w.active then
      { w with active := w.active - 1, queue := w.queue ++ [.addInvoked], cmds := w.cmds ++ [.subscribe] }
    else w
  -- execute_invoked, ticking_executor.rs:141-150
  | .reap =>
    if 0 < w.invoked ∧ 0 < w.invokable then
      { w with invoked := 0, invokable := w.invokable - 1, cmds := w.cmds ++ [.despawn] }
    else { w with invoked := 0 }
  | .flush => w.cmds.foldl (World.apply D K) { w with cmds := [] }
  | .retry =>
    match w.waiting with
    | some r => { w with waiting := none }.connect D K r
    | none => w
  | .clean => if w.ent = .unfinished then w.despawn D K else w
  | .last => if 0 < w.despawns then { w with despawns := 0 }.despawn D K else w

def World.run (D : Dest S I E) (K : Kind) (w : World S I E) (l : List (Op I E)) : World S I E := l.foldl (World.step D K) w

end Rx.Proxy
