# Formal model of rx_bevy / rx_core in Lean 4 — design

Source under study: `/repo` (AlexAegis/rx_bevy, pinned commit), read as text only.
Lean project: `/verif/lean`, modules under `Verif/`.

## 1. Trusted base

* Lean 4.33.0 kernel. No axioms of our own; `#print axioms` of every property theorem shows at
  most `propext`, `Classical.choice`, `Quot.sound` (see section 6).
* No `sorry`, `admit`, `native_decide`, `bv_decide`, `implemented_by`, `unsafe`.
* The hand translation Rust -> Lean. Every model definition cites the file and lines it models
  and says where it simplifies. This correspondence is by inspection, not checked by machine.

## 2. Modelling style

* A Rust trait object `Subscriber` is a Lean structure `Sub S I E` of its trait functions over a
  state type `S` (`next error complete unsubscribe isClosed addTeardown`). An operator subscriber
  is a *function from a destination `Sub` to a `Sub`*, written line by line after the Rust `impl`.
  Destinations are arbitrary: theorems quantify over every lawful destination, so they cover
  early-closing downstreams and other operators.
* The bottom of each pipeline carries a log of observable events (notifications delivered to the
  observer and executed teardowns), which is what properties talk about.
* User closures are arbitrary Lean functions. Panics (`panic!`, `unreachable!`, `expect`,
  debug assertions) are explicit error values (`Option`/`Except`), not totalised away.
* Integers: `usize` counters that use `saturating_add` are modelled with saturation at an explicit
  `usizeMax`; id generators (`wrapping_add`) are modelled by `Nat` (no wrap before 2^64 ids).
  `Duration` is `Nat` nanoseconds.
* Locks: single-threaded models make the re-entrant `try_lock` behaviour explicit (a call made
  while the lock is held is deferred). A separate small-step model with atomic lock operations
  covers threads for the shared subscriber.
* Scheduler work bodies are arbitrary state transformers on an arbitrary world which may issue
  arbitrary scheduler actions.

## 3. Layout

`Verif/Model/*` are the models, `Verif/Spec/*` small independent specifications, `Verif/Lemmas/*` helper lemmas,
`Verif/Props/*` the theorems named after the properties, with examples that meet their hypotheses beside them.
`Verif.lean` imports every `Props` module.

| `Verif/Model/` | crates modelled | properties |
|---|---|---|
| `Signals`, `Subscriber`, `SubscriberState` | `rx_core_common` signals, subscriber traits, observer subscriber, `SubscriberState` | C01, C02, C06, C07 |
| `Subscription`, `SharedSubscription` | `rx_core_common` subscriptions and teardowns | C03, C04, C05 |
| `Operators`, `Pipeline` | the synchronous operators (map, filter, take, skip, scan, reduce, tap, start_with, pairwise, buffer_count, materialize, into_result, lift, ... ) and pipes of them | C01, C02, C05, C08-C18 |
| `Scheduler` | `rx_core_scheduler_ticking`, scheduling front end of `rx_core_common` | C19-C24 |
| `SharedSubscriber`, `SharedThreads` | `SharedSubscriber`, one thread with re-entrancy, and several threads | C25, C26 |
| `PublishSubject`, `CachingSubjects` | the subjects | C27-C32, C56 |
| `Combine` | notification stores, zip, combine_latest, combine_changes, join, with_latest_from | C33-C38 |
| `HigherOrder` | merge/concat (`_all`, `_map`), switch, exhaust | C39-C43 |
| `Recovery`, `Retry` | catch, retry | C44, C45 |
| `Share` | connectable observable, share | C46 |
| `SchedulerClient` | an operator sharing a scheduler with an arbitrary program | C47-C55 |
| `Timed`, `Throttle`, `TimedSources`, `Adsr` | delay, debounce_time, observe_on, throttle_time, timer, interval, iterator_on_tick, subscribe_on, fallback_when_silent, adsr | C47-C55 |
| `BevyCommands` | `rx_bevy_common`: observable and subscription components, subscribe commands and events, retry and cleanup systems | C59-C61 |
| `BevySources` | `rx_bevy_observable_{resource,keyboard,message}` | C62-C64 |
| `MergeConcat` | the observables `merge` and `concat` | C69 |
| `SharedClosing` | `SharedSubscriber`, several threads, all notifications, `is_closed`, drops, panic and poisoning | C67, C68 |
| `SubjectThreads` | `PublishSubject`, several threads: subscribing, all notifications, unsubscribing, `is_closed`, drops, panics and poisoning | C70, C71 |
| `BevyEvents` | `rx_bevy_observable_event`, subscription satellites, the despawn work | C72 |
| `CachingThreads` | `BehaviorSubject` and `ReplaySubject`, several threads, over `SubjectThreads` | C73 |
| `AsyncThreads` | `AsyncSubject`, several threads, over `SubjectThreads` | C74 |
| `Panics` | callbacks that panic: `SubscriptionData`, `Arc<Mutex>`, `Arc<RwLock>`, `Weak<Mutex>`, `SharedSubscriber`, `PublishSubject` | C75-C78 |
| `BevySubjects` | subjects on entities: `SubjectComponent`, `SignalObserverSatelliteBundle`, what their hooks and observers do | C79 |
| `BevyProxy` | `ProxyObservable` and its subscription, `EntitySubscription`, `EntityCommands::as_observable`, `with_commands`, `with_observable`, the despawn works, `SubscriptionComponent` for one subscription | C81 |
| `Testing` | `NotificationCollectorState`, `MockObserver`, `HarnessDestination`, `assert_terminal_notification`, `MultiRoundNotificationCollectorState`, `TrackedIterator`; an assertion is `true` if it passes, `false` if it panics; messages and printing are left out |
| `CombineWiring` | `subscribe` of zip, combine_latest, combine_changes and join: two inputs on clones of one `SharedSubscriber`, whose subscriptions are teardowns of one `SharedSubscription`; queue and lock of the `SharedSubscriber` as in `Shared`; inputs are things that send; an observer may unsubscribe the handle while it is called |
| `SharedHandles` | `SharedSubscription` used by any number of threads: `unsubscribe`, `is_closed`, `add_teardown`, `clone`, `drop`, at lock granularity; the mutex of the subscription with `try_lock` and waiting; the deferred queue, its closed flag and `unsubscribe` having been observed; teardowns do not call back or panic |
| `LatestWiring` | who holds on to the inner subscription of with_latest_from: `new`, `unsubscribe` and `drop` of its subscriber, with sources that ask `is_closed` before unsubscribing or not, and inner subscriptions that unsubscribe on drop or not; the destination does not call back |
| `SchedulerPanics` | the parts of the ticking executor that run closures, with closures that panic and an owner who catches the panic of `tick_to` and goes on: what `tick_scheduled` and `execute_invoked` leave behind; a closure that panics has done everything else it does before |
| `SubjectFeeds` | a subject of any kind, given by what its operations do, as the destination of several subscriptions: one `ObserverSubscriber` per subscription; subscribers of the subject do not call the inputs |
| `SharedDrops` | handles of a `SharedSubscriber`, cloned and dropped by users, on top of the model in `Panics`; debug assertions are on; handles are not dropped while unwinding, and the destination holds none |
| `SubjectDrops` | the owners of the state of a `PublishSubject`, clones and subscriptions, and their being dropped, on top of the model in `Panics`; debug assertions are on |
| `SubscriptionDrops` | handles of a `SharedSubscription`, cloned and dropped by users, whose teardowns may panic, on top of the model in `Panics`; debug assertions are on; one thread, and teardowns do not call back |
| `FlagDrops` | `take` and `element_at` with destinations that may panic, and the closed flags they own being dropped; debug assertions are on; destinations do not call back |
| `Callbacks` | `FnObserver`, `DynFnObserver`, `NoopObserver`, `None` as an observer, subscribed | C80 |
| `OptionSubscription` | `OptionSubscription`, subscribing to an `Option` of an observable | C03 |
| `BevyDestinations` | `EntityDestination`, `ResourceDestination` | C66 |
| `Sources` | just, empty, never, throw, closed, create, deferred, iterator | C53, C57, C58 |

## 4. Plan per property

| Id | Model | Proof method |
|---|---|---|
| C01, C02, C05 | `Sub`, `ObserverSubscriber`, inductive type of operators and of pipelines | laws preserved by every operator; induction over pipeline and over call sequence |
| C03 | `SubscriptionData`, teardown log | invariant by induction over operations |
| C04 | heap of shared subscriptions with lock flags and deferred queues | well-founded recursion on open subscriptions; invariant |
| C06 | five flags of `SubscriberState`, `Option` for assertions | iff by induction over the sequence |
| C07 | notification types, `From`/`TryFrom`, `push` | case analysis |
| C08-C17 | operator subscribers | simulation against list specification for every lawful destination |
| C18 | pipelines | induction over chain |
| C19-C24 | ticking scheduler and executor with arbitrary work | invariants over tick sequences |
| C25 | shared subscriber with re-entrant destination | invariant over queue rounds |
| C26 | small-step interleaving model | counterexample schedule (lost wake-up) + partial theorem |
| C27, C28, C56 | multicast + publish subject with re-entrant subscribers | refinement to history specification |
| C29-C32 | behavior/replay/async/provenance subjects on top of the publish subject | refinement |
| C33-C38 | notification queue/state, combination subscribers | invariants over all interleavings |
| C39-C44 | higher-order state, inner subscriber, concurrent/switch/exhaust/catch | invariants over all event histories |
| C45 | retry observable and subscriber | counterexamples + partial theorem |
| C46 | connection and connector state, connectors, clones of a share | invariant over histories: at most the registered connection is open, and it feeds the current connector; if the connector is kept, all subscribers are with the current one; a connector that was dropped is never fed again; counterexamples |
| C47-C51 | timed operators on the executor, with an arbitrary program beside them | every history on the executor is a history of a one-operator machine (`solo_of_run`); there, a record of arrivals and deliveries with an invariant (`Port.Fits`) |
| C52-C54 | timer, interval, iterator_on_tick, subscribe_on on the same machine | the same |
| C53, C57, C58 | source observables as programs run against a subscriber | list specification, for every lawful destination |
| C55 | ADSR phase machine over an abstract ordered number type, on the executor | the record of samples is the record of a pure function of trigger history; order and range by induction |
| C66 | destinations that schedule one immediate work per notification, on the executor; the target is part of the state | invariant: waiting work = sent and not run, in order; writer and target as a fold over the timeline |
| C67 | transition system, one step per lock operation; all flags of the deferred state, `is_closed` checks of `next`, `error`, `complete`, the drop of a clone; the destination is any that is inert when closed and closes when told | invariants over all schedules: order of the line (given, drained, deferred), who holds the lock, why the flags are set; running one thread alone to its return |
| C68 | same; the panic of `apply_notification_queue` is a state of the thread and poisons the mutex | invariants: nothing can lock a poisoned mutex; each drained round holds a call that had not returned when this one began; running one thread alone |
| C69 | the loop of `subscribe`, over the model of merge_all; histories are the inputs handed over, then what the inputs do later and unsubscribing | corollaries of C39, C40, C43, whose hypothesis on the outer observable always holds here; closed form for synchronous inputs by induction over them |
| C70 | transition system, one step per operation on the mutexes of the deferred state and of the set of subscribers; subscribers are any that are inert when closed and close when told | invariants over all schedules: order of the line (handled, drained, deferred), who holds the lock, what each subscriber has heard of the calls handled since it was added |
| C71 | same; both panics are states of the thread, the one with the lock held poisons it | invariants: why the flags are set, what becomes of each call, where a late `subscribe` is; running one thread alone to its return |
| C65 | the executor's tables: active work under the operator's cancellation id, the queue, and closures of the operator anywhere | two generic invariants of operators on the executor (cancel when closing; work that is done when ticked), shown for each operator |
| C62-C64 | sources that look at a resource in each tick, on the executor; what happens to the resource is part of the timeline | invariant as for C52; what is found at a look, as a function of the timeline, by induction |
| C72 | world of entities, satellites, the executor's queue and tables as far as the subscriptions use them, commands not yet applied; one step per phase of a tick, anything in between | each subscription is projected out; invariants over all histories of the projection: stages from queued to started, and from closed to removed |
| C73 | the machine of C70 next to a memory behind its own mutex; `next` writes and begins, `subscribe` asks for an error, copies and begins, each in a step of its own | every run is a run of the machine of C70 whose subscribers were given the remembered values beforehand (changing a subscriber that was not subscribed yet commutes with everything), so C70 and C71 apply; calls are numbered in order of time, which gives the exact values by a permutation argument |
| C74 | the machine of C70 next to a value behind its own mutex; `complete` copies the value, publishes it and completes, `subscribe` asks whether the subject is closed, copies the value, asks for an error and subscribes, each in a step of its own | as for C73; the trace obeys a law that says of every mark what came before it (which `complete`, which result, which `subscribe`), kept by every step; the exact sequence by the order of the calls inside: nothing overtakes a value (`run_caught`), nobody is greeted by its own `subscribe` unless the end had begun (`run_welcomed`) |
| C75 | `SubscriptionData` with teardowns that panic; what `drain(..)` drops | each teardown is in exactly one place, kept by every call; the run split at the first call that closes |
| C76 | a lock with a poison flag around a destination whose functions may panic | induction over the calls: before the first panic a fold of the destination, after it only `unsubscribe` |
| C77 | the model of C25 with a destination that may panic at any point; a panic poisons the mutex, on which `try_lock` then fails | simulation by the model of C25 up to the panic; afterwards only the deferred state moves |
| C78 | the model of C27 with subscribers that do not call back but may panic; a panic poisons the mutex around them | simulation by the model of C27 up to the panic; induction over the subscribers asked; afterwards nothing moves but the queue |
| C79 | entities, subjects, the observers spawned for them and the one reference to the newest; a history of commands and signals, each with what hooks do, as one step; observers in any order | an invariant relating the world to what was seen of one entity and type; induction over the history; `told` is the specification |
| C80 | the callbacks an observer holds, the subscription around it; calls return a state and whether they panicked | induction over the calls up to the first panic; an invariant for histories with panics |
| C81 | one subscription: its destination, entity, source, the works and commands that concern it, each phase of a tick as a step; the environment decides everything else | the destination hears what a specification of the trace says (induction); the number of tickets for subscribing never grows; an invariant that whatever is alive has its end armed, for histories in which the spawn is not overtaken |
| C82 | a collector as the fold of `push` over a history; mock observers as a run of operations on any number of them; iterators likewise | invariants over the history: what is observed ++ what is observed after close = the history; each assertion reduced to a statement about the list |
| C83 | a run of sends, unsubscribes and drops on the state of the combination's subscriber, the destination, the queue and where the inputs are | invariant over the run, on top of `Combiner.Implements` (C34-C37): what was processed and what is queued is a history the rule speaks about; what follows the end is ignored; `drain` needs two rounds at most |
| C84 | a program counter per thread, any schedule of turns | an invariant of 25 parts kept by every step (only the first to unsubscribe ever defers, so at most one thing is ever queued); a second one about what is seen; a measure that falls while one thread goes on alone; nothing is deferred if unsubscribe does not overlap with `add_teardown` or `is_closed` |
| C85 | a state of the two inputs beside the model of C38, any list of acts | each act keeps an invariant (a source that let go has a closed destination), keeps the inner input gone and a closed destination as it is; what the destination is told is related to C38 by a simulation with what the inputs have said; the full statement is a definition, refuted by a witness |
| C86 | the model of C19-C24 with a table of which runs panic, going on after panics | an invariant about one work, kept by every function whether it is left by a panic or not: it is with the executor or in the queue unless cancelled or done, and its own state agrees with its runs (laws per kind of work); what will be registered under an invoke id once the queue is processed; functional equality with the old model when nothing panics; witnesses for what fails |
| C87 | a subject given by its step function, and inputs around it | simulation: the subject's state is the fold of what the history tells it, a relation stated from the history alone and shown functional; invariant per input about closedness and teardowns; then the theorems of C27, C29-C31 about direct use apply |
| C88 | the model of C77 with a count of handles | invariants over the history: the destination is gone iff the handles are; unless the mutex is poisoned nothing is pending after a call or a drop, so that a drop does nothing and the run is the one of C77 with the calls alone |
| C89 | the model of C78 with its owners | invariant: unless somebody panicked nothing is pending and every subscriber in the list is closed or has a subscription somebody owns; so the one that panics has one, and dropping it leaves something pending |
| C90 | the lock, the flags and the queue of `SharedSubscription` around the model of C75, with a count of handles | invariant: nothing is ever queued, both flags and the subscription agree, and only a closed one is poisoned; so each step is a step of C75 or none |
| C91 | the two subscribers over any destination that may panic, going on after panics | invariants over the history: values given + count left = count; no value was given, or one and the flag is closed |
| C59-C61 | world of entities, satellites, pending commands, deferred despawns | invariant over all histories; counterexamples |

Where the code does not have the property, the negation is proved with a concrete witness
next to a `..._partial` theorem saying what does hold; see section 5.

## 5. Findings (places where the code violates the stated property)

Each is a theorem in `Verif/Props` about a concrete history of the model. Nothing was run against the Rust code.

| Theorem | What happens |
|---|---|
| `C02_into_result_counterexample`, `C16_into_result_end_counterexample` | `into_result` turns an error into a value and is not closed afterwards |
| `C02_take_into_result_counterexample` | with `take` above `into_result`, the head is closed by an error but a later call still reaches the observer |
| `C17_tap_second_subscription_counterexample` | the side observer of `tap` is shared by all subscriptions and dead after the first one ends |
| `C20_zero_interval_hangs` | repeating work with interval 0 keeps the executor in one tick for ever |
| `C22_same_pass_counterexample` | cancelling has no effect on work that is due later in the same pass |
| `C23_cancel_drops_others_counterexample`, `C23_cancel_keeps_own_counterexample` | `CancelInvoked` keeps the cancelled id's pending invocations and drops all others (inverted `retain`, ticking_executor.rs:175-176) |
| `C26_lost_wakeup_counterexample` | three threads: a value stays in the queue of a `SharedSubscriber` after all calls returned |
| `C29_value_sent_after_end`, `C29_answer_lost`, `C30_value_sent_after_end`, `C31_value_after_unsubscribe`, `C31_value_sent_after_completion` | a value sent after the end of a behavior/replay/async subject is remembered and replayed; a value sent in answer to a replayed one is lost |
| `C87_behavior_after_end` | the same without misuse: a behavior subject that is the destination of two subscriptions, one of which completed, remembers and replays what the other goes on to send |
| `C88_counterexample`, `C88_abort` | after the destination of a shared subscriber has panicked, what is sent stays pending and the drop of the last handle panics in debug builds; if it does so while unwinding the program aborts |
| `C89_counterexample`, `C89_counterexample_unsubscribe` | whenever a subscriber of a publish subject panics on a value, an error or the completion, or while it alone is unsubscribed, dropping the subject and its subscriptions panics again in debug builds, in whatever order; while unwinding that aborts the program |
| `C91_counterexample_take`, `C91_counterexample_element_at` | dropping an open `take` or `element_at` whose destination panics as it is unsubscribed drops an open flag while unwinding: in debug builds the program aborts |
| `C91_counterexample_two_values` | `element_at` gives a destination that panicked on its value a second one |
| `C91_counterexample_not_told`, `C91_counterexample_never_completes` | `take(n)` whose destination panicked on the n-th value never completes, and stays open |
| `C33_limit_zero_counterexample`, `C33_pop_after_error_counterexample` | a queue with limit 0 holds one value; popping after an error fails an assertion |
| `C34_completion_counterexample` | zip does not complete when the finished input has no unpaired value and the other is ahead |
| `C35_completion_counterexample`, `C35_unsubscribe_counterexample` | combine_latest unsubscribes instead of completing, or stays open though it can emit no more |
| `C39_slot_lost`, `C40_overtaken`, `C43_stuck`, `C43_concat_leaks`, `C43_second_completion` | merge/concat: a slot is lost or an inner observable overtaken when inner observables end while they are subscribed; completion missing or twice |
| `C41_late`, `C41_panics`, `C42_leak`, `C42_panics`, `C43_switch_unsubscribed` | switch/exhaust: a value of an abandoned inner observable, leaks and panics when inner observables end while they are subscribed |
| `C44_cut_off` | catch over an already failed subject cuts off the recovery observable |
| `C45_extra_attempt`, `C45_extra_values`, `C45_stale_error` | retry subscribes once too often, delivers what that attempt emits, or delivers an old error |
| `C46_second_round`, `C46_second_round_error`, `C46_after_reset` | after an ended round, share with reference counting is not disconnected when the last subscriber leaves |
| `C46_left_while_connecting`, `C46_closed_subscriber` | share stays connected without subscribers |
| `C46_source_unsubscribed` | share does not pass on that its source was unsubscribed |
| `C46_deadlock` | the only subscriber of a shared subject closing on a value is a deadlock |
| `C46_subscribed_again` | after completion each new subscriber makes share subscribe to the source again |
| `C48_lost_value`, `C48_completed_early` | debounce_time loses the pending value on completion |
| `C49_leading_too_close`, `C49_cooldown_too_short`, `C49_out_of_order`, `C49_trailing_lost`, `C49_lost_at_completion`, `C49_panics`, `C49_panics_zero` | throttle_time |
| `C50_never_completed`, `C50_given_after_unsubscribe` | observe_on |
| `C51_lost_at_completion` | fallback_when_silent loses the value of the tick in which the source completes |
| `C52_skips` | interval skips the periods above its limit per tick |
| `C53_iterator_extra`, `C53_empty_never_completed`, `C53_single_never_completed` | iterator takes one item too many; iterator_on_tick does not complete for empty (and some single) iterators |
| `C55_restart_delayed`, `C55_restart_no_fire`, `C55_fire_early`, `C55_panics` | adsr |
| `C56_ten_answers_panic`, `C56_late_subscriber_deadlocks`, `C56_unsubscribe_not_flushed`, `C56_unsubscribe_reorders` | re-entrant calls to a publish subject |
| `C60_retry_lost`, `C60_retry_lost_example`, `C60_despawn_waiting` | a subscribe command that has to wait never leads to a lasting subscription: `Last` despawns its entity in the same frame, the retry is in the next `First`. The destination is subscribed for a moment and Bevy reports the insertion into a missing entity |
| `C60_stale_satellite` | inserting an observable over one of the same type and removing it leaves a satellite; subscribe commands then end instead of waiting |
| `C62_late_write_missed` | ResourceObservable: a write in a tick after the look (by other work, or a command of a subscriber) is not seen in that tick, and counts as seen in the next |
| `C62_readded_missed` | ResourceObservable for additions only: a resource that is removed and inserted again between two ticks is not given |
| `C65_fallback_kept` | fallback_when_silent: if downstream closes, its work stays on the executor, and is run in every tick, until upstream ends or is unsubscribed |
| `C65_throttle_kept` | throttle_time: if the destination closes on a leading value, the work is scheduled after the cancellation, and stays until the window ends |
| `C65_timer_kept` | timer: if downstream closes, the work stays until it is due |
| `C65_delay_kept` | delay (debounce_time alike): a value that arrives when the destination is closed is scheduled all the same, and kept until it is due |
| `C67_lost_completion_counterexample` | two threads: a `complete` called while another thread merely asks `is_closed` is queued and stays there after both calls returned |
| `C67_is_closed_counterexample` | `is_closed` answers yes, a `complete` returns, and then `is_closed` answers no because another thread holds the lock |
| `C68_panic_counterexample` | two threads only sending values: the one that holds the lock panics when the other sends ten values meanwhile; its own value is lost, and by `C68_dead_after_panic` nothing is ever delivered again |
| `C69_concat_leaks` | unsubscribing `concat` subscribes the input waiting, which stays subscribed |
| `C69_stuck` | `concat`: an input that stops without completing does not give way to the next, if one has completed before; the destination waits for ever |
| `C70_stuck_value_counterexample` | two threads only sending: a value deferred while the other thread leaves `try_apply_deferred` stays in the queue after all calls returned |
| `C71_missed_end_counterexample` | `subscribe` that overlaps with `complete` adds the subscriber after everyone was told: it stays open for ever |
| `C71_deaf_unsubscribe_counterexample` | and unsubscribing its subscription while another thread holds the lock has no effect: it hears another value and stays open |
| `C71_two_ends_counterexample` | `error` and `complete` overlap: the subscribers hear of the completion, later ones of the error |
| `C71_debug_panic_counterexample` | two threads call `complete`: one panics in debug builds |
| `C72_misses_events_before_the_tick_counterexample` | an event triggered between subscribing to `EventObservable` and the next tick is missed (not claimed by C72) |
| `C73_gap_counterexample` | behavior (replay alike): a value sent while `subscribe` is between copying the value and adding the subscriber is heard by nobody; `value()` and the subscriber differ from then on |
| `C73_twice_counterexample` | a value whose `next` is between storing and publishing it while another thread subscribes is heard twice |
| `C73_last_heard_counterexample` | two overlapping calls of `next`: the value remembered is not the one all subscribers heard last |
| `C74_twice_counterexample` | async: two threads call `complete` at once; every subscriber hears the result twice |
| `C74_missed_value_counterexample` | async: `subscribe` overlaps with `complete`; the subscriber hears the completion without the result |
| `C75_counterexample` | the second of three teardowns panics; the third never runs, whatever is called later |
| `C77_counterexample` | the destination of a `SharedSubscriber` panics; unsubscribing the shared subscriber leaves it open, where an `Arc<Mutex>` would close it |
| `C78_counterexample` | one subscriber of a `PublishSubject` panics; the others hear nothing more, not even the completion, and cannot be unsubscribed |
| `C79_twice_counterexample`, `C79_left_counterexample`, `C79_replaced_counterexample` | a `SubjectComponent` is inserted into an entity that has one of the same type: each later signal is pushed twice, also to a subject inserted after a removal; the replaced subject is never unsubscribed |
| `C80_open_counterexample`, `C80_complete_counterexample` | an error without a callback, or a callback for an end, panics: the subscription stays open, teardowns have not run, a later value reaches the callback |
| `C81_left_counterexample` | a subscription made with `with_commands` is unsubscribed, and the executor runs the despawn works before the commands of the subscribing system are applied: the entity stays for good |
| `C81_late_counterexample` | the observable of a proxy appears a frame later: it is found by the retry, subscribed to, and given up, as the unfinished entity was despawned at the end of the frame |
| `C83_zip_counterexample` | the handle of a zip is unsubscribed while one input is ahead: both inputs are unsubscribed, the destination stays open |
| `C83_drop_counterexample` | the handle of a combination goes out of scope: nothing is unsubscribed, although docs/rx_in_bevy.md:83 says that subscriptions unsubscribe on drop |
| `C84_lost_unsubscribe_counterexample` | thread 1 calls `unsubscribe` of a `SharedSubscription` while thread 0 holds its mutex in `is_closed` (or `add_teardown`): the call is deferred and returns, `is_closed` says yes, but the teardowns do not run until somebody unsubscribes again or drops a clone, because neither `is_closed` nor `add_teardown` looks at the queue when it is done |
| `C85_complete_counterexample`, `C85_closed_counterexample`, `C85_drop_counterexample`, `C85_released_counterexample` | a subject piped through with_latest_from completes: the destination completes, but the second input (an interval, say) stays subscribed and keeps running, since `WithLatestFromSubscriber` keeps its subscription in a field and not as a teardown of the destination; unsubscribing the handle does nothing, because the subject finds its subscriber closed and skips it; the same after the destination is closed from downstream; dropping everything helps only if the second input's subscription unsubscribes on drop |
| `C86_done_counterexample`, `C86_starved_counterexample`, `C86_invoked_counterexample`, `C86_repeated_counterexample` | a closure panics in `tick_to`, the caller catches it: `tick_scheduled` forgets which work had answered `Done` before, so it runs again in the next tick; work behind the one that panics is not ticked, for ever if it always panics; `drain(..)` drops the invocations behind the one that panicked; repeated work has not consumed its period yet and runs for it again |
| `C82_rounds_counterexample` | `get_round(1)` on a collector with no rounds: `Vec::insert` at an index greater than the length panics, the collector cannot be asked for a later round first |
| `C71_panic_counterexample` | two threads only sending: the one that holds the lock panics when the other sends ten values meanwhile; by `C71_dead_after_panic` nothing is ever delivered again; by `C71_only_when_outrun` it takes at least nine calls that had not returned when it began |

Noticed while reading, not stated as theorems: `add_teardown` and `is_closed` of a multicast subscription deadlock when called
from its own callback; retry subscribes again although the destination is closed; unsubscribing zip leaks; the drop-oldest
variant of a queue uses a wrong index; throttle_time calls the destination while holding its state lock; timer work stays
scheduled after the destination has closed by itself.

## 6. Axioms

Of the MANIFEST theorems, by `#print axioms`: about 4 % depend on none, the rest on `propext`, on `propext, Quot.sound`, or on
`propext, Classical.choice, Quot.sound`. No other axiom occurs. `decide +kernel` is used for concrete examples only, never for a
statement that quantifies over an infinite domain; it adds no axiom.

## 7. Not modelled

* `rx_bevy*` (the ECS integration) beyond what is listed in section 3. Bevy itself is not available; what the model assumes of
  it is: hooks run before their component is removed; despawning an entity despawns the entities whose relationship points to
  it, as declared by `linked_spawn`; a triggered event reaches every observer on its entity, in an unspecified order (`Cfg.ord`);
  commands queued by a system, hook or observer are applied before the next operation of the history; entity ids are not reused;
  inserting into an entity that does not exist drops the component; `is_resource_changed` in an exclusive system means written
  since that system ended its last run, and commands queued by the system are applied before it ends; `ButtonInput` and
  `Messages` do what their documentation says.
* The derive macros (the delegations they generate are
  modelled in each subscriber); panics and poisoning of mutexes, other than in C67, C68, C70, C71 and
  C75-C78, C80, C86, C88-C91, and what unwinding drops; memory ordering; erased/boxed wrappers; printing observers; of `rx_core_testing`
  what is not named in the row `Testing`.
* Threads, other than for a `SharedSubscriber` (C26, C67, C68), a `SharedSubscription` (C84), a `PublishSubject` (C70, C71), a `BehaviorSubject` and a `ReplaySubject` (C73), an `AsyncSubject` (C74).
* `Drop`, other than as a call to `unsubscribe` and in C88-C91.
* Re-entrancy, other than for `SharedSubscriber` (C25), `SharedSubscription` (C04), `PublishSubject` (C56), combinations (C83), answers to replayed
  values (C29, C30) and the scheduler (work may schedule, cancel and invoke). Elsewhere destinations do not call back.
* Overflow of `Duration` and of counters not documented as saturating.
* Floating point: adsr is over an abstract number type; what is assumed of it is stated with the theorems.

## 8. Reading seeded/LOG.jsonl

`failed` lists the declarations whose proofs broke first; modules that import them are then not built.
Where these are only helper lemmas, the entry shows that the proof as written does not go through for
the edited model, not that the property theorem became false. Entries from the first two rounds have no
`verdict` field and were made before `tools/mutate.py` checked that the unedited model builds and
before it removed the concrete examples (a false one can exhaust memory and look like a catch). One
entry of those rounds turned out to be such a case; it is marked `inconclusive` and was repeated.
`tools/sweep.py` makes edits systematically, a few for every definition of the model; entries with a `sweep` field come from it.
