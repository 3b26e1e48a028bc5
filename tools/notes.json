{
 "C02": {
  "status": "partial",
  "note": "Monotonicity holds for every pipeline; finality holds for every pipeline without into_result, which violates it (two counterexample theorems)."
 },
 "C08": {
  "note": "on_next: callbacks that emit values and decide; callbacks sending terminal signals are covered by C01/C02."
 },
 "C16": {
  "status": "partial",
  "note": "Values, errors and the round trip are proved; 'ended upstream implies ended downstream' is false for into_result after an error (counterexample theorem)."
 },
 "C17": {
  "status": "partial",
  "note": "Proved for a fresh side observer; the side observer misses later subscriptions (counterexample theorem)."
 },
 "C20": {
  "status": "partial",
  "note": "Proved for every positive interval. Interval zero hangs the tick (counterexample theorem); termination is proved when no zero interval is scheduled."
 },
 "C22": {
  "status": "partial",
  "note": "Proved for cancellations between ticks and, for cancellations from inside running work, from the next pass of the executor on; within the pass in which it is requested, work later in the order still runs (counterexample theorem). That other work is unaffected is C22_others_unaffected together with C19, C20, C58, whose hypotheses do not mention other work."
 },
 "C23": {
  "status": "partial",
  "note": "At-most-once holds always; exactly-once unless another invoked work is cancelled while invocations wait: cancel_invoked keeps the cancelled id's pending invocations and drops all others (two counterexample theorems)."
 },
 "C33": {
  "status": "partial",
  "note": "Proved for a limit of at least 1 and pushes that keep to the Rx grammar. With limit 0 DropOldest holds one value, and popping after an error can fail a debug assertion (two counterexample theorems)."
 },
 "C34": {
  "status": "partial",
  "note": "Emissions and errors are proved within the queue limit; completion when the other input is not ahead. If it is ahead, zip never completes (counterexample theorem)."
 },
 "C35": {
  "status": "partial",
  "note": "Emissions, errors and completion of both inputs are proved; an input completing (or being unsubscribed) without a value is handled wrongly in some states (two counterexample theorems)."
 },
 "C25": {
  "note": "The exact limit: nesting up to 8 never panics, nesting beyond 9 always does. The destination obeys the subscriber contract (closed means inert, closing notifications close)."
 },
 "C26": {
  "status": "partial",
  "note": "No loss, no duplication, per-thread order, mutual exclusion and delivery by the next call are proved for all interleavings (values only). That everything is delivered once all calls returned is false (lost wake-up, counterexample theorem)."
 },
 "C56": {
  "status": "partial",
  "note": "Proved for all reactions of subscribers that close when told to, for runs that do not panic or deadlock, unless a subscription is cancelled from outside whose subscriber calls the subject when unsubscribed. In that case calls are applied late and out of order; ten nested answers panic; calling the subject when told of its past end deadlocks (four counterexample theorems)."
 },
 "C27": {
  "note": "Subscribers that do not call the subject; those that do are C56."
 },
 "C28": {
  "note": "Subscribers that do not call the subject; those that do are C56."
 },
 "C29": {
  "status": "partial",
  "note": "Proved for open subjects, for ended subjects to which nothing is sent afterwards, and for errored subjects. A value sent after the end replaces the remembered one, and a value sent in answer to the replayed one does not reach the subscriber that sent it (counterexample theorems)."
 },
 "C30": {
  "status": "partial",
  "note": "As C29, for every positive capacity; values sent after the end are remembered (counterexample theorem)."
 },
 "C31": {
  "status": "partial",
  "note": "Proved for subscribers before the end, late subscribers after completion (nothing sent afterwards) and after errors. Late subscribers of an unsubscribed subject get the pending reduction, and values sent after completion change what late subscribers get (counterexample theorems)."
 },
 "C39": {
  "status": "partial",
  "note": "At most `limit` at once, at most once each, and values only from active ones: all histories. Arrival order and 'a free slot is used' need that no inner observable just unsubscribes its subscriber; otherwise a slot can be lost (C39_slot_lost) and an arrival overtakes those waiting (C40_overtaken)."
 },
 "C40": {
  "status": "partial",
  "note": "One after the other among those subscribed: all histories. In arrival order with none skipped: histories in which no inner observable just unsubscribes its subscriber (counterexample C40_overtaken otherwise)."
 },
 "C43": {
  "status": "partial",
  "note": "Merge, concat, switch and exhaust. Errors and single completion: all histories. Completion iff: histories without errors and unsubscriptions (C43_stuck, C43_switch_unsubscribed otherwise; C41_completes_iff and C42_completes_iff for switch and exhaust). Unsubscribing ends everything for switch, exhaust, and merge with limits above one; for concat it starts the next waiting inner observable, which leaks (C43_concat_leaks)."
 },
 "C41": {
  "status": "partial",
  "note": "Switching, order and values: all histories and destinations. Completion iff: histories without errors and unsubscriptions and a destination that does not close itself. No panic: only for such destinations; after the destination closed itself on a value the next arrival is still subscribed for a moment (C41_late) and a failing one panics in debug builds (C41_panics). An inner observable that just unsubscribes makes the destination unsubscribe instead of complete (C43_switch_unsubscribed)."
 },
 "C42": {
  "status": "partial",
  "note": "Subscribed iff none is active while the destination is open, ignored ones never subscribed: all histories. Completion iff: as for C41. After the destination closed itself on a value an arrival is still subscribed and leaks (C42_leak), and panics in debug builds if it fails (C42_panics)."
 },
 "C44": {
  "status": "proved",
  "note": "All histories of source and recovery observable, any destination. An unsubscription following the source's error counts as unsubscribing everything; a subject that already failed sends one to late subscribers, which cuts the recovery off (C44_cut_off)."
 },
 "C45": {
  "status": "partial",
  "note": "Exactly as stated while not all retries have been needed (any mix of synchronous and later failures, any destination), for sources that end while being subscribed, and (what the destination sees) for sources that fail later. Otherwise the code deviates: one attempt too many (C45_extra_attempt, C45_extra_values), the last allowed attempt is cut off although live (C45_cut_off), the error of an earlier attempt is delivered (C45_stale_error). In every history at most max + 2 attempts, one at a time, and no error before max + 1 attempts."
 },
 "C47": {
  "status": "proved",
  "note": "delay on the executor, sharing its scheduler with an arbitrary program that may feed it from inside ticks. Destinations close on complete, error and unsubscribe; the destination does not feed the operator while being notified."
 },
 "C48": {
  "status": "partial",
  "note": "As C47. The pending value is delivered before completion only if every value delivered was the newest at that moment; C48_lost_value and C48_completed_early show the values lost when a newer value arrives from other work in the very tick in which an older one is due."
 },
 "C50": {
  "status": "proved",
  "note": "observe_on on the executor, sharing its scheduler with an arbitrary program. Completion after all pending values is for an upstream that sends no value after completion; C50_never_completed shows that otherwise the destination is neither completed nor unsubscribed."
 },
 "C49": {
  "status": "partial",
  "note": "The property as stated does not hold, with counterexamples: C49_leading_too_close, C49_cooldown_too_short, C49_out_of_order, C49_trailing_lost, C49_lost_at_completion, C49_panics, C49_panics_zero. Proved, on the executor with an arbitrary program beside: the rate as stated for trailing output; for leading output every second delivery, and for both every third, is a duration apart, with bounds on the average; what is given and when; errors at once; the end at most a duration late; no panic if upstream does not end in a tick and the duration is not zero."
 },
 "C52": {
  "status": "proved",
  "note": "For every history of an arbitrary program on the same scheduler, every destination that closes when told to. interval with a period > 0 (with period 0 the first tick does not return, C20). C52_interval_exact: no drift, if no tick is longer than limit x period; C52_interval_tick is the general per-tick count; C52_skips shows that periods over the limit are skipped for good."
 },
 "C57": {
  "status": "proved",
  "note": "For every lawful destination (any chain of operators ending in an observer, open or closed). Producers of create are arbitrary finite interaction programs; state that a producer or factory shares with its clones or with others is not modelled. The handle of create is the destination behind a SharedSubscription (modelled separately, C27)."
 },
 "C53": {
  "status": "partial",
  "note": "iterator: proved in full, also for iterators without end (C53_iterator_returns says when subscribing returns). iterator_on_tick: proved for every history of an arbitrary program on the same scheduler, except completion: C53_empty_never_completed and C53_single_never_completed show that an iterator without items, and one whose only item is given on subscription, is never completed."
 },
 "C54": {
  "status": "proved",
  "note": "For every history of an arbitrary program on the same scheduler and every destination that is closed by its end. The source is what it notifies while it is subscribed, and arbitrary later notifications."
 },
 "C51": {
  "status": "proved",
  "note": "For every history of an arbitrary program on the same scheduler, in each tick after the subscription (C51_tick, if the destination is open at the end of the tick; C51_at_most_one otherwise), and never between ticks. \"Of that tick\" means since the operator had its turn in the previous tick. C51_lost_at_completion: completion does not wait for the value of the current tick."
 },
 "C55": {
  "status": "proved",
  "note": "For all histories and numbers: what is emitted are the signals of the samples, one sample per tick; transitions are reported exactly when the phase changes, also for what is emitted; values are within 0 and 1 (and not NaN if the easing functions make none); the phases follow the legal order; values are those of the envelope as a function of time while held and while released. f32 and the easing curves are a parameter. Findings proved as counterexamples: a restart in release loses the time of one tick (C55_restart_delayed), does not report Fire without attack time (C55_restart_no_fire), a release in the attack reports Fire (C55_fire_early), a tick before the last panics (C55_panics)."
 },
 "C46": {
  "status": "partial",
  "note": "For all histories of a share or connectable observable with a PublishSubject connector: at most one open subscription to the source, made only when none is open; connected while there is a subscriber (unless told to disconnect or the source unsubscribes); values and the end reach each subscriber once; disconnected when there is no subscriber, as long as no round ended with a new connector taken, and nobody leaves while the source is being subscribed to. Missing part is false, proved as counterexamples: C46_second_round, C46_second_round_error, C46_after_reset, C46_left_while_connecting, C46_closed_subscriber, C46_source_unsubscribed, C46_deadlock, C46_subscribed_again. Re-entrant calls to the shared observable from its own subscribers are not modelled."
 },
 "C59": {
  "status": "proved",
  "note": "For all histories of the model of the Bevy integration. What Bevy does (hooks, observers, despawning of related entities, command order) is an assumption written into the model; Bevy's source was not available."
 },
 "C60": {
  "status": "partial",
  "note": "For all histories: subscribed at most once, to an observable of the right entity and types, at once if there is one (in histories where no observable is inserted over one of the same type); otherwise retried, at most three times. Missing: the retry works only if it comes before Last (C60_retry_partial). It never does in the schedules of the plugin, because Last despawns the entity of the waiting subscription: proved as C60_retry_lost, for all continuations. C60_stale_satellite: a re-inserted and removed observable leaves a satellite that swallows subscribe commands."
 },
 "C61": {
  "status": "proved",
  "note": "For all histories of the model of the Bevy integration."
 },
 "C62": {
  "status": "partial",
  "note": "For all histories on the executor, with an arbitrary program beside the source: what each tick gives is exactly what the statement says (C62_follows, C62_tick, C62_between, C62_before); a value written between ticks is given in the next one (C62_write_partial). Missing: what a user would expect of a write in a tick after the look, or of a resource removed and inserted again when only additions are asked for; both are never given (C62_late_write_missed, C62_readded_missed). Bevy's change detection is an assumption written into the model."
 },
 "C63": {
  "status": "proved",
  "note": "For all histories on the executor, with an arbitrary program beside the source. ButtonInput is modelled from its documentation; no claim about the order of keys in a tick."
 },
 "C64": {
  "status": "proved",
  "note": "For all histories on the executor, with an arbitrary program beside the source. Messages and MessageCursor are modelled from their documentation. C64_lost: messages are lost if the buffers are updated twice between two ticks."
 },
 "C65": {
  "status": "partial",
  "note": "Proved in full for interval, subscribe_on, iterator_on_tick, adsr, observe_on and the three Bevy sources; for delay and debounce_time if no value arrives when the destination is closed, and in any case once all values are due. Fails for fallback_when_silent (C65_fallback_kept: its work is kept until upstream ends or is unsubscribed), for throttle_time if the destination closes on a leading value (C65_throttle_kept), and for timer if somebody else closes the destination (C65_timer_kept); the last two are released when they are due (C65_throttle_due, C65_timer_due)."
 },
 "C66": {
  "status": "proved",
  "note": "On the executor, with an arbitrary program beside. That commands queued by the works (triggering events) are applied in the order in which they were queued is assumed of Bevy."
 },
 "C67": {
  "status": "partial",
  "note": "All proved except the last sentence, which is false: what a thread could not hand over may stay in the queue (C67_lost_completion_counterexample) and is_closed may answer no for a closed destination (C67_is_closed_counterexample). Proved instead: any later call or drop makes up for it (C67_recovers), with nothing waiting a closing call has closed the destination, and when is_closed wrongly answers no the destination is closed. The destination does not call back into the shared subscriber (that is C25)."
 },
 "C68": {
  "status": "partial",
  "note": "False (C68_panic_counterexample, two threads sending only values), and after such a panic nothing is ever delivered again (C68_dead_after_panic). Proved: a call panics only if at least nine other calls had not returned when it began (C68_only_when_outrun), and a call or drop made while no other thread is inside a call returns without panicking, whatever waits."
 },
 "C69": {
  "status": "partial",
  "note": "False for inputs that stop without completing (C69_stuck), and unsubscribing concat, or merge with a limit of one, subscribes the input waiting, which stays subscribed (C69_concat_leaks). Everything else is proved without those: order and completion for inputs that do not stop so, unsubscribing for limits above one. The inputs and the destination do not call back into the operator."
 },
 "C70": {
  "status": "partial",
  "note": "A value may stay in the queue after all calls have returned, although only next was ever called (C70_stuck_value_counterexample); C70_none_missed_partial says so, and C71_recovers that the next call delivers it. Everything else is proved. Ten deferred rounds panic, see C71."
 },
 "C71": {
  "status": "partial",
  "note": "False if subscribe overlaps with a call that ends the subject: the subscriber may stay open for ever (C71_missed_end_counterexample), even after its subscription is unsubscribed (C71_deaf_unsubscribe_counterexample); proved for all others, once nothing waits, and the next call sees to that (C71_recovers). If error and complete overlap, later subscribers may be told of the other one (C71_two_ends_counterexample); proved if all ending calls are of one kind. A call may panic: two concurrent completes in debug builds (C71_debug_panic_counterexample), or ten calls made during one (C71_panic_counterexample), after which nobody hears anything (C71_dead_after_panic); a call made alone does not (C71_alone_partial), nor, apart from that complete, one that fewer than nine others overlap (C71_only_when_outrun)."
 },
 "C72": {
  "status": "proved",
  "note": "Bevy's behaviour is assumed as listed in Model/BevyEvents.lean. That nobody uses cancel_invoked, which forgets the invocations of others (C23), is part of the model. Events triggered between subscribe and the next tick are missed (C72_misses_events_before_the_tick_counterexample): the property does not claim otherwise."
 },
 "C73": {
  "status": "partial",
  "note": "Exactly once, in order and up to date are proved when no call of next overlaps with the subscribe (and, for the order, no two calls of next overlap). Otherwise they are false of the code: a value sent while subscribe is going on is missed (C73_gap_counterexample) or heard twice (C73_twice_counterexample), and two overlapping calls of next leave subscribers with a last value that is not the remembered one (C73_last_heard_counterexample). Subscribers do not call back."
 },
 "C74": {
  "status": "partial",
  "note": "At most once is proved if complete is called once; the exact sequence if moreover neither error nor unsubscribe is called and the subscribe had returned before. Otherwise they are false of the code: two overlapping calls of complete publish the result twice (C74_twice_counterexample), and a subscriber whose subscribe overlaps with complete hears the completion without the result (C74_missed_value_counterexample). Values sent after complete change the result late subscribers hear, as for one thread (C31). Subscribers do not call back, the reducer does not call the subject."
 },
 "C75": {
  "status": "partial",
  "note": "That all run is false of the code: the panic leaves the loop over drain(..), which drops the teardowns behind it without calling them (C75_counterexample). Proved: none runs twice, exactly which run and which are lost, that the subscription is closed, who sees the panic."
 },
 "C76": {
  "status": "proved",
  "note": "Closing the destination assumes that its unsubscribe closes it. One thread; the destination does not call back through the lock (that would deadlock)."
 },
 "C77": {
  "status": "partial",
  "note": "That it can still be unsubscribed is false of the code: try_lock also fails on a poisoned mutex, so every later notification, unsubscribe included, is deferred for ever (C77_counterexample, C77_after_a_panic_partial), and values pile up (C77_piles_up). Proved: agreement with C25 while nothing panics, the beginning, no panics afterwards, what is_closed answers, and that handing over a teardown still unsubscribes the destination."
 },
 "C78": {
  "status": "partial",
  "note": "False of the code: the panic poisons the mutex around all subscribers, on which try_lock then fails for ever (C78_counterexample). Proved: agreement with the publish subject without panics; who hears the notification that panics and who misses it; that afterwards nobody is given anything, nobody is removed and calls pile up; that a late subscriber is given nothing. Subscribers do not call back; one thread."
 },
 "C79": {
  "status": "partial",
  "note": "False of the code where a subject is inserted into an entity that has one of that type: subject_on_insert spawns another observer, the old one stays, and each signal is pushed twice (C79_twice_counterexample), also to subjects inserted after the next removal (C79_left_counterexample); the replaced subject is not unsubscribed (C79_replaced_counterexample). Proved: exactly what a subject is told in every history, with the number of times; once if none was inserted where there was one; nothing for entities that do not exist; exactly how many observers are left. What Bevy does is assumed, as stated in the model."
 },
 "C80": {
  "status": "partial",
  "note": "The last part is false of the code: ObserverSubscriber unsubscribes only after the callback has returned, so after a panic (an error without a callback, or a callback that panics) the subscription stays open, teardowns do not run until it is dropped, and later values are handed to the callback (C80_open_counterexample, C80_complete_counterexample). Proved: exactly what is run while nothing panics; what the first panic leaves; in every history that ends are run at most once, nothing is made up, and unsubscribing runs every teardown exactly once."
 },
 "C81": {
  "status": "partial",
  "note": "Heard exactly, once, subscribes, cancelled: proved in full. Release is proved if the commands of the subscribing system are applied before the executor finishes a tick (Timely; always so for ProxyObservable); without it, it is false: C81_left_counterexample. C81_late_counterexample: a proxy whose observable appears a frame later subscribes and is unsubscribed at once."
 },
 "C82": {
  "status": "partial",
  "note": "All but rounds proved in full. Rounds: proved if each round is asked for after the ones before it (C82_rounds_partial); get_round of a later round panics (C82_rounds_counterexample)."
 },
 "C83": {
  "status": "partial",
  "note": "proved for combine_latest, combine_changes and join. zip: for inputs that send no more values than the queue holds, and without the last clause, which is false (C83_zip_counterexample): unsubscribed while one input is ahead, the destination stays open. Dropping the handle does not unsubscribe, although the docs say so (C83_drop_counterexample)."
 },
 "C84": {
  "status": "partial",
  "note": "The last part is false in the code: an unsubscribe that runs into another thread's add_teardown or is_closed is deferred, returns, and is not carried out until somebody unsubscribes again or drops a clone (C84_lost_unsubscribe_counterexample). Proved for unsubscribes made while no other call is going on (C84_unsubscribe_partial), for all histories in which unsubscribe does not overlap with add_teardown or is_closed (C84_apart_partial), and that the next drop makes up for it (C84_drop_partial); all other parts are proved in full. Teardowns that use the subscription themselves are the subject of C04, not of this model."
 },
 "C85": {
  "status": "partial",
  "note": "The first sentence is false in the code (C85_released_counterexample): when the source completes, the second input stays subscribed, and unsubscribing the handle of a source that asks is_closed first (every subject, interval) does not help either (C85_complete_counterexample, C85_closed_counterexample); dropping everything does, unless the second input's subscription is a SharedSubscription (C85_drop_counterexample). Proved: unsubscribing or dropping while the destination is open lets go for good (C85_unsubscribe_partial), unsubscribing always does with a source that does not ask (C85_plain_source_partial), dropping does with subscriptions that unsubscribe on drop (C85_drop_partial), and nothing is let go of early (C85_not_before). What the destination is told in the meantime is what C38 says (C85_told)."
 },
 "C86": {
  "status": "partial",
  "note": "Proved: no active work is lost (C86_not_lost), delayed and immediate work run exactly once at the right time whatever panics (C86_delayed, C86_immediate), work cancelled between ticks does not run again (C86_cancelled), work that answered Done in a tick that did not panic does not run again (C86_done_partial), work registered for invocations survives panics, its own too, and a later invocation runs it in the next tick that does not panic (C86_invoked), the clocks advance also in a tick that panics (C86_clock), without panics this is the model of C19-C24 (C86_no_panics). False in the code, with witnesses: work that answered Done in a tick that then panicked runs again (C86_done_counterexample); work that always panics starves everything scheduled after it for ever (C86_starved_counterexample); invocations behind one that panics are lost (C86_invoked_counterexample); repeated work that panics runs again for the same period (C86_repeated_counterexample). Simplification: a closure that panics has done everything it does first."
 },
 "C87": {
  "status": "proved",
  "note": "C87_as_if_told and C87_inputs hold for any kind of subject, given by what its operations do; C87_observer, C87_behavior, C87_replay and C87_async combine the first with C27, C29, C30 and C31 (subscribers of the subject that do not call it). C87_not_released: a subject that has ended does not close its other inputs. C87_behavior_after_end: the disagreement recorded under C29 is reached this way without any misuse."
 },
 "C88": {
  "status": "partial",
  "note": "Proved: C88_dropped_with_the_last, C88_not_noticed (also across panics), C88_delivers, C88_no_panic for destinations that neither call back nor panic. The last sentence fails once a destination has panicked: every value sent later stays pending for ever, and the debug assertion in the drop of the last handle then fails (C88_counterexample); it can fail while unwinding, which aborts the program (C88_abort). C88_assertion_partial: only then, that is with the mutex poisoned."
 },
 "C89": {
  "status": "partial",
  "note": "Proved: C89_dropped_with_the_last; C89_no_panic if no subscriber panics. The second sentence fails, and always: whenever a subscriber panics on a value, an error or the completion, the drop of its own subscription leaves an unsubscription pending that can never be applied, and the debug assertion in the drop of the shared state fails, in whatever order things are dropped (C89_counterexample; C89_counterexample_unsubscribe if it panics while its subscription is unsubscribed); when the panic was not caught this happens while unwinding and aborts the program. C89_assertion_partial: only then. C89_after_unsubscribe_partial: it never fails for a subject that was unsubscribed before anybody panicked, whatever panics then."
 },
 "C90": {
  "status": "proved",
  "note": "One thread, teardowns that do not call back (C04 has those, C84 has threads). That the teardowns behind the one that panics are lost is C75_counterexample; C90_as_one says that the handles add nothing to that."
 },
 "C91": {
  "status": "partial",
  "note": "Proved: C91_take_at_most, whatever panics. The rest fails: a take whose destination panics on the n-th value never completes and stays open (C91_counterexample_not_told, C91_counterexample_never_completes; C91_take_over_partial: not if it does not panic on that value and the completion); an element_at whose destination panics on its value gives it another (C91_counterexample_two_values; C91_element_at_most_partial: not if it does not panic on values and completions); dropping one that is open while its destination panics as it is unsubscribed drops an open flag while unwinding, which aborts debug builds (C91_counterexample_take, C91_counterexample_element_at; C91_no_assertion_partial: only if unsubscribing the destination panics)."
 }
}