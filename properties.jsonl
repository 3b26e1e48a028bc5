{"id": "C01", "title": "Observer grammar at the end of every pipeline", "statement": "Whatever calls (next / error / complete / unsubscribe / add_teardown) are made on the head of a pipeline built from the composable operators, the observer at its end is called with zero or more next, then at most one of error or complete, and with nothing afterwards.", "quantifier": "all pipelines (any length, any operators, any user closures), all upstream call sequences including protocol-violating ones", "why_tests_cant": "Tests check a harness of a few fixed notifications per operator; the claim is over all call sequences and all operator chains.", "anchors": ["crates/rx_core_common/src/subscribers/subscriber_observer.rs: ObserverSubscriber", "crates/rx_core_common/src/pipe/pipe_observable.rs: Pipe", "docs/contracts.md: rx_verify_no_new_notification_after_closed"]}
{"id": "C02", "title": "What is closed stays closed, and is closed after a terminal signal or unsubscribe", "statement": "A subscriber that reports is_closed() never reports open again, and after error, complete or unsubscribe was delivered downstream is_closed() is true; after that no call changes what the observer has seen.", "quantifier": "all pipelines of composable operators, all states reachable by any call sequence, all further calls", "why_tests_cant": "Monotonicity over all histories cannot be sampled.", "anchors": ["docs/contracts.md: rx_contract_closed_after_error, rx_contract_closed_after_complete, rx_contract_closed_after_unsubscribe", "crates/rx_core_common/src/subscriptions/subscription_closed_flag.rs", "crates/rx_core_operator_take/src/take_subscriber.rs"]}
{"id": "C03", "title": "Teardowns run exactly once", "statement": "Every teardown added to a subscription is executed exactly once by the time the subscription is closed or dropped, never before closing, in the order added; a teardown added after closing is executed immediately. A subscription to an Option of an observable is the subscription to what is there; if there is nothing, it is closed from the start and calls what is added at once.", "quantifier": "all sequences of add_teardown / unsubscribe / drop", "why_tests_cant": "Exactly-once over all histories is an invariant, not an example.", "anchors": ["crates/rx_core_common/src/subscriptions/subscription_data.rs: SubscriptionData", "crates/rx_core_common/src/subscriptions/teardown.rs: Teardown", "crates/rx_core_common/src/subscriptions/subscription_option.rs: OptionSubscription"]}
{"id": "C04", "title": "Shared subscriptions holding each other tear down once and terminate", "statement": "When subscriptions are added to each other in any graph (including cycles and self references through clones), unsubscribing any one of them terminates, closes everything reachable, and executes each registered callback exactly once.", "quantifier": "all finite graphs of shared subscriptions, all start nodes", "why_tests_cant": "Cyclic ownership graphs are unbounded in size and shape; tests build two or three nodes.", "anchors": ["crates/rx_core_common/src/subscriptions/subscription_shared.rs: SharedSubscription"]}
{"id": "C05", "title": "Terminal notification is delivered before the teardowns it triggers", "statement": "When a pipeline ends by error or complete, the observer sees the terminal notification first and the teardowns registered on the subscriber run after it, each once.", "quantifier": "all call sequences and all registered teardowns", "why_tests_cant": "Relative order of effects for all histories.", "anchors": ["crates/rx_core_common/src/subscribers/subscriber_observer.rs: error, complete"]}
{"id": "C06", "title": "Signal-state tracker accepts exactly the Rx grammar", "statement": "Feeding a notification sequence into a SubscriberState causes no debug assertion if and only if the sequence is Next* (Error|Complete)? Unsubscribe?; and each reported flag says exactly which notifications were seen.", "quantifier": "all notification sequences", "why_tests_cant": "An iff over all sequences; the unit tests cover pairs.", "anchors": ["crates/rx_core_common/src/subscribers/subscriber_state.rs: SubscriberState"]}
{"id": "C07", "title": "Notification conversions are lossless and dispatch to the right channel", "statement": "Converting between the notification kinds and back returns the original notification, fails exactly for the kinds that have no counterpart, and pushing a notification into an observer or subscriber calls exactly the corresponding channel with the same payload.", "quantifier": "all notifications, all payloads, all observers", "why_tests_cant": "Universally quantified over payload types.", "anchors": ["crates/rx_core_common/src/signals/notification_observer.rs", "crates/rx_core_common/src/signals/notification_subscriber.rs", "crates/rx_core_common/src/signals/notification_observer_terminal.rs", "crates/rx_core_common/src/signals/notification_subscription.rs"]}
{"id": "C08", "title": "Element-wise operators are list functions", "statement": "map, map_into, map_error, filter, filter_map, lift_option, tap_next, on_next and identity deliver downstream exactly the list image of upstream (map / filter with running index / filterMap), with terminal signals unchanged.", "quantifier": "all closures, all upstream sequences, all downstream subscribers", "why_tests_cant": "For all closures and all lists.", "anchors": ["crates/rx_core_operator_map/src/map_subscriber.rs", "crates/rx_core_operator_filter/src/filter_subscriber.rs", "crates/rx_core_operator_filter_map/src", "crates/rx_core_operator_lift_option/src", "crates/rx_core_operator_map_error/src", "crates/rx_core_operator_on_next/src"]}
{"id": "C09", "title": "take(n) delivers the first n values then completes at once", "statement": "take(n) forwards exactly the first min(n, length) values; right after the n-th value it completes and is closed; take(0) completes on subscription without any value; fewer values than n leave the terminal signal of upstream unchanged.", "quantifier": "all n, all upstream sequences, all downstream subscribers (including ones closing early)", "why_tests_cant": "Off-by-one and early-close interplay over all n and all lengths.", "anchors": ["crates/rx_core_operator_take/src/take_subscriber.rs"]}
{"id": "C10", "title": "skip(n) drops exactly the first n values", "statement": "skip(n) delivers exactly the upstream values after the first n, and terminal signals unchanged.", "quantifier": "all n, all upstream sequences, all downstream subscribers", "why_tests_cant": "For all n and all lengths.", "anchors": ["crates/rx_core_operator_skip/src/skip_subscriber.rs"]}
{"id": "C11", "title": "scan / reduce / count are folds", "statement": "scan emits every prefix fold, reduce and count emit exactly one value - the full fold, resp. the number of values - on completion followed by complete, and nothing on error.", "quantifier": "all reducers, seeds, upstream sequences and downstream subscribers", "why_tests_cant": "For all lists and reducers.", "anchors": ["crates/rx_core_operator_scan/src/scan_subscriber.rs", "crates/rx_core_operator_reduce/src/reduce_subscriber.rs", "crates/rx_core_operator_count/src/count_subscriber.rs"]}
{"id": "C12", "title": "enumerate / pairwise / buffer_count group without loss, duplication or reordering", "statement": "enumerate pairs the i-th value with i; pairwise emits each adjacent pair once; the buffers of buffer_count(n) concatenate to the upstream values, all have length n except possibly a last one flushed on completion, and on error the open buffer is discarded.", "quantifier": "all upstream sequences, all sizes, all downstream subscribers", "why_tests_cant": "For all lists and sizes.", "anchors": ["crates/rx_core_operator_enumerate/src", "crates/rx_core_operator_pairwise/src", "crates/rx_core_operator_buffer_count/src"]}
{"id": "C13", "title": "first / find / find_index / element_at / is_empty search semantics", "statement": "Each emits exactly the element (index, flag) its specification selects from the upstream list followed by complete, ignores everything after the match, and reports the documented error when upstream completes without a match.", "quantifier": "all predicates, indices, defaults, upstream sequences and downstream subscribers", "why_tests_cant": "For all lists, predicates and indices.", "anchors": ["crates/rx_core_operator_first/src", "crates/rx_core_operator_find/src", "crates/rx_core_operator_find_index/src", "crates/rx_core_operator_element_at/src", "crates/rx_core_operator_is_empty/src"]}
{"id": "C14", "title": "start_with / end_with / finalize / on_subscribe", "statement": "start_with prepends one value on subscription, end_with appends one value before completion only, finalize runs its callback exactly once per subscription on any end, on_subscribe runs once on subscription.", "quantifier": "all upstream sequences, all downstream subscribers", "why_tests_cant": "For all histories.", "anchors": ["crates/rx_core_operator_start_with/src", "crates/rx_core_operator_end_with/src", "crates/rx_core_operator_finalize/src", "crates/rx_core_operator_on_subscribe/src"]}
{"id": "C15", "title": "materialize then dematerialize is the identity", "statement": "Composing materialize and dematerialize delivers to downstream exactly what upstream sent; materialize never errors and always completes after the terminal notification value.", "quantifier": "all protocol-conforming upstream sequences and all downstream subscribers", "why_tests_cant": "Round trip over all sequences.", "anchors": ["crates/rx_core_operator_materialize/src", "crates/rx_core_operator_dematerialize/src"]}
{"id": "C16", "title": "into_result / lift_result move errors between channels without loss", "statement": "into_result turns values into Ok and the error into Err and downstream never errors; lift_result turns Ok into next and Err into error; the composition delivers the same values and the same error as upstream, and a stream that ended upstream has ended downstream.", "quantifier": "all upstream sequences and all downstream subscribers", "why_tests_cant": "Round trip over all sequences.", "anchors": ["crates/rx_core_operator_into_result/src", "crates/rx_core_operator_lift_result/src"]}
{"id": "C17", "title": "tap is transparent and sees everything first", "statement": "tap delivers to downstream exactly what upstream sent; its side observer receives the same values and terminal signal in the same order, each one before downstream does.", "quantifier": "all upstream sequences, side observers and downstream subscribers", "why_tests_cant": "For all interleavings of two observers.", "anchors": ["crates/rx_core_operator_tap/src/tap_subscriber.rs"]}
{"id": "C18", "title": "Pipelines compose", "statement": "The behaviour of a chain of composable operators over any downstream is the composition of the behaviours of its operators; a composite operator behaves exactly like the same operators piped one after the other.", "quantifier": "all chains of operators of any length, all upstream sequences, all downstreams", "why_tests_cant": "Induction over chain length.", "anchors": ["crates/rx_core_common/src/pipe/pipe_observable.rs: Pipe", "crates/rx_core_operator_composite/src/composite_operator.rs: CompositeOperator"]}
{"id": "C19", "title": "Delayed work runs exactly once, at the first tick at or after its deadline", "statement": "Work scheduled with a delay runs exactly once, on the first executor tick whose time is at least schedule time plus delay (and never earlier), unless cancelled before.", "quantifier": "all tick sequences, delays, amounts of other work", "why_tests_cant": "All time grids; tests use a few fixed ticks.", "anchors": ["crates/rx_core_scheduler_ticking/src/ticking_executor.rs", "crates/rx_core_scheduler_ticking/src/work"]}
{"id": "C20", "title": "Repeated work catches up exactly and is bounded per tick", "statement": "After any ticks, repeated work has consumed exactly the whole intervals elapsed (no drift), runs at most max_work_per_tick times in one tick and exactly as often as intervals elapsed when that is below the limit; ticking it always terminates.", "quantifier": "all intervals, tick sequences, limits", "why_tests_cant": "All arithmetic combinations; the zero interval is only visible as non-termination.", "anchors": ["crates/rx_core_scheduler_ticking/src/work/ticked_work_repeating.rs"]}
{"id": "C21", "title": "Each scheduled work ticks at most once per executor tick, in activation order", "statement": "During one executor tick every active work is ticked at most once, in the order of activation within a pass, including work scheduled during that tick; finished work is never ticked again.", "quantifier": "all sets of work including work that schedules more work", "why_tests_cant": "Re-entrant scheduling histories are unbounded.", "anchors": ["crates/rx_core_scheduler_ticking/src/ticking_executor.rs: tick_to, tick_scheduled"]}
{"id": "C22", "title": "Cancelled work never runs again", "statement": "Once a cancellation was requested, no work registered under that cancellation id runs any more, and other work is unaffected.", "quantifier": "all schedules of work, all points of cancellation including from inside running work", "why_tests_cant": "All cancellation points in all schedules.", "anchors": ["crates/rx_core_scheduler_ticking/src/ticking_executor.rs: drain_scheduler_queue, cancel_work", "crates/rx_core_scheduler_ticking/src/ticking_scheduler.rs: cancel"]}
{"id": "C23", "title": "Invoked work runs once per invocation and cancelling one leaves the others alone", "statement": "Each invoke of registered work runs it once (until it is Done or cancelled); cancelling an invoked work removes its pending invocations and no others.", "quantifier": "all sequences of add / invoke / cancel", "why_tests_cant": "All orders of operations.", "anchors": ["crates/rx_core_scheduler_ticking/src/ticking_executor.rs: drain_scheduler_queue, execute_invoked"]}
{"id": "C24", "title": "Executor time is monotone and a finished tick is quiescent", "statement": "The executor's clock never goes back; when a tick returns, no scheduled action is left unprocessed and every still-active work has been ticked in it; ids handed out are never reused.", "quantifier": "all tick and delta sequences, all work", "why_tests_cant": "Invariant over all histories.", "anchors": ["crates/rx_core_scheduler_ticking/src/ticking_executor.rs", "crates/rx_core_common/src/scheduling", "crates/rx_core_scheduler_ticking/src/tick.rs"]}
{"id": "C25", "title": "Re-entrant notifications through a shared subscriber are neither lost nor reordered", "statement": "When a destination, while handling a notification, calls back into the shared subscriber it belongs to, the calls do not deadlock and are delivered to the destination after the current one, in call order, up to the first closing one; nothing is delivered after it. If re-entrancy is nested deeper than the documented limit the program panics instead of dropping notifications.", "quantifier": "all destinations (any re-entrant reaction), all outer call sequences", "why_tests_cant": "All reaction trees.", "anchors": ["crates/rx_core_common/src/subscribers/subscriber_shared.rs: SharedSubscriber"]}
{"id": "C26", "title": "Concurrent notifications through a shared subscriber are eventually delivered", "statement": "If several threads call a shared subscriber, then once all calls have returned every accepted notification has been delivered to the destination.", "quantifier": "all thread interleavings at lock granularity", "why_tests_cant": "Race conditions need all schedules.", "anchors": ["crates/rx_core_common/src/subscribers/subscriber_shared.rs: try_next, defer_notification, try_apply_deferred"]}
{"id": "C27", "title": "Publish subject delivers to each subscriber exactly what was sent while subscribed", "statement": "Each subscriber of a publish subject sees exactly the notifications sent between its subscribe and its unsubscribe (or the subject's end), in order, once, independently of the other subscribers.", "quantifier": "all histories of subscribe / unsubscribe / next / error / complete / unsubscribe-subject, any number of subscribers", "why_tests_cant": "All interleavings of any number of subscribers.", "anchors": ["crates/rx_core_subject_publish/src/publish_subject.rs", "crates/rx_core_subject_publish/src/multicast.rs"]}
{"id": "C28", "title": "A finished publish subject replays its terminal state to late subscribers and is inert", "statement": "After complete (error e) every later subscriber immediately gets complete (error e) and a closed subscription; further next/error/complete calls have no effect on anyone.", "quantifier": "all histories", "why_tests_cant": "All histories.", "anchors": ["crates/rx_core_subject_publish/src/publish_subject.rs: subscribe"]}
{"id": "C29", "title": "Behavior subject replays the current value", "statement": "A subscriber to a behavior subject first gets the most recent value sent while the subject was open (or the initial value), then everything sent later.", "quantifier": "all histories of next / subscribe / terminal calls", "why_tests_cant": "All histories.", "anchors": ["crates/rx_core_subject_behavior/src/behavior_subject.rs"]}
{"id": "C30", "title": "Replay subject replays the last CAPACITY values in order", "statement": "A subscriber to a replay subject first gets the last min(CAPACITY, sent) values sent while the subject was open, oldest first, then everything sent later.", "quantifier": "all capacities and histories", "why_tests_cant": "All capacities and histories.", "anchors": ["crates/rx_core_subject_replay/src/replay_subject.rs"]}
{"id": "C31", "title": "Async subject emits exactly the reduced value on completion", "statement": "Subscribers of an async subject get nothing before completion; on completion each gets the reduction of all values sent (if any) once, then complete; late subscribers get the same; on error or unsubscribe nobody gets a value.", "quantifier": "all reducers and histories", "why_tests_cant": "All histories.", "anchors": ["crates/rx_core_subject_async/src/async_subject.rs"]}
{"id": "C32", "title": "Provenance filters select exactly the matching values", "statement": "all() delivers all values, only_by_provenance(p) exactly those sent with provenance p, replay_then_by_provenance(p) additionally the one replayed at subscription.", "quantifier": "all histories of (value, provenance) pairs", "why_tests_cant": "All histories.", "anchors": ["crates/rx_core_subject_provenance/src/provenance_subject.rs"]}
{"id": "C33", "title": "Notification queue is FIFO and bounded with the documented overflow behaviour", "statement": "The queue never holds more than max values; values come out in order; on overflow DropOldest keeps the newest max values and IgnoreNext the oldest max; the reported state is the state at the queue front; an error is reported at once.", "quantifier": "all push / pop sequences, limits and options", "why_tests_cant": "All push/pop histories.", "anchors": ["crates/rx_core_notification_store/src/notification_queue.rs: NotificationQueue"]}
{"id": "C34", "title": "zip pairs the i-th values and ends when no further pair is possible", "statement": "Within the queue limit, the k-th emission of zip is the pair of the k-th values of both inputs; it completes as soon as one input has completed and all its values were paired; an error ends it at once.", "quantifier": "all interleavings of two conforming inputs", "why_tests_cant": "All interleavings.", "anchors": ["crates/rx_core_observable_zip/src/zip_subscriber.rs", "docs/contracts.md: rx_contract_immediate_completion"]}
{"id": "C35", "title": "combine_latest emits the latest pair on every change", "statement": "After both inputs emitted, each value of either input causes exactly one emission with the latest of both; it completes when both inputs completed, or when one completed without ever emitting; an error ends it at once.", "quantifier": "all interleavings of two conforming inputs", "why_tests_cant": "All interleavings.", "anchors": ["crates/rx_core_observable_combine_latest/src/combine_latest_subscriber.rs", "docs/contracts.md: rx_contract_immediate_completion"]}
{"id": "C36", "title": "combine_changes marks which side changed", "statement": "Every value of either input causes exactly one emission; the side that changed is JustUpdated with that value, the other is Latest with its most recent value, or None if it has not emitted; completes exactly when both completed.", "quantifier": "all interleavings of two conforming inputs", "why_tests_cant": "All interleavings.", "anchors": ["crates/rx_core_observable_combine_changes/src/combine_changes_subscriber.rs"]}
{"id": "C37", "title": "join emits the pair of last values once both completed", "statement": "Nothing is emitted before both inputs completed; then the pair of last values (if both emitted) and complete; an error ends it at once.", "quantifier": "all interleavings of two conforming inputs", "why_tests_cant": "All interleavings.", "anchors": ["crates/rx_core_observable_join/src/join_subscriber.rs"]}
{"id": "C38", "title": "with_latest_from emits one pair per source value once the other input has a value", "statement": "Each source value seen after the other input has emitted gives exactly one pair with the other input's latest value; earlier source values are dropped; values of the other input alone emit nothing.", "quantifier": "all interleavings of two inputs", "why_tests_cant": "All interleavings.", "anchors": ["crates/rx_core_operator_with_latest_from/src"]}
{"id": "C39", "title": "merge never exceeds its concurrency limit and starts inner observables in arrival order", "statement": "At every moment at most `limit` inner observables are subscribed, each arriving inner observable is subscribed at most once, in arrival order, and a queued one is started when a slot frees up.", "quantifier": "all limits, all histories of arrivals, inner completions, unsubscriptions and errors", "why_tests_cant": "All histories.", "anchors": ["crates/rx_core_subscriber_higher_order_concurrent/src/concurrent_subscriber.rs: ConcurrentSubscriber"]}
{"id": "C40", "title": "concat emits the inner observables one after the other", "statement": "With limit 1, values of a later inner observable are only delivered after the earlier ones have ended.", "quantifier": "all histories", "why_tests_cant": "All histories.", "anchors": ["crates/rx_core_subscriber_higher_order_concurrent/src/concurrent_subscriber.rs", "crates/rx_core_operator_concat_all/src", "crates/rx_core_observable_concat/src"]}
{"id": "C41", "title": "switch delivers only the latest inner observable", "statement": "When a new inner observable arrives the previous one is unsubscribed before the new one is subscribed; only values of the most recent inner observable are delivered; completion happens exactly when outer and current inner have completed.", "quantifier": "all histories of outer and inner events", "why_tests_cant": "All histories.", "anchors": ["crates/rx_core_subscriber_higher_order_switch/src/switch_subscriber.rs"]}
{"id": "C42", "title": "exhaust ignores arrivals while an inner observable is active", "statement": "An arriving inner observable is subscribed iff no inner observable is active; ignored ones are never subscribed; completion happens exactly when outer completed and no inner is active.", "quantifier": "all histories of outer and inner events", "why_tests_cant": "All histories.", "anchors": ["crates/rx_core_subscriber_higher_order_exhaust/src/exhaust_subscriber.rs"]}
{"id": "C43", "title": "Higher-order streams complete exactly when outer and all inner streams did, and fail on the first error", "statement": "Downstream completes exactly once, when the outer stream has completed and every started and queued inner stream has completed; the first error of outer or any inner is delivered immediately and ends everything.", "quantifier": "all histories of outer and inner events", "why_tests_cant": "All histories.", "anchors": ["crates/rx_core_subscriber_higher_order/src/higher_order_subscriber_state.rs", "crates/rx_core_subscriber_higher_order/src/higher_order_subscriber_inner.rs"]}
{"id": "C44", "title": "catch switches to the recovery observable", "statement": "catch forwards the source until it errors, then subscribes the recovery observable made from that error exactly once and forwards it; without error it is transparent.", "quantifier": "all source and recovery sequences", "why_tests_cant": "All sequences.", "anchors": ["crates/rx_core_operator_catch/src/catch_subscriber.rs"]}
{"id": "C45", "title": "retry resubscribes at most max_retries times", "statement": "retry(n) subscribes the source at most n+1 times, forwards the values of all attempts, delivers the error only of the last allowed attempt, and leaves a live attempt alone.", "quantifier": "all n and all behaviours (synchronous or later) of the attempts", "why_tests_cant": "All failure patterns.", "anchors": ["crates/rx_core_operator_retry/src/retry_observable.rs", "crates/rx_core_operator_retry/src/retry_subscriber.rs"]}
{"id": "C46", "title": "share keeps one source subscription while there are subscribers", "statement": "With reference counting, the source is subscribed at most once at a time, is connected while there is at least one subscriber, and is disconnected when the last subscriber leaves - also after an earlier completed round. Each subscriber hears each value of the source once, and its end. If the connector is kept when the source is disconnected from, this also holds after disconnecting and connecting again; if it is dropped then, those who were subscribed hear nothing from later connections.", "quantifier": "all histories of subscribe / unsubscribe / source events", "why_tests_cant": "All histories.", "anchors": ["crates/rx_core_observable_connectable/src", "crates/rx_core_operator_share/src"]}
{"id": "C47", "title": "delay shifts every value and preserves order", "statement": "Each value is delivered on the first tick at or after its arrival plus the delay, in arrival order, none lost; completion is delivered after the last pending value; an error is delivered immediately and drops pending values.", "quantifier": "all arrival times, tick grids, durations", "why_tests_cant": "All time grids.", "anchors": ["crates/rx_core_operator_delay/src/delay_subscriber.rs"]}
{"id": "C48", "title": "debounce emits only the last value of a burst", "statement": "A value is delivered iff no newer value arrives before the first tick at or after its arrival plus the duration; pending value is delivered before completion; an error drops it.", "quantifier": "all arrival times, tick grids, durations", "why_tests_cant": "All time grids.", "anchors": ["crates/rx_core_operator_debounce_time/src/debounce_time_subscriber.rs"]}
{"id": "C49", "title": "throttle limits the rate without losing the trailing value", "statement": "Two deliveries of throttle_time are at least one duration apart; with trailing output the last value of a window is delivered at the first tick at or after the end of the window; scheduling never panics.", "quantifier": "all arrival times, tick grids, durations, options", "why_tests_cant": "All time grids.", "anchors": ["crates/rx_core_operator_throttle_time/src/throttle_time_subscriber.rs"]}
{"id": "C50", "title": "observe_on re-emits every value on the next tick in order", "statement": "Each value is delivered on the next executor tick (values that arrive in a tick, in that tick) in arrival order; completion after all pending values, provided upstream sends no values after completion; error immediately.", "quantifier": "all histories", "why_tests_cant": "All histories.", "anchors": ["crates/rx_core_operator_observe_on/src/observe_on_subscriber.rs"]}
{"id": "C51", "title": "fallback_when_silent emits exactly one value per tick", "statement": "On every tick exactly one value is delivered: the most recent upstream value of that tick, or the fallback when upstream was silent.", "quantifier": "all histories of values and ticks", "why_tests_cant": "All histories.", "anchors": ["crates/rx_core_operator_fallback_when_silent/src"]}
{"id": "C52", "title": "interval counts elapsed periods without drift, timer fires once", "statement": "After ticks up to time t an interval of period d has emitted exactly 0,1,2,... one for each whole period elapsed (subject to the per-tick limit), consecutively; timer emits one value and completes on the first tick at or after its delay; both stop when downstream closes.", "quantifier": "all periods and tick sequences", "why_tests_cant": "All time grids.", "anchors": ["crates/rx_core_observable_interval/src/interval_subscription.rs", "crates/rx_core_observable_timer/src"]}
{"id": "C53", "title": "Iterator observables deliver the whole iterator and complete", "statement": "iterator delivers all items in order until downstream closes and then completes; iterator_on_tick delivers item k on the k-th due tick and completes right after the last item.", "quantifier": "all iterators, tick cadences, downstream subscribers", "why_tests_cant": "All lengths including empty, all cadences.", "anchors": ["crates/rx_core_observable_iterator/src", "crates/rx_core_observable_iterator_on_tick/src"]}
{"id": "C54", "title": "subscribe_on only shifts the start of the subscription", "statement": "The source is subscribed exactly once, on the first tick at or after the delay, if the subscription is still open, and never after it was closed.", "quantifier": "all delays, ticks and unsubscription points", "why_tests_cant": "All time grids.", "anchors": ["crates/rx_core_operator_subscribe_on/src"]}
{"id": "C55", "title": "ADSR envelope follows its phases", "statement": "The envelope emits phases in the legal order for every trigger history, with values within [0,1] and transitions reported exactly when the phase changes.", "quantifier": "all trigger histories, tick sequences and envelopes", "why_tests_cant": "All trigger histories.", "anchors": ["crates/rx_core_operator_adsr/src"]}
{"id": "C56", "title": "Re-entrant use of a publish subject is serialised", "statement": "Calls made on a subject from inside its subscribers' callbacks are applied after the current notification in call order; every subscriber sees the same order; nothing follows the first closing one.", "quantifier": "all reaction functions of any number of subscribers, all outer call sequences", "why_tests_cant": "All reaction trees.", "anchors": ["crates/rx_core_subject_publish/src/multicast.rs: apply_notification_queue", "crates/rx_core_subject_publish/src/publish_subject.rs"]}
{"id": "C57", "title": "Simple source observables", "statement": "just emits its value and completes, empty completes, throw errors, never emits nothing and stays open, closed unsubscribes, create runs its producer once per subscription, deferred subscribes exactly the observable its factory returns; each subscription of a cold observable is independent and observes the same sequence.", "quantifier": "all values, all downstream subscribers, any number of subscriptions", "why_tests_cant": "For all downstreams (including already closed ones).", "anchors": ["crates/rx_core_observable_just/src", "crates/rx_core_observable_empty/src", "crates/rx_core_observable_throw/src", "crates/rx_core_observable_never/src", "crates/rx_core_observable_closed/src", "crates/rx_core_observable_create/src", "crates/rx_core_observable_deferred/src"]}
{"id": "C58", "title": "Immediate work runs once at once, continuous work once per tick", "statement": "Immediate work runs exactly once, in the first tick since it was scheduled (possibly the one it was scheduled in); continuous work runs exactly once in every tick since it was scheduled, until it answers Done; both unless cancelled.", "quantifier": "all histories of scheduling, cancelling and ticking, all closures (which may schedule more work)", "why_tests_cant": "Interaction with arbitrary other work and re-entrant scheduling in all orders.", "anchors": ["crates/rx_core_scheduler_ticking/src/work/ticked_work_once_immediate.rs", "crates/rx_core_scheduler_ticking/src/work/ticked_work_continuous.rs", "crates/rx_core_scheduler_ticking/src/ticking_executor.rs: tick_to, tick_scheduled"]}
{"id": "C59", "title": "A subscription made through commands lives and dies with its entity", "statement": "The entity that a subscribe command returns has the subscription, and only this one, for as long as the subscription is open. Despawning the entity, or removing the subscription component from it, unsubscribes. Nothing else does: despawning the observable or removing its component leaves its subscriptions open. When the subscription ends by itself, its entity is despawned at the latest in the next Last schedule.", "quantifier": "all histories of spawning and despawning entities, inserting and removing observables and subscriptions, subscribing, subscriptions ending, and runs of the plugin's systems, in any order", "why_tests_cant": "It is about all interleavings of component hooks, retried commands, cleanup and deferred despawning.", "anchors": ["crates/rx_bevy_common/src/subscription_component.rs", "crates/rx_bevy_common/src/observable/subscribe_observer_satellite.rs: observable_subscribe_event_observer", "crates/rx_bevy_common/src/scheduler/rx_plugin.rs: clean_unfinished_subscriptions", "crates/rx_bevy_common/src/scheduler/work/work_despawn_entity.rs"]}
{"id": "C60", "title": "A subscribe command subscribes its destination once, to the right observable", "statement": "If the entity has an observable with the output types of the destination, the destination is subscribed to it at once. If not, the command is retried in First; if an observable is there by then the destination is subscribed to it, and after three retries the destination is unsubscribed. A destination is never subscribed twice, nor to an observable of another entity or other types.", "quantifier": "all histories as in C59, all numbers of observables per entity, all orders in which observers are run", "why_tests_cant": "The number of entities, observables, pending commands and the order of their arrival are unbounded.", "anchors": ["crates/rx_bevy_common/src/observable/command_subscribe.rs: SubscribeCommand", "crates/rx_bevy_common/src/observable/observable_component.rs: observable_on_insert, observable_on_remove", "crates/rx_bevy_common/src/subscription/subscribe_event.rs", "crates/rx_bevy_common/src/scheduler/subscribe_retry_plugin.rs: execute_pending_retries", "crates/rx_bevy_common/src/observable/entity_commands_observable.rs"]}
{"id": "C61", "title": "Every subscription is unsubscribed when the application exits", "statement": "When the application exits, every subscription that was made through commands, including those made by the last retry, is unsubscribed.", "quantifier": "all histories as in C59", "why_tests_cant": "It has to hold in every state an application can reach.", "anchors": ["crates/rx_bevy_common/src/scheduler/rx_plugin.rs: unsubscribe_all_subscriptions"]}
{"id": "C62", "title": "ResourceObservable gives every change of the resource that a tick can see, once", "statement": "Each tick of the executor while the destination is open gives the reader's result for the resource if the resource was not there at the previous tick (and additions are asked for), or was there and was written since the previous run of the executor (and changes are asked for), and nothing otherwise. Nothing is given before the subscription, between ticks, or after the destination is closed.", "quantifier": "all histories of writes, removals, ticks, subscribing, unsubscribing and closing, interleaved with an arbitrary program on the same executor; all readers, options and destinations", "why_tests_cant": "The interleavings of writes, ticks and other work are unbounded.", "anchors": ["crates/rx_bevy_observable_resource/src/resource_subscription.rs: ResourceSubscription::new", "crates/rx_bevy_observable_resource/src/resource_observable_options.rs"]}
{"id": "C63", "title": "KeyboardObservable gives exactly the keys of the chosen kind, each once per tick", "statement": "Each tick of the executor while the destination is open gives every key that was pressed (or released) since the input was last cleared, or that is down, depending on the option, and each of them once; nothing is given before the subscription, between ticks, or after the destination is closed.", "quantifier": "all histories of presses, releases, clears, ticks, subscribing, unsubscribing and closing, interleaved with an arbitrary program on the same executor; all destinations", "why_tests_cant": "The number of keys, and the interleavings of key events and ticks, are unbounded.", "anchors": ["crates/rx_bevy_observable_keyboard/src/keyboard_subscription.rs: KeyboardSubscription::new", "crates/rx_bevy_observable_keyboard/src/keyboard_observable_options.rs"]}
{"id": "C64", "title": "MessageObservable gives every message once, in order", "statement": "No message is given twice or out of order. Each tick of the executor while the destination is open gives all messages written since the previous tick that were not thrown away since, by a clear or by two updates of the buffers. If the buffers are updated at most once between two ticks, all messages are given.", "quantifier": "all histories of writes, updates, clears, ticks, subscribing, unsubscribing and closing, interleaved with an arbitrary program on the same executor; all destinations", "why_tests_cant": "The number of messages, and the interleavings of writes, updates and ticks, are unbounded.", "anchors": ["crates/rx_bevy_observable_message/src/message_subscription.rs: MessageSubscription::new"]}
{"id": "C65", "title": "Time-based operators and sources leave no work behind", "statement": "Once the destination of a time-based operator or source is closed, whoever closed it, the executor holds no work of it at the end of the next tick: nothing of it is run again, and what it captured is released.", "quantifier": "all histories of calls, ticks, subscribing, unsubscribing and closing, interleaved with an arbitrary program on the same executor; all destinations; all operators and sources that schedule work", "why_tests_cant": "Work can be scheduled, cancelled and ticked in unboundedly many interleavings with the closing; a leak shows only as work that is still there afterwards.", "anchors": ["crates/rx_core_operator_delay/src/delay_subscriber.rs", "crates/rx_core_operator_debounce_time/src/debounce_time_subscriber.rs", "crates/rx_core_operator_observe_on/src/observe_on_subscriber.rs", "crates/rx_core_operator_throttle_time/src/throttle_time_subscriber.rs", "crates/rx_core_operator_subscribe_on/src/subscribe_on_subscription.rs", "crates/rx_core_operator_fallback_when_silent/src/fallback_when_silent_subscriber.rs: FallbackWhenSilentSubscriber::new", "crates/rx_core_operator_adsr/src/adsr_subscriber.rs", "crates/rx_core_observable_interval/src/interval_subscription.rs", "crates/rx_core_observable_timer/src/timer_subscription.rs", "crates/rx_core_observable_iterator_on_tick/src/iterator_on_tick_subscription.rs", "crates/rx_bevy_observable_resource/src/resource_subscription.rs", "crates/rx_bevy_observable_keyboard/src/keyboard_subscription.rs", "crates/rx_bevy_observable_message/src/message_subscription.rs", "crates/rx_core_common: Teardown::new_work_cancellation"]}
{"id": "C66", "title": "Notifications sent to an entity or resource destination arrive once, in order, by the end of the next tick", "statement": "Every notification sent to an EntityDestination or ResourceDestination, from anywhere, also during a tick, comes to its turn exactly once, in the order of sending, before the next tick ends and not before it starts; it then triggers an event on the entity (calls the writer with the resource) if the target exists at that moment, and does nothing otherwise. No work is left afterwards.", "quantifier": "all histories of notifications, ticks, and insertions, changes and removals of the target, interleaved with an arbitrary program on the same executor; all writers", "why_tests_cant": "The number and interleaving of notifications, ticks and changes of the world is unbounded, and notifications may be sent by work that runs in the same tick.", "anchors": ["crates/rx_bevy_common/src/observer/entity_destination.rs: EntityDestination", "crates/rx_bevy_common/src/observer/resource_destination.rs: ResourceDestination", "crates/rx_bevy_common/src/rx_bevy_context.rs: RxBevyContextItem::send_observer_notification"]}
{"id": "C67", "title": "A shared subscriber can be closed by one thread while others use it", "statement": "Several threads call next, error, complete, unsubscribe and is_closed on clones of a shared subscriber, and drop clones. Threads never wait for each other. The destination is called by one thread at a time, only with what was sent, once per call, in an order that agrees with the order in which calls returned and began. A call is dropped only if, before it returned, another thread's closing call had begun or the destination had closed; after a closing call has returned, nothing begun later has an effect. Once all calls have returned, every other notification has been delivered, a closing one has closed the destination, and is_closed says so.", "quantifier": "all numbers of threads, all interleavings at the granularity of lock operations, all destinations that are inert once closed and close when told", "why_tests_cant": "Races between closing and sending need all schedules of any number of threads.", "anchors": ["crates/rx_core_common/src/subscribers/subscriber_shared.rs: SharedSubscriber, SubscriberDeferredState, apply_notification_queue, try_apply_deferred, is_closed, Drop"]}
{"id": "C68", "title": "Using a shared subscriber from several threads does not panic", "statement": "However many threads send through a shared subscriber, and however often, no call panics, and the subscriber stays usable.", "quantifier": "all numbers of threads and all interleavings at the granularity of lock operations; any destination", "why_tests_cant": "The panic needs a schedule in which one thread is outrun by others ten times in a row.", "anchors": ["crates/rx_core_common/src/subscribers/subscriber_shared.rs: apply_notification_queue, SUBSCRIBER_MAX_RECURSION_DEPTH"]}
{"id": "C69", "title": "merge and concat play their inputs", "statement": "merge(inputs, n) subscribes its inputs once each, in the order given, at most n at a time (one, if n is zero), and a waiting one as soon as there is room. What an active input emits is delivered at once. The destination completes exactly when every input has completed, and is told nothing afterwards; the first error ends every input. If every input emits all it has while being subscribed, the destination is given the inputs one after the other, until one fails, whatever n is. concat(inputs) subscribes an input only after those before it have ended, so the values of an input come before those of every later one. Unsubscribing unsubscribes every input.", "quantifier": "all inputs, all limits, everything that happens after subscribe (emissions of the inputs at any time in any order, unsubscribing), all destinations that close when told", "why_tests_cant": "Inputs and their interleavings are unbounded.", "anchors": ["crates/rx_core_observable_merge/src/merge_observable.rs: MergeObservable", "crates/rx_core_observable_concat/src/concat_observable.rs: ConcatObservable"]}
{"id": "C70", "title": "A publish subject may be used by several threads", "statement": "Several threads subscribe to one publish subject, send through its clones, and unsubscribe. No two of them are ever handing something to its subscribers at once, and none waits for another. Each subscriber is only called with what was sent, each value once, and not after it closed. All subscribers hear the values in one order, without gaps from their subscription on; the order agrees with time, so the values of one thread come in the order it sent them. A value sent after subscribe returned is given to the subscriber, unless the subject was being ended meanwhile. Once unsubscribe of a subscription has returned, its subscriber is given no value sent after that.", "quantifier": "all numbers of threads, subscribers and calls, all schedules, all subscribers that are inert when closed, close when told and do not call back", "why_tests_cant": "The interleavings of threads are unbounded and not under the control of a test.", "anchors": ["crates/rx_core_subject_publish/src/publish_subject.rs: PublishSubject", "crates/rx_core_subject_publish/src/multicast.rs: Subscribers, MulticastDeferredState", "crates/rx_core_subject_publish/src/multicast_subscription.rs: MulticastSubscription"]}
{"id": "C71", "title": "A publish subject may be ended by several threads", "statement": "If is_closed of a publish subject answers yes, a call of error, complete or unsubscribe has begun; if it answers no, none has returned. Once such a call has returned, no value sent later is given to anyone; who subscribes later hears no value, is told how the subject ended, and is closed when subscribe returns. When all calls have returned, every subscriber is closed that was subscribed, and so is every one whose subscription was unsubscribed. No call panics.", "quantifier": "all numbers of threads, subscribers and calls, all schedules, all subscribers that are inert when closed, close when told and do not call back; debug and release builds", "why_tests_cant": "The interleavings of threads are unbounded and not under the control of a test.", "anchors": ["crates/rx_core_subject_publish/src/publish_subject.rs: PublishSubject", "crates/rx_core_subject_publish/src/multicast.rs: Subscribers, MulticastDeferredState", "crates/rx_core_subject_publish/src/multicast_subscription.rs: MulticastSubscription"]}
{"id": "C72", "title": "Entity events as an observable: every event since the start, completion with the entity, nothing left behind", "statement": "A subscriber of EventObservable starts with the first scheduler tick after subscribing unless it is closed by then, and it starts at most once. While it is open it has heard exactly the events triggered on its entity since it started, each once and in order. When the entity is despawned, or does not exist at the start, it is completed. It hears nothing once it is closed. Once it is closed, for whatever reason and at whatever moment, even in the middle of a tick before its own work has run, the next tick removes the observer entity and every work that was scheduled for it.", "quantifier": "every destination that obeys the subscriber contract, any number of entities and subscriptions, every history of spawns, despawns, triggered events, subscribes, unsubscribes and despawns of the observer entity, interleaved in any way with the phases of the executor's ticks and with the application of commands", "why_tests_cant": "what is set up and removed goes through two queues (scheduler actions, Bevy commands), and the subscription may be closed between any two of their steps; tests try one or two of these moments", "anchors": ["crates/rx_bevy_observable_event/src/event_subscription.rs: EntityEventSubscription::new", "crates/rx_bevy_observable_event/src/event_forwarder_observer_system.rs: create_event_forwarder_observer_for_destination", "crates/rx_bevy_common/src/subscription/subscription_satellite.rs: SubscriptionSatellite, subscription_satellite_of_on_remove", "crates/rx_core_common/src/subscriptions/teardown.rs: Teardown::new_work_invokation_and_cancellation", "crates/rx_bevy_common/src/scheduler/work/work_despawn_entity.rs: ScheduledWorkDespawnEntity", "crates/rx_core_scheduler_ticking/src/ticking_executor.rs: tick_to, execute_invoked"]}
{"id": "C73", "title": "Behavior and replay subjects used by several threads: what is remembered, then every value since, once", "statement": "When several threads share a BehaviorSubject or a ReplaySubject, a new subscriber first hears what the subject remembers at that moment: the last value sent (or the initial one), or the last N values, in the order in which next was called. Then it hears every value sent since, each once, in an order common to all subscribers, so that the last value heard is the one value() answers. After an error a new subscriber hears only the error, after completion the remembered values and the completion. value() and values() answer what the calls of next so far make of the memory. A subscriber is called one call at a time, and no thread waits for another.", "quantifier": "every destination that obeys the subscriber contract, any number of threads and subscribers, every schedule of their calls of next, error, complete, subscribe, unsubscribe, value and values, one lock operation at a time; any capacity above zero", "why_tests_cant": "the remembered values and the subscribers are behind different locks, taken one after the other by next and by subscribe; what a subscriber hears depends on what other threads do in between", "anchors": ["crates/rx_core_subject_behavior/src/behavior_subject.rs: BehaviorSubject::next, subscribe, value", "crates/rx_core_subject_replay/src/replay_subject.rs: ReplaySubject::next, subscribe, values", "crates/rx_core_subject_publish/src/publish_subject.rs: PublishSubject"]}
{"id": "C74", "title": "An async subject used by several threads: the result once, then the completion", "statement": "When several threads share an AsyncSubject, its subscribers hear no value before complete is called; then everyone subscribed hears the reduction of all values sent before, in the order in which next was called, exactly once, then the completion, and nothing else. Who subscribes after complete has returned hears the result and then the completion, after an error only the error. value() answers the reduction of the values sent so far. A subscriber is called one call at a time, and no thread waits for another.", "quantifier": "every reducer, every destination that obeys the subscriber contract, any number of threads and subscribers, every schedule of their calls of next, error, complete, subscribe, unsubscribe, value, is_closed and drops of clones, one lock operation at a time", "why_tests_cant": "complete copies the value, publishes it and completes, and subscribe asks, copies, asks again and subscribes, each behind a different lock; what is heard depends on what other threads do in between", "anchors": ["crates/rx_core_subject_async/src/async_subject.rs: AsyncSubject::next, error, complete, subscribe, value", "crates/rx_core_subject_publish/src/publish_subject.rs: PublishSubject"]}
{"id": "C75", "title": "A teardown that panics does not keep the others from running", "statement": "If a teardown panics while a subscription is unsubscribed or dropped, the subscription is closed all the same, every teardown handed over still runs, and none runs twice. A call panics exactly if a teardown it ran panicked.", "quantifier": "every sequence of handing over teardowns, unsubscribing and dropping, going on after panics, and every choice of which teardowns panic", "why_tests_cant": "a test panics in one teardown at one position; this is about every set of panicking teardowns and every history of calls before and after", "anchors": ["crates/rx_core_common/src/subscription/subscription_data.rs: SubscriptionData::unsubscribe, add_teardown, drop"]}
{"id": "C76", "title": "A subscriber behind a mutex or read-write lock that panics is closed by the next call", "statement": "Arc<Mutex<D>>, Arc<RwLock<D>> and Weak<Mutex<D>> pass every call to the destination until it panics. After that nothing but unsubscribe reaches it, the next notification, whichever, unsubscribes it, and a teardown handed over runs at once, exactly once. A weak reference whose destination is gone is closed, passes nothing on, and runs teardowns at once.", "quantifier": "every destination, whatever it panics on, every sequence of notifications, teardowns and dropping of the last strong reference, going on after panics", "why_tests_cant": "whether a resource is released after a panic depends on when the panic happened and on which call comes next; tests try a few of these", "anchors": ["crates/rx_core_common/src/subscribers/subscriber_arc_mutex.rs", "crates/rx_core_common/src/subscribers/subscriber_arc_rw_lock.rs", "crates/rx_core_common/src/subscribers/subscriber_arc_weak_mutex.rs"]}
{"id": "C77", "title": "A shared subscriber whose destination panics can still be unsubscribed", "statement": "If the destination of a SharedSubscriber panics, what it has observed by then is the beginning of what it would have observed otherwise; afterwards unsubscribing still unsubscribes the destination, calls do not panic, and nothing is kept for ever.", "quantifier": "every destination that may call back while it handles a notification and may panic at any point of it, every sequence of notifications, going on after panics", "why_tests_cant": "the panic can come at any point of any notification, with any notifications deferred", "anchors": ["crates/rx_core_common/src/subscribers/subscriber_shared.rs: SharedSubscriber::try_next, try_unsubscribe, try_apply_deferred, is_closed"]}
{"id": "C78", "title": "A subscriber of a publish subject that panics does not harm the others", "statement": "If a subscriber of a PublishSubject panics on a notification, the other subscribers hear that notification and all later ones, can be unsubscribed, and new subscribers can subscribe.", "quantifier": "every kind of subscriber, whatever it panics on, every order in which subscribers are asked, every sequence of notifications, subscriptions and cancellations, going on after panics", "why_tests_cant": "who is asked before the one that panics depends on the iteration order of a hash map, and what is left depends on the calls that follow", "anchors": ["crates/rx_core_subject_publish/src/multicast.rs: Subscribers::next, error, complete, unsubscribe, SharedSubscribers::try_next", "crates/rx_core_subject_publish/src/publish_subject.rs: PublishSubject::subscribe, next", "crates/rx_core_subject_publish/src/multicast_subscription.rs: MulticastSubscription::unsubscribe"]}
{"id": "C79", "title": "A subject on an entity is pushed each signal triggered on it exactly once", "statement": "A SubjectComponent is pushed every RxSignal of its types that is triggered on its entity while it is there, in that order, each exactly once, and none of another entity or other types; it is unsubscribed when it is removed, replaced or its entity is despawned; and nothing that was spawned for it is left afterwards.", "quantifier": "every history of spawning, despawning, inserting and removing subjects of any number of types, triggering signals, and calling the subjects directly; every order in which the observers of an event are run", "why_tests_cant": "the observers that push are spawned and despawned by hooks; which are left depends on the whole history of the entity, and a test follows one", "anchors": ["crates/rx_bevy_common/src/subject/subject_component.rs: SubjectComponent, subject_on_insert, subject_on_remove", "crates/rx_bevy_common/src/subject/signal_observer_satellite.rs: SignalObserverSatelliteBundle, push_signal_observer, SignalObserverRef"]}
{"id": "C80", "title": "Callbacks are run with what is delivered, each end at most once, and no error is swallowed", "statement": "A subscribed observer made of callbacks runs them with exactly what is delivered, in order, up to the first end or until it is unsubscribed; the callbacks for errors and completion are run at most once, whatever is called; an error for which there is no callback panics rather than being lost; and after an end, handled or not, the subscription is closed, its teardowns have run and nothing more is handed to callbacks.", "quantifier": "FnObserver, DynFnObserver with any callbacks, NoopObserver in debug and release builds, None as an observer; every sequence of notifications, teardowns and unsubscribing, going on after panics; every choice of what callbacks panic on", "why_tests_cant": "which callback runs depends on the whole history of calls before, and what is left after a panic on every call after it", "anchors": ["crates/rx_core_observer_fn/src/fn_observer.rs: FnObserver", "crates/rx_core_observer_fn/src/dyn_fn_observer.rs: DynFnObserver", "crates/rx_core_observer_noop/src/noop_observer.rs: NoopObserver", "crates/rx_core_common/src/subscribers/subscriber_option.rs: RxObserver for Option", "crates/rx_core_common/src/subscribers/subscriber_observer.rs: ObserverSubscriber"]}
{"id": "C81", "title": "A subscription that lives on an entity is heard exactly, made once, and released with its handle", "statement": "Subscribing through ProxyObservable, EntityCommands::as_observable or with_commands keeps the subscription on an entity of its own. The destination hears exactly what the observable has for it while it is subscribed to, then that it is unsubscribed. The observable is subscribed to at most once, with the first tick if it is there and the handle is still open, and not at all if the proxy is unsubscribed before the executor is ticked. Once the handle is closed, by whoever and whenever, also before the entity exists, the next tick of the executor leaves neither the entity nor the subscription nor any work behind, and nothing comes back; once the observable ends, its entity is gone by the end of the frame.", "quantifier": "the three ways to subscribe; every destination, every observable (what it emits at once, whether it stays open, whether and when it is on its entity); every interleaving of emissions, closing, unsubscribing, despawning, removal of components, applying the commands of the subscribing system, and the phases of executor ticks, retries and clean-up", "why_tests_cant": "the entity is spawned, filled and despawned by commands and works that run later, in an order that depends on the schedule: only some interleavings can be sampled", "anchors": ["crates/rx_bevy_observable_proxy/src/proxy_observable.rs: ProxyObservable", "crates/rx_bevy_observable_proxy/src/proxy_subscription.rs: ProxySubscription", "crates/rx_bevy_common/src/subscription/entity_subscription.rs: EntitySubscription", "crates/rx_bevy_common/src/observable/entity_commands_observable.rs: EntityCommandsObservable", "crates/rx_bevy_common/src/observable/commands_with_observable.rs", "crates/rx_bevy_common/src/subscription_component.rs: SubscriptionComponent", "crates/rx_bevy_common/src/scheduler/work/work_despawn_entity.rs"]}
{"id": "C82", "title": "Assertions of the testing crate pass exactly when what they say is true of the history", "statement": "A NotificationCollector holds the whole history of notifications in order and tells apart what came up to and what came behind the first unsubscribe; len, nth, values, errors, counts and nothing_happened_after_closed are those of that history, and assert_is_empty, assert_nth_notification, assert_nth_notification_is_last, assert_last_notification and assert_notifications pass if and only if the history is as they say. MockObservers record all they are given, also once closed, and that they are unsubscribed when dropped open; their teardowns run once, when they close. A harness destination that takes k values records the first k and completes; assert_terminal_notification passes if and only if the history ends with that notification, which is no value, the subscription is closed, and all three teardowns ran. A collector of rounds gives the same collector for the same round and different ones for different rounds. A tracked iterator counts the values given, and is finished once it was asked for more than it has.", "quantifier": "every history of notifications, every argument of every assertion, every interleaving of operations on any number of mock observers that share a collector, every limit, every list of rounds asked for, every interleaving of calls to any number of tracked iterators", "why_tests_cant": "an assertion that passes when it should not is invisible to the tests written with it: that it has neither false passes nor false failures is a statement about all histories", "anchors": ["crates/rx_core_testing/src/notification_collector.rs: NotificationCollectorState", "crates/rx_core_testing/src/mock_observer.rs: MockObserver", "crates/rx_core_testing/src/harness/test_harness.rs: HarnessDestination, assert_terminal_notification", "crates/rx_core_testing/src/multi_round_notification_collector.rs: get_round", "crates/rx_core_testing/src/tracked_iterator.rs: TrackedIterator"]}
{"id": "C83", "title": "A combination lets go of both inputs when it ends or is unsubscribed, and not before", "statement": "Whatever the two inputs of zip, combine_latest, combine_changes or join send while they are being subscribed to and afterwards, and whoever unsubscribes the handle, the destination or an input, from outside or from within an observer that is being called: nothing panics; once the destination is closed, for whatever reason, or the handle was unsubscribed, both inputs are unsubscribed; otherwise each input is unsubscribed only if it said so itself; the destination is told what the operator's rule gives for what the inputs sent, where unsubscribing the handle counts as both inputs unsubscribing; and unsubscribing the handle closes the destination.", "quantifier": "every destination that obeys the subscriber contract, in every state; every list of notifications sent by each input while it is subscribed to; every list of later sends, unsubscribes of the handle, unsubscribes of the destination and drops of the handle; every choice of the states in which an observer unsubscribes the handle", "why_tests_cant": "a leak of an input needs the right interleaving of errors, completions and unsubscribes, possibly before subscribe has returned or from within a callback while the shared subscriber is locked", "anchors": ["crates/rx_core_observable_join/src/join_observable.rs: subscribe", "crates/rx_core_observable_zip/src/zip_observable.rs: subscribe", "crates/rx_core_observable_combine_latest/src/combine_latest_observable.rs: subscribe", "crates/rx_core_observable_combine_changes/src/combine_changes_observable.rs: subscribe", "crates/rx_core_common/src/subscribers/subscriber_shared.rs: SharedSubscriber", "crates/rx_core_common/src/subscriptions/subscription_shared.rs: SharedSubscription"]}
{"id": "C84", "title": "A SharedSubscription can be used by several threads", "statement": "Any number of threads own clones of one SharedSubscription and unsubscribe it, add teardowns, ask is_closed, clone it, pass clones on and drop them, in any interleaving. Nothing panics and nothing is dropped dirty; whatever is going on can be finished; no teardown runs more often than it was added, nor before somebody has called unsubscribe unless the last clone is dropped; once the last clone is gone every teardown has run once; is_closed never says no to a question asked after an unsubscribe has returned and never says yes before somebody has called unsubscribe; and once an unsubscribe has returned and no call is going on, every teardown added so far has run.", "quantifier": "every list of owners, every schedule of turns of any number of threads, any length", "why_tests_cant": "what goes wrong needs one thread to hold the mutex between two instructions of another; a test cannot try all interleavings of any number of threads", "anchors": ["crates/rx_core_common/src/subscriptions/subscription_shared.rs: SharedSubscription, SubscriptionDeferredState", "crates/rx_core_common/src/subscriptions/subscription_data.rs: SubscriptionData", "crates/rx_core_common/src/subscribers/subscriber_arc_mutex.rs: add_teardown"]}
{"id": "C85", "title": "with_latest_from lets go of its second input", "statement": "The observable given to with_latest_from is unsubscribed once the result is over: when the destination is closed (because the source completed or failed, because the second input failed or completed without a value, or from downstream), when the handle is unsubscribed, or when the subscriber is dropped. It is not unsubscribed before.", "quantifier": "every pair of inputs, everything they send while being subscribed to and afterwards in any interleaving with unsubscribing, closing the destination and dropping the subscriber; sources that ask whether their subscriber is closed before unsubscribing it or not; second inputs whose subscription unsubscribes on drop or not; every lawful destination", "why_tests_cant": "the leak is visible only in what a second input goes on doing after the result is over, and depends on the order in which the inputs finish", "anchors": ["crates/rx_core_operator_with_latest_from/src/with_latest_from_subscriber.rs: WithLatestFromSubscriber::new, unsubscribe, is_closed", "crates/rx_core_operator_with_latest_from/src/with_latest_from_inner_destination.rs: WithLatestFromInnerDestination", "crates/rx_core_subject_publish/src/multicast_subscription.rs: MulticastSubscription::unsubscribe", "crates/rx_core_macro_common/src/derive_subscription.rs: impl_unsubscribe_on_drop"]}
{"id": "C86", "title": "Scheduled work survives panics of other work", "statement": "When a scheduled closure panics during a tick and the panic is caught, the scheduler stays usable: work that is neither cancelled nor done is ticked by the next tick that does not panic, a closure that is to run once is run at most once and not early, and has been run after a tick at or after its time that does not panic; work that said it is done does not run again; what was invoked is run; a panic of one work does not keep other work from running.", "quantifier": "every history of scheduling, cancelling, invoking and ticking, every choice of which run of which closure panics, all kinds of work, every limit of recursion", "why_tests_cant": "which work has been reached when a panic leaves the tick depends on the order of everything scheduled before; the damage shows only in later ticks", "anchors": ["crates/rx_core_scheduler_ticking/src/ticking_executor.rs: tick_to, tick_scheduled, execute_invoked", "crates/rx_core_scheduler_ticking/src/work/ticked_work_once_delayed.rs: tick", "crates/rx_core_scheduler_ticking/src/work/ticked_work_once_immediate.rs: tick", "crates/rx_core_scheduler_ticking/src/work/ticked_work_repeating.rs: tick"]}
{"id": "C87", "title": "A subject that is the destination of several subscriptions", "statement": "Several observables may be subscribed with clones of one subject as their destination. The subject then behaves as if it had been told directly, in order, what each of those subscriptions passed on up to its own end; unsubscribing one of them neither ends the subject nor affects the others. Observers of a publish, behavior, replay or async subject see the values of all inputs accordingly. An input is closed, and its teardowns run once, exactly when that input itself ended; a subject ended by one input leaves the other inputs open.", "quantifier": "every kind of subject, any number of inputs, every interleaving of notifications, unsubscriptions and added teardowns on the inputs with direct use of the subject, every order in which the subject iterates over its subscribers", "why_tests_cant": "the interleavings of inputs, of direct use and of subscriptions are unbounded, and mistakes show only in particular orders, such as a value of one input after the end of another", "anchors": ["crates/rx_core_common/src/subscribers/subscriber_observer.rs: ObserverSubscriber", "crates/rx_core_macro_common/src/derive_observer.rs: upgrades_to observer subscriber", "crates/rx_core_macro_subject_derive/src/lib.rs"]}
{"id": "C88", "title": "Dropping handles of a shared subscriber is harmless", "statement": "Handles of a SharedSubscriber can be cloned and dropped at any time. The destination is dropped with the last handle, once. Cloning and dropping is not noticed by the destination: it gets what it would get through a single handle, and dropping a handle does not unsubscribe it. What is pending is delivered when a handle is dropped at the latest. Dropping a handle does not panic.", "quantifier": "every history of cloning, dropping and calling, every destination, also such that call back or panic, every place where a panic is caught", "why_tests_cant": "whether something is pending when the last handle goes depends on the whole history of calls and panics", "anchors": ["crates/rx_core_common/src/subscribers/subscriber_shared.rs: SharedSubscriber (Clone, Drop), SubscriberDeferredState (Drop)"]}
{"id": "C89", "title": "Dropping a publish subject and its subscriptions is harmless", "statement": "Clones of a PublishSubject and subscriptions to it can be dropped in any order; what they share is dropped with the last of them, once. Dropping does not panic, also not after a subscriber has panicked.", "quantifier": "every history of cloning, subscribing, notifying, unsubscribing and dropping, every subscriber that does not call back, every order of iteration over the subscribers, every order of dropping", "why_tests_cant": "what is pending when the last owner goes depends on the history and on the order in which the owners are dropped", "anchors": ["crates/rx_core_subject_publish/src/publish_subject.rs: PublishSubject (Drop)", "crates/rx_core_subject_publish/src/multicast.rs: MulticastDeferredState (Drop)", "crates/rx_core_subject_publish/src/multicast_subscription.rs: MulticastSubscription (Drop, unsubscribe)"]}
{"id": "C90", "title": "A shared subscription whose teardowns panic is one subscription behind many handles", "statement": "Handles of a SharedSubscription can be cloned, used and dropped in any order. Together they behave as one subscription that is dropped with the last handle, also after teardowns have panicked: each teardown handed over to any handle is called at most once; those handed over before the call that closed it are called in order up to the first that panics, those handed over later are called at once; every handle is closed from the first unsubscribe on, even if that panicked. A handle's clone or drop panics only if it is the last drop and a teardown panics in it; no debug assertion fails.", "quantifier": "every history of cloning, handing over teardowns, unsubscribing and dropping, every choice of teardowns that panic, going on after each panic", "why_tests_cant": "the lock, the two flags and the queue of the handles can disagree after a panic, and when they do depends on which handle was used last and which teardown panicked", "anchors": ["crates/rx_core_common/src/subscriptions/subscription_shared.rs: SharedSubscription (unsubscribe, is_closed, Drop), SubscriptionDeferredState (Drop)", "crates/rx_core_common/src/subscriptions/subscription_data.rs: SubscriptionData", "crates/rx_core_common/src/subscribers/subscriber_arc_mutex.rs: TeardownCollection for Arc<Mutex<_>>"]}
{"id": "C91", "title": "take and element_at keep their promises when the destination panics", "statement": "A take(n) gives its destination at most n values and is over with the n-th; an element_at gives its destination at most one value; both can be dropped at any time, and no debug assertion fails. This also holds if the destination panics and the caller goes on.", "quantifier": "every destination that does not call back, every choice of when it panics, every history of signals, unsubscriptions and a drop, every count, index and default value", "why_tests_cant": "what is left behind depends on the call in which the destination panics, and on what is sent after", "anchors": ["crates/rx_core_operator_take/src/take_subscriber.rs: TakeSubscriber (next, complete, unsubscribe, Drop)", "crates/rx_core_operator_element_at/src/element_at_subscriber.rs: ElementAtSubscriber (next, complete, unsubscribe, Drop)", "crates/rx_core_common/src/subscriptions/subscription_closed_flag.rs: SubscriptionClosedFlag (Drop)"]}
