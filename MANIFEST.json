{"claims": [
 {"property": "C01", "status": "proved", "theorems": ["Rx.C01_observer_grammar"], "note": ""},
 {"property": "C02", "status": "partial", "theorems": ["Rx.C02_closed_stays_closed", "Rx.C02_closed_after_terminal", "Rx.C02_closed_is_final_partial", "Rx.C02_closed_is_final", "Rx.C02_into_result_counterexample", "Rx.C02_take_into_result_counterexample"], "note": "Monotonicity holds for every pipeline; finality holds for every pipeline without into_result, which violates it (two counterexample theorems)."},
 {"property": "C03", "status": "proved", "theorems": ["Rx.C03_teardowns_exactly_once", "Rx.C03_all_executed_after_drop", "Rx.C03_closed_stays_closed", "Rx.C03_new_with_teardown", "Rx.C03_closed_teardown", "Rx.C03_option_some", "Rx.C03_option_none"], "note": ""},
 {"property": "C04", "status": "proved", "theorems": ["Rx.Props.C04_terminates", "Rx.Props.C04_exactly_once", "Rx.Props.C04_closed_iff", "Rx.Props.C04_closes_reachable", "Rx.Props.C04_finds_it_closed"], "note": ""},
 {"property": "C05", "status": "proved", "theorems": ["Rx.C05_terminal_before_teardowns", "Rx.C05_each_teardown_once"], "note": ""},
 {"property": "C06", "status": "proved", "theorems": ["Rx.C06_accepts_exactly_grammar", "Rx.C06_flags_reflect_history", "Rx.C06_would_be_invalid_iff"], "note": ""},
 {"property": "C07", "status": "proved", "theorems": ["Rx.C07_roundtrip", "Rx.C07_narrowing_exact", "Rx.C07_narrowing_terminal_exact", "Rx.C07_push_dispatch", "Rx.C07_push_converted", "Rx.C07_classification"], "note": ""},
 {"property": "C08", "status": "proved", "theorems": ["Rx.C08_map_delivers", "Rx.C08_map", "Rx.C08_map_into_delivers", "Rx.C08_map_error_delivers", "Rx.C08_map_error", "Rx.C08_map_never_delivers", "Rx.C08_filter_delivers", "Rx.C08_filter", "Rx.C08_filter_map_delivers", "Rx.C08_filter_map", "Rx.C08_lift_option_delivers", "Rx.C08_lift_option", "Rx.C08_identity_delivers", "Rx.C08_tap_next_delivers", "Rx.C08_tap_next_callback", "Rx.C08_on_next_delivers"], "note": "on_next: callbacks that emit values and decide; callbacks sending terminal signals are covered by C01/C02."},
 {"property": "C09", "status": "proved", "theorems": ["Rx.C09_take_delivers", "Rx.C09_take_enough", "Rx.C09_take_fewer", "Rx.C09_take_immediate", "Rx.C09_take_zero_on_subscribe"], "note": ""},
 {"property": "C10", "status": "proved", "theorems": ["Rx.C10_skip_delivers", "Rx.C10_skip"], "note": ""},
 {"property": "C11", "status": "proved", "theorems": ["Rx.C11_scan_delivers", "Rx.C11_scan", "Rx.C11_reduce_delivers", "Rx.C11_reduce", "Rx.C11_count_delivers", "Rx.C11_count"], "note": ""},
 {"property": "C12", "status": "proved", "theorems": ["Rx.C12_enumerate_delivers", "Rx.C12_enumerate", "Rx.C12_pairwise_delivers", "Rx.C12_pairwise", "Rx.C12_buffer_count_delivers", "Rx.C12_buffer_count", "Rx.C12_buffer_count_partition", "Rx.C12_buffer_count_lossless"], "note": ""},
 {"property": "C13", "status": "proved", "theorems": ["Rx.C13_first_delivers", "Rx.C13_find_delivers", "Rx.C13_find_index_delivers", "Rx.C13_element_at_delivers", "Rx.C13_is_empty_delivers", "Rx.C13_first", "Rx.C13_find", "Rx.C13_find_index", "Rx.C13_element_at", "Rx.C13_is_empty", "Rx.C13_immediate"], "note": ""},
 {"property": "C14", "status": "proved", "theorems": ["Rx.C14_start_with_delivers", "Rx.C14_start_with", "Rx.C14_end_with_delivers", "Rx.C14_end_with", "Rx.C14_on_subscribe", "Rx.C14_finalize_transparent", "Rx.C14_finalize_once"], "note": ""},
 {"property": "C15", "status": "proved", "theorems": ["Rx.C15_materialize_delivers", "Rx.C15_dematerialize_delivers", "Rx.C15_materialize", "Rx.C15_roundtrip"], "note": ""},
 {"property": "C16", "status": "partial", "theorems": ["Rx.C16_into_result_delivers", "Rx.C16_lift_result_delivers", "Rx.C16_into_result", "Rx.C16_roundtrip", "Rx.C16_into_result_end_counterexample", "Rx.C16_into_result_end_partial"], "note": "Values, errors and the round trip are proved; 'ended upstream implies ended downstream' is false for into_result after an error (counterexample theorem)."},
 {"property": "C17", "status": "partial", "theorems": ["Rx.C17_tap_delivers", "Rx.C17_tap_side", "Rx.C17_tap_order", "Rx.C17_tap_second_subscription_counterexample"], "note": "Proved for a fresh side observer; the side observer misses later subscriptions (counterexample theorem)."},
 {"property": "C18", "status": "proved", "theorems": ["Rx.C18_composite_eq_pipe", "Rx.C18_chain_is_composition", "Rx.C18_chain_delivers"], "note": ""},
 {"property": "C19", "status": "proved", "theorems": ["Rx.Sched.Props.C19_delayed_once", "Rx.Sched.Props.C19_scheduled_at_the_time", "Rx.Sched.Props.C19_never_early", "Rx.Sched.Props.C19_has_run"], "note": ""},
 {"property": "C20", "status": "partial", "theorems": ["Rx.Sched.Props.C20_repeated_runs", "Rx.Sched.Props.C20_no_drift", "Rx.Sched.Props.C20_bounded_per_tick", "Rx.Sched.Props.C20_terminates", "Rx.Sched.Props.C20_never_returns", "Rx.Sched.Props.C20_zero_interval_hangs"], "note": "Proved for every positive interval. Interval zero hangs the tick (counterexample theorem); termination is proved when no zero interval is scheduled."},
 {"property": "C21", "status": "proved", "theorems": ["Rx.Sched.Props.C21_once_in_order", "Rx.Sched.Props.C21_done_not_ticked", "Rx.Sched.Props.C21_all_ticked"], "note": ""},
 {"property": "C22", "status": "partial", "theorems": ["Rx.Sched.Props.C22_cancelled_does_not_run_partial", "Rx.Sched.Props.C22_cancel_between_ticks", "Rx.Sched.Props.C22_others_unaffected", "Rx.Sched.Props.C22_same_pass_counterexample"], "note": "Proved for cancellations between ticks and, for cancellations from inside running work, from the next pass of the executor on; within the pass in which it is requested, work later in the order still runs (counterexample theorem). That other work is unaffected is C22_others_unaffected together with C19, C20, C58, whose hypotheses do not mention other work."},
 {"property": "C23", "status": "partial", "theorems": ["Rx.Sched.Props.C23_at_most_once", "Rx.Sched.Props.C23_exactly_once_partial", "Rx.Sched.Props.C23_cancelled_does_not_run_partial", "Rx.Sched.Props.C23_cancel_drops_others_counterexample", "Rx.Sched.Props.C23_cancel_keeps_own_counterexample"], "note": "At-most-once holds always; exactly-once unless another invoked work is cancelled while invocations wait: cancel_invoked keeps the cancelled id's pending invocations and drops all others (two counterexample theorems)."},
 {"property": "C24", "status": "proved", "theorems": ["Rx.Sched.Props.C24_clock_monotone", "Rx.Sched.Props.C24_tick_advances", "Rx.Sched.Props.C24_clock_never_back", "Rx.Sched.Props.C24_quiescent", "Rx.Sched.Props.C24_active_was_ticked", "Rx.Sched.Props.C24_ids_never_reused"], "note": ""},
 {"property": "C25", "status": "proved", "theorems": ["Rx.C25_served_in_order", "Rx.C25_no_panic", "Rx.C25_order_unique"], "note": "The exact limit: nesting up to 8 never panics, nesting beyond 9 always does. The destination obeys the subscriber contract (closed means inert, closing notifications close)."},
 {"property": "C26", "status": "partial", "theorems": ["Rx.C26_none_lost_partial", "Rx.C26_order", "Rx.C26_exclusive", "Rx.C26_recovers_partial", "Rx.C26_lost_wakeup_counterexample"], "note": "No loss, no duplication, per-thread order, mutual exclusion and delivery by the next call are proved for all interleavings (values only). That everything is delivered once all calls returned is false (lost wake-up, counterexample theorem)."},
 {"property": "C27", "status": "proved", "theorems": ["Rx.Publish.Props.C27_any_subscriber", "Rx.Publish.Props.C27_sees_exactly"], "note": "Subscribers that do not call the subject; those that do are C56."},
 {"property": "C28", "status": "proved", "theorems": ["Rx.Publish.Props.C28_late_subscriber", "Rx.Publish.Props.C28_inert"], "note": "Subscribers that do not call the subject; those that do are C56."},
 {"property": "C29", "status": "partial", "theorems": ["Rx.Caching.Props.C29_latest_then_later", "Rx.Caching.Props.C29_after_end_partial", "Rx.Caching.Props.C29_after_error", "Rx.Caching.Props.C29_value_sent_after_end", "Rx.Caching.Props.C29_answer_lost"], "note": "Proved for open subjects, for ended subjects to which nothing is sent afterwards, and for errored subjects. A value sent after the end replaces the remembered one, and a value sent in answer to the replayed one does not reach the subscriber that sent it (counterexample theorems)."},
 {"property": "C30", "status": "partial", "theorems": ["Rx.Caching.Props.C30_last_then_later", "Rx.Caching.Props.C30_after_end_partial", "Rx.Caching.Props.C30_after_error", "Rx.Caching.Props.C30_value_sent_after_end"], "note": "As C29, for every positive capacity; values sent after the end are remembered (counterexample theorem)."},
 {"property": "C31", "status": "partial", "theorems": ["Rx.Caching.Props.C31_on_completion", "Rx.Caching.Props.C31_after_completion_partial", "Rx.Caching.Props.C31_after_error", "Rx.Caching.Props.C31_after_unsubscribe_partial", "Rx.Caching.Props.C31_value_after_unsubscribe", "Rx.Caching.Props.C31_value_sent_after_completion"], "note": "Proved for subscribers before the end, late subscribers after completion (nothing sent afterwards) and after errors. Late subscribers of an unsubscribed subject get the pending reduction, and values sent after completion change what late subscribers get (counterexample theorems)."},
 {"property": "C32", "status": "proved", "theorems": ["Rx.Caching.Props.C32_provenance"], "note": ""},
 {"property": "C33", "status": "partial", "theorems": ["Rx.C33_queue_partial", "Rx.C33_error_at_once", "Rx.C33_overflow", "Rx.C33_limit_zero_counterexample", "Rx.C33_pop_after_error_counterexample", "Rx.C33_store"], "note": "Proved for a limit of at least 1 and pushes that keep to the Rx grammar. With limit 0 DropOldest holds one value, and popping after an error can fail a debug assertion (two counterexample theorems)."},
 {"property": "C34", "status": "partial", "theorems": ["Rx.C34_zip_delivers_partial", "Rx.C34_zip_expected_partial", "Rx.C34_kth_emission", "Rx.C34_completion_counterexample"], "note": "Emissions and errors are proved within the queue limit; completion when the other input is not ahead. If it is ahead, zip never completes (counterexample theorem)."},
 {"property": "C35", "status": "partial", "theorems": ["Rx.C35_combine_latest_delivers_partial", "Rx.C35_combine_latest_expected_partial", "Rx.C35_completion_counterexample", "Rx.C35_unsubscribe_counterexample"], "note": "Emissions, errors and completion of both inputs are proved; an input completing (or being unsubscribed) without a value is handled wrongly in some states (two counterexample theorems)."},
 {"property": "C36", "status": "proved", "theorems": ["Rx.C36_combine_changes_delivers"], "note": ""},
 {"property": "C37", "status": "proved", "theorems": ["Rx.C37_join_delivers", "Rx.C37_join_ignores", "Rx.C37_lawful"], "note": ""},
 {"property": "C38", "status": "proved", "theorems": ["Rx.C38_with_latest_from_delivers"], "note": ""},
 {"property": "C39", "status": "partial", "theorems": ["Rx.HigherOrder.Props.C39_no_panic", "Rx.HigherOrder.Props.C39_limit", "Rx.HigherOrder.Props.C39_once", "Rx.HigherOrder.Props.C39_order_partial", "Rx.HigherOrder.Props.C39_slots_used_partial", "Rx.HigherOrder.Props.C39_values", "Rx.HigherOrder.Props.C39_inactive_ignored", "Rx.HigherOrder.Props.C39_started", "Rx.HigherOrder.Props.C39_slot_lost"], "note": "At most `limit` at once, at most once each, and values only from active ones: all histories. Arrival order and 'a free slot is used' need that no inner observable just unsubscribes its subscriber; otherwise a slot can be lost (C39_slot_lost) and an arrival overtakes those waiting (C40_overtaken)."},
 {"property": "C40", "status": "partial", "theorems": ["Rx.HigherOrder.Props.C40_one_after_the_other", "Rx.HigherOrder.Props.C40_values", "Rx.HigherOrder.Props.C40_order_partial", "Rx.HigherOrder.Props.C40_overtaken"], "note": "One after the other among those subscribed: all histories. In arrival order with none skipped: histories in which no inner observable just unsubscribes its subscriber (counterexample C40_overtaken otherwise)."},
 {"property": "C41", "status": "partial", "theorems": ["Rx.HigherOrder.Props.C41_no_panic_partial", "Rx.HigherOrder.Props.C41_one_at_a_time", "Rx.HigherOrder.Props.C41_order", "Rx.HigherOrder.Props.C41_latest", "Rx.HigherOrder.Props.C41_values", "Rx.HigherOrder.Props.C41_inactive_ignored", "Rx.HigherOrder.Props.C41_completes_iff", "Rx.HigherOrder.Props.C41_switches", "Rx.HigherOrder.Props.C41_all", "Rx.HigherOrder.Props.C41_late", "Rx.HigherOrder.Props.C41_panics"], "note": "Switching, order and values: all histories and destinations. Completion iff: histories without errors and unsubscriptions and a destination that does not close itself. No panic: only for such destinations; after the destination closed itself on a value the next arrival is still subscribed for a moment (C41_late) and a failing one panics in debug builds (C41_panics). An inner observable that just unsubscribes makes the destination unsubscribe instead of complete (C43_switch_unsubscribed)."},
 {"property": "C42", "status": "partial", "theorems": ["Rx.HigherOrder.Props.C42_no_panic_partial", "Rx.HigherOrder.Props.C42_one_at_a_time", "Rx.HigherOrder.Props.C42_order", "Rx.HigherOrder.Props.C42_latest", "Rx.HigherOrder.Props.C42_values", "Rx.HigherOrder.Props.C42_inactive_ignored", "Rx.HigherOrder.Props.C42_completes_iff", "Rx.HigherOrder.Props.C42_subscribed", "Rx.HigherOrder.Props.C42_ignored", "Rx.HigherOrder.Props.C42_ignored_for_good", "Rx.HigherOrder.Props.C42_leak", "Rx.HigherOrder.Props.C42_panics"], "note": "Subscribed iff none is active while the destination is open, ignored ones never subscribed: all histories. Completion iff: as for C41. After the destination closed itself on a value an arrival is still subscribed and leaks (C42_leak), and panics in debug builds if it fails (C42_panics)."},
 {"property": "C43", "status": "partial", "theorems": ["Rx.HigherOrder.Props.C43_ends_once", "Rx.HigherOrder.Props.C43_completes_iff", "Rx.HigherOrder.Props.C43_inner_error", "Rx.HigherOrder.Props.C43_outer_error", "Rx.HigherOrder.Props.C43_error_ends_everything", "Rx.HigherOrder.Props.C43_unsubscribe_partial", "Rx.HigherOrder.Props.C43_switch_ends_once", "Rx.HigherOrder.Props.C43_switch_inner_error", "Rx.HigherOrder.Props.C43_switch_outer_error", "Rx.HigherOrder.Props.C43_switch_unsubscribe", "Rx.HigherOrder.Props.C43_exhaust_ends_once", "Rx.HigherOrder.Props.C43_exhaust_inner_error", "Rx.HigherOrder.Props.C43_exhaust_outer_error", "Rx.HigherOrder.Props.C43_exhaust_unsubscribe", "Rx.HigherOrder.Props.C43_stuck", "Rx.HigherOrder.Props.C43_concat_leaks", "Rx.HigherOrder.Props.C43_concat_leaks_all", "Rx.HigherOrder.Props.C43_second_completion", "Rx.HigherOrder.Props.C43_switch_unsubscribed"], "note": "Merge, concat, switch and exhaust. Errors and single completion: all histories. Completion iff: histories without errors and unsubscriptions (C43_stuck, C43_switch_unsubscribed otherwise; C41_completes_iff and C42_completes_iff for switch and exhaust). Unsubscribing ends everything for switch, exhaust, and merge with limits above one; for concat it starts the next waiting inner observable, which leaks (C43_concat_leaks)."},
 {"property": "C44", "status": "proved", "theorems": ["Rx.Catch.Props.C44_delivers", "Rx.Catch.Props.C44_subscribed", "Rx.Catch.Props.C44_ended", "Rx.Catch.Props.C44_transparent", "Rx.Catch.Props.C44_cut_off"], "note": "All histories of source and recovery observable, any destination. An unsubscription following the source's error counts as unsubscribing everything; a subject that already failed sends one to late subscribers, which cuts the recovery off (C44_cut_off)."},
 {"property": "C45", "status": "partial", "theorems": ["Rx.Retry.Props.C45_delivers_partial", "Rx.Retry.Props.C45_synchronous", "Rx.Retry.Props.C45_later", "Rx.Retry.Props.C45_attempts_partial", "Rx.Retry.Props.C45_error_last", "Rx.Retry.Props.C45_extra_attempt", "Rx.Retry.Props.C45_extra_values", "Rx.Retry.Props.C45_cut_off", "Rx.Retry.Props.C45_stale_error"], "note": "Exactly as stated while not all retries have been needed (any mix of synchronous and later failures, any destination), for sources that end while being subscribed, and (what the destination sees) for sources that fail later. Otherwise the code deviates: one attempt too many (C45_extra_attempt, C45_extra_values), the last allowed attempt is cut off although live (C45_cut_off), the error of an earlier attempt is delivered (C45_stale_error). In every history at most max + 2 attempts, one at a time, and no error before max + 1 attempts."},
 {"property": "C46", "status": "partial", "theorems": ["Rx.Share.Props.C46_once", "Rx.Share.Props.C46_again", "Rx.Share.Props.C46_connected", "Rx.Share.Props.C46_disconnected_partial", "Rx.Share.Props.C46_value", "Rx.Share.Props.C46_end", "Rx.Share.Props.C46_kept_value", "Rx.Share.Props.C46_left_behind", "Rx.Share.Props.C46_no_deadlock", "Rx.Share.Props.C46_second_round", "Rx.Share.Props.C46_second_round_error", "Rx.Share.Props.C46_after_reset", "Rx.Share.Props.C46_left_while_connecting", "Rx.Share.Props.C46_closed_subscriber", "Rx.Share.Props.C46_source_unsubscribed", "Rx.Share.Props.C46_deadlock", "Rx.Share.Props.C46_subscribed_again"], "note": "For all histories of a share or connectable observable with a PublishSubject connector: at most one open subscription to the source, made only when none is open; connected while there is a subscriber (unless told to disconnect or the source unsubscribes); values and the end reach each subscriber once; disconnected when there is no subscriber, as long as no round ended with a new connector taken, and nobody leaves while the source is being subscribed to. Missing part is false, proved as counterexamples: C46_second_round, C46_second_round_error, C46_after_reset, C46_left_while_connecting, C46_closed_subscriber, C46_source_unsubscribed, C46_deadlock, C46_subscribed_again. Re-entrant calls to the shared observable from its own subscribers are not modelled."},
 {"property": "C47", "status": "proved", "theorems": ["Rx.Timed.Props.C47_delay_allowed", "Rx.Timed.Props.C47_delay_order", "Rx.Timed.Props.C47_delay_prompt", "Rx.Timed.Props.C47_delay_first", "Rx.Timed.Props.C47_delay_between", "Rx.Timed.Props.C47_delay_closes", "Rx.Timed.Props.C47_delay_completes", "Rx.Timed.Props.C47_delay_error"], "note": "delay on the executor, sharing its scheduler with an arbitrary program that may feed it from inside ticks. Destinations close on complete, error and unsubscribe; the destination does not feed the operator while being notified."},
 {"property": "C48", "status": "partial", "theorems": ["Rx.Timed.Props.C48_debounce_allowed_partial", "Rx.Timed.Props.C48_debounce_prompt", "Rx.Timed.Props.C48_debounce_first", "Rx.Timed.Props.C48_debounce_sublist", "Rx.Timed.Props.C48_debounce_closes", "Rx.Timed.Props.C48_debounce_completes", "Rx.Timed.Props.C48_debounce_settled_partial", "Rx.Timed.Props.C48_debounce_error", "Rx.Timed.Props.C48_lost_value", "Rx.Timed.Props.C48_completed_early"], "note": "As C47. The pending value is delivered before completion only if every value delivered was the newest at that moment; C48_lost_value and C48_completed_early show the values lost when a newer value arrives from other work in the very tick in which an older one is due."},
 {"property": "C49", "status": "partial", "theorems": ["Rx.Timed.Props.C49_throttle_allowed_partial", "Rx.Timed.Props.C49_throttle_no_duplicates", "Rx.Timed.Props.C49_throttle_order_partial", "Rx.Timed.Props.C49_trailing_rate", "Rx.Timed.Props.C49_leading_rate_partial", "Rx.Timed.Props.C49_leading_average", "Rx.Timed.Props.C49_both_rate_partial", "Rx.Timed.Props.C49_both_average", "Rx.Timed.Props.C49_throttle_ends", "Rx.Timed.Props.C49_throttle_error", "Rx.Timed.Props.C49_no_panic_partial", "Rx.Timed.Props.C49_leading_too_close", "Rx.Timed.Props.C49_cooldown_too_short", "Rx.Timed.Props.C49_out_of_order", "Rx.Timed.Props.C49_trailing_lost", "Rx.Timed.Props.C49_lost_at_completion", "Rx.Timed.Props.C49_panics", "Rx.Timed.Props.C49_panics_zero"], "note": "The property as stated does not hold, with counterexamples: C49_leading_too_close, C49_cooldown_too_short, C49_out_of_order, C49_trailing_lost, C49_lost_at_completion, C49_panics, C49_panics_zero. Proved, on the executor with an arbitrary program beside: the rate as stated for trailing output; for leading output every second delivery, and for both every third, is a duration apart, with bounds on the average; what is given and when; errors at once; the end at most a duration late; no panic if upstream does not end in a tick and the duration is not zero."},
 {"property": "C50", "status": "proved", "theorems": ["Rx.Timed.Props.C50_observe_on_allowed", "Rx.Timed.Props.C50_observe_on_order", "Rx.Timed.Props.C50_observe_on_prompt", "Rx.Timed.Props.C50_observe_on_next_tick", "Rx.Timed.Props.C50_observe_on_between", "Rx.Timed.Props.C50_observe_on_closes", "Rx.Timed.Props.C50_observe_on_completes", "Rx.Timed.Props.C50_observe_on_error", "Rx.Timed.Props.C50_never_completed", "Rx.Timed.Props.C50_given_after_unsubscribe"], "note": "observe_on on the executor, sharing its scheduler with an arbitrary program. Completion after all pending values is for an upstream that sends no value after completion; C50_never_completed shows that otherwise the destination is neither completed nor unsubscribed."},
 {"property": "C51", "status": "proved", "theorems": ["Rx.Timed.Props.C51_allowed", "Rx.Timed.Props.C51_tick", "Rx.Timed.Props.C51_at_most_one", "Rx.Timed.Props.C51_between", "Rx.Timed.Props.C51_lost_at_completion"], "note": "For every history of an arbitrary program on the same scheduler, in each tick after the subscription (C51_tick, if the destination is open at the end of the tick; C51_at_most_one otherwise), and never between ticks. \"Of that tick\" means since the operator had its turn in the previous tick. C51_lost_at_completion: completion does not wait for the value of the current tick."},
 {"property": "C52", "status": "proved", "theorems": ["Rx.Timed.Props.C52_timer_allowed", "Rx.Timed.Props.C52_timer_prompt", "Rx.Timed.Props.C52_timer_fires", "Rx.Timed.Props.C52_interval_allowed", "Rx.Timed.Props.C52_interval_tick", "Rx.Timed.Props.C52_interval_exact", "Rx.Timed.Props.C52_skips"], "note": "For every history of an arbitrary program on the same scheduler, every destination that closes when told to. interval with a period > 0 (with period 0 the first tick does not return, C20). C52_interval_exact: no drift, if no tick is longer than limit x period; C52_interval_tick is the general per-tick count; C52_skips shows that periods over the limit are skipped for good."},
 {"property": "C53", "status": "partial", "theorems": ["Rx.Sources.C53_iterator", "Rx.Sources.C53_iterator_finite", "Rx.Sources.C53_iterator_returns", "Rx.Sources.C53_iterator_unique", "Rx.Sources.C53_iterator_extra", "Rx.Timed.Props.C53_on_tick_allowed", "Rx.Timed.Props.C53_on_tick_items", "Rx.Timed.Props.C53_on_tick_cadence", "Rx.Timed.Props.C53_on_tick_completes_partial", "Rx.Timed.Props.C53_empty_never_completed", "Rx.Timed.Props.C53_single_never_completed", "Rx.Timed.Props.C53_zero"], "note": "iterator: proved in full, also for iterators without end (C53_iterator_returns says when subscribing returns). iterator_on_tick: proved for every history of an arbitrary program on the same scheduler, except completion: C53_empty_never_completed and C53_single_never_completed show that an iterator without items, and one whose only item is given on subscription, is never completed."},
 {"property": "C54", "status": "proved", "theorems": ["Rx.Timed.Props.C54_once", "Rx.Timed.Props.C54_prompt", "Rx.Timed.Props.C54_closed", "Rx.Timed.Props.C54_passed_on"], "note": "For every history of an arbitrary program on the same scheduler and every destination that is closed by its end. The source is what it notifies while it is subscribed, and arbitrary later notifications."},
 {"property": "C55", "status": "proved", "theorems": ["Rx.Timed.Props.C55_given", "Rx.Timed.Props.C55_tick", "Rx.Timed.Props.C55_at_most_one", "Rx.Timed.Props.C55_between", "Rx.Timed.Props.C55_no_panic", "Rx.Timed.Props.C55_count", "Rx.Timed.Props.C55_reported", "Rx.Timed.Props.C55_reported_emitted", "Rx.Timed.Props.C55_range", "Rx.Timed.Props.C55_proper", "Rx.Timed.Props.C55_order", "Rx.Timed.Props.C55_forward", "Rx.Timed.Props.C55_held", "Rx.Timed.Props.C55_restarted", "Rx.Timed.Props.C55_faded", "Rx.Timed.Props.C55_off", "Rx.Timed.Props.C55_restart_delayed", "Rx.Timed.Props.C55_restart_no_fire", "Rx.Timed.Props.C55_fire_early", "Rx.Timed.Props.C55_panics"], "note": "For all histories and numbers: what is emitted are the signals of the samples, one sample per tick; transitions are reported exactly when the phase changes, also for what is emitted; values are within 0 and 1 (and not NaN if the easing functions make none); the phases follow the legal order; values are those of the envelope as a function of time while held and while released. f32 and the easing curves are a parameter. Findings proved as counterexamples: a restart in release loses the time of one tick (C55_restart_delayed), does not report Fire without attack time (C55_restart_no_fire), a release in the attack reports Fire (C55_fire_early), a tick before the last panics (C55_panics)."},
 {"property": "C56", "status": "partial", "theorems": ["Rx.Publish.Props.C56_reentrant_calls_partial", "Rx.Publish.Props.C56_unsubscribe_not_flushed", "Rx.Publish.Props.C56_unsubscribe_reorders", "Rx.Publish.Props.C56_ten_answers_panic", "Rx.Publish.Props.C56_late_subscriber_deadlocks"], "note": "Proved for all reactions of subscribers that close when told to, for runs that do not panic or deadlock, unless a subscription is cancelled from outside whose subscriber calls the subject when unsubscribed. In that case calls are applied late and out of order; ten nested answers panic; calling the subject when told of its past end deadlocks (four counterexample theorems)."},
 {"property": "C57", "status": "proved", "theorems": ["Rx.Sources.C57_gives", "Rx.Sources.C57_throw_error", "Rx.Sources.C57_already_closed", "Rx.Sources.C57_teardown", "Rx.Sources.C57_unsubscribe", "Rx.Sources.C57_create", "Rx.Sources.C57_independent", "Rx.Sources.C57_deferred", "Rx.Sources.C57_pipeline"], "note": "For every lawful destination (any chain of operators ending in an observer, open or closed). Producers of create are arbitrary finite interaction programs; state that a producer or factory shares with its clones or with others is not modelled. The handle of create is the destination behind a SharedSubscription (modelled separately, C27)."},
 {"property": "C58", "status": "proved", "theorems": ["Rx.Sched.Props.C58_immediate_once", "Rx.Sched.Props.C58_continuous_every_tick"], "note": ""},
 {"property": "C59", "status": "proved", "theorems": ["Rx.Bevy.World.Props.C59_entity", "Rx.Bevy.World.Props.C59_own", "Rx.Bevy.World.Props.C59_distinct", "Rx.Bevy.World.Props.C59_despawn", "Rx.Bevy.World.Props.C59_remove", "Rx.Bevy.World.Props.C59_stays", "Rx.Bevy.World.Props.C59_cleanup"], "note": "For all histories of the model of the Bevy integration. What Bevy does (hooks, observers, despawning of related entities, command order) is an assumption written into the model; Bevy's source was not available."},
 {"property": "C60", "status": "partial", "theorems": ["Rx.Bevy.World.Props.C60_once", "Rx.Bevy.World.Props.C60_types", "Rx.Bevy.World.Props.C60_issued", "Rx.Bevy.World.Props.C60_immediate", "Rx.Bevy.World.Props.C60_waits", "Rx.Bevy.World.Props.C60_attempts", "Rx.Bevy.World.Props.C60_waiting", "Rx.Bevy.World.Props.C60_settles", "Rx.Bevy.World.Props.C60_retry_partial", "Rx.Bevy.World.Props.C60_retry_lost", "Rx.Bevy.World.Props.C60_despawn_waiting", "Rx.Bevy.World.Props.C60_retry_lost_example", "Rx.Bevy.World.Props.C60_stale_satellite"], "note": "For all histories: subscribed at most once, to an observable of the right entity and types, at once if there is one (in histories where no observable is inserted over one of the same type); otherwise retried, at most three times. Missing: the retry works only if it comes before Last (C60_retry_partial). It never does in the schedules of the plugin, because Last despawns the entity of the waiting subscription: proved as C60_retry_lost, for all continuations. C60_stale_satellite: a re-inserted and removed observable leaves a satellite that swallows subscribe commands."},
 {"property": "C61", "status": "proved", "theorems": ["Rx.Bevy.World.Props.C61_exit"], "note": "For all histories of the model of the Bevy integration."},
 {"property": "C62", "status": "partial", "theorems": ["Rx.Poll.Props.C62_follows", "Rx.Poll.Props.C62_tick", "Rx.Poll.Props.C62_between", "Rx.Poll.Props.C62_before", "Rx.Poll.Props.C62_write_partial", "Rx.Poll.Props.C62_late_write_missed", "Rx.Poll.Props.C62_readded_missed"], "note": "For all histories on the executor, with an arbitrary program beside the source: what each tick gives is exactly what the statement says (C62_follows, C62_tick, C62_between, C62_before); a value written between ticks is given in the next one (C62_write_partial). Missing: what a user would expect of a write in a tick after the look, or of a resource removed and inserted again when only additions are asked for; both are never given (C62_late_write_missed, C62_readded_missed). Bevy's change detection is an assumption written into the model."},
 {"property": "C63", "status": "proved", "theorems": ["Rx.Poll.Props.C63_follows", "Rx.Poll.Props.C63_tick", "Rx.Poll.Props.C63_between", "Rx.Poll.Props.C63_before"], "note": "For all histories on the executor, with an arbitrary program beside the source. ButtonInput is modelled from its documentation; no claim about the order of keys in a tick."},
 {"property": "C64", "status": "proved", "theorems": ["Rx.Poll.Props.C64_follows", "Rx.Poll.Props.C64_once", "Rx.Poll.Props.C64_all", "Rx.Poll.Props.C64_none_left", "Rx.Poll.Props.C64_lost", "Rx.Poll.Props.C64_tick", "Rx.Poll.Props.C64_between", "Rx.Poll.Props.C64_before"], "note": "For all histories on the executor, with an arbitrary program beside the source. Messages and MessageCursor are modelled from their documentation. C64_lost: messages are lost if the buffers are updated twice between two ticks."},
 {"property": "C65", "status": "partial", "theorems": ["Rx.Timed.Props.C65_interval", "Rx.Timed.Props.C65_subscribe_on", "Rx.Timed.Props.C65_bevy_sources", "Rx.Timed.Props.C65_delay", "Rx.Timed.Props.C65_delay_due", "Rx.Timed.Props.C65_debounce", "Rx.Timed.Props.C65_debounce_due", "Rx.Timed.Props.C65_observe_on", "Rx.Timed.Props.C65_iterator", "Rx.Timed.Props.C65_adsr", "Rx.Timed.Props.C65_timer_partial", "Rx.Timed.Props.C65_timer_due", "Rx.Timed.Props.C65_throttle_partial", "Rx.Timed.Props.C65_throttle_due", "Rx.Timed.Props.C65_fallback_partial", "Rx.Timed.Props.C65_fallback_kept", "Rx.Timed.Props.C65_throttle_kept", "Rx.Timed.Props.C65_timer_kept", "Rx.Timed.Props.C65_delay_kept"], "note": "Proved in full for interval, subscribe_on, iterator_on_tick, adsr, observe_on and the three Bevy sources; for delay and debounce_time if no value arrives when the destination is closed, and in any case once all values are due. Fails for fallback_when_silent (C65_fallback_kept: its work is kept until upstream ends or is unsubscribed), for throttle_time if the destination closes on a leading value (C65_throttle_kept), and for timer if somebody else closes the destination (C65_timer_kept); the last two are released when they are due (C65_throttle_due, C65_timer_due)."},
 {"property": "C66", "status": "proved", "theorems": ["Rx.Deliver.Props.C66_order", "Rx.Deliver.Props.C66_prompt", "Rx.Deliver.Props.C66_between", "Rx.Deliver.Props.C66_outcome", "Rx.Deliver.Props.C66_time", "Rx.Deliver.Props.C66_handled", "Rx.Deliver.Props.C66_handled_all", "Rx.Deliver.Props.C66_resource", "Rx.Deliver.Props.C66_entity", "Rx.Deliver.Props.C66_released"], "note": "On the executor, with an arbitrary program beside. That commands queued by the works (triggering events) are applied in the order in which they were queued is assumed of Bevy."},
 {"property": "C67", "status": "partial", "theorems": ["Rx.C67_one_at_a_time", "Rx.C67_exclusive", "Rx.C67_never_waits", "Rx.C67_every_call_is_seen", "Rx.C67_only_what_was_sent", "Rx.C67_order", "Rx.C67_nothing_after_closing", "Rx.C67_none_lost_partial", "Rx.C67_closes_partial", "Rx.C67_recovers", "Rx.C67_is_closed_yes", "Rx.C67_is_closed_no_partial", "Rx.C67_lost_completion_counterexample", "Rx.C67_is_closed_counterexample"], "note": "All proved except the last sentence, which is false: what a thread could not hand over may stay in the queue (C67_lost_completion_counterexample) and is_closed may answer no for a closed destination (C67_is_closed_counterexample). Proved instead: any later call or drop makes up for it (C67_recovers), with nothing waiting a closing call has closed the destination, and when is_closed wrongly answers no the destination is closed. The destination does not call back into the shared subscriber (that is C25)."},
 {"property": "C68", "status": "partial", "theorems": ["Rx.C68_alone_partial", "Rx.C68_only_when_outrun", "Rx.C68_dead_after_panic", "Rx.C68_panic_counterexample"], "note": "False (C68_panic_counterexample, two threads sending only values), and after such a panic nothing is ever delivered again (C68_dead_after_panic). Proved: a call panics only if at least nine other calls had not returned when it began (C68_only_when_outrun), and a call or drop made while no other thread is inside a call returns without panicking, whatever waits."},
 {"property": "C69", "status": "partial", "theorems": ["Rx.HigherOrder.Props.C69_no_panic", "Rx.HigherOrder.Props.C69_limit", "Rx.HigherOrder.Props.C69_once", "Rx.HigherOrder.Props.C69_order_partial", "Rx.HigherOrder.Props.C69_values", "Rx.HigherOrder.Props.C69_ends_once", "Rx.HigherOrder.Props.C69_completes_iff_partial", "Rx.HigherOrder.Props.C69_error", "Rx.HigherOrder.Props.C69_error_ends_everything", "Rx.HigherOrder.Props.C69_synchronous", "Rx.HigherOrder.Props.C69_concat_one_by_one", "Rx.HigherOrder.Props.C69_concat_values_partial", "Rx.HigherOrder.Props.C69_concat_synchronous", "Rx.HigherOrder.Props.C69_unsubscribe_partial", "Rx.HigherOrder.Props.C69_concat_leaks", "Rx.HigherOrder.Props.C69_stuck"], "note": "False for inputs that stop without completing (C69_stuck), and unsubscribing concat, or merge with a limit of one, subscribes the input waiting, which stays subscribed (C69_concat_leaks). Everything else is proved without those: order and completion for inputs that do not stop so, unsubscribing for limits above one. The inputs and the destination do not call back into the operator."},
 {"property": "C70", "status": "partial", "theorems": ["Rx.C70_one_at_a_time", "Rx.C70_exclusive", "Rx.C70_never_waits", "Rx.C70_every_call_is_seen", "Rx.C70_only_for_a_reason", "Rx.C70_closed_hears_nothing", "Rx.C70_one_order", "Rx.C70_none_missed_partial", "Rx.C70_nothing_overtakes", "Rx.C70_cancelled", "Rx.C70_stuck_value_counterexample"], "note": "A value may stay in the queue after all calls have returned, although only next was ever called (C70_stuck_value_counterexample); C70_none_missed_partial says so, and C71_recovers that the next call delivers it. Everything else is proved. Ten deferred rounds panic, see C71."},
 {"property": "C71", "status": "partial", "theorems": ["Rx.C71_is_closed_yes", "Rx.C71_is_closed_no", "Rx.C71_no_late_value", "Rx.C71_late_subscriber", "Rx.C71_late_error", "Rx.C71_late_complete", "Rx.C71_late_unsubscribe", "Rx.C71_greeted", "Rx.C71_ends_partial", "Rx.C71_unsubscribed_partial", "Rx.C71_recovers", "Rx.C71_alone_partial", "Rx.C71_only_when_outrun", "Rx.C71_dead_after_panic", "Rx.C71_missed_end_counterexample", "Rx.C71_deaf_unsubscribe_counterexample", "Rx.C71_two_ends_counterexample", "Rx.C71_debug_panic_counterexample", "Rx.C71_panic_counterexample"], "note": "False if subscribe overlaps with a call that ends the subject: the subscriber may stay open for ever (C71_missed_end_counterexample), even after its subscription is unsubscribed (C71_deaf_unsubscribe_counterexample); proved for all others, once nothing waits, and the next call sees to that (C71_recovers). If error and complete overlap, later subscribers may be told of the other one (C71_two_ends_counterexample); proved if all ending calls are of one kind. A call may panic: two concurrent completes in debug builds (C71_debug_panic_counterexample), or ten calls made during one (C71_panic_counterexample), after which nobody hears anything (C71_dead_after_panic); a call made alone does not (C71_alone_partial), nor, apart from that complete, one that fewer than nine others overlap (C71_only_when_outrun)."},
 {"property": "C72", "status": "proved", "theorems": ["Rx.Events.C72_hears", "Rx.Events.C72_open_hears_every_event", "Rx.Events.C72_starts", "Rx.Events.C72_starts_once", "Rx.Events.C72_ends_with_the_entity", "Rx.Events.C72_leaves_nothing_behind", "Rx.Events.C72_misses_events_before_the_tick_counterexample"], "note": "Bevy's behaviour is assumed as listed in Model/BevyEvents.lean. That nobody uses cancel_invoked, which forgets the invocations of others (C23), is part of the model. Events triggered between subscribe and the next tick are missed (C72_misses_events_before_the_tick_counterexample): the property does not claim otherwise."},
 {"property": "C73", "status": "partial", "theorems": ["Rx.C73_one_at_a_time", "Rx.C73_publishes", "Rx.C73_every_call_is_seen", "Rx.C73_subscribe_goes_on", "Rx.C73_remembered_first", "Rx.C73_starts_with_what_is_remembered", "Rx.C73_behavior_starts", "Rx.C73_replay_starts", "Rx.C73_answers", "Rx.C73_never_waits", "Rx.C73_one_order", "Rx.C73_not_twice_partial", "Rx.C73_none_missed_partial", "Rx.C73_exact_partial", "Rx.C73_in_order_partial", "Rx.C73_up_to_date_partial", "Rx.C73_after_error", "Rx.C73_after_complete", "Rx.C73_gap_counterexample", "Rx.C73_twice_counterexample", "Rx.C73_last_heard_counterexample"], "note": "Exactly once, in order and up to date are proved when no call of next overlaps with the subscribe (and, for the order, no two calls of next overlap). Otherwise they are false of the code: a value sent while subscribe is going on is missed (C73_gap_counterexample) or heard twice (C73_twice_counterexample), and two overlapping calls of next leave subscribers with a last value that is not the remembered one (C73_last_heard_counterexample). Subscribers do not call back."},
 {"property": "C74", "status": "partial", "theorems": ["Rx.C74_one_at_a_time", "Rx.C74_publishes", "Rx.C74_every_call_is_seen", "Rx.C74_complete_goes_on", "Rx.C74_never_waits", "Rx.C74_answers", "Rx.C74_replayed_first", "Rx.C74_publishes_the_result", "Rx.C74_completes_after", "Rx.C74_starts", "Rx.C74_only_results", "Rx.C74_nothing_before", "Rx.C74_once_partial", "Rx.C74_hears_the_result_partial", "Rx.C74_after_complete", "Rx.C74_after_error", "Rx.C74_twice_counterexample", "Rx.C74_missed_value_counterexample"], "note": "At most once is proved if complete is called once; the exact sequence if moreover neither error nor unsubscribe is called and the subscribe had returned before. Otherwise they are false of the code: two overlapping calls of complete publish the result twice (C74_twice_counterexample), and a subscriber whose subscribe overlaps with complete hears the completion without the result (C74_missed_value_counterexample). Values sent after complete change the result late subscribers hear, as for one thread (C31). Subscribers do not call back, the reducer does not call the subject."},
 {"property": "C75", "status": "partial", "theorems": ["Rx.C75_at_most_once_partial", "Rx.C75_which_run_partial", "Rx.C75_who_is_told", "Rx.C75_counterexample"], "note": "That all run is false of the code: the panic leaves the loop over drain(..), which drops the teardowns behind it without calling them (C75_counterexample). Proved: none runs twice, exactly which run and which are lost, that the subscription is closed, who sees the panic."},
 {"property": "C76", "status": "proved", "theorems": ["Rx.C76_transparent", "Rx.C76_poisoned_by_panics", "Rx.C76_who_is_told", "Rx.C76_after_a_panic", "Rx.C76_released", "Rx.C76_released_by_teardown", "Rx.C76_gone"], "note": "Closing the destination assumes that its unsubscribe closes it. One thread; the destination does not call back through the lock (that would deadlock)."},
 {"property": "C77", "status": "partial", "theorems": ["Rx.C77_agrees", "Rx.C77_beginning", "Rx.C77_after_a_panic_partial", "Rx.C77_piles_up", "Rx.C77_add_teardown", "Rx.C77_counterexample"], "note": "That it can still be unsubscribed is false of the code: try_lock also fails on a poisoned mutex, so every later notification, unsubscribe included, is deferred for ever (C77_counterexample, C77_after_a_panic_partial), and values pile up (C77_piles_up). Proved: agreement with C25 while nothing panics, the beginning, no panics afterwards, what is_closed answers, and that handing over a teardown still unsubscribes the destination."},
 {"property": "C78", "status": "partial", "theorems": ["Rx.C78_agrees", "Rx.C78_who_is_told", "Rx.C78_who_misses_it_partial", "Rx.C78_after_a_panic_partial", "Rx.C78_late_partial", "Rx.C78_counterexample"], "note": "False of the code: the panic poisons the mutex around all subscribers, on which try_lock then fails for ever (C78_counterexample). Proved: agreement with the publish subject without panics; who hears the notification that panics and who misses it; that afterwards nobody is given anything, nobody is removed and calls pile up; that a late subscriber is given nothing. Subscribers do not call back; one thread."},
 {"property": "C79", "status": "partial", "theorems": ["Rx.BevySubjects.C79_told_partial", "Rx.BevySubjects.C79_once_partial", "Rx.BevySubjects.C79_missing", "Rx.BevySubjects.C79_satellites_partial", "Rx.BevySubjects.C79_twice_counterexample", "Rx.BevySubjects.C79_replaced_counterexample", "Rx.BevySubjects.C79_left_counterexample"], "note": "False of the code where a subject is inserted into an entity that has one of that type: subject_on_insert spawns another observer, the old one stays, and each signal is pushed twice (C79_twice_counterexample), also to subjects inserted after the next removal (C79_left_counterexample); the replaced subject is not unsubscribed (C79_replaced_counterexample). Proved: exactly what a subject is told in every history, with the number of times; once if none was inserted where there was one; nothing for entities that do not exist; exactly how many observers are left. What Bevy does is assumed, as stated in the model."},
 {"property": "C80", "status": "partial", "theorems": ["Rx.Callbacks.C80_callbacks", "Rx.Callbacks.C80_panic_partial", "Rx.Callbacks.C80_once", "Rx.Callbacks.C80_nothing_made_up", "Rx.Callbacks.C80_released", "Rx.Callbacks.C80_open_counterexample", "Rx.Callbacks.C80_complete_counterexample"], "note": "The last part is false of the code: ObserverSubscriber unsubscribes only after the callback has returned, so after a panic (an error without a callback, or a callback that panics) the subscription stays open, teardowns do not run until it is dropped, and later values are handed to the callback (C80_open_counterexample, C80_complete_counterexample). Proved: exactly what is run while nothing panics; what the first panic leaves; in every history that ends are run at most once, nothing is made up, and unsubscribing runs every teardown exactly once."},
 {"property": "C81", "status": "partial", "theorems": ["Rx.Proxy.C81_heard", "Rx.Proxy.C81_once", "Rx.Proxy.C81_subscribes", "Rx.Proxy.C81_cancelled", "Rx.Proxy.C81_released_partial", "Rx.Proxy.C81_last_partial", "Rx.Proxy.C81_left_counterexample", "Rx.Proxy.C81_late_counterexample"], "note": "Heard exactly, once, subscribes, cancelled: proved in full. Release is proved if the commands of the subscribing system are applied before the executor finishes a tick (Timely; always so for ProxyObservable); without it, it is false: C81_left_counterexample. C81_late_counterexample: a proxy whose observable appears a frame later subscribes and is unsubscribed at once."},
 {"property": "C82", "status": "partial", "theorems": ["Rx.Testing.C82_history", "Rx.Testing.C82_values", "Rx.Testing.C82_counts", "Rx.Testing.C82_nothing_after_closed", "Rx.Testing.C82_one_unsubscribe", "Rx.Testing.C82_assertions", "Rx.Testing.C82_terminal", "Rx.Testing.C82_mocks", "Rx.Testing.C82_mock_closed", "Rx.Testing.C82_mock_teardowns", "Rx.Testing.C82_takes", "Rx.Testing.C82_takes_all", "Rx.Testing.C82_takes_none", "Rx.Testing.C82_rounds_partial", "Rx.Testing.C82_rounds_counterexample", "Rx.Testing.C82_tracked"], "note": "All but rounds proved in full. Rounds: proved if each round is asked for after the ones before it (C82_rounds_partial); get_round of a later round panics (C82_rounds_counterexample)."},
 {"property": "C83", "status": "partial", "theorems": ["Rx.Wiring.C83_combine_latest", "Rx.Wiring.C83_combine_changes", "Rx.Wiring.C83_join", "Rx.Wiring.C83_zip_partial", "Rx.Wiring.C83_zip_counterexample", "Rx.Wiring.C83_drop_counterexample"], "note": "proved for combine_latest, combine_changes and join. zip: for inputs that send no more values than the queue holds, and without the last clause, which is false (C83_zip_counterexample): unsubscribed while one input is ahead, the destination stays open. Dropping the handle does not unsubscribe, although the docs say so (C83_drop_counterexample)."},
 {"property": "C84", "status": "partial", "theorems": ["Rx.Handles.C84_no_panic", "Rx.Handles.C84_at_most_once", "Rx.Handles.C84_in_the_end", "Rx.Handles.C84_is_closed", "Rx.Handles.C84_settles", "Rx.Handles.C84_unsubscribe_partial", "Rx.Handles.C84_drop_partial", "Rx.Handles.C84_apart_partial", "Rx.Handles.C84_lost_unsubscribe_counterexample"], "note": "The last part is false in the code: an unsubscribe that runs into another thread's add_teardown or is_closed is deferred, returns, and is not carried out until somebody unsubscribes again or drops a clone (C84_lost_unsubscribe_counterexample). Proved for unsubscribes made while no other call is going on (C84_unsubscribe_partial), for all histories in which unsubscribe does not overlap with add_teardown or is_closed (C84_apart_partial), and that the next drop makes up for it (C84_drop_partial); all other parts are proved in full. Teardowns that use the subscription themselves are the subject of C04, not of this model."},
 {"property": "C85", "status": "partial", "theorems": ["Rx.LatestWiring.C85_unsubscribe_partial", "Rx.LatestWiring.C85_plain_source_partial", "Rx.LatestWiring.C85_drop_partial", "Rx.LatestWiring.C85_not_before", "Rx.LatestWiring.C85_told", "Rx.LatestWiring.C85_complete_counterexample", "Rx.LatestWiring.C85_closed_counterexample", "Rx.LatestWiring.C85_drop_counterexample", "Rx.LatestWiring.C85_released_counterexample"], "note": "The first sentence is false in the code (C85_released_counterexample): when the source completes, the second input stays subscribed, and unsubscribing the handle of a source that asks is_closed first (every subject, interval) does not help either (C85_complete_counterexample, C85_closed_counterexample); dropping everything does, unless the second input's subscription is a SharedSubscription (C85_drop_counterexample). Proved: unsubscribing or dropping while the destination is open lets go for good (C85_unsubscribe_partial), unsubscribing always does with a source that does not ask (C85_plain_source_partial), dropping does with subscriptions that unsubscribe on drop (C85_drop_partial), and nothing is let go of early (C85_not_before). What the destination is told in the meantime is what C38 says (C85_told)."},
 {"property": "C86", "status": "partial", "theorems": ["Rx.Sched.C86_no_panics", "Rx.Sched.C86_not_lost", "Rx.Sched.C86_delayed", "Rx.Sched.C86_immediate", "Rx.Sched.C86_cancelled", "Rx.Sched.C86_invoked", "Rx.Sched.C86_clock", "Rx.Sched.C86_done_partial", "Rx.Sched.C86_done_counterexample", "Rx.Sched.C86_starved_counterexample", "Rx.Sched.C86_invoked_counterexample", "Rx.Sched.C86_repeated_counterexample"], "note": "Proved: no active work is lost (C86_not_lost), delayed and immediate work run exactly once at the right time whatever panics (C86_delayed, C86_immediate), work cancelled between ticks does not run again (C86_cancelled), work that answered Done in a tick that did not panic does not run again (C86_done_partial), work registered for invocations survives panics, its own too, and a later invocation runs it in the next tick that does not panic (C86_invoked), the clocks advance also in a tick that panics (C86_clock), without panics this is the model of C19-C24 (C86_no_panics). False in the code, with witnesses: work that answered Done in a tick that then panicked runs again (C86_done_counterexample); work that always panics starves everything scheduled after it for ever (C86_starved_counterexample); invocations behind one that panics are lost (C86_invoked_counterexample); repeated work that panics runs again for the same period (C86_repeated_counterexample). Simplification: a closure that panics has done everything it does first."},
 {"property": "C87", "status": "proved", "theorems": ["Rx.Feeds.C87_as_if_told", "Rx.Feeds.C87_inputs", "Rx.Feeds.C87_observer", "Rx.Feeds.C87_behavior", "Rx.Feeds.C87_replay", "Rx.Feeds.C87_async", "Rx.Feeds.C87_not_released", "Rx.Feeds.C87_behavior_after_end"], "note": "C87_as_if_told and C87_inputs hold for any kind of subject, given by what its operations do; C87_observer, C87_behavior, C87_replay and C87_async combine the first with C27, C29, C30 and C31 (subscribers of the subject that do not call it). C87_not_released: a subject that has ended does not close its other inputs. C87_behavior_after_end: the disagreement recorded under C29 is reached this way without any misuse."},
 {"property": "C88", "status": "partial", "theorems": ["Rx.Drops.C88_dropped_with_the_last", "Rx.Drops.C88_not_noticed", "Rx.Drops.C88_delivers", "Rx.Drops.C88_assertion_partial", "Rx.Drops.C88_no_panic", "Rx.Drops.C88_counterexample", "Rx.Drops.C88_abort"], "note": "Proved: C88_dropped_with_the_last, C88_not_noticed (also across panics), C88_delivers, C88_no_panic for destinations that neither call back nor panic. The last sentence fails once a destination has panicked: every value sent later stays pending for ever, and the debug assertion in the drop of the last handle then fails (C88_counterexample); it can fail while unwinding, which aborts the program (C88_abort). C88_assertion_partial: only then, that is with the mutex poisoned."},
 {"property": "C89", "status": "partial", "theorems": ["Rx.SubjectDrops.C89_dropped_with_the_last", "Rx.SubjectDrops.C89_no_panic", "Rx.SubjectDrops.C89_assertion_partial", "Rx.SubjectDrops.C89_counterexample", "Rx.SubjectDrops.C89_counterexample_unsubscribe", "Rx.SubjectDrops.C89_after_unsubscribe_partial"], "note": "Proved: C89_dropped_with_the_last; C89_no_panic if no subscriber panics. The second sentence fails, and always: whenever a subscriber panics on a value, an error or the completion, the drop of its own subscription leaves an unsubscription pending that can never be applied, and the debug assertion in the drop of the shared state fails, in whatever order things are dropped (C89_counterexample; C89_counterexample_unsubscribe if it panics while its subscription is unsubscribed); when the panic was not caught this happens while unwinding and aborts the program. C89_assertion_partial: only then. C89_after_unsubscribe_partial: it never fails for a subject that was unsubscribed before anybody panicked, whatever panics then."},
 {"property": "C90", "status": "proved", "theorems": ["Rx.SubscriptionDrops.C90_as_one", "Rx.SubscriptionDrops.C90_no_assertion", "Rx.SubscriptionDrops.C90_closed", "Rx.SubscriptionDrops.C90_at_the_end", "Rx.SubscriptionDrops.C90_all_called"], "note": "One thread, teardowns that do not call back (C04 has those, C84 has threads). That the teardowns behind the one that panics are lost is C75_counterexample; C90_as_one says that the handles add nothing to that."},
 {"property": "C91", "status": "partial", "theorems": ["Rx.FlagDrops.C91_take_at_most", "Rx.FlagDrops.C91_take_over_partial", "Rx.FlagDrops.C91_element_at_most_partial", "Rx.FlagDrops.C91_no_assertion_partial", "Rx.FlagDrops.C91_counterexample_take", "Rx.FlagDrops.C91_counterexample_element_at", "Rx.FlagDrops.C91_counterexample_two_values", "Rx.FlagDrops.C91_counterexample_never_completes", "Rx.FlagDrops.C91_counterexample_not_told"], "note": "Proved: C91_take_at_most, whatever panics. The rest fails: a take whose destination panics on the n-th value never completes and stays open (C91_counterexample_not_told, C91_counterexample_never_completes; C91_take_over_partial: not if it does not panic on that value and the completion); an element_at whose destination panics on its value gives it another (C91_counterexample_two_values; C91_element_at_most_partial: not if it does not panic on values and completions); dropping one that is open while its destination panics as it is unsubscribed drops an open flag while unwinding, which aborts debug builds (C91_counterexample_take, C91_counterexample_element_at; C91_no_assertion_partial: only if unsubscribing the destination panics)."}
]}
