# Axioms of every claimed theorem (generated by tools/axioms.py from `#print axioms`)

* C01 `Xtra.C01_highest_priority_first`: propext, Classical.choice, Quot.sound
* C01 `Xtra.C01_highest_priority_first_concurrent`: propext, Classical.choice, Quot.sound
* C02 `Xtra.C02_at_most_once`: propext, Classical.choice, Quot.sound
* C03 `Xtra.C03_stays_available_partial`: propext, Classical.choice, Quot.sound
* C03 `Xtra.C03_accepted_partial`: propext, Quot.sound
* C03 `Xtra.C03_sequential`: propext, Classical.choice, Quot.sound
* C03 `Xtra.C03_call_keeps`: propext, Classical.choice, Quot.sound
* C03 `Xtra.C03_refuted`: propext
* C04 `Xtra.C04_broadcast_exactly_once`: propext, Classical.choice, Quot.sound
* C04 `Xtra.C04_broadcast_targets`: propext, Classical.choice, Quot.sound
* C05 `Xtra.C05_backpressure`: propext, Classical.choice, Quot.sound
* C05 `Xtra.C05_unbounded`: propext, Classical.choice, Quot.sound
* C05 `Xtra.C05_backpressure_concurrent`: propext, Classical.choice, Quot.sound
* C06 `Xtra.C06_capacity`: propext, Classical.choice, Quot.sound
* C06 `Xtra.C06_capacity_strict`: propext, Classical.choice, Quot.sound
* C07 `Xtra.C07_accepted_concurrent`: propext, Classical.choice, Quot.sound
* C07 `Xtra.C07_broadcast_capacity`: propext, Classical.choice, Quot.sound
* C07 `Xtra.C07_accepted_iff`: propext, Classical.choice, Quot.sound
* C08 `Xtra.C08_parked_states`: propext, Classical.choice, Quot.sound
* C08 `Xtra.C08_parked_only_when_full`: propext, Classical.choice, Quot.sound
* C08 `Xtra.C08_never_forgotten`: propext, Classical.choice, Quot.sound
* C08 `Xtra.C08_admits_highest_concurrent`: propext, Classical.choice, Quot.sound
* C08 `Xtra.C08_admits_highest`: propext, Classical.choice, Quot.sound
* C08 `Xtra.C08_admitted_completes`: propext
* C08 `Xtra.C08_poll_parked`: propext
* C09 `Xtra.C09_fifo_partial`: propext, Classical.choice, Quot.sound
* C09 `Xtra.C09_no_overtaking_partial`: propext, Classical.choice, Quot.sound
* C09 `Xtra.C09_refuted`: propext
* C09 `Xtra.C09_parked_refuted`: propext
* C10 `Xtra.C10_disconnected_concurrent`: propext, Classical.choice, Quot.sound
* C10 `Xtra.C10_never_handled`: propext, Classical.choice, Quot.sound
* C10 `Xtra.C10_disconnected`: propext, Classical.choice, Quot.sound
* C10 `Xtra.C10_is_connected`: propext, Classical.choice, Quot.sound
* C10 `Xtra.C10_err_means_disconnected`: propext, Classical.choice, Quot.sound
* C10 `Xtra.C10_err_never_handled`: propext, Classical.choice, Quot.sound
* C11 `Xtra.C11_release`: propext, Classical.choice, Quot.sound
* C11 `Xtra.C11_failed_resolves`: propext
* C11 `Xtra.C11_drop_last_mailbox`: propext, Classical.choice, Quot.sound
* C11 `Xtra.C11_nothing_left_partial`: propext, Classical.choice, Quot.sound
* C11 `Xtra.C11_only_late_partial`: propext, Classical.choice, Quot.sound
* C11 `Xtra.C11_nothing_left_sequential`: propext, Classical.choice, Quot.sound
* C11 `Xtra.C11_refuted`: propext, Classical.choice, Quot.sound
* C12 `Xtra.C12_every_receive_completes_concurrent`: propext, Classical.choice, Quot.sound
* C12 `Xtra.C12_no_idle_left`: propext, Classical.choice, Quot.sound
* C12 `Xtra.C12_every_receive_completes`: propext, Classical.choice, Quot.sound
* C12 `Xtra.C12_notification_under_way`: propext, Classical.choice, Quot.sound
* C12 `Xtra.C12_notification_effect`: propext, Quot.sound
* C13 `Xtra.C13_notice_concurrent`: propext, Classical.choice, Quot.sound
* C13 `Xtra.C13_drained_before_shutdown`: propext, Classical.choice, Quot.sound
* C13 `Xtra.C13_priority_order`: propext, Classical.choice, Quot.sound
* C13 `Xtra.C13_shutdown_reached`: propext, Classical.choice, Quot.sound
* C13 `Xtra.C13_waiting_receive_refuted`: propext
* C14 `Xtra.C14_counts_exact`: propext, Classical.choice, Quot.sound
* C14 `Xtra.C14_counts_exact_quiet`: propext, Classical.choice, Quot.sound
* C14 `Xtra.C14_references_made`: propext, Quot.sound
* C14 `Xtra.C14_future_keeps`: propext, Quot.sound
* C14 `Xtra.C14_mailbox_references_made`: propext, Quot.sound
* C15 `Xtra.C15_zero_forever`: propext, Classical.choice, Quot.sound
* C15 `Xtra.C15_upgrade_iff`: propext, Classical.choice, Quot.sound
* C16 `Xtra.C16_stop_all_concurrent`: propext, Classical.choice, Quot.sound
* C16 `Xtra.C16_notice_stays`: propext, Classical.choice, Quot.sound
* C16 `Xtra.C16_next_is_notice`: propext, Classical.choice, Quot.sound
* C16 `Xtra.C16_next_takes_notice`: propext, Classical.choice, Quot.sound
* C16 `Xtra.C16_notice_everywhere`: propext, Classical.choice, Quot.sound
* C16 `Xtra.C16_stop_all`: propext, Classical.choice, Quot.sound
* C17 `Xtra.C17_break_concurrent`: propext, Classical.choice, Quot.sound
* C17 `Xtra.C17_break_iff_stop_self`: propext, Classical.choice, Quot.sound
* C17 `Xtra.C17_shutdown_breaks`: propext, Classical.choice, Quot.sound
* C17 `Xtra.C17_stop_self_local`: propext
* C17 `Xtra.C17_queues_untouched`: propext, Classical.choice, Quot.sound
* C18 `Xtra.C18_replies`: propext, Classical.choice, Quot.sound
* C18 `Xtra.C18_poll_receiver`: propext, Classical.choice, Quot.sound
* C18 `Xtra.C18_poll_send`: propext, Classical.choice, Quot.sound
* C18 `Xtra.C18_answer_is_the_handlers`: propext, Classical.choice, Quot.sound
* C18 `Xtra.C18_interrupted_only_if`: propext, Classical.choice, Quot.sound
* C19 `Xtra.C19_default`: propext, Quot.sound
* C19 `Xtra.C19_set_before_poll`: propext
* C19 `Xtra.C19_detach`: propext
* C19 `Xtra.C19_set_after_poll`: propext, Quot.sound
* C19 `Xtra.C19_polled_is_frozen`: propext, Quot.sound
* C19 `Xtra.C19_priority_as_set`: propext, Classical.choice, Quot.sound
* C20 `Xtra.C20_ready_concurrent`: propext, Classical.choice, Quot.sound
* C20 `Xtra.C20_pending_concurrent`: propext, Classical.choice, Quot.sound
* C20 `Xtra.C20_one_poll_iff_work`: propext, Classical.choice, Quot.sound
* C21 `Xtra.C21_registered_or_woken`: propext, Classical.choice, Quot.sound
* C21 `Xtra.C21_never_unregistered`: propext, Classical.choice, Quot.sound
* C21 `Xtra.C21_asleep_polls_pending`: propext
* C21 `Xtra.C21_ready_implies_woken`: propext, Classical.choice, Quot.sound
* C22 `Xtra.C22_tickets_increase`: propext, Classical.choice, Quot.sound
* C22 `Xtra.C22_first_come_first_served`: propext, Classical.choice, Quot.sound
* C22 `Xtra.C22_send_serves_longest_waiting`: propext, Classical.choice, Quot.sound
* C22 `Xtra.C22_no_message_while_idle`: propext, Classical.choice, Quot.sound
* C22 `Xtra.C22_no_message_while_idle_concurrent`: propext, Classical.choice, Quot.sound
* C23 `Xtra.C23_created_concurrent`: propext, Classical.choice, Quot.sound
* C23 `Xtra.C23_resolves_only_disconnected`: propext, Classical.choice, Quot.sound
* C23 `Xtra.C23_pending_while_mailbox`: propext, Classical.choice, Quot.sound
* C23 `Xtra.C23_notification_under_way`: propext, Classical.choice, Quot.sound
* C23 `Xtra.C23_notification_effect`: propext
* C23 `Xtra.C23_resolves_after_last_mailbox`: propext, Classical.choice, Quot.sound
* C23 `Xtra.C23_created`: propext, Quot.sound
* C23 `Xtra.C23_created_out_of_date`: propext, Classical.choice, Quot.sound
* C24 `Xtra.C24_shape`: propext, Classical.choice, Quot.sound
* C24 `Xtra.C24_some`: propext, Classical.choice, Quot.sound
* C24 `Xtra.C24_none`: propext, Classical.choice, Quot.sound
* C24 `Xtra.C24_none_only_disconnected`: propext, Classical.choice, Quot.sound
* C24 `Xtra.C24_ends_with_actor`: propext, Classical.choice, Quot.sound
* C24 `Xtra.C24_transparent`: propext, Classical.choice, Quot.sound
* C25 `Xtra.Loop.C25_shape`: propext, Quot.sound
* C25 `Xtra.Loop.C25_stop_signal`: propext, Quot.sound
* C25 `Xtra.Loop.C25_handled_once`: propext, Quot.sound
* C25 `Xtra.Loop.C25_start_fails`: propext, Quot.sound
* C25 `Xtra.Loop.C25_value`: propext, Quot.sound
* C25 `Xtra.Loop.C25_stopped_once`: propext, Quot.sound
* C25 `Xtra.Loop.C25_nothing_after_stop`: propext, Quot.sound
* C25 `Xtra.Loop.C25_sequential`: propext, Quot.sound
* C25 `Xtra.Loop.C25_progress`: propext, Classical.choice, Quot.sound
* C26 `Xtra.Loop.C26_select`: propext, Quot.sound
* C26 `Xtra.Loop.C26_join`: propext, Quot.sound
* C26 `Xtra.Loop.C26_outcome`: propext, Quot.sound
* C26 `Xtra.Loop.C26_left_value`: propext, Quot.sound
* C26 `Xtra.Loop.C26_right_stop`: propext, Quot.sound
* C26 `Xtra.Loop.C26_left_or_right`: propext, Quot.sound
* C26 `Xtra.Loop.C26_join_value`: propext, Quot.sound
* C26 `Xtra.Loop.C26_no_message_after_stop`: propext, Quot.sound
* C26 `Xtra.Loop.C26_yield_once`: propext, Quot.sound
* C26 `Xtra.Loop.C26_stop_lost_refuted`: propext
* C26 `Xtra.Loop.C26_stop_lost_left_refuted`: propext
* C26 `Xtra.Loop.C26_stop_lost_join_refuted`: propext
* C27 `Xtra.C27_eq_iff`: propext, Quot.sound
* C27 `Xtra.C27_equivalence`: propext, Classical.choice, Quot.sound
* C27 `Xtra.C27_hash`: propext, Quot.sound
* C27 `Xtra.C27_partial_cmp`: propext, Classical.choice, Quot.sound
* C27 `Xtra.C27_ord_partial`: propext, Classical.choice, Quot.sound
* C27 `Xtra.C27_ord_preorder_partial`: propext, Classical.choice, Quot.sound
* C27 `Xtra.C27_ord_refuted`: propext
* C28 `Xtra.C28_never_under_partial`: propext, Classical.choice, Quot.sound
* C28 `Xtra.C28_exact_partial`: propext, Classical.choice, Quot.sound
* C28 `Xtra.C28_len_partial`: propext, Classical.choice, Quot.sound
* C28 `Xtra.C28_recovers_partial`: propext, Classical.choice, Quot.sound
* C28 `Xtra.C28_refuted`: propext, Quot.sound
* C29 `Xtra.C29_parked_progress_partial`: propext, Classical.choice, Quot.sound
* C29 `Xtra.C29_refuted`: propext, Classical.choice, Quot.sound
* C30 `Xtra.C30_parked_partial`: propext, Classical.choice, Quot.sound
* C30 `Xtra.C30_concurrent_partial`: propext, Classical.choice, Quot.sound
* C30 `Xtra.C30_accepted_partial`: propext, Classical.choice, Quot.sound
* C30 `Xtra.C30_no_mailbox_dropped_partial`: propext, Classical.choice, Quot.sound
* C30 `Xtra.C30_after_receive_partial`: propext, Classical.choice, Quot.sound
* C30 `Xtra.C30_refuted`: propext, Classical.choice, Quot.sound
* C31 `Xtra.C31_no_panic`: propext, Classical.choice, Quot.sound
* C32 `Xtra.C32_fed_after`: propext, Classical.choice, Quot.sound
* C32 `Xtra.C32_order`: propext, Classical.choice, Quot.sound
* C32 `Xtra.C32_handled_order`: propext, Classical.choice, Quot.sound
* C32 `Xtra.C32_one_in_flight`: propext, Classical.choice, Quot.sound
* C32 `Xtra.C32_default_priority`: propext, Classical.choice, Quot.sound
* C32 `Xtra.C32_error_final`: propext
* C33 `Xtra.Reentrant.C33_partial`: propext, Quot.sound
* C33 `Xtra.Reentrant.C33_deadlock`: propext, Quot.sound
* C33 `Xtra.Reentrant.C33_exact`: propext, Classical.choice, Quot.sound
* C33 `Xtra.Reentrant.C33_refuted`: propext, Classical.choice, Quot.sound
* C33 `Xtra.Reentrant.C33_not_last`: propext, Quot.sound
* C33 `Xtra.Reentrant.C33_api_partial`: propext, Classical.choice, Quot.sound
* C33 `Xtra.Reentrant.C33_api_refuted`: propext, Classical.choice, Quot.sound
* C34 `Xtra.C34_inversion_only_when_notified`: propext, Classical.choice, Quot.sound
* C34 `Xtra.C34_next_is_maximal`: propext, Classical.choice, Quot.sound
* C34 `Xtra.C34_inversion_concurrent`: propext, Classical.choice, Quot.sound
* C35 `Xtra.C35_chain`: propext, Classical.choice, Quot.sound
* C35 `Xtra.C35_succeeds`: propext
* C35 `Xtra.C35_counts`: propext, Classical.choice, Quot.sound
* C35 `Xtra.C35_channel_send`: propext, Quot.sound
* C35 `Xtra.C35_model_agrees`: propext, Quot.sound
* C36 `Xtra.C36_unicast_any_mailbox`: propext, Classical.choice, Quot.sound
* C36 `Xtra.C36_broadcast_per_mailbox`: propext, Classical.choice, Quot.sound
* C37 `Xtra.C37_retracted`: propext, Classical.choice, Quot.sound
* C37 `Xtra.C37_not_retracted`: propext, Quot.sound
* C37 `Xtra.C37_unpolled_concurrent`: propext, Classical.choice, Quot.sound
* C37 `Xtra.C37_parked_concurrent`: propext, Classical.choice, Quot.sound
* C37 `Xtra.C37_admitted_concurrent`: propext, Quot.sound
* C38 `Xtra.C38_interrupted`: propext, Classical.choice, Quot.sound
* C38 `Xtra.C38_concurrent`: propext, Classical.choice, Quot.sound
* C39 `Xtra.Heap.pop_max`: propext, Quot.sound
* C39 `Xtra.Heap.pop_perm`: propext, Quot.sound
* C39 `Xtra.Heap.push_perm`: propext, Quot.sound
* C39 `Xtra.Heap.push_heap`: propext, Classical.choice, Quot.sound
* C39 `Xtra.Heap.pop_heap`: propext, Classical.choice, Quot.sound
* C39 `Xtra.Heap.pop_peek`: propext
* C40 `Xtra.Derive.C40_where_clause`: propext, Quot.sound
* C40 `Xtra.Derive.C40_impl_applies`: propext, Classical.choice, Quot.sound
* C40 `Xtra.Derive.C40_impl_for_item`: propext
* C40 `Xtra.Derive.C40_impl_iff_item`: propext, Classical.choice, Quot.sound
* C40 `Xtra.Derive.C40_impl_legal`: propext, Quot.sound
* C41 `Xtra.Multi.C41_no_deadlock_partial`: propext, Classical.choice, Quot.sound
* C41 `Xtra.Multi.C41_all_finish_partial`: propext, Classical.choice, Quot.sound
* C41 `Xtra.Multi.C41_refuted`: propext, Quot.sound
* C42 `Xtra.C42_bounded`: propext, Classical.choice, Quot.sound
* C42 `Xtra.C42_returns`: propext, Classical.choice, Quot.sound
* C42 `Xtra.C42_can_finish`: propext, Classical.choice, Quot.sound
* C43 `Xtra.C43_refuted`: propext, Classical.choice, Quot.sound
* C43 `Xtra.C43_broadcast_cleans_partial`: propext, Classical.choice, Quot.sound
* C43 `Xtra.C43_send_cleans_partial`: propext, Quot.sound
* C43 `Xtra.C43_receive_cleans_partial`: propext, Classical.choice, Quot.sound
* C44 `Xtra.Weak.C44_no_receive_left_waiting`: propext, Classical.choice, Quot.sound
* C44 `Xtra.Weak.C44_refusal_is_final`: propext, Classical.choice, Quot.sound
* C44 `Xtra.Weak.C44_no_resurrection`: propext, Classical.choice, Quot.sound
* C44 `Xtra.Weak.C44_no_premature_shutdown`: propext, Classical.choice, Quot.sound
* C44 `Xtra.Weak.C44_no_join_left_waiting`: propext, Classical.choice, Quot.sound
* C44 `Xtra.Weak.C44_join_is_final`: propext, Classical.choice, Quot.sound
* C44 `Xtra.Weak.C44_join_at_once`: propext, Classical.choice, Quot.sound
* C44 `Xtra.Weak.C44_notice_is_final`: propext, Classical.choice, Quot.sound
* C44 `Xtra.Weak.C44_calls_can_finish`: propext, Classical.choice, Quot.sound
* C45 `Xtra.Span.C45_span_is_transparent`: propext
* C45 `Xtra.Span.C45_shutdown_breaks_at_once`: propext
* C45 `Xtra.Span.C45_shutdown_has_no_span`: propext, Quot.sound
* C45 `Xtra.Span.C45_one_handler_span`: propext, Quot.sound
* C45 `Xtra.Span.C45_start_refuses_twice`: propext
* C45 `Xtra.Span.C45_span_tree`: propext, Quot.sound
* C45 `Xtra.Span.C45_start_span_once`: propext, Classical.choice, Quot.sound
* C45 `Xtra.Span.C45_received_is_started`: propext, Classical.choice, Quot.sound
* C45 `Xtra.Span.C45_unshared_when_started`: propext, Classical.choice, Quot.sound
* C45 `Xtra.Span.C45_unshared_when_priority_set`: propext, Classical.choice, Quot.sound
* C46 `Xtra.C46_refuted`: propext, Classical.choice, Quot.sound
* C46 `Xtra.C46_parked_refuted`: propext, Classical.choice, Quot.sound
* C46 `Xtra.C46_bounded_wait_partial`: propext, Classical.choice, Quot.sound
* C46 `Xtra.C46_keeps_receiving`: propext, Classical.choice, Quot.sound
* C47 `Xtra.C47_at_most_one_end`: propext, Classical.choice, Quot.sound
* C47 `Xtra.C47_nothing_leaks`: propext, Classical.choice, Quot.sound
* C47 `Xtra.C47_nobody_left_waiting`: propext, Classical.choice, Quot.sound
* C47 `Xtra.C47_everyone_woken`: propext, Classical.choice, Quot.sound
* C48 `Xtra.C48_select_refuted`: propext, Quot.sound
* C48 `Xtra.C48_received_is_handled`: propext, Classical.choice, Quot.sound
* C48 `Xtra.C48_one_at_a_time`: propext, Classical.choice, Quot.sound
* C48 `Xtra.C48_returns_only_on_break`: propext, Classical.choice, Quot.sound
* C48 `Xtra.C48_select_returns`: propext, Classical.choice, Quot.sound
* C48 `Xtra.C48_never_stuck`: propext, Classical.choice, Quot.sound
* C48 `Xtra.C48_leaves_nothing`: propext, Classical.choice, Quot.sound
* C48 `Xtra.C48_no_request_fails`: propext, Classical.choice, Quot.sound
* C48 `Xtra.C48_at_rest`: propext, Classical.choice, Quot.sound
* C49 `Xtra.C49_request_interrupted`: propext, Classical.choice, Quot.sound
* C49 `Xtra.C49_only_own_request`: propext, Classical.choice, Quot.sound
* C49 `Xtra.C49_others_unaffected`: propext, Classical.choice, Quot.sound
* C49 `Xtra.C49_at_rest`: propext, Classical.choice, Quot.sound
* C50 `Xtra.C50_no_livelock`: propext, Classical.choice, Quot.sound
* C50 `Xtra.C50_infinite_needs_calls`: propext, Classical.choice, Quot.sound
* C50 `Xtra.C50_progress`: propext, Classical.choice, Quot.sound
* C50 `Xtra.C50_reaches_rest`: propext, Classical.choice, Quot.sound
* C50 `Xtra.C50_all_served`: propext, Classical.choice, Quot.sound
* C50 `Xtra.C50_rest_is_final`: propext, Classical.choice, Quot.sound
* C51 `Xtra.C51_no_livelock`: propext, Classical.choice, Quot.sound
* C51 `Xtra.C51_progress`: propext, Classical.choice, Quot.sound
* C51 `Xtra.C51_reaches_rest`: propext, Classical.choice, Quot.sound
* C51 `Xtra.C51_resolved`: propext, Classical.choice, Quot.sound
* C51 `Xtra.C51_answered`: propext, Classical.choice, Quot.sound
* C51 `Xtra.C51_rest_is_final`: propext, Classical.choice, Quot.sound
* C51 `Xtra.C51_eventually`: propext, Classical.choice, Quot.sound
* C51 `Xtra.C51_broadcast_completes`: propext, Classical.choice, Quot.sound
* C52 `Xtra.C52_after_the_end`: propext, Classical.choice, Quot.sound
* C52 `Xtra.C52_while_running`: propext, Classical.choice, Quot.sound
* C52 `Xtra.C52_eventually`: propext, Classical.choice, Quot.sound
* C53 `Xtra.Multi.C53_no_deadlock_partial`: propext, Classical.choice, Quot.sound
* C53 `Xtra.Multi.C53_all_finish_partial`: propext, Classical.choice, Quot.sound
* C53 `Xtra.Multi.C53_ordinary`: propext, Classical.choice, Quot.sound
* C53 `Xtra.Multi.C53_refuted`: propext, Quot.sound
* C54 `Xtra.C54_rest_is_final`: propext, Classical.choice, Quot.sound
* C54 `Xtra.C54_refuted`: propext, Classical.choice, Quot.sound
* C54 `Xtra.C54_no_livelock`: propext, Classical.choice, Quot.sound
* C54 `Xtra.C54_progress`: propext, Classical.choice, Quot.sound
* C54 `Xtra.C54_reaches_rest`: propext, Classical.choice, Quot.sound
* C54 `Xtra.C54_nobody_hangs`: propext, Classical.choice, Quot.sound
* C54 `Xtra.C54_answered`: propext, Classical.choice, Quot.sound
* C55 `Xtra.C55_refuted`: propext, Classical.choice, Quot.sound
* C55 `Xtra.C55_progress`: propext, Classical.choice, Quot.sound
* C55 `Xtra.C55_nobody_hangs`: propext, Classical.choice, Quot.sound
* C55 `Xtra.C55_answered`: propext, Classical.choice, Quot.sound
* C56 `Xtra.C56_no_notice_before_queued`: propext, Classical.choice, Quot.sound
* C56 `Xtra.C56_no_notice_before_parked`: propext, Classical.choice, Quot.sound
* C56 `Xtra.C56_no_notice_before_broadcast`: propext, Classical.choice, Quot.sound
* C56 `Xtra.C56_all_handled`: propext, Classical.choice, Quot.sound
* C56 `Xtra.C56_broadcasts_handled`: propext, Classical.choice, Quot.sound
* C56 `Xtra.C56_answered`: propext, Classical.choice, Quot.sound
* C56 `Xtra.C56_all_return`: propext, Classical.choice, Quot.sound
* C56 `Xtra.C56_graceful`: propext, Classical.choice, Quot.sound
* C57 `Xtra.C57_stops`: propext, Classical.choice, Quot.sound
* C57 `Xtra.C57_stop_all`: propext, Classical.choice, Quot.sound
* C57 `Xtra.C57_at_most_one_more`: propext, Classical.choice, Quot.sound
* C57 `Xtra.C57_select_refuted`: propext, Quot.sound
* C58 `Xtra.C58_one_message`: propext, Classical.choice, Quot.sound
* C58 `Xtra.C58_loop_handles`: propext, Classical.choice, Quot.sound
* C58 `Xtra.C58_answered`: propext, Classical.choice, Quot.sound
* C58 `Xtra.C58_told`: propext, Classical.choice, Quot.sound
* C59 `Xtra.C59_what_panics`: propext, Classical.choice, Quot.sound
* C59 `Xtra.C59_no_panic_unless_poisoned`: propext, Classical.choice, Quot.sound
* C59 `Xtra.C59_only_len_panics`: propext, Classical.choice, Quot.sound
* C59 `Xtra.C59_queue_dropped`: propext, Classical.choice, Quot.sound
* C59 `Xtra.C59_all_over`: propext, Classical.choice, Quot.sound
* C59 `Xtra.C59_sends_refused`: propext, Classical.choice, Quot.sound
* C59 `Xtra.C59_parked_released_partial`: propext, Quot.sound
* C59 `Xtra.C59_never_released`: propext, Classical.choice, Quot.sound
* C59 `Xtra.C59_refuted`: propext, Classical.choice, Quot.sound
* C60 `Xtra.C60_after_stop_all`: propext, Classical.choice, Quot.sound
* C60 `Xtra.C60_after_last_address`: propext, Classical.choice, Quot.sound
* C60 `Xtra.C60_nobody_hangs`: propext, Classical.choice, Quot.sound
* C61 `Xtra.Fuse.C61_send_polls`: propext, Quot.sound
* C61 `Xtra.Fuse.C61_broadcast_polls`: propext, Quot.sound
* C61 `Xtra.Fuse.C61_detached_polls`: propext, Quot.sound
* C61 `Xtra.Fuse.C61_sends_once`: propext, Quot.sound
* C61 `Xtra.Fuse.C61_receiver_once`: propext, Classical.choice, Quot.sound
* C61 `Xtra.Fuse.C61_receive_fused`: propext, Quot.sound
* C61 `Xtra.Fuse.C61_handler_once`: propext, Classical.choice, Quot.sound
* C61 `Xtra.Fuse.C61_dispatch_panics`: propext, Classical.choice, Quot.sound
* C61 `Xtra.Fuse.C61_join_again`: propext, Quot.sound
* C61 `Xtra.Fuse.C61_failed_detached_send_repolled`: propext
* C61 `Xtra.Fuse.C61_send_result`: propext, Quot.sound
* C61 `Xtra.Fuse.C61_broadcast_result`: propext
* C61 `Xtra.Fuse.C61_detached_result`: propext
* C61 `Xtra.Fuse.C61_receiver_result`: propext
* C61 `Xtra.Fuse.C61_dispatch_result`: propext, Quot.sound
* C61 `Xtra.Fuse.C61_receive_result`: propext, Quot.sound
* C62 `Xtra.C62_giving_up_changes_nothing`: propext, Quot.sound
* C62 `Xtra.C62_giving_up_prevents_nothing`: propext, Quot.sound
* C62 `Xtra.C62_handled_all_the_same`: propext, Quot.sound
* C63 `Xtra.WeakMsg.C63_conservation`: propext, Quot.sound
* C63 `Xtra.WeakMsg.C63_received_once`: propext, Classical.choice, Quot.sound
* C63 `Xtra.WeakMsg.C63_shutdown_means_drained`: propext, Classical.choice, Quot.sound
* C63 `Xtra.WeakMsg.C63_refused_only_if_disconnected`: propext, Classical.choice, Quot.sound
* C63 `Xtra.WeakMsg.C63_closed_only_without_mailbox`: propext, Classical.choice, Quot.sound
* C63 `Xtra.WeakMsg.C63_aware_send_refused`: propext, Classical.choice, Quot.sound
* C63 `Xtra.WeakMsg.C63_no_receive_left_waiting`: propext, Classical.choice, Quot.sound
* C63 `Xtra.WeakMsg.C63_no_message_while_waiting`: propext, Classical.choice, Quot.sound
* C63 `Xtra.WeakMsg.C63_nothing_left`: propext, Classical.choice, Quot.sound
* C63 `Xtra.WeakMsg.C63_capacity`: propext, Quot.sound
* C63 `Xtra.WeakMsg.C63_calls_can_finish`: propext, Classical.choice, Quot.sound
* C64 `Xtra.Ideal.C64_simulation`: propext, Classical.choice, Quot.sound
* C64 `Xtra.Ideal.C64_refines_ideal_mailbox`: propext, Classical.choice, Quot.sound
* C64 `Xtra.Ideal.C64_ideal_causes`: propext, Classical.choice, Quot.sound
* C64 `Xtra.Ideal.C64_ideal_once`: propext, Classical.choice, Quot.sound
* C65 `Xtra.Ideal.C65_life_of_a_message`: propext, Classical.choice, Quot.sound
* C66 `Xtra.C66_len_bound_partial`: propext, Classical.choice, Quot.sound
* C66 `Xtra.C66_is_empty_partial`: propext, Classical.choice, Quot.sound
* C66 `Xtra.C66_empty_yields_nothing_partial`: propext, Classical.choice, Quot.sound
* C66 `Xtra.C66_capacity_partial`: propext, Quot.sound
* C66 `Xtra.C66_debug_partial`: propext, Classical.choice, Quot.sound
* C66 `Xtra.C66_default_last_partial`: propext, Classical.choice, Quot.sound
* C66 `Xtra.C66_severally_refuted`: propext
* C66 `Xtra.C66_default_last_refuted`: propext
* C67 `Xtra.C67_observations_are_true`: propext, Classical.choice, Quot.sound
* C67 `Xtra.C67_later_is_connected`: propext, Classical.choice, Quot.sound
* C67 `Xtra.C67_later_sends_fail`: propext, Classical.choice, Quot.sound
* C67 `Xtra.C67_later_join`: propext, Classical.choice, Quot.sound
* C67 `Xtra.C67_true_was_true`: propext, Classical.choice, Quot.sound
* C67 `Xtra.C67_accepted_was_connected`: propext, Classical.choice, Quot.sound
* C68 `Xtra.C68_past_of_a_message`: propext, Classical.choice, Quot.sound
* C68 `Xtra.C68_awaited_first`: propext, Classical.choice, Quot.sound
* C68 `Xtra.C68_one_at_a_time`: propext, Classical.choice, Quot.sound
* C69 `Xtra.C69_drained_partial`: propext, Classical.choice, Quot.sound
* C69 `Xtra.C69_notice_partial`: propext, Classical.choice, Quot.sound
* C69 `Xtra.C69_refuted`: propext, Quot.sound
* C70 `Xtra.C70_step_of_a_call`: propext, Classical.choice, Quot.sound
* C70 `Xtra.C70_every_effect`: propext, Classical.choice, Quot.sound
* C71 `Xtra.C71_one_at_a_time`: propext, Classical.choice, Quot.sound
* C71 `Xtra.C71_reason`: propext, Classical.choice, Quot.sound
* C71 `Xtra.C71_receive_gets_on`: propext, Classical.choice, Quot.sound
* C71 `Xtra.C71_send_gets_on`: propext, Classical.choice, Quot.sound
* C71 `Xtra.C71_answer_is_there`: propext, Classical.choice, Quot.sound
* C72 `Xtra.C72_wakers_do_not_matter`: propext, Classical.choice, Quot.sound
* C72 `Xtra.C72_spurious_poll_changes_nothing`: propext, Classical.choice, Quot.sound
* C72 `Xtra.C72_spurious_poll_prevents_nothing`: propext, Classical.choice, Quot.sound
* C72 `Xtra.C72_slow_poll_changes_nothing`: propext, Classical.choice, Quot.sound
* C72 `Xtra.C72_slow_poll_prevents_nothing`: propext, Classical.choice, Quot.sound
* C73 `Xtra.C73_message`: propext, Classical.choice, Quot.sound
* C73 `Xtra.C73_shutdown`: propext, Classical.choice, Quot.sound
* C73 `Xtra.C73_answer`: propext, Classical.choice, Quot.sound
* C73 `Xtra.C73_disconnected`: propext, Classical.choice, Quot.sound
* C73 `Xtra.C73_sender_to_receiver`: propext, Classical.choice, Quot.sound
* C73 `Xtra.C73_handler_to_client`: propext, Classical.choice, Quot.sound
* C73 `Xtra.C73_address_dropped`: propext, Classical.choice, Quot.sound
* C73 `Xtra.C73_mailbox_dropped`: propext, Classical.choice, Quot.sound
* C73 `Xtra.C73_refused_upgrade_tells_nothing`: propext, Quot.sound
* C74 `Xtra.C74_runs_on`: propext, Classical.choice, Quot.sound
* C74 `Xtra.C74_stays_connected`: propext, Classical.choice, Quot.sound
* C74 `Xtra.C74_stop_self`: propext, Classical.choice, Quot.sound
* C75 `Xtra.C75_counters_exact`: propext, Classical.choice, Quot.sound
* C75 `Xtra.C75_last_is_last`: propext, Classical.choice, Quot.sound
* C75 `Xtra.C75_upgrade`: propext, Classical.choice, Quot.sound
* C75 `Xtra.C75_freed`: propext, Classical.choice, Quot.sound
* C75 `Xtra.C75_guard_is_needed`: propext, Classical.choice, Quot.sound
* C76 `Xtra.C76_receiver_to_sender`: propext, Classical.choice, Quot.sound
* C76 `Xtra.C76_receiver_to_receiver`: propext, Classical.choice, Quot.sound
* C76 `Xtra.C76_sender_to_sender`: propext, Classical.choice, Quot.sound
* C77 `Xtra.C77_drop_changes_nothing`: propext, Classical.choice, Quot.sound
* C77 `Xtra.C77_another_address`: propext, Classical.choice, Quot.sound
* C77 `Xtra.C77_drop_prevents_nothing`: propext, Classical.choice, Quot.sound
* C77 `Xtra.C77_clone_left`: propext, Classical.choice, Quot.sound
* C78 `Xtra.C78_drop_changes_nothing`: propext, Classical.choice, Quot.sound
* C78 `Xtra.C78_drop_prevents_nothing`: propext, Classical.choice, Quot.sound
* C78 `Xtra.C78_unpolled_next`: propext, Classical.choice, Quot.sound
* C79 `Xtra.C79_asking_changes_nothing`: propext, Quot.sound
* C79 `Xtra.C79_asking_prevents_nothing`: propext, Quot.sound
