{
 "claims": [
  {
   "property": "C01",
   "status": "proved",
   "theorems": [
    "Xtra.C01_highest_priority_first",
    "Xtra.C01_highest_priority_first_concurrent"
   ],
   "note": ""
  },
  {
   "property": "C02",
   "status": "proved",
   "theorems": [
    "Xtra.C02_at_most_once"
   ],
   "note": ""
  },
  {
   "property": "C03",
   "status": "partial",
   "theorems": [
    "Xtra.C03_stays_available_partial",
    "Xtra.C03_accepted_partial",
    "Xtra.C03_sequential",
    "Xtra.C03_call_keeps",
    "Xtra.C03_refuted"
   ],
   "note": "The unrestricted statement is false of the code under concurrency (C03_refuted: a send slipping between the cancel flag and the oneshot receiver drop of a dropped receive future is lost). Proved: per-step preservation outside exactly that window for all interleavings, acceptance, whole-call preservation, and the full statement for sequential (quiescent) histories."
  },
  {
   "property": "C04",
   "status": "proved",
   "theorems": [
    "Xtra.C04_broadcast_exactly_once",
    "Xtra.C04_broadcast_targets"
   ],
   "note": ""
  },
  {
   "property": "C05",
   "status": "proved",
   "theorems": [
    "Xtra.C05_backpressure",
    "Xtra.C05_unbounded",
    "Xtra.C05_backpressure_concurrent"
   ],
   "note": ""
  },
  {
   "property": "C06",
   "status": "proved",
   "theorems": [
    "Xtra.C06_capacity",
    "Xtra.C06_capacity_strict"
   ],
   "note": ""
  },
  {
   "property": "C07",
   "status": "proved",
   "theorems": [
    "Xtra.C07_accepted_concurrent",
    "Xtra.C07_broadcast_capacity",
    "Xtra.C07_accepted_iff"
   ],
   "note": ""
  },
  {
   "property": "C08",
   "status": "proved",
   "theorems": [
    "Xtra.C08_parked_states",
    "Xtra.C08_parked_only_when_full",
    "Xtra.C08_never_forgotten",
    "Xtra.C08_admits_highest_concurrent",
    "Xtra.C08_admits_highest",
    "Xtra.C08_admitted_completes",
    "Xtra.C08_poll_parked"
   ],
   "note": ""
  },
  {
   "property": "C09",
   "status": "partial",
   "theorems": [
    "Xtra.C09_fifo_partial",
    "Xtra.C09_no_overtaking_partial",
    "Xtra.C09_refuted",
    "Xtra.C09_parked_refuted"
   ],
   "note": "False of the code as documented (C09_refuted: four default-priority messages accepted in the order 0,1,2,3 are received in the order 0,2,1,3, because BinaryHeap is not stable; C09_parked_refuted: waiting senders of equal priority enter in LIFO order). Proved for every interleaving of any number of senders with one receive future: while at most three equal-priority messages are queued, the mailbox is a FIFO queue and nothing is overtaken."
  },
  {
   "property": "C10",
   "status": "proved",
   "theorems": [
    "Xtra.C10_disconnected_concurrent",
    "Xtra.C10_never_handled",
    "Xtra.C10_disconnected",
    "Xtra.C10_is_connected",
    "Xtra.C10_err_means_disconnected",
    "Xtra.C10_err_never_handled"
   ],
   "note": ""
  },
  {
   "property": "C11",
   "status": "partial",
   "theorems": [
    "Xtra.C11_release",
    "Xtra.C11_failed_resolves",
    "Xtra.C11_drop_last_mailbox",
    "Xtra.C11_nothing_left_partial",
    "Xtra.C11_only_late_partial",
    "Xtra.C11_nothing_left_sequential",
    "Xtra.C11_refuted"
   ],
   "note": "The unrestricted statement is false of the code under concurrency (C11_refuted: is_connected is checked outside the lock, so a send may enqueue after the last mailbox cleared the channel). Proved: release of every parked send, resolution to Disconnected, nothing left for sequential histories and whole-call drop of the last mailbox."
  },
  {
   "property": "C12",
   "status": "proved",
   "theorems": [
    "Xtra.C12_every_receive_completes_concurrent",
    "Xtra.C12_no_idle_left",
    "Xtra.C12_every_receive_completes",
    "Xtra.C12_notification_under_way",
    "Xtra.C12_notification_effect"
   ],
   "note": ""
  },
  {
   "property": "C13",
   "status": "proved",
   "theorems": [
    "Xtra.C13_notice_concurrent",
    "Xtra.C13_drained_before_shutdown",
    "Xtra.C13_priority_order",
    "Xtra.C13_shutdown_reached",
    "Xtra.C13_waiting_receive_refuted"
   ],
   "note": "For freshly created receives. C13_waiting_receive_refuted shows the race in which a receive that was already waiting yields the shutdown notice with a message queued."
  },
  {
   "property": "C14",
   "status": "proved",
   "theorems": [
    "Xtra.C14_counts_exact",
    "Xtra.C14_counts_exact_quiet",
    "Xtra.C14_references_made",
    "Xtra.C14_future_keeps",
    "Xtra.C14_mailbox_references_made"
   ],
   "note": ""
  },
  {
   "property": "C15",
   "status": "proved",
   "theorems": [
    "Xtra.C15_zero_forever",
    "Xtra.C15_upgrade_iff"
   ],
   "note": ""
  },
  {
   "property": "C16",
   "status": "proved",
   "theorems": [
    "Xtra.C16_stop_all_concurrent",
    "Xtra.C16_notice_stays",
    "Xtra.C16_next_is_notice",
    "Xtra.C16_next_takes_notice",
    "Xtra.C16_notice_everywhere",
    "Xtra.C16_stop_all"
   ],
   "note": ""
  },
  {
   "property": "C17",
   "status": "proved",
   "theorems": [
    "Xtra.C17_break_concurrent",
    "Xtra.C17_break_iff_stop_self",
    "Xtra.C17_shutdown_breaks",
    "Xtra.C17_stop_self_local",
    "Xtra.C17_queues_untouched"
   ],
   "note": ""
  },
  {
   "property": "C18",
   "status": "proved",
   "theorems": [
    "Xtra.C18_replies",
    "Xtra.C18_poll_receiver",
    "Xtra.C18_poll_send",
    "Xtra.C18_answer_is_the_handlers",
    "Xtra.C18_interrupted_only_if"
   ],
   "note": ""
  },
  {
   "property": "C19",
   "status": "proved",
   "theorems": [
    "Xtra.C19_default",
    "Xtra.C19_set_before_poll",
    "Xtra.C19_detach",
    "Xtra.C19_set_after_poll",
    "Xtra.C19_polled_is_frozen",
    "Xtra.C19_priority_as_set"
   ],
   "note": ""
  },
  {
   "property": "C20",
   "status": "proved",
   "theorems": [
    "Xtra.C20_ready_concurrent",
    "Xtra.C20_pending_concurrent",
    "Xtra.C20_one_poll_iff_work"
   ],
   "note": ""
  },
  {
   "property": "C21",
   "status": "proved",
   "theorems": [
    "Xtra.C21_registered_or_woken",
    "Xtra.C21_never_unregistered",
    "Xtra.C21_asleep_polls_pending",
    "Xtra.C21_ready_implies_woken"
   ],
   "note": ""
  },
  {
   "property": "C22",
   "status": "proved",
   "theorems": [
    "Xtra.C22_tickets_increase",
    "Xtra.C22_first_come_first_served",
    "Xtra.C22_send_serves_longest_waiting",
    "Xtra.C22_no_message_while_idle",
    "Xtra.C22_no_message_while_idle_concurrent"
   ],
   "note": ""
  },
  {
   "property": "C23",
   "status": "proved",
   "theorems": [
    "Xtra.C23_created_concurrent",
    "Xtra.C23_resolves_only_disconnected",
    "Xtra.C23_pending_while_mailbox",
    "Xtra.C23_notification_under_way",
    "Xtra.C23_notification_effect",
    "Xtra.C23_resolves_after_last_mailbox",
    "Xtra.C23_created",
    "Xtra.C23_created_out_of_date"
   ],
   "note": ""
  },
  {
   "property": "C24",
   "status": "proved",
   "theorems": [
    "Xtra.C24_shape",
    "Xtra.C24_some",
    "Xtra.C24_none",
    "Xtra.C24_none_only_disconnected",
    "Xtra.C24_ends_with_actor",
    "Xtra.C24_transparent"
   ],
   "note": "Disconnected means that no mailbox is left (see C23: with no strong address but a live mailbox the scoped task goes on)."
  },
  {
   "property": "C25",
   "status": "proved",
   "theorems": [
    "Xtra.Loop.C25_shape",
    "Xtra.Loop.C25_stop_signal",
    "Xtra.Loop.C25_handled_once",
    "Xtra.Loop.C25_start_fails",
    "Xtra.Loop.C25_value",
    "Xtra.Loop.C25_stopped_once",
    "Xtra.Loop.C25_nothing_after_stop",
    "Xtra.Loop.C25_sequential",
    "Xtra.Loop.C25_progress"
   ],
   "note": ""
  },
  {
   "property": "C26",
   "status": "partial",
   "theorems": [
    "Xtra.Loop.C26_select",
    "Xtra.Loop.C26_join",
    "Xtra.Loop.C26_outcome",
    "Xtra.Loop.C26_left_value",
    "Xtra.Loop.C26_right_stop",
    "Xtra.Loop.C26_left_or_right",
    "Xtra.Loop.C26_join_value",
    "Xtra.Loop.C26_no_message_after_stop",
    "Xtra.Loop.C26_yield_once",
    "Xtra.Loop.C26_stop_lost_refuted",
    "Xtra.Loop.C26_stop_lost_left_refuted",
    "Xtra.Loop.C26_stop_lost_join_refuted"
   ],
   "note": "Everything about the return values, the order of messages and that none is received after the stop is proved for every actor, future and message stream, to any nesting depth. The last sentence of the claim is false of the code (C26_stop_lost_refuted, C26_stop_lost_left_refuted, C26_stop_lost_join_refuted): the outcome of a message handled inside select/join does not reach run, so the actor goes on."
  },
  {
   "property": "C27",
   "status": "partial",
   "theorems": [
    "Xtra.C27_eq_iff",
    "Xtra.C27_equivalence",
    "Xtra.C27_hash",
    "Xtra.C27_partial_cmp",
    "Xtra.C27_ord_partial",
    "Xtra.C27_ord_preorder_partial",
    "Xtra.C27_ord_refuted"
   ],
   "note": "Proved for ==, Hash, PartialOrd on all types, and for Ord on Strong and Weak addresses. False of the code for Ord on Address<A, Either>: cmp ignores the strength, so two unequal addresses compare Equal (C27_ord_refuted)."
  },
  {
   "property": "C28",
   "status": "partial",
   "theorems": [
    "Xtra.C28_never_under_partial",
    "Xtra.C28_exact_partial",
    "Xtra.C28_len_partial",
    "Xtra.C28_recovers_partial",
    "Xtra.C28_refuted"
   ],
   "note": "False of the code as stated (C28_refuted: broadcast_tail is not recomputed when a lagging mailbox is dropped, len then over-reports). Proved for every interleaving: len never under-reports; it is exact as long as no mailbox has been dropped since the broadcast length was last exact (in particular since creation); every receive of a broadcast restores exactness."
  },
  {
   "property": "C29",
   "status": "partial",
   "theorems": [
    "Xtra.C29_parked_progress_partial",
    "Xtra.C29_refuted"
   ],
   "note": "For every capacity >= 1 (and unbounded) proved: the message is handed out within backlog-many receives. For capacity 0 the statement is false of the code: C29_refuted (no receive ever yields the parked message)."
  },
  {
   "property": "C30",
   "status": "partial",
   "theorems": [
    "Xtra.C30_parked_partial",
    "Xtra.C30_concurrent_partial",
    "Xtra.C30_accepted_partial",
    "Xtra.C30_no_mailbox_dropped_partial",
    "Xtra.C30_after_receive_partial",
    "Xtra.C30_refuted"
   ],
   "note": "False of the code as stated (C30_refuted: with the stale broadcast_tail a broadcast parks although every live mailbox is empty, and no amount of receiving releases it). Proved whenever the broadcast length is exact (see C28), and in every state, concurrent activity included, as long as no mailbox was dropped (C30_parked_partial)."
  },
  {
   "property": "C31",
   "status": "proved",
   "theorems": [
    "Xtra.C31_no_panic"
   ],
   "note": ""
  },
  {
   "property": "C32",
   "status": "proved",
   "theorems": [
    "Xtra.C32_fed_after",
    "Xtra.C32_order",
    "Xtra.C32_handled_order",
    "Xtra.C32_one_in_flight",
    "Xtra.C32_default_priority",
    "Xtra.C32_error_final"
   ],
   "note": ""
  },
  {
   "property": "C33",
   "status": "partial",
   "theorems": [
    "Xtra.Reentrant.C33_partial",
    "Xtra.Reentrant.C33_deadlock",
    "Xtra.Reentrant.C33_exact",
    "Xtra.Reentrant.C33_refuted",
    "Xtra.Reentrant.C33_not_last",
    "Xtra.Reentrant.C33_api_partial",
    "Xtra.Reentrant.C33_api_refuted"
   ],
   "note": "False of the code (C33_refuted, C33_api_refuted): when the last strong address is owned by a queued or waiting message, dropping the last mailbox destroys it with the channel's mutex held and blocks on the same mutex forever. Proved: exactly in which states it completes (C33_exact), in particular whenever somebody else holds a strong reference or the messages own none."
  },
  {
   "property": "C34",
   "status": "proved",
   "theorems": [
    "Xtra.C34_inversion_only_when_notified",
    "Xtra.C34_next_is_maximal",
    "Xtra.C34_inversion_concurrent"
   ],
   "note": ""
  },
  {
   "property": "C35",
   "status": "proved",
   "theorems": [
    "Xtra.C35_chain",
    "Xtra.C35_succeeds",
    "Xtra.C35_counts",
    "Xtra.C35_channel_send",
    "Xtra.C35_model_agrees"
   ],
   "note": ""
  },
  {
   "property": "C36",
   "status": "proved",
   "theorems": [
    "Xtra.C36_unicast_any_mailbox",
    "Xtra.C36_broadcast_per_mailbox"
   ],
   "note": ""
  },
  {
   "property": "C37",
   "status": "proved",
   "theorems": [
    "Xtra.C37_retracted",
    "Xtra.C37_not_retracted",
    "Xtra.C37_unpolled_concurrent",
    "Xtra.C37_parked_concurrent",
    "Xtra.C37_admitted_concurrent"
   ],
   "note": ""
  },
  {
   "property": "C38",
   "status": "proved",
   "theorems": [
    "Xtra.C38_interrupted",
    "Xtra.C38_concurrent"
   ],
   "note": ""
  },
  {
   "property": "C39",
   "status": "proved",
   "theorems": [
    "Xtra.Heap.pop_max",
    "Xtra.Heap.pop_perm",
    "Xtra.Heap.push_perm",
    "Xtra.Heap.push_heap",
    "Xtra.Heap.pop_heap",
    "Xtra.Heap.pop_peek"
   ],
   "note": ""
  },
  {
   "property": "C40",
   "status": "proved",
   "theorems": [
    "Xtra.Derive.C40_where_clause",
    "Xtra.Derive.C40_impl_applies",
    "Xtra.Derive.C40_impl_for_item",
    "Xtra.Derive.C40_impl_iff_item",
    "Xtra.Derive.C40_impl_legal"
   ],
   "note": ""
  },
  {
   "property": "C41",
   "status": "partial",
   "theorems": [
    "Xtra.Multi.C41_no_deadlock_partial",
    "Xtra.Multi.C41_all_finish_partial",
    "Xtra.Multi.C41_refuted"
   ],
   "note": "False of the code (C41_refuted: two threads dropping the mailboxes of two actors whose queued messages own each other's last strong address deadlock; one thread through a chain of two actors; a critical section that looks, through a temporary Weak::upgrade, at a broadcast queue or parked send which another thread is dropping, whose message owns the last strong address). Proved for any number of channels and threads and every schedule: if no ownership cycle leads through waiting messages, somebody can always go on (C41_no_deadlock_partial) and every maximal schedule ends with all threads finished (C41_all_finish_partial)."
  },
  {
   "property": "C42",
   "status": "proved",
   "theorems": [
    "Xtra.C42_bounded",
    "Xtra.C42_returns",
    "Xtra.C42_can_finish"
   ],
   "note": ""
  },
  {
   "property": "C43",
   "status": "partial",
   "theorems": [
    "Xtra.C43_refuted",
    "Xtra.C43_broadcast_cleans_partial",
    "Xtra.C43_send_cleans_partial",
    "Xtra.C43_receive_cleans_partial"
   ],
   "note": "False of the code as stated (C43_refuted: for every n there is a quiescent state with one address, one mailbox and n stale handles of cancelled receives; likewise n stale pointers to dropped mailboxes, n stale handles of abandoned sends). Proved, for all interleavings, when they go: an accepted broadcast removes all receive handles and all pointers to dropped mailboxes, a unicast send removes receive handles up to the one it serves, a receive from the queue removes the handles of all abandoned sends."
  },
  {
   "property": "C44",
   "status": "proved",
   "theorems": [
    "Xtra.Weak.C44_no_receive_left_waiting",
    "Xtra.Weak.C44_refusal_is_final",
    "Xtra.Weak.C44_no_resurrection",
    "Xtra.Weak.C44_no_premature_shutdown",
    "Xtra.Weak.C44_no_join_left_waiting",
    "Xtra.Weak.C44_join_is_final",
    "Xtra.Weak.C44_join_at_once",
    "Xtra.Weak.C44_notice_is_final",
    "Xtra.Weak.C44_calls_can_finish"
   ],
   "note": ""
  },
  {
   "property": "C45",
   "status": "proved",
   "theorems": [
    "Xtra.Span.C45_span_is_transparent",
    "Xtra.Span.C45_shutdown_breaks_at_once",
    "Xtra.Span.C45_shutdown_has_no_span",
    "Xtra.Span.C45_one_handler_span",
    "Xtra.Span.C45_start_refuses_twice",
    "Xtra.Span.C45_span_tree",
    "Xtra.Span.C45_start_span_once",
    "Xtra.Span.C45_received_is_started",
    "Xtra.Span.C45_unshared_when_started",
    "Xtra.Span.C45_unshared_when_priority_set"
   ],
   "note": ""
  },
  {
   "property": "C46",
   "status": "partial",
   "theorems": [
    "Xtra.C46_refuted",
    "Xtra.C46_parked_refuted",
    "Xtra.C46_bounded_wait_partial",
    "Xtra.C46_keeps_receiving"
   ],
   "note": "False of the code as stated (C46_refuted: unbounded mailbox, never more than four messages queued, one send per receive, all of the default priority: for every n the actor receives n messages and the second of the four is still queued; C46_parked_refuted: the same for a parked send on capacity 1). Proved for arrivals of lower priority (sends and broadcasts): the message is handed out after at most as many receives as there are messages of its priority or above queued or parked, and until then every receive completes at once. Missing: arrivals of equal priority (false)."
  },
  {
   "property": "C47",
   "status": "proved",
   "theorems": [
    "Xtra.C47_at_most_one_end",
    "Xtra.C47_nothing_leaks",
    "Xtra.C47_nobody_left_waiting",
    "Xtra.C47_everyone_woken"
   ],
   "note": ""
  },
  {
   "property": "C48",
   "status": "proved",
   "theorems": [
    "Xtra.C48_select_refuted",
    "Xtra.C48_received_is_handled",
    "Xtra.C48_one_at_a_time",
    "Xtra.C48_returns_only_on_break",
    "Xtra.C48_select_returns",
    "Xtra.C48_never_stuck",
    "Xtra.C48_leaves_nothing",
    "Xtra.C48_no_request_fails",
    "Xtra.C48_at_rest"
   ],
   "note": "C48_select_refuted shows why selects that gave up their receive are excluded from the last sentence (the race of C03)."
  },
  {
   "property": "C49",
   "status": "proved",
   "theorems": [
    "Xtra.C49_request_interrupted",
    "Xtra.C49_only_own_request",
    "Xtra.C49_others_unaffected",
    "Xtra.C49_at_rest"
   ],
   "note": ""
  },
  {
   "property": "C50",
   "status": "proved",
   "theorems": [
    "Xtra.C50_no_livelock",
    "Xtra.C50_infinite_needs_calls",
    "Xtra.C50_progress",
    "Xtra.C50_reaches_rest",
    "Xtra.C50_all_served",
    "Xtra.C50_rest_is_final"
   ],
   "note": ""
  },
  {
   "property": "C51",
   "status": "proved",
   "theorems": [
    "Xtra.C51_no_livelock",
    "Xtra.C51_progress",
    "Xtra.C51_reaches_rest",
    "Xtra.C51_resolved",
    "Xtra.C51_answered",
    "Xtra.C51_rest_is_final",
    "Xtra.C51_eventually",
    "Xtra.C51_broadcast_completes"
   ],
   "note": ""
  },
  {
   "property": "C52",
   "status": "proved",
   "theorems": [
    "Xtra.C52_after_the_end",
    "Xtra.C52_while_running",
    "Xtra.C52_eventually"
   ],
   "note": ""
  },
  {
   "property": "C53",
   "status": "partial",
   "theorems": [
    "Xtra.Multi.C53_no_deadlock_partial",
    "Xtra.Multi.C53_all_finish_partial",
    "Xtra.Multi.C53_ordinary",
    "Xtra.Multi.C53_refuted"
   ],
   "note": "False of the code (C53_refuted: wakers run with the channel's mutex held; one that calls len() on the channel, or destroys a task owning its last strong address, blocks on a mutex its own thread holds). Proved: for wakers and messages that respect a ranking of the channels nothing deadlocks and every maximal schedule ends with all threads finished (C53_no_deadlock_partial, C53_all_finish_partial); and without any ranking when messages own no references to channels and wakers touch no channel (C53_ordinary)."
  },
  {
   "property": "C54",
   "status": "proved",
   "theorems": [
    "Xtra.C54_rest_is_final",
    "Xtra.C54_refuted",
    "Xtra.C54_no_livelock",
    "Xtra.C54_progress",
    "Xtra.C54_reaches_rest",
    "Xtra.C54_nobody_hangs",
    "Xtra.C54_answered"
   ],
   "note": "Proved for all networks whose awaits respect a ranking. C54_refuted shows that the ranking is needed (two actors asking each other hang). The hypothesis served excludes channels left without actor while a mailbox or a late send (C11_refuted) remains; for awaited broadcasts it also excludes dropped mailboxes (C30_refuted)."
  },
  {
   "property": "C55",
   "status": "proved",
   "theorems": [
    "Xtra.C55_refuted",
    "Xtra.C55_progress",
    "Xtra.C55_nobody_hangs",
    "Xtra.C55_answered"
   ],
   "note": "The full statement, exception included: C55_refuted shows that a stop during join makes it false. Termination is not claimed (actors that join on each other can keep asking for ever)."
  },
  {
   "property": "C56",
   "status": "proved",
   "theorems": [
    "Xtra.C56_no_notice_before_queued",
    "Xtra.C56_no_notice_before_parked",
    "Xtra.C56_no_notice_before_broadcast",
    "Xtra.C56_all_handled",
    "Xtra.C56_broadcasts_handled",
    "Xtra.C56_answered",
    "Xtra.C56_all_return",
    "Xtra.C56_graceful"
   ],
   "note": ""
  },
  {
   "property": "C57",
   "status": "proved",
   "theorems": [
    "Xtra.C57_stops",
    "Xtra.C57_stop_all",
    "Xtra.C57_at_most_one_more",
    "Xtra.C57_select_refuted"
   ],
   "note": ""
  },
  {
   "property": "C58",
   "status": "proved",
   "theorems": [
    "Xtra.C58_one_message",
    "Xtra.C58_loop_handles",
    "Xtra.C58_answered",
    "Xtra.C58_told"
   ],
   "note": ""
  },
  {
   "property": "C59",
   "status": "partial",
   "theorems": [
    "Xtra.C59_what_panics",
    "Xtra.C59_no_panic_unless_poisoned",
    "Xtra.C59_only_len_panics",
    "Xtra.C59_queue_dropped",
    "Xtra.C59_all_over",
    "Xtra.C59_sends_refused",
    "Xtra.C59_parked_released_partial",
    "Xtra.C59_never_released",
    "Xtra.C59_refuted"
   ],
   "note": "False of the code as stated (C59_refuted, C59_never_released: when the destructor of a queued message panics, the sends waiting for room are skipped, never woken, and never resolve, whatever is done afterwards, while the address exists). Everything else in the statement is proved for all executions; the waiting sends are proved released when the destructor that panics is that of a waiting send (C59_parked_released_partial). Missing: release of waiting sends when a queued message's destructor panics (false), and of waiting broadcasts when a waiting send's does (false)."
  },
  {
   "property": "C60",
   "status": "proved",
   "theorems": [
    "Xtra.C60_after_stop_all",
    "Xtra.C60_after_last_address",
    "Xtra.C60_nobody_hangs"
   ],
   "note": ""
  },
  {
   "property": "C61",
   "status": "proved",
   "theorems": [
    "Xtra.Fuse.C61_send_polls",
    "Xtra.Fuse.C61_broadcast_polls",
    "Xtra.Fuse.C61_detached_polls",
    "Xtra.Fuse.C61_sends_once",
    "Xtra.Fuse.C61_receiver_once",
    "Xtra.Fuse.C61_receive_fused",
    "Xtra.Fuse.C61_handler_once",
    "Xtra.Fuse.C61_dispatch_panics",
    "Xtra.Fuse.C61_join_again",
    "Xtra.Fuse.C61_failed_detached_send_repolled",
    "Xtra.Fuse.C61_send_result",
    "Xtra.Fuse.C61_broadcast_result",
    "Xtra.Fuse.C61_detached_result",
    "Xtra.Fuse.C61_receiver_result",
    "Xtra.Fuse.C61_dispatch_result",
    "Xtra.Fuse.C61_receive_result"
   ],
   "note": ""
  },
  {
   "property": "C62",
   "status": "proved",
   "theorems": [
    "Xtra.C62_giving_up_changes_nothing",
    "Xtra.C62_giving_up_prevents_nothing",
    "Xtra.C62_handled_all_the_same"
   ],
   "note": ""
  },
  {
   "property": "C63",
   "status": "proved",
   "theorems": [
    "Xtra.WeakMsg.C63_conservation",
    "Xtra.WeakMsg.C63_received_once",
    "Xtra.WeakMsg.C63_shutdown_means_drained",
    "Xtra.WeakMsg.C63_refused_only_if_disconnected",
    "Xtra.WeakMsg.C63_closed_only_without_mailbox",
    "Xtra.WeakMsg.C63_aware_send_refused",
    "Xtra.WeakMsg.C63_no_receive_left_waiting",
    "Xtra.WeakMsg.C63_no_message_while_waiting",
    "Xtra.WeakMsg.C63_nothing_left",
    "Xtra.WeakMsg.C63_capacity",
    "Xtra.WeakMsg.C63_calls_can_finish"
   ],
   "note": ""
  },
  {
   "property": "C64",
   "status": "proved",
   "theorems": [
    "Xtra.Ideal.C64_simulation",
    "Xtra.Ideal.C64_refines_ideal_mailbox",
    "Xtra.Ideal.C64_ideal_causes",
    "Xtra.Ideal.C64_ideal_once"
   ],
   "note": ""
  },
  {
   "property": "C65",
   "status": "proved",
   "theorems": [
    "Xtra.Ideal.C65_life_of_a_message"
   ],
   "note": ""
  },
  {
   "property": "C66",
   "status": "partial",
   "theorems": [
    "Xtra.C66_len_bound_partial",
    "Xtra.C66_is_empty_partial",
    "Xtra.C66_empty_yields_nothing_partial",
    "Xtra.C66_capacity_partial",
    "Xtra.C66_debug_partial",
    "Xtra.C66_default_last_partial",
    "Xtra.C66_severally_refuted",
    "Xtra.C66_default_last_refuted"
   ],
   "note": "The documented capacity per kind of message and the documented rank of ordinary messages are false of the code (C66_severally_refuted, C66_default_last_refuted). Proved: len is at most twice the capacity plus the put-back messages and stop_all notices; is_empty, capacity and the numbers printed by Debug are right; an ordinary message is taken only if everything queued has the default priority."
  },
  {
   "property": "C67",
   "status": "proved",
   "theorems": [
    "Xtra.C67_observations_are_true",
    "Xtra.C67_later_is_connected",
    "Xtra.C67_later_sends_fail",
    "Xtra.C67_later_join",
    "Xtra.C67_true_was_true",
    "Xtra.C67_accepted_was_connected"
   ],
   "note": ""
  },
  {
   "property": "C68",
   "status": "proved",
   "theorems": [
    "Xtra.C68_past_of_a_message",
    "Xtra.C68_awaited_first",
    "Xtra.C68_one_at_a_time"
   ],
   "note": ""
  },
  {
   "property": "C69",
   "status": "partial",
   "theorems": [
    "Xtra.C69_drained_partial",
    "Xtra.C69_notice_partial",
    "Xtra.C69_refuted"
   ],
   "note": "False of the code as stated (C69_refuted: an actor that is ahead of another is shut down although a broadcast that was made while it existed still waits for room in the other's mailbox; the broadcast is delivered afterwards, to the others only, and reported as sent). Proved when no other mailbox is full at the end and none was dropped, in particular for a single actor (C69_drained_partial); and in every interleaving a broadcast waiting at the notice waits for another mailbox (C69_notice_partial)."
  },
  {
   "property": "C70",
   "status": "proved",
   "theorems": [
    "Xtra.C70_step_of_a_call",
    "Xtra.C70_every_effect"
   ],
   "note": ""
  },
  {
   "property": "C71",
   "status": "proved",
   "theorems": [
    "Xtra.C71_one_at_a_time",
    "Xtra.C71_reason",
    "Xtra.C71_receive_gets_on",
    "Xtra.C71_send_gets_on",
    "Xtra.C71_answer_is_there"
   ],
   "note": ""
  },
  {
   "property": "C72",
   "status": "proved",
   "theorems": [
    "Xtra.C72_wakers_do_not_matter",
    "Xtra.C72_spurious_poll_changes_nothing",
    "Xtra.C72_spurious_poll_prevents_nothing",
    "Xtra.C72_slow_poll_changes_nothing",
    "Xtra.C72_slow_poll_prevents_nothing"
   ],
   "note": ""
  },
  {
   "property": "C73",
   "status": "proved",
   "theorems": [
    "Xtra.C73_message",
    "Xtra.C73_shutdown",
    "Xtra.C73_answer",
    "Xtra.C73_disconnected",
    "Xtra.C73_sender_to_receiver",
    "Xtra.C73_handler_to_client",
    "Xtra.C73_address_dropped",
    "Xtra.C73_mailbox_dropped",
    "Xtra.C73_refused_upgrade_tells_nothing"
   ],
   "note": ""
  },
  {
   "property": "C74",
   "status": "proved",
   "theorems": [
    "Xtra.C74_runs_on",
    "Xtra.C74_stays_connected",
    "Xtra.C74_stop_self"
   ],
   "note": ""
  },
  {
   "property": "C75",
   "status": "proved",
   "theorems": [
    "Xtra.C75_counters_exact",
    "Xtra.C75_last_is_last",
    "Xtra.C75_upgrade",
    "Xtra.C75_freed",
    "Xtra.C75_guard_is_needed"
   ],
   "note": ""
  },
  {
   "property": "C76",
   "status": "proved",
   "theorems": [
    "Xtra.C76_receiver_to_sender",
    "Xtra.C76_receiver_to_receiver",
    "Xtra.C76_sender_to_sender"
   ],
   "note": ""
  },
  {
   "property": "C77",
   "status": "proved",
   "theorems": [
    "Xtra.C77_drop_changes_nothing",
    "Xtra.C77_another_address",
    "Xtra.C77_drop_prevents_nothing",
    "Xtra.C77_clone_left"
   ],
   "note": ""
  },
  {
   "property": "C78",
   "status": "proved",
   "theorems": [
    "Xtra.C78_drop_changes_nothing",
    "Xtra.C78_drop_prevents_nothing",
    "Xtra.C78_unpolled_next"
   ],
   "note": ""
  },
  {
   "property": "C79",
   "status": "proved",
   "theorems": [
    "Xtra.C79_asking_changes_nothing",
    "Xtra.C79_asking_prevents_nothing"
   ],
   "note": ""
  }
 ]
}