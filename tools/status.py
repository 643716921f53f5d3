extra = {"C39": ["Xtra.Heap.pop_max", "Xtra.Heap.pop_perm", "Xtra.Heap.push_perm", "Xtra.Heap.push_heap", "Xtra.Heap.pop_heap", "Xtra.Heap.pop_peek"]}
status = {
"C03": ("partial", "The unrestricted statement is false of the code under concurrency (C03_refuted: a send slipping between the cancel flag and the oneshot receiver drop of a dropped receive future is lost). Proved: per-step preservation outside exactly that window for all interleavings, acceptance, whole-call preservation, and the full statement for sequential (quiescent) histories."),
"C11": ("partial", "The unrestricted statement is false of the code under concurrency (C11_refuted: is_connected is checked outside the lock, so a send may enqueue after the last mailbox cleared the channel). Proved: release of every parked send, resolution to Disconnected, nothing left for sequential histories and whole-call drop of the last mailbox."),
"C66": ("partial", "The documented capacity per kind of message and the documented rank of ordinary messages are false of the code (C66_severally_refuted, C66_default_last_refuted). Proved: len is at most twice the capacity plus the put-back messages and stop_all notices; is_empty, capacity and the numbers printed by Debug are right; an ordinary message is taken only if everything queued has the default priority."),
"C29": ("partial", "For every capacity >= 1 (and unbounded) proved: the message is handed out within backlog-many receives. For capacity 0 the statement is false of the code: C29_refuted (no receive ever yields the parked message)."),
"C13": ("proved", "For freshly created receives. C13_waiting_receive_refuted shows the race in which a receive that was already waiting yields the shutdown notice with a message queued."),
"C28": ("partial", "False of the code as stated (C28_refuted: broadcast_tail is not recomputed when a lagging mailbox is dropped, len then over-reports). Proved for every interleaving: len never under-reports; it is exact as long as no mailbox has been dropped since the broadcast length was last exact (in particular since creation); every receive of a broadcast restores exactness."),
"C30": ("partial", "False of the code as stated (C30_refuted: with the stale broadcast_tail a broadcast parks although every live mailbox is empty, and no amount of receiving releases it). Proved whenever the broadcast length is exact (see C28), and in every state, concurrent activity included, as long as no mailbox was dropped (C30_parked_partial)."),
"C09": ("partial", "False of the code as documented (C09_refuted: four default-priority messages accepted in the order 0,1,2,3 are received in the order 0,2,1,3, because BinaryHeap is not stable; C09_parked_refuted: waiting senders of equal priority enter in LIFO order). Proved for every interleaving of any number of senders with one receive future: while at most three equal-priority messages are queued, the mailbox is a FIFO queue and nothing is overtaken."),
"C27": ("partial", "Proved for ==, Hash, PartialOrd on all types, and for Ord on Strong and Weak addresses. False of the code for Ord on Address<A, Either>: cmp ignores the strength, so two unequal addresses compare Equal (C27_ord_refuted)."),
"C26": ("partial", "Everything about the return values, the order of messages and that none is received after the stop is proved for every actor, future and message stream, to any nesting depth. The last sentence of the claim is false of the code (C26_stop_lost_refuted, C26_stop_lost_left_refuted, C26_stop_lost_join_refuted): the outcome of a message handled inside select/join does not reach run, so the actor goes on."),
"C24": ("proved", "Disconnected means that no mailbox is left (see C23: with no strong address but a live mailbox the scoped task goes on)."),
"C33": ("partial", "False of the code (C33_refuted, C33_api_refuted): when the last strong address is owned by a queued or waiting message, dropping the last mailbox destroys it with the channel's mutex held and blocks on the same mutex forever. Proved: exactly in which states it completes (C33_exact), in particular whenever somebody else holds a strong reference or the messages own none."),
"C41": ("partial", "False of the code (C41_refuted: two threads dropping the mailboxes of two actors whose queued messages own each other's last strong address deadlock; one thread through a chain of two actors; a critical section that looks, through a temporary Weak::upgrade, at a broadcast queue or parked send which another thread is dropping, whose message owns the last strong address). Proved for any number of channels and threads and every schedule: if no ownership cycle leads through waiting messages, somebody can always go on (C41_no_deadlock_partial) and every maximal schedule ends with all threads finished (C41_all_finish_partial)."),
"C53": ("partial", "False of the code (C53_refuted: wakers run with the channel's mutex held; one that calls len() on the channel, or destroys a task owning its last strong address, blocks on a mutex its own thread holds). Proved: for wakers and messages that respect a ranking of the channels nothing deadlocks and every maximal schedule ends with all threads finished (C53_no_deadlock_partial, C53_all_finish_partial); and without any ranking when messages own no references to channels and wakers touch no channel (C53_ordinary)."),
"C54": ("proved", "Proved for all networks whose awaits respect a ranking. C54_refuted shows that the ranking is needed (two actors asking each other hang). The hypothesis served excludes channels left without actor while a mailbox or a late send (C11_refuted) remains; for awaited broadcasts it also excludes dropped mailboxes (C30_refuted)."),
"C48": ("proved", "C48_select_refuted shows why selects that gave up their receive are excluded from the last sentence (the race of C03)."),
"C55": ("proved", "The full statement, exception included: C55_refuted shows that a stop during join makes it false. Termination is not claimed (actors that join on each other can keep asking for ever)."),
"C43": ("partial", "False of the code as stated (C43_refuted: for every n there is a quiescent state with one address, one mailbox and n stale handles of cancelled receives; likewise n stale pointers to dropped mailboxes, n stale handles of abandoned sends). Proved, for all interleavings, when they go: an accepted broadcast removes all receive handles and all pointers to dropped mailboxes, a unicast send removes receive handles up to the one it serves, a receive from the queue removes the handles of all abandoned sends."),
"C46": ("partial", "False of the code as stated (C46_refuted: unbounded mailbox, never more than four messages queued, one send per receive, all of the default priority: for every n the actor receives n messages and the second of the four is still queued; C46_parked_refuted: the same for a parked send on capacity 1). Proved for arrivals of lower priority (sends and broadcasts): the message is handed out after at most as many receives as there are messages of its priority or above queued or parked, and until then every receive completes at once. Missing: arrivals of equal priority (false)."),
"C59": ("partial", "False of the code as stated (C59_refuted, C59_never_released: when the destructor of a queued message panics, the sends waiting for room are skipped, never woken, and never resolve, whatever is done afterwards, while the address exists). Everything else in the statement is proved for all executions; the waiting sends are proved released when the destructor that panics is that of a waiting send (C59_parked_released_partial). Missing: release of waiting sends when a queued message's destructor panics (false), and of waiting broadcasts when a waiting send's does (false)."),
"C69": ("partial", "False of the code as stated (C69_refuted: an actor that is ahead of another is shut down although a broadcast that was made while it existed still waits for room in the other's mailbox; the broadcast is delivered afterwards, to the others only, and reported as sent). Proved when no other mailbox is full at the end and none was dropped, in particular for a single actor (C69_drained_partial); and in every interleaving a broadcast waiting at the notice waits for another mailbox (C69_notice_partial)."),
}
