{"id": "C01", "title": "Highest priority first", "statement": "When a freshly created receive future (Mailbox::next) is polled and yields a message, that message has maximal priority among all messages then queued for this mailbox (shared unicast queue and this mailbox's broadcast queue); on equal priority the unicast message wins; it yields the shutdown notice only if both queues are empty and no strong address exists, and it waits only if both are empty and a strong address exists or the drop of the last one has not finished (it will find the waiting receive).", "quantifier": "every reachable queue content, of any size, for any sequence and interleaving of sends, broadcasts, receives and drops", "why_tests_cant": "the selection depends on the whole history-dependent heap layout; tests try a handful of contents", "anchors": [{"file": "xtra/src/chan.rs", "symbols": ["Chan::try_recv", "Inner::pop_unicast", "Inner::pop_broadcast"]}, {"file": "xtra/src/chan/priority.rs", "symbols": ["Priority", "ByPriority"]}]}
{"id": "C02", "title": "A unicast message is handed out at most once", "statement": "Whatever the interleaving of sends, polls, cancellations and drops by any number of threads and actors, a message sent with Address::send is yielded by at most one receive future, at most once, and its handler is completed at most once.", "quantifier": "all interleavings of atomic steps of all API calls, any number of actors/mailboxes/futures", "why_tests_cant": "needs all schedules; a race that duplicates is invisible to sampling", "anchors": [{"file": "xtra/src/chan.rs", "symbols": ["Chan::try_send_to_one", "Chan::requeue_message", "Inner::try_fulfill_receiver"]}, {"file": "xtra/src/chan/waiting_sender.rs", "symbols": ["Handle::take_message"]}, {"file": "xtra/src/chan/waiting_receiver.rs", "symbols": ["WaitingReceiver::cancel"]}, {"file": "xtra/src/recv_future.rs", "symbols": ["Waiting::drop"]}]}
{"id": "C03", "title": "No unicast message is lost", "statement": "An accepted unicast message stays available (queued, waiting, or handed to exactly one live receive future) until it is yielded to an actor or the last mailbox goes away; dropping a receive future at any moment does not lose a message (documented cancellation safety of ReceiveFuture).", "quantifier": "all histories; all points at which a receive future may be dropped", "why_tests_cant": "cancellation can happen between any two steps, on any thread", "anchors": [{"file": "xtra/src/recv_future.rs", "symbols": ["ReceiveFuture", "Waiting", "Waiting::drop"]}, {"file": "xtra/src/chan/waiting_receiver.rs", "symbols": ["WaitingReceiver::cancel"]}, {"file": "xtra/src/chan.rs", "symbols": ["Chan::requeue_message"]}]}
{"id": "C04", "title": "Broadcast reaches every mailbox exactly once", "statement": "A broadcast accepted by the channel is put exactly once into the mailbox of every live Mailbox existing at that moment and into none created later; each mailbox yields it at most once, and it stays in that mailbox until yielded or the mailbox goes away.", "quantifier": "all numbers of mailboxes, all clone/drop/broadcast/receive interleavings", "why_tests_cant": "mailbox set changes concurrently with broadcasts", "anchors": [{"file": "xtra/src/chan.rs", "symbols": ["Inner::send_broadcast", "Chan::new_broadcast_mailbox", "Inner::pop_broadcast"]}, {"file": "xtra/src/mailbox.rs", "symbols": ["Mailbox::clone"]}]}
{"id": "C05", "title": "Unicast backpressure is exact", "statement": "Polling a send on a connected address completes the queueing immediately exactly if some idle receiver is waiting or the shared queue holds fewer than capacity messages; otherwise the sender is parked. On an unbounded mailbox queueing never waits.", "quantifier": "every reachable state and capacity", "why_tests_cant": "depends on the exact count in every history incl. cancelled receivers", "anchors": [{"file": "xtra/src/chan.rs", "symbols": ["Chan::try_send_to_one", "Inner::is_unicast_full", "Inner::try_fulfill_receiver"]}]}
{"id": "C06", "title": "Unicast queue respects the capacity", "statement": "The number of queued unicast messages never exceeds the capacity, except by the number of messages put back by cancelled receive futures; without such cancellations it never exceeds it at all.", "quantifier": "all histories, schedules and capacities", "why_tests_cant": "bound must hold after any history", "anchors": [{"file": "xtra/src/chan.rs", "symbols": ["Inner::is_unicast_full", "Inner::pop_unicast", "Chan::requeue_message"]}, {"file": "xtra/src/mailbox.rs", "symbols": ["Mailbox::bounded"]}]}
{"id": "C07", "title": "Broadcast backpressure follows the slowest actor", "statement": "No mailbox ever holds more broadcast messages than the capacity plus the number of stop_all notices issued; a broadcast is accepted immediately exactly if the channel's broadcast length is below the capacity, and that length is never below the longest live mailbox.", "quantifier": "all histories with any number of mailboxes", "why_tests_cant": "slowest actor differs per history", "anchors": [{"file": "xtra/src/chan.rs", "symbols": ["Inner::send_broadcast", "Inner::longest_broadcast_queue", "Inner::is_broadcast_full", "Inner::pop_broadcast", "Chan::try_send_to_all"]}]}
{"id": "C08", "title": "Parked senders are admitted by priority and never forgotten", "statement": "When a receive frees unicast space, a parked sender whose message has maximal priority among the live parked senders is admitted and its send completes; a live parked unicast sender exists only while the unicast queue is at or above capacity, so it is never left parked with free space, and every live parked sender remains registered until admitted or disconnected.", "quantifier": "all histories, all cancellation points of parked sends", "why_tests_cant": "lost registrations would be rare schedules", "anchors": [{"file": "xtra/src/chan.rs", "symbols": ["find_remove_highest_priority", "Inner::try_take_waiting_unicast_message", "Inner::pop_unicast"]}, {"file": "xtra/src/chan/waiting_sender.rs", "symbols": ["WaitingSender", "Handle"]}]}
{"id": "C09", "title": "Equal-priority messages are handled in send order", "statement": "Messages of default priority sent to a single actor are handled in the order of sending (documented on Address).", "quantifier": "all numbers of queued messages; bounded and unbounded mailboxes", "why_tests_cant": "order depends on heap layout for each size", "anchors": [{"file": "xtra/src/address.rs", "symbols": ["Address (docs, Default priority)"]}, {"file": "xtra/src/chan.rs", "symbols": ["Inner::unicast_queue", "find_remove_highest_priority"]}]}
{"id": "C10", "title": "Sending to a disconnected actor fails", "statement": "If there is no mailbox left, or no strong address left, when a send or broadcast is first polled, it resolves to Error::Disconnected, nothing is queued, and that message is never handled; is_connected reports exactly whether both a strong address and a mailbox exist; conversely a send that resolved to Error::Disconnected proves that no mailbox or no strong address is left.", "quantifier": "all states reached by any history", "why_tests_cant": "counts evolve through every clone/drop path", "anchors": [{"file": "xtra/src/chan.rs", "symbols": ["Chan::try_send_to_one", "Chan::try_send_to_all", "Chan::is_connected"]}, {"file": "xtra/src/address.rs", "symbols": ["Address::is_connected"]}]}
{"id": "C11", "title": "Pending sends are released when the actor goes away", "statement": "Once the last mailbox is gone, every parked send resolves to Disconnected, every queued message is destroyed (its sender sees Interrupted), and no message stays behind in the channel.", "quantifier": "all histories; all interleavings of the final drop with concurrent sends", "why_tests_cant": "race between connectivity check and final drop", "anchors": [{"file": "xtra/src/chan.rs", "symbols": ["Chan::on_receiver_dropped", "Chan::shutdown_waiting_senders"]}, {"file": "xtra/src/chan/waiting_sender.rs", "symbols": ["Handle::drop", "WaitingSender::poll"]}]}
{"id": "C12", "title": "Dropping the last strong address stops every idle actor", "statement": "After the last strong address has been dropped, no receive future stays pending: every parked receiver has been notified, and any further receive completes; this holds for every interleaving of the drop with concurrent receives.", "quantifier": "all interleavings of the drop's atomic decrement, the notification, and concurrent receives", "why_tests_cant": "classic lost-wakeup race", "anchors": [{"file": "xtra/src/chan.rs", "symbols": ["Chan::on_sender_dropped", "Chan::shutdown_waiting_receivers", "Chan::try_recv"]}, {"file": "xtra/src/chan/waiting_receiver.rs", "symbols": ["Handle::notify_channel_shutdown"]}]}
{"id": "C13", "title": "Remaining messages are drained before shutdown", "statement": "With no strong address left, successive (freshly created) receives yield every message still queued exactly once, in non-increasing priority order if no send is parked, and only then the shutdown notice; messages of parked unicast sends (capacity at least 1) are yielded too before it.", "quantifier": "all queue contents", "why_tests_cant": "any number of leftovers and priorities", "anchors": [{"file": "xtra/src/chan.rs", "symbols": ["Chan::try_recv"]}, {"file": "xtra/src/lib.rs", "symbols": ["run"]}]}
{"id": "C14", "title": "Strong count is exact", "statement": "The strong count equals the number of live strong references (strong addresses, either-addresses wrapping strong, unpolled send futures made from them), the mailbox count equals the number of live mailbox references; weak addresses contribute nothing.", "quantifier": "all histories of clone/downgrade/upgrade/as_either/send/poll/drop in all interleavings", "why_tests_cant": "every path must balance", "anchors": [{"file": "xtra/src/chan/ptr.rs", "symbols": ["Ptr::clone", "Ptr::drop", "TxStrong::make_new", "TxEither::make_new"]}, {"file": "xtra/src/chan.rs", "symbols": ["Chan::on_sender_created", "Chan::on_sender_dropped", "Chan::on_receiver_created"]}]}
{"id": "C15", "title": "Upgrade never resurrects", "statement": "WeakAddress::try_upgrade succeeds exactly if a strong reference is alive at that moment; once the strong count has reached zero it stays zero forever (likewise the mailbox count).", "quantifier": "all interleavings of upgrade with drops", "why_tests_cant": "resurrection race", "anchors": [{"file": "xtra/src/chan/ptr.rs", "symbols": ["TxStrong::try_new", "Ptr::try_to_tx_strong"]}, {"file": "xtra/src/address.rs", "symbols": ["WeakAddress::try_upgrade"]}]}
{"id": "C16", "title": "stop_all reaches every actor and pre-empts all queued messages", "statement": "Context::stop_all, called while a strong address exists, immediately (regardless of capacity) puts a shutdown notice into every live mailbox; from then on, the next message such a mailbox takes from its queues is a shutdown notice, whatever else is queued.", "quantifier": "all queue contents and mailboxes", "why_tests_cant": "must beat every priority and full queues", "anchors": [{"file": "xtra/src/context.rs", "symbols": ["Context::stop_all"]}, {"file": "xtra/src/chan.rs", "symbols": ["Chan::shutdown_all_receivers", "Inner::send_broadcast"]}, {"file": "xtra/src/envelope.rs", "symbols": ["Shutdown"]}]}
{"id": "C17", "title": "stop_self stops exactly this actor after the current message", "statement": "Dispatching a message tells the event loop to stop exactly if the handler called stop_self during it (or the message is a shutdown notice); no other actor is affected and the queues are untouched.", "quantifier": "all handlers and messages", "why_tests_cant": "handlers are arbitrary code", "anchors": [{"file": "xtra/src/context.rs", "symbols": ["Context::stop_self"]}, {"file": "xtra/src/envelope.rs", "symbols": ["ReturningEnvelope::handle", "BroadcastEnvelopeConcrete::handle", "Shutdown::handle"]}, {"file": "xtra/src/dispatch_future.rs", "symbols": ["DispatchFuture"]}]}
{"id": "C18", "title": "Replies are routed to the right sender", "statement": "A send future (or detached Receiver) that resolves to Ok(r) does so only if a handler invocation for that very message returned r; it resolves to Interrupted exactly when that message was destroyed without a completed handler; it resolves at most one way; and while a mailbox is left (never by chance) only because a received message was thrown away, or was being handed to a receive that was dropped.", "quantifier": "all interleavings of sends, handlers and drops", "why_tests_cant": "cross-talk needs specific schedules", "anchors": [{"file": "xtra/src/envelope.rs", "symbols": ["ReturningEnvelope"]}, {"file": "xtra/src/send_future.rs", "symbols": ["SendFuture::poll", "Receiver"]}]}
{"id": "C19", "title": "Priority setting", "statement": "A message has priority 0 unless set; the last value set before the first poll is the priority it is queued with, detached or not, named or erased; setting it after the first poll panics.", "quantifier": "all sequences of priority/detach calls", "why_tests_cant": "all call sequences", "anchors": [{"file": "xtra/src/send_future.rs", "symbols": ["SendFuture::priority", "SetPriority", "SendFuture::detach"]}]}
{"id": "C20", "title": "A receive completes in one poll iff there is work", "statement": "A receive future polled in a quiescent state completes in that single poll exactly if a message is queued for its mailbox, a message was handed to it, or no strong address exists. In any interleaving: it completes only if one of these holds at that very moment, and returns Pending only if at that moment none does, except that the call which has just dropped the last strong address may still be about to notify this receiver.", "quantifier": "all reachable states and all interleavings", "why_tests_cant": "documented guarantee used with now_or_never", "anchors": [{"file": "xtra/src/recv_future.rs", "symbols": ["ReceiveFuture", "Receiving::poll"]}, {"file": "xtra/src/chan/waiting_receiver.rs", "symbols": ["WaitingReceiver::poll"]}]}
{"id": "C21", "title": "No lost wake-ups", "statement": "If the latest poll of a parked send, receive, reply or join future returned Pending with some waker, then when that future becomes able to complete, that waker is woken.", "quantifier": "all interleavings", "why_tests_cant": "lost wakeups are schedule dependent", "anchors": [{"file": "xtra/src/chan/waiting_sender.rs", "symbols": ["Handle::take_message", "Handle::drop", "WaitingSender::poll"]}, {"file": "xtra/src/chan/waiting_receiver.rs", "symbols": ["Handle"]}, {"file": "xtra/src/chan.rs", "symbols": ["Chan::disconnect_listener"]}]}
{"id": "C22", "title": "Idle receivers are served first come first served", "statement": "A new message is handed to the receiver that has been waiting longest among those not cancelled; cancelled ones are skipped without losing the message; and no message is queued while an idle receiver waits.", "quantifier": "all sets of waiting/cancelled receivers", "why_tests_cant": "any number of waiting receivers", "anchors": [{"file": "xtra/src/chan.rs", "symbols": ["Inner::try_fulfill_receiver"]}, {"file": "xtra/src/chan/waiting_receiver.rs", "symbols": ["Handle::notify_new_message"]}]}
{"id": "C23", "title": "join resolves on disconnection", "statement": "The future from Address::join created on a connected address does not resolve while a mailbox exists and resolves after the last mailbox is gone (in every interleaving of its creation with the last drop); created on a disconnected one it is immediately ready, and even if the call sees out-of-date counters, the handle it gives out is notified by the drop of the last mailbox.", "quantifier": "all interleavings of registration and final drop", "why_tests_cant": "lost notification race", "anchors": [{"file": "xtra/src/chan.rs", "symbols": ["Chan::disconnect_listener", "Chan::shutdown_waiting_senders"]}, {"file": "xtra/src/address.rs", "symbols": ["Address::join", "ActorJoinHandle"]}]}
{"id": "C24", "title": "scoped tasks end with the actor", "statement": "A future from xtra::scoped yields Some(v) only if the inner future completed with v in a poll before disconnection was observed, yields None when disconnected, and never polls the inner future once disconnection is observed.", "quantifier": "all poll sequences and inner futures", "why_tests_cant": "arbitrary inner futures", "anchors": [{"file": "xtra/src/scoped_task.rs", "symbols": ["scoped", "ScopedTask::poll"]}]}
{"id": "C25", "title": "Actor lifecycle", "statement": "xtra::run calls started exactly once before any message; if it errs, returns that value with no message handled and stopped never called; otherwise messages are handled one at a time in the order received until the first stop signal, after which none is handled and stopped is called exactly once and its value returned.", "quantifier": "all actors, all message streams of any length", "why_tests_cant": "arbitrary handlers and streams", "anchors": [{"file": "xtra/src/lib.rs", "symbols": ["run", "yield_once"]}]}
{"id": "C26", "title": "select and join", "statement": "xtra::select returns Left(v) only if the future completed with v and Right only if a handled message stopped the actor first, handling messages in order and none after the stop; xtra::join always returns the future's value. A stop signalled to the actor while inside select or join leads to the actor stopping.", "quantifier": "all interleavings of future completion and message arrival, all handlers", "why_tests_cant": "arbitrary arrival orders", "anchors": [{"file": "xtra/src/lib.rs", "symbols": ["select", "join"]}]}
{"id": "C27", "title": "Address equality, hash and order", "statement": "== on addresses is an equivalence identifying exactly same channel and same strength; equal addresses hash equally; the total order agrees with partial order and equality (same channel: strong greater than weak).", "quantifier": "all addresses of all reference-count types", "why_tests_cant": "laws over all pairs/triples", "anchors": [{"file": "xtra/src/address.rs", "symbols": ["PartialEq", "PartialOrd", "Ord", "Hash"]}, {"file": "xtra/src/message_channel.rs", "symbols": ["PartialEq", "Hash"]}]}
{"id": "C28", "title": "len counts the queued messages", "statement": "Address::len equals the number of queued unicast messages plus the length of the longest live broadcast mailbox.", "quantifier": "all histories", "why_tests_cant": "stale counters after mailbox drops", "anchors": [{"file": "xtra/src/chan.rs", "symbols": ["Chan::len", "Inner::send_broadcast", "Inner::pop_broadcast"]}, {"file": "xtra/src/address.rs", "symbols": ["Address::len", "Address::is_empty"]}]}
{"id": "C29", "title": "A parked unicast send makes progress if actors keep receiving", "statement": "If a send is parked on a bounded mailbox and an actor keeps receiving, the message is eventually handed out, for every capacity.", "quantifier": "all capacities including 0, all queue contents", "why_tests_cant": "unbounded runs", "anchors": [{"file": "xtra/src/chan.rs", "symbols": ["Inner::pop_unicast", "Chan::try_recv"]}, {"file": "xtra/src/mailbox.rs", "symbols": ["Mailbox::bounded"]}]}
{"id": "C30", "title": "A parked broadcast makes progress when live mailboxes have space", "statement": "If every live mailbox has fewer broadcasts than the capacity, a broadcast is accepted without waiting.", "quantifier": "all histories including dropped mailboxes", "why_tests_cant": "needs histories with drops", "anchors": [{"file": "xtra/src/chan.rs", "symbols": ["Inner::broadcast_tail", "Inner::longest_broadcast_queue", "Inner::is_broadcast_full"]}]}
{"id": "C31", "title": "No internal panic", "statement": "The unwrap/expect/unreachable calls inside the channel, the envelope and the receive future are never reached in any execution.", "quantifier": "all interleavings", "why_tests_cant": "panic paths need exact states", "anchors": [{"file": "xtra/src/chan.rs", "symbols": ["Chan::try_recv"]}, {"file": "xtra/src/recv_future.rs", "symbols": ["Waiting::drop", "Waiting::poll"]}, {"file": "xtra/src/chan.rs", "symbols": ["Chan::try_send_to_all (Arc::get_mut)"]}, {"file": "xtra/src/envelope.rs", "symbols": ["start_span"]}]}
{"id": "C32", "title": "A sink preserves order", "statement": "Messages fed into one into_sink sink are handled in feed order with at most one in flight, each completed before the next is sent.", "quantifier": "all item sequences and delays", "why_tests_cant": "arbitrary lengths", "anchors": [{"file": "xtra/src/address.rs", "symbols": ["Address::into_sink"]}, {"file": "xtra/src/message_channel.rs", "symbols": ["MessageChannel::into_sink"]}]}
{"id": "C33", "title": "Dropping the last mailbox never deadlocks", "statement": "Dropping the last mailbox completes whatever the queued messages contain, including strong addresses of the same actor.", "quantifier": "all queued messages and their contents", "why_tests_cant": "needs messages owning addresses", "anchors": [{"file": "xtra/src/chan.rs", "symbols": ["Chan::shutdown_waiting_senders", "Chan::on_sender_dropped", "Chan::shutdown_waiting_receivers"]}]}
{"id": "C34", "title": "Bounded priority inversion", "statement": "At most one lower priority message is handled before piled-up higher priority messages: a receive future can yield a message of lower priority than a queued one only if it was handed that message (or notified) while idle; the next receive of that actor takes a maximal one.", "quantifier": "all histories", "why_tests_cant": "documented latency trade-off over all schedules", "anchors": [{"file": "xtra/src/chan.rs", "symbols": ["module docs"]}, {"file": "xtra/src/chan/waiting_receiver.rs", "symbols": ["WaitingReceiver::poll"]}]}
{"id": "C35", "title": "Conversions keep identity and strength", "statement": "clone/as_either/downgrade/upgrade/MessageChannel conversions refer to the same channel; clone and as_either keep strength, downgrade gives weak, upgrade gives strong; MessageChannel::send queues the same way as Address::send.", "quantifier": "all conversion chains", "why_tests_cant": "arbitrary chains", "anchors": [{"file": "xtra/src/chan/ptr.rs", "symbols": ["Ptr::to_tx_either", "Ptr::to_tx_weak", "Ptr::clone"]}, {"file": "xtra/src/message_channel.rs", "symbols": ["MessageChannel"]}]}
{"id": "C36", "title": "Cloned mailboxes share unicast but not broadcast", "statement": "Messages sent with send are taken by any one of the mailboxes on the address; a broadcast taken by one mailbox remains in all others.", "quantifier": "all histories with clones", "why_tests_cant": "many mailboxes", "anchors": [{"file": "xtra/src/mailbox.rs", "symbols": ["Mailbox::clone"]}, {"file": "xtra/src/chan.rs", "symbols": ["Inner::pop_broadcast"]}]}
{"id": "C37", "title": "Cancelled sends", "statement": "Dropping a send future that is unpolled or parked retracts the message: it is never handled; dropping it after admission does not retract it.", "quantifier": "all cancellation points", "why_tests_cant": "any interleaving of admission and drop", "anchors": [{"file": "xtra/src/chan/waiting_sender.rs", "symbols": ["Handle::is_active", "Handle::take_message"]}, {"file": "xtra/src/send_future.rs", "symbols": ["Sending"]}]}
{"id": "C38", "title": "Interrupted dispatch", "statement": "Dropping a dispatch future before completion resolves that message's reply to Interrupted, never re-delivers the message and leaves other messages untouched.", "quantifier": "all cancellation points of handlers", "why_tests_cant": "any point", "anchors": [{"file": "xtra/src/dispatch_future.rs", "symbols": ["DispatchFuture"]}, {"file": "xtra/src/envelope.rs", "symbols": ["ReturningEnvelope::handle"]}]}
{"id": "C39", "title": "The queue is a correct priority queue", "statement": "For any sequence of pushes and pops, the queue returns each pushed element at most once, always one of maximal priority among those present, and peek agrees with pop.", "quantifier": "all push/pop sequences of any length", "why_tests_cant": "any size", "anchors": [{"file": "xtra/src/chan.rs", "symbols": ["unicast_queue: BinaryHeap<ByPriority<..>>"]}, {"file": "xtra/src/chan/priority.rs", "symbols": ["ByPriority"]}]}
{"id": "C40", "title": "derive(Actor) bounds", "statement": "The generated impl carries every existing where predicate plus a Send + 'static predicate for every type parameter and none for lifetimes or consts.", "quantifier": "all generics lists", "why_tests_cant": "arbitrary generics", "anchors": [{"file": "macros/src/lib.rs", "symbols": ["actor_derive", "send_and_static_bounds"]}]}
{"id": "C41", "title": "Dropping mailboxes never deadlocks across channels", "statement": "When several threads use and drop addresses, mailboxes and send futures of several actors whose waiting messages own references to each other's actors, all of them eventually finish: no cycle of channel locks arises.", "quantifier": "any number of channels and threads, any contents of the waiting messages, all schedules", "why_tests_cant": "a lock-order cycle shows only under particular contents and schedules", "anchors": [{"file": "xtra/src/chan.rs", "symbols": ["Chan::shutdown_waiting_senders", "Chan::shutdown_waiting_receivers", "Chan::on_sender_dropped", "Chan::on_receiver_dropped", "Inner::longest_broadcast_queue", "Inner::send_broadcast", "Inner::try_take_waiting_unicast_message"]}, {"file": "xtra/src/mailbox.rs", "symbols": ["Mailbox (field order)"]}]}
{"id": "C42", "title": "Every API call returns", "statement": "Every call of the API - send, broadcast, poll of a send or receive future, clone, drop of any object, stop_all, is_connected, len - finishes: it takes a bounded number of its own steps, however other threads are scheduled, beyond a fixed constant only one extra step per receive that was made to wait and three per broadcast accepted meanwhile; left alone it finishes; and it can always be finished, no thread ever needs another one's help to return.", "quantifier": "all calls, all reachable states, all interleavings with other calls", "why_tests_cant": "a livelock or an endless retry loop shows only under an adversarial schedule", "anchors": [{"file": "xtra/src/recv_future.rs", "symbols": ["ReceiveFuture::poll"]}, {"file": "xtra/src/send_future.rs", "symbols": ["Sending::poll"]}, {"file": "xtra/src/chan.rs", "symbols": ["Chan::shutdown_waiting_receivers", "Chan::on_sender_dropped"]}]}
{"id": "C43", "title": "The channel forgets futures and mailboxes that are gone", "statement": "The bookkeeping a channel keeps (handles of waiting receives, handles of waiting sends, pointers to mailboxes) is for futures and mailboxes that still exist: giving up a receive or a send, or dropping a mailbox, does not leave an entry behind for ever.", "quantifier": "all histories, any number of cancelled futures and dropped mailboxes", "why_tests_cant": "unbounded growth only shows over unbounded histories", "anchors": [{"file": "xtra/src/chan.rs", "symbols": ["Inner::waiting_receivers_handles", "Inner::waiting_send_to_one", "Inner::broadcast_queues", "Inner::send_broadcast", "Inner::try_fulfill_receiver", "Inner::try_take_waiting_unicast_message"]}, {"file": "xtra/src/recv_future.rs", "symbols": ["impl Drop for Waiting"]}]}
{"id": "C44", "title": "Shutdown, upgrade and join are right under weak memory", "statement": "The races between dropping the last address and a receive that is about to wait, between dropping the last address and upgrading a weak one, and between dropping the last mailbox and starting to join are decided consistently even if the loads of the two reference counters return stale values: no receive is left waiting after the last address is gone and no join after the last mailbox is gone; an upgrade that succeeded keeps the channel open, and a refused upgrade, a shutdown notice or a finished join is never premature and never revoked.", "quantifier": "all executions of any number of threads that clone, drop, upgrade, receive and join, under a memory model in which a load may return any value not older than what the thread has been synchronised with", "why_tests_cant": "the bad interleavings need weak memory effects that strongly ordered test machines never show", "anchors": [{"file": "xtra/src/chan.rs", "symbols": ["Chan::on_sender_dropped", "Chan::on_receiver_dropped", "Chan::try_recv", "Chan::shutdown_waiting_receivers", "Chan::shutdown_waiting_senders", "Chan::is_connected", "Chan::disconnect_listener"]}, {"file": "xtra/src/chan/ptr.rs", "symbols": ["TxStrong::try_new", "impl Drop for Ptr"]}]}
{"id": "C45", "title": "Instrumentation is transparent and never panics", "statement": "Asking a dispatch future for its span, at any time and any number of times, changes neither what its polls return nor how the handler runs; the answer is always the same span, which is current while the handler runs and is a child of the message's request span. The request span of a message is started exactly once, before it is shared, for every message that a mailbox receives (shutdown notices excepted), so the internal assertions about it never fail.", "quantifier": "all handlers, all sequences of span() and poll() with any subscriber settings; all schedules of the channel", "why_tests_cant": "span() can be interleaved with polls in unboundedly many ways, and the assertions concern all schedules", "anchors": [{"file": "xtra/src/dispatch_future.rs", "symbols": ["DispatchFuture::span", "DispatchFuture::running", "impl Future for DispatchFuture"]}, {"file": "xtra/src/envelope.rs", "symbols": ["MessageEnvelope::start_span", "BroadcastEnvelope::start_span", "ReturningEnvelope::handle"]}, {"file": "xtra/src/instrumentation/tracing.rs", "symbols": ["Instrumentation::started", "Instrumentation::apply"]}, {"file": "xtra/src/chan.rs", "symbols": ["Chan::try_send_to_one", "Chan::try_send_to_all"]}]}
{"id": "C46", "title": "No starvation", "statement": "A message in the mailbox is not passed over for ever: if the actor keeps receiving, the message is handed out after a number of receives that is fixed when it is queued, as long as nothing of higher priority arrives, whatever else of the same or a lower priority keeps arriving.", "quantifier": "all reachable states, all capacities, all executions in which an actor receives and handles messages while others send and broadcast, of any length", "why_tests_cant": "a starvation is an infinite execution: every finite test run is consistent with the message being handed out later", "anchors": [{"file": "xtra/src/chan.rs", "symbols": ["Inner::pop_unicast", "Chan::try_send_to_one", "find_remove_highest_priority", "Chan::try_recv"]}, {"file": "xtra/src/chan/priority.rs", "symbols": ["impl Ord for ByPriority"]}]}
{"id": "C47", "title": "Every message ends exactly once and nothing outlives the channel", "statement": "At any time each message has been handled or destroyed at most once, and a message that has ended is nowhere in the channel any more. When the last owner of the channel (addresses, unpolled sends, mailboxes, receives, messages being handled) is gone, every unicast message ever made has been handled or destroyed exactly once, every broadcast that was not accepted has been destroyed exactly once, no copy of a broadcast is left, and every send future, reply receiver and join handle that is still around has been woken with the waker of its latest poll and resolves when polled.", "quantifier": "all reachable states of all interleavings (at most one end); all reachable states without owner and all remaining futures (the rest)", "why_tests_cant": "a leak or a double drop shows only in particular interleavings of cancellation, shutdown and sending, and the absence of both must hold for all of them", "anchors": [{"file": "xtra/src/chan.rs", "symbols": ["Chan", "Inner", "Chan::shutdown_waiting_senders"]}, {"file": "xtra/src/chan/waiting_sender.rs", "symbols": ["impl Drop for Handle", "WaitingSender::poll"]}, {"file": "xtra/src/envelope.rs", "symbols": ["ReturningEnvelope", "Shutdown"]}, {"file": "xtra/src/send_future.rs", "symbols": ["SendFuture", "Receiver"]}]}
{"id": "C48", "title": "Running actors serve every request", "statement": "With any number of tasks executing xtra::run on clones of a mailbox, whose handlers may call select, join and yield_once to any depth, and anything else going on on the channel: every message a task receives is dispatched to its actor, one at a time, and no two tasks share one; run returns only because started failed or because the last dispatch evaluated to Break, and has then dispatched everything it received and left neither its mailbox nor a receive behind; select returns only because its last dispatch evaluated to Break, or because its future completed, after dispatching the message its receive held, if any; a task never gets stuck. If messages are received by such tasks only, none of them was dropped and no select gave up its receive when its future completed, no request fails as long as a mailbox is left, and when everything has come to rest with an actor still waiting, every request that was sent (and not cancelled by its owner) has been handled, its value sent to the requester (unless its handler itself waits for a further message in yield_once), and no broadcast is left in a waiting actor's mailbox.", "quantifier": "all executions of any number of tasks, concurrent senders, handlers and drops, of any length; all capacities (for requests at rest: other than 0)", "why_tests_cant": "a request that falls between two actors needs a particular interleaving of send, wake-up, stop and handler completion", "anchors": [{"file": "xtra/src/lib.rs", "symbols": ["run", "yield_once", "select", "join"]}, {"file": "xtra/src/mailbox.rs", "symbols": ["Mailbox::next"]}, {"file": "xtra/src/dispatch_future.rs", "symbols": ["DispatchFuture"]}, {"file": "xtra/src/chan.rs", "symbols": ["Chan::try_send_to_one", "Chan::try_recv"]}]}
{"id": "C49", "title": "Dropping a running actor affects only the request it was handling", "statement": "The future of xtra::run can be dropped wherever it can be suspended. Then the request whose handler was running is answered with Interrupted, the task leaves neither its mailbox nor a receive behind, and the other tasks' mailboxes, receives and handlers are untouched. If messages are received by such tasks only, an Interrupted reply while a mailbox is left always is that of a request whose own task was dropped while handling it, or that was being handed to the receive of a task at the moment it was dropped, or to that of a select at the moment it returned (C03); and when everything has come to rest with an actor still waiting, every other request that was sent has been handled.", "quantifier": "all executions of any number of tasks, dropped at any suspension point, with concurrent senders, handlers and drops, of any length", "why_tests_cant": "cancellation can hit any await point under any interleaving", "anchors": [{"file": "xtra/src/lib.rs", "symbols": ["run"]}, {"file": "xtra/src/recv_future.rs", "symbols": ["ReceiveFuture", "impl Drop for Waiting"]}, {"file": "xtra/src/dispatch_future.rs", "symbols": ["DispatchFuture"]}, {"file": "xtra/src/envelope.rs", "symbols": ["ReturningEnvelope"]}]}
{"id": "C50", "title": "A pool of actors comes to rest, having served everything", "statement": "With any number of tasks executing xtra::run on clones of a mailbox whose handlers return (calls of select and join included, whose futures may complete at any time, and calls of yield_once, which return after one message), and an executor that polls a task only after its waker was called: there is no livelock and no deadlock. As long as user code makes no new API call, only finitely many steps can happen, whatever the scheduler does; until everything is at rest (no API call in progress, every task has returned or sleeps, or awaits a yield_once of its own that sleeps) some step can happen; and rest is final. So any infinite execution contains infinitely many API calls of user code. If messages are received by the tasks only, none of them was dropped and no message was lost in the race of C03 with a returning select, then, however the scheduler proceeds, rest finds every request that was sent (and not cancelled by its owner) handled and its value sent (unless its handler itself waits in yield_once), no send and no request failed and no broadcast left, provided one of the tasks still runs.", "quantifier": "all reachable configurations of any number of tasks, concurrent senders, handlers and drops, and all schedules from there (infinite ones included)", "why_tests_cant": "termination under every schedule; a lost wake-up or two tasks waking each other forever shows only under a particular interleaving", "anchors": [{"file": "xtra/src/lib.rs", "symbols": ["run"]}, {"file": "xtra/src/recv_future.rs", "symbols": ["ReceiveFuture", "Waiting"]}, {"file": "xtra/src/chan/waiting_receiver.rs", "symbols": ["WaitingReceiver", "Handle"]}, {"file": "xtra/src/chan.rs", "symbols": ["Chan::try_send_to_one", "Chan::try_recv", "Chan::shutdown_waiting_receivers"]}]}
{"id": "C51", "title": "With a running actor every awaited request is answered", "statement": "Tasks execute xtra::run on clones of a mailbox, their handlers return, and any number of clients await send futures or the Receivers of detached ones (they poll, and poll again when woken). There is no livelock and no deadlock among clients, actors and channel: without new API calls only finitely many steps can happen, and until everything is at rest some step can. If messages are received by the tasks only, none of them was dropped and the capacity is not 0, then every awaited request (not lost in the race of C03 with a returning select) has resolved by then, to Ok(v) with v the value that a completed handler invocation of this very message returned, provided an actor of the pool is still running and the handler of the request does not itself wait for a further message in yield_once; and every awaited broadcast has resolved to (), provided every mailbox ever created on the address is run by an actor still running.", "quantifier": "all reachable configurations of any number of tasks and clients, any set of awaited futures, and all schedules from there (infinite ones included)", "why_tests_cant": "that no request hangs has to hold under every schedule; a hang shows only under a particular interleaving of clients, actors and wake-ups", "anchors": [{"file": "xtra/src/send_future.rs", "symbols": ["SendFuture", "Receiver"]}, {"file": "xtra/src/lib.rs", "symbols": ["run"]}, {"file": "xtra/src/chan.rs", "symbols": ["Chan::try_send_to_one", "Chan::try_send_to_all", "Chan::try_recv"]}, {"file": "xtra/src/chan/waiting_sender.rs", "symbols": ["WaitingSender"]}, {"file": "xtra/src/recv_future.rs", "symbols": ["ReceiveFuture"]}]}
{"id": "C52", "title": "Nobody hangs: awaited sends and requests resolve while actors run and after they are gone", "statement": "Consider tasks executing xtra::run, clients awaiting send futures or Receivers, and anything else going on on the channel; tasks may be dropped at any point. Once nothing more can happen without a new API call: if no mailbox reference is left, every awaited future of a request or broadcast has resolved, except that of a send which entered the channel after the last mailbox was gone, having found it connected before (finding 4); if messages are received by the tasks only, the capacity is not 0 and an actor is still running, every awaited request whose handler does not itself wait in yield_once has resolved, whatever other tasks were dropped. And that point is reached after finitely many steps.", "quantifier": "all reachable configurations of any number of tasks and clients, all capacities, any set of awaited futures, tasks dropped at any suspension point, and all schedules from there", "why_tests_cant": "absence of hangs quantifies over all interleavings of shutdown with sends, receives and cancellations", "anchors": [{"file": "xtra/src/chan.rs", "symbols": ["Chan::try_send_to_one", "Chan::shutdown_waiting_senders", "Chan::on_receiver_dropped"]}, {"file": "xtra/src/chan/ptr.rs", "symbols": ["RxStrong", "Ptr"]}, {"file": "xtra/src/send_future.rs", "symbols": ["SendFuture", "Receiver"]}, {"file": "xtra/src/lib.rs", "symbols": ["run"]}]}
{"id": "C53", "title": "Wakers and message destructors may use the library", "statement": "User code that the library runs on behalf of a call - the wakers of waiting tasks, the destructors of messages - may itself use the library: call methods of addresses and mailboxes, destroy addresses, mailboxes, futures and whole tasks. No call ever blocks forever because of that. In particular, when messages own no references to actors and wakers only schedule their tasks, every call of every thread returns.", "quantifier": "any number of channels and threads, any contents of the messages, any waker code, all schedules", "why_tests_cant": "which user code runs inside which critical section depends on contents, on races between upgrades and drops and on the executor", "anchors": [{"file": "xtra/src/chan.rs", "symbols": ["Inner::longest_broadcast_queue", "Inner::send_broadcast", "Inner::try_fulfill_receiver", "Inner::try_take_waiting_unicast_message", "Chan::shutdown_waiting_senders"]}, {"file": "xtra/src/chan/waiting_sender.rs", "symbols": ["Handle::take_message", "Handle::priority", "Handle"]}, {"file": "xtra/src/chan/waiting_receiver.rs", "symbols": ["Handle"]}]}
{"id": "C54", "title": "Networks of actors that await each other acyclically neither deadlock nor livelock", "statement": "Consider any number of actors, each with its own channel, whose started, handle and stopped functions send messages to other actors and await the answers (directly or through select or join), await the acceptance of detached sends, or await broadcasts, any finite number of times per function and several at once (calls of yield_once by this user code are not covered). If actors await only actors below them in some ranking, no actor has capacity 0, messages are received by the actors only, and at the end every actor is still running or gone with all its mailboxes, then from every state the network can get into all schedules without new outside calls are finite; as long as some function is still running or something awaited is not resolved, some step is possible; so every maximal schedule ends with everything awaited resolved and all user code returned. Without the ranking this is false: two actors that ask each other hang.", "quantifier": "any number of actors and channels, any capacities except 0, any awaiting behaviour within the ranking, all reachable network states and all schedules from there", "why_tests_cant": "absence of deadlock across actors quantifies over all interleavings of all channels and all user behaviours", "anchors": [{"file": "xtra/src/lib.rs", "symbols": ["run", "Actor", "Handler"]}, {"file": "xtra/src/send_future.rs", "symbols": ["SendFuture", "Receiver"]}, {"file": "xtra/src/chan.rs", "symbols": ["Chan::try_send_to_one", "Chan::try_send_to_all", "Chan::next_broadcast_message"]}, {"file": "xtra/src/dispatch_future.rs", "symbols": ["DispatchFuture"]}]}
{"id": "C55", "title": "Actors that join on each other do not deadlock", "statement": "In the networks of C54 let actors await the answers of actors of the same rank too, including each other's and their own, provided they do so in a future given to xtra::join or xtra::select on their own mailbox. As long as none of these calls was cut short by a request to stop the actor, no capacity is 0, messages are received by the actors only and every actor is still running or gone with all its mailboxes, there is no deadlock: until every function has returned and everything awaited has resolved, some step is possible; and when none is, every awaited request has resolved, to the value its handler returned, or to Interrupted because a task handling it was dropped or it was lost in the race of C03. If an actor is stopped during such a call this is false: the actors deadlock.", "quantifier": "any number of actors and channels, any capacities except 0, any awaiting behaviour within the ranking, any nesting of select and join, all reachable network states and all schedules from there", "why_tests_cant": "absence of deadlock among actors that serve each other while waiting quantifies over all interleavings, all nestings and all user behaviours", "anchors": [{"file": "xtra/src/lib.rs", "symbols": ["run", "select", "join"]}, {"file": "xtra/src/send_future.rs", "symbols": ["SendFuture", "Receiver"]}, {"file": "xtra/src/recv_future.rs", "symbols": ["ReceiveFuture"]}, {"file": "xtra/src/chan.rs", "symbols": ["Chan::try_send_to_one", "Chan::try_recv"]}]}
{"id": "C56", "title": "Graceful shutdown: dropping the last address loses nothing that was sent before", "statement": "A request or broadcast that was already sent (queued, or its send still waiting for room) while some strong address existed is not overtaken by the shutdown that follows when the addresses are dropped. No receive of any mailbox, made before or after, ever yields the shutdown notice before the request has been received (or the owner of the waiting send dropped it); and none of a mailbox yields it before the broadcasts in that mailbox have been received. Hence, when messages are received by actors only, no task was dropped and no select cut short, and everything has come to rest: if some actor was told, or still sleeps, every such request has been handled, or given up by its owner (or its handler waits for a further message in yield_once), and whoever awaited it has got the value its handler returned; every such broadcast has been handled by the actor of its mailbox, if that one was told or still sleeps; and if no strong address is left, every run, select and yield_once has returned.", "quantifier": "all reachable states of a channel of any capacity (for waiting sends: except 0), all continuations and interleavings, any number of actors and of nested select/join/yield_once, any number of messages", "why_tests_cant": "the notice, the waiting sends and the queues are handled by different critical sections of different threads; absence of a schedule in which the notice overtakes a message quantifies over all of them", "anchors": [{"file": "xtra/src/chan.rs", "symbols": ["Chan::try_recv", "Chan::on_sender_dropped", "Chan::shutdown_all_receivers"]}, {"file": "xtra/src/chan/ptr.rs", "symbols": ["TxStrong"]}, {"file": "xtra/src/lib.rs", "symbols": ["run", "select"]}, {"file": "xtra/src/recv_future.rs", "symbols": ["ReceiveFuture"]}]}
{"id": "C57", "title": "stop_all stops every running actor after the message in hand", "statement": "Once Context::stop_all has put its notice into the mailboxes, then, whatever happens afterwards, every actor that was running or starting at that moment stops: when everything has come to rest, its run has returned, provided no task was dropped and user code of that actor did not let xtra::select, join or yield_once receive the notice (then the statement is false: run goes on). An actor whose user code does not call select, join or yield_once dispatches, after the notice has reached its mailbox, at most one more message: the one it is handling, or that had already been handed to the receive it was waiting on; an actor that is between two messages or still in started dispatches none. All queued messages are passed over.", "quantifier": "all reachable configurations of any number of actors and messages on a channel of any capacity, every moment at which stop_all takes effect, all continuations and interleavings, of any length", "why_tests_cant": "a bound on what is handled after the notice must hold for every interleaving of senders, receivers and the notice, and for arbitrarily many queued messages", "anchors": [{"file": "xtra/src/context.rs", "symbols": ["Context::stop_all"]}, {"file": "xtra/src/chan.rs", "symbols": ["Chan::shutdown_all_receivers", "Chan::try_recv"]}, {"file": "xtra/src/lib.rs", "symbols": ["run", "select", "join"]}, {"file": "xtra/src/envelope.rs", "symbols": ["Shutdown"]}]}
{"id": "C58", "title": "Custom event loops made of yield_once serve and stop like run", "statement": "User code may own a mailbox and, instead of run, call yield_once (or next and dispatch_to) on it again and again, concurrently with anything else on the channel. Every call of yield_once that returned has received exactly one message and dispatched it in full, and returned what that dispatch evaluated to, Break if it was a shutdown notice; a call that has not returned or was dropped has completed no dispatch. Whatever is received from the loop's mailbox is received by exactly one of these calls (or calls made by a handler they run), which dispatches it in full unless it is dropped. As long as the loop keeps calling yield_once: once nothing more can happen and the loop waits in yield_once, every awaited request of the channel has been answered with the value its handler returned, if messages are received by tasks only, none was dropped, the capacity is not 0, the message was not lost in the race of C03 and its handler does not itself wait in yield_once. And when stop_all has put its notice into the loop's mailbox then, when everything has come to rest, the loop has given up its mailbox or a call of yield_once (or select) has received the notice; a yield_once that received it has returned Break.", "quantifier": "all executions of any number of custom event loops, running actors, senders, nested handlers and drops, of any length", "why_tests_cant": "the guarantee covers every interleaving of the loop's calls with senders and other receivers, and any number of calls", "anchors": [{"file": "xtra/src/lib.rs", "symbols": ["yield_once"]}, {"file": "xtra/src/mailbox.rs", "symbols": ["Mailbox::next"]}, {"file": "xtra/src/envelope.rs", "symbols": ["Shutdown"]}, {"file": "xtra/examples/custom_event_loop.rs", "symbols": ["main"]}]}
{"id": "C59", "title": "A message destructor that panics while the last mailbox is dropped does not bring the other parties down", "statement": "Suppose the destructor of a queued message, or of the message of a send or broadcast waiting for room, panics when the last mailbox is dropped. Then all queued messages are dropped all the same and whoever awaits their answers is told; join handles resolve; nothing is received any more; a send future polled for the first time afterwards resolves to Disconnected; is_connected answers false (unless it was called before); dropping addresses, futures and messages never panics. Only len/capacity/is_empty panic, and sends and stop_all that had found the channel connected just before. Every send that was waiting for room is woken and resolves to Disconnected. (The last sentence is false of the code when the message was a queued one: such sends hang as long as an address exists.)", "quantifier": "all executions, of any length and interleaving, of a channel of any capacity in which a message destructor panics in the last mailbox's drop, and all their continuations", "why_tests_cant": "it quantifies over what every operation does with the poisoned lock at every point of every interleaving; the existing tests contain no panicking destructor", "anchors": [{"file": "xtra/src/chan.rs", "symbols": ["Chan::shutdown_waiting_senders", "Chan::shutdown_waiting_receivers", "Chan::requeue_message", "Chan::len", "Chan::capacity", "Chan::try_send_to_one", "Chan::try_send_to_all", "Chan::try_recv"]}, {"file": "xtra/src/chan/waiting_sender.rs", "symbols": ["Handle"]}, {"file": "xtra/src/address.rs", "symbols": ["Address::len", "Address::capacity", "Address::is_empty"]}]}
{"id": "C60", "title": "Told to stop, the actors are gone and everybody who waits for them gets away", "statement": "Let messages be received by actors (tasks executing run) only. After Context::stop_all has put its notice into the mailboxes - if no task is dropped, no select, join or yield_once called by user code receives the notice, and no mailbox is kept beside those of the actors running or starting at that moment - or after the last strong address is gone - if no mailbox is kept beside those of actors -: whatever happens meanwhile, when everything has come to rest, every task has returned; no mailbox, receive future, message or dispatch is left; every ActorJoinHandle has been notified (and its task woken) and resolves when polled; and every awaited send, broadcast or reply has resolved, except sends that entered the channel after the last mailbox was gone.", "quantifier": "all reachable configurations of any number of actors, clients and messages on a channel of any capacity, any moment at which stop_all takes effect or the last address is dropped, all continuations and interleavings, of any length", "why_tests_cant": "that nobody is left hanging must hold for every interleaving of the notice, the receives, the drops, the joins and the sends", "anchors": [{"file": "xtra/src/context.rs", "symbols": ["Context::stop_all"]}, {"file": "xtra/src/lib.rs", "symbols": ["run"]}, {"file": "xtra/src/chan.rs", "symbols": ["Chan::shutdown_all_receivers", "Chan::shutdown_waiting_senders", "Chan::disconnect_listener"]}, {"file": "xtra/src/address.rs", "symbols": ["Address::join", "ActorJoinHandle"]}]}
{"id": "C61", "title": "Futures under an arbitrary caller: sent once, received once, no panic before they have resolved", "statement": "However a future of the library is polled: (1) no poll of a send, detached send, broadcast or receive future panics unless an earlier poll returned Ready, and no poll of a dispatch future panics unless the handler does or an earlier poll returned Ready or panicked; (2) a ReceiveFuture reports is_terminated exactly when one of its polls has returned Ready, and a poll after that panics and receives nothing; (3) the message of a send future is offered to the channel exactly once, by the first poll, even if the future is polled after completion or detached between two polls; (4) a detached send future hands out its Receiver at most once; (5) the handler of a message is invoked at most once and its future is never polled again after it has finished or panicked, whether started by poll or by span; (6) an ActorJoinHandle may be polled forever and stays resolved; (7) what a future resolves to, and in which poll, is exactly what the channel, the reply slot and the handler answered: Err(Disconnected) when the message is refused or the wait for room ends without room, Ok for a broadcast or a live Receiver for a detached send when it is accepted, the handler's value or Err(Interrupted) when the reply slot has it, the first message handed to a receive, the flow the handler finished with.", "quantifier": "all sequences of polls (and of detach and span between them), of any length, and all answers the channel, the reply slot and the handler may give during each poll", "why_tests_cant": "a test polls each future in a few ways; the claim is about every sequence of polls and answers, including those after completion", "anchors": [{"file": "xtra/src/send_future.rs", "symbols": ["Sending::poll", "SendFuture::poll", "SendFuture::detach"]}, {"file": "xtra/src/recv_future.rs", "symbols": ["ReceiveFuture", "Receiving::poll", "is_terminated"]}, {"file": "xtra/src/dispatch_future.rs", "symbols": ["DispatchFuture::poll", "DispatchFuture::span"]}, {"file": "xtra/src/address.rs", "symbols": ["ActorJoinHandle"]}]}
{"id": "C62", "title": "Giving up on an answer is invisible to everybody else", "statement": "Dropping a detached Receiver, a send future whose message has already been taken by the channel (for instance by a timeout around an awaited send), or an ActorJoinHandle affects nobody else: every continuation possible afterwards is possible without the drop with the same history (the same messages received, handled with the same results, the same sends resolved), the same channel state and the same state of every other object; and every continuation possible without the drop that does not use the dropped object is possible after it, with the same outcome. In particular the message is handled all the same.", "quantifier": "all states, all such drops, and all schedules of any length by any number of threads after the drop", "why_tests_cant": "it compares every pair of executions with and without the drop, over all later interleavings", "anchors": [{"file": "xtra/src/send_future.rs", "symbols": ["SendFuture", "Receiver"]}, {"file": "xtra/src/envelope.rs", "symbols": ["ReturningEnvelope::handle"]}, {"file": "xtra/src/address.rs", "symbols": ["ActorJoinHandle"]}]}
{"id": "C63", "title": "Messages are neither lost nor duplicated under weak memory, and a shutdown notice means drained", "statement": "Even if sends and receives read stale values of the two reference counters: every message is at all times in exactly one place (with its send, queued, waiting for room, with a receive, refused, closed by the drop of the last mailbox, given up, or destroyed inside a dropped receive) and is yielded by at most one receive; a receive is told to shut down only after the last strong address is gone and every message sent through a strong address has left the channel (capacity other than 0); a send through a strong address is refused only when no mailbox is left, and any other only when no mailbox or no strong address is left; a send made by someone who knows that the other side is gone is refused; a receive that waits never waits next to a queued message or a send waiting for room, and is not left waiting once the last strong address is gone; when the last mailbox is gone the channel is emptied, except for sends that raced with the drop (C11) and messages put back by dropped receives; and all calls under way can always finish.", "quantifier": "all executions of any number of threads that send, receive, drop sends and receives, clone, upgrade and drop addresses and mailboxes, for every capacity, under a memory model in which a load of a counter may return any value not older than what the thread has been synchronised with", "why_tests_cant": "the reorderings do not occur on strongly ordered test machines, and the claims range over all interleavings", "anchors": [{"file": "xtra/src/chan.rs", "symbols": ["Chan::try_send_to_one", "Chan::is_connected", "Chan::try_recv", "Chan::requeue_message", "Chan::on_sender_dropped", "Chan::on_receiver_dropped", "Chan::shutdown_waiting_receivers", "Chan::shutdown_waiting_senders", "Inner::try_fulfill_receiver", "Inner::pop_unicast"]}, {"file": "xtra/src/chan/ptr.rs", "symbols": ["TxStrong::try_new"]}, {"file": "xtra/src/chan/waiting_receiver.rs", "symbols": ["WaitingReceiver::poll", "WaitingReceiver::cancel"]}, {"file": "xtra/src/send_future.rs", "symbols": ["Sending::poll"]}]}
{"id": "C64", "title": "The channel is an ideal mailbox", "statement": "To its users the channel behaves like an ideal mailbox in which every operation is one indivisible step: a message is handed to the longest waiting receiver or stored, or its sender is parked when there is no room; a receiver takes a best message among the stored ones and its broadcasts (unicast first on a tie), after which a best parked message moves up; broadcasts go to every existing mailbox and tell every waiting receiver; a receiver that gives up returns what it was given; when nobody can send any more and nothing is left, receivers are told to shut down; when the last mailbox goes everything that waits is destroyed; an answer is given once. Every execution of the library is an execution of this mailbox with the same history: the same messages made, accepted, refused, received, handled, destroyed, answered in the same order.", "quantifier": "all executions of any length: any capacity, any number of threads, handles, messages and calls, cancelled anywhere", "why_tests_cant": "it compares every interleaving of every program with some execution of an abstract machine; a test runs a few interleavings and has no witness for the machine's choices", "anchors": [{"file": "xtra/src/chan.rs", "symbols": ["Chan::*"]}, {"file": "xtra/src/chan/waiting_sender.rs", "symbols": []}, {"file": "xtra/src/chan/waiting_receiver.rs", "symbols": []}, {"file": "xtra/src/send_future.rs", "symbols": []}, {"file": "xtra/src/recv_future.rs", "symbols": []}, {"file": "xtra/src/mailbox.rs", "symbols": []}, {"file": "xtra/src/envelope.rs", "symbols": []}]}
{"id": "C65", "title": "The life of a message", "statement": "In every history every event has its causes before it and nothing that rules it out: a message is made once; its priority is set only while it is neither received nor gone; it is received at most once, only after it was made and never after it was destroyed; a mailbox receives only broadcasts that were put into it; it is handled, or thrown away by its handler's owner, only after it was received and only if it has not ended before; it is destroyed unreceived only if it was not received and has not ended; a send fails only after its message was destroyed unreceived; a request is answered with r only after the handler of that very message returned r, and is interrupted only after that message was destroyed.", "quantifier": "all histories of all executions, all events in them and all messages", "why_tests_cant": "it is a statement about the order of events in every interleaving", "anchors": [{"file": "xtra/src/chan.rs", "symbols": ["Chan::*"]}, {"file": "xtra/src/send_future.rs", "symbols": []}, {"file": "xtra/src/recv_future.rs", "symbols": []}, {"file": "xtra/src/envelope.rs", "symbols": []}, {"file": "xtra/src/dispatch_future.rs", "symbols": []}]}
{"id": "C66", "title": "What len, is_empty, capacity and Debug tell", "statement": "As documented on Address: the capacity applies to each kind of message (broadcast, priority, ordinary) separately; an ordinary message is taken only when no other is waiting; len is at most three times the capacity; is_empty answers true only if nothing is queued for any live mailbox, and then the next fresh receive yields no message; capacity answers what the mailbox was created with; the Debug output counts the strong and the mailbox references.", "quantifier": "every reachable state under every interleaving, every capacity", "why_tests_cant": "The claims are about every content of the queues and every interleaving of sends, receives, cancellations and stop_all; a test inspects a few.", "anchors": [{"file": "xtra/src/address.rs", "symbols": ["Address", "len", "is_empty", "capacity", "Debug"]}, {"file": "xtra/src/message_channel.rs", "symbols": ["len", "is_empty", "capacity", "Debug"]}, {"file": "xtra/src/chan.rs", "symbols": ["len", "capacity", "try_send_to_one", "try_recv"]}]}
{"id": "C67", "title": "Everybody agrees about disconnection", "statement": "is_connected answering false, a send or broadcast failing with Disconnected, a failed try_upgrade, a resolved join handle and a received shutdown notice are observations of the same fact, and it is final: whoever made one of them was told the truth, and every is_connected, join, send or broadcast begun afterwards, from any handle in any thread, agrees (false; a handle that is ready at once; Disconnected with the message destroyed). In the other direction, when is_connected answers true, or when a send or broadcast puts its message into the channel or parks it, there was a moment between the beginning of that call or poll and its answer at which both a mailbox and a strong reference existed, although the two counters are read one after the other and outside the lock.", "quantifier": "every reachable state, every interleaving of the observer's steps with everybody else's", "why_tests_cant": "The observations are made without a common lock; disagreement would show only when other threads drop their handles between two atomic loads or between a load and the lock.", "anchors": [{"file": "xtra/src/chan.rs", "symbols": ["is_connected", "disconnect_listener", "Chan::on_sender_dropped", "Chan::on_receiver_dropped"]}, {"file": "xtra/src/address.rs", "symbols": ["is_connected", "join", "try_upgrade"]}, {"file": "xtra/src/send_future.rs", "symbols": ["Sending::poll"]}, {"file": "xtra/src/chan/ptr.rs", "symbols": ["TxStrong::try_new"]}]}
{"id": "C68", "title": "Awaiting orders messages", "statement": "Whatever had happened when a message was made (by send or broadcast, from any handle in any thread) happened before anything that ever happens to the message. In particular a message made after the answer to a request was seen is accepted, parked, received, put back, handled, answered or destroyed only after that request was handled, whichever actors of the channel handle the two, whatever their priorities, and whether the second is a request or a broadcast. So a client that makes its requests one at a time, each after the answer to the one before, has them handled in exactly that order, however many actors share the mailbox.", "quantifier": "every history of every reachable state: any number of clients, mailboxes and threads, any interleaving, any list of requests", "why_tests_cant": "The claim is about all orders in which the two messages could overtake each other: priorities, parked sends, work stealing between mailboxes, put-backs, and threads suspended half-way; a test sees a few of them.", "anchors": [{"file": "xtra/src/send_future.rs", "symbols": ["SendFuture::poll"]}, {"file": "xtra/src/envelope.rs", "symbols": ["ReturningEnvelope::new", "ReturningEnvelope::handle"]}, {"file": "xtra/src/chan.rs", "symbols": ["try_send_to_one", "try_send_to_all", "try_recv", "requeue_message"]}]}
{"id": "C69", "title": "Broadcasts that wait for room are received before shutdown", "statement": "A broadcast that waits for room is handled by every actor whose mailbox existed when it was made: when the last strong address is gone meanwhile, an actor that goes on receiving is told to shut down only after it has received every broadcast that was waiting (capacity at least 1), exactly once each.", "quantifier": "all contents of any number of mailboxes, all sets of waiting broadcasts, all sequences of receives", "why_tests_cant": "It depends on how far the other mailboxes of the same address lag behind at the moment the last address goes, i.e. on the relative speed of the actors.", "anchors": [{"file": "xtra/src/address.rs", "symbols": ["documentation of Address", "section Broadcast"]}, {"file": "xtra/src/chan.rs", "symbols": ["try_send_to_all", "try_recv", "pop_broadcast", "try_take_waiting_broadcast_message", "on_sender_dropped"]}, {"file": "xtra/src/send_future.rs", "symbols": ["Sending::poll"]}]}
{"id": "C70", "title": "Nothing happens by itself", "statement": "The library has no activity of its own: every observable effect happens during a call that user code has made, and is an effect that call may have on the object it was made on. A future resolves, or is pending, only in a poll of it; a message counts as handled with result v only when user code completes the handler of exactly that message with v; a received message is destroyed unhandled only when user code drops it or its handler; a message is put back or lost only when a waiting receive is dropped; a message nobody has received is destroyed only when its own future is dropped, misused or fails, or when a mailbox reference is given back; broadcasts enter the mailboxes only in polls of broadcasts, in receives that make room, or in stop_all. In particular Ok(v) reaches a sender only if user code completed the handler of that very request with v.", "quantifier": "every step of every execution: all schedules of all calls in any number of threads", "why_tests_cant": "A test can only see that an effect occurs when it should; that it occurs at no other moment of any other schedule is a statement about all executions.", "anchors": [{"file": "xtra/src/chan.rs", "symbols": []}, {"file": "xtra/src/send_future.rs", "symbols": ["SendFuture::poll"]}, {"file": "xtra/src/recv_future.rs", "symbols": ["Receiving"]}, {"file": "xtra/src/envelope.rs", "symbols": ["handle"]}, {"file": "xtra/src/dispatch_future.rs", "symbols": []}]}
{"id": "C71", "title": "Wake-ups are to the point", "statement": "A task that awaits a future of this library is woken only for a reason that concerns this very future: a receive because a message was handed to it, a broadcast entered its mailbox, or the last strong address is gone; a send that waits for room because its own message was accepted, or because no mailbox is left and the message was destroyed; whoever awaits an answer because the handler of that request returned or the request was destroyed; a join handle because no mailbox is left. There is no thundering herd: one step wakes more than one task only when a broadcast enters the mailboxes or the last mailbox has gone. And a woken future gets on when it is polled, however much later and whatever else happens: a receive yields a message or the shutdown notice (or, woken for a broadcast that another receive on the same mailbox has taken meanwhile, finds none), a send resolves or goes on from waiting for room to awaiting its answer, an awaited answer is there, a join handle is ready.", "quantifier": "every step of every execution; all schedules of all calls in any number of threads between the wake-up and the next poll", "why_tests_cant": "A spurious wake-up, or one wake-up too many, changes nothing a test observes except time; and that a woken future is ready holds for all schedules between the wake-up and the poll.", "anchors": [{"file": "xtra/src/chan.rs", "symbols": ["try_send_to_one", "try_send_to_all", "send_broadcast", "try_fulfill_receiver", "try_take_waiting_unicast_message", "try_take_waiting_broadcast_message", "shutdown_waiting_receivers", "shutdown_waiting_senders", "disconnect_listener"]}, {"file": "xtra/src/chan/waiting_sender.rs", "symbols": ["take_message", "Handle::drop", "WaitingSender::poll"]}, {"file": "xtra/src/chan/waiting_receiver.rs", "symbols": ["notify_new_broadcast", "notify_channel_shutdown", "notify_new_message", "WaitingReceiver::poll"]}, {"file": "xtra/src/recv_future.rs", "symbols": ["Receiving::poll"]}, {"file": "xtra/src/send_future.rs", "symbols": ["Sending::poll", "SendFuture::poll"]}]}
{"id": "C72", "title": "Polling too often, or with whatever waker, changes nothing", "statement": "Which waker a future is polled with has no influence on anything but who is woken: two executions that differ in nothing but the wakers are both possible or both not, and have the same results, the same queues and the same history. And a future that cannot complete may be polled again at any moment, with any waker and without having been woken, as executors, select and join do: the poll returns Pending, the future keeps its place in whatever it waits for, no message moves, and every later execution that follows the poll is possible with the same effects without it, and the other way round.", "quantifier": "every future (send, broadcast, receive, awaited answer, join handle) that cannot complete, in every state of every execution with calls of other threads under way; all wakers; all later schedules of all calls in any number of threads", "why_tests_cant": "It compares all executions that follow a superfluous poll with all executions without it. A test sees one pair; a poll that re-registers (and so loses the future's place in the queue or takes the waiting handle twice) shows only in a particular later schedule.", "anchors": [{"file": "xtra/src/chan/waiting_sender.rs", "symbols": ["WaitingSender::poll"]}, {"file": "xtra/src/chan/waiting_receiver.rs", "symbols": ["WaitingReceiver::poll"]}, {"file": "xtra/src/recv_future.rs", "symbols": ["Receiving::poll", "Waiting::poll"]}, {"file": "xtra/src/send_future.rs", "symbols": ["Sending::poll", "SendFuture::poll", "Receiver::poll"]}]}
{"id": "C73", "title": "Whoever learns something through the channel also sees what led to it", "statement": "The channel synchronises memory. Whoever receives a message or broadcast sees everything its sender had seen and done when it sent it, whether the message was queued, waited for room, was handed to a waiting receive, or came back from a receive that was dropped. Whoever gets an answer sees everything the handler had done; whoever is told that a request was dropped sees what the one who dropped it had done. An actor that is told that there are no more addresses sees everything that was done before any strong address was dropped; whoever is told that an actor is gone (by a refused send, by is_connected, by join) sees everything that was done before any of its mailboxes was dropped, or any strong address. A weak address whose upgrade is refused tells nothing of the kind.", "quantifier": "every execution of every number of calls in any number of threads; every set of facts known to every caller; every event received", "why_tests_cant": "Happens-before depends on the orderings of the atomic operations on every path (mutex, counters, oneshots, spin locks, listeners). A missing fence or a Relaxed where Release is needed shows on weakly ordered hardware only, in rare schedules, and never on x86.", "anchors": [{"file": "xtra/src/chan.rs", "symbols": ["Chan::on_sender_dropped", "Chan::on_receiver_dropped", "Chan::try_send_to_one", "Chan::try_send_to_all", "Chan::try_recv", "Chan::is_connected", "Chan::disconnect_listener", "Chan::shutdown_waiting_receivers", "Chan::shutdown_waiting_senders", "Chan::requeue_message"]}, {"file": "xtra/src/chan/ptr.rs", "symbols": ["TxStrong::try_new", "Ptr::drop"]}, {"file": "xtra/src/chan/waiting_sender.rs", "symbols": ["WaitingSender::poll", "Handle::take_message"]}, {"file": "xtra/src/chan/waiting_receiver.rs", "symbols": ["WaitingReceiver::poll", "Handle::notify_new_message"]}, {"file": "xtra/src/envelope.rs", "symbols": ["ReturningEnvelope::handle"]}, {"file": "xtra/src/send_future.rs", "symbols": ["SendFuture::poll"]}]}
{"id": "C74", "title": "An actor runs until it is told to stop, and stops when it tells itself to", "statement": "An actor that has been spawned (a task executing run) and has begun to receive goes on receiving and handling as long as a strong address exists anywhere, nobody has called stop_all, and no handler of its own event loop has called stop_self; nothing else that happens on the channel ends it, not even other actors of the pool stopping themselves or being dropped. As long as its run has not returned and a strong address exists, nobody is told that it is disconnected. Once one of its handlers calls stop_self, the event loop makes no further receive and dispatches nothing but the message in hand; that dispatch is its last, with Break; and when everything has come to rest run has returned (unless that handler still awaits a select, join or yield_once).", "quantifier": "every execution with any number of spawned actors on clones of the mailbox, nested select/join/yield_once to any depth, and arbitrary other use of the channel; every actor; every moment", "why_tests_cant": "A spawned task is out of sight: that nothing whatever ends it, and that nothing whatever keeps it alive after stop_self, are statements about all executions of everybody else on the channel.", "anchors": [{"file": "xtra/src/spawn.rs", "symbols": ["spawn_tokio", "spawn_async_std", "spawn_smol", "spawn_wasm_bindgen"]}, {"file": "xtra/src/lib.rs", "symbols": ["run", "yield_once"]}, {"file": "xtra/src/context.rs", "symbols": ["Context::stop_self", "Context::stop_all"]}, {"file": "xtra/src/dispatch_future.rs", "symbols": ["DispatchFuture::poll"]}, {"file": "xtra/src/chan.rs", "symbols": ["Chan::try_recv"]}]}
{"id": "C75", "title": "The reference counters never overflow", "statement": "However many addresses and mailboxes are cloned, downgraded, upgraded, dropped or leaked with mem::forget, by up to isize::MAX threads at once, the counters of strong addresses and mailboxes, which are machine words without an overflow check, always hold the exact numbers (the process is aborted by Arc before anything can wrap). So the drop that shuts the channel down is exactly the last one of its kind; an upgrade is granted only while a strong address exists, and refused only when none does, and then none ever will; and the channel is freed by exactly the step after which no pointer of any kind is left. Without the guard in Arc::clone this would be false.", "quantifier": "every word size; every number of threads up to isize::MAX; every interleaving of the atomic operations of every sequence of clone, downgrade, upgrade and drop", "why_tests_cant": "Overflow takes 2^63 clones; the argument that it cannot happen depends on the order of the increments of two different words on every path, in every interleaving.", "anchors": [{"file": "xtra/src/chan/ptr.rs", "symbols": ["Ptr::clone", "Ptr::drop", "Ptr::to_tx_weak", "Ptr::try_to_tx_strong", "Ptr::to_tx_either", "TxStrong::try_new"]}, {"file": "xtra/src/chan.rs", "symbols": ["Chan::on_receiver_created", "Chan::on_receiver_dropped", "Chan::on_sender_created", "Chan::on_sender_dropped", "new"]}]}
{"id": "C76", "title": "Getting into the mailbox means seeing what was done before by those who used it", "statement": "Taking a message out of the mailbox happens before every later admission: if a receive takes a message out (a queued one or a broadcast) while a detached send or a broadcast has not got in yet (unpolled, being polled for the first time, or waiting for room), then whoever is told that this send has succeeded sees everything the receiver had seen and done. In particular a sender that had to wait for room sees what the receiver that made room saw. Likewise whoever takes a message out sees what everybody saw who took one out of this mailbox or a clone of it before, and a sender sees what those senders saw whose messages were in before its own. So a bounded mailbox can be used as a semaphore or lock.", "quantifier": "every execution of any number of calls in any number of threads; every capacity; every set of facts known to every caller; every pair of operations on the mailbox", "why_tests_cant": "Backpressure as synchronisation depends on the orderings on every path on which a send can get in (its own critical section, a waiting sender filled by unicast and by broadcast receives); a missing acquire or release shows only on some hardware under some schedules.", "anchors": [{"file": "xtra/src/chan.rs", "symbols": ["Chan::try_send_to_one", "Chan::try_send_to_all", "Chan::try_recv", "Inner::pop_unicast", "Inner::pop_broadcast"]}, {"file": "xtra/src/chan/waiting_sender.rs", "symbols": ["WaitingSender::poll", "Handle::take_message"]}, {"file": "xtra/src/send_future.rs", "symbols": ["Sending::poll"]}]}
{"id": "C77", "title": "Dropping an address that is not the last strong one is invisible", "statement": "When an address (or a MessageChannel, or a clone in another thread) is dropped, nothing that others can observe depends on it, unless it was the last strong one: every history that is possible afterwards, with the same results, the same order of messages and the same wakers, was possible without the drop, as long as a strong reference is left at the end (dropping a weak address is always invisible). Conversely everything that could have happened without using that address, with another strong reference left from the drop on, can happen after it. In particular, while a clone is kept, dropping an address is invisible and prevents nothing.", "quantifier": "every reachable state, every address in it of any kind, every moment at which the drop takes effect, every continuation by any number of threads", "why_tests_cant": "It compares all continuations in two worlds, one with and one without the drop; a test follows one continuation in one world.", "anchors": ["xtra/src/chan/ptr.rs: RefCounter, TxStrong, Drop for Ptr", "xtra/src/chan.rs: Chan::try_recv, Chan::is_connected, Chan::disconnect_listener", "xtra/src/address.rs: Address::clone, WeakAddress::try_upgrade"]}
{"id": "C78", "title": "Dropping one of several holders of a mailbox is invisible", "statement": "When a mailbox, or a next() future which was never polled, is dropped while the same mailbox is still held by somebody (the mailbox itself, a receive future, a message which was taken and not dispatched, a message which is being handled), nothing that others can observe depends on it: every history that is possible afterwards, with the same results, the same order of messages, the same contents of every broadcast queue and the same wakers, was possible without the drop, as long as somebody holds the mailbox at the end. Conversely everything that could have happened without using the dropped object, with another holder of the mailbox from the drop on, can happen although it is dropped, at any moment of it. In particular a next() future that is made and dropped unpolled leaves no trace while its mailbox is there.", "quantifier": "every reachable state, every mailbox and every unpolled receive future of it, every pair of moments at which the two parts of the drop take effect, every continuation by any number of threads", "why_tests_cant": "It compares all continuations in two worlds, one with and one without the drop, whose two reference counts change at different moments; a test follows one continuation in one world.", "anchors": [{"file": "xtra/src/mailbox.rs", "symbols": ["Mailbox", "Mailbox::next"]}, {"file": "xtra/src/chan/ptr.rs", "symbols": ["Ptr", "Rx", "RefCounter"]}, {"file": "xtra/src/chan.rs", "symbols": ["Chan::on_receiver_dropped", "Chan::new_broadcast_mailbox", "Inner::send_broadcast", "Inner::pop_broadcast", "Inner::longest_broadcast_queue"]}, {"file": "xtra/src/recv_future.rs", "symbols": ["ReceiveFuture", "Receiving::New"]}]}
{"id": "C79", "title": "Asking changes nothing", "statement": "Calls that only ask (is_connected, len and is_empty on an address, weak address or MessageChannel) are invisible to everybody else: whatever happens after the question has been put, with the two loads of is_connected spread over it in any way, could have happened without it, with the same results, the same order of messages and the same wakers, and only the answer missing from the history. Conversely everything that could have happened without the question can happen with it, wherever in it the question begins and is answered, and the one who asks has the answer after at most two steps of its own, whatever the others do.", "quantifier": "every reachable state, every address in it of any kind, every moment at which the question begins and is answered, every continuation by any number of threads", "why_tests_cant": "It compares all continuations in two worlds, one with and one without the question; a test follows one continuation in one world.", "anchors": [{"file": "xtra/src/address.rs", "symbols": ["Address::is_connected", "Address::len", "Address::is_empty"]}, {"file": "xtra/src/message_channel.rs", "symbols": ["MessageChannel::is_connected", "MessageChannel::len", "MessageChannel::is_empty"]}, {"file": "xtra/src/chan.rs", "symbols": ["Chan::is_connected", "Chan::len"]}]}
