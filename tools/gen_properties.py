import json
P=[]
def p(id,title,statement,quantifier,why,anchors):
    P.append(dict(id=id,title=title,statement=statement,quantifier=quantifier,why_tests_cant=why,anchors=anchors))
C="xtra/src/chan.rs"; R="xtra/src/recv_future.rs"; S="xtra/src/send_future.rs"; A="xtra/src/address.rs"; L="xtra/src/lib.rs"
E="xtra/src/envelope.rs"; PT="xtra/src/chan/ptr.rs"; WS="xtra/src/chan/waiting_sender.rs"; WR="xtra/src/chan/waiting_receiver.rs"; PR="xtra/src/chan/priority.rs"
M="xtra/src/mailbox.rs"; X="xtra/src/context.rs"; D="xtra/src/dispatch_future.rs"; MC="xtra/src/message_channel.rs"; SC="xtra/src/scoped_task.rs"
def a(f,*syms): return dict(file=f,symbols=list(syms))
p("C01","Highest priority first","When a freshly created receive future (Mailbox::next) is polled and yields a message, that message has maximal priority among all messages then queued for this mailbox (shared unicast queue and this mailbox's broadcast queue); on equal priority the unicast message wins; it yields the shutdown notice only if both queues are empty and no strong address exists, and it waits only if both are empty and a strong address exists.",
 "every reachable queue content, of any size, for any sequence and interleaving of sends, broadcasts, receives and drops","the selection depends on the whole history-dependent heap layout; tests try a handful of contents",
 [a(C,"Chan::try_recv","Inner::pop_unicast","Inner::pop_broadcast"),a(PR,"Priority","ByPriority")])
p("C02","A unicast message is handed out at most once","Whatever the interleaving of sends, polls, cancellations and drops by any number of threads and actors, a message sent with Address::send is yielded by at most one receive future, at most once, and its handler is completed at most once.",
 "all interleavings of atomic steps of all API calls, any number of actors/mailboxes/futures","needs all schedules; a race that duplicates is invisible to sampling",
 [a(C,"Chan::try_send_to_one","Chan::requeue_message","Inner::try_fulfill_receiver"),a(WS,"Handle::take_message"),a(WR,"WaitingReceiver::cancel"),a(R,"Waiting::drop")])
p("C03","No unicast message is lost","An accepted unicast message stays available (queued, waiting, or handed to exactly one live receive future) until it is yielded to an actor or the last mailbox goes away; dropping a receive future at any moment does not lose a message (documented cancellation safety of ReceiveFuture).",
 "all histories; all points at which a receive future may be dropped","cancellation can happen between any two steps, on any thread",
 [a(R,"ReceiveFuture","Waiting","Waiting::drop"),a(WR,"WaitingReceiver::cancel"),a(C,"Chan::requeue_message")])
p("C04","Broadcast reaches every mailbox exactly once","A broadcast accepted by the channel is put exactly once into the mailbox of every live Mailbox existing at that moment and into none created later; each mailbox yields it at most once, and it stays in that mailbox until yielded or the mailbox goes away.",
 "all numbers of mailboxes, all clone/drop/broadcast/receive interleavings","mailbox set changes concurrently with broadcasts",
 [a(C,"Inner::send_broadcast","Chan::new_broadcast_mailbox","Inner::pop_broadcast"),a(M,"Mailbox::clone")])
p("C05","Unicast backpressure is exact","Polling a send on a connected address completes the queueing immediately exactly if some idle receiver is waiting or the shared queue holds fewer than capacity messages; otherwise the sender is parked. On an unbounded mailbox queueing never waits.",
 "every reachable state and capacity","depends on the exact count in every history incl. cancelled receivers",
 [a(C,"Chan::try_send_to_one","Inner::is_unicast_full","Inner::try_fulfill_receiver")])
p("C06","Unicast queue respects the capacity","The number of queued unicast messages never exceeds the capacity, except by the number of messages put back by cancelled receive futures; without such cancellations it never exceeds it at all.",
 "all histories, schedules and capacities","bound must hold after any history",
 [a(C,"Inner::is_unicast_full","Inner::pop_unicast","Chan::requeue_message"),a(M,"Mailbox::bounded")])
p("C07","Broadcast backpressure follows the slowest actor","No mailbox ever holds more broadcast messages than the capacity plus the number of stop_all notices issued; a broadcast is accepted immediately exactly if the channel's broadcast length is below the capacity, and that length is never below the longest live mailbox.",
 "all histories with any number of mailboxes","slowest actor differs per history",
 [a(C,"Inner::send_broadcast","Inner::longest_broadcast_queue","Inner::is_broadcast_full","Inner::pop_broadcast","Chan::try_send_to_all")])
p("C08","Parked senders are admitted by priority and never forgotten","When a receive frees unicast space, a parked sender whose message has maximal priority among the live parked senders is admitted and its send completes; a live parked unicast sender exists only while the unicast queue is at or above capacity, so it is never left parked with free space, and every live parked sender remains registered until admitted or disconnected.",
 "all histories, all cancellation points of parked sends","lost registrations would be rare schedules",
 [a(C,"find_remove_highest_priority","Inner::try_take_waiting_unicast_message","Inner::pop_unicast"),a(WS,"WaitingSender","Handle")])
p("C09","Equal-priority messages are handled in send order","Messages of default priority sent to a single actor are handled in the order of sending (documented on Address).",
 "all numbers of queued messages; bounded and unbounded mailboxes","order depends on heap layout for each size",
 [a(A,"Address (docs, Default priority)"),a(C,"Inner::unicast_queue","find_remove_highest_priority")])
p("C10","Sending to a disconnected actor fails","If there is no mailbox left, or no strong address left, when a send or broadcast is first polled, it resolves to Error::Disconnected, nothing is queued, and that message is never handled; is_connected reports exactly whether both a strong address and a mailbox exist.",
 "all states reached by any history","counts evolve through every clone/drop path",
 [a(C,"Chan::try_send_to_one","Chan::try_send_to_all","Chan::is_connected"),a(A,"Address::is_connected")])
p("C11","Pending sends are released when the actor goes away","Once the last mailbox is gone, every parked send resolves to Disconnected, every queued message is destroyed (its sender sees Interrupted), and no message stays behind in the channel.",
 "all histories; all interleavings of the final drop with concurrent sends","race between connectivity check and final drop",
 [a(C,"Chan::on_receiver_dropped","Chan::shutdown_waiting_senders"),a(WS,"Handle::drop","WaitingSender::poll")])
p("C12","Dropping the last strong address stops every idle actor","After the last strong address has been dropped, no receive future stays pending: every parked receiver has been notified, and any further receive completes; this holds for every interleaving of the drop with concurrent receives.",
 "all interleavings of the drop's atomic decrement, the notification, and concurrent receives","classic lost-wakeup race",
 [a(C,"Chan::on_sender_dropped","Chan::shutdown_waiting_receivers","Chan::try_recv"),a(WR,"Handle::notify_channel_shutdown")])
p("C13","Remaining messages are drained before shutdown","With no strong address left, successive receives yield every message still queued exactly once, in non-increasing priority order, and only then the shutdown notice; messages of parked senders (capacity at least 1) are yielded too before it.",
 "all queue contents","any number of leftovers and priorities",
 [a(C,"Chan::try_recv"),a(L,"run")])
p("C14","Strong count is exact","The strong count equals the number of live strong references (strong addresses, either-addresses wrapping strong, unpolled send futures made from them), the mailbox count equals the number of live mailbox references; weak addresses contribute nothing.",
 "all histories of clone/downgrade/upgrade/as_either/send/poll/drop in all interleavings","every path must balance",
 [a(PT,"Ptr::clone","Ptr::drop","TxStrong::make_new","TxEither::make_new"),a(C,"Chan::on_sender_created","Chan::on_sender_dropped","Chan::on_receiver_created")])
p("C15","Upgrade never resurrects","WeakAddress::try_upgrade succeeds exactly if a strong reference is alive at that moment; once the strong count has reached zero it stays zero forever (likewise the mailbox count).",
 "all interleavings of upgrade with drops","resurrection race",
 [a(PT,"TxStrong::try_new","Ptr::try_to_tx_strong"),a(A,"WeakAddress::try_upgrade")])
p("C16","stop_all reaches every actor and pre-empts all queued messages","Context::stop_all, called while a strong address exists, immediately (regardless of capacity) puts a shutdown notice into every live mailbox; from then on, the next message such a mailbox takes from its queues is a shutdown notice, whatever else is queued.",
 "all queue contents and mailboxes","must beat every priority and full queues",
 [a(X,"Context::stop_all"),a(C,"Chan::shutdown_all_receivers","Inner::send_broadcast"),a(E,"Shutdown")])
p("C17","stop_self stops exactly this actor after the current message","Dispatching a message tells the event loop to stop exactly if the handler called stop_self during it (or the message is a shutdown notice); no other actor is affected and the queues are untouched.",
 "all handlers and messages","handlers are arbitrary code",
 [a(X,"Context::stop_self"),a(E,"ReturningEnvelope::handle","BroadcastEnvelopeConcrete::handle","Shutdown::handle"),a(D,"DispatchFuture")])
p("C18","Replies are routed to the right sender","A send future (or detached Receiver) that resolves to Ok(r) does so only if a handler invocation for that very message returned r; it resolves to Interrupted exactly when that message was destroyed without a completed handler; it resolves at most one way.",
 "all interleavings of sends, handlers and drops","cross-talk needs specific schedules",
 [a(E,"ReturningEnvelope"),a(S,"SendFuture::poll","Receiver")])
p("C19","Priority setting","A message has priority 0 unless set; the last value set before the first poll is the priority it is queued with, detached or not, named or erased; setting it after the first poll panics.",
 "all sequences of priority/detach calls","all call sequences",
 [a(S,"SendFuture::priority","SetPriority","SendFuture::detach")])
p("C20","A receive completes in one poll iff there is work","A receive future polled in a quiescent state completes in that single poll exactly if a message is queued for its mailbox, a message was handed to it, or no strong address exists.",
 "all reachable states","documented guarantee used with now_or_never",
 [a(R,"ReceiveFuture","Receiving::poll"),a(WR,"WaitingReceiver::poll")])
p("C21","No lost wake-ups","If the latest poll of a parked send, receive, reply or join future returned Pending with some waker, then when that future becomes able to complete, that waker is woken.",
 "all interleavings","lost wakeups are schedule dependent",
 [a(WS,"Handle::take_message","Handle::drop","WaitingSender::poll"),a(WR,"Handle"),a(C,"Chan::disconnect_listener")])
p("C22","Idle receivers are served first come first served","A new message is handed to the receiver that has been waiting longest among those not cancelled; cancelled ones are skipped without losing the message; and no message is queued while an idle receiver waits.",
 "all sets of waiting/cancelled receivers","any number of waiting receivers",
 [a(C,"Inner::try_fulfill_receiver"),a(WR,"Handle::notify_new_message")])
p("C23","join resolves on disconnection","The future from Address::join created on a connected address does not resolve while a mailbox exists and resolves after the last mailbox is gone (in every interleaving of its creation with the last drop); created on a disconnected one it is immediately ready.",
 "all interleavings of registration and final drop","lost notification race",
 [a(C,"Chan::disconnect_listener","Chan::shutdown_waiting_senders"),a(A,"Address::join","ActorJoinHandle")])
p("C24","scoped tasks end with the actor","A future from xtra::scoped yields Some(v) only if the inner future completed with v in a poll before disconnection was observed, yields None when disconnected, and never polls the inner future once disconnection is observed.",
 "all poll sequences and inner futures","arbitrary inner futures",
 [a(SC,"scoped","ScopedTask::poll")])
p("C25","Actor lifecycle","xtra::run calls started exactly once before any message; if it errs, returns that value with no message handled and stopped never called; otherwise messages are handled one at a time in the order received until the first stop signal, after which none is handled and stopped is called exactly once and its value returned.",
 "all actors, all message streams of any length","arbitrary handlers and streams",
 [a(L,"run","yield_once")])
p("C26","select and join","xtra::select returns Left(v) only if the future completed with v and Right only if a handled message stopped the actor first, handling messages in order and none after the stop; xtra::join always returns the future's value. A stop signalled to the actor while inside select or join leads to the actor stopping.",
 "all interleavings of future completion and message arrival, all handlers","arbitrary arrival orders",
 [a(L,"select","join")])
p("C27","Address equality, hash and order","== on addresses is an equivalence identifying exactly same channel and same strength; equal addresses hash equally; the total order agrees with partial order and equality (same channel: strong greater than weak).",
 "all addresses of all reference-count types","laws over all pairs/triples",
 [a(A,"PartialEq","PartialOrd","Ord","Hash"),a(MC,"PartialEq","Hash")])
p("C28","len counts the queued messages","Address::len equals the number of queued unicast messages plus the length of the longest live broadcast mailbox.",
 "all histories","stale counters after mailbox drops",
 [a(C,"Chan::len","Inner::send_broadcast","Inner::pop_broadcast"),a(A,"Address::len","Address::is_empty")])
p("C29","A parked unicast send makes progress if actors keep receiving","If a send is parked on a bounded mailbox and an actor keeps receiving, the message is eventually handed out, for every capacity.",
 "all capacities including 0, all queue contents","unbounded runs",
 [a(C,"Inner::pop_unicast","Chan::try_recv"),a(M,"Mailbox::bounded")])
p("C30","A parked broadcast makes progress when live mailboxes have space","If every live mailbox has fewer broadcasts than the capacity, a broadcast is accepted without waiting.",
 "all histories including dropped mailboxes","needs histories with drops",
 [a(C,"Inner::broadcast_tail","Inner::longest_broadcast_queue","Inner::is_broadcast_full")])
p("C31","No internal panic","The unwrap/expect/unreachable calls inside the channel, the envelope and the receive future are never reached in any execution.",
 "all interleavings","panic paths need exact states",
 [a(C,"Chan::try_recv"),a(R,"Waiting::drop","Waiting::poll"),a(C,"Chan::try_send_to_all (Arc::get_mut)"),a(E,"start_span")])
p("C32","A sink preserves order","Messages fed into one into_sink sink are handled in feed order with at most one in flight, each completed before the next is sent.",
 "all item sequences and delays","arbitrary lengths",
 [a(A,"Address::into_sink"),a(MC,"MessageChannel::into_sink")])
p("C33","Dropping the last mailbox never deadlocks","Dropping the last mailbox completes whatever the queued messages contain, including strong addresses of the same actor.",
 "all queued messages and their contents","needs messages owning addresses",
 [a(C,"Chan::shutdown_waiting_senders","Chan::on_sender_dropped","Chan::shutdown_waiting_receivers")])
p("C34","Bounded priority inversion","At most one lower priority message is handled before piled-up higher priority messages: a receive future can yield a message of lower priority than a queued one only if it was handed that message (or notified) while idle; the next receive of that actor takes a maximal one.",
 "all histories","documented latency trade-off over all schedules",
 [a(C,"module docs"),a(WR,"WaitingReceiver::poll")])
p("C35","Conversions keep identity and strength","clone/as_either/downgrade/upgrade/MessageChannel conversions refer to the same channel; clone and as_either keep strength, downgrade gives weak, upgrade gives strong; MessageChannel::send queues the same way as Address::send.",
 "all conversion chains","arbitrary chains",
 [a(PT,"Ptr::to_tx_either","Ptr::to_tx_weak","Ptr::clone"),a(MC,"MessageChannel")])
p("C36","Cloned mailboxes share unicast but not broadcast","Messages sent with send are taken by any one of the mailboxes on the address; a broadcast taken by one mailbox remains in all others.",
 "all histories with clones","many mailboxes",
 [a(M,"Mailbox::clone"),a(C,"Inner::pop_broadcast")])
p("C37","Cancelled sends","Dropping a send future that is unpolled or parked retracts the message: it is never handled; dropping it after admission does not retract it.",
 "all cancellation points","any interleaving of admission and drop",
 [a(WS,"Handle::is_active","Handle::take_message"),a(S,"Sending")])
p("C38","Interrupted dispatch","Dropping a dispatch future before completion resolves that message's reply to Interrupted, never re-delivers the message and leaves other messages untouched.",
 "all cancellation points of handlers","any point",
 [a(D,"DispatchFuture"),a(E,"ReturningEnvelope::handle")])
p("C39","The queue is a correct priority queue","For any sequence of pushes and pops, the queue returns each pushed element at most once, always one of maximal priority among those present, and peek agrees with pop.",
 "all push/pop sequences of any length","any size",
 [a(C,"unicast_queue: BinaryHeap<ByPriority<..>>"),a(PR,"ByPriority")])
p("C40","derive(Actor) bounds","The generated impl carries every existing where predicate plus a Send + 'static predicate for every type parameter and none for lifetimes or consts.",
 "all generics lists","arbitrary generics",
 [a("macros/src/lib.rs","actor_derive","send_and_static_bounds")])
with open('/verif/properties.jsonl','w') as f:
    for x in P: f.write(json.dumps(x)+"\n")
print(len(P))
