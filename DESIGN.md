# Formal model of xtra (Lean 4) — design

Contents: 1 what is modelled; 2 semantics; 3 per-property plan (what is modelled, how it is proved); 4 trusted base; 5 code table
(modelled / not modelled); 6 findings; 7 how the theorems were tested against wrong programs.

All paths are relative to `/repo` (code) and `/verif/lean/Verif` (Lean). `properties.jsonl` has the English claims, `MANIFEST.json` the
theorems that prove them (generated by `tools/manifest.py`), `AXIOMS.md` the axioms of each theorem (generated by `tools/axioms.py`).

## 1. What is modelled

| Lean file(s) | code | content |
|---|---|---|
| `Prio` | `chan/priority.rs` | `Priority`, derived order, `cmp` on options |
| `Heap` | `std::collections::BinaryHeap` | `push`, `pop`, `peek` on the array layout with `sift_up` and `sift_down_to_bottom`, because the tie-breaking is observable (C09) |
| `Model` | `chan.rs`, `chan/waiting_sender.rs`, `chan/waiting_receiver.rs`, `chan/ptr.rs`, `send_future.rs`, `recv_future.rs`, `mailbox.rs`, `address.rs`, `context.rs`, `envelope.rs`, `dispatch_future.rs` | one channel, every critical section function by function, every API call as a list of atomic micro-steps, interleaving semantics |
| `Ideal` | – | specification of C64: the ideal mailbox, an abstract machine of some forty rules, no code |
| `Conform` | `tests/basic.rs`, `tests/instrumentation.rs` | the repository's own tests replayed on the model: a check of the model, not a proof |
| `Spec` | – | vocabulary of the property statements (history, counting references, whole calls); no helper of the proofs |
| `Loop`, `PropsLoop` | `lib.rs:222-387`, `dispatch_future.rs`, `envelope.rs:93-128,188-210` | `run`, `yield_once`, `select`, `join` with arbitrary user code and arbitrary nesting |
| `Address` | `chan/ptr.rs`, `address.rs:257-315`, `message_channel.rs` | addresses of many channels: identity, `Eq`, `Hash`, `PartialOrd`, `Ord`, conversions, erased channels |
| `Scoped` | `scoped_task.rs` | `scoped` on top of the channel model |
| `Sink` | `address.rs:239-245`, `message_channel.rs:157-159`, `futures_util::sink::unfold` | `into_sink` on top of the channel model |
| `Counter` | `chan/ptr.rs`, `chan.rs:58-90` | the reference counters as wrapping machine words, next to that of `Arc` |
| `Derive` | `macros/src/lib.rs` | `#[derive(Actor)]` on a syntax tree of generics |
| `Reentrant` | `chan.rs:64-91,208-259` | destructors of messages that run inside the channel's lock |
| `Multi` | same, chan/waiting_sender.rs | many channels and threads: locks, destructors, temporary `Weak::upgrade`s and wakers inside critical sections |
| `Weak` | `chan.rs:58-91,161-202,261-280`, `chan/ptr.rs:128-160` | the two counters, the lock and the event listener under a weak memory model |
| `WeakMsg` | `chan.rs:58-133,161-259,286-295,328-338,385-404`, `send_future.rs:172-208`, `chan/waiting_receiver.rs:63-96` | sending, receiving, waiting, dropping waiting receives and the final drops under the same memory model |
| `Span` | `dispatch_future.rs`, `envelope.rs`, `instrumentation/*` | spans: state machine of `DispatchFuture`, life of the request and waiting spans |
| `Starve` | `chan.rs` (through the channel model) | actor under load: starvation and its bound |
| `Free` | `chan.rs:41-46,305-313`, `waiting_sender.rs:48-65` | drop glue of the channel when its last owner goes |
| `Net`, `NetRun`, `MutualRun` | user code of `Actor::started`, `Handler::handle`, `Actor::stopped` | networks of actors, each with its channel and tasks, whose user code sends to other actors and awaits the results, directly or through `select`/`join`; `NetRun` is its executable form, `MutualRun` has examples with `join` |
| `Poison` | every `lock()` in `chan.rs` | the channel model with a lock that a panicking message destructor poisons when the last mailbox goes |
| `Fuse` | `send_future.rs`, `recv_future.rs`, `dispatch_future.rs`, `ActorJoinHandle` | the futures with their `Done` states, polled by an arbitrary caller (also after they resolved), with arbitrary answers of channel, reply slot and handler |
| `Pool`, `PoolRun` | `lib.rs:222-245,301-328,377-387` | any number of tasks executing `run`, and `select`/`join`/`yield_once` called by their user code to any depth, composed with the channel model; `PoolRun` is its executable form |
| `Causal` | orderings of every atomic operation, lock and oneshot in `chan.rs`, `chan/ptr.rs`, `chan/waiting_*.rs`, `envelope.rs` | who knows what (happens-before), on top of the channel model |

The other files are invariants and proofs: `Own*`, `Crit`, `StepR`, `Frame` (generated), `Count`, `Reg*`, `Bq*`, `Queue*`, `Cons`, `Kind*`,
`RespInv`, `Once`, `Join`, `Idle`, `Bcast`, `Seq`, `SeqInv`, `Solo`, `Ws*`, `ObjEvo`, `Wake*`, `Clear`, `Drain`, `Why`, `WhyErr`, `Grace`, `GraceB`, `StopAll`, `PoolOwn`, `Rest`, `IdealAbs`, `IdealParts`, `IdealSim*` (the simulation of C64), `IdealProps`, `IdealOnce`, `IdealLife` (the ideal mailbox alone); and `Props*` with the
theorems named `Cnn_…`.

## 2. Semantics

`World` is the shared memory of one channel plus every object user code may hold (addresses, mailboxes, send and receive futures,
received messages, dispatches, reply receivers, join handles). Ids are positions; nothing is ever removed from a store, so positions are
stable. `log` is a ghost history, newest first; no step reads it.

* `Call` – an API call by user code on objects it holds. Every public operation of `Address`, `WeakAddress`, `Mailbox`, `Message`,
  `SendFuture`, `Receiver`, `ReceiveFuture`, `DispatchFuture`, `Context::stop_self/stop_all`, `join` is one. Three calls have a second version, in
  which the counters they load are out of date, and `flipLag` decides this for the load made by a receive (`Call.stale`).
* `Micro` – one atomic step: one load or read-modify-write of a counter; one critical section of `Chan::chan`; one operation on a
  waiting-sender / oneshot / reply cell; one `Arc` decrement.
* `Sys.step` – the scheduler either starts a call on a new thread or executes the next micro-step of any thread. `Reachable cap` is
  closed under all of these: all interleavings, any number of threads, any number of objects, any capacity, no bound anywhere.
* A task that is cancelled at any point is an arbitrary `dropX` call at any time.
* `Quiet`, `Does` – states with no call in progress and calls run without interruption, used for statements about whole calls. `Quiet`
  states are reached by arbitrary interleavings. `SeqReachable` – calls never overlap (single-threaded executor); only used for the
  sequential version of properties that are false under concurrency.

Invariants are proved by induction on `Reachable`, one lemma per micro-step (`ExecR`, `CallR`: one constructor per branch).

## 3. Per property: what is modelled and how it is proved

* C01 receive critical section in every reachable state; heap invariant. C39: `BinaryHeap` is a priority queue (induction on sift paths).
* C02, C03 conservation: each unicast id is in exactly one place (weighted sum over queues, cells, threads, objects, history).
  C03 is false in one window; C03_refuted gives the schedule, the partial theorems exclude exactly that window, or overlap.
* C04, C36 conservation per mailbox against the history of accepted broadcasts.
* C05, C10, C22, C37 characterisation of the whole call. C06, C07 queue-length invariants.
* C08 registration invariant of waiting senders + characterisation of the receive step.
* C09 refutation by schedules; FIFO theorem by relating the heap array of at most 3 elements to a list.
* C11 (PropsEnd, Clear) invariant "no mailbox, no late send ⇒ nothing in the channel"; race counterexample.
* C12, C20 invariant: registered idle receiver ⇒ strong address exists or its notifier is still running. Under weak memory: C44.
* C13, C29 measure on everything queued or parked, decreasing with each receive (Drain).
* C14, C15 weighted sums over objects and threads equal the counters.
* C16, C17 heap maximum; flow events of dispatch. C25, C26 frame-stack invariant of the event loop.
* C18, C38 reply cells against the history. C19 kind/priority invariant. C21 waker invariant (Wake, Wake2). C23 join-handle invariant.
* C24, C32 small state machines driven by arbitrary environments on top of the channel. C27, C35 algebra. C40 syntax.
* C28, C30 refutation + exactness as long as no mailbox was dropped since the length was last exact.
* C31 the panicking branches are explicit events of the model; invariants exclude them.
* C33, C41, C53 lock models: exact characterisation / ranking of channels ⇒ progress and termination (measure), refutations.
* C34 corollary of C01 and C22. C42 potential function bounding a thread's own steps. C43 refutation for every n + cleaning steps.
* C44 view-based weak-memory model; invariants on views. Every reachable state can run to quiescence (no deadlock).
* C63 the same memory model with the messages: counting invariants (conservation, owners of cells), invariants on views (nobody registers after
  the last dropper has passed), and "drained" as an absorbing set that every shutdown notice enters. Not in it: broadcasts, priorities, join.
* C45 state machine of `DispatchFuture` against a specification without `span()`; start-once invariant over the channel model.
* C46 executions of an actor under load (`Serves`); starving executions constructed by induction on their length; the bound for arrivals of lower priority by counting what is ahead.
* C47 conservation sum of C02/C03 evaluated on states without owners, then through the drop glue (`World.free`). Reachable states of the
  channel model proper never free the channel, so statements such as C11_refuted hold as long as an owner is left.
* C48, C49 tasks executing `run` (lib.rs:222-245) composed with the channel model (`Verif/Pool.lean`): each task contributes the micro-steps
  of its calls to the interleaving; bodies of `started`, `handle`, `stopped` are arbitrary and their use of the channel is part of the
  concurrent activity; dropping the task is a step. Invariants per task (`TInv`), ownership of receives by tasks (`PoolOwn`), then the
  conservation sum of C02/C03 in states at rest. `closed = true` means user code makes no receive futures of its own.
  A handler (or `started`) may call `select`, `join` or `yield_once` with its mailbox, to any depth: such a call is a further task that covers its
  caller until it returns or is dropped (`PStep.nest`, `Task.covers`). A handler that waits in `yield_once` may wait for ever, so states at rest
  are `settled` (everybody returned, sleeps, or awaits a call that sleeps) and requests handled by such a handler are excepted (`yields`).
  Handlers that make a receive future by hand: only where `closed` is arbitrary (and in C25/C26, for one actor). A handler that panics
  unwinds `run` like a dropped task.
* C50 termination of that composition: a rank (three numbers, lexicographic: work of senders, aborts and requeues; shutdown notices under
  way; messages, notices and phases of tasks) that every step except a new API call decreases (`Rest`), and absence of deadlock from
  C48_never_stuck. Fairness is not assumed: all schedules are finite. An executor that polls sleeping tasks spuriously is excluded by
  definition (`Auto`): such polls return `Pending` and change only the waker (C22).
* C51 the same composition with clients: `A f` marks the send futures and `Receiver`s that somebody awaits (first poll, then a poll after
  each wake-up). The rank of C50 also covers their polls; at rest, C48 and C30_parked_partial leave an unresolved future no state to be in.
  For broadcasts it is assumed that every mailbox ever created is served by a running actor (otherwise false: finding 3).
* C52 the same with dropped tasks and after the last mailbox is gone: `late_reachable` (what is left in a channel without mailboxes came
  late), then the conservation sum. `Ev.late i` is a ghost event: the critical section of the send of message `i` ran when no mailbox was
  left.
* C54 a list of the compositions of C51, one per actor, plus what each running piece of user code awaits (`HSt`: a budget of further sends and the
  awaited futures). A step is a step of one actor's composition, a send by running user code, or the continuation of user code when
  something awaited has happened. Termination: the rank of C50 per actor, lexicographic in the ranking of the actors. Deadlock freedom: take the
  lowest actor that is busy; C51 for its own channel. Refutation for cycles by an explicit schedule.
  Simplified: awaiting `Address::join` handles, timers or other executors' futures is outside user behaviour, not part of `Want`;
  the actors' user code does not call `yield_once` (`Net` has no such step; a handler that waits for a further message waits on its own senders, so no
  ranking of actors helps).
* C55 the same networks with the future given to `select`/`join`: such awaits may go to actors of the same rank, so actors may `join` on each
  other in a cycle. Invariant `Joined`: whoever awaits a joined future is covered by a `select`, or that `select` was cut short by a stop.
  Deadlock freedom then as for C54. All schedules being finite is not claimed: actors that `join` on each other can keep asking for ever.
* C64 refinement: the ideal mailbox (`Ideal`) is a machine with bags, tickets and seats in place of heaps, handles, locks and threads, every
  operation one step. Forward simulation: an abstraction function plus three ghosts the code does not remember (which message a ticket was
  made for, which receive future took a seat, which sends know that they were accepted); each of the atomic steps of the code is matched by
  zero or more steps of the machine (`step_sim`), so every execution of the code is one of the machine with the same history. The history is
  compared without the events `shown` hides: the answers of `is_connected` and `join` (they look at two counters one after the other: C11,
  C23, C44), control flow of the loop (C17, C25), misuse of `priority` (C19). The machine leaves open when a mailbox's own broadcast queue
  ends (`closeBox`; C14, C30 say when) and when a ticket or seat is torn up. It contains the rule `lose` for finding C03. What the machine
  guarantees is proved about the machine alone.
* C65 `Justified` lists for every kind of event what must and what must not precede it. Proved about the ideal mailbox by induction over its
  rules (invariants: every message is in one place, its receipt precedes its end, a refused ticket belongs to a destroyed message), carried
  over to the code by C64.
* C66 corollaries of C01, C06, C07, C14, C28 for the inspecting functions, and two schedules that refute the documentation of the three
  mailboxes (`PropsInspect`).
* C70 `Makes` lists, for every kind of effect, the calls that may have it (`PropsOrigin`). Every thread runs only steps of the call it was begun for
  (`began_run`, induction over the schedule), and each step adds only effects of that call. This ties the history, in terms of which many other
  properties are stated, to the calls of user code. The same file says of which kind the references are that an address or mailbox makes (C14).
* C71 a step *wakes* a future if its waker is registered before it and taken out by it (`Sys.wakes`, `PropsWoken`). By cases on the step: which
  registrations it takes out and what it does to whom (`execR_single`, `C71_reason`); whose registration that is, by ownership of the cells.
  That a woken future gets on by following the thread of its poll through an arbitrary run of the others (`thread_ind3`): a cell that holds a
  notification is changed by its owner only.
* C72 a simulation (`Hush`): forgetting wakers and `Pending` answers (`World.hush`) commutes with every step of every call (`step_hush`, by cases on
  the step), and an idle thread more or less does not matter (`run_gap`). A poll of a sleeping future is a step to the same world up to `hush`
  (`spurious_poll`); hence all continuations agree, in both directions (`PropsHush`). Polls in the middle of which other threads run (`Slow`, `PropsSlow`): the system in which the call has begun and
  the one in which it has not differ in one object slot and one thread, which no step of anybody else looks at (`exec_withObjs`, `call_withObjs`,
  `Own.slot`), until the poll takes its step.
* C73 vector clocks as sets (`Causal`): every call and every synchronising object (mutex, the two counters, oneshots, spin locks, listeners) carries the set of facts
  it knows; a step acquires and releases what the code does at that place with the ordering written there (`Micro.acq`, `Micro.rel`, `Call.acq`). Invariant over all
  reachable states (`KnInv`): what a sender knew is in the mutex and in the cell it filled, what droppers knew is in the counters, and from the last dropper's fence in
  every notification it makes. Then each reported event is justified by the knowledge of the reporting call (`told_step`), and end-to-end from the caller's knowledge.
* C74 from the model of running actors (`PropsSpawn`): by induction over what happens as long as no handler of this event loop calls `stop_self` (`PRunOn`), no dispatch of it
  evaluates to `Break` but that of a notice (`unstopped_run`); a notice is put out by `stop_all` (in the history) or means that no strong reference is left (C67). After
  `stop_self` by an invariant over all continuations (`StopsAfter`).
* C75 a machine with three wrapping words (`sender_count`, `receiver_count`, the count of the `Arc`), any number of pointers and threads, one atomic operation per step
  (`Counter`). Invariant (`CInv`): each word is the number of pointers of its kind, and the `Arc`'s is at most `isize::MAX + 1` plus the number of threads about to abort.
  Without the guard of `Arc` it is false (`C75_guard_is_needed`, by induction on the number of leaked clones).
* C76 on the same model as C73 (`PropsRoom`): whoever works on the mailbox leaves what it knows in the mutex. Invariant over all continuations (`RoomInv`): a send
  that is still outside learns it when it gets in — in its own critical section, or through its spin lock from the receive that lets it in (`execR_delivered`: that one
  holds the lock); `sendOk` is reported only at the end of such a poll (`okBy_step`). A future has one poll at a time (`Own.slot`), so nobody else reports for it.
* C77 (`Extra`, `PropsExtra`) simulation: the code asks the strong count only whether it is 0 (`call_bump`, `exec_bump`: a world with one more strong reference makes the
  same steps while the count is not 0), and 0 is absorbing. Run with the drop (two phases: begun, taken effect) against the run without it (`Gave`), in both directions.
* C78 (`More`, `PropsMore`) simulation like C77 with two counters: the number of mailboxes is only asked whether it is 0, the strong count of a broadcast queue only whether
  the queue is alive (`call_more`, `exec_more`); both zeros are absorbing (`goneMb_step`). The drop has three phases (`LeftAt`); in each the run without the drop has the references
  that were given back added. The results of the first direction ask only for a holder at the end, the converse for one at every moment from the drop on (`Held`).
* C79 (`Ask`, `PropsAsk`) no function of the code reads what has been observed (`call_base`, `exec_base`: with a longer history a world makes the same steps); the thread that asks
  changes nothing until it answers, and then only the history (`Asking`, over the idle-thread simulation `Gap` of C72). Both directions; `asked_finish` bounds the answer by two steps.
* C07, C10, C12, C13, C16, C17, C19, C20, C23, C30, C34, C36, C37, C38 also in the midst of other activity (`PropsPrio`, `PropsConc`, `PropsConc2`, `PropsConc3`, `PropsConc4`): a property of one object or one message is kept by every step
  of every other thread (`thread_ind`), so the statements about whole calls hold for calls interleaved with anything.
* C67 by following the observer's thread through an arbitrary run of the others (`thread_ind`, `PropsAgree`): both counters stay zero once zero,
  so the first load that finds one nonzero and the second that finds the other nonzero have a moment in common.
* C68 from C65 (`PropsCause`): every event that concerns a message has its `made` event among its justifications, directly or through a chain of
  them, and a history contains at most one; the two splittings of the history at it are then the same one.
* C69 from C13 and C30 (`PropsLate`): draining accounts for every waiting broadcast, so all that remains is that none is left at the notice; refuted
  when another mailbox lags behind (finding 23).

* C56 for a fixed message, the invariants `Queued`, `InLine`, `QueuedB` (`Grace`, `GraceB`): received, or still in line while nobody has been
  told, or nobody ever will be. Then C48/C50 at rest, and C10_err_never_handled for whoever awaits the answer.
* C57 mailboxes of different tasks have different broadcast queues (`Boxes`, `BoxInv`); the notice stays in the queue until received (C16);
  while it is there no receive goes to wait, so only a receive that waited before can still be handed a message (`Stopped`). The exception for
  `select` is `C57_select_refuted` (finding 7).
* C58 a custom event loop is a task in its first phase, whose user code calls `yield_once` any number of times (with `select` and other calls in
  between) and gives up the mailbox in the end (`startFails`); handlers run by it nest as before. `LoopsC` is `AutosC` plus further calls of
  `yield_once` by such loops. Proved from the task invariants (`onceOk_run`), C48, C51 and C57.

* C59 the channel model plus a poisoned flag, three panicking variants of `shutdown_waiting_senders`, and per operation what it does with a
  poisoned lock (`execP`). Invariant `Deaf`: no mailbox reference is left. A send still parked is never touched again (`Stuck`).
* C60 composition of C57, C56, C48, C14, C23 and C52: behind every sleeping task there is a `run` with its mailbox (`base_box`), so when the
  `run`s have returned no receiver is left and the join handles have been notified.
* C61 `PropsFuse`: induction over the list of polls with one invariant per future (`panicsOnly_of`, `Entered`, `DispOk`, `recv_poll`); answers of the channel, of the reply's
  receiver and of the handler are universally quantified, so nothing about the channel is assumed. A reply receiver that has already resolved may do anything when polled again (catty is outside the repository).
  The `_result` theorems compare the first `Ready` with recursive specifications of what was answered (`accepted`, `answered`, `finished`).
* C62 `Local`, `PropsLocal`: bisimulation. No atomic step reads the user's objects and a call reads only the object it is made on (`exec_withObjs`, `call_withObjs`), so two systems that
  differ in one slot (and one idle thread) make the same steps, in both directions, for schedules of any length; holds from every state, reachable or not.

Nothing in the list was found inexpressible. `Debug` output, `Send`/`Sync` auto-trait facts and type-level erasure (which handler a message
type selects) are properties of rustc's type system, not of an execution, and are not claimed.

## 4. Trusted base

* Lean 4.33.0's kernel. No axioms of our own; the theorems depend at most on `propext`, `Classical.choice`, `Quot.sound` (`AXIOMS.md`).
  No compiled evaluation is used in any proof. Mathlib is not used.
* That the definitions of `Model`, `Loop`, `Address`, `Scoped`, `Sink`, `Derive`, `Reentrant`, `Multi`, `Weak`, `WeakMsg`, `Span`, `Causal` say what the cited lines do. Each cites its lines.
  As evidence `Conform` replays all 28 tests of `tests/basic.rs` and both of `tests/instrumentation.rs` (31 scripts for `Model`, examples for `Address` and `Span`) call by call, with
  their assertions, on the model; all pass, evaluated by the kernel. `play_reachable`: each replay is an execution of the model. These are tests, they prove nothing more.
* The semantics of dependencies that are not in `/repo`, as stated at the definitions that use them:
  `std::collections::BinaryHeap` (array, sift_up, sift_down_to_bottom), `VecDeque`, `Iterator::max_by_key` (last maximum),
  `Arc`/`Weak` (counted exactly), `std::sync::Mutex` (mutual exclusion, not reentrant, release/acquire), `catty::oneshot` (one value; dropping
  the sender resolves the receiver; dropping the receiver makes send fail), `event_listener::Event` (a listener created before `notify(MAX)` is
  woken), `futures_util::future::{select, map}`, `sink::unfold`.
* Not assumed any more: sequential consistency of the loads of the two counters. In `Model` each load may return an out-of-date value, as far as
  the locks and fences around it permit:
  * `is_connected` itself and the first poll of a send or broadcast (outside the lock): out of date by any length of time
    (`Call.isConnectedStale`, `Call.pollSendStale`);
  * the load of `sender_count` in `try_recv` (under the lock): it may return the earlier value until the last dropper has passed through the lock
    (`Lag`, `Call.flipLag`; the field `lag` is not data of the program);
  * the two loads of `join`: out of date until the last mailbox has notified the listeners (`Call.joinStale`; the field `rang`). That the load
    of `receiver_count` cannot be out of date after that is due to the full fences in `event_listener`; C44 proves it in its memory model.

  So every theorem about `Reachable` states holds however late these loads are, and those about one particular call (`C10_disconnected`,
  `C67_true_was_true`, `C23_created`, …) are about one whose own loads are fresh, among others that may not be. Read-modify-writes of a counter
  see the latest value in every memory model. C44 and C63 prove the bounds used here in models in which a load is bounded only by what the
  thread has been synchronised with.
* Polling a future is exclusive (`&mut`), guaranteed by the borrow checker: in the model an object that is being polled is not accessible to other calls.

## 5. What is not modelled

| code | status |
|---|---|
| the text printed by `impl Debug` | not modelled, except the two numbers in it (C66) |
| `spawn.rs` | the step `PStep.spawn`; each function is `executor.spawn(run(mailbox, actor)); address` (C74). The executors are not modelled: a task takes steps in any order, or is dropped |
| lock poisoning (`Err(_) => return`, `lock().unwrap()`) | modelled in `Poison` for panicking destructors of messages in `shutdown_waiting_senders` (C59); nothing else inside a critical section panics by C31, except wakers and destructors run through temporary upgrades (finding 15), whose panics are not modelled |
| user code that re-enters the channel from a waker or a message's destructor | locks only (`Multi`, C53); its other effects are those of the same calls made elsewhere |
| contents of messages | identity only; the addresses a message owns matter in `Reentrant`, `Multi` |
| counter overflow | modelled in `Counter` (C75): the counters are machine words there, and proved exact thanks to the guard in `Arc::clone`; natural numbers everywhere else |
| `prelude.rs`, re-exports, docs, examples, tests | not modelled |

## 6. Findings (each a machine-checked counterexample against the code as it is)

1. C09: equal-priority messages are *not* handled in send order once four are queued; waiting senders of equal priority enter last-in first-out.
2. C29: with capacity 0 a parked send is never delivered, however often the actor receives.
3. C28, C30: `broadcast_tail` goes stale when a lagging mailbox is dropped: `len` over-reports and broadcasts park for ever on an empty actor.
4. C11: `is_connected` is checked outside the lock: a send may enqueue after the last mailbox cleared the channel; it then never resolves while an address lives.
5. C03: a message handed to a receive future between the cancel check of its destructor and the destruction of its oneshot is lost.
6. C06: messages put back by cancelled receives exceed the capacity.
7. C26: a stop requested by a message handled inside `select`/`join`/nested `yield_once` does not stop the outer loop.
8. C27: `Ord::cmp` on `Address<_, Either>` ignores the strength: `cmp` is `Equal` on unequal addresses.
9. C33, C41: dropping the last mailbox with a queued message that owns the last strong address deadlocks; two actors holding each other's: deadlock across threads.
10. C23: join handles are only notified when mailboxes vanish, not when the last strong address does.
11. C16: `stop_all` is a no-op without strong address.
12. C13: a receive that was already waiting may yield the shutdown notice although a message is queued.
13. C43: cancelled receives, abandoned sends and dropped mailboxes leave entries behind, unboundedly many until the next send, broadcast or receive.
14. C46: `BinaryHeap` breaks ties arbitrarily and `max_by_key` takes the newest parked sender, so among messages of equal priority one can starve: with four messages queued and one send per receive the second one is never handed out; on capacity 1 the oldest parked send is never admitted while new ones keep parking.
15. C41: a critical section looks at broadcast queues and parked sends through a temporary `Weak::upgrade`; if their owner is dropped meanwhile, the messages are destroyed inside the critical section, and one that owns the last strong address deadlocks the thread with itself.
16. C53: wakers are invoked with the channel's mutex held (everywhere except `shutdown_waiting_receivers`): one that uses the channel, or destroys a task owning its last address, deadlocks.
17. C54: actors that await each other in a cycle deadlock; nothing in xtra detects it (expected of the design, but easy to run into: `C54_refuted` needs two messages).
18. C48: `select` and `join` give up a receive future whenever their future completes, so the race of C03 loses messages in programs that drop no task (`C48_select_refuted`): the requester sees `Interrupted` although the actor lives and never received the message.
19. C55: `join` protects actors that await each other from deadlock, except when one of them is stopped meanwhile: its `select` returns, `join` awaits on without serving the mailbox, and the actors deadlock (`C55_refuted`).
20. C59: if the destructor of a queued message panics while the last mailbox is dropped, the rest of `shutdown_waiting_senders` is skipped and the lock is poisoned: sends that were waiting for room are never woken as long as an address exists (`C59_refuted`), although the actor is gone; and `Address::len`, `capacity` and `is_empty` panic from then on.
21. C61: a detached send future that resolved to `Err(Disconnected)` and is polled again resolves to `Ok(receiver)` although nothing was sent (`C61_failed_detached_send_repolled`); the other futures panic when polled after completion.
22. C66: the documentation of `Address` describes three mailboxes with a capacity each. There are two: ordinary and priority messages share one queue,
   so a priority message waits although no priority message is queued (`C66_severally_refuted`); and an ordinary message is taken before a broadcast of
   the default priority (`C66_default_last_refuted`). A divergence of the documentation rather than of the code.
23. C69: a broadcast that waits for room in one mailbox does not keep the address alive (its future gives up its reference when it parks). When the
   last address goes, an actor with an empty mailbox is shut down at once and never receives it, although the broadcast is later delivered to the
   others and its sender is told `Ok` (`C69_refuted`); the documentation says that a broadcast is handled by every actor.

## 7. Testing the theorems against wrong programs

`seeded/mutants*.py` list realistic bugs as edits of the model, with the claims they break; `seeded/harness/` applies each to a scratch copy,
repairs nothing, and checks each manifest theorem separately: a theorem counts as failed if it, or a lemma it depends on, no longer compiles.
Where a supporting lemma fails first, the harness separates theorems whose own statement is affected from collateral failures as far as
dependencies allow. `seeded/LOG.jsonl` has one line per attempt (generated by `tools/seedlog.py`), `seeded/tightened.json` what was tightened.
