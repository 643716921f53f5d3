import Verif.Heap
import Verif.Util
/-!
# The channel and its interleaving semantics

Models `xtra/src/chan.rs`, `chan/waiting_sender.rs`, `chan/waiting_receiver.rs`, `chan/ptr.rs`,
`send_future.rs`, `recv_future.rs`, `mailbox.rs`, `address.rs`, `envelope.rs`, `dispatch_future.rs`,
`context.rs` for one channel.

* `World` is the shared state plus every live object a program may hold.
* `Call` is an API call by user code; `Micro` is one atomic step of the implementation.
* a thread is the list of micro-steps it still has to execute; `Sys.step` lets the scheduler start a
  call on a new thread or execute the next micro-step of any thread.

Ids (of messages, cells, objects, broadcast mailboxes) are list positions; entries are never removed,
so positions are stable.
-/

namespace Xtra

/-- An envelope (xtra/src/envelope.rs:41-47 and 154-159): identity (which `send`/`broadcast` call made
it) and priority. The payload is represented by the identity. -/
structure Msg where
  id : Nat
  prio : Prio
  deriving DecidableEq, Repr

/-- `impl Ord for ByPriority` (xtra/src/chan/priority.rs:51-58): compare priorities only. -/
def Msg.le (a b : Msg) : Bool := a.prio.ble b.prio

/-- Reference-count policy of an address pointer: `TxStrong`, `TxWeak`, `TxEither`
(xtra/src/chan/ptr.rs:120-171). -/
inductive Rc where
  | strong
  | weak
  | eitherStrong
  | eitherWeak
  deriving DecidableEq, Repr

/-- `RefCounter::is_strong` (xtra/src/chan/ptr.rs:248-250, 260-262, 280-285). -/
def Rc.isStrong : Rc → Bool
  | .strong => true
  | .weak => false
  | .eitherStrong => true
  | .eitherWeak => false

/-- `impl From<TxStrong/TxWeak> for TxEither` (xtra/src/chan/ptr.rs:211-221), and identity on either. -/
def Rc.toEither : Rc → Rc
  | .strong => .eitherStrong
  | .weak => .eitherWeak
  | .eitherStrong => .eitherStrong
  | .eitherWeak => .eitherWeak

/-- Shared state of a `WaitingSender` and its `Handle` (xtra/src/chan/waiting_sender.rs:99-103);
`gone` means the `WaitingSender` was dropped, i.e. `Weak::strong_count == 0`. The argument of
`delivered`/`closed` is a ghost: the waker that was woken when that state was entered. -/
inductive WsCell where
  | active (waker : Option Nat) (m : Msg)
  | delivered (woken : Option Nat)
  | closed (woken : Option Nat)
  | gone
  deriving DecidableEq, Repr

/-- `CtrlMsg` (xtra/src/chan/waiting_receiver.rs:99-103). -/
inductive Ctrl where
  | newMessage (m : Msg)
  | newBroadcast
  | shutdown
  deriving DecidableEq, Repr

/-- The `catty` oneshot between a `WaitingReceiver` and its `Handle`
(xtra/src/chan/waiting_receiver.rs:10-16). Assumed semantics of catty: `send` fails iff the receiver
was dropped, otherwise stores the value and wakes the registered waker; `try_recv`/`poll` take a stored
value out. `used`: value taken out. `gone`: receiver half dropped. `woken` is a ghost as above. -/
inductive RxCell where
  | empty (waker : Option Nat)
  | full (c : Ctrl) (woken : Option Nat)
  | used
  | gone
  deriving DecidableEq, Repr

/-- The reply oneshot of a `ReturningEnvelope` (xtra/src/envelope.rs:41-47), indexed by message id;
`none` for broadcasts, which have no reply. -/
inductive Resp where
  | none
  | waiting (waker : Option Nat)
  | value (r : Nat) (woken : Option Nat)
  | interrupted (woken : Option Nat)
  deriving DecidableEq, Repr

/-- One `EventListener` on `Chan::on_shutdown` (xtra/src/chan.rs:43). -/
inductive LCell where
  | waiting (waker : Option Nat)
  | notified (woken : Option Nat)
  deriving DecidableEq, Repr

/-- `ActorMessage` (xtra/src/chan.rs:447-451). -/
inductive AMsg where
  | one (m : Msg)
  | all (m : Msg)
  | shutdown
  deriving DecidableEq, Repr

/-- An `Arc<BroadcastQueue>` (xtra/src/chan.rs:26): strong count and heap array. -/
structure BQ where
  refs : Nat
  items : List Msg
  deriving DecidableEq, Repr

/-- State type parameter of `SendFuture` (xtra/src/send_future.rs:33-41). -/
inductive Mode where
  | ret
  | detached
  | bcast
  deriving DecidableEq, Repr

/-- `Sending` (xtra/src/send_future.rs:172-176). -/
inductive Sending where
  | new (m : Msg) (rc : Rc)
  | waiting (w : Nat)
  | done
  deriving DecidableEq, Repr

/-- `Receiving` (xtra/src/recv_future.rs:62-69), `Done` being represented by `Obj.gone`. -/
inductive Recv where
  | new
  | waiting (c : Nat)
  deriving DecidableEq, Repr

/-- Everything user code can hold. `busy`: mutably borrowed or consumed by a running call.
`gone`: consumed, dropped or completed. -/
inductive Obj where
  /-- `Address<A, Rc>` (address.rs:65) or a `MessageChannel` wrapping one (message_channel.rs:69) -/
  | addr (rc : Rc)
  /-- `SendFuture` (send_future.rs:27-30), named or erased -/
  | send (md : Mode) (mid : Nat) (s : Sending)
  /-- detached `Receiver<R>` (send_future.rs:352) -/
  | reply (mid : Nat)
  /-- `Mailbox<A>` (mailbox.rs:11-14) with its broadcast queue -/
  | mailbox (b : Nat)
  /-- `ReceiveFuture<A>` (recv_future.rs:27) -/
  | recv (b : Nat) (s : Recv)
  /-- `Message<A>` (recv_future.rs:30-35) or an unpolled `DispatchFuture` (dispatch_future.rs:105-110) -/
  | message (b : Nat) (am : AMsg)
  /-- polled `DispatchFuture`: the handler is executing; `running` is `Context::running` (context.rs:6) -/
  | dispatch (b : Nat) (am : AMsg) (running : Bool)
  /-- `ActorJoinHandle` (address.rs:251) -/
  | join (l : Option Nat)
  | busy
  | gone
  deriving DecidableEq, Repr

/-- Observable history (newest first in `World.log`). -/
inductive Ev where
  /-- a send future resolved to `Err(Disconnected)` -/
  | sendErr (f : Nat) (mid : Nat)
  /-- a detached or broadcast send future resolved to `Ok` -/
  | sendOk (f : Nat) (mid : Nat)
  /-- poll of a send future returned `Pending` -/
  | sendPending (f : Nat) (mid : Nat) (wk : Nat)
  /-- reply of message `mid` observed as `Ok(r)` -/
  | replyOk (f : Nat) (mid : Nat) (r : Nat)
  /-- reply of message `mid` observed as `Err(Interrupted)` -/
  | replyInt (f : Nat) (mid : Nat)
  /-- a receive future on mailbox `b` yielded `am` -/
  | recv (r : Nat) (b : Nat) (am : AMsg)
  | recvPending (r : Nat) (wk : Nat)
  /-- broadcast `m` accepted: put into exactly these mailboxes -/
  | bsent (m : Msg) (targets : List Nat)
  /-- the critical section of a send of `mid` ran although no mailbox was left (the connectivity
  check happens before the lock is taken) -/
  | late (mid : Nat)
  /-- unicast message destroyed before any receive future yielded it -/
  | dropped (mid : Nat)
  /-- unicast message destroyed inside a dropped receive future -/
  | lost (mid : Nat)
  /-- a receive future put a handed-over message back -/
  | requeued (mid : Nat)
  /-- received message destroyed without a completed handler -/
  | discarded (mid : Nat)
  /-- handler of unicast message completed with return value -/
  | handled (mid : Nat) (r : Nat)
  /-- dispatch on mailbox `b` of `am` finished; `brk` = `ControlFlow::Break` -/
  | flow (b : Nat) (am : AMsg) (brk : Bool)
  | connected (i : Nat) (ans : Bool)
  | len (i : Nat) (ans : Nat)
  | upgraded (i : Nat) (ans : Bool)
  | joined (j : Nat)
  | joinPending (j : Nat) (wk : Nat)
  /-- `send` (`bc = false`) or `broadcast` (`bc = true`) made the future `f` for message `mid` -/
  | made (f : Nat) (mid : Nat) (bc : Bool)
  /-- `SendFuture::priority` set the priority of message `mid` -/
  | prioSet (mid : Nat) (p : Nat)
  /-- `SendFuture::priority` panicked on the already polled future of `mid` -/
  | prioPanic (f : Nat) (mid : Nat)
  /-- an internal `unwrap`/`expect` failed -/
  | panic
  deriving DecidableEq, Repr

/-- What the load of `sender_count` in `try_recv` (chan.rs:187) returns once the counter has reached 0. The load is made under the lock, but
the last `fetch_sub` (chan.rs:84) is not, so until the thread that did it has passed through the lock itself (chan.rs:90) the load may
return the earlier, non-zero value, at any of the receives, in any pattern. After that the lock orders the load behind the `fetch_sub`. -/
inductive Lag where
  /-- the next loads are up to date -/
  | fresh
  /-- the next loads return an earlier, non-zero value -/
  | late
  /-- the last dropper has passed through the lock: all loads are up to date from now on -/
  | swept
  deriving DecidableEq, Repr

/-- The other choice, as long as there is one. -/
def Lag.flip : Lag → Lag
  | .fresh => .late
  | .late => .fresh
  | .swept => .swept

/-- `Chan` and `Inner` (xtra/src/chan.rs:41-46, 305-313) and all stores. -/
structure World where
  /-- `Inner::capacity` -/
  cap : Option Nat
  /-- `Inner::waiting_send_to_one` (handles, front first) -/
  wOne : List Nat
  /-- `Inner::waiting_send_to_all` -/
  wAll : List Nat
  /-- `Inner::waiting_receivers_handles` -/
  wRx : List Nat
  /-- `Inner::unicast_queue` (heap array) -/
  uq : List Msg
  /-- `Inner::broadcast_queues` (weak pointers) -/
  bqs : List Nat
  /-- `Inner::broadcast_tail` -/
  tail : Nat
  /-- `Chan::sender_count` -/
  sc : Nat
  /-- `Chan::receiver_count` -/
  rcv : Nat
  /-- not data of the program: see `Lag` -/
  lag : Lag
  /-- not data of the program: `on_shutdown` has been notified (chan.rs:250) -/
  rang : Bool
  ws : List WsCell
  cells : List RxCell
  bq : List BQ
  resp : List Resp
  lst : List LCell
  objs : List Obj
  log : List Ev
  deriving DecidableEq, Repr

namespace World

/-- Overwrite an object slot. -/
def setObj (w : World) (i : Nat) (o : Obj) : World := { w with objs := w.objs.set i o }

/-- A new object. -/
def addObj (w : World) (o : Obj) : World := { w with objs := w.objs ++ [o] }

/-- Record an observable event. -/
def ev (w : World) (e : Ev) : World := { w with log := e :: w.log }

/-- Array of the broadcast queue `b`. -/
def items (w : World) (b : Nat) : List Msg :=
  match w.bq[b]? with
  | some q => q.items
  | none => []

/-- `Weak::upgrade` succeeds on queue `b`. -/
def alive (w : World) (b : Nat) : Bool :=
  match w.bq[b]? with
  | some q => decide (0 < q.refs)
  | none => false

/-- `Arc::clone` of a broadcast queue. -/
def incBq (w : World) (b : Nat) : World :=
  match w.bq[b]? with
  | some q => { w with bq := w.bq.set b { q with refs := q.refs + 1 } }
  | none => w

/-- Drop of an `Arc<BroadcastQueue>`; at zero the heap and its contents are freed. -/
def decBq (w : World) (b : Nat) : World :=
  match w.bq[b]? with
  | some q =>
    if q.refs ≤ 1 then { w with bq := w.bq.set b { refs := 0, items := [] } }
    else { w with bq := w.bq.set b { q with refs := q.refs - 1 } }
  | none => w

end World

/-- Dropping the `result_sender` of an envelope: a waiting reply future becomes `Err(Interrupted)`
and its waker is woken (catty). -/
def Resp.interrupt : Resp → Resp
  | .waiting wk => .interrupted wk
  | r => r

/-- `result_sender.send(r)` (xtra/src/envelope.rs:121-125). -/
def Resp.fulfil (v : Nat) : Resp → Resp
  | .waiting wk => .value v wk
  | r => r

/-- Destroy an envelope that no receive future has yielded. -/
def World.kill (w : World) (m : Msg) : World :=
  { w with resp := w.resp.modify m.id Resp.interrupt, log := .dropped m.id :: w.log }

/-- Destroy several envelopes. -/
def World.killAll (w : World) : List Msg → World
  | [] => w
  | m :: ms => (w.kill m).killAll ms

/-! ## Critical sections of `Inner` -/

/-- `Inner::is_unicast_full` (xtra/src/chan.rs:421-424). -/
def World.uniFull (w : World) : Bool :=
  match w.cap with
  | none => false
  | some c => decide (c ≤ w.uq.length)

/-- `Inner::is_broadcast_full` (xtra/src/chan.rs:416-419). -/
def World.bcFull (w : World) : Bool :=
  match w.cap with
  | none => false
  | some c => decide (c ≤ w.tail)

/-- `Inner::try_fulfill_receiver` with `Handle::notify_new_message`
(xtra/src/chan.rs:385-394, waiting_receiver.rs:39-46): pop handles from the front until one accepts.
Returns cells, remaining handles, and whether the message was handed over. -/
def fulfil (cells : List RxCell) : List Nat → Msg → List RxCell × List Nat × Bool
  | [], _ => (cells, [], false)
  | c :: cs, m =>
    match cells[c]? with
    | some (.empty wk) => (cells.set c (.full (.newMessage m) wk), cs, true)
    | _ => fulfil cells cs m

/-- One `Handle::notify_new_broadcast` / `notify_channel_shutdown` (waiting_receiver.rs:18-30): fails
silently if the receiver half is gone. -/
def notifyCell (cells : List RxCell) (c : Nat) (k : Ctrl) : List RxCell :=
  match cells[c]? with
  | some (.empty wk) => cells.set c (.full k wk)
  | _ => cells

/-- `Handle::is_active` (waiting_sender.rs:24-26): the sender future still exists. -/
def wsActive (ws : List WsCell) (h : Nat) : Bool :=
  match ws[h]? with
  | some .gone => false
  | none => false
  | _ => true

/-- `Handle::priority` (waiting_sender.rs:71-79). -/
def wsPrio (ws : List WsCell) (h : Nat) : Option Prio :=
  match ws[h]? with
  | some (.active _ m) => some m.prio
  | _ => none

/-- Strict `<` on `Option<Priority>`. -/
def optLt : Option Prio → Option Prio → Bool
  | none, none => false
  | none, some _ => true
  | some _, none => false
  | some a, some b => a.blt b

/-- `iter().enumerate().max_by_key(..)` (xtra/src/chan.rs:435-439): position of a maximal key; of
several maxima `Iterator::max_by_key` returns the **last**. -/
def lastMax : List (Option Prio) → Option (Nat × Option Prio)
  | [] => none
  | k :: ks =>
    match lastMax ks with
    | none => some (0, k)
    | some (p, k') => if optLt k' k then some (0, k) else some (p + 1, k')

/-- `try_take_waiting_unicast_message` / `try_take_waiting_broadcast_message` with
`find_remove_highest_priority` and `Handle::take_message` (xtra/src/chan.rs:396-414, 427-442;
waiting_sender.rs:31-45). Returns cells, remaining handles and the taken message. The loop is bounded
by the queue length because each round removes a handle. -/
def takeWaiting : Nat → List WsCell → List Nat → List WsCell × List Nat × Option Msg
  | 0, ws, q => (ws, q, none)
  | n + 1, ws, q =>
    let q1 := q.filter (wsActive ws)
    match lastMax (q1.map (wsPrio ws)) with
    | none => (ws, q1, none)
    | some (p, _) =>
      match q1[p]? with
      | none => (ws, q1, none)
      | some h =>
        match ws[h]? with
        | some (.active wk m) => (ws.set h (.delivered wk), q1.eraseIdx p, some m)
        | _ => takeWaiting n (ws.set h (.delivered none)) (q1.eraseIdx p)

/-- `Inner::pop_unicast` (xtra/src/chan.rs:328-338). -/
def World.popUnicast (w : World) : Option (Msg × World) :=
  match Heap.pop Msg.le w.uq with
  | none => none
  | some (m, q) =>
    let w1 := { w with uq := q }
    if w1.uniFull then some (m, w1)
    else
      match takeWaiting (w1.wOne.length + 1) w1.ws w1.wOne with
      | (ws, q', some m') => some (m, { w1 with ws := ws, wOne := q', uq := Heap.push Msg.le w1.uq m' })
      | (ws, q', none) => some (m, { w1 with ws := ws, wOne := q' })

/-- Push a broadcast into queue `b` (`q.lock().push(..)`, xtra/src/chan.rs:372). -/
def pushBq (m : Msg) (bq : List BQ) (b : Nat) : List BQ :=
  match bq[b]? with
  | some q => bq.set b { q with items := Heap.push Msg.le q.items m }
  | none => bq

/-- `Inner::send_broadcast` (xtra/src/chan.rs:369-383). -/
def World.sendBroadcast (w : World) (m : Msg) : World :=
  let live := w.bqs.filter w.alive
  { w with
    bqs := live
    bq := live.foldl (pushBq m) w.bq
    cells := w.wRx.foldl (fun cs c => notifyCell cs c .newBroadcast) w.cells
    wRx := []
    tail := w.tail + 1
    log := .bsent m live :: w.log }

/-- `Inner::longest_broadcast_queue` (xtra/src/chan.rs:357-367). -/
def World.longest (w : World) : Nat :=
  w.bqs.foldl (fun acc b => if w.alive b then max acc (w.items b).length else acc) 0

/-- `Inner::pop_broadcast` (xtra/src/chan.rs:340-355). -/
def World.popBroadcast (w : World) (b : Nat) : Option (Msg × World) :=
  match w.bq[b]? with
  | none => none
  | some q =>
    match Heap.pop Msg.le q.items with
    | none => none
    | some (m, items) =>
      let w1 := { w with bq := w.bq.set b { q with items := items } }
      let w2 := { w1 with tail := w1.longest }
      if w2.bcFull then some (m, w2)
      else
        match takeWaiting (w2.wAll.length + 1) w2.ws w2.wAll with
        | (ws, q', some m') => some (m, ({ w2 with ws := ws, wAll := q' }).sendBroadcast m')
        | (ws, q', none) => some (m, { w2 with ws := ws, wAll := q' })

/-- Result of `Chan::try_recv`. -/
inductive RecvOut where
  | ready (am : AMsg)
  | wait (c : Nat)
  | panic
  deriving DecidableEq, Repr

/-- `Chan::try_recv` (xtra/src/chan.rs:161-197). -/
def World.tryRecv (w : World) (b : Nat) : World × RecvOut :=
  let bp := (Heap.peek (w.items b)).map Msg.prio
  let sp := (Heap.peek w.uq).map Msg.prio
  match Prio.cmpOpt sp bp, sp with
  | .lt, _ =>
    match w.popBroadcast b with
    | some (m, w') => (w', .ready (.all m))
    | none => (w, .panic)
  | _, some _ =>
    match w.popUnicast with
    | some (m, w') => (w', .ready (.one m))
    | none => (w, .panic)
  | _, none =>
    if w.sc = 0 ∧ w.lag ≠ .late then (w, .ready .shutdown)
    else ({ w with cells := w.cells ++ [.empty none], wRx := w.wRx ++ [w.cells.length] },
          .wait w.cells.length)

/-- Result of `Chan::try_send_to_one` / `try_send_to_all` inside the lock. -/
inductive SendOut where
  | sent
  | parked (w : Nat)
  deriving DecidableEq, Repr

/-- Critical section of `Chan::try_send_to_one` (xtra/src/chan.rs:115-132). -/
def World.sendOne (w : World) (m : Msg) : World × SendOut :=
  match fulfil w.cells w.wRx m with
  | (cells, rest, true) => ({ w with cells := cells, wRx := rest }, .sent)
  | (cells, rest, false) =>
    let w1 := { w with cells := cells, wRx := rest }
    if w1.uniFull then
      ({ w1 with ws := w1.ws ++ [.active none m], wOne := w1.wOne ++ [w1.ws.length] },
        .parked w1.ws.length)
    else ({ w1 with uq := Heap.push Msg.le w1.uq m }, .sent)

/-- Critical section of `Chan::try_send_to_all` (xtra/src/chan.rs:147-158). -/
def World.sendAll (w : World) (m : Msg) : World × SendOut :=
  if w.bcFull then
    ({ w with ws := w.ws ++ [.active none m], wAll := w.wAll ++ [w.ws.length] }, .parked w.ws.length)
  else (w.sendBroadcast m, .sent)

/-- Critical section of `Chan::requeue_message` (xtra/src/chan.rs:286-295). -/
def World.requeue (w : World) (m : Msg) : World :=
  match fulfil w.cells w.wRx m with
  | (cells, rest, true) => { w with cells := cells, wRx := rest, log := .requeued m.id :: w.log }
  | (cells, rest, false) =>
    { w with cells := cells, wRx := rest, uq := Heap.push Msg.le w.uq m,
             log := .requeued m.id :: w.log }

/-- `Drop for waiting_sender::Handle` (waiting_sender.rs:48-65): an active sender is closed, its
waker woken, its message destroyed. -/
def World.closeHandle (w : World) (h : Nat) : World :=
  match w.ws[h]? with
  | some (.active wk m) => ({ w with ws := w.ws.set h (.closed wk) }).kill m
  | _ => w

/-- Drop a queue of handles. -/
def World.closeHandles (w : World) : List Nat → World
  | [] => w
  | h :: hs => (w.closeHandle h).closeHandles hs

/-- `EventListener`s notified by `notify(usize::MAX)`. -/
def LCell.notify : LCell → LCell
  | .waiting wk => .notified wk
  | l => l

/-- Critical section of `Chan::shutdown_waiting_senders` (xtra/src/chan.rs:244-259): notify join
handles, drop queued messages, forget broadcast queues, drop parked sender handles.
Simplification: the messages carry no addresses of this same channel (see `Verif/Reentrant.lean` for
messages that do). -/
def World.shutTx (w : World) : World :=
  let w1 := { w with lst := w.lst.map LCell.notify, rang := true }
  let w2 := ({ w1 with uq := [], bqs := [] }).killAll w1.uq
  let w3 := ({ w2 with wOne := [] }).closeHandles w2.wOne
  ({ w3 with wAll := [] }).closeHandles w3.wAll

/-! ## Micro-steps -/

/-- One atomic step of a running API call. -/
inductive Micro where
  /-- `Sending::poll`, state `New`: load of `receiver_count` in `is_connected`
  (send_future.rs:189/221, chan.rs:109/139, 200) -/
  | sendLd1 (f : Nat) (md : Mode) (m : Msg) (rc : Rc) (wk : Nat)
  /-- load of `sender_count` (chan.rs:201) -/
  | sendLd2 (f : Nat) (md : Mode) (m : Msg) (rc : Rc) (wk : Nat)
  /-- critical section of `try_send_to_one`/`try_send_to_all` -/
  | sendCrit (f : Nat) (md : Mode) (m : Msg) (rc : Rc) (wk : Nat)
  /-- `WaitingSender::poll` (waiting_sender.rs:82-97) within `Sending::poll` (send_future.rs:195-203) -/
  | pollWs (f : Nat) (md : Mode) (mid : Nat) (w : Nat) (wk : Nat)
  /-- rest of `SendFuture::poll` after the message was queued (send_future.rs:315-317, 334, 344) -/
  | sendFin (f : Nat) (md : Mode) (mid : Nat) (wk : Nat)
  /-- drop of a parked `WaitingSender` -/
  | dropWs (w : Nat)
  /-- `Ptr<A, Tx..>::drop`: `sender_count.fetch_sub` (chan.rs:82-91) -/
  | dropTx (rc : Rc)
  /-- critical section of `shutdown_waiting_receivers` (chan.rs:214-226) -/
  | shutRx
  /-- one `notify_channel_shutdown` outside the lock (chan.rs:228-230) -/
  | notifyShut (c : Nat)
  /-- `Ptr<A, Rx>::drop`: `receiver_count.fetch_sub` (chan.rs:64-73) -/
  | dropRx
  /-- critical section of `shutdown_waiting_senders` (chan.rs:244-259) -/
  | shutTx
  /-- drop of an `Arc<BroadcastQueue>` -/
  | dropBq (b : Nat)
  /-- `Receiving::poll`, state `New`: `try_recv` (recv_future.rs:141-159) -/
  | recvTry (r : Nat) (b : Nat) (wk : Nat)
  /-- `Receiving::poll`, state `Waiting`: poll of the oneshot (recv_future.rs:160-179, waiting_receiver.rs:75-96) -/
  | recvPoll (r : Nat) (b : Nat) (c : Nat) (wk : Nat)
  /-- `next_broadcast_message` after a broadcast wake-up (waiting_receiver.rs:89-92) -/
  | recvBcast (r : Nat) (b : Nat) (c : Nat) (wk : Nat)
  /-- `Waiting::drop`: `waiting_receiver.cancel()` (recv_future.rs:122-131, waiting_receiver.rs:63-68) -/
  | cancel (b : Nat) (c : Nat)
  /-- critical section of `requeue_message` -/
  | requeue (m : Msg)
  /-- drop of the oneshot receiver, last field of `Waiting` (recv_future.rs:79-83) -/
  | dropCell (c : Nat)
  /-- drop of an unsent envelope -/
  | dropMsg (m : Msg)
  /-- drop of a received message without completed handler -/
  | discard (am : AMsg)
  /-- handler returned `r`: reply and control flow (envelope.rs:105-128, 195-210) -/
  | respond (b : Nat) (am : AMsg) (r : Nat) (brk : Bool)
  /-- critical section of `new_broadcast_mailbox` (chan.rs:94-103) in `Mailbox::clone` (mailbox.rs:70-75);
  the new `Mailbox` goes to slot `o` -/
  | newBq (o : Nat)
  /-- critical section of `shutdown_all_receivers` (chan.rs:233-241) -/
  | bcastShutdown
  /-- the two loads of `Address::is_connected` (chan.rs:199-202) -/
  | conn1 (i : Nat)
  | conn2 (i : Nat)
  /-- the two loads of `disconnect_listener` after `listen()` (chan.rs:261-277); handle in slot `o` -/
  | join1 (o : Nat) (l : Nat)
  | join2 (o : Nat) (l : Nat)
  deriving DecidableEq, Repr

/-- Turn the popped / handed-over message into the `Message` the receive future resolves to; the
receive future's slot becomes the `Message` (recv_future.rs:145-151, 161-167). -/
def World.yieldMsg (w : World) (r b : Nat) (am : AMsg) : World :=
  ({ w with objs := w.objs.set r (.message b am) }).ev (.recv r b am)

/-- Continuation of `Sending::poll` after the critical section: drop the pointer (end of the match
arm, send_future.rs:189-194), then finish or poll the `WaitingSender`. -/
def afterSend (f : Nat) (md : Mode) (mid : Nat) (rc : Rc) (wk : Nat) : SendOut → List Micro
  | .sent => [.dropTx rc, .sendFin f md mid wk]
  | .parked h => [.dropTx rc, .pollWs f md mid h wk]

/-- Ghost: record that the critical section of a send runs although the last mailbox is gone. -/
def World.lateLog (w : World) (m : Msg) : List Ev :=
  if w.rcv = 0 then .late m.id :: w.log else w.log

/-- Ghost, see `World.lateLog`. -/
def World.noteLate (w : World) (m : Msg) : World := { w with log := w.lateLog m }

/-- Execute one micro-step; the returned steps are to be executed next by the same thread. -/
def exec (w : World) : Micro → World × List Micro
  | .sendLd1 f md m rc wk =>
    if w.rcv = 0 then (((w.kill m).setObj f .gone).ev (.sendErr f m.id), [.dropTx rc])
    else (w, [.sendLd2 f md m rc wk])
  | .sendLd2 f md m rc wk =>
    if w.sc = 0 then (((w.kill m).setObj f .gone).ev (.sendErr f m.id), [.dropTx rc])
    else (w, [.sendCrit f md m rc wk])
  | .sendCrit f md m rc wk =>
    match md with
    | .bcast =>
      (((w.noteLate m).sendAll m).1, afterSend f md m.id rc wk ((w.noteLate m).sendAll m).2)
    | _ => (((w.noteLate m).sendOne m).1, afterSend f md m.id rc wk ((w.noteLate m).sendOne m).2)
  | .pollWs f md mid h wk =>
    match w.ws[h]? with
    | some (.active _ m) =>
      ((({ w with ws := w.ws.set h (.active (some wk) m) }).setObj f (.send md mid (.waiting h))).ev
        (.sendPending f mid wk), [])
    | some (.delivered _) => ({ w with ws := w.ws.set h .gone }, [.sendFin f md mid wk])
    | some (.closed _) =>
      ((({ w with ws := w.ws.set h .gone }).setObj f .gone).ev (.sendErr f mid), [])
    | _ => ((w.setObj f .gone).ev .panic, [])
  | .sendFin f md mid wk =>
    match md with
    | .bcast => ((w.setObj f .gone).ev (.sendOk f mid), [])
    | .detached => ((w.setObj f (.reply mid)).ev (.sendOk f mid), [])
    | .ret =>
      match w.resp[mid]? with
      | some (.waiting _) =>
        ((({ w with resp := w.resp.set mid (.waiting (some wk)) }).setObj f (.send .ret mid .done)).ev
          (.sendPending f mid wk), [])
      | some (.value r _) => ((w.setObj f .gone).ev (.replyOk f mid r), [])
      | some (.interrupted _) => ((w.setObj f .gone).ev (.replyInt f mid), [])
      | _ => ((w.setObj f .gone).ev .panic, [])
  | .dropWs h =>
    match w.ws[h]? with
    | some (.active _ m) => (({ w with ws := w.ws.set h .gone }).kill m, [])
    | _ => ({ w with ws := w.ws.set h .gone }, [])
  | .dropTx rc =>
    if rc.isStrong then ({ w with sc := w.sc - 1 }, if w.sc = 1 then [.shutRx] else [])
    else (w, [])
  | .shutRx => ({ w with wRx := [], lag := .swept }, w.wRx.map .notifyShut)
  | .notifyShut c => ({ w with cells := notifyCell w.cells c .shutdown }, [])
  | .dropRx => ({ w with rcv := w.rcv - 1 }, if w.rcv = 1 then [.shutTx] else [])
  | .shutTx => (w.shutTx, [])
  | .dropBq b => (w.decBq b, [])
  | .recvTry r b wk =>
    match (w.tryRecv b).2 with
    | .ready am => ((w.tryRecv b).1.yieldMsg r b am, [])
    | .wait c => ((w.tryRecv b).1, [.recvPoll r b c wk])
    | .panic => (((w.tryRecv b).1.setObj r .gone).ev .panic, [])
  | .recvPoll r b c wk =>
    match w.cells[c]? with
    | some (.empty _) =>
      ((({ w with cells := w.cells.set c (.empty (some wk)) }).setObj r (.recv b (.waiting c))).ev
        (.recvPending r wk), [])
    | some (.full (.newMessage m) _) =>
      (({ w with cells := w.cells.set c .gone }).yieldMsg r b (.one m), [])
    | some (.full .shutdown _) =>
      (({ w with cells := w.cells.set c .gone }).yieldMsg r b .shutdown, [])
    | some (.full .newBroadcast _) =>
      ({ w with cells := w.cells.set c .used }, [.recvBcast r b c wk])
    | _ => ((w.setObj r .gone).ev .panic, [])
  | .recvBcast r b c wk =>
    match w.popBroadcast b with
    | some (m, w') => (({ w' with cells := w'.cells.set c .gone }).yieldMsg r b (.all m), [])
    | none => ({ w with cells := w.cells.set c .gone }, [.recvTry r b wk])
  | .cancel b c =>
    match w.cells[c]? with
    | some (.full (.newMessage m) _) =>
      ({ w with cells := w.cells.set c .used }, [.requeue m, .dropRx, .dropBq b, .dropCell c])
    | some (.full _ _) =>
      ({ w with cells := w.cells.set c .used }, [.dropRx, .dropBq b, .dropCell c])
    | _ => (w, [.dropRx, .dropBq b, .dropCell c])
  | .requeue m => (w.requeue m, [])
  | .dropCell c =>
    match w.cells[c]? with
    | some (.full (.newMessage m) _) =>
      ({ w with cells := w.cells.set c .gone, resp := w.resp.modify m.id Resp.interrupt,
                log := .lost m.id :: w.log }, [])
    | _ => ({ w with cells := w.cells.set c .gone }, [])
  | .dropMsg m => (w.kill m, [])
  | .discard am =>
    match am with
    | .one m =>
      ({ w with resp := w.resp.modify m.id Resp.interrupt, log := .discarded m.id :: w.log }, [])
    | _ => (w, [])
  | .respond b am r brk =>
    match am with
    | .one m =>
      ({ w with resp := w.resp.modify m.id (Resp.fulfil r),
                log := .flow b am brk :: .handled m.id r :: w.log }, [])
    | _ => (w.ev (.flow b am brk), [])
  | .newBq o =>
    ({ w with bq := w.bq ++ [⟨1, []⟩], bqs := w.bqs ++ [w.bq.length],
              objs := w.objs.set o (.mailbox w.bq.length) }, [])
  | .bcastShutdown =>
    (({ w with resp := w.resp ++ [Resp.none] }).sendBroadcast ⟨w.resp.length, .shutdown⟩, [])
  | .conn1 i => if w.rcv = 0 then (w.ev (.connected i false), []) else (w, [.conn2 i])
  | .conn2 i => (w.ev (.connected i (decide (0 < w.sc))), [])
  | .join1 o l => if w.rcv = 0 then (w.setObj o (.join none), []) else (w, [.join2 o l])
  | .join2 o l =>
    if w.sc = 0 then (w.setObj o (.join none), []) else (w.setObj o (.join (some l)), [])

/-! ## API calls -/

/-- An API call. Indices refer to `World.objs`. -/
inductive Call where
  /-- `Address::clone` / `MessageChannel::clone` (address.rs:271-275) -/
  | cloneAddr (i : Nat)
  /-- `downgrade` (address.rs:101-103, 109-111) -/
  | downgrade (i : Nat)
  /-- `as_either` (address.rs:120-122) -/
  | asEither (i : Nat)
  /-- `WeakAddress::try_upgrade` (address.rs:91-93) -/
  | upgrade (i : Nat)
  | dropAddr (i : Nat)
  /-- `is_connected` (address.rs:154-156) -/
  | isConnected (i : Nat)
  /-- `is_connected` (chan.rs:199-202) whose two loads both return out-of-date values. The counters are loaded outside the lock, and
  nothing orders these loads after the `Relaxed`/`Release` updates by other threads (chan.rs:60,66,78,84), so a load may return an
  earlier value. An earlier value is never 0 (C15: a counter that is 0 stays 0), so all it can do is to make the answer `true`. Over-
  approximation: here the answer may be out of date by any length of time, even if the caller has learnt of the disconnection otherwise. -/
  | isConnectedStale (i : Nat)
  /-- Not a call of the API: the environment decides that the loads of `sender_count` by `try_recv` (chan.rs:187) from now on return the
  earlier value, or from now on the current one (see `Lag`). -/
  | flipLag
  /-- `len` (address.rs:161-163) -/
  | len (i : Nat)
  /-- `Address::send` (address.rs:183-192) / `MessageChannel::send` -/
  | send (i : Nat)
  /-- `Address::broadcast` (address.rs:199-205) -/
  | broadcast (i : Nat)
  /-- `SendFuture::priority` (send_future.rs:65-69) with `SetPriority for Sending`
  (send_future.rs:382-415): panics unless the state is `New`; `self` is taken by value, so the
  unwinding drops the future -/
  | setPrio (f : Nat) (p : Nat)
  /-- `SendFuture::detach` (send_future.rs:50-55) -/
  | detach (f : Nat)
  | pollSend (f : Nat) (wk : Nat)
  /-- First poll of a send whose check `is_connected` (chan.rs:98-100, 108-110) read out-of-date values (see `isConnectedStale`) and let the
  send pass. If only one of the loads is out of date, the poll is either this one (both say connected) or `pollSend` (one says not). -/
  | pollSendStale (f : Nat) (wk : Nat)
  | dropSend (f : Nat)
  /-- poll of a detached `Receiver` (send_future.rs:354-363) -/
  | pollReply (o : Nat) (wk : Nat)
  /-- drop of a detached `Receiver`; the later `result_sender.send` fails silently (envelope.rs:121-125) -/
  | dropReply (o : Nat)
  /-- `Mailbox::clone` (mailbox.rs:69-76) -/
  | cloneMailbox (i : Nat)
  /-- `Mailbox::address` (mailbox.rs:49-51) -/
  | address (i : Nat)
  /-- `Mailbox::next` (mailbox.rs:54-56) -/
  | next (i : Nat)
  | dropMailbox (i : Nat)
  | pollRecv (r : Nat) (wk : Nat)
  | dropRecv (r : Nat)
  /-- drop of a `Message` or of an unpolled `DispatchFuture` -/
  | dropMessage (o : Nat)
  /-- `Message::dispatch_to` and first poll (dispatch_future.rs:17-26, 88-103, 130-135) -/
  | dispatch (o : Nat)
  /-- `Context::stop_self` in the running handler (context.rs:13-15) -/
  | stopSelf (o : Nat)
  /-- `Context::stop_all` in the running handler (context.rs:30-35) -/
  | stopAll (o : Nat)
  /-- the handler's future completes with `r` -/
  | finish (o : Nat) (r : Nat)
  /-- drop of a polled, unfinished `DispatchFuture` -/
  | dropDispatch (o : Nat)
  /-- `Address::join` (address.rs:210-212) -/
  | join (i : Nat)
  /-- `Address::join` whose two loads in `is_connected` (chan.rs:199-202, called from chan.rs:272) return out-of-date values, so that the handle
  gets a listener. The load of `sender_count` may be out of date at any time. That of `receiver_count` cannot be, once the last mailbox has
  notified the listeners: `listen` and `notify` contain full fences, so either `notify` sees the listener or the load sees 0 (C44 proves
  this of the memory model of C11). If only one of the loads is out of date, the call is either this one or `join`. -/
  | joinStale (i : Nat)
  | pollJoin (j : Nat) (wk : Nat)
  /-- drop of an `ActorJoinHandle` -/
  | dropJoin (j : Nat)
  deriving DecidableEq, Repr

/-- The broadcast mailbox reachable through a `Mailbox` or through `Context::mailbox` in a handler. -/
def Obj.mbox : Obj → Option Nat
  | .mailbox b => some b
  | .dispatch b _ _ => some b
  | _ => none

/-- `RefCounter::make_new` for transmitters (ptr.rs:237-278): strong policies bump `sender_count`. -/
def World.addTx (w : World) (rc : Rc) : World :=
  { w with sc := if rc.isStrong then w.sc + 1 else w.sc }

/-- Start an API call: `none` if the object is not of the right kind (the Rust type system rules it
out). The first atomic action is merged into the call. -/
def call (w : World) : Call → Option (World × List Micro)
  | .cloneAddr i =>
    match w.objs[i]? with
    | some (.addr rc) => some ((w.addTx rc).addObj (.addr rc), [])
    | _ => none
  | .downgrade i =>
    match w.objs[i]? with
    | some (.addr _) => some (w.addObj (.addr .weak), [])
    | _ => none
  | .asEither i =>
    match w.objs[i]? with
    | some (.addr rc) => some ((w.addTx rc).addObj (.addr rc.toEither), [])
    | _ => none
  | .upgrade i =>
    match w.objs[i]? with
    | some (.addr .weak) =>
      if w.sc = 0 then some (w.ev (.upgraded i false), [])
      else some ((({ w with sc := w.sc + 1 }).addObj (.addr .strong)).ev (.upgraded i true), [])
    | _ => none
  | .dropAddr i =>
    match w.objs[i]? with
    | some (.addr rc) => some (w.setObj i .gone, [.dropTx rc])
    | _ => none
  | .isConnected i =>
    match w.objs[i]? with
    | some (.addr _) => some (w, [.conn1 i])
    | _ => none
  | .isConnectedStale i =>
    match w.objs[i]? with
    | some (.addr _) => some (w.ev (.connected i true), [])
    | _ => none
  | .flipLag => some ({ w with lag := w.lag.flip }, [])
  | .len i =>
    match w.objs[i]? with
    | some (.addr _) => some (w.ev (.len i (w.tail + w.uq.length)), [])
    | _ => none
  | .send i =>
    match w.objs[i]? with
    | some (.addr rc) =>
      some ((({ (w.addTx rc) with resp := w.resp ++ [Resp.waiting none] }).addObj
        (.send .ret w.resp.length (.new ⟨w.resp.length, .valued 0⟩ rc))).ev
        (.made w.objs.length w.resp.length false), [])
    | _ => none
  | .broadcast i =>
    match w.objs[i]? with
    | some (.addr rc) =>
      some ((({ (w.addTx rc) with resp := w.resp ++ [Resp.none] }).addObj
        (.send .bcast w.resp.length (.new ⟨w.resp.length, .valued 0⟩ rc))).ev
        (.made w.objs.length w.resp.length true), [])
    | _ => none
  | .setPrio f p =>
    match w.objs[f]? with
    | some (.send md mid (.new m rc)) =>
      some ((w.setObj f (.send md mid (.new { m with prio := .valued p } rc))).ev (.prioSet mid p), [])
    | some (.send _ mid (.waiting h)) =>
      some ((w.setObj f .gone).ev (.prioPanic f mid), [.dropWs h])
    | some (.send _ mid .done) => some ((w.setObj f .gone).ev (.prioPanic f mid), [])
    | _ => none
  | .detach f =>
    match w.objs[f]? with
    | some (.send .ret mid s) => some (w.setObj f (.send .detached mid s), [])
    | _ => none
  | .pollSend f wk =>
    match w.objs[f]? with
    | some (.send md _ (.new m rc)) => some (w.setObj f .busy, [.sendLd1 f md m rc wk])
    | some (.send md mid (.waiting h)) => some (w.setObj f .busy, [.pollWs f md mid h wk])
    | some (.send md mid .done) => some (w.setObj f .busy, [.sendFin f md mid wk])
    | _ => none
  | .pollSendStale f wk =>
    match w.objs[f]? with
    | some (.send md _ (.new m rc)) => some (w.setObj f .busy, [.sendCrit f md m rc wk])
    | _ => none
  | .dropSend f =>
    match w.objs[f]? with
    | some (.send _ _ (.new m rc)) => some (w.setObj f .gone, [.dropMsg m, .dropTx rc])
    | some (.send _ _ (.waiting h)) => some (w.setObj f .gone, [.dropWs h])
    | some (.send _ _ .done) => some (w.setObj f .gone, [])
    | _ => none
  | .pollReply o wk =>
    match w.objs[o]? with
    | some (.reply mid) =>
      match w.resp[mid]? with
      | some (.waiting _) =>
        some (({ w with resp := w.resp.set mid (.waiting (some wk)) }).ev (.sendPending o mid wk), [])
      | some (.value r _) => some ((w.setObj o .gone).ev (.replyOk o mid r), [])
      | some (.interrupted _) => some ((w.setObj o .gone).ev (.replyInt o mid), [])
      | _ => some (w.ev .panic, [])
    | _ => none
  | .dropReply o =>
    match w.objs[o]? with
    | some (.reply _) => some (w.setObj o .gone, [])
    | _ => none
  | .cloneMailbox i =>
    match (w.objs[i]?).bind Obj.mbox with
    | some _ => some (({ w with rcv := w.rcv + 1 }).addObj .busy, [.newBq w.objs.length])
    | none => none
  | .address i =>
    match (w.objs[i]?).bind Obj.mbox with
    | some _ => some (w.addObj (.addr .weak), [])
    | none => none
  | .next i =>
    match (w.objs[i]?).bind Obj.mbox with
    | some b => some ((({ w with rcv := w.rcv + 1 }).incBq b).addObj (.recv b .new), [])
    | none => none
  | .dropMailbox i =>
    match w.objs[i]? with
    | some (.mailbox b) => some (w.setObj i .gone, [.dropRx, .dropBq b])
    | _ => none
  | .pollRecv r wk =>
    match w.objs[r]? with
    | some (.recv b .new) => some (w.setObj r .busy, [.recvTry r b wk])
    | some (.recv b (.waiting c)) => some (w.setObj r .busy, [.recvPoll r b c wk])
    | _ => none
  | .dropRecv r =>
    match w.objs[r]? with
    | some (.recv b .new) => some (w.setObj r .gone, [.dropRx, .dropBq b])
    | some (.recv b (.waiting c)) => some (w.setObj r .gone, [.cancel b c])
    | _ => none
  | .dropMessage o =>
    match w.objs[o]? with
    | some (.message b am) => some (w.setObj o .gone, [.discard am, .dropRx, .dropBq b])
    | _ => none
  | .dispatch o =>
    match w.objs[o]? with
    | some (.message b am) =>
      match am with
      | .shutdown => some ((w.setObj o .gone).ev (.flow b am true), [.dropRx, .dropBq b])
      | .all m =>
        if m.prio = .shutdown then
          some ((w.setObj o .gone).ev (.flow b am true), [.dropRx, .dropBq b])
        else some (w.setObj o (.dispatch b am true), [])
      | .one _ => some (w.setObj o (.dispatch b am true), [])
    | _ => none
  | .stopSelf o =>
    match w.objs[o]? with
    | some (.dispatch b am _) => some (w.setObj o (.dispatch b am false), [])
    | _ => none
  | .stopAll o =>
    match w.objs[o]? with
    | some (.dispatch _ _ _) =>
      if w.sc = 0 then some (w, [])
      else some ({ w with sc := w.sc + 1 }, [.bcastShutdown, .dropTx .strong])
    | _ => none
  | .finish o r =>
    match w.objs[o]? with
    | some (.dispatch b am running) =>
      some (w.setObj o .gone, [.dropRx, .dropBq b, .respond b am r (!running)])
    | _ => none
  | .dropDispatch o =>
    match w.objs[o]? with
    | some (.dispatch b am _) => some (w.setObj o .gone, [.dropRx, .dropBq b, .discard am])
    | _ => none
  | .join i =>
    match w.objs[i]? with
    | some (.addr _) =>
      some (({ w with lst := w.lst ++ [LCell.waiting none] }).addObj .busy,
        [.join1 w.objs.length w.lst.length])
    | _ => none
  | .joinStale i =>
    match w.objs[i]? with
    | some (.addr _) =>
      if w.rang then none
      else some (({ w with lst := w.lst ++ [LCell.waiting none] }).addObj (.join (some w.lst.length)), [])
    | _ => none
  | .pollJoin j wk =>
    match w.objs[j]? with
    | some (.join none) => some (w.ev (.joined j), [])
    | some (.join (some l)) =>
      match w.lst[l]? with
      | some (.waiting _) =>
        some (({ w with lst := w.lst.set l (.waiting (some wk)) }).ev (.joinPending j wk), [])
      | some (.notified _) => some ((w.setObj j (.join none)).ev (.joined j), [])
      | none => some (w.ev .panic, [])
    | _ => none
  | .dropJoin j =>
    match w.objs[j]? with
    | some (.join _) => some (w.setObj j .gone, [])
    | _ => none

/-! ## Scheduling -/

/-- World plus threads. -/
structure Sys where
  w : World
  th : List (List Micro)
  deriving DecidableEq, Repr

/-- A scheduler decision. -/
inductive Act where
  | call (c : Call)
  | exec (t : Nat)
  deriving DecidableEq, Repr

/-- One scheduler step; `none` if not possible. -/
def Sys.step (s : Sys) : Act → Option Sys
  | .call c =>
    match call s.w c with
    | some (w', ms) => some ⟨w', s.th ++ [ms]⟩
    | none => none
  | .exec t =>
    match s.th[t]? with
    | some (m :: rest) => some ⟨(exec s.w m).1, s.th.set t ((exec s.w m).2 ++ rest)⟩
    | _ => none

/-- All threads have finished. -/
def Sys.idle (s : Sys) : Bool := s.th.all List.isEmpty

/-- Run a schedule. -/
def Sys.run (s : Sys) : List Act → Option Sys
  | [] => some s
  | a :: as => match s.step a with
    | some s' => s'.run as
    | none => none

/-- `Mailbox::bounded(c)` (`some c`) / `Mailbox::unbounded()` (`none`) (mailbox.rs:18-43, chan.rs:31-38):
object 0 is the `Address`, object 1 the `Mailbox` with broadcast queue 0. -/
def init (cap : Option Nat) : Sys :=
  { w := { cap := cap, wOne := [], wAll := [], wRx := [], uq := [], bqs := [0], tail := 0,
           sc := 1, rcv := 1, lag := .fresh, rang := false, ws := [], cells := [], bq := [⟨1, []⟩], resp := [], lst := [],
           objs := [.addr .strong, .mailbox 0], log := [] }
    th := [] }

/-- Reachable by some schedule (any interleaving of any number of threads). -/
inductive Reachable (cap : Option Nat) : Sys → Prop where
  | init : Reachable cap (init cap)
  | step {s s' : Sys} {a : Act} : Reachable cap s → s.step a = some s' → Reachable cap s'

/-- Calls whose loads of the counters return out-of-date values. -/
def Call.stale : Call → Bool
  | .isConnectedStale _ | .pollSendStale .. | .flipLag | .joinStale _ => true
  | _ => false

/-- Reachable by a schedule in which a call starts only when all threads have finished, i.e. API calls
do not overlap (a single-threaded executor). -/
inductive SeqReachable (cap : Option Nat) : Sys → Prop where
  | init : SeqReachable cap (init cap)
  | call {s s' : Sys} {c : Call} : SeqReachable cap s → s.idle = true → c.stale = false →
      s.step (.call c) = some s' →
      SeqReachable cap s'
  | exec {s s' : Sys} {t : Nat} : SeqReachable cap s → s.step (.exec t) = some s' → SeqReachable cap s'

theorem SeqReachable.reachable {cap : Option Nat} {s : Sys} (h : SeqReachable cap s) :
    Reachable cap s := by
  induction h with
  | init => exact .init
  | call _ _ _ hs ih => exact .step ih hs
  | exec _ hs ih => exact .step ih hs

/-- Reachability of the end of a concrete schedule. -/
theorem Reachable.run {cap : Option Nat} {s s' : Sys} {as : List Act} (h : Reachable cap s)
    (hr : s.run as = some s') : Reachable cap s' := by
  induction as generalizing s with
  | nil => simp [Sys.run] at hr; subst hr; exact h
  | cons a as ih =>
    simp only [Sys.run] at hr
    split at hr
    · rename_i s1 hs1
      exact ih (.step h hs1) hr
    · simp at hr

end Xtra
