import Verif.Model
/-!
# Vocabulary of the property statements

Plain definitions over the state (`World`), the history (`World.log`) and whole API calls, used by the
theorems in `Verif/Props*.lean`. Nothing here refers to the invariants or helpers used in the proofs.
-/

namespace Xtra

/-- Rust's `<=` on priorities (derived order, `Verif/Prio.lean`): `Valued(a) <= Valued(b)` iff
`a <= b`, and everything is `<= Shutdown`. -/
instance : LE Prio := ⟨fun a b => a.ble b = true⟩

/-- Rust's `<` on priorities. -/
instance : LT Prio := ⟨fun a b => ¬ b ≤ a⟩

/-! ## Running a whole API call without interruption -/

/-- `Runs w ms w'`: a thread executes the steps `ms` to the end, undisturbed, from `w` to `w'`. -/
inductive Runs : World → List Micro → World → Prop where
  | nil {w : World} : Runs w [] w
  | cons {w w' : World} {m : Micro} {ms : List Micro} :
      Runs (exec w m).1 ((exec w m).2 ++ ms) w' → Runs w (m :: ms) w'

/-- `Does w c w'`: the API call `c`, made in `w`, returns with the world in `w'`, nobody interfering. -/
def Does (w : World) (c : Call) (w' : World) : Prop :=
  ∃ w1 ms, call w c = some (w1, ms) ∧ Runs w1 ms w'

/-- `w` is reachable (by any interleaving whatsoever) and at the moment no API call is in progress. -/
def Quiet (cap : Option Nat) (w : World) : Prop :=
  ∃ th, Reachable cap ⟨w, th⟩ ∧ ∀ x ∈ th, x = []

/-- `s` is a continuation of `w`: reached by some schedule, of any length and interleaving, from a
reachable state whose world is `w`. -/
def Future (cap : Option Nat) (w : World) (s : Sys) : Prop :=
  ∃ th as, Reachable cap ⟨w, th⟩ ∧ Sys.run ⟨w, th⟩ as = some s

/-! ## The history -/

/-- A receive future yielded the unicast message `i`. -/
def Ev.yieldsUni (i : Nat) : Ev → Bool
  | .recv _ _ (.one m) => m.id == i
  | _ => false

/-- A receive future on mailbox `b` yielded the broadcast message `i`. -/
def Ev.yieldsBc (b i : Nat) : Ev → Bool
  | .recv _ b' (.all m) => b' == b && m.id == i
  | _ => false

/-- Broadcast `i` was accepted by the channel. -/
def Ev.acceptsBc (i : Nat) : Ev → Bool
  | .bsent m _ => m.id == i
  | _ => false

/-- Broadcast `i` was accepted by the channel and put into mailbox `b`. -/
def Ev.putsBc (b i : Nat) : Ev → Bool
  | .bsent m ts => m.id == i && ts.contains b
  | _ => false

/-- The handler of unicast message `i` ran to completion. -/
def Ev.completes (i : Nat) : Ev → Bool
  | .handled j _ => j == i
  | _ => false

/-- A message was put back by a cancelled receive future. -/
def Ev.isRequeue : Ev → Bool
  | .requeued _ => true
  | _ => false

/-- A `stop_all` notice was accepted. -/
def Ev.isStopAll : Ev → Bool
  | .bsent m _ => m.prio == .shutdown
  | _ => false

/-- Send future or detached receiver `f` resolved: with an error, a reply, or an interruption. -/
def Ev.resolves (f : Nat) : Ev → Bool
  | .sendErr g _ => g == f
  | .replyOk g _ _ => g == f
  | .replyInt g _ => g == f
  | _ => false

/-- Unicast message `i` was destroyed without a completed handler. -/
def Destroyed (log : List Ev) (i : Nat) : Prop :=
  .dropped i ∈ log ∨ .lost i ∈ log ∨ .discarded i ∈ log

/-- The receive future `r` on mailbox `b` has just yielded `am`: the last event says so and `r` now is
that message. -/
def World.yielded (w : World) (r b : Nat) (am : AMsg) : Prop :=
  w.objs[r]? = some (.message b am) ∧ w.log.head? = some (.recv r b am)

/-- The receive future `r` on mailbox `b` has just returned `Pending` to a poll with waker `wk`. -/
def World.keptWaiting (w : World) (r b wk : Nat) : Prop :=
  (∃ c, w.objs[r]? = some (.recv b (.waiting c))) ∧ w.log.head? = some (.recvPending r wk)

/-! ## Counting references -/

/-- The object is, or contains, a strong reference: a strong address, an either-address wrapping a
strong one, or an unpolled send future made from such. -/
def Obj.isStrongRef : Obj → Bool
  | .addr rc => rc.isStrong
  | .send _ _ (.new _ rc) => rc.isStrong
  | _ => false

/-- The object keeps the actor's receiving side alive: a mailbox, a receive future, a received
message, or a dispatch (which owns a mailbox in its context). -/
def Obj.isMailboxRef : Obj → Bool
  | .mailbox _ => true
  | .recv _ _ => true
  | .message _ _ => true
  | .dispatch _ _ _ => true
  | _ => false

/-- The object belongs to mailbox `b` and keeps its broadcast queue alive. -/
def Obj.holdsMailbox (b : Nat) : Obj → Bool
  | .mailbox b' => b' == b
  | .recv b' _ => b' == b
  | .message b' _ => b' == b
  | .dispatch b' _ _ => b' == b
  | _ => false

/-- `b` has an owner: some object (mailbox, receive future, message or running dispatch) belongs to it. -/
def World.mailboxLive (w : World) (b : Nat) : Prop := ∃ o ∈ w.objs, o.holdsMailbox b = true

/-- `n` is the length of the longest live broadcast mailbox (0 if none is live). -/
def World.longestLive (w : World) (n : Nat) : Prop :=
  (∀ b, w.mailboxLive b → (w.items b).length ≤ n) ∧ (n = 0 ∨ ∃ b, w.mailboxLive b ∧ (w.items b).length = n)

/-- Number of live strong references. -/
def World.strongRefs (w : World) : Nat := w.objs.countP Obj.isStrongRef

/-- Number of live mailbox references. -/
def World.mailboxRefs (w : World) : Nat := w.objs.countP Obj.isMailboxRef

/-- The step belongs to a call that (still) owns a strong reference: a send being polled for the first
time, or an address being dropped. -/
def Micro.holdsStrong : Micro → Bool
  | .sendLd1 _ _ _ rc _ => rc.isStrong
  | .sendLd2 _ _ _ rc _ => rc.isStrong
  | .sendCrit _ _ _ rc _ => rc.isStrong
  | .dropTx rc => rc.isStrong
  | _ => false

/-- The step belongs to a call that (still) owns a mailbox reference: a receive being polled or
cancelled, a mailbox being cloned or dropped. -/
def Micro.holdsRx : Micro → Bool
  | .recvTry _ _ _ => true
  | .recvPoll _ _ _ _ => true
  | .recvBcast _ _ _ _ => true
  | .cancel _ _ => true
  | .dropRx => true
  | .newBq _ => true
  | _ => false

/-- The priority last set on message `i` before now (the log is newest first); 0 if never set. -/
def prioOf (i : Nat) (log : List Ev) : Nat :=
  (log.findSome? (fun e => match e with
    | .prioSet j p => if j = i then some p else none
    | _ => none)).getD 0

/-- What event `e` says about a poll of object `f`: `some (some wk)` = it returned `Pending` and was given
waker `wk`; `some none` = it completed; `none` = nothing. -/
def Ev.poll (f : Nat) : Ev → Option (Option Nat)
  | .sendPending g _ wk => if g = f then some (some wk) else none
  | .recvPending g wk => if g = f then some (some wk) else none
  | .joinPending g wk => if g = f then some (some wk) else none
  | .sendOk g _ => if g = f then some none else none
  | .joined g => if g = f then some none else none
  | _ => none

/-- The waker given in the latest poll of object `f`, if that poll returned `Pending` (log newest first). -/
def pendingWith (f : Nat) (log : List Ev) : Option Nat := (log.findSome? (Ev.poll f)).join

/-! ## Receivers and senders that wait -/

/-- A receive future on mailbox `b`, object `r`, waits and has not been notified. -/
def World.idleReceiver (w : World) (r b : Nat) : Prop :=
  ∃ c wk, w.objs[r]? = some (.recv b (.waiting c)) ∧ w.cells[c]? = some (.empty wk)

/-- Send future `f` is parked with message `m`, not yet admitted and not failed. -/
def World.parkedSend (w : World) (f : Nat) (md : Mode) (m : Msg) : Prop :=
  ∃ h wk, w.objs[f]? = some (.send md m.id (.waiting h)) ∧ w.ws[h]? = some (.active wk m)

/-- The parked send future `f` of message `mid` has been admitted: its message was taken over by the channel. -/
def World.admittedSend (w : World) (f : Nat) (md : Mode) (mid : Nat) : Prop :=
  ∃ h wk, w.objs[f]? = some (.send md mid (.waiting h)) ∧ w.ws[h]? = some (.delivered wk)

/-- The parked send future `f` of message `mid` has failed: the channel refused its message. -/
def World.failedSend (w : World) (f : Nat) (md : Mode) (mid : Nat) : Prop :=
  ∃ h wk, w.objs[f]? = some (.send md mid (.waiting h)) ∧ w.ws[h]? = some (.closed wk)

/-- Message `m` was handed to a receive future (put into its oneshot) that is not being destroyed. -/
def Sys.handed (s : Sys) (m : Msg) : Prop :=
  ∃ c wk, s.w.cells[c]? = some (.full (.newMessage m) wk) ∧ ∀ x ∈ s.th, .dropCell c ∉ x

/-- Message `m` was handed to a receive future that has already looked for the last time whether it was handed
something, and is now being destroyed. -/
def Sys.doomed (s : Sys) (m : Msg) : Prop :=
  ∃ c wk, s.w.cells[c]? = some (.full (.newMessage m) wk) ∧ ∃ x ∈ s.th, .dropCell c ∈ x

/-- A running cancellation is about to put message `m` back. -/
def Sys.beingPutBack (s : Sys) (m : Msg) : Prop := ∃ x ∈ s.th, .requeue m ∈ x

/-- The accepted unicast message `m` is available: in the queue, handed to a receive future, or about to be put back. -/
def Sys.available (s : Sys) (m : Msg) : Prop := m ∈ s.w.uq ∨ s.handed m ∨ s.beingPutBack m

/-- The future `o` cannot complete now, and `wk` is the waker registered for it. -/
def World.sleeps (w : World) (wk : Nat) : Obj → Prop
  | .send _ _ (.waiting h) => ∃ m, w.ws[h]? = some (.active (some wk) m)
  | .send _ mid .done => w.resp[mid]? = some (.waiting (some wk))
  | .reply mid => w.resp[mid]? = some (.waiting (some wk))
  | .recv _ (.waiting c) => w.cells[c]? = some (.empty (some wk))
  | .join (some l) => w.lst[l]? = some (.waiting (some wk))
  | _ => False

/-- The future `o` became able to make progress, and `wk` was woken at that moment. -/
def World.wokenUp (w : World) (wk : Nat) : Obj → Prop
  | .send _ _ (.waiting h) => w.ws[h]? = some (.delivered (some wk)) ∨ w.ws[h]? = some (.closed (some wk))
  | .send _ mid .done => (∃ r, w.resp[mid]? = some (.value r (some wk))) ∨ w.resp[mid]? = some (.interrupted (some wk))
  | .reply mid => (∃ r, w.resp[mid]? = some (.value r (some wk))) ∨ w.resp[mid]? = some (.interrupted (some wk))
  | .recv _ (.waiting c) => ∃ k, w.cells[c]? = some (.full k (some wk))
  | .join (some l) => w.lst[l]? = some (.notified (some wk))
  | _ => False

/-- A future that has been registered with the channel and awaits something. -/
def Obj.awaits : Obj → Bool
  | .send _ _ (.waiting _) => true
  | .send _ _ .done => true
  | .reply _ => true
  | .recv _ (.waiting _) => true
  | .join (some _) => true
  | _ => false

/-- The poll of future `f` of this kind with waker `wk`. -/
def Obj.pollCall (f wk : Nat) : Obj → Call
  | .recv _ _ => .pollRecv f wk
  | .reply _ => .pollReply f wk
  | .join _ => .pollJoin f wk
  | _ => .pollSend f wk

/-- Unicast capacity is left. -/
def World.hasRoom (w : World) : Prop := ∀ c, w.cap = some c → w.uq.length < c

/-- Broadcast capacity is left, according to the channel's broadcast length. -/
def World.hasBcRoom (w : World) : Prop := ∀ c, w.cap = some c → w.tail < c

/-! ## An actor that receives -/

/-- What an actor does with a message it received: dispatch it, let the handler stop the actor, let the handler return,
or drop the message or the unfinished dispatch. -/
def Call.handles : Call → Bool
  | .dispatch _ => true
  | .stopSelf _ => true
  | .finish _ _ => true
  | .dropMessage _ => true
  | .dropDispatch _ => true
  | _ => false

/-- `Receives i b w ams w'`: starting in `w`, the owner of mailbox object `i` (broadcast queue `b`) makes successive
receives, each a fresh future polled once and each completing at once, that yield exactly `ams` in this order; between
them, already received messages (of any actor) may be handled or dropped; nothing else happens. -/
inductive Receives (i b : Nat) : World → List AMsg → World → Prop where
  | nil {w : World} : Receives i b w [] w
  | recv {w w1 w2 w' : World} {wk : Nat} {am : AMsg} {ams : List AMsg} :
      Does w (.next i) w1 → Does w1 (.pollRecv w.objs.length wk) w2 → w2.yielded w.objs.length b am →
      Receives i b w2 ams w' → Receives i b w (am :: ams) w'
  | handle {w w1 w' : World} {c : Call} {ams : List AMsg} :
      c.handles = true → Does w c w1 → Receives i b w1 ams w' → Receives i b w ams w'

/-- Priority of what a receive future yields; the shutdown notice counts as the highest. -/
def AMsg.prio : AMsg → Prio
  | .one m => m.prio
  | .all m => m.prio
  | .shutdown => .shutdown

/-- The sender is still parked. -/
def WsCell.isActive : WsCell → Bool
  | .active _ _ => true
  | _ => false

/-- Everything mailbox `b` may still have to receive: queued unicast messages, its queued broadcasts, parked sends. -/
def World.backlog (w : World) (b : Nat) : Nat :=
  w.uq.length + (w.items b).length + w.ws.countP WsCell.isActive

/-- A sequence of API calls, each returning before the next is made. -/
inductive DoesAll : World → List Call → World → Prop where
  | nil {w : World} : DoesAll w [] w
  | cons {w w1 w' : World} {c : Call} {cs : List Call} : Does w c w1 → DoesAll w1 cs w' → DoesAll w (c :: cs) w'

/-- Creating and polling receive futures. -/
def Call.receives : Call → Bool
  | .next _ => true
  | .pollRecv _ _ => true
  | _ => false

/-- The yielded message is a shutdown notice: that of `stop_all`, or the one for vanished strong addresses. -/
def AMsg.isStop : AMsg → Bool
  | .one _ => false
  | .all m => m.prio == .shutdown
  | .shutdown => true

/-- The handler running in `o` has called `stop_self`. -/
def Obj.stopping : Obj → Bool
  | .dispatch _ _ running => !running
  | _ => false

end Xtra
