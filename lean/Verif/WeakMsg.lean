import Verif.Weak
/-!
# Messages under weak memory (C63)

`Weak.lean` (C44) treats the shutdown protocol under weak memory with the queues left out. Here are the messages: sending (with the test of
`is_connected` outside the lock), waiting for room, receiving, being handed a message while waiting, dropping a waiting receive, and the two
final drops that empty the channel. Modelled:

* `Chan::try_send_to_one`, `Chan::is_connected` (`xtra/src/chan.rs:105-133, 199-202`), called from `Sending::poll`, which owns a reference to
  the channel until then (`xtra/src/send_future.rs:172-208`);
* `Inner::try_fulfill_receiver`, `Inner::pop_unicast`, `Inner::try_take_waiting_unicast_message` (`chan.rs:328-338, 385-394, 396-404`);
* `Chan::try_recv` (`chan.rs:161-197`), `WaitingReceiver::poll` and `cancel` (`chan/waiting_receiver.rs:63-96`), `Chan::requeue_message`
  (`chan.rs:286-295`), called when a receive future is dropped (`xtra/src/recv_future.rs:122-131`);
* `Chan::on_sender_dropped`, `shutdown_waiting_receivers`, `on_receiver_dropped`, `shutdown_waiting_senders` (`chan.rs:64-91, 214-259`);
* `TxStrong::try_new` (`chan/ptr.rs:130-156`).

**Memory.** As in `Weak.lean`: each counter has a modification order, each call a view; a load returns *any* value not older than the view; a
read-modify-write reads the newest value. Views travel through the channel's mutex only. In addition any call may at any time come to know
more (rule `learn`), however that comes about. The orderings `Release`, `Acquire` and `SeqCst` on the counters are ignored, so every
behaviour of the real program is one of the model. What happens inside the lock and does not look at a counter is one step, as nobody can
observe it half-way.

**Simplifications.** No broadcasts. Which message a receive pops and which waiting send is admitted first is left open (any): priorities are
the matter of C01 and C08. Join handles: C44.
-/

set_option linter.unusedSimpArgs false
set_option linter.unusedVariables false

namespace Xtra.WeakMsg
open Xtra.Weak (cur cur_snoc cur_eq zero_snoc set_cases' snoc_cases')

/-- How far a call (the mutex) has seen `sender_count` and `receiver_count`. -/
structure View where
  s : Nat
  r : Nat
  deriving DecidableEq, Repr

/-- Nothing seen but the initial values. -/
def View.bot : View := ⟨0, 0⟩

/-- Least upper bound. -/
def View.join (a b : View) : View := ⟨max a.s b.s, max a.r b.r⟩

/-- Program counter of a call. -/
inductive Pc where
  /-- finished -/
  | done
  /-- a send of message `m` that has not been polled; `own`: through a strong reference. Next: load `receiver_count` (`chan.rs:109, 200`) -/
  | tLoadR (own : Bool) (m : Nat)
  /-- next: load `sender_count` (`chan.rs:201`) -/
  | tLoadS (own : Bool) (m : Nat)
  /-- next: lock, and hand over, queue or park the message (`chan.rs:115-132`) -/
  | tCrit (own : Bool) (m : Nat)
  /-- about to `sender_count.fetch_sub` (`chan.rs:84`) -/
  | sSub
  /-- it was the last: about to lock and to take the waiting receivers (`chan.rs:216-225`) -/
  | sLock
  /-- about to `notify_channel_shutdown` the taken handles (`chan.rs:228-230`) -/
  | sNotify (q : List Nat)
  /-- `try_recv`: about to lock and to look at the queue (`chan.rs:165-185`) -/
  | rLock
  /-- it was empty: about to load `sender_count`, holding the lock (`chan.rs:187`) -/
  | rLoad
  /-- the receive yielded message `m` -/
  | got (m : Nat)
  /-- the receive returned `Pending`, waiting on cell `c` -/
  | waits (c : Nat)
  /-- the receive yielded the shutdown notice -/
  | shut
  /-- a waiting receive is being dropped; `cancel` found nothing, next the receiving end of the oneshot goes away -/
  | cDrop (c : Nat)
  /-- a waiting receive was dropped with message `m` in hand: about to `requeue_message` (`chan.rs:286-295`) -/
  | rBack (m : Nat)
  /-- `try_upgrade`: about to load (`ptr.rs:137`) -/
  | uLoad
  /-- about to `compare_exchange_weak(n, n + 1)` (`ptr.rs:148-151`) -/
  | uCas (n : Nat)
  /-- `try_upgrade` returned `Some` -/
  | upOk
  /-- `try_upgrade` returned `None` -/
  | upNo
  /-- about to `receiver_count.fetch_sub` (`chan.rs:66`) -/
  | mSub
  /-- it was the last: about to lock and to empty the channel (`chan.rs:245-259`) -/
  | mLock
  deriving DecidableEq, Repr

/-- Nothing is in progress: the call has returned (a waiting receive has returned `Pending`). -/
def Pc.final : Pc → Bool
  | .done | .got _ | .waits _ | .shut | .upOk | .upNo => true
  | _ => false

/-- The oneshot of a receive that was made to wait (`chan/waiting_receiver.rs`). -/
inductive Cell where
  | empty
  /-- fulfilled with a message -/
  | msg (m : Nat)
  /-- fulfilled with the shutdown notice -/
  | shut
  /-- the receive has resolved or was dropped -/
  | gone
  deriving DecidableEq, Repr

/-- A call and its view. -/
abbrev T := Pc × View

/-- The state. -/
structure St where
  /-- `Inner::capacity` -/
  cap : Option Nat
  /-- modification order of `Chan::sender_count`, oldest first -/
  sc : List Nat
  /-- modification order of `Chan::receiver_count` -/
  rc : List Nat
  /-- holder of the mutex `Chan::chan` -/
  lock : Option Nat
  /-- view stored in the mutex by the latest unlock -/
  lockV : View
  /-- `Inner::unicast_queue`, in no particular order -/
  q : List Nat
  /-- messages of the sends in `Inner::waiting_send_to_one` that are still active -/
  parked : List Nat
  /-- `Inner::waiting_receivers_handles` -/
  wRx : List Nat
  cells : List Cell
  /-- strong references that exist and are not in a send or being dropped -/
  strong : Nat
  /-- mailbox references that exist and are not being dropped -/
  boxes : Nat
  /-- messages so far -/
  next : Nat
  /-- (ghost) those sent through a strong reference -/
  byStrong : List Nat
  /-- (ghost) those whose send resolved to `Disconnected` in its first poll -/
  refused : List Nat
  /-- (ghost) those destroyed in the queue, or taken out of their waiting send, by the drop of the last mailbox -/
  closed : List Nat
  /-- (ghost) those dropped with their send future, unpolled or waiting -/
  given : List Nat
  /-- (ghost) those destroyed inside a dropped receive (the race of C03) -/
  lost : List Nat
  /-- (ghost) those put back by a dropped receive -/
  back : List Nat
  /-- (ghost) those whose send entered the channel after the drop of the last mailbox had emptied it -/
  late : List Nat
  /-- (ghost) the drop of the last mailbox has emptied the channel -/
  cleared : Bool
  th : List T
  deriving DecidableEq, Repr

/-- A fresh channel: one strong address, one mailbox. -/
def init (cap : Option Nat) : St where
  cap := cap; sc := [1]; rc := [1]; lock := none; lockV := .bot; q := []; parked := []
  wRx := []; cells := []; strong := 1; boxes := 1; next := 0; byStrong := []; refused := []; closed := []; given := []; lost := []
  back := []; late := []; cleared := false; th := []

/-- `Inner::is_unicast_full` (`chan.rs:421-424`). -/
def St.full (s : St) : Prop := ∃ c, s.cap = some c ∧ c ≤ s.q.length

/-- `Inner::try_fulfill_receiver` (`chan.rs:385-394`): the first waiting receiver that is still there gets the message. -/
def offer : List Nat → List Cell → Nat → Option (List Nat × List Cell)
  | [], _, _ => none
  | c :: w, cells, m => if cells[c]? = some .empty then some (w, cells.set c (.msg m)) else offer w cells m

/-- The effect of call `t` moving to `p` with view `v`. -/
def St.go (s : St) (t : Nat) (p : Pc) (v : View) : St := { s with th := s.th.set t (p, v) }

/-- After a send the reference it owned is dropped (`send_future.rs:189`: `sender` goes out of scope). -/
def after (own : Bool) : Pc := if own then .sSub else .done

/-- One step of the system. -/
inductive Step : St → St → Prop
  /-- a strong reference is cloned (`chan.rs:76-79`) -/
  | cloneS {s : St} : 0 < s.strong → Step s { s with sc := s.sc ++ [cur s.sc + 1], strong := s.strong + 1 }
  /-- a mailbox reference is cloned (`chan.rs:59-61`) -/
  | cloneR {s : St} : 0 < s.boxes → Step s { s with rc := s.rc ++ [cur s.rc + 1], boxes := s.boxes + 1 }
  /-- the drop of a strong reference begins -/
  | dropS {s : St} : 0 < s.strong → Step s { s with strong := s.strong - 1, th := s.th ++ [(.sSub, .bot)] }
  /-- the drop of a mailbox reference begins -/
  | dropR {s : St} : 0 < s.boxes → Step s { s with boxes := s.boxes - 1, th := s.th ++ [(.mSub, .bot)] }
  /-- a receive future is made -/
  | recv {s : St} : Step s { s with th := s.th ++ [(.rLock, .bot)] }
  /-- a `try_upgrade` begins -/
  | up {s : St} : Step s { s with th := s.th ++ [(.uLoad, .bot)] }
  /-- `Address::send`: a send future is made, with a reference of its own -/
  | sendS {s : St} : 0 < s.strong → Step s { s with
      sc := s.sc ++ [cur s.sc + 1], next := s.next + 1, byStrong := s.byStrong ++ [s.next], th := s.th ++ [(.tLoadR true s.next, .bot)] }
  /-- `WeakAddress::send` -/
  | sendW {s : St} : Step s { s with next := s.next + 1, th := s.th ++ [(.tLoadR false s.next, .bot)] }
  /-- a call comes to know more -/
  | learn {s : St} {t : Nat} {p : Pc} {v v' : View} : s.th[t]? = some (p, v) → v.s ≤ v'.s → v.r ≤ v'.r → v'.s < s.sc.length →
      v'.r < s.rc.length → Step s (s.go t p v')
  /-- a send future is dropped unpolled -/
  | tDrop {s : St} {t m : Nat} {own : Bool} {v : View} : s.th[t]? = some (.tLoadR own m, v) →
      Step s ({ s with given := s.given ++ [m] }.go t (after own) v)
  | tLoadRZero {s : St} {t m k : Nat} {own : Bool} {v : View} : s.th[t]? = some (.tLoadR own m, v) → v.r ≤ k → s.rc[k]? = some 0 →
      Step s ({ s with refused := s.refused ++ [m] }.go t (after own) { v with r := k })
  | tLoadRMore {s : St} {t m k n : Nat} {own : Bool} {v : View} : s.th[t]? = some (.tLoadR own m, v) → v.r ≤ k → s.rc[k]? = some n →
      n ≠ 0 → Step s (s.go t (.tLoadS own m) { v with r := k })
  | tLoadSZero {s : St} {t m k : Nat} {own : Bool} {v : View} : s.th[t]? = some (.tLoadS own m, v) → v.s ≤ k → s.sc[k]? = some 0 →
      Step s ({ s with refused := s.refused ++ [m] }.go t (after own) { v with s := k })
  | tLoadSMore {s : St} {t m k n : Nat} {own : Bool} {v : View} : s.th[t]? = some (.tLoadS own m, v) → v.s ≤ k → s.sc[k]? = some n →
      n ≠ 0 → Step s (s.go t (.tCrit own m) { v with s := k })
  /-- the message is handed to a waiting receive -/
  | tHand {s : St} {t m : Nat} {own : Bool} {v : View} {w : List Nat} {cs : List Cell} : s.th[t]? = some (.tCrit own m, v) →
      s.lock = none → offer s.wRx s.cells m = some (w, cs) →
      Step s ({ s with wRx := w, cells := cs, lockV := v.join s.lockV }.go t (after own) (v.join s.lockV))
  /-- there is none: the message is queued -/
  | tPush {s : St} {t m : Nat} {own : Bool} {v : View} : s.th[t]? = some (.tCrit own m, v) →
      s.lock = none → offer s.wRx s.cells m = none → ¬ s.full →
      Step s ({ s with wRx := [], q := s.q ++ [m], lockV := v.join s.lockV, late := if s.cleared then s.late ++ [m] else s.late }.go t
        (after own) (v.join s.lockV))
  /-- no room: the send is parked -/
  | tPark {s : St} {t m : Nat} {own : Bool} {v : View} : s.th[t]? = some (.tCrit own m, v) →
      s.lock = none → offer s.wRx s.cells m = none → s.full →
      Step s ({ s with wRx := [], parked := s.parked ++ [m], lockV := v.join s.lockV, late := if s.cleared then s.late ++ [m] else s.late }.go t
        (after own) (v.join s.lockV))
  /-- a waiting send future is dropped -/
  | giveUp {s : St} {m : Nat} {a b : List Nat} : s.parked = a ++ m :: b →
      Step s { s with parked := a ++ b, given := s.given ++ [m] }
  | sSubLast {s : St} {t : Nat} {v : View} : s.th[t]? = some (.sSub, v) → cur s.sc = 1 →
      Step s ({ s with sc := s.sc ++ [cur s.sc - 1] }.go t .sLock { v with s := s.sc.length })
  | sSubMore {s : St} {t : Nat} {v : View} : s.th[t]? = some (.sSub, v) → cur s.sc ≠ 1 →
      Step s ({ s with sc := s.sc ++ [cur s.sc - 1] }.go t .done { v with s := s.sc.length })
  | sLock {s : St} {t : Nat} {v : View} : s.th[t]? = some (.sLock, v) → s.lock = none →
      Step s ({ s with wRx := [], lockV := v.join s.lockV }.go t (.sNotify s.wRx) (v.join s.lockV))
  | sNotify {s : St} {t c : Nat} {v : View} {q : List Nat} : s.th[t]? = some (.sNotify (c :: q), v) →
      s.cells[c]? = some .empty → Step s ({ s with cells := s.cells.set c .shut }.go t (.sNotify q) v)
  | sNotifyFull {s : St} {t c : Nat} {v : View} {q : List Nat} : s.th[t]? = some (.sNotify (c :: q), v) →
      s.cells[c]? ≠ some .empty → Step s (s.go t (.sNotify q) v)
  | sEnd {s : St} {t : Nat} {v : View} : s.th[t]? = some (.sNotify [], v) → Step s (s.go t .done v)
  /-- a message is popped, and there is no waiting send to admit -/
  | rTake {s : St} {t m : Nat} {v : View} {a b : List Nat} : s.th[t]? = some (.rLock, v) → s.lock = none → s.q = a ++ m :: b →
      ({ s with q := a ++ b }.full ∨ s.parked = []) →
      Step s ({ s with q := a ++ b, lockV := v.join s.lockV }.go t (.got m) (v.join s.lockV))
  /-- a message is popped, and the message of a waiting send takes its place -/
  | rTakeMore {s : St} {t m m' : Nat} {v : View} {a b a' b' : List Nat} : s.th[t]? = some (.rLock, v) → s.lock = none →
      s.q = a ++ m :: b → ¬ { s with q := a ++ b }.full → s.parked = a' ++ m' :: b' →
      Step s ({ s with q := a ++ b ++ [m'], parked := a' ++ b', lockV := v.join s.lockV }.go t (.got m) (v.join s.lockV))
  /-- the queue is empty -/
  | rLock {s : St} {t : Nat} {v : View} : s.th[t]? = some (.rLock, v) → s.lock = none → s.q = [] →
      Step s ({ s with lock := some t }.go t .rLoad (v.join s.lockV))
  | rLoadZero {s : St} {t k : Nat} {v : View} : s.th[t]? = some (.rLoad, v) → v.s ≤ k → s.sc[k]? = some 0 →
      Step s ({ s with lock := none, lockV := { v with s := k } }.go t .shut { v with s := k })
  | rLoadMore {s : St} {t k n : Nat} {v : View} : s.th[t]? = some (.rLoad, v) → v.s ≤ k → s.sc[k]? = some n → n ≠ 0 →
      Step s ({ s with wRx := s.wRx ++ [s.cells.length], cells := s.cells ++ [Cell.empty], lock := none, lockV := { v with s := k } }.go t
        (.waits s.cells.length) { v with s := k })
  /-- a waiting receive is polled: it has been given a message -/
  | rMsg {s : St} {t c m : Nat} {v : View} : s.th[t]? = some (.waits c, v) → s.cells[c]? = some (.msg m) →
      Step s ({ s with cells := s.cells.set c .gone }.go t (.got m) v)
  /-- ... it has been told to shut down -/
  | rShut {s : St} {t c : Nat} {v : View} : s.th[t]? = some (.waits c, v) → s.cells[c]? = some .shut →
      Step s ({ s with cells := s.cells.set c .gone }.go t .shut v)
  /-- a waiting receive is dropped: `cancel` finds a message -/
  | cMsg {s : St} {t c m : Nat} {v : View} : s.th[t]? = some (.waits c, v) → s.cells[c]? = some (.msg m) →
      Step s ({ s with cells := s.cells.set c .gone }.go t (.rBack m) v)
  /-- ... or not -/
  | cNone {s : St} {t c : Nat} {v : View} : s.th[t]? = some (.waits c, v) → (∀ m, s.cells[c]? ≠ some (.msg m)) →
      Step s (s.go t (.cDrop c) v)
  /-- the oneshot is dropped, with the message that came in between -/
  | cLost {s : St} {t c m : Nat} {v : View} : s.th[t]? = some (.cDrop c, v) → s.cells[c]? = some (.msg m) →
      Step s ({ s with cells := s.cells.set c .gone, lost := s.lost ++ [m] }.go t .done v)
  | cDrop {s : St} {t c : Nat} {v : View} : s.th[t]? = some (.cDrop c, v) → (∀ m, s.cells[c]? ≠ some (.msg m)) →
      Step s ({ s with cells := s.cells.set c .gone }.go t .done v)
  | rBackHand {s : St} {t m : Nat} {v : View} {w : List Nat} {cs : List Cell} : s.th[t]? = some (.rBack m, v) → s.lock = none →
      offer s.wRx s.cells m = some (w, cs) →
      Step s ({ s with wRx := w, cells := cs, lockV := v.join s.lockV }.go t .done (v.join s.lockV))
  | rBackPush {s : St} {t m : Nat} {v : View} : s.th[t]? = some (.rBack m, v) → s.lock = none → offer s.wRx s.cells m = none →
      Step s ({ s with wRx := [], q := s.q ++ [m], back := s.back ++ [m], lockV := v.join s.lockV }.go t .done (v.join s.lockV))
  | uLoadZero {s : St} {t k : Nat} {v : View} : s.th[t]? = some (.uLoad, v) → v.s ≤ k → s.sc[k]? = some 0 →
      Step s (s.go t .upNo { v with s := k })
  | uLoadMore {s : St} {t k n : Nat} {v : View} : s.th[t]? = some (.uLoad, v) → v.s ≤ k → s.sc[k]? = some n → n ≠ 0 →
      Step s (s.go t (.uCas n) { v with s := k })
  | uCasOk {s : St} {t n : Nat} {v : View} : s.th[t]? = some (.uCas n, v) → cur s.sc = n →
      Step s ({ s with sc := s.sc ++ [n + 1], strong := s.strong + 1 }.go t .upOk { v with s := s.sc.length })
  | uCasFailZero {s : St} {t n k : Nat} {v : View} : s.th[t]? = some (.uCas n, v) → v.s ≤ k → s.sc[k]? = some 0 →
      Step s (s.go t .upNo { v with s := k })
  | uCasFailMore {s : St} {t n k n' : Nat} {v : View} : s.th[t]? = some (.uCas n, v) → v.s ≤ k → s.sc[k]? = some n' → n' ≠ 0 →
      Step s (s.go t (.uCas n') { v with s := k })
  | mSubLast {s : St} {t : Nat} {v : View} : s.th[t]? = some (.mSub, v) → cur s.rc = 1 →
      Step s ({ s with rc := s.rc ++ [cur s.rc - 1] }.go t .mLock { v with r := s.rc.length })
  | mSubMore {s : St} {t : Nat} {v : View} : s.th[t]? = some (.mSub, v) → cur s.rc ≠ 1 →
      Step s ({ s with rc := s.rc ++ [cur s.rc - 1] }.go t .done { v with r := s.rc.length })
  | mLock {s : St} {t : Nat} {v : View} : s.th[t]? = some (.mLock, v) → s.lock = none →
      Step s ({ s with q := [], parked := [], closed := s.closed ++ s.q ++ s.parked, cleared := true, lockV := v.join s.lockV }.go t .done
        (v.join s.lockV))

/-- Any number of steps. -/
inductive Steps : St → St → Prop
  | refl {s : St} : Steps s s
  | snoc {s s1 s2 : St} : Steps s s1 → Step s1 s2 → Steps s s2

/-- No call is in progress. -/
def St.quiet (s : St) : Prop := ∀ x ∈ s.th, x.1.final = true

/-- The message is in the hands of its send future, which has not entered the channel. -/
def St.unsent (s : St) (m : Nat) : Prop := ∃ own v, (Pc.tLoadR own m, v) ∈ s.th ∨ (Pc.tLoadS own m, v) ∈ s.th ∨ (Pc.tCrit own m, v) ∈ s.th

/-- Some receive has yielded the message. -/
def St.received (s : St) (m : Nat) : Prop := ∃ v, (Pc.got m, v) ∈ s.th

/-- The message has been put into the cell of a waiting receive. -/
def St.inCell (s : St) (m : Nat) : Prop := Cell.msg m ∈ s.cells

/-- A dropped receive has the message and is about to put it back. -/
def St.inHand (s : St) (m : Nat) : Prop := ∃ v, (Pc.rBack m, v) ∈ s.th

/-- The call has the message in its hands: it is a send that has not entered the channel, a receive that yielded it, or a dropped receive that
is about to put it back. -/
def Pc.has (m : Nat) : Pc → Bool
  | .tLoadR _ n | .tLoadS _ n | .tCrit _ n | .got n | .rBack n => n == m
  | _ => false

/-- The number of places in which the message is. -/
def St.places (s : St) (m : Nat) : Nat :=
  s.th.countP (fun x => x.1.has m) + s.q.count m + s.parked.count m + s.cells.count (.msg m) + s.refused.count m + s.closed.count m +
    s.given.count m + s.lost.count m

/-! ## Proof -/

/-- References to be dropped by calls under way. -/
def wS : T → Nat
  | (.sSub, _) => 1
  | (.tLoadR own _, _) | (.tLoadS own _, _) | (.tCrit own _, _) => own.toNat
  | _ => 0

/-- Calls about to decrement `receiver_count`. -/
def wR : T → Nat
  | (.mSub, _) => 1
  | _ => 0

/-- The counters count. -/
structure InvA (s : St) : Prop where
  sne : s.sc ≠ []
  rne : s.rc ≠ []
  scur : cur s.sc = s.strong + sumBy wS s.th
  rcur : cur s.rc = s.boxes + sumBy wR s.th
  szero : ∀ k : Nat, s.sc[k]? = some 0 → k + 1 = s.sc.length
  rzero : ∀ k : Nat, s.rc[k]? = some 0 → k + 1 = s.rc.length
  cas : ∀ (t n : Nat) v, s.th[t]? = some (.uCas n, v) → n ≠ 0

theorem after_cas (own : Bool) (n : Nat) : after own ≠ .uCas n := by cases own <;> simp [after]

theorem invA_cas {s s' : St} (h : Step s s') (i : InvA s) : ∀ (t n : Nat) v, s'.th[t]? = some (.uCas n, v) → n ≠ 0 := by
  have key : ∀ {t : Nat} {p : Pc} {v' : View}, (∀ n, p = .uCas n → n ≠ 0) →
      ∀ (u n : Nat) v, (s.th.set t (p, v'))[u]? = some (.uCas n, v) → n ≠ 0 := by
    intro t p v' hp u n v hu
    rcases set_cases' hu with ⟨rfl, he⟩ | ⟨-, hu⟩
    · simp at he; exact hp n he.1.symm
    · exact i.cas u n v hu
  have key2 : ∀ {p : Pc} {v' : View}, (∀ n, p = .uCas n → n ≠ 0) →
      ∀ (u n : Nat) v, (s.th ++ [(p, v')])[u]? = some (.uCas n, v) → n ≠ 0 := by
    intro p v' hp u n v hu
    rcases snoc_cases' hu with ⟨rfl, he⟩ | hu
    · simp at he; exact hp n he.1.symm
    · exact i.cas u n v hu
  cases h
  case cloneS => exact i.cas
  case cloneR => exact i.cas
  case giveUp => exact i.cas
  case uLoadMore hn => exact key (by simp; exact hn)
  case uCasFailMore hn => exact key (by simp; exact hn)
  case learn t p v v' ht _ _ _ _ => exact key (fun n hp => i.cas t n v (hp ▸ ht))
  all_goals first
    | exact key2 (by simp)
    | exact key (by simp [after_cas])

@[simp] theorem wS_after (own : Bool) (v : View) : wS (after own, v) = own.toNat := by cases own <;> rfl
@[simp] theorem wR_after (own : Bool) (v : View) : wR (after own, v) = 0 := by cases own <;> rfl
theorem wS_view (p : Pc) (v v' : View) : wS (p, v) = wS (p, v') := by
  cases p <;> rfl
theorem wR_view (p : Pc) (v v' : View) : wR (p, v) = wR (p, v') := by cases p <;> rfl

theorem invA_step {s s' : St} (h : Step s s') (i : InvA s) : InvA s' := by
  have hc := invA_cas h i
  obtain ⟨sne, rne, scur, rcur, szero, rzero, cas⟩ := i
  have hS : ∀ {t : Nat} {x : T} (y : T), s.th[t]? = some x → sumBy wS (s.th.set t y) + wS x = sumBy wS s.th + wS y :=
    fun y h => sumBy_set wS y h
  have hR : ∀ {t : Nat} {x : T} (y : T), s.th[t]? = some x → sumBy wR (s.th.set t y) + wR x = sumBy wR s.th + wR y :=
    fun y h => sumBy_set wR y h
  have key : ∀ {t : Nat} {x : T} (y : T), s.th[t]? = some x → wS x = wS y → wR x = wR y →
      cur s.sc = s.strong + sumBy wS (s.th.set t y) ∧ cur s.rc = s.boxes + sumBy wR (s.th.set t y) := by
    intro t x y ht a b
    have := hS y ht; have := hR y ht; omega
  cases h
  case cloneS hp => exact ⟨by simp, rne, by simp [cur_snoc]; omega, rcur, zero_snoc sne szero (by omega), rzero, hc⟩
  case cloneR hp => exact ⟨sne, by simp, scur, by simp [cur_snoc]; omega, szero, zero_snoc rne rzero (by omega), hc⟩
  case dropS hp => exact ⟨sne, rne, by simp [wS]; omega, by simp [wR]; omega, szero, rzero, hc⟩
  case dropR hp => exact ⟨sne, rne, by simp [wS]; omega, by simp [wR]; omega, szero, rzero, hc⟩
  case recv => exact ⟨sne, rne, by simp [wS]; omega, by simp [wR]; omega, szero, rzero, hc⟩
  case up => exact ⟨sne, rne, by simp [wS]; omega, by simp [wR]; omega, szero, rzero, hc⟩
  case sendW => exact ⟨sne, rne, by simp [wS]; omega, by simp [wR]; omega, szero, rzero, hc⟩
  case sendS hp =>
    exact ⟨by simp, rne, by simp [wS, cur_snoc]; omega, by simp [wR]; omega, zero_snoc sne szero (by omega), rzero, hc⟩
  case giveUp => exact ⟨sne, rne, scur, rcur, szero, rzero, hc⟩
  case learn t p v v' ht _ _ _ _ =>
    have k := key (p, v') ht (wS_view ..) (wR_view ..)
    exact ⟨sne, rne, k.1, k.2, szero, rzero, hc⟩
  case sSubLast t v ht h1 =>
    have h1 := hS (.sLock, { v with s := s.sc.length }) ht
    have h2 := hR (.sLock, { v with s := s.sc.length }) ht
    simp [wS] at h1; simp [wR] at h2
    exact ⟨by simp [St.go], rne, by simp [St.go, cur_snoc]; omega, by simp [St.go]; omega, zero_snoc sne szero (by omega), rzero, hc⟩
  case sSubMore t v ht h1 =>
    have h1 := hS (.done, { v with s := s.sc.length }) ht
    have h2 := hR (.done, { v with s := s.sc.length }) ht
    simp [wS] at h1; simp [wR] at h2
    exact ⟨by simp [St.go], rne, by simp [St.go, cur_snoc]; omega, by simp [St.go]; omega, zero_snoc sne szero (by omega), rzero, hc⟩
  case mSubLast t v ht h1 =>
    have h1 := hS (.mLock, { v with r := s.rc.length }) ht
    have h2 := hR (.mLock, { v with r := s.rc.length }) ht
    simp [wS] at h1; simp [wR] at h2
    exact ⟨sne, by simp [St.go], by simp [St.go]; omega, by simp [St.go, cur_snoc]; omega, szero, zero_snoc rne rzero (by omega), hc⟩
  case mSubMore t v ht h1 =>
    have h1 := hS (.done, { v with r := s.rc.length }) ht
    have h2 := hR (.done, { v with r := s.rc.length }) ht
    simp [wS] at h1; simp [wR] at h2
    exact ⟨sne, by simp [St.go], by simp [St.go]; omega, by simp [St.go, cur_snoc]; omega, szero, zero_snoc rne rzero (by omega), hc⟩
  case uCasOk t n v ht hn =>
    have h1 := hS (.upOk, { v with s := s.sc.length }) ht
    have h2 := hR (.upOk, { v with s := s.sc.length }) ht
    have h3 := cas t n v ht
    simp [wS] at h1; simp [wR] at h2
    exact ⟨by simp [St.go], rne, by simp [St.go, cur_snoc, h1]; omega, by simp [St.go, h2, rcur],
      zero_snoc sne szero (by omega), rzero, hc⟩
  all_goals
    refine ⟨sne, rne, ?_, ?_, szero, rzero, hc⟩
    · exact (key _ (by assumption) (by first | rfl | exact (wS_after _ _).symm) (by first | rfl | exact (wR_after _ _).symm)).1
    · exact (key _ (by assumption) (by first | rfl | exact (wS_after _ _).symm) (by first | rfl | exact (wR_after _ _).symm)).2

/-- Induction over the reachable states. -/
theorem Steps.inv {cap : Option Nat} {P : St → Prop} (h0 : P (init cap)) (hs : ∀ s s', Steps (init cap) s → P s → Step s s' → P s') {s : St}
    (h : Steps (init cap) s) : P s := by
  induction h with
  | refl => exact h0
  | snoc h1 h2 ih => exact hs _ _ h1 ih h2

theorem invA {cap : Option Nat} {s : St} (h : Steps (init cap) s) : InvA s := by
  refine h.inv ?_ fun _ _ _ i h => invA_step h i
  refine ⟨by simp [init], by simp [init], rfl, rfl, ?_, ?_, by simp [init]⟩ <;> intro k hk <;>
    (rcases k with _ | k <;> simp [init] at hk)

theorem after_ne (own : Bool) : after own = .sSub ∨ after own = .done := by cases own <;> simp [after]

theorem after_ne' (own : Bool) : after own ≠ .rLoad := by cases own <;> simp [after]

/-- The lock is held exactly by a receive that found the queue empty. -/
structure InvL (s : St) : Prop where
  load : ∀ (t : Nat) v, s.th[t]? = some (.rLoad, v) → s.lock = some t ∧ s.q = [] ∧ s.lockV.s ≤ v.s
  hold : ∀ t : Nat, s.lock = some t → ∃ v, s.th[t]? = some (.rLoad, v)

theorem invL_step {s s' : St} (h : Step s s') (i : InvL s) : InvL s' := by
  obtain ⟨load, hold⟩ := i
  have set' : ∀ {t : Nat} {x y : T}, s.th[t]? = some x → ∀ {u : Nat} {z : T}, s.th[u]? = some z → u ≠ t → (s.th.set t y)[u]? = some z := by
    intro t x y ht u z hu hne
    rw [List.getElem?_set]; simp [Ne.symm hne, hu]
  have snoc' : ∀ {y : T} {u : Nat} {z : T}, s.th[u]? = some z → (s.th ++ [y])[u]? = some z := by
    intro y u z hu
    have := (List.getElem?_eq_some_iff.1 hu).1
    rw [List.getElem?_append_left this, hu]
  -- a call that is not `rLoad`, before and after
  have other : ∀ {t : Nat} {x y : T}, s.th[t]? = some x → x.1 ≠ .rLoad → y.1 ≠ .rLoad →
      (∀ (u : Nat) v, (s.th.set t y)[u]? = some (.rLoad, v) → s.th[u]? = some (.rLoad, v)) ∧
      ∀ (u : Nat) v, s.th[u]? = some (.rLoad, v) → (s.th.set t y)[u]? = some (.rLoad, v) := by
    intro t x y ht hx hy
    constructor
    · intro u v hu
      rcases set_cases' hu with ⟨rfl, he⟩ | ⟨-, hu⟩
      · subst he; exact absurd rfl hy
      · exact hu
    · intro u v hu
      refine set' ht hu ?_
      rintro rfl; rw [ht] at hu; simp at hu; subst hu; exact absurd rfl hx
  have inert : ∀ {t : Nat} {x y : T} {s' : St}, s.th[t]? = some x → s'.th = s.th.set t y → x.1 ≠ .rLoad → y.1 ≠ .rLoad →
      (s'.lock = s.lock ∧ s'.q = s.q ∧ s'.lockV = s.lockV) ∨ (s.lock = none ∧ s'.lock = none) → InvL s' := by
    intro t x y s' ht hth hx hy hs
    obtain ⟨o1, o2⟩ := other ht hx hy
    constructor
    · intro u v hu
      rw [hth] at hu
      have := load _ _ (o1 _ _ hu)
      rcases hs with ⟨a, b, c⟩ | ⟨a, b⟩
      · rw [a, b, c]; exact this
      · simp [a] at this
    · intro u hu
      rcases hs with ⟨a, b, c⟩ | ⟨a, b⟩
      · rw [a] at hu
        obtain ⟨w, hw⟩ := hold u hu
        exact ⟨w, by rw [hth]; exact o2 _ _ hw⟩
      · simp [b] at hu
  have new : ∀ {y : T}, y.1 ≠ .rLoad →
      (∀ (u : Nat) v, (s.th ++ [y])[u]? = some (.rLoad, v) → s.th[u]? = some (.rLoad, v)) := by
    intro y hy u v hu
    rcases snoc_cases' hu with ⟨rfl, he⟩ | hu
    · subst he; exact absurd rfl hy
    · exact hu
  cases h
  case learn t p v v' ht h1 h2 h3 h4 =>
    have hlt := (List.getElem?_eq_some_iff.1 ht).1
    constructor
    · intro u w hu
      simp only [St.go] at hu
      rcases set_cases' hu with ⟨rfl, he⟩ | ⟨-, hu⟩
      · simp at he; obtain ⟨rfl, rfl⟩ := he
        obtain ⟨a, b, c⟩ := load _ _ ht
        exact ⟨a, b, by simp only [St.go]; omega⟩
      · exact load _ _ hu
    · intro u hu
      obtain ⟨w, hw⟩ := hold u hu
      by_cases e : u = t
      · subst e; rw [ht] at hw; simp at hw; obtain ⟨rfl, rfl⟩ := hw
        exact ⟨v', by simp [St.go, hlt]⟩
      · exact ⟨w, set' ht hw e⟩
  case rLock t v ht hl hq =>
    have hlt := (List.getElem?_eq_some_iff.1 ht).1
    constructor
    · intro u w hu
      simp only [St.go] at hu
      rcases set_cases' hu with ⟨rfl, he⟩ | ⟨-, hu⟩
      · simp at he; subst he; exact ⟨rfl, hq, by simp [View.join, St.go]; omega⟩
      · have := (load _ _ hu).1; simp [hl] at this
    · intro u hu
      simp [St.go] at hu; subst hu
      exact ⟨v.join s.lockV, by simp [St.go, hlt]⟩
  case rLoadZero t k v ht _ _ =>
    constructor
    · intro u w hu
      exfalso
      simp only [St.go] at hu
      rcases set_cases' hu with ⟨rfl, he⟩ | ⟨hne, hu⟩
      · simp at he
      · have := (load _ _ hu).1; rw [(load _ _ ht).1] at this; simp at this; exact hne this.symm
    · intro u hu; simp [St.go] at hu
  case rLoadMore t k n v ht _ _ _ =>
    constructor
    · intro u w hu
      exfalso
      simp only [St.go] at hu
      rcases set_cases' hu with ⟨rfl, he⟩ | ⟨hne, hu⟩
      · simp at he
      · have := (load _ _ hu).1; rw [(load _ _ ht).1] at this; simp at this; exact hne this.symm
    · intro u hu; simp [St.go] at hu
  case cloneS | cloneR | giveUp => exact ⟨load, hold⟩
  case dropS | dropR | recv | up | sendS | sendW =>
    refine ⟨fun u v hu => load _ _ (new (by simp) _ _ hu), fun u hu => ?_⟩
    obtain ⟨w, hw⟩ := hold u hu
    exact ⟨w, snoc' hw⟩
  case tHand ht hl _ | tPush ht hl _ _ | tPark ht hl _ _ | rBackHand ht hl _ | rBackPush ht hl _ | sLock ht hl | mLock ht hl | rTake ht hl _ _ | rTakeMore ht hl _ _ _ =>
    exact inert ht rfl (by simp) (by simp [after_ne']) (.inr ⟨hl, hl⟩)
  all_goals
    have ht : _ := ‹s.th[_]? = some _›
    exact inert ht rfl (by simp) (by simp [after_ne']) (.inl ⟨rfl, rfl, rfl⟩)

theorem invL {cap : Option Nat} {s : St} (h : Steps (init cap) s) : InvL s :=
  h.inv ⟨by simp [init], by simp [init]⟩ fun _ _ _ i h => invL_step h i

theorem offer_none {w : List Nat} {cells : List Cell} {m : Nat} (h : offer w cells m = none) : ∀ c ∈ w, cells[c]? ≠ some .empty := by
  induction w with
  | nil => simp
  | cons c w ih =>
    simp only [offer] at h
    split at h
    · simp at h
    · intro x hx
      rcases List.mem_cons.1 hx with rfl | hx
      · assumption
      · exact ih h x hx

theorem offer_some {w w' : List Nat} {cells cs : List Cell} {m : Nat} (h : offer w cells m = some (w', cs)) :
    ∃ a c, w = a ++ c :: w' ∧ (∀ x ∈ a, cells[x]? ≠ some .empty) ∧ cells[c]? = some .empty ∧ cs = cells.set c (.msg m) := by
  induction w with
  | nil => simp [offer] at h
  | cons c w ih =>
    simp only [offer] at h
    split at h
    · rename_i he
      simp at h; obtain ⟨rfl, rfl⟩ := h
      exact ⟨[], c, rfl, by simp, he, rfl⟩
    · rename_i he
      obtain ⟨a, d, h1, h2, h3, h4⟩ := ih h
      refine ⟨c :: a, d, by simp [h1], ?_, h3, h4⟩
      intro x hx
      rcases List.mem_cons.1 hx with rfl | hx
      · exact he
      · exact h2 x hx

theorem set_empty {cells : List Cell} {c d : Nat} {x : Cell} (hx : x ≠ .empty) (h : (cells.set c x)[d]? = some .empty) :
    cells[d]? = some .empty ∧ d ≠ c := by
  rcases set_cases' h with ⟨-, he⟩ | ⟨hne, h⟩
  · exact absurd he.symm hx
  · exact ⟨h, hne⟩

/-- No cell becomes empty, except a new one. -/
theorem cells_back {s s' : St} (h : Step s s') {c : Nat} (hc : s'.cells[c]? = some .empty) :
    s.cells[c]? = some .empty ∨ (c = s.cells.length ∧ s.q = s'.q ∧ ∃ (t : Nat) (v : View), s.th[t]? = some (Pc.rLoad, v)) := by
  cases h
  case rLoadMore ht _ _ _ =>
    rcases snoc_cases' hc with ⟨h, -⟩ | h
    · exact .inr ⟨h, rfl, _, _, ht⟩
    · exact .inl h
  case tHand ho => obtain ⟨a, d, -, -, -, rfl⟩ := offer_some ho; exact .inl (set_empty (by simp) hc).1
  case rBackHand ho => obtain ⟨a, d, -, -, -, rfl⟩ := offer_some ho; exact .inl (set_empty (by simp) hc).1
  case sNotify | rMsg | rShut | cMsg | cLost | cDrop => exact .inl (set_empty (by simp) hc).1
  all_goals exact .inl hc

/-- No cell disappears. -/
theorem cells_len {s s' : St} (h : Step s s') : s.cells.length ≤ s'.cells.length := by
  cases h
  case rLoadMore => simp [St.go]
  case tHand ho => obtain ⟨a, d, -, -, -, rfl⟩ := offer_some ho; simp [St.go]
  case rBackHand ho => obtain ⟨a, d, -, -, -, rfl⟩ := offer_some ho; simp [St.go]
  all_goals simp [St.go]

/-- Cells belong to calls. -/
def Pc.cells : Pc → List Nat
  | .waits c | .cDrop c => [c]
  | .sNotify q => q
  | _ => []

@[simp] theorem after_cells (own : Bool) : (after own).cells = [] := by cases own <;> rfl

/-- The queues. -/
structure InvQ (s : St) : Prop where
  park : s.parked ≠ [] → s.full
  wait : ∀ c ∈ s.wRx, s.cells[c]? = some .empty → s.q = []
  reg : ∀ c ∈ s.wRx, c < s.cells.length
  cell : ∀ (t : Nat) p v, s.th[t]? = some (p, v) → ∀ c ∈ p.cells, c < s.cells.length

theorem invQ_cell {s s' : St} (h : Step s s') (i : InvQ s) : ∀ (t : Nat) p v, s'.th[t]? = some (p, v) → ∀ c ∈ p.cells, c < s'.cells.length := by
  have hlen := cells_len h
  have key : ∀ {t : Nat} {y : T} {s' : St}, s'.th = s.th.set t y → s.cells.length ≤ s'.cells.length → (∀ c ∈ y.1.cells, c < s'.cells.length) →
      ∀ (u : Nat) p w, s'.th[u]? = some (p, w) → ∀ c ∈ p.cells, c < s'.cells.length := by
    intro t y s' hth hl hy u p w hu c hc
    rw [hth] at hu
    rcases set_cases' hu with ⟨rfl, he⟩ | ⟨-, hu⟩
    · subst he; exact hy c hc
    · have := i.cell u p w hu c hc; omega
  have new : ∀ {y : T} {s' : St}, s'.th = s.th ++ [y] → s'.cells = s.cells → y.1.cells = [] →
      ∀ (u : Nat) p w, s'.th[u]? = some (p, w) → ∀ c ∈ p.cells, c < s'.cells.length := by
    intro y s' hth hl hy u p w hu c hc
    rw [hth] at hu
    rcases snoc_cases' hu with ⟨rfl, he⟩ | hu
    · subst he; simp [hy] at hc
    · rw [hl]; exact i.cell u p w hu c hc
  cases h
  case cloneS | cloneR | giveUp => exact i.cell
  case dropS | dropR | recv | up | sendS | sendW => exact new rfl rfl rfl
  case learn t p v v' ht _ _ _ _ => exact key rfl hlen (fun c hc => i.cell _ _ _ ht c hc)
  case sLock => exact key rfl hlen (fun c hc => i.reg c hc)
  case sNotify t c v q ht he => exact key rfl hlen (fun d hd => by have := i.cell _ _ _ ht d (by simp [Pc.cells] at hd ⊢; exact .inr hd); omega)
  case sNotifyFull t c v q ht he => exact key rfl hlen (fun d hd => by have := i.cell _ _ _ ht d (by simp [Pc.cells] at hd ⊢; exact .inr hd); omega)
  case rLoadMore => exact key rfl hlen (by simp [Pc.cells, St.go])
  case cNone ht _ => exact key rfl hlen (fun d hd => i.cell _ _ _ ht d hd)
  all_goals
    refine key rfl hlen fun c hc => ?_
    first
    | (simp only [after_cells, List.not_mem_nil] at hc; done)
    | simp [Pc.cells] at hc

theorem invQ_step {s s' : St} (h : Step s s') (l : InvL s) (i : InvQ s) : InvQ s' := by
  have hcell := invQ_cell h i
  have hlen := cells_len h
  have hback := @cells_back s s' h
  obtain ⟨park, wait, reg, cell⟩ := i
  have wait' : s'.wRx = s.wRx → s'.q = s.q → ∀ c ∈ s'.wRx, s'.cells[c]? = some .empty → s'.q = [] := by
    intro hw hq c hc he
    rw [hw] at hc
    rcases hback he with h1 | ⟨h1, -⟩
    · rw [hq]; exact wait c hc h1
    · have := reg c hc; omega
  have reg' : s'.wRx = s.wRx → ∀ c ∈ s'.wRx, c < s'.cells.length := by
    intro hw c hc; rw [hw] at hc; have := reg c hc; omega
  cases h
  case giveUp m a b hp =>
    exact ⟨fun _ => park (by simp [hp]), wait, reg, hcell⟩
  case mLock => exact ⟨by simp [St.go], fun _ _ _ => rfl, reg, hcell⟩
  case tHand ho =>
    obtain ⟨a, d, h1, -, h2, rfl⟩ := offer_some ho
    have hq : s.q = [] := wait d (by simp [h1]) h2
    exact ⟨park, fun _ _ _ => hq, fun c hc => by simp [St.go]; exact reg c (by simp only [St.go] at hc; simp [h1, hc]), hcell⟩
  case rBackHand ho =>
    obtain ⟨a, d, h1, -, h2, rfl⟩ := offer_some ho
    have hq : s.q = [] := wait d (by simp [h1]) h2
    exact ⟨park, fun _ _ _ => hq, fun c hc => by simp [St.go]; exact reg c (by simp only [St.go] at hc; simp [h1, hc]), hcell⟩
  case tPush => exact ⟨fun hp => by obtain ⟨c, h1, h2⟩ := park hp; exact ⟨c, h1, by simp [St.go]; omega⟩, by simp [St.go], by simp [St.go], hcell⟩
  case rBackPush => exact ⟨fun hp => by obtain ⟨c, h1, h2⟩ := park hp; exact ⟨c, h1, by simp [St.go]; omega⟩, by simp [St.go], by simp [St.go], hcell⟩
  case tPark hf => exact ⟨fun _ => hf, by simp [St.go], by simp [St.go], hcell⟩
  case sLock => exact ⟨park, by simp [St.go], by simp [St.go], hcell⟩
  case rTake hq hf =>
    refine ⟨fun hp => ?_, fun c hc he => ?_, reg, hcell⟩
    · rcases hf with hf | hf
      · exact hf
      · exact absurd hf hp
    · have := wait c hc he; simp [hq] at this
  case rTakeMore hq hf hp =>
    refine ⟨fun _ => ?_, fun c hc he => ?_, reg, hcell⟩
    · obtain ⟨c, h1, h2⟩ := park (by simp [hp])
      exact ⟨c, h1, by simp [hq, St.go] at h2 ⊢; omega⟩
    · have := wait c hc he; simp [hq] at this
  case rLoadMore ht _ _ _ =>
    refine ⟨park, fun _ _ _ => (l.load _ _ ht).2.1, fun c hc => ?_, hcell⟩
    simp [St.go] at hc ⊢
    rcases hc with hc | rfl
    · have := reg c hc; omega
    · omega
  all_goals exact ⟨park, wait' rfl rfl, reg' rfl, hcell⟩

theorem invQ {cap : Option Nat} {s : St} (h : Steps (init cap) s) : InvQ s :=
  h.inv ⟨by simp [init], by simp [init], by simp [init], by simp [init]⟩ fun _ _ hr i h => invQ_step h (invL hr) i

/-- Some call is at a point with a property. -/
def Has (s : St) (P : Pc → View → Prop) : Prop := ∃ (t : Nat) (p : Pc) (v : View), s.th[t]? = some (p, v) ∧ P p v

theorem Has.set {s s' : St} {P : Pc → View → Prop} {t : Nat} {x y : T} (h : Has s P) (ht : s.th[t]? = some x)
    (hth : s'.th = s.th.set t y) (hxy : P x.1 x.2 → P y.1 y.2) : Has s' P := by
  obtain ⟨u, p, v, hu, hp⟩ := h
  by_cases e : t = u
  · subst e
    rw [ht] at hu; simp at hu; subst hu
    refine ⟨t, y.1, y.2, ?_, hxy hp⟩
    have := (List.getElem?_eq_some_iff.1 ht).1
    simp [hth, List.getElem?_set, this]
  · exact ⟨u, p, v, by simp [hth, List.getElem?_set, e, hu], hp⟩

theorem Has.snoc {s s' : St} {P : Pc → View → Prop} {y : T} (h : Has s P) (hth : s'.th = s.th ++ [y]) : Has s' P := by
  obtain ⟨u, p, v, hu, hp⟩ := h
  have := (List.getElem?_eq_some_iff.1 hu).1
  exact ⟨u, p, v, by rw [hth, List.getElem?_append_left this, hu], hp⟩

theorem Has.mono {s : St} {P Q : Pc → View → Prop} (h : Has s P) (hpq : ∀ p v, P p v → Q p v) : Has s Q := by
  obtain ⟨u, p, v, hu, hp⟩ := h; exact ⟨u, p, v, hu, hpq p v hp⟩

/-- The call comes after the last strong reference went away. -/
def Pc.afterS : Pc → Bool
  | .sLock | .sNotify _ => true
  | _ => false

/-- After the last strong reference is gone, the waiting receivers are taken, and nobody registers afterwards. -/
structure InvS (s : St) : Prop where
  pend : cur s.sc = 0 → Has s (fun p v => p = .sLock ∧ s.sc.length ≤ v.s + 1) ∨ (s.wRx = [] ∧ s.sc.length ≤ s.lockV.s + 1)
  low : ∀ (t : Nat) p v, s.th[t]? = some (p, v) → p.afterS = true → cur s.sc = 0
  rlow : ∀ (t : Nat) v, s.th[t]? = some (.mLock, v) → cur s.rc = 0

/-- Once zero, the counters do not change. -/
theorem sc_final {s s' : St} (h : Step s s') (a : InvA s) (hc : cur s.sc = 0) : s'.sc = s.sc := by
  have h1 := a.scur
  cases h <;> try rfl
  case cloneS hp => omega
  case sendS hp => omega
  case sSubLast ht _ => have := le_sumBy wS ht; simp [wS] at this; omega
  case sSubMore ht _ => have := le_sumBy wS ht; simp [wS] at this; omega
  case uCasOk ht _ => have := a.cas _ _ _ ht; omega

theorem rc_final {s s' : St} (h : Step s s') (a : InvA s) (hc : cur s.rc = 0) : s'.rc = s.rc := by
  have h1 := a.rcur
  cases h <;> try rfl
  case cloneR hp => omega
  case mSubLast ht _ => have := le_sumBy wR ht; simp [wR] at this; omega
  case mSubMore ht _ => have := le_sumBy wR ht; simp [wR] at this; omega

theorem after_afterS (own : Bool) : (after own).afterS = false := by cases own <;> rfl

theorem invS_low {s s' : St} (h : Step s s') (a : InvA s) (i : InvS s) :
    ∀ (t : Nat) p v, s'.th[t]? = some (p, v) → p.afterS = true → cur s'.sc = 0 := by
  have hf := sc_final h a
  have old : ∀ {t : Nat} {x : T}, s.th[t]? = some x → x.1.afterS = true → cur s'.sc = 0 := by
    intro t x ht hx
    have := i.low t x.1 x.2 ht hx
    rw [hf this]; exact this
  have key : ∀ {t : Nat} {y : T}, s'.th = s.th.set t y → (y.1.afterS = true → cur s'.sc = 0) →
      ∀ (u : Nat) p v, s'.th[u]? = some (p, v) → p.afterS = true → cur s'.sc = 0 := by
    intro t y hth hy u p v hu hp
    rw [hth] at hu
    rcases set_cases' hu with ⟨rfl, he⟩ | ⟨-, hu⟩
    · subst he; exact hy hp
    · exact old hu hp
  have new : ∀ {y : T}, s'.th = s.th ++ [y] → y.1.afterS = false →
      ∀ (u : Nat) p v, s'.th[u]? = some (p, v) → p.afterS = true → cur s'.sc = 0 := by
    intro y hth hy u p v hu hp
    rw [hth] at hu
    rcases snoc_cases' hu with ⟨rfl, he⟩ | hu
    · subst he; simp [hy] at hp
    · exact old hu hp
  cases h
  case cloneS | cloneR | giveUp => exact fun t p v ht hp => old (x := (p, v)) ht hp
  case dropS | dropR | recv | up | sendS | sendW => exact new rfl rfl
  case learn ht _ _ _ _ => exact key rfl (fun h => old ht h)
  case sSubLast hc => exact key rfl (fun _ => by simp [St.go, cur_snoc, hc])
  case sLock ht _ => exact key rfl (fun _ => old ht rfl)
  case sNotify ht _ => exact key rfl (fun _ => old ht rfl)
  case sNotifyFull ht _ => exact key rfl (fun _ => old ht rfl)
  all_goals
    refine key rfl fun hp => ?_
    first
    | (simp only [after_afterS, Bool.false_eq_true] at hp; done)
    | simp [Pc.afterS] at hp

theorem after_mLock (own : Bool) : after own ≠ .mLock := by cases own <;> simp [after]

theorem invS_rlow {s s' : St} (h : Step s s') (a : InvA s) (i : InvS s) :
    ∀ (t : Nat) v, s'.th[t]? = some (.mLock, v) → cur s'.rc = 0 := by
  have hf := rc_final h a
  have old : ∀ {t : Nat} {x : T}, s.th[t]? = some x → x.1 = .mLock → cur s'.rc = 0 := by
    intro t x ht hx
    have := i.rlow t x.2 (by rw [ht, ← hx])
    rw [hf this]; exact this
  have key : ∀ {t : Nat} {y : T}, s'.th = s.th.set t y → (y.1 = .mLock → cur s'.rc = 0) →
      ∀ (u : Nat) v, s'.th[u]? = some (.mLock, v) → cur s'.rc = 0 := by
    intro t y hth hy u v hu
    rw [hth] at hu
    rcases set_cases' hu with ⟨rfl, he⟩ | ⟨-, hu⟩
    · subst he; exact hy rfl
    · exact old hu rfl
  have new : ∀ {y : T}, s'.th = s.th ++ [y] → y.1 ≠ .mLock →
      ∀ (u : Nat) v, s'.th[u]? = some (.mLock, v) → cur s'.rc = 0 := by
    intro y hth hy u v hu
    rw [hth] at hu
    rcases snoc_cases' hu with ⟨rfl, he⟩ | hu
    · subst he; exact absurd rfl hy
    · exact old hu rfl
  cases h
  case cloneS | cloneR | giveUp => exact fun t v ht => old ht rfl
  case dropS | dropR | recv | up | sendS | sendW => exact new rfl (by simp)
  case learn ht _ _ _ _ => exact key rfl (fun h => old ht h)
  case mSubLast hc => exact key rfl (fun _ => by simp [St.go, cur_snoc, hc])
  all_goals
    refine key rfl fun hp => ?_
    first
    | exact absurd hp (after_mLock _)
    | simp at hp

theorem invS_step {s s' : St} (h : Step s s') (a : InvA s) (l : InvL s) (i : InvS s) : InvS s' := by
  refine ⟨fun hc => ?_, invS_low h a i, invS_rlow h a i⟩
  have a' := invA_step h a
  obtain ⟨pend, low, rlow⟩ := i
  have inert : ∀ {t : Nat} {x y : T} {s' : St}, s.th[t]? = some x → s'.th = s.th.set t y → s'.sc = s.sc → (s'.wRx = s.wRx ∨ s'.wRx = []) →
      s.lockV.s ≤ s'.lockV.s → (x.1 = .sLock → y.1 = .sLock ∧ x.2.s ≤ y.2.s) → cur s.sc = 0 →
      Has s' (fun p v => p = .sLock ∧ s'.sc.length ≤ v.s + 1) ∨ (s'.wRx = [] ∧ s'.sc.length ≤ s'.lockV.s + 1) := by
    intro t x y s' ht hth hsc hw hl hx hc
    rcases pend hc with h1 | ⟨h1, h2⟩
    · left
      rw [hsc]
      refine h1.set ht hth ?_
      rintro ⟨e, h⟩
      have := hx e
      exact ⟨this.1, by omega⟩
    · right; rw [h1] at hw; exact ⟨by simpa using hw, by rw [hsc]; omega⟩
  have new : ∀ {y : T} {s' : St}, s'.th = s.th ++ [y] → s'.sc = s.sc → s'.wRx = s.wRx → s'.lockV = s.lockV → cur s.sc = 0 →
      Has s' (fun p v => p = .sLock ∧ s'.sc.length ≤ v.s + 1) ∨ (s'.wRx = [] ∧ s'.sc.length ≤ s'.lockV.s + 1) := by
    intro y s' hth hsc hw hl hc
    rcases pend hc with h1 | ⟨h1, h2⟩
    · left; rw [hsc]; exact h1.snoc hth
    · right; exact ⟨hw.trans h1, by rw [hsc, hl]; exact h2⟩
  cases h
  case cloneS => simp [cur_snoc] at hc
  case sendS => simp [cur_snoc] at hc
  case uCasOk => simp [St.go, cur_snoc] at hc
  case sSubMore t v ht hn =>
    have h1 := le_sumBy wS ht; have h2 := a.scur; simp [wS] at h1
    simp [St.go, cur_snoc] at hc; omega
  case sSubLast t v ht hn =>
    have hlt := (List.getElem?_eq_some_iff.1 ht).1
    exact .inl ⟨t, .sLock, _, by simp [St.go, hlt]; rfl, rfl, by simp [St.go]⟩
  case cloneR | giveUp => exact pend hc
  case dropS | dropR | recv | up | sendW => exact new rfl rfl rfl rfl hc
  case sLock t v ht hl =>
    by_cases e : s.sc.length ≤ v.s + 1
    · right; exact ⟨rfl, by simp [St.go, View.join]; omega⟩
    · rcases pend hc with ⟨u, p, w, hu, rfl, h2⟩ | ⟨h1, h2⟩
      · left
        refine ⟨u, .sLock, w, ?_, rfl, h2⟩
        have : t ≠ u := by rintro rfl; rw [ht] at hu; simp at hu; subst hu; exact e h2
        simp [St.go, List.getElem?_set, this, hu]
      · right; exact ⟨rfl, by simp [St.go, View.join]; omega⟩
  case rLoadMore t k n v ht hk hn hne =>
    rcases pend hc with h1 | ⟨h1, h2⟩
    · left; exact h1.set ht rfl (by simp)
    · exfalso
      have h3 := (l.load _ _ ht).2.2
      have h4 := (List.getElem?_eq_some_iff.1 hn).1
      have h5 := cur_eq a.sne
      have : k = s.sc.length - 1 := by omega
      subst this
      rw [hn] at h5; simp at h5
      have : cur s.sc = 0 := hc
      omega
  case rLoadZero t k v ht hk hn =>
    exact inert ht rfl rfl (.inl rfl) (by have := (l.load _ _ ht).2.2; simp [St.go]; omega) (by simp) hc
  case learn ht h1 _ _ _ => exact inert ht rfl rfl (.inl rfl) (Nat.le_refl _) (fun h => ⟨h, h1⟩) hc
  case tHand ho =>
    rcases pend hc with h1 | ⟨h1, h2⟩
    · left; exact h1.set (by assumption) rfl (by simp)
    · rw [h1] at ho; simp [offer] at ho
  case rBackHand ho =>
    rcases pend hc with h1 | ⟨h1, h2⟩
    · left; exact h1.set (by assumption) rfl (by simp)
    · rw [h1] at ho; simp [offer] at ho
  all_goals
    have ht : _ := ‹s.th[_]? = some _›
    first
    | exact inert ht rfl rfl (.inl rfl) (Nat.le_refl _) (by simp) hc
    | exact inert ht rfl rfl (.inl rfl) (by simp [St.go, View.join]; omega) (by simp) hc
    | exact inert ht rfl rfl (.inr rfl) (by simp [St.go, View.join]; omega) (by simp) hc

theorem invS {cap : Option Nat} {s : St} (h : Steps (init cap) s) : InvS s :=
  h.inv ⟨by simp [init, cur], by simp [init], by simp [init]⟩ fun _ _ hr i h => invS_step h (invA hr) (invL hr) i

/-- A receive that waits is registered, or was taken to be told to shut down. -/
def InvW (s : St) : Prop := ∀ (t : Nat) v c, s.th[t]? = some (.waits c, v) → s.cells[c]? = some .empty →
  c ∈ s.wRx ∨ Has s (fun p _ => ∃ q, p = .sNotify q ∧ c ∈ q)

theorem after_waits (own : Bool) (c : Nat) : after own ≠ .waits c := by cases own <;> simp [after]

theorem invW_step {s s' : St} (h : Step s s') (k : InvQ s) (i : InvW s) : InvW s' := by
  have hback := @cells_back s s' h
  intro u w c hu hc
  -- an old waiting receive
  have old : ∀ {t : Nat} {x y : T} {s' : St}, s.th[t]? = some x → s'.th = s.th.set t y → s'.cells[c]? = some .empty →
      s.cells[c]? = some .empty → (∀ v, s.th[u]? = some (.waits c, v) → c ∈ s.wRx → c ∈ s'.wRx ∨ y.1 = .sNotify s.wRx) →
      (∀ q, x.1 = .sNotify q → c ∈ q → ∃ q', y.1 = .sNotify q' ∧ c ∈ q') → ∀ v, s.th[u]? = some (.waits c, v) →
      c ∈ s'.wRx ∨ Has s' (fun p _ => ∃ q, p = .sNotify q ∧ c ∈ q) := by
    intro t x y s' ht hth _ he hw hx v hv
    rcases i u v c hv he with h1 | h1
    · rcases hw v hv h1 with h2 | h2
      · exact .inl h2
      · right
        have := (List.getElem?_eq_some_iff.1 ht).1
        exact ⟨t, y.1, y.2, by simp [hth, this], _, h2, h1⟩
    · right
      refine h1.set ht hth ?_
      rintro ⟨q, h2, h3⟩
      exact hx q h2 h3
  have plain : ∀ {t : Nat} {x y : T} {s' : St}, s.th[t]? = some x → s'.th = s.th.set t y → s'.cells[c]? = some .empty →
      (s'.cells[c]? = some .empty → s.cells[c]? = some .empty) →
      (∀ v, s.th[u]? = some (.waits c, v) → c ∈ s.wRx → c ∈ s'.wRx ∨ y.1 = .sNotify s.wRx) → (∀ q, x.1 ≠ .sNotify q) → (∀ c, y.1 = .waits c → x.1 = .waits c) →
      s'.th[u]? = some (.waits c, w) → c ∈ s'.wRx ∨ Has s' (fun p _ => ∃ q, p = .sNotify q ∧ c ∈ q) := by
    intro t x y s' ht hth hc hb hw hx hy hu
    have hv : ∃ v, s.th[u]? = some (.waits c, v) := by
      rw [hth] at hu
      rcases set_cases' hu with ⟨rfl, he⟩ | ⟨-, hu⟩
      · subst he; exact ⟨x.2, by rw [ht, ← hy c rfl]⟩
      · exact ⟨w, hu⟩
    obtain ⟨v, hv⟩ := hv
    exact old ht hth hc (hb hc) hw (fun q h => absurd h (hx q)) v hv
  cases h
  case cloneS | cloneR | giveUp => exact i u w c hu hc
  case dropS | dropR | recv | up | sendS | sendW =>
    rcases snoc_cases' hu with ⟨rfl, he⟩ | hu'
    · simp at he
    · rcases i u w c hu' hc with h1 | h1
      · exact .inl h1
      · exact .inr (h1.snoc rfl)
  case learn t p v v' ht _ _ _ _ =>
    simp only [St.go] at hu hc
    have hv : ∃ v, s.th[u]? = some (.waits c, v) := by
      rcases set_cases' hu with ⟨rfl, he⟩ | ⟨-, hu⟩
      · simp at he; obtain ⟨rfl, rfl⟩ := he; exact ⟨v, ht⟩
      · exact ⟨w, hu⟩
    obtain ⟨v, hv⟩ := hv
    exact old ht rfl hc hc (fun _ _ h => .inl h) (fun q h1 h2 => ⟨q, h1, h2⟩) v hv
  case rLoadMore t j n v ht _ _ _ =>
    simp only [St.go] at hu hc
    rcases set_cases' hu with ⟨rfl, he⟩ | ⟨-, hu'⟩
    · simp at he; obtain ⟨rfl, -⟩ := he; exact .inl (by simp [St.go])
    · have hlt := k.cell u _ _ hu' c (by simp [Pc.cells])
      have hc' : s.cells[c]? = some .empty := by rw [List.getElem?_append_left hlt] at hc; exact hc
      exact old ht rfl hc hc' (fun _ _ h => .inl (by simp [h, St.go])) (by simp) w hu'
  case sNotify t d v q ht he =>
    simp only [St.go] at hu hc
    obtain ⟨h1, h2⟩ := set_empty (by simp) hc
    rcases set_cases' hu with ⟨rfl, he⟩ | ⟨-, hu'⟩
    · simp at he
    · refine old ht rfl hc h1 (fun _ _ h => .inl h) ?_ w hu'
      intro q' e hq
      simp at e; subst e
      rcases List.mem_cons.1 hq with rfl | hq
      · exact absurd rfl h2
      · exact ⟨q, rfl, hq⟩
  case sNotifyFull t d v q ht he =>
    simp only [St.go] at hu hc
    rcases set_cases' hu with ⟨rfl, he⟩ | ⟨-, hu'⟩
    · simp at he
    · refine old ht rfl hc hc (fun _ _ h => .inl h) ?_ w hu'
      intro q' e hq
      simp at e; subst e
      rcases List.mem_cons.1 hq with rfl | hq
      · exact absurd hc he
      · exact ⟨q, rfl, hq⟩
  case sEnd t v ht =>
    simp only [St.go] at hu hc
    rcases set_cases' hu with ⟨rfl, he⟩ | ⟨-, hu'⟩
    · simp at he
    · refine old ht rfl hc hc (fun _ _ h => .inl h) ?_ w hu'
      intro q' e hq
      simp at e; subst e; simp at hq
  case sLock t v ht hl => exact plain ht rfl hc id (fun _ _ _ => .inr rfl) (by simp) (by simp) hu
  case tHand ht _ ho =>
    obtain ⟨a, d, h1, h2, h3, rfl⟩ := offer_some ho
    have h4 := set_empty (by simp) hc
    refine plain ht rfl hc (fun _ => h4.1) (fun _ _ h => .inl ?_) (by simp) (fun c h => absurd h (after_waits _ _)) hu
    rw [h1] at h
    rcases List.mem_append.1 h with h | h
    · exact absurd h4.1 (h2 c h)
    · rcases List.mem_cons.1 h with rfl | h
      · exact absurd rfl h4.2
      · exact h
  case rBackHand ht _ ho =>
    obtain ⟨a, d, h1, h2, h3, rfl⟩ := offer_some ho
    have h4 := set_empty (by simp) hc
    refine plain ht rfl hc (fun _ => h4.1) (fun _ _ h => .inl ?_) (by simp) (by simp) hu
    rw [h1] at h
    rcases List.mem_append.1 h with h | h
    · exact absurd h4.1 (h2 c h)
    · rcases List.mem_cons.1 h with rfl | h
      · exact absurd rfl h4.2
      · exact h
  case tPush ht _ ho _ => exact plain ht rfl hc id (fun _ _ h => absurd hc (offer_none ho c h)) (by simp) (fun c h => absurd h (after_waits _ _)) hu
  case tPark ht _ ho _ => exact plain ht rfl hc id (fun _ _ h => absurd hc (offer_none ho c h)) (by simp) (fun c h => absurd h (after_waits _ _)) hu
  case rBackPush ht _ ho => exact plain ht rfl hc id (fun _ _ h => absurd hc (offer_none ho c h)) (by simp) (by simp) hu
  case rMsg ht _ => exact plain ht rfl hc (fun h => (set_empty (by simp) h).1) (fun _ _ h => .inl h) (by simp) (by simp) hu
  case rShut ht _ => exact plain ht rfl hc (fun h => (set_empty (by simp) h).1) (fun _ _ h => .inl h) (by simp) (by simp) hu
  case cMsg ht _ => exact plain ht rfl hc (fun h => (set_empty (by simp) h).1) (fun _ _ h => .inl h) (by simp) (by simp) hu
  case cLost ht _ => exact plain ht rfl hc (fun h => (set_empty (by simp) h).1) (fun _ _ h => .inl h) (by simp) (by simp) hu
  case cDrop ht _ => exact plain ht rfl hc (fun h => (set_empty (by simp) h).1) (fun _ _ h => .inl h) (by simp) (by simp) hu
  all_goals
    have ht : _ := ‹s.th[_]? = some _›
    exact plain ht rfl hc id (fun _ _ h => .inl h) (by simp) (by simp [after_waits]) hu

theorem invW {cap : Option Nat} {s : St} (h : Steps (init cap) s) : InvW s :=
  h.inv (by intro t v c h; simp [init] at h) fun _ _ hr i h => invW_step h (invQ hr) i

/-! ### Conservation -/

/-- `1` if the numbers are the same. -/
def one (n m : Nat) : Nat := if n = m then 1 else 0

theorem count_snoc (l : List Nat) (n m : Nat) : (l ++ [n]).count m = l.count m + one n m := by
  simp [List.count_append, one, List.count_cons]

theorem count_mid (a b : List Nat) (n m : Nat) : (a ++ n :: b).count m = (a ++ b).count m + one n m := by
  simp [List.count_append, one, List.count_cons]; omega

theorem one_pos {n m : Nat} (h : 0 < one n m) : n = m := by unfold one at h; split at h <;> simp_all

theorem one_self (n : Nat) : one n n = 1 := by simp [one]

/-- The call has the message in its hands. -/
def wM (m : Nat) : T → Nat
  | (.tLoadR _ n, _) | (.tLoadS _ n, _) | (.tCrit _ n, _) | (.got n, _) | (.rBack n, _) => one n m
  | _ => 0

@[simp] theorem wM_after (m : Nat) (own : Bool) (v : View) : wM m (after own, v) = 0 := by cases own <;> rfl
theorem wM_view (m : Nat) (p : Pc) (v v' : View) : wM m (p, v) = wM m (p, v') := by cases p <;> rfl

/-- The message is in the cell. -/
def wX (m : Nat) : Cell → Nat
  | .msg n => one n m
  | _ => 0

/-- All the places in which a message can be. -/
def total (m : Nat) (s : St) : Nat :=
  s.q.count m + s.parked.count m + sumBy (wM m) s.th + sumBy (wX m) s.cells + s.refused.count m + s.closed.count m + s.given.count m +
    s.lost.count m

/-- The message exists. -/
def born (m n : Nat) : Nat := if m < n then 1 else 0

theorem born_succ (m n : Nat) : born m (n + 1) = born m n + one n m := by
  unfold born one; split <;> split <;> split <;> omega

theorem total_step {s s' : St} (h : Step s s') (m : Nat) (i : total m s = born m s.next) : total m s' = born m s'.next := by
  unfold total at i ⊢
  have hM : ∀ {t : Nat} {x : T} (y : T), s.th[t]? = some x → sumBy (wM m) (s.th.set t y) + wM m x = sumBy (wM m) s.th + wM m y :=
    fun y h => sumBy_set (wM m) y h
  have hX : ∀ {c : Nat} {x : Cell} (y : Cell), s.cells[c]? = some x → sumBy (wX m) (s.cells.set c y) + wX m x = sumBy (wX m) s.cells + wX m y :=
    fun y h => sumBy_set (wX m) y h
  have inert : ∀ {t : Nat} {x y : T} {s' : St}, s.th[t]? = some x → s'.th = s.th.set t y → wM m x = wM m y → s'.q = s.q →
      s'.parked = s.parked → s'.cells = s.cells → s'.refused = s.refused → s'.closed = s.closed → s'.given = s.given → s'.lost = s.lost →
      s'.next = s.next → s'.q.count m + s'.parked.count m + sumBy (wM m) s'.th + sumBy (wX m) s'.cells + s'.refused.count m +
        s'.closed.count m + s'.given.count m + s'.lost.count m = born m s'.next := by
    intro t x y s' ht h1 h2 h3 h4 h5 h6 h7 h8 h9 h10
    have := hM y ht
    rw [h1, h3, h4, h5, h6, h7, h8, h9, h10]; omega
  cases h
  case cloneS | cloneR => exact i
  case dropS | dropR | recv | up => simp [wM]; exact i
  case sendS => simp [wM, born_succ]; omega
  case sendW => simp [wM, born_succ]; omega
  case learn p v v' ht _ _ _ _ =>
    have e := hM (p, v') ht
    rw [wM_view m p v v'] at e
    simp only [St.go]; omega
  case tDrop n own v ht =>
    have e := hM (after own, v) ht
    rw [wM_after] at e; simp only [wM] at e
    simp only [St.go, count_snoc]; omega
  case tLoadRZero n k own v ht _ _ =>
    have e := hM (after own, { v with r := k }) ht
    rw [wM_after] at e; simp only [wM] at e
    simp only [St.go, count_snoc]; omega
  case tLoadSZero n k own v ht _ _ =>
    have e := hM (after own, { v with s := k }) ht
    rw [wM_after] at e; simp only [wM] at e
    simp only [St.go, count_snoc]; omega
  case tHand n own v w cs ht _ ho =>
    have e := hM (after own, v.join s.lockV) ht
    obtain ⟨a, d, h1, h2, h3, rfl⟩ := offer_some ho
    have e' := hX (.msg n) h3
    rw [wM_after] at e; simp only [wM] at e
    simp only [wX] at e'
    simp only [St.go, count_snoc]; omega
  case tPush n own v ht _ _ _ =>
    have e := hM (after own, v.join s.lockV) ht
    rw [wM_after] at e; simp only [wM] at e
    simp only [St.go, count_snoc]; omega
  case tPark n own v ht _ _ _ =>
    have e := hM (after own, v.join s.lockV) ht
    rw [wM_after] at e; simp only [wM] at e
    simp only [St.go, count_snoc]; omega
  case giveUp n a b hp =>
    rw [hp, count_mid] at i
    simp only [count_snoc]; omega
  case rTake n v a b ht _ hq _ =>
    have e := hM (.got n, v.join s.lockV) ht
    rw [hq, count_mid] at i
    simp only [wM] at e
    simp only [St.go]; omega
  case rTakeMore n n' v a b a' b' ht _ hq _ hp =>
    have e := hM (.got n, v.join s.lockV) ht
    rw [hq, count_mid, hp, count_mid] at i
    simp only [wM] at e
    simp only [St.go, count_snoc]; omega
  case rLoadMore k n v ht _ _ _ =>
    simp only [St.go, sumBy_append, sumBy_cons, sumBy_nil, wX]
    have e := hM (.waits s.cells.length, { v with s := k }) ht
    simp only [wM] at e
    omega
  case sNotify c v q ht hc =>
    have e := hM (.sNotify q, v) ht
    have e' := hX .shut hc
    simp only [wM] at e
    simp only [wX] at e'
    simp only [St.go]; omega
  case rMsg c n v ht hc =>
    have e := hM (.got n, v) ht
    have e' := hX .gone hc
    simp only [wM] at e
    simp only [wX] at e'
    simp only [St.go]; omega
  case rShut c v ht hc =>
    have e := hM (.shut, v) ht
    have e' := hX .gone hc
    simp only [wM] at e
    simp only [wX] at e'
    simp only [St.go]; omega
  case cMsg c n v ht hc =>
    have e := hM (.rBack n, v) ht
    have e' := hX .gone hc
    simp only [wM] at e
    simp only [wX] at e'
    simp only [St.go]; omega
  case cLost c n v ht hc =>
    have e := hM (.done, v) ht
    have e' := hX .gone hc
    simp only [wM] at e
    simp only [wX] at e'
    simp only [St.go, count_snoc]; omega
  case cDrop c v ht hc =>
    have e := hM (.done, v) ht
    simp only [wM] at e
    have e' : sumBy (wX m) (s.cells.set c .gone) = sumBy (wX m) s.cells := by
      cases hx : s.cells[c]? with
      | none => rw [List.set_eq_of_length_le (List.getElem?_eq_none_iff.1 hx)]
      | some x =>
        have := hX .gone hx
        cases x <;> simp only [wX] at this <;> first | omega | exact absurd hx (hc _)
    simp only [St.go]; omega
  case rBackHand n v w cs ht _ ho =>
    have e := hM (.done, v.join s.lockV) ht
    obtain ⟨a, d, h1, h2, h3, rfl⟩ := offer_some ho
    have e' := hX (.msg n) h3
    simp only [wM] at e
    simp only [wX] at e'
    simp only [St.go]; omega
  case rBackPush n v ht _ _ =>
    have e := hM (.done, v.join s.lockV) ht
    simp only [wM] at e
    simp only [St.go, count_snoc]; omega
  case mLock v ht _ =>
    have e := hM (.done, v.join s.lockV) ht
    simp only [wM] at e
    simp only [St.go, List.count_append, List.count_nil]; omega
  all_goals
    have ht : _ := ‹s.th[_]? = some _›
    exact inert ht rfl rfl rfl rfl rfl rfl rfl rfl rfl rfl

theorem total_inv {cap : Option Nat} {s : St} (h : Steps (init cap) s) (m : Nat) : total m s = born m s.next :=
  h.inv (P := fun s => total m s = born m s.next) (by simp [total, init, born]) fun _ _ _ i h => total_step h m i

/-! ### Cells -/

/-- The call has the cell. -/
def wC (c : Nat) : T → Nat
  | (.waits d, _) | (.cDrop d, _) => one d c
  | _ => 0

@[simp] theorem wC_after (c : Nat) (own : Bool) (v : View) : wC c (after own, v) = 0 := by cases own <;> rfl

/-- The cell is in use. -/
def inUse : Option Cell → Nat
  | none | some .gone => 0
  | _ => 1

/-- Each cell in use belongs to exactly one receive. -/
def InvU (s : St) : Prop := ∀ c, sumBy (wC c) s.th = inUse s.cells[c]?

theorem inUse_set {cells : List Cell} {c d : Nat} {x y : Cell} (hc : cells[c]? = some x) (e : inUse (some x) = inUse (some y)) :
    inUse (cells.set c y)[d]? = inUse cells[d]? := by
  have hlt := (List.getElem?_eq_some_iff.1 hc).1
  by_cases h : c = d
  · subst h; rw [hc, e]; simp [hlt]
  · simp [List.getElem?_set, h]

theorem inUse_gone {cells : List Cell} {c d : Nat} {x : Cell} (hc : cells[c]? = some x) (e : x ≠ .gone) :
    inUse (cells.set c .gone)[d]? + one c d = inUse cells[d]? := by
  have hlt := (List.getElem?_eq_some_iff.1 hc).1
  by_cases h : c = d
  · subst h
    have : cells[c] = x := by simpa [List.getElem?_eq_getElem hlt] using hc
    simp [hlt, one, this]; cases x <;> simp [inUse] at e ⊢
  · simp [List.getElem?_set, h, one]

theorem use_cell {s : St} (i : InvU s) {t c : Nat} {x : T} (h : s.th[t]? = some x) (hx : 0 < wC c x) :
    ∃ x, s.cells[c]? = some x ∧ x ≠ .gone := by
  have h1 := le_sumBy (wC c) h
  have h2 := i c
  cases hc : s.cells[c]? with
  | none => simp [hc, inUse] at h2; omega
  | some y =>
    refine ⟨y, rfl, ?_⟩
    rintro rfl
    simp [hc, inUse] at h2; omega

theorem invU_step {s s' : St} (h : Step s s') (i0 : InvU s) : InvU s' := by
  intro d
  have hC : ∀ {t : Nat} {x : T} (y : T), s.th[t]? = some x → sumBy (wC d) (s.th.set t y) + wC d x = sumBy (wC d) s.th + wC d y :=
    fun y h => sumBy_set (wC d) y h
  have i := i0 d
  have key : ∀ {t : Nat} {x y : T}, s.th[t]? = some x → wC d x = wC d y → sumBy (wC d) (s.th.set t y) = inUse s.cells[d]? := by
    intro t x y ht e; have := hC y ht; omega
  cases h
  case cloneS | cloneR | giveUp => exact i
  case dropS | dropR | recv | up | sendS | sendW => simp [wC]; exact i
  case learn p v v' ht _ _ _ _ => exact key ht (by cases p <;> rfl)
  case tHand own v w cs ht _ ho =>
    obtain ⟨a, c, h1, h2, h3, rfl⟩ := offer_some ho
    exact (key ht (wC_after ..).symm).trans (inUse_set h3 (by rfl)).symm
  case rBackHand v w cs ht _ ho =>
    obtain ⟨a, c, h1, h2, h3, rfl⟩ := offer_some ho
    exact (key ht (by rfl)).trans (inUse_set h3 (by rfl)).symm
  case sNotify ht hc =>
    exact (key ht (by rfl)).trans (inUse_set hc (by rfl)).symm
  case rLoadMore k n v ht _ _ _ =>
    have e := hC (.waits s.cells.length, { v with s := k }) ht
    simp only [wC] at e
    simp only [St.go]
    by_cases h : d < s.cells.length
    · rw [List.getElem?_append_left h]; simp only [one, if_neg (show ¬ s.cells.length = d by omega)] at e; omega
    · by_cases h' : d = s.cells.length
      · subst h'; simp [inUse, one] at e i ⊢; omega
      · have h1 : s.cells[d]? = none := List.getElem?_eq_none_iff.2 (by omega)
        have h2 : (s.cells ++ [Cell.empty])[d]? = none := List.getElem?_eq_none_iff.2 (by simp; omega)
        rw [h1] at i; rw [h2]
        simp only [one, inUse] at e i ⊢
        rw [if_neg (Ne.symm h')] at e; omega
  case rMsg c m v ht hc =>
    have e := hC (.got m, v) ht
    have e' := inUse_gone (d := d) hc (by simp)
    simp only [wC] at e
    simp only [St.go]; omega
  case rShut c v ht hc =>
    have e := hC (.shut, v) ht
    have e' := inUse_gone (d := d) hc (by simp)
    simp only [wC] at e
    simp only [St.go]; omega
  case cMsg c m v ht hc =>
    have e := hC (.rBack m, v) ht
    have e' := inUse_gone (d := d) hc (by simp)
    simp only [wC] at e
    simp only [St.go]; omega
  case cLost c m v ht hc =>
    have e := hC (.done, v) ht
    have e' := inUse_gone (d := d) hc (by simp)
    simp only [wC] at e
    simp only [St.go]; omega
  case cDrop c v ht hc =>
    have e := hC (.done, v) ht
    obtain ⟨x, h1, h2⟩ := use_cell i0 (c := c) ht (by simp [wC, one])
    have e' := inUse_gone (d := d) h1 h2
    simp only [wC] at e
    simp only [St.go]; omega
  all_goals
    have ht : _ := ‹s.th[_]? = some _›
    first
    | exact key ht rfl
    | exact key ht (wC_after ..).symm

theorem invU {cap : Option Nat} {s : St} (h : Steps (init cap) s) : InvU s :=
  h.inv (by intro c; simp [init, inUse]) fun _ _ _ i h => invU_step h i

/-! ### Who sent what -/

/-- The message of a send under way, and whether it goes through a strong reference. -/
def Pc.sends : Pc → Option (Bool × Nat)
  | .tLoadR own m | .tLoadS own m | .tCrit own m => some (own, m)
  | _ => none

@[simp] theorem after_sends (own : Bool) : (after own).sends = none := by cases own <;> rfl

/-- Sends through a strong reference own one. -/
structure InvO (s : St) : Prop where
  own : ∀ (t : Nat) p v own m, s.th[t]? = some (p, v) → p.sends = some (own, m) → m < s.next ∧ (m ∈ s.byStrong ↔ own = true)
  lt : ∀ m ∈ s.byStrong, m < s.next

theorem invO_step {s s' : St} (h : Step s s') (i : InvO s) : InvO s' := by
  obtain ⟨own, lt⟩ := i
  have key : ∀ {t : Nat} {x y : T} {s' : St}, s.th[t]? = some x → s'.th = s.th.set t y → s'.next = s.next → s'.byStrong = s.byStrong →
      (y.1.sends = none ∨ y.1.sends = x.1.sends) → InvO s' := by
    intro t x y s' ht hth hn hb hy
    refine ⟨fun u p v o m hu hp => ?_, by rw [hn, hb]; exact lt⟩
    rw [hn, hb]
    rw [hth] at hu
    rcases set_cases' hu with ⟨rfl, he⟩ | ⟨-, hu⟩
    · subst he
      rcases hy with hy | hy
      · rw [hy] at hp; cases hp
      · exact own u x.1 x.2 o m ht (by rw [← hy]; exact hp)
    · exact own u p v o m hu hp
  have new : ∀ {y : T} {s' : St}, s'.th = s.th ++ [y] → s'.next = s.next → s'.byStrong = s.byStrong → y.1.sends = none → InvO s' := by
    intro y s' hth hn hb hy
    refine ⟨fun u p v o m hu hp => ?_, by rw [hn, hb]; exact lt⟩
    rw [hn, hb]
    rw [hth] at hu
    rcases snoc_cases' hu with ⟨rfl, he⟩ | hu
    · subst he; rw [hy] at hp; cases hp
    · exact own u p v o m hu hp
  cases h
  case cloneS | cloneR | giveUp => exact ⟨own, lt⟩
  case dropS | dropR | recv | up => exact new rfl rfl rfl rfl
  case sendS =>
    refine ⟨fun u p v o m hu hp => ?_, fun m hm => ?_⟩
    · rcases snoc_cases' hu with ⟨rfl, he⟩ | hu
      · simp at he; obtain ⟨rfl, rfl⟩ := he
        simp [Pc.sends] at hp; obtain ⟨rfl, rfl⟩ := hp; simp
      · have := own u p v o m hu hp
        have hne : m ≠ s.next := by omega
        simp [hne, this.2]; omega
    · simp at hm; rcases hm with hm | rfl
      · have := lt m hm; simp; omega
      · simp
  case sendW =>
    refine ⟨fun u p v o m hu hp => ?_, fun m hm => ?_⟩
    · rcases snoc_cases' hu with ⟨rfl, he⟩ | hu
      · simp at he; obtain ⟨rfl, rfl⟩ := he
        simp [Pc.sends] at hp; obtain ⟨rfl, rfl⟩ := hp
        simp; intro h; have := lt _ h; omega
      · have := own u p v o m hu hp
        simp [this.2]; omega
    · have := lt m hm; simp; omega
  case learn ht _ _ _ _ => exact key ht rfl rfl rfl (.inr rfl)
  case tLoadRMore ht _ _ _ => exact key ht rfl rfl rfl (.inr rfl)
  case tLoadSMore ht _ _ _ => exact key ht rfl rfl rfl (.inr rfl)
  all_goals
    have ht : _ := ‹s.th[_]? = some _›
    first
    | exact key ht rfl rfl rfl (.inl (after_sends _))
    | exact key ht rfl rfl rfl (.inl rfl)

theorem invO {cap : Option Nat} {s : St} (h : Steps (init cap) s) : InvO s :=
  h.inv ⟨by simp [init], by simp [init]⟩ fun _ _ _ i h => invO_step h i

/-- No strong reference is left, and of the messages sent through one only such are in the channel that were put back. -/
def Drained (s : St) : Prop := cur s.sc = 0 ∧ ∀ m, (m ∈ s.q ∨ m ∈ s.parked) → m ∈ s.byStrong → m ∈ s.back

/-- After the last strong reference is gone, no send owns one. -/
theorem not_own {s : St} (a : InvA s) (hc : cur s.sc = 0) {t m : Nat} {own : Bool} {v : View} {p : Pc} (ht : s.th[t]? = some (p, v))
    (hp : p.sends = some (own, m)) : own = false := by
  have h1 := le_sumBy wS ht
  have h2 := a.scur
  cases p <;> simp [Pc.sends] at hp <;> obtain ⟨rfl, rfl⟩ := hp <;> simp [wS] at h1 <;>
    exact Bool.eq_false_iff.2 (fun h => by subst h; simp at h1; omega)

theorem drained_step {s s' : St} (h : Step s s') (a : InvA s) (o : InvO s) (d : Drained s) : Drained s' := by
  refine ⟨by rw [sc_final h a d.1]; exact d.1, ?_⟩
  obtain ⟨hc, d⟩ := d
  have h0 := a.scur
  cases h
  case sendS => omega
  case tPush t m own v ht _ _ _ =>
    intro n hn hb
    simp only [St.go, List.mem_append, List.mem_singleton] at hn hb ⊢
    rcases hn with (hn | rfl) | hn
    · exact d n (.inl hn) hb
    · have h1 := (o.own _ _ _ _ _ ht rfl).2.1 hb
      rw [not_own a hc ht rfl] at h1; cases h1
    · exact d n (.inr hn) hb
  case tPark t m own v ht _ _ _ =>
    intro n hn hb
    simp only [St.go, List.mem_append, List.mem_singleton] at hn hb ⊢
    rcases hn with hn | hn | rfl
    · exact d n (.inl hn) hb
    · exact d n (.inr hn) hb
    · have h1 := (o.own _ _ _ _ _ ht rfl).2.1 hb
      rw [not_own a hc ht rfl] at h1; cases h1
  case giveUp m x y hp =>
    intro n hn hb
    refine d n ?_ hb
    rcases hn with hn | hn
    · exact .inl hn
    · right; rw [hp]; simp at hn ⊢; rcases hn with hn | hn <;> simp [hn]
  case rTake m v x y ht _ hq _ =>
    intro n hn hb
    refine d n ?_ hb
    simp only [St.go] at hn
    rcases hn with hn | hn
    · left; rw [hq]; simp at hn ⊢; rcases hn with hn | hn <;> simp [hn]
    · exact .inr hn
  case rTakeMore m m' v x y x' y' ht _ hq _ hp =>
    intro n hn hb
    refine d n ?_ hb
    simp only [St.go] at hn
    rw [hq, hp]
    simp at hn ⊢
    rcases hn with (hn | hn | hn) | hn | hn <;> simp [hn]
  case rBackPush m v ht _ _ =>
    intro n hn hb
    simp only [St.go, List.mem_append, List.mem_singleton] at hn hb ⊢
    rcases hn with (hn | rfl) | hn
    · exact .inl (d n (.inl hn) hb)
    · exact .inr rfl
    · exact .inl (d n (.inr hn) hb)
  case mLock => intro n hn; simp [St.go] at hn
  all_goals exact d

/-- Some receive was told to shut down, or will be. -/
structure Told (s : St) : Prop where
  th : ∀ (t : Nat) v, s.th[t]? ≠ some (.shut, v)
  cell : ∀ c : Nat, s.cells[c]? ≠ some .shut
  pend : ∀ (t : Nat) q v, s.th[t]? = some (.sNotify q, v) → ∀ c ∈ q, s.cells[c]? ≠ some .empty

theorem cap_step {s s' : St} (h : Step s s') : s'.cap = s.cap := by cases h <;> rfl

theorem cap_eq {cap : Option Nat} {s : St} (h : Steps (init cap) s) : s.cap = cap :=
  h.inv (P := fun s => s.cap = cap) rfl fun _ _ _ i h => (cap_step h).trans i

theorem cur_zero {l : List Nat} {k : Nat} (hne : l ≠ []) (hz : ∀ k : Nat, l[k]? = some 0 → k + 1 = l.length) (h : l[k]? = some 0) : cur l = 0 := by
  have h1 := hz k h
  have h2 := cur_eq hne
  rw [← h1] at h2; simp [h] at h2; exact h2.symm

theorem not_parked {s : St} (k : InvQ s) (hcap : s.cap ≠ some 0) (hq : s.q = []) : s.parked = [] := by
  refine Classical.byContradiction fun h => ?_
  obtain ⟨c, h1, h2⟩ := k.park h
  rw [hq] at h2; simp at h2; subst h2; exact hcap h1

theorem after_notify (own : Bool) (q : List Nat) : after own ≠ .sNotify q := by cases own <;> simp [after]
theorem after_shut (own : Bool) : after own ≠ .shut := by cases own <;> simp [after]

/-- Nobody is told to shut down unless the channel is drained. -/
theorem told_step {s s' : St} (h : Step s s') (a : InvA s) (l : InvL s) (k : InvQ s) (sh : InvS s) (hcap : s.cap ≠ some 0) (i : Told s) :
    Told s' ∨ Drained s' := by
  have hback := @cells_back s s' h
  obtain ⟨ith, icell, ipend⟩ := i
  -- calls that end neither in `shut` nor begin to notify
  have key : ∀ {t : Nat} {x y : T} {s' : St}, s.th[t]? = some x → s'.th = s.th.set t y → y.1 ≠ .shut →
      (∀ q, y.1 = .sNotify q → ∃ q', x.1 = .sNotify q' ∧ ∀ c ∈ q, c ∈ q') → (∀ c : Nat, s'.cells[c]? ≠ some .shut) →
      (∀ c : Nat, c < s.cells.length → s'.cells[c]? = some .empty → s.cells[c]? = some .empty) → Told s' := by
    intro t x y s' ht hth hy hq hc he
    refine ⟨fun u v hu => ?_, hc, fun u q v hu c hcq hce => ?_⟩
    · rw [hth] at hu
      rcases set_cases' hu with ⟨rfl, e⟩ | ⟨-, hu⟩
      · subst e; exact hy rfl
      · exact ith u v hu
    · rw [hth] at hu
      rcases set_cases' hu with ⟨rfl, e⟩ | ⟨-, hu⟩
      · subst e
        obtain ⟨q', h1, h2⟩ := hq q rfl
        have ht' : s.th[u]? = some (.sNotify q', x.2) := by rw [ht, ← h1]
        exact ipend u q' x.2 ht' c (h2 c hcq) (he c (k.cell _ _ _ ht' c (h2 c hcq)) hce)
      · exact ipend u q v hu c hcq (he c (k.cell _ _ _ hu c hcq) hce)
  have keep : s'.cells = s.cells → (∀ c : Nat, s'.cells[c]? ≠ some .shut) ∧
      (∀ c : Nat, c < s.cells.length → s'.cells[c]? = some .empty → s.cells[c]? = some .empty) := by
    intro e; rw [e]; exact ⟨icell, fun _ _ h => h⟩
  have put : ∀ {c : Nat} {z : Cell}, s'.cells = s.cells.set c z → z ≠ .shut → z ≠ .empty → (∀ c : Nat, s'.cells[c]? ≠ some .shut) ∧
      (∀ c : Nat, c < s.cells.length → s'.cells[c]? = some .empty → s.cells[c]? = some .empty) := by
    intro c z e hz hz'
    refine ⟨fun d hd => ?_, fun d _ hd => ?_⟩
    · rw [e] at hd
      rcases set_cases' hd with ⟨-, h⟩ | ⟨-, h⟩
      · exact hz h.symm
      · exact icell d h
    · rw [e] at hd; exact (set_empty hz' hd).1
  have new : ∀ {y : T} {s' : St}, s'.th = s.th ++ [y] → s'.cells = s.cells → y.1 ≠ .shut → (∀ q, y.1 ≠ .sNotify q) → Told s' := by
    intro y s' hth hcs hy hq
    refine ⟨fun u v hu => ?_, by rw [hcs]; exact icell, fun u q v hu => ?_⟩
    · rw [hth] at hu
      rcases snoc_cases' hu with ⟨rfl, e⟩ | hu
      · subst e; exact hy rfl
      · exact ith u v hu
    · rw [hth] at hu
      rcases snoc_cases' hu with ⟨rfl, e⟩ | hu
      · subst e; exact absurd rfl (hq q)
      · rw [hcs]; exact ipend u q v hu
  cases h
  case cloneS | cloneR | giveUp => exact .inl ⟨ith, icell, ipend⟩
  case dropS | dropR | recv | up | sendS | sendW => exact .inl (new rfl rfl (by simp) (by simp))
  case rLoadZero t j v ht _ hz =>
    have hq := (l.load _ _ ht).2.1
    refine .inr ⟨cur_zero a.sne a.szero hz, fun m hm => ?_⟩
    simp only [St.go] at hm
    rw [hq, not_parked k hcap hq] at hm; simp at hm
  case sLock t v ht hl =>
    by_cases e : ∃ c ∈ s.wRx, s.cells[c]? = some .empty
    · obtain ⟨c, h1, h2⟩ := e
      have hq := k.wait c h1 h2
      refine .inr ⟨sh.low _ _ _ ht rfl, fun m hm => ?_⟩
      simp only [St.go] at hm
      rw [hq, not_parked k hcap hq] at hm; simp at hm
    · left
      refine ⟨fun u w hu => ?_, icell, fun u q w hu c hc he => ?_⟩
      · simp only [St.go] at hu
        rcases set_cases' hu with ⟨-, e⟩ | ⟨-, hu⟩
        · simp at e
        · exact ith u w hu
      · simp only [St.go] at hu he
        rcases set_cases' hu with ⟨-, e'⟩ | ⟨-, hu⟩
        · simp at e'; obtain ⟨rfl, -⟩ := e'; exact e ⟨c, hc, he⟩
        · exact ipend u q w hu c hc he
  case sNotify t c v q ht he => exact absurd he (ipend t _ v ht c (by simp))
  case rShut t c v ht hc => exact absurd hc (icell c)
  case sNotifyFull t c v q ht he =>
    exact .inl (key ht rfl (by simp) (fun q' e => by simp at e; subst e; exact ⟨_, rfl, fun c hc => by simp [hc]⟩) (keep rfl).1 (keep rfl).2)
  case learn t p v v' ht _ _ _ _ =>
    exact .inl (key ht rfl (fun e => by simp at e; subst e; exact ith _ _ ht) (fun q e => ⟨q, e, fun _ h => h⟩) (keep rfl).1 (keep rfl).2)
  case rLoadMore t j n v ht _ _ _ =>
    refine .inl (key ht rfl (by simp) (by simp) (fun c hc => ?_) (fun c hlt hc => ?_))
    · rcases snoc_cases' hc with ⟨-, h⟩ | h
      · simp at h
      · exact icell c h
    · simp only [St.go] at hc
      rw [List.getElem?_append_left hlt] at hc; exact hc
  case tHand ht _ ho =>
    obtain ⟨x, d, -, -, -, rfl⟩ := offer_some ho
    have p := put rfl (by simp) (by simp)
    exact .inl (key ht rfl (after_shut _) (fun q e => absurd e (after_notify _ _)) p.1 p.2)
  case rBackHand ht _ ho =>
    obtain ⟨x, d, -, -, -, rfl⟩ := offer_some ho
    have p := put rfl (by simp) (by simp)
    exact .inl (key ht rfl (by simp) (by simp) p.1 p.2)
  case rMsg ht _ => have p := put rfl (by simp) (by simp); exact .inl (key ht rfl (by simp) (by simp) p.1 p.2)
  case cMsg ht _ => have p := put rfl (by simp) (by simp); exact .inl (key ht rfl (by simp) (by simp) p.1 p.2)
  case cLost ht _ => have p := put rfl (by simp) (by simp); exact .inl (key ht rfl (by simp) (by simp) p.1 p.2)
  case cDrop ht _ => have p := put rfl (by simp) (by simp); exact .inl (key ht rfl (by simp) (by simp) p.1 p.2)
  all_goals
    have ht : _ := ‹s.th[_]? = some _›
    have p := keep rfl
    exact .inl (key ht rfl (by simp [after_shut]) (fun q e => absurd e (by simp [after_notify])) p.1 p.2)

theorem told {cap : Option Nat} (hcap : cap ≠ some 0) {s : St} (h : Steps (init cap) s) : Told s ∨ Drained s := by
  refine h.inv (P := fun s => Told s ∨ Drained s) (.inl ⟨by simp [init], by simp [init], by simp [init]⟩) fun s s' hr i h => ?_
  rcases i with i | i
  · exact told_step h (invA hr) (invL hr) (invQ hr) (invS hr) (by rw [cap_eq hr]; exact hcap) i
  · exact .inr (drained_step h (invA hr) (invO hr) i)

/-! ### Refusals, and the drop of the last mailbox -/

structure InvR (s : St) : Prop where
  ref : ∀ m ∈ s.refused, cur s.rc = 0 ∨ (cur s.sc = 0 ∧ m ∉ s.byStrong)
  clr : s.cleared = true → cur s.rc = 0
  cls : s.closed ≠ [] → s.cleared = true
  pend : cur s.rc = 0 → s.cleared = true ∨ Has s (fun p _ => p = .mLock)
  left : s.cleared = true → ∀ m, (m ∈ s.q ∨ m ∈ s.parked) → m ∈ s.late ∨ m ∈ s.back
  late : ∀ m ∈ s.late, s.cleared = true

theorem invR_ref {s s' : St} (h : Step s s') (a : InvA s) (o : InvO s) (i : InvR s) :
    ∀ m ∈ s'.refused, cur s'.rc = 0 ∨ (cur s'.sc = 0 ∧ m ∉ s'.byStrong) := by
  have hs := sc_final h a
  have hr := rc_final h a
  have hb : cur s.sc = 0 → s'.byStrong = s.byStrong := by
    intro hc; have := a.scur
    cases h <;> first | rfl | omega
  have old : ∀ m ∈ s.refused, cur s'.rc = 0 ∨ (cur s'.sc = 0 ∧ m ∉ s'.byStrong) := by
    intro m hm
    rcases i.ref m hm with h1 | ⟨h1, h2⟩
    · left; rw [hr h1]; exact h1
    · right; rw [hs h1, hb h1]; exact ⟨h1, h2⟩
  cases h
  case tLoadRZero t m k own v ht _ hz =>
    intro n hn
    rcases List.mem_append.1 hn with hn | hn
    · exact old n hn
    · exact .inl (cur_zero a.rne a.rzero hz)
  case tLoadSZero t m k own v ht _ hz =>
    intro n hn
    rcases List.mem_append.1 hn with hn | hn
    · exact old n hn
    · simp at hn; subst hn
      have hc := cur_zero a.sne a.szero hz
      refine .inr ⟨hc, fun hb => ?_⟩
      have h1 := (o.own _ _ _ _ _ ht rfl).2.1 hb
      rw [not_own a hc ht rfl] at h1; cases h1
  all_goals exact old

theorem after_mLock' (own : Bool) (v : View) : ¬ (fun (p : Pc) (_ : View) => p = .mLock) (after own) v := by cases own <;> simp [after]

theorem invR_step {s s' : St} (h : Step s s') (a : InvA s) (o : InvO s) (sh : InvS s) (i : InvR s) : InvR s' := by
  have hr := rc_final h a
  have href := invR_ref h a o i
  obtain ⟨-, clr, cls, pend, left, late⟩ := i
  have clr' : s'.cleared = s.cleared → s'.cleared = true → cur s'.rc = 0 := by
    intro e h; rw [e] at h; rw [hr (clr h)]; exact clr h
  have pend' : ∀ {t : Nat} {x y : T}, s.th[t]? = some x → s'.th = s.th.set t y → (x.1 = .mLock → y.1 = .mLock) → s'.cleared = s.cleared →
      s'.rc = s.rc → cur s'.rc = 0 → s'.cleared = true ∨ Has s' (fun p _ => p = .mLock) := by
    intro t x y ht hth hx e e' h
    rw [e'] at h
    rcases pend h with h | h
    · left; rw [e]; exact h
    · right; exact h.set ht hth hx
  have pendN : ∀ {y : T}, s'.th = s.th ++ [y] → s'.cleared = s.cleared → s'.rc = s.rc → cur s'.rc = 0 →
      s'.cleared = true ∨ Has s' (fun p _ => p = .mLock) := by
    intro y hth e e' h
    rw [e'] at h
    rcases pend h with h | h
    · left; rw [e]; exact h
    · right; exact h.snoc hth
  cases h
  case cloneR => exact ⟨href, fun h => by have := clr' rfl h; exact this, cls, by simp [cur_snoc], left, late⟩
  case mSubMore t v ht hn =>
    have h1 := le_sumBy wR ht; have h2 := a.rcur; simp [wR] at h1
    exact ⟨href, clr' rfl, cls, by simp [St.go, cur_snoc]; omega, left, late⟩
  case mSubLast t v ht hn =>
    have hlt := (List.getElem?_eq_some_iff.1 ht).1
    exact ⟨href, clr' rfl, cls, fun _ => .inr ⟨t, .mLock, _, by simp [St.go, hlt]; rfl, rfl⟩, left, late⟩
  case mLock t v ht hl =>
    exact ⟨href, fun _ => by rw [hr (sh.rlow _ _ ht)]; exact sh.rlow _ _ ht, fun _ => rfl, fun _ => .inl rfl, by simp [St.go], fun _ _ => rfl⟩
  case cloneS => exact ⟨href, clr, cls, pend, left, late⟩
  case giveUp m x y hp =>
    refine ⟨href, clr, cls, pend, fun hc m hm => left hc m ?_, late⟩
    rw [hp]; simp at hm ⊢; rcases hm with hm | hm | hm <;> simp [hm]
  case dropS | dropR | recv | up | sendS | sendW => exact ⟨href, clr' rfl, cls, pendN rfl rfl rfl, left, late⟩
  case tPush t m own v ht _ _ _ =>
    refine ⟨href, clr' rfl, cls, pend' ht rfl (by simp) rfl rfl, fun hc n hn => ?_, fun n hn => ?_⟩
    · simp only [St.go] at hc hn ⊢
      simp only [hc, if_true, List.mem_append, List.mem_singleton] at hn ⊢
      rcases hn with (hn | hn) | hn
      · rcases left hc n (.inl hn) with h | h <;> simp [h]
      · simp [hn]
      · rcases left hc n (.inr hn) with h | h <;> simp [h]
    · simp only [St.go] at hn ⊢
      cases hc : s.cleared
      · simp [hc] at hn; have := late n hn; simp [hc] at this
      · rfl
  case tPark t m own v ht _ _ _ =>
    refine ⟨href, clr' rfl, cls, pend' ht rfl (by simp) rfl rfl, fun hc n hn => ?_, fun n hn => ?_⟩
    · simp only [St.go] at hc hn ⊢
      simp only [hc, if_true, List.mem_append, List.mem_singleton] at hn ⊢
      rcases hn with hn | hn | hn
      · rcases left hc n (.inl hn) with h | h <;> simp [h]
      · rcases left hc n (.inr hn) with h | h <;> simp [h]
      · simp [hn]
    · simp only [St.go] at hn ⊢
      cases hc : s.cleared
      · simp [hc] at hn; have := late n hn; simp [hc] at this
      · rfl
  case rBackPush t m v ht _ _ =>
    refine ⟨href, clr' rfl, cls, pend' ht rfl (by simp) rfl rfl, fun hc n hn => ?_, late⟩
    simp only [St.go, List.mem_append, List.mem_singleton] at hc hn ⊢
    rcases hn with (hn | hn) | hn
    · rcases left hc n (.inl hn) with h | h <;> simp [h]
    · simp [hn]
    · rcases left hc n (.inr hn) with h | h <;> simp [h]
  case rTake m v x y ht _ hq _ =>
    refine ⟨href, clr' rfl, cls, pend' ht rfl (by simp) rfl rfl, fun hc n hn => left hc n ?_, late⟩
    simp only [St.go] at hn
    rw [hq]; simp at hn ⊢; rcases hn with (hn | hn) | hn <;> simp [hn]
  case rTakeMore m m' v x y x' y' ht _ hq _ hp =>
    refine ⟨href, clr' rfl, cls, pend' ht rfl (by simp) rfl rfl, fun hc n hn => left hc n ?_, late⟩
    simp only [St.go] at hn
    rw [hq, hp]; simp at hn ⊢
    rcases hn with (hn | hn | hn) | hn | hn <;> simp [hn]
  case learn ht _ _ _ _ => exact ⟨href, clr' rfl, cls, pend' ht rfl id rfl rfl, left, late⟩
  all_goals
    have ht : _ := ‹s.th[_]? = some _›
    exact ⟨href, clr' rfl, cls, pend' ht rfl (by simp) rfl rfl, left, late⟩

theorem invR {cap : Option Nat} {s : St} (h : Steps (init cap) s) : InvR s :=
  h.inv ⟨by simp [init], by simp [init], by simp [init], by simp [init, cur], by simp [init], by simp [init]⟩
    fun _ _ hr i h => invR_step h (invA hr) (invO hr) (invS hr) i

theorem Steps.trans {s s1 s2 : St} (h : Steps s s1) (h' : Steps s1 s2) : Steps s s2 := by
  induction h' with
  | refl => exact h
  | snoc _ h2 ih => exact ih.snoc h2

/-! ## The theorems -/

theorem wM_countP (m : Nat) (l : List T) : sumBy (wM m) l = l.countP (fun x => x.1.has m) := by
  induction l with
  | nil => rfl
  | cons x l ih =>
    obtain ⟨p, v⟩ := x
    rw [sumBy_cons, List.countP_cons, ih]
    cases p <;> simp [wM, Pc.has, one] <;> omega

theorem wX_count (m : Nat) (l : List Cell) : sumBy (wX m) l = l.count (.msg m) := by
  induction l with
  | nil => rfl
  | cons x l ih =>
    rw [sumBy_cons, List.count_cons, ih]
    cases x <;> simp [wX, one] <;> omega

/-- **C63 (conservation).** Whatever the interleaving and however stale the loads: each message that was made is in exactly one place — with its
send, in the queue, with a waiting send, in the cell of a waiting receive, with the receive that yielded it, with a dropped receive that puts it
back, refused, destroyed by the drop of the last mailbox, given up with its send, or destroyed inside a dropped receive. -/
theorem C63_conservation {cap : Option Nat} {s : St} (h : Steps (init cap) s) (m : Nat) : s.places m = if m < s.next then 1 else 0 := by
  have := total_inv h m
  simp only [total, wM_countP, wX_count, born] at this
  simp only [St.places]; omega

theorem two_le {α : Type} (f : α → Nat) {l : List α} {i j : Nat} {x y : α} (hi : l[i]? = some x) (hj : l[j]? = some y) (hne : i ≠ j) :
    f x + f y ≤ sumBy f l := by
  induction l generalizing i j with
  | nil => simp at hi
  | cons z l ih =>
    cases i with
    | zero =>
      cases j with
      | zero => exact absurd rfl hne
      | succ j =>
        simp at hi hj; subst hi
        have := le_sumBy f hj; simp; omega
    | succ i =>
      cases j with
      | zero =>
        simp at hi hj; subst hj
        have := le_sumBy f hi; simp; omega
      | succ j =>
        simp at hi hj
        have := ih hi hj (by omega); simp; omega

/-- **C63 (at most once).** No message is yielded by two receives, and none is yielded that is still, or again, in the channel, or whose send
was refused, closed or given up. -/
theorem C63_received_once {cap : Option Nat} {s : St} (h : Steps (init cap) s) {t m : Nat} {v : View} (ht : s.th[t]? = some (.got m, v)) :
    (∀ (u : Nat) w, s.th[u]? = some (.got m, w) → u = t) ∧ m ∉ s.q ∧ m ∉ s.parked ∧ ¬ s.inCell m ∧ ¬ s.unsent m ∧ m ∉ s.refused ∧
      m ∉ s.closed ∧ m ∉ s.given ∧ m ∉ s.lost := by
  have h0 := total_inv h m
  have h1 := le_sumBy (wM m) ht
  have hb : born m s.next ≤ 1 := by unfold born; split <;> omega
  simp only [wM, one_self] at h1
  unfold total at h0
  have cnt : ∀ {l : List Nat}, l.count m = 0 → m ∉ l := fun h => List.count_eq_zero.1 h
  have two : ∀ {u : Nat} {x : T}, s.th[u]? = some x → wM m x = 1 → u = t := by
    intro u x hu hx
    refine Classical.byContradiction fun hne => ?_
    have := two_le (wM m) hu ht hne
    rw [hx] at this; simp only [wM, one_self] at this; omega
  refine ⟨fun u w hu => two hu (by simp [wM, one_self]), cnt (by omega), cnt (by omega), ?_, ?_, cnt (by omega), cnt (by omega), cnt (by omega), cnt (by omega)⟩
  · intro hc
    have : sumBy (wX m) s.cells = 0 := by omega
    have := sumBy_eq_zero (wX m) |>.1 this _ hc
    simp [wX, one_self] at this
  · rintro ⟨own, w, hu | hu | hu⟩ <;> obtain ⟨u, hu⟩ := List.mem_iff_getElem?.1 hu <;>
      (have := two hu (by simp [wM, one_self]); subst this; rw [ht] at hu; simp at hu)

/-- Where a message is that is neither in the queue nor with a waiting send, nor with its send. -/
theorem elsewhere {cap : Option Nat} {s : St} (h : Steps (init cap) s) {m : Nat} (hm : m < s.next) :
    s.unsent m ∨ m ∈ s.q ∨ m ∈ s.parked ∨ s.received m ∨ s.inCell m ∨ s.inHand m ∨ m ∈ s.refused ∨ m ∈ s.closed ∨ m ∈ s.given ∨ m ∈ s.lost := by
  have h0 := total_inv h m
  simp only [born, hm, if_true, total] at h0
  have cnt : ∀ {l : List Nat}, l.count m ≠ 0 → m ∈ l := fun h => Classical.byContradiction fun h' => h (List.count_eq_zero.2 h')
  by_cases e1 : s.q.count m = 0
  · by_cases e2 : s.parked.count m = 0
    · by_cases e3 : sumBy (wM m) s.th = 0
      · by_cases e4 : sumBy (wX m) s.cells = 0
        · by_cases e5 : s.refused.count m = 0
          · by_cases e6 : s.closed.count m = 0
            · by_cases e7 : s.given.count m = 0
              · have := cnt (l := s.lost) (by omega); simp [this]
              · have := cnt e7; simp [this]
            · have := cnt e6; simp [this]
          · have := cnt e5; simp [this]
        · obtain ⟨x, hx, hw⟩ := sumBy_pos (wX m) |>.1 (Nat.pos_of_ne_zero e4)
          have : s.inCell m := by
            cases x <;> simp only [wX, Nat.lt_irrefl] at hw
            have := one_pos hw; subst this; exact hx
          simp [this]
      · obtain ⟨⟨p, v⟩, hx, hw⟩ := sumBy_pos (wM m) |>.1 (Nat.pos_of_ne_zero e3)
        cases p <;> simp only [wM, Nat.lt_irrefl] at hw <;> have hw := one_pos hw <;> subst hw
        · have : s.unsent _ := ⟨_, v, .inl hx⟩; simp [this]
        · have : s.unsent _ := ⟨_, v, .inr (.inl hx)⟩; simp [this]
        · have : s.unsent _ := ⟨_, v, .inr (.inr hx)⟩; simp [this]
        · have : s.received _ := ⟨v, hx⟩; simp [this]
        · have : s.inHand _ := ⟨v, hx⟩; simp [this]
    · have := cnt e2; simp [this]
  · have := cnt e1; simp [this]

theorem quiet_S {s : St} (hq : s.quiet) : sumBy wS s.th = 0 := by
  refine (sumBy_eq_zero wS).2 fun x hx => ?_
  have := hq x hx
  obtain ⟨p, v⟩ := x
  cases p <;> simp [Pc.final] at this <;> rfl

theorem quiet_R {s : St} (hq : s.quiet) : sumBy wR s.th = 0 := by
  refine (sumBy_eq_zero wR).2 fun x hx => ?_
  have := hq x hx
  obtain ⟨p, v⟩ := x
  cases p <;> simp [Pc.final] at this <;> rfl

theorem quiet_has {s : St} (hq : s.quiet) {P : Pc → View → Prop} (hP : ∀ p v, P p v → p.final = false) : ¬ Has s P := by
  rintro ⟨t, p, v, ht, hp⟩
  have := hq _ (List.mem_of_getElem? ht)
  simp [hP p v hp] at this

/-- **C63 (shutdown means drained).** With a capacity other than 0: when a receive has been told to shut down — at once, or while it waited —
there is no strong address left, and every message ever sent through one has gone to a receive, or was put back by a dropped receive, or its
send was refused, given up or closed by the drop of the last mailbox, or it was lost in a dropped receive (C03). Not one is left in the queue, with a waiting send or in a send that
is still under way. -/
theorem C63_shutdown_means_drained {cap : Option Nat} (hcap : cap ≠ some 0) {s : St} (h : Steps (init cap) s)
    (hs : (∃ v, (Pc.shut, v) ∈ s.th) ∨ Cell.shut ∈ s.cells) :
    s.strong = 0 ∧ ∀ m ∈ s.byStrong, s.received m ∨ s.inCell m ∨ s.inHand m ∨ m ∈ s.back ∨ m ∈ s.refused ∨ m ∈ s.closed ∨ m ∈ s.given ∨
      m ∈ s.lost := by
  have hd : Drained s := by
    rcases told hcap h with ⟨h1, h2, -⟩ | hd
    · rcases hs with ⟨v, hv⟩ | hc
      · obtain ⟨t, ht⟩ := List.mem_iff_getElem?.1 hv; exact absurd ht (h1 t v)
      · obtain ⟨t, ht⟩ := List.mem_iff_getElem?.1 hc; exact absurd ht (h2 t)
    · exact hd
  have a := invA h
  have o := invO h
  have h0 := a.scur
  refine ⟨by have := hd.1; omega, fun m hm => ?_⟩
  rcases elsewhere h (o.lt m hm) with h1 | h1 | h1 | h1 | h1 | h1 | h1 | h1 | h1 | h1
  · exfalso
    obtain ⟨own, v, h1⟩ := h1
    have : ∃ (t : Nat) (p : Pc), s.th[t]? = some (p, v) ∧ p.sends = some (own, m) := by
      rcases h1 with h1 | h1 | h1 <;> obtain ⟨t, ht⟩ := List.mem_iff_getElem?.1 h1 <;> exact ⟨t, _, ht, rfl⟩
    obtain ⟨t, p, ht, hp⟩ := this
    have h2 := (o.own _ _ _ _ _ ht hp).2.1 hm
    rw [not_own a hd.1 ht hp] at h2; cases h2
  · have := hd.2 m (.inl h1) hm; simp [this]
  · have := hd.2 m (.inr h1) hm; simp [this]
  all_goals simp [h1]

/-- **C63 (refusals).** A send resolves to `Disconnected` only when there is no mailbox, or no strong address, left; one through a strong
address only when there is no mailbox. -/
theorem C63_refused_only_if_disconnected {cap : Option Nat} {s : St} (h : Steps (init cap) s) {m : Nat} (hm : m ∈ s.refused) :
    s.boxes = 0 ∨ (s.strong = 0 ∧ m ∉ s.byStrong) := by
  have a := invA h
  have h1 := a.scur; have h2 := a.rcur
  rcases (invR h).ref m hm with h3 | ⟨h3, h4⟩
  · left; omega
  · right; exact ⟨by omega, h4⟩

/-- **C63 (closing).** Messages are destroyed in the queue, or taken from waiting sends, only when there is no mailbox left. -/
theorem C63_closed_only_without_mailbox {cap : Option Nat} {s : St} (h : Steps (init cap) s) (hm : s.closed ≠ []) : s.boxes = 0 := by
  have a := invA h
  have h2 := a.rcur
  have := (invR h).clr ((invR h).cls hm)
  omega

theorem refused_mono {s s' : St} (h : Step s s') : ∀ m ∈ s.refused, m ∈ s'.refused := by
  cases h <;> intro m hm <;> first | exact hm | exact List.mem_append.2 (.inl hm)

theorem given_mono {s s' : St} (h : Step s s') : ∀ m ∈ s.given, m ∈ s'.given := by
  cases h <;> intro m hm <;> first | exact hm | exact List.mem_append.2 (.inl hm)

/-- The view already contains the zero of a counter. -/
def aware (s : St) (v : View) : Prop := s.rc[v.r]? = some 0 ∨ s.sc[v.s]? = some 0

/-- The send of `m` is refused or given up, or will be. -/
def Doomed (t m : Nat) (s : St) : Prop :=
  m ∈ s.refused ∨ m ∈ s.given ∨ (∃ own v, s.th[t]? = some (.tLoadR own m, v) ∧ aware s v) ∨
    ∃ own v, s.th[t]? = some (.tLoadS own m, v) ∧ s.sc[v.s]? = some 0

theorem doomed_step {t m : Nat} {s s' : St} (h : Step s s') (a : InvA s) (i : Doomed t m s) : Doomed t m s' := by
  rcases i with i | i | i | i
  · exact .inl (refused_mono h m i)
  · exact .inr (.inl (given_mono h m i))
  · obtain ⟨own, v, ht, ha⟩ := i
    have ha' : ∀ v' : View, v.s ≤ v'.s → v.r ≤ v'.r → (s.rc[v.r]? = some 0 → v'.r < s.rc.length) → (s.sc[v.s]? = some 0 → v'.s < s.sc.length) →
        aware s' v' := by
      intro v' h1 h2 h3 h4
      rcases ha with hz | hz
      · left
        rw [rc_final h a (cur_zero a.rne a.rzero hz)]
        have := a.rzero _ hz; have := h3 hz
        have e : v'.r = v.r := by omega
        rw [e]; exact hz
      · right
        rw [sc_final h a (cur_zero a.sne a.szero hz)]
        have := a.szero _ hz; have := h4 hz
        have e : v'.s = v.s := by omega
        rw [e]; exact hz
    have same : aware s' v := ha' v (Nat.le_refl _) (Nat.le_refl _) (fun h => (List.getElem?_eq_some_iff.1 h).1) (fun h => (List.getElem?_eq_some_iff.1 h).1)
    have hlt := (List.getElem?_eq_some_iff.1 ht).1
    -- a step of another call
    have oth : ∀ {u : Nat} {x y : T} {s2 : St}, s.th[u]? = some x → (∀ own m, x.1 ≠ .tLoadR own m) → s2.th = s.th.set u y → aware s2 v → Doomed t m s2 := by
      intro u x y s2 hu hx hth hs
      refine .inr (.inr (.inl ⟨own, v, ?_, hs⟩))
      have : u ≠ t := by rintro rfl; rw [ht] at hu; simp at hu; subst hu; exact hx own m rfl
      rw [hth]; simp [List.getElem?_set, this, ht]
    -- a step of another send
    have oth' : ∀ {u : Nat} {y : T} {s2 : St}, u ≠ t → s2.th = s.th.set u y → aware s2 v → Doomed t m s2 := by
      intro u y s2 hu hth hs
      refine .inr (.inr (.inl ⟨own, v, ?_, hs⟩))
      rw [hth]; simp [List.getElem?_set, hu, ht]
    have new : ∀ {y : T} {s2 : St}, s2.th = s.th ++ [y] → aware s2 v → Doomed t m s2 := by
      intro y s2 hth hs
      refine .inr (.inr (.inl ⟨own, v, ?_, hs⟩))
      rw [hth, List.getElem?_append_left hlt, ht]
    cases h
    case cloneS | cloneR | giveUp => exact .inr (.inr (.inl ⟨own, v, ht, same⟩))
    case dropS | dropR | recv | up | sendS | sendW => exact new rfl same
    case learn u p w w' hu h1 h2 h3 h4 =>
      by_cases e : u = t
      · subst e; rw [ht] at hu; simp at hu; obtain ⟨rfl, rfl⟩ := hu
        exact .inr (.inr (.inl ⟨own, w', by simp [St.go, hlt], ha' w' h1 h2 (fun _ => h4) (fun _ => h3)⟩))
      · exact oth' e rfl same
    case tDrop u n own' w hu =>
      by_cases e : u = t
      · subst e; rw [ht] at hu; simp at hu; obtain ⟨⟨rfl, rfl⟩, rfl⟩ := hu
        exact .inr (.inl (by simp [St.go]))
      · exact oth' e rfl same
    case tLoadRZero u n k own' w hu _ _ =>
      by_cases e : u = t
      · subst e; rw [ht] at hu; simp at hu; obtain ⟨⟨rfl, rfl⟩, rfl⟩ := hu
        exact .inl (by simp [St.go])
      · exact oth' e rfl same
    case tLoadRMore u n k j own' w hu hk hj hne =>
      by_cases e : u = t
      · subst e; rw [ht] at hu; simp at hu; obtain ⟨⟨rfl, rfl⟩, rfl⟩ := hu
        rcases ha with hz | hz
        · exfalso
          have h1 := a.rzero _ hz
          have h2 := (List.getElem?_eq_some_iff.1 hj).1
          have : k = v.r := by omega
          subst this; rw [hz] at hj; simp at hj; exact hne hj.symm
        · exact .inr (.inr (.inr ⟨own, { v with r := k }, by simp [St.go, hlt], hz⟩))
      · exact oth' e rfl same
    all_goals
      have hu : _ := ‹s.th[_]? = some _›
      exact oth hu (by simp) rfl same
  · obtain ⟨own, v, ht, hz⟩ := i
    have hf : s'.sc = s.sc := sc_final h a (cur_zero a.sne a.szero hz)
    have hlt := (List.getElem?_eq_some_iff.1 ht).1
    have last := a.szero _ hz
    have same : s'.sc[v.s]? = some 0 := by rw [hf]; exact hz
    have oth' : ∀ {u : Nat} {y : T} {s2 : St}, u ≠ t → s2.th = s.th.set u y → s2.sc[v.s]? = some 0 → Doomed t m s2 := by
      intro u y s2 hu hth hs
      refine .inr (.inr (.inr ⟨own, v, ?_, hs⟩))
      rw [hth]; simp [List.getElem?_set, hu, ht]
    have oth : ∀ {u : Nat} {x y : T} {s2 : St}, s.th[u]? = some x → (∀ own m, x.1 ≠ .tLoadS own m) → s2.th = s.th.set u y → s2.sc[v.s]? = some 0 →
        Doomed t m s2 := by
      intro u x y s2 hu hx hth hs
      refine oth' ?_ hth hs
      rintro rfl; rw [ht] at hu; simp at hu; subst hu; exact hx own m rfl
    have new : ∀ {y : T} {s2 : St}, s2.th = s.th ++ [y] → s2.sc[v.s]? = some 0 → Doomed t m s2 := by
      intro y s2 hth hs
      refine .inr (.inr (.inr ⟨own, v, ?_, hs⟩))
      rw [hth, List.getElem?_append_left hlt, ht]
    cases h
    case cloneS | cloneR | giveUp => exact .inr (.inr (.inr ⟨own, v, ht, same⟩))
    case dropS | dropR | recv | up | sendS | sendW => exact new rfl same
    case learn u p w w' hu h1 h2 h3 h4 =>
      by_cases e : u = t
      · subst e; rw [ht] at hu; simp at hu; obtain ⟨rfl, rfl⟩ := hu
        refine .inr (.inr (.inr ⟨own, w', by simp [St.go, hlt], ?_⟩))
        have e : w'.s = v.s := by omega
        rw [e]; exact hz
      · exact oth' e rfl same
    case tLoadSZero u n k own' w hu _ _ =>
      by_cases e : u = t
      · subst e; rw [ht] at hu; simp at hu; obtain ⟨⟨rfl, rfl⟩, rfl⟩ := hu
        exact .inl (by simp [St.go])
      · exact oth' e rfl same
    case tLoadSMore u n k j own' w hu hk hj hne =>
      by_cases e : u = t
      · exfalso
        subst e; rw [ht] at hu; simp at hu; obtain ⟨⟨rfl, rfl⟩, rfl⟩ := hu
        have h2 := (List.getElem?_eq_some_iff.1 hj).1
        have : k = v.s := by omega
        subst this; rw [hz] at hj; simp at hj; exact hne hj.symm
      · exact oth' e rfl same
    all_goals
      have hu : _ := ‹s.th[_]? = some _›
      exact oth hu (by simp) rfl same

/-- **C63 (an aware send is refused).** A send that is polled by someone who knows that the last mailbox, or the last strong address, is gone
does not enter the channel: it is refused, unless its future is dropped. -/
theorem C63_aware_send_refused {cap : Option Nat} {s s' : St} (h : Steps (init cap) s) {t m : Nat} {own : Bool} {v : View}
    (ht : s.th[t]? = some (.tLoadR own m, v)) (hz : s.rc[v.r]? = some 0 ∨ s.sc[v.s]? = some 0) (hs : Steps s s') :
    m ∈ s'.refused ∨ m ∈ s'.given ∨ s'.unsent m := by
  have key : Steps (init cap) s' ∧ Doomed t m s' := by
    induction hs with
    | refl => exact ⟨h, .inr (.inr (.inl ⟨own, v, ht, hz⟩))⟩
    | snoc h1 h2 ih => exact ⟨ih.1.snoc h2, doomed_step h2 (invA ih.1) ih.2⟩
  rcases key.2 with h1 | h1 | ⟨o, w, h1, -⟩ | ⟨o, w, h1, -⟩
  · exact .inl h1
  · exact .inr (.inl h1)
  · exact .inr (.inr ⟨o, w, .inl (List.mem_of_getElem? h1)⟩)
  · exact .inr (.inr ⟨o, w, .inr (.inl (List.mem_of_getElem? h1))⟩)

/-- **C63 (nobody is left waiting).** When no strong address is left and no call is under way, every waiting receive has been given a message or
the shutdown notice. -/
theorem C63_no_receive_left_waiting {cap : Option Nat} {s : St} (h : Steps (init cap) s) (hq : s.quiet) (h0 : s.strong = 0) {t c : Nat} {v : View}
    (ht : s.th[t]? = some (.waits c, v)) : s.cells[c]? = some .shut ∨ ∃ m, s.cells[c]? = some (.msg m) := by
  have a := invA h
  have hc : cur s.sc = 0 := by have := a.scur; have := quiet_S hq; omega
  have hw : s.wRx = [] := by
    rcases (invS h).pend hc with h1 | h1
    · exact absurd h1 (quiet_has hq (by rintro p v ⟨rfl, -⟩; rfl))
    · exact h1.1
  obtain ⟨x, hx, hne⟩ := use_cell (invU h) (c := c) ht (by simp [wC, one])
  cases x with
  | gone => exact absurd rfl hne
  | shut => exact .inl hx
  | msg m => exact .inr ⟨m, hx⟩
  | empty =>
    rcases invW h t v c ht hx with h1 | h1
    · simp [hw] at h1
    · exact absurd h1 (quiet_has hq (by rintro p v ⟨q, rfl, -⟩; rfl))

/-- **C63 (no message waits while a receive does).** While a strong address exists, or when no call is under way: as long as a receive waits
that has been given nothing, the queue is empty, and no send is waiting for room (capacity other than 0). -/
theorem C63_no_message_while_waiting {cap : Option Nat} {s : St} (h : Steps (init cap) s) (hq : s.quiet ∨ 0 < s.strong) {t c : Nat} {v : View}
    (ht : s.th[t]? = some (.waits c, v)) (hc : s.cells[c]? = some .empty) : s.q = [] ∧ (cap ≠ some 0 → s.parked = []) := by
  have a := invA h
  have hw : c ∈ s.wRx := by
    rcases invW h t v c ht hc with h1 | ⟨u, p, w, hu, q, rfl, -⟩
    · exact h1
    · exfalso
      rcases hq with hq | hq
      · have := hq _ (List.mem_of_getElem? hu); simp [Pc.final] at this
      · have h1 := (invS h).low u _ w hu rfl
        have h2 := a.scur; omega
  have h1 := (invQ h).wait c hw hc
  exact ⟨h1, fun hcap => not_parked (invQ h) (by rw [cap_eq h]; exact hcap) h1⟩

/-- **C63 (nothing is left).** When no mailbox is left and no call is under way, the channel holds no message, except such whose send entered
after the drop of the last mailbox had emptied it (its test of `is_connected` came before: C11), or that a dropped receive put back. -/
theorem C63_nothing_left {cap : Option Nat} {s : St} (h : Steps (init cap) s) (hq : s.quiet) (h0 : s.boxes = 0) {m : Nat}
    (hm : m ∈ s.q ∨ m ∈ s.parked) : m ∈ s.late ∨ m ∈ s.back := by
  have a := invA h
  have hc : cur s.rc = 0 := by have := a.rcur; have := quiet_R hq; omega
  have i := invR h
  rcases i.pend hc with h1 | h1
  · exact i.left h1 m hm
  · exact absurd h1 (quiet_has hq (by rintro p v rfl; rfl))

/-- **C63 (bounded queue).** The queue holds at most as many messages as its capacity, and those that dropped receives put back. -/
theorem C63_capacity {cap : Option Nat} {s : St} (h : Steps (init cap) s) {c : Nat} (hc : cap = some c) : s.q.length ≤ c + s.back.length := by
  have : s.cap = cap := cap_eq h
  revert this
  refine h.inv (P := fun s => s.cap = cap → s.q.length ≤ c + s.back.length) (by simp [init]) fun s s' _ i h hcap => ?_
  have i := i ((cap_step h).symm.trans hcap)
  have hcap' : s.cap = some c := ((cap_step h).symm.trans hcap).trans hc
  cases h
  case tPush hf =>
    have : ¬ c ≤ s.q.length := fun h => hf ⟨c, hcap', h⟩
    simp [St.go]; omega
  case rTake hq _ => simp [St.go, hq] at i ⊢; omega
  case rTakeMore hq _ _ => simp [St.go, hq] at i ⊢; omega
  case rBackPush => simp [St.go]; omega
  case mLock => simp [St.go]
  all_goals exact i

/-! ### All calls can be run to their end -/

/-- Views are not ahead of the counters. -/
structure InvV (s : St) : Prop where
  th : ∀ (t : Nat) p v, s.th[t]? = some (p, v) → v.s < s.sc.length ∧ v.r < s.rc.length
  lk : s.lockV.s < s.sc.length ∧ s.lockV.r < s.rc.length

theorem invV_step {s s' : St} (h : Step s s') (a : InvA s) (i : InvV s) : InvV s' := by
  obtain ⟨th, lk⟩ := i
  have hs : 0 < s.sc.length := List.length_pos_iff.2 a.sne
  have hr : 0 < s.rc.length := List.length_pos_iff.2 a.rne
  have key : ∀ {t : Nat} {x y : T} {s' : St}, s.th[t]? = some x → s'.th = s.th.set t y → s.sc.length ≤ s'.sc.length →
      s.rc.length ≤ s'.rc.length → (y.2.s < s'.sc.length ∧ y.2.r < s'.rc.length) →
      (s'.lockV.s < s'.sc.length ∧ s'.lockV.r < s'.rc.length) → InvV s' := by
    intro t x y s' ht hth h1 h2 hy hl
    refine ⟨fun u p w hu => ?_, hl⟩
    rw [hth] at hu
    rcases set_cases' hu with ⟨rfl, he⟩ | ⟨-, hu⟩
    · subst he; exact hy
    · have := th u p w hu; omega
  have new : ∀ {p : Pc} {s' : St}, s'.th = s.th ++ [(p, View.bot)] → s.sc.length ≤ s'.sc.length → s.rc.length ≤ s'.rc.length →
      s'.lockV = s.lockV → InvV s' := by
    intro p s' hth h1 h2 hl
    refine ⟨fun u q w hu => ?_, by rw [hl]; omega⟩
    rw [hth] at hu
    rcases snoc_cases' hu with ⟨rfl, he⟩ | hu
    · simp at he; obtain ⟨rfl, rfl⟩ := he; simp [View.bot]; omega
    · have := th u q w hu; omega
  cases h
  case cloneS | cloneR => exact ⟨fun u p w hu => by have := th u p w hu; simp; omega, by simp; omega⟩
  case giveUp => exact ⟨th, lk⟩
  case dropS | dropR | recv | up | sendW => exact new rfl (Nat.le_refl _) (Nat.le_refl _) rfl
  case sendS => exact new rfl (by simp) (Nat.le_refl _) rfl
  case learn ht _ _ h3 h4 => exact key ht rfl (Nat.le_refl _) (Nat.le_refl _) ⟨h3, h4⟩ lk
  all_goals
    have ht : _ := ‹s.th[_]? = some _›
    have hv := th _ _ _ ht
    first
    | (exact key ht rfl (Nat.le_refl _) (Nat.le_refl _) hv lk)
    | (have hj := (List.getElem?_eq_some_iff.1 ‹s.rc[_]? = some _›).1
       refine key ht rfl (Nat.le_refl _) (Nat.le_refl _) ?_ ?_ <;> simp [St.go] <;> omega)
    | (have hj := (List.getElem?_eq_some_iff.1 ‹s.sc[_]? = some _›).1
       refine key ht rfl (Nat.le_refl _) (Nat.le_refl _) ?_ ?_ <;> simp [St.go] <;> omega)
    | (refine key ht rfl (by simp [St.go]) (by simp [St.go]) ?_ ?_ <;> simp [St.go, View.join] <;> omega)

theorem invV {cap : Option Nat} {s : St} (h : Steps (init cap) s) : InvV s :=
  h.inv ⟨by simp [init], by simp [init, View.bot]⟩ fun _ _ hr i h => invV_step h (invA hr) i

/-- How much a call has still to do. -/
def rank : T → Nat
  | (.tLoadR _ _, _) => 7
  | (.tLoadS _ _, _) => 6
  | (.tCrit _ _, _) => 5
  | (.sSub, _) => 4
  | (.sLock, _) => 3
  | (.sNotify q, _) => q.length + 1
  | (.rLock, _) => 3
  | (.rLoad, _) => 2
  | (.cDrop _, _) => 1
  | (.rBack _, _) => 1
  | (.uLoad, _) => 2
  | (.uCas _, _) => 1
  | (.mSub, _) => 2
  | (.mLock, _) => 1
  | _ => 0

/-- How much all calls have still to do. -/
def work (s : St) : Nat := sumBy rank s.th + s.wRx.length

theorem Steps.one {s s' : St} (h : Step s s') : Steps s s' := .snoc .refl h

theorem rank_after (own : Bool) (v : View) : rank (after own, v) ≤ 4 := by cases own <;> simp [after, rank]

theorem thread_runs {cap : Option Nat} {s : St} (h : Steps (init cap) s) {t : Nat} {p : Pc} {v : View} (ht : s.th[t]? = some (p, v))
    (hf : p.final = false) (hl : p = .rLoad ∨ s.lock = none) : ∃ s', Steps s s' ∧ work s' < work s ∧ s'.th.length = s.th.length := by
  have hv := (invV h).th t p v ht
  have a := invA h
  have mk : ∀ {s' : St} {y : T}, Steps s s' → s'.th = s.th.set t y → s'.wRx.length + rank y < s.wRx.length + rank (p, v) →
      ∃ s', Steps s s' ∧ work s' < work s ∧ s'.th.length = s.th.length := by
    intro s' y hs hth hr
    refine ⟨s', hs, ?_, by simp [hth]⟩
    have := sumBy_set rank y ht
    simp only [work, hth]; omega
  have hsv : ∃ n, s.sc[v.s]? = some n := ⟨_, List.getElem?_eq_getElem hv.1⟩
  have hrv : ∃ n, s.rc[v.r]? = some n := ⟨_, List.getElem?_eq_getElem hv.2⟩
  have lck : p ≠ .rLoad → s.lock = none := fun h => hl.elim (fun h' => absurd h' h) id
  cases p
  case done | waits | shut | upOk | upNo | got => simp [Pc.final] at hf
  case tLoadR own m =>
    obtain ⟨n, hn⟩ := hrv
    by_cases e : n = 0
    · subst e; exact mk (.one (.tLoadRZero ht (Nat.le_refl _) hn)) rfl (by have := rank_after own v; show s.wRx.length + rank (after own, v) < s.wRx.length + 7; omega)
    · exact mk (.one (.tLoadRMore ht (Nat.le_refl _) hn e)) rfl (by simp [rank, St.go])
  case tLoadS own m =>
    obtain ⟨n, hn⟩ := hsv
    by_cases e : n = 0
    · subst e; exact mk (.one (.tLoadSZero ht (Nat.le_refl _) hn)) rfl (by have := rank_after own v; show s.wRx.length + rank (after own, v) < s.wRx.length + 6; omega)
    · exact mk (.one (.tLoadSMore ht (Nat.le_refl _) hn e)) rfl (by simp [rank, St.go])
  case tCrit own m =>
    have hr := rank_after own (v.join s.lockV)
    cases ho : offer s.wRx s.cells m with
    | some wc =>
      obtain ⟨w, cs⟩ := wc
      have : w.length ≤ s.wRx.length := by obtain ⟨x, c, h1, -⟩ := offer_some ho; rw [h1]; simp; omega
      exact mk (.one (.tHand ht (lck (by simp)) ho)) rfl (by show w.length + rank (after own, _) < s.wRx.length + 5; omega)
    | none =>
      by_cases hf : s.full
      · exact mk (.one (.tPark ht (lck (by simp)) ho hf)) rfl (by show 0 + rank (after own, _) < s.wRx.length + 5; omega)
      · exact mk (.one (.tPush ht (lck (by simp)) ho hf)) rfl (by show 0 + rank (after own, _) < s.wRx.length + 5; omega)
  case sSub =>
    by_cases e : cur s.sc = 1
    · exact mk (.one (.sSubLast ht e)) rfl (by simp [rank, St.go])
    · exact mk (.one (.sSubMore ht e)) rfl (by simp [rank, St.go])
  case sLock => exact mk (.one (.sLock ht (lck (by simp)))) rfl (by simp [rank, St.go])
  case sNotify q =>
    cases q with
    | nil => exact mk (.one (.sEnd ht)) rfl (by simp [rank, St.go])
    | cons c q =>
      by_cases e : s.cells[c]? = some Cell.empty
      · exact mk (.one (.sNotify ht e)) rfl (by simp [rank, St.go])
      · exact mk (.one (.sNotifyFull ht e)) rfl (by simp [rank, St.go])
  case rLock =>
    have hl := lck (by simp)
    cases hq : s.q with
    | nil => exact mk (.one (.rLock ht hl hq)) rfl (by simp [rank, St.go])
    | cons m q =>
      by_cases hf : { s with q := [] ++ q }.full
      · exact mk (.one (.rTake (a := []) ht hl hq (.inl hf))) rfl (by simp [rank, St.go])
      · cases hp : s.parked with
        | nil => exact mk (.one (.rTake (a := []) ht hl hq (.inr hp))) rfl (by simp [rank, St.go])
        | cons m' p => exact mk (.one (.rTakeMore (a := []) (a' := []) ht hl hq hf hp)) rfl (by simp [rank, St.go])
  case rLoad =>
    obtain ⟨n, hn⟩ := hsv
    by_cases e : n = 0
    · subst e; exact mk (.one (.rLoadZero ht (Nat.le_refl _) hn)) rfl (by simp [rank, St.go])
    · exact mk (.one (.rLoadMore ht (Nat.le_refl _) hn e)) rfl (by simp [rank, St.go])
  case cDrop c =>
    by_cases e : ∃ m, s.cells[c]? = some (.msg m)
    · obtain ⟨m, e⟩ := e; exact mk (.one (.cLost ht e)) rfl (by simp [rank, St.go])
    · exact mk (.one (.cDrop ht (fun m hm => e ⟨m, hm⟩))) rfl (by simp [rank, St.go])
  case rBack m =>
    cases ho : offer s.wRx s.cells m with
    | some wc =>
      obtain ⟨w, cs⟩ := wc
      have : w.length ≤ s.wRx.length := by obtain ⟨x, c, h1, -⟩ := offer_some ho; rw [h1]; simp; omega
      exact mk (.one (.rBackHand ht (lck (by simp)) ho)) rfl (by simp only [rank, St.go]; omega)
    | none => exact mk (.one (.rBackPush ht (lck (by simp)) ho)) rfl (by simp [rank, St.go])
  case uLoad =>
    obtain ⟨n, hn⟩ := hsv
    by_cases e : n = 0
    · subst e; exact mk (.one (.uLoadZero ht (Nat.le_refl _) hn)) rfl (by simp [rank, St.go])
    · exact mk (.one (.uLoadMore ht (Nat.le_refl _) hn e)) rfl (by simp [rank, St.go])
  case uCas n =>
    by_cases e : cur s.sc = n
    · exact mk (.one (.uCasOk ht e)) rfl (by simp [rank, St.go])
    · have hk := cur_eq a.sne
      have hle : v.s ≤ s.sc.length - 1 := by omega
      by_cases e0 : cur s.sc = 0
      · rw [e0] at hk
        exact mk (.one (.uCasFailZero ht hle hk)) rfl (by simp [rank, St.go])
      · have h1 := Step.uCasFailMore ht hle hk e0
        have hlt := (List.getElem?_eq_some_iff.1 ht).1
        have h2 := Step.uCasOk (s := s.go t (.uCas (cur s.sc)) { v with s := s.sc.length - 1 }) (t := t) (n := cur s.sc)
          (v := { v with s := s.sc.length - 1 }) (by simp [St.go, hlt]) rfl
        exact mk (y := (.upOk, { { v with s := s.sc.length - 1 } with s := s.sc.length })) ((Steps.one h1).snoc h2) (by simp [St.go])
          (by simp [rank, St.go])
  case mSub =>
    by_cases e : cur s.rc = 1
    · exact mk (.one (.mSubLast ht e)) rfl (by simp [rank, St.go])
    · exact mk (.one (.mSubMore ht e)) rfl (by simp [rank, St.go])
  case mLock => exact mk (.one (.mLock ht (lck (by simp)))) rfl (by simp [rank, St.go])

/-- **C63 (no deadlock).** From every reachable state all calls under way can be run to their end, without any further call being made. -/
theorem C63_calls_can_finish {cap : Option Nat} {s : St} (h : Steps (init cap) s) : ∃ s', Steps s s' ∧ s'.quiet ∧ s'.th.length = s.th.length := by
  generalize hn : work s = n
  induction n using Nat.strongRecOn generalizing s with
  | _ n ih =>
    by_cases hq : s.quiet
    · exact ⟨s, .refl, hq, rfl⟩
    · have : ∃ s', Steps s s' ∧ work s' < work s ∧ s'.th.length = s.th.length := by
        cases hl : s.lock with
        | some u =>
          obtain ⟨v, h1⟩ := (invL h).hold u hl
          exact thread_runs h h1 rfl (.inl rfl)
        | none =>
          have : ∃ x ∈ s.th, x.1.final = false := by
            refine Classical.byContradiction fun hc => hq fun x hx => ?_
            cases hx' : x.1.final
            · exact absurd ⟨x, hx, hx'⟩ hc
            · rfl
          obtain ⟨⟨p, v⟩, hx, hf⟩ := this
          obtain ⟨t, ht⟩ := List.mem_iff_getElem?.1 hx
          exact thread_runs h ht hf (.inr hl)
      obtain ⟨s1, h1, h2, h3⟩ := this
      obtain ⟨s2, h4, h5, h6⟩ := ih (work s1) (by omega) (h.trans h1) rfl
      exact ⟨s2, h1.trans h4, h5, h6.trans h3⟩

/-! ## Concrete executions -/

/-- Capacity 1: message 0 is queued and message 1 waits for room. A receive yields 0, which admits 1. The strong address goes away; the next
receive yields 1, and only then is one told to shut down (`C63_shutdown_means_drained`, `C63_conservation`, `C63_received_once`,
`C63_capacity`). -/
example : ∃ s, Steps (init (some 1)) s ∧ s.quiet ∧ s.strong = 0 ∧ s.byStrong = [0, 1] ∧ s.received 0 ∧ s.received 1 ∧
    (∃ v, (Pc.shut, v) ∈ s.th) ∧ s.places 0 = 1 ∧ s.places 1 = 1 ∧ s.places 2 = 0 := by
  have h : Steps (init (some 1)) _ := .refl
  have h := h.snoc (.sendS (by decide))
  have h := h.snoc (.sendS (by decide))
  have h := h.snoc (.tLoadRMore (t := 0) (k := 0) (n := 1) rfl (by decide) rfl (by decide))
  have h := h.snoc (.tLoadSMore (t := 0) (k := 0) (n := 1) rfl (by decide) rfl (by decide))
  have h := h.snoc (.tPush (t := 0) rfl rfl rfl (by rintro ⟨c, h1, h2⟩; simp [init, St.go] at h1 h2; omega))
  have h := h.snoc (.sSubMore (t := 0) rfl (by decide))
  have h := h.snoc (.tLoadRMore (t := 1) (k := 0) (n := 1) rfl (by decide) rfl (by decide))
  have h := h.snoc (.tLoadSMore (t := 1) (k := 1) (n := 2) rfl (by decide) rfl (by decide))
  have h := h.snoc (.tPark (t := 1) rfl rfl rfl ⟨1, rfl, by decide⟩)
  have h := h.snoc (.sSubMore (t := 1) rfl (by decide))
  have h := h.snoc .recv
  have h := h.snoc (.rTakeMore (t := 2) (a := []) (a' := []) rfl rfl rfl (by rintro ⟨c, h1, h2⟩; simp [init, St.go] at h1 h2; omega) rfl)
  have h := h.snoc (.dropS (by decide))
  have h := h.snoc (.sSubLast (t := 3) rfl (by decide))
  have h := h.snoc .recv
  have h := h.snoc (.rTake (t := 4) (a := []) rfl rfl rfl (.inr rfl))
  have h := h.snoc (.sLock (t := 3) rfl rfl)
  have h := h.snoc (.sEnd (t := 3) rfl)
  have h := h.snoc .recv
  have h := h.snoc (.rLock (t := 5) rfl rfl rfl)
  have h := h.snoc (.rLoadZero (t := 5) (k := 5) rfl (by decide) rfl)
  exact ⟨_, h, by unfold St.quiet; decide, rfl, rfl, ⟨⟨1, 0⟩, by decide⟩, ⟨⟨1, 0⟩, by decide⟩, ⟨⟨5, 0⟩, by decide⟩, by decide, by decide, by decide⟩

/-- A receive that gets the lock after the last strong address is gone, but before its dropper, still reads the old count and waits. The dropper
tells it (`C63_no_receive_left_waiting`). -/
example : ∃ s, Steps (init none) s ∧ s.quiet ∧ s.strong = 0 ∧ (∃ v, s.th[1]? = some (.waits 0, v)) ∧ s.cells[0]? = some .shut := by
  have h : Steps (init none) _ := .refl
  have h := h.snoc (.dropS (by decide))
  have h := h.snoc (.sSubLast (t := 0) rfl (by decide))
  have h := h.snoc .recv
  have h := h.snoc (.rLock (t := 1) rfl rfl rfl)
  have h := h.snoc (.rLoadMore (t := 1) (k := 0) (n := 1) rfl (by decide) rfl (by decide))
  have h := h.snoc (.sLock (t := 0) rfl rfl)
  have h := h.snoc (.sNotify (t := 0) rfl rfl)
  have h := h.snoc (.sEnd (t := 0) rfl)
  exact ⟨_, h, by unfold St.quiet; decide, rfl, ⟨⟨0, 0⟩, rfl⟩, rfl⟩

/-- A receive waits while a strong address exists and the queue is empty (`C63_no_message_while_waiting`). -/
example : ∃ s, Steps (init (some 1)) s ∧ s.quiet ∧ 0 < s.strong ∧ (∃ v, s.th[0]? = some (.waits 0, v)) ∧ s.cells[0]? = some .empty := by
  have h : Steps (init (some 1)) _ := .refl
  have h := h.snoc .recv
  have h := h.snoc (.rLock (t := 0) rfl rfl rfl)
  have h := h.snoc (.rLoadMore (t := 0) (k := 0) (n := 1) rfl (by decide) rfl (by decide))
  exact ⟨_, h, by unfold St.quiet; decide, by decide, ⟨⟨0, 0⟩, rfl⟩, rfl⟩

/-- The race of C11: the send of message 1 passes the test, then the last mailbox goes away and message 0 is destroyed; then message 1 enters the
queue, where nobody will fetch it (`C63_nothing_left`, `C63_closed_only_without_mailbox`). -/
example : ∃ s, Steps (init none) s ∧ s.quiet ∧ s.boxes = 0 ∧ s.q = [1] ∧ s.late = [1] ∧ s.closed = [0] := by
  have h : Steps (init none) _ := .refl
  have h := h.snoc .sendW
  have h := h.snoc .sendW
  have h := h.snoc (.tLoadRMore (t := 0) (k := 0) (n := 1) rfl (by decide) rfl (by decide))
  have h := h.snoc (.tLoadSMore (t := 0) (k := 0) (n := 1) rfl (by decide) rfl (by decide))
  have h := h.snoc (.tPush (t := 0) rfl rfl rfl (by rintro ⟨c, h1, h2⟩; simp [init, St.go] at h1))
  have h := h.snoc (.tLoadRMore (t := 1) (k := 0) (n := 1) rfl (by decide) rfl (by decide))
  have h := h.snoc (.tLoadSMore (t := 1) (k := 0) (n := 1) rfl (by decide) rfl (by decide))
  have h := h.snoc (.dropR (by decide))
  have h := h.snoc (.mSubLast (t := 2) rfl (by decide))
  have h := h.snoc (.mLock (t := 2) rfl rfl)
  have h := h.snoc (.tPush (t := 1) rfl rfl rfl (by rintro ⟨c, h1, h2⟩; simp [init, St.go] at h1))
  exact ⟨_, h, by unfold St.quiet; decide, rfl, rfl, rfl, rfl⟩

/-- The last mailbox goes away. A send that knows it is refused; one that does not still gets in (`C63_aware_send_refused`,
`C63_refused_only_if_disconnected`). -/
example : ∃ s s', Steps (init none) s ∧ s.th[1]? = some (.tLoadR true 0, ⟨0, 1⟩) ∧ s.rc[1]? = some 0 ∧ Steps s s' ∧ s'.refused = [0] ∧
    s'.q = [1] ∧ s'.quiet := by
  have h : Steps (init none) _ := .refl
  have h := h.snoc (.dropR (by decide))
  have h := h.snoc (.mSubLast (t := 0) rfl (by decide))
  have h := h.snoc (.mLock (t := 0) rfl rfl)
  have h := h.snoc (.sendS (by decide))
  have h := h.snoc .sendW
  have h := h.snoc (.learn (t := 1) (v' := ⟨0, 1⟩) rfl (by decide) (by decide) (by decide) (by decide))
  have mk : ∀ {s : St}, Steps (init none) s → Steps s s := fun _ => .refl
  have h' := mk h
  have h' := h'.snoc (.tLoadRZero (t := 1) (k := 1) rfl (by decide) rfl)
  have h' := h'.snoc (.sSubMore (t := 1) rfl (by decide))
  have h' := h'.snoc (.tLoadRMore (t := 2) (k := 0) (n := 1) rfl (by decide) rfl (by decide))
  have h' := h'.snoc (.tLoadSMore (t := 2) (k := 0) (n := 1) rfl (by decide) rfl (by decide))
  have h' := h'.snoc (.tPush (t := 2) rfl rfl rfl (by rintro ⟨c, h1, h2⟩; simp [init, St.go] at h1))
  exact ⟨_, _, h, rfl, rfl, h', rfl, rfl, by unfold St.quiet; decide⟩

/-- Capacity 0 (C29): a receive is told to shut down although the message of a waiting send is there. `C63_shutdown_means_drained` excludes it. -/
example : ∃ s, Steps (init (some 0)) s ∧ s.quiet ∧ s.byStrong = [0] ∧ s.parked = [0] ∧ ∃ v, (Pc.shut, v) ∈ s.th := by
  have h : Steps (init (some 0)) _ := .refl
  have h := h.snoc (.sendS (by decide))
  have h := h.snoc (.tLoadRMore (t := 0) (k := 0) (n := 1) rfl (by decide) rfl (by decide))
  have h := h.snoc (.tLoadSMore (t := 0) (k := 0) (n := 1) rfl (by decide) rfl (by decide))
  have h := h.snoc (.tPark (t := 0) rfl rfl rfl ⟨0, rfl, by decide⟩)
  have h := h.snoc (.sSubMore (t := 0) rfl (by decide))
  have h := h.snoc (.dropS (by decide))
  have h := h.snoc (.sSubLast (t := 1) rfl (by decide))
  have h := h.snoc (.sLock (t := 1) rfl rfl)
  have h := h.snoc (.sEnd (t := 1) rfl)
  have h := h.snoc .recv
  have h := h.snoc (.rLock (t := 2) rfl rfl rfl)
  have h := h.snoc (.rLoadZero (t := 2) (k := 3) rfl (by decide) rfl)
  exact ⟨_, h, by unfold St.quiet; decide, rfl, rfl, ⟨3, 0⟩, by decide⟩

/-- The race of C03: a message comes in between the two steps in which a waiting receive is dropped, and is destroyed with it. -/
example : ∃ s, Steps (init none) s ∧ s.quiet ∧ s.lost = [0] ∧ 0 < s.boxes := by
  have h : Steps (init none) _ := .refl
  have h := h.snoc .recv
  have h := h.snoc (.rLock (t := 0) rfl rfl rfl)
  have h := h.snoc (.rLoadMore (t := 0) (k := 0) (n := 1) rfl (by decide) rfl (by decide))
  have h := h.snoc (.cNone (t := 0) (c := 0) rfl (fun m => by simp [St.go, init]))
  have h := h.snoc .sendW
  have h := h.snoc (.tLoadRMore (t := 1) (k := 0) (n := 1) rfl (by decide) rfl (by decide))
  have h := h.snoc (.tLoadSMore (t := 1) (k := 0) (n := 1) rfl (by decide) rfl (by decide))
  have h := h.snoc (.tHand (t := 1) rfl rfl rfl)
  have h := h.snoc (.cLost (t := 0) rfl rfl)
  exact ⟨_, h, by unfold St.quiet; decide, rfl, by decide⟩

end Xtra.WeakMsg
