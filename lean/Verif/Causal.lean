import Verif.PropsOrigin
import Verif.PropsCount
import Verif.Join
/-! # What a call knows: happens-before through the channel (C73)

The channel model (`Model.lean`) is interleaved: it says which values a step reads and writes. Whether a thread that has received something also *sees*
what other threads did before — in memory of their own, outside the channel — is decided by the synchronisation operations of the code. This file adds
them: every call and every synchronising object carries a set of *facts* it knows, in the sense of happens-before. A thread starts with whatever facts
its caller knows. Facts travel only by an acquire of an object to which somebody released before.

Orderings modelled, per place in the code:

* `Mutex` of `Chan::chan` (`xtra/src/chan.rs:115, 147, 166, 205, 216, 238, 245, 287, 301`, `97`): acquire on lock, release on unlock;
* `sender_count`, `receiver_count`: `fetch_sub(Release)` (`chan.rs:66, 84`) releases; `fence(Acquire)` of the last dropper (`chan.rs:70, 88`) acquires what
  all droppers released (all writes to the counters are read-modify-writes, so the release sequences are unbroken); loads with `SeqCst`
  (`chan.rs:187, 200, 201`) acquire; `fetch_add(Relaxed)` (`chan.rs:60, 78`) does neither; `TxStrong::try_new` (`chan/ptr.rs:130-156`) acquires if it
  succeeds, its load is `Relaxed`;
* `catty::oneshot` of a waiting receive (`chan/waiting_receiver.rs`) and of a reply (`envelope.rs`): sending, or dropping the sender, releases; polling
  acquires;
* the `spin::Mutex` of a waiting send (`chan/waiting_sender.rs:33, 51, 86`): taking its message, or closing it, releases; polling it acquires;
* `event_listener::Event` (`chan.rs:250, 262-280`): `notify` releases, polling a notified listener acquires.

Under-approximated (an acquire or release that is not modelled makes the theorems stronger): loads that return out-of-date values acquire nothing; the
`spin::Mutex` of the broadcast queues; `Arc` counters; wakers. Assumed: a `JoinHandle` moves between threads with synchronisation (`Loc.obj`), as any
Rust value does. -/

set_option linter.unusedSimpArgs false
set_option linter.unusedVariables false

namespace Xtra

/-- A set of facts. -/
abbrev Know := Nat → Prop

/-- Whoever knows `b` knows `a`. -/
def Know.le (a b : Know) : Prop := ∀ x, a x → b x

/-- The synchronising objects. -/
inductive Loc where
  /-- `Chan::chan` -/
  | mutex
  /-- `Chan::sender_count` -/
  | senders
  /-- `Chan::receiver_count` -/
  | receivers
  /-- `WaitingSender` number `h` -/
  | ws (h : Nat)
  /-- oneshot of `WaitingReceiver` number `c` -/
  | cell (c : Nat)
  /-- oneshot of the reply to message `i` -/
  | reply (i : Nat)
  /-- listener `l` of `Chan::on_shutdown` -/
  | event (l : Nat)
  /-- the user's object `o` -/
  | obj (o : Nat)
  deriving DecidableEq

/-- The steps that run with `Chan::chan` locked (`xtra/src/chan.rs:97, 115, 147, 166, 216, 238, 245, 287, 301`). -/
def Micro.locked : Micro → Bool
  | .sendCrit .. | .shutRx | .shutTx | .recvTry .. | .recvBcast .. | .requeue _ | .newBq _ | .bcastShutdown => true
  | _ => false

/-- What a step acquires (the list at the top of this file). `recvTry` loads `sender_count` under the lock (`chan.rs:187`), unless it reads an
out-of-date value. -/
def Micro.acq (w : World) : Micro → List Loc
  | .sendLd1 .. | .conn1 _ | .join1 .. => [.receivers]
  | .sendLd2 .. | .conn2 _ | .join2 .. => [.senders]
  | .sendCrit .. | .shutRx | .shutTx | .recvBcast .. | .requeue _ | .newBq _ | .bcastShutdown => [.mutex]
  | .recvTry .. => if w.lag = .late then [.mutex] else [.mutex, .senders]
  | .pollWs _ _ _ h _ => [.ws h]
  | .sendFin _ .ret mid _ => [.reply mid]
  | .recvPoll _ _ c _ | .cancel _ c => [.cell c]
  | .dropTx rc => if rc.isStrong = true ∧ w.sc = 1 then [.senders] else []
  | .dropRx => if w.rcv = 1 then [.receivers] else []
  | _ => []

/-- What a step from `w` to `w'` releases. -/
def Micro.rel (w w' : World) (mc : Micro) : Loc → Prop
  | .mutex => mc.locked = true
  | .senders => ∃ rc, mc = .dropTx rc ∧ rc.isStrong = true
  | .receivers => mc = .dropRx
  | .ws h => (∃ wk m, w.ws[h]? = some (.active wk m)) ∧ ∃ wk, w'.ws[h]? = some (.delivered wk) ∨ w'.ws[h]? = some (.closed wk)
  | .cell c => (∃ wk, w.cells[c]? = some (.empty wk)) ∧ ∃ k wk, w'.cells[c]? = some (.full k wk)
  | .reply i => (∃ b m r brk, mc = .respond b (.one m) r brk ∧ m.id = i) ∨
      ((∃ wk, w.resp[i]? = some (.waiting wk)) ∧ ∃ wk, w'.resp[i]? = some (.interrupted wk))
  | .event l => (∃ wk, w.lst[l]? = some (.waiting wk)) ∧ ∃ wk, w'.lst[l]? = some (.notified wk)
  | .obj o => ∃ l, mc = .join1 o l ∨ mc = .join2 o l

/-- What the first part of a call acquires. -/
def Call.acq (w : World) : Call → List Loc
  | .len _ => [.mutex]
  | .upgrade _ | .stopAll _ => if w.sc = 0 then [] else [.senders]
  | .pollReply o _ => match w.objs[o]? with | some (.reply mid) => [.reply mid] | _ => []
  | .pollJoin j _ => match w.objs[j]? with | some (.join (some l)) => [.obj j, .event l] | _ => [.obj j]
  | _ => []

/-- What it releases. -/
def Call.rel : Call → Loc → Prop
  | .len _, l => l = .mutex
  | .pollJoin j _, l => l = .obj j
  | _, _ => False

/-- Who knows what. -/
structure Kn where
  /-- the calls -/
  th : Nat → Know
  /-- what was released to each object -/
  loc : Loc → Know
  /-- (ghost) what the sender of message `i` knew when it put the message into the mailbox, or began to wait for room -/
  sent : Nat → Know
  /-- (ghost) what was known when the handler of message `i` had returned -/
  answered : Nat → Know
  /-- (ghost) what was known by whoever destroyed the unanswered request `i` -/
  ended : Nat → Know
  /-- (ghost) what was known to those who dropped a strong address -/
  dropS : Know
  /-- (ghost) what was known to those who dropped a mailbox (or receive future, or unfinished dispatch) -/
  dropR : Know

/-- Nobody knows anything. -/
def Kn.bot : Kn := ⟨fun _ _ => False, fun _ _ => False, fun _ _ => False, fun _ _ => False, fun _ _ => False, fun _ => False, fun _ => False⟩

/-- What call `t` knows after an acquire of `ls`. -/
def Kn.after (k : Kn) (ls : List Loc) (t : Nat) : Know := fun x => k.th t x ∨ ∃ l ∈ ls, k.loc l x

/-- The message that a step puts into the mailbox. -/
def Micro.puts (w : World) (i : Nat) : Micro → Prop
  | .sendCrit _ _ m _ _ => m.id = i
  | .bcastShutdown => w.resp.length = i
  | _ => False

/-- Call `t` makes the step `mc` from `w` to `w'`. -/
def Kn.exec (k : Kn) (w w' : World) (t : Nat) (mc : Micro) : Kn where
  th := fun u => if u = t then k.after (mc.acq w) t else k.th u
  loc := fun l x => k.loc l x ∨ (mc.rel w w' l ∧ k.after (mc.acq w) t x)
  sent := fun i x => k.sent i x ∨ (mc.puts w i ∧ k.th t x)
  answered := fun i x => k.answered i x ∨ ((∃ b m r brk, mc = .respond b (.one m) r brk ∧ m.id = i) ∧ k.th t x)
  ended := fun i x => k.ended i x ∨ (((∃ wk, w.resp[i]? = some (.waiting wk)) ∧ ∃ wk, w'.resp[i]? = some (.interrupted wk)) ∧ k.th t x)
  dropS := fun x => k.dropS x ∨ ((∃ rc, mc = .dropTx rc ∧ rc.isStrong = true) ∧ k.th t x)
  dropR := fun x => k.dropR x ∨ (mc = .dropRx ∧ k.th t x)

/-- Somebody who knows `ka` begins the call `c`, which is number `t`. -/
def Kn.call (k : Kn) (w : World) (t : Nat) (c : Call) (ka : Know) : Kn :=
  { k with
    th := fun u => if u = t then (fun x => ka x ∨ ∃ l ∈ c.acq w, k.loc l x) else k.th u
    loc := fun l x => k.loc l x ∨ (c.rel l ∧ (ka x ∨ ∃ l ∈ c.acq w, k.loc l x)) }

/-- The channel and who knows what. -/
structure KSys where
  s : Sys
  k : Kn

/-- `KStep x t x'`: call number `t` makes a step, or begins, with a caller who knows anything. -/
inductive KStep : KSys → Nat → KSys → Prop
  | call {x : KSys} {c : Call} {s' : Sys} (ka : Know) : x.s.step (.call c) = some s' →
      KStep x x.s.th.length ⟨s', x.k.call x.s.w x.s.th.length c ka⟩
  | exec {x : KSys} {t : Nat} {m : Micro} {rest : List Micro} {s' : Sys} : x.s.th[t]? = some (m :: rest) → x.s.step (.exec t) = some s' →
      KStep x t ⟨s', x.k.exec x.s.w s'.w t m⟩

/-- All executions. -/
inductive KReach (cap : Option Nat) : KSys → Prop
  | init : KReach cap ⟨init cap, Kn.bot⟩
  | step {x x' : KSys} {t : Nat} : KReach cap x → KStep x t x' → KReach cap x'

/-- The step adds the event. -/
def KSys.adds (x x' : KSys) (e : Ev) : Prop := ∃ l, x'.s.w.log = l ++ x.s.w.log ∧ e ∈ l

theorem KReach.reachable {cap : Option Nat} {x : KSys} (h : KReach cap x) : Reachable cap x.s := by
  induction h with
  | init => exact .init
  | step _ hs ih => cases hs with
    | call ka h => exact ih.step h
    | exec _ h => exact ih.step h

/-! ## What the steps do -/

theorem notifyCell_fullBy {cells : List RxCell} {c d : Nat} {k k' : Ctrl} {wk : Option Nat} (h : (notifyCell cells d k')[c]? = some (.full k wk)) :
    cells[c]? = some (.full k wk) ∨ (cells[c]? = some (.empty wk) ∧ k = k' ∧ c = d) := by
  unfold notifyCell at h
  split at h
  · rename_i wk' hd
    rw [List.getElem?_set] at h
    split at h
    · rename_i e; subst e
      split at h
      · simp at h; obtain ⟨rfl, rfl⟩ := h; exact .inr ⟨hd, rfl, rfl⟩
      · simp at h
    · exact .inl h
  · exact .inl h

theorem notifyAll_fullBy (l : List Nat) (k' : Ctrl) {cells : List RxCell} {c : Nat} {k : Ctrl} {wk : Option Nat}
    (h : (l.foldl (fun cs c => notifyCell cs c k') cells)[c]? = some (.full k wk)) :
    cells[c]? = some (.full k wk) ∨ (cells[c]? = some (.empty wk) ∧ k = k') := by
  induction l generalizing cells with
  | nil => exact .inl h
  | cons d l ih =>
    rcases ih h with h1 | ⟨h1, h2⟩
    · rcases notifyCell_fullBy h1 with h3 | ⟨h3, h4, -⟩
      · exact .inl h3
      · exact .inr ⟨h3, h4⟩
    · right
      refine ⟨?_, h2⟩
      simp only [notifyCell] at h1
      split at h1
      · rw [List.getElem?_set] at h1
        split at h1
        · rename_i e; subst e; split at h1 <;> simp at h1
        · exact h1
      · exact h1

theorem popBroadcast_fullBy {w w' : World} {b : Nat} {m : Msg} (r : RegWs w.ws w.wOne w.wAll) (hp : w.popBroadcast b = some (m, w'))
    {c : Nat} {k : Ctrl} {wk : Option Nat} (h : w'.cells[c]? = some (.full k wk)) :
    w.cells[c]? = some (.full k wk) ∨ (w.cells[c]? = some (.empty wk) ∧ k = .newBroadcast) := by
  have hc : ∀ q, (w.afterPop b q).cells = w.cells := fun q => by unfold World.afterPop; split <;> simp
  obtain ⟨q, -, ⟨-, rfl⟩ | ⟨-, hg, rfl⟩ | ⟨-, h', wk', m', q', t, rfl⟩⟩ := popBroadcast_cases r.all hp
  · exact .inl (by simpa [hc] using h)
  · exact .inl (by simpa [hc] using h)
  · rcases notifyAll_fullBy _ _ h with h | h
    · exact .inl (by simpa [hc] using h)
    · exact .inr (by simpa [hc] using h)

/-- Who fills the cell of a waiting receive, and with what. -/
theorem execR_fullBy {w w' : World} {mc : Micro} {ms : List Micro} (h : ExecR w mc w' ms) (r : RegWs w.ws w.wOne w.wAll) {c : Nat} {k : Ctrl}
    {wk : Option Nat} (hx : w'.cells[c]? = some (.full k wk)) :
    w.cells[c]? = some (.full k wk) ∨ ((∃ wk', w.cells[c]? = some (.empty wk')) ∧
      ((∃ m, k = .newMessage m ∧ mc.locked = true) ∨ (k = .shutdown ∧ mc = .notifyShut c) ∨ k = .newBroadcast)) := by
  have hset : ∀ (d : Nat) (y : RxCell), (∀ k' wk', y ≠ .full k' wk') → (w.cells.set d y)[c]? = some (.full k wk) → w.cells[c]? = some (.full k wk) := by
    intro d y hy h
    rw [List.getElem?_set] at h
    split at h
    · split at h
      · simp at h; exact absurd h (hy _ _)
      · simp at h
    · exact h
  cases h
  case critAll_sent =>
    rcases notifyAll_fullBy _ _ hx with h | ⟨h, rfl⟩
    · exact .inl h
    · exact .inr ⟨⟨_, h⟩, .inr (.inr rfl)⟩
  case bcastShutdown =>
    rcases notifyAll_fullBy _ _ hx with h | ⟨h, rfl⟩
    · exact .inl h
    · exact .inr ⟨⟨_, h⟩, .inr (.inr rfl)⟩
  case recv_all hp _ _ =>
    rcases popBroadcast_fullBy r hp (by simpa using hx) with h | ⟨h, rfl⟩
    · exact .inl h
    · exact .inr ⟨⟨_, h⟩, .inr (.inr rfl)⟩
  case recv_one hp _ _ =>
    left
    obtain ⟨q, -, ⟨-, rfl⟩ | ⟨-, hg, rfl⟩ | ⟨-, h, wk, m', q', t, rfl⟩⟩ := popUnicast_cases r.one hp <;> simpa using hx
  case recvBcast_some hp =>
    simp only [World.yieldMsg_cells] at hx
    rw [List.getElem?_set] at hx
    split at hx
    · split at hx <;> simp at hx
    · rcases popBroadcast_fullBy r hp hx with h | ⟨h, rfl⟩
      · exact .inl h
      · exact .inr ⟨⟨_, h⟩, .inr (.inr rfl)⟩
  case notifyShut =>
    rcases notifyCell_fullBy hx with h | ⟨h, rfl, rfl⟩
    · exact .inl h
    · exact .inr ⟨⟨_, h⟩, .inr (.inl ⟨rfl, rfl⟩)⟩
  case critOne_hand d _ _ h1 h2 h3 h4 =>
    simp only at hx
    rw [List.getElem?_set] at hx
    split at hx
    · rename_i e; subst e
      split at hx
      · simp at hx; obtain ⟨rfl, rfl⟩ := hx; exact .inr ⟨⟨_, h4⟩, .inl ⟨_, rfl, rfl⟩⟩
      · simp at hx
    · exact .inl hx
  case requeue_hand d _ _ h2 h3 h4 =>
    simp only at hx
    rw [List.getElem?_set] at hx
    split at hx
    · rename_i e; subst e
      split at hx
      · simp at hx; obtain ⟨rfl, rfl⟩ := hx; exact .inr ⟨⟨_, h4⟩, .inl ⟨_, rfl, rfl⟩⟩
      · simp at hx
    · exact .inl hx
  case recv_wait =>
    left
    simp only at hx
    rcases append_cases hx with h | h
    · exact h.2
    · simp at h
  case shutTx => left; simpa using hx
  case dropMsg => left; simpa [World.kill] using hx
  all_goals first
    | (left; simpa [World.kill, World.ev, World.setObj] using hx)
    | (left; refine hset _ _ ?_ (by simpa [World.kill, World.ev, World.setObj, World.yieldMsg] using hx); simp)

/-- Who closes a waiting send. -/
theorem execR_closed {w w' : World} {mc : Micro} {ms : List Micro} (h : ExecR w mc w' ms) (r : RegWs w.ws w.wOne w.wAll) {k : Nat}
    {wk : Option Nat} (hx : w'.ws[k]? = some (.closed wk)) :
    w.ws[k]? = some (.closed wk) ∨ (mc = .shutTx ∧ ∃ wk m, w.ws[k]? = some (.active wk m)) := by
  cases hk : w.ws[k]? with
  | some x =>
    rcases execR_evo h r hk with h1 | ⟨_, _, _, _, _, _, -, -, h1⟩ | ⟨_, _, -, h1, -⟩ | ⟨_, m, rfl, h1, h2, -⟩ | ⟨h1, -⟩ <;> rw [hx] at h1 <;> simp at h1
    · subst h1; exact .inl rfl
    · exact .inr ⟨h2, _, _, rfl⟩
  | none =>
    exfalso
    have hl : w.ws.length ≤ k := List.getElem?_eq_none_iff.mp hk
    have len : w'.ws.length = w.ws.length → False := by
      intro e; rw [List.getElem?_eq_none (by omega)] at hx; simp at hx
    cases h
    case critAll_park =>
      rcases append_cases hx with h | h
      · rw [hk] at h; simp at h
      · simp at h
    case critOne_park =>
      rcases append_cases hx with h | h
      · rw [hk] at h; simp at h
      · simp at h
    case recv_all hp _ _ =>
      obtain ⟨q, -, ⟨-, rfl⟩ | ⟨-, hg, rfl⟩ | ⟨-, h, wk, m', q', t, rfl⟩⟩ := popBroadcast_cases r.all hp <;> apply len <;> simp
    case recvBcast_some hp =>
      obtain ⟨q, -, ⟨-, rfl⟩ | ⟨-, hg, rfl⟩ | ⟨-, h, wk, m', q', t, rfl⟩⟩ := popBroadcast_cases r.all hp <;> apply len <;> simp
    case recv_one hp _ _ =>
      obtain ⟨q, -, ⟨-, rfl⟩ | ⟨-, hg, rfl⟩ | ⟨-, h, wk, m', q', t, rfl⟩⟩ := popUnicast_cases r.one hp <;> apply len <;> simp
    case shutTx => rw [shutTx_ws, hk] at hx; simp at hx
    all_goals (apply len; simp [World.kill, World.ev, World.setObj])

end Xtra
