import Verif.Solo
/-! # Receiving: C01, C20, C34 -/

namespace Xtra

theorem prio_le_def (a b : Prio) : a ≤ b ↔ a.ble b = true := Iff.rfl
theorem prio_lt_def (a b : Prio) : a < b ↔ b.ble a = false := by
  show ¬ (b.ble a = true) ↔ _; simp
theorem prio_lt_of_blt {a b : Prio} (h : a.blt b = true) : a < b := by
  rw [prio_lt_def]; exact (Prio.blt_iff.mp h).2
theorem prio_le_trans {a b c : Prio} (h1 : a ≤ b) (h2 : b ≤ c) : a ≤ c := Prio.ble_trans h1 h2
theorem prio_lt_of_le_of_lt {a b c : Prio} (h1 : a ≤ b) (h2 : b < c) : a < c := fun h => h2 (prio_le_trans h h1)

theorem head_max {l : List Msg} {m : Msg} (h : Heap.Ordered Msg.le l) (hm : l.head? = some m) :
    m ∈ l ∧ ∀ x ∈ l, x.prio ≤ m.prio := Heap.peek_max Msg.total h hm

/-- The four outcomes of the receive critical section. -/
theorem recvTry_spec {w w' : World} {r b wk : Nat} {ms : List Micro} (h : ExecR w (.recvTry r b wk) w' ms)
    (hu : UInv w) (hb : BInv w) (hr : w.objs[r]? = some .busy) :
    (∃ m, m ∈ w.uq ∧ (∀ x ∈ w.uq, x.prio ≤ m.prio) ∧ (∀ x ∈ w.items b, x.prio ≤ m.prio) ∧
      w'.yielded r b (.one m) ∧ ms = []) ∨
    (∃ m, m ∈ w.items b ∧ (∀ x ∈ w.items b, x.prio ≤ m.prio) ∧ (∀ x ∈ w.uq, x.prio < m.prio) ∧
      w'.yielded r b (.all m) ∧ ms = []) ∨
    (w.uq = [] ∧ w.items b = [] ∧ w.sc = 0 ∧ w'.yielded r b .shutdown ∧ ms = []) ∨
    (w.uq = [] ∧ w.items b = [] ∧ (w.sc ≠ 0 ∨ w.lag = .late) ∧ w'.objs = w.objs ∧ w'.log = w.log ∧ w'.uq = w.uq ∧ w'.bq = w.bq ∧
      w'.cells = w.cells ++ [.empty none] ∧ w'.wRx = w.wRx ++ [w.cells.length] ∧
      ms = [.recvPoll r b w.cells.length wk]) := by
  have hl : r < w.objs.length := (List.getElem?_eq_some_iff.mp hr).1
  cases h with
  | recv_all hp h1 h2 =>
    rename_i m w1
    right; left
    obtain ⟨a1, a2⟩ := head_max (hb.heap b) h1
    refine ⟨m, a1, a2, ?_, ⟨?_, ?_⟩, rfl⟩
    · intro x hx
      cases hq : w.uq.head? with
      | none => rw [List.head?_eq_none_iff] at hq; rw [hq] at hx; simp at hx
      | some u =>
        obtain ⟨-, a4⟩ := head_max hu.heap hq
        exact prio_lt_of_le_of_lt (a4 x hx) (prio_lt_of_blt (h2 u hq))
    · simp [World.yieldMsg, World.popBroadcast_objs hp, World.ev, hl]
    · simp [World.yieldMsg, World.ev]
  | recv_one hp h1 h2 =>
    rename_i m w1
    left
    obtain ⟨a1, a2⟩ := head_max hu.heap h1
    refine ⟨m, a1, a2, ?_, ⟨?_, ?_⟩, rfl⟩
    · intro x hx
      cases hq : (w.items b).head? with
      | none => rw [List.head?_eq_none_iff] at hq; rw [hq] at hx; simp at hx
      | some u =>
        obtain ⟨-, a4⟩ := head_max (hb.heap b) hq
        exact prio_le_trans (a4 x hx) (h2 u hq)
    · simp [World.yieldMsg, World.popUnicast_objs hp, World.ev, hl]
    · simp [World.yieldMsg, World.ev]
  | recv_shutdown h1 h2 h3 =>
    right; right; left
    exact ⟨h1, h2, h3, ⟨by simp [World.yieldMsg, World.ev, hl], by simp [World.yieldMsg, World.ev]⟩, rfl⟩
  | recv_wait h1 h2 h3 =>
    right; right; right
    exact ⟨h1, h2, h3, rfl, rfl, rfl, rfl, rfl, rfl, rfl⟩

/-- An undisturbed run of the receive critical section and what follows. -/
theorem runs_recvTry {cap : Option Nat} {w w' : World} {r b wk : Nat} (h : Solo cap w [.recvTry r b wk])
    (hr : Runs w [.recvTry r b wk] w') :
    (∃ m, m ∈ w.uq ∧ (∀ x ∈ w.uq, x.prio ≤ m.prio) ∧ (∀ x ∈ w.items b, x.prio ≤ m.prio) ∧
      w'.yielded r b (.one m)) ∨
    (∃ m, m ∈ w.items b ∧ (∀ x ∈ w.items b, x.prio ≤ m.prio) ∧ (∀ x ∈ w.uq, x.prio < m.prio) ∧
      w'.yielded r b (.all m)) ∨
    (w.uq = [] ∧ w.items b = [] ∧ w.sc = 0 ∧ w'.yielded r b .shutdown) ∨
    (w.uq = [] ∧ w.items b = [] ∧ w.sc ≠ 0 ∧ w'.keptWaiting r b wk) := by
  obtain ⟨w1, ns, he, hs, hr1⟩ := h.exec hr
  have hbusy : w.objs[r]? = some .busy := by have := h.wf; simpa [WF] using this
  rcases recvTry_spec he h.uInv h.bInv hbusy with
    ⟨m, h1, h2, h3, h4, rfl⟩ | ⟨m, h1, h2, h3, h4, rfl⟩ | ⟨h1, h2, h3, h4, rfl⟩ |
    ⟨h1, h2, h3, h4, h5, h6, h7, h8, h9, rfl⟩
  · have := runs_nil hr1; subst this; exact .inl ⟨m, h1, h2, h3, h4⟩
  · have := runs_nil hr1; subst this; exact .inr (.inl ⟨m, h1, h2, h3, h4⟩)
  · have := runs_nil hr1; subst this; exact .inr (.inr (.inl ⟨h1, h2, h3, h4⟩))
  · obtain ⟨w2, ns2, he2, hs2, hr2⟩ := hs.exec hr1
    have hc : w1.cells[w.cells.length]? = some (.empty none) := by rw [h8]; simp
    have hl : r < w1.objs.length := by rw [h4]; exact (List.getElem?_eq_some_iff.mp hbusy).1
    refine .inr (.inr (.inr ⟨h1, h2, h.wait (by simp [mShutRx]) h3, ?_⟩))
    cases he2 with
    | recvPoll_empty =>
      have := runs_nil hr2; subst this
      exact ⟨⟨w.cells.length, by simp [World.setObj, World.ev, hl]⟩, by simp [World.ev]⟩
    | recvPoll_one h => rw [hc] at h; simp at h
    | recvPoll_shutdown h => rw [hc] at h; simp at h
    | recvPoll_bcast h => rw [hc] at h; simp at h
    | recvPoll_panic h => rw [hc] at h; simp at h

/-- **C01.** A freshly created receive future, polled while no other call is in progress (in any state
reachable by any interleaving): it yields a unicast message that is maximal among all messages queued
for its mailbox; or a broadcast message that is maximal and strictly above every unicast one; or the
shutdown notice, and then both queues are empty and no strong address exists; or it waits, and then
both are empty and a strong address exists. -/
theorem C01_highest_priority_first {cap : Option Nat} {w w' : World} {r b wk : Nat} (hq : Quiet cap w)
    (hr : w.objs[r]? = some (.recv b .new)) (hd : Does w (.pollRecv r wk) w') :
    (∃ m, m ∈ w.uq ∧ (∀ x ∈ w.uq, x.prio ≤ m.prio) ∧ (∀ x ∈ w.items b, x.prio ≤ m.prio) ∧
      w'.yielded r b (.one m)) ∨
    (∃ m, m ∈ w.items b ∧ (∀ x ∈ w.items b, x.prio ≤ m.prio) ∧ (∀ x ∈ w.uq, x.prio < m.prio) ∧
      w'.yielded r b (.all m)) ∨
    (w.uq = [] ∧ w.items b = [] ∧ w.sc = 0 ∧ w'.yielded r b .shutdown) ∨
    (w.uq = [] ∧ w.items b = [] ∧ w.sc ≠ 0 ∧ w'.keptWaiting r b wk) := by
  obtain ⟨w1, ms, hc, hm⟩ := hd
  have hc0 := hc
  simp only [Xtra.call, hr] at hc
  simp at hc; obtain ⟨rfl, rfl⟩ := hc
  have := runs_recvTry (hq.call hc0) hm
  exact this

/-- **C01**, in the presence of any number of concurrent calls: the same four outcomes for the atomic
step in which a receive future looks into the queues (in the fourth it registers as waiting and goes on
to poll its registration, see C20/C21 for what it observes then). It registers only if a strong address exists, or the drop of the last one
is still under way and will find it registered. -/
theorem C01_highest_priority_first_concurrent {cap : Option Nat} {s s' : Sys} {t r b wk : Nat}
    {rest : List Micro} (h : Reachable cap s) (ht : s.th[t]? = some (.recvTry r b wk :: rest))
    (hs : s.step (.exec t) = some s') :
    (∃ m, m ∈ s.w.uq ∧ (∀ x ∈ s.w.uq, x.prio ≤ m.prio) ∧ (∀ x ∈ s.w.items b, x.prio ≤ m.prio) ∧
      s'.w.yielded r b (.one m)) ∨
    (∃ m, m ∈ s.w.items b ∧ (∀ x ∈ s.w.items b, x.prio ≤ m.prio) ∧ (∀ x ∈ s.w.uq, x.prio < m.prio) ∧
      s'.w.yielded r b (.all m)) ∨
    (s.w.uq = [] ∧ s.w.items b = [] ∧ s.w.sc = 0 ∧ s'.w.yielded r b .shutdown) ∨
    (s.w.uq = [] ∧ s.w.items b = [] ∧ (s.w.sc ≠ 0 ∨ ∃ ms ∈ s.th, .shutRx ∈ ms) ∧ s'.w.log = s.w.log ∧
      s'.th[t]? = some (.recvPoll r b s.w.cells.length wk :: rest) ∧
      s'.w.cells[s.w.cells.length]? = some (.empty none) ∧ s.w.cells.length ∈ s'.w.wRx) := by
  have hbusy : s.w.objs[r]? = some .busy := by have := wf_reachable h ht; simpa [WF] using this
  have hlt : t < s.th.length := (List.getElem?_eq_some_iff.mp ht).1
  simp only [Sys.step, ht] at hs
  simp at hs; subst hs
  rcases recvTry_spec (exec_rel s.w (.recvTry r b wk)) (uInv_reachable h) (bInv_reachable h) hbusy with
    ⟨m, h1, h2, h3, h4, -⟩ | ⟨m, h1, h2, h3, h4, -⟩ | ⟨h1, h2, h3, h4, -⟩ |
    ⟨h1, h2, h3, h4, h5, h6, h7, h8, h9, h10⟩
  · exact .inl ⟨m, h1, h2, h3, h4⟩
  · exact .inr (.inl ⟨m, h1, h2, h3, h4⟩)
  · exact .inr (.inr (.inl ⟨h1, h2, h3, h4⟩))
  · exact .inr (.inr (.inr ⟨h1, h2, wait_reachable h h3, h5, by simp [h10, hlt], by simp [h8], by simp [h9]⟩))

/-- The world in which the C01/C20/C34 examples start: capacity 2, one unicast message of priority 5, one
broadcast of priority 7, one unicast of priority 0, a fresh receive future (object 5). -/
def exRecvSched : List Act :=
  [.call (.send 0), .call (.setPrio 2 5), .call (.broadcast 0), .call (.setPrio 3 7), .call (.send 0),
   .call (.pollSend 2 0), .exec 5, .exec 5, .exec 5, .exec 5, .exec 5,
   .call (.pollSend 3 0), .exec 6, .exec 6, .exec 6, .exec 6, .exec 6,
   .call (.pollSend 4 0), .exec 7, .exec 7, .exec 7, .exec 7, .exec 7,
   .call (.next 1)]

/-- Hypotheses of C01 are met with non-empty queues, and the broadcast outcome occurs.
Meets the hypotheses of `C01_highest_priority_first`, `C01_highest_priority_first_concurrent`, `C20_one_poll_iff_work`. -/
example : ∃ w w', Quiet (some 2) w ∧ w.objs[5]? = some (.recv 0 .new) ∧ w.uq.length = 2 ∧
    (w.items 0).length = 1 ∧ Does w (.pollRecv 5 9) w' ∧ w'.yielded 5 0 (.all ⟨1, .valued 7⟩) := by
  refine ⟨_, _, ⟨_, Reachable.run .init (as := exRecvSched) rfl, by decide⟩, rfl, rfl, rfl,
    ⟨_, _, rfl, .cons .nil⟩, rfl, rfl⟩

/-- A receive whose load of the counter is out of date: the last address is gone but its drop has not finished; the receive registers, and the
drop then finds it and tells it. Meets the fourth outcome of `C01_highest_priority_first_concurrent` with no strong address left. -/
example : ∃ s s' s'', Reachable none s ∧ s.w.sc = 0 ∧ s.th[3]? = some [.recvTry 2 0 9] ∧ s.step (.exec 3) = some s' ∧
    s'.w.wRx = [0] ∧ s'.run [.exec 3, .exec 1, .exec 1, .call (.pollRecv 2 9), .exec 4] = some s'' ∧ s''.w.yielded 2 0 .shutdown :=
  ⟨_, _, _, Reachable.run .init (as := [.call (.next 1), .call (.dropAddr 0), .exec 1, .call .flipLag, .call (.pollRecv 2 9)]) rfl,
    rfl, rfl, rfl, rfl, rfl, rfl, rfl⟩

theorem runs_recvPoll {cap : Option Nat} {w w' : World} {r b c wk : Nat} (h : Solo cap w [.recvPoll r b c wk])
    (hr : Runs w [.recvPoll r b c wk] w') :
    (∃ x, w.cells[c]? = some (.empty x) ∧ w'.keptWaiting r b wk) ∨
    (∃ m x, w.cells[c]? = some (.full (.newMessage m) x) ∧ w'.yielded r b (.one m)) ∨
    (∃ x, w.cells[c]? = some (.full .shutdown x) ∧ w'.yielded r b .shutdown) ∨
    (∃ x, w.cells[c]? = some (.full .newBroadcast x) ∧
      ((∃ m, m ∈ w.items b ∧ (∀ x ∈ w.items b, x.prio ≤ m.prio) ∧ w'.yielded r b (.all m)) ∨
       (w.items b = [] ∧
        ((∃ m, m ∈ w.uq ∧ (∀ x ∈ w.uq, x.prio ≤ m.prio) ∧ w'.yielded r b (.one m)) ∨
         (w.uq = [] ∧ w.sc = 0 ∧ w'.yielded r b .shutdown) ∨
         (w.uq = [] ∧ w.sc ≠ 0 ∧ w'.keptWaiting r b wk))))) := by
  obtain ⟨w1, ns, he, hs, hr1⟩ := h.exec hr
  have hwf := h.wf
  have hbusy : w.objs[r]? = some .busy := by simp [WF] at hwf; exact hwf.1
  have hl : r < w.objs.length := (List.getElem?_eq_some_iff.mp hbusy).1
  cases he with
  | recvPoll_empty hc =>
    have := runs_nil hr1; subst this
    exact .inl ⟨_, hc, ⟨c, by simp [World.setObj, World.ev, hl]⟩, by simp [World.ev]⟩
  | recvPoll_one hc =>
    have := runs_nil hr1; subst this
    exact .inr (.inl ⟨_, _, hc, by simp [World.yieldMsg, World.ev, hl], by simp [World.yieldMsg, World.ev]⟩)
  | recvPoll_shutdown hc =>
    have := runs_nil hr1; subst this
    exact .inr (.inr (.inl ⟨_, hc, by simp [World.yieldMsg, World.ev, hl], by simp [World.yieldMsg, World.ev]⟩))
  | recvPoll_panic hc =>
    obtain ⟨x, h1, h2, h3⟩ := hwf.2; rw [h1] at hc; simp [h2, h3] at hc
  | recvPoll_bcast hc =>
    refine .inr (.inr (.inr ⟨_, hc, ?_⟩))
    obtain ⟨w2, ns2, he2, hs2, hr2⟩ := hs.exec hr1
    cases he2 with
    | recvBcast_some hp =>
      rename_i m w3
      left
      have := runs_nil hr2; subst this
      obtain ⟨q, hq, -⟩ := popBroadcast_cases hs.regWs.all hp
      obtain ⟨a1, a2⟩ := Heap.pop_max Msg.total (hs.bInv.heap b) hq
      refine ⟨m, a1, a2, ?_, by simp [World.yieldMsg, World.ev]⟩
      simp [World.yieldMsg, World.ev, World.popBroadcast_objs hp, hl]
    | recvBcast_none hp =>
      right
      have hi := popBroadcast_none hp
      refine ⟨hi, ?_⟩
      rcases runs_recvTry hs2 hr2 with ⟨m, h1, h2, h3, h4⟩ | ⟨m, h1, h2, h3, h4⟩ | ⟨h1, h2, h3, h4⟩ | ⟨h1, h2, h3, h4⟩
      · exact .inl ⟨m, h1, h2, h4⟩
      · have : m ∈ w.items b := h1
        have hi' : w.items b = [] := hi
        rw [hi'] at this; simp at this
      · exact .inr (.inl ⟨h1, h3, h4⟩)
      · exact .inr (.inr ⟨h1, h3, h4⟩)

theorem own_cell_mem {w : World} {r b c : Nat} (h : w.objs[r]? = some (.recv b (.waiting c))) :
    0 < sumBy (oCell c) w.objs := by
  have := le_sumBy (oCell c) h
  simp [oCell, rCell] at this; omega

/-- A registered receiver that has not been notified is in the waiting list when nothing is going on. -/
theorem Quiet.waiting {cap : Option Nat} {w : World} (hq : Quiet cap w) {r b c : Nat} {x : Option Nat}
    (hr : w.objs[r]? = some (.recv b (.waiting c))) (hc : w.cells[c]? = some (.empty x)) :
    c ∈ w.wRx ∧ w.uq = [] ∧ w.items b = [] ∧ w.sc ≠ 0 := by
  have h1 := hq.reg1 c
  have hm : c ∈ w.wRx := by
    have h2 := h1.1
    simp [emptyL, hc] at h2
    exact h2
  obtain ⟨th, hr', ht⟩ := hq.tot0
  have hi := iInv_reachable hr'
  refine ⟨hm, ?_, hi.ob r b c hr hm, ?_⟩
  · cases hu : w.uq with
    | nil => rfl
    | cons a l =>
      have := hq.uInv.idle (by rw [hu]; simp)
      rw [this] at hm; simp at hm
  · rcases hi.rx (by intro he; simp only at he; rw [he] at hm; simp at hm) with h | h
    · simp only at h; omega
    · rw [ht] at h; simp at h

/-- **C20.** A receive future, new or waiting, polled while no other call is in progress completes in
that single poll exactly if a message is queued for its mailbox, or a message was handed to it, or no
strong address exists; otherwise it stays pending. -/
theorem C20_one_poll_iff_work {cap : Option Nat} {w w' : World} {r b wk : Nat} {st : Recv} (hq : Quiet cap w)
    (hr : w.objs[r]? = some (.recv b st)) (hd : Does w (.pollRecv r wk) w') :
    let work := w.uq ≠ [] ∨ w.items b ≠ [] ∨ w.sc = 0 ∨
      ∃ c m x, st = .waiting c ∧ w.cells[c]? = some (.full (.newMessage m) x)
    (work → ∃ am, w'.yielded r b am) ∧ (¬ work → w'.keptWaiting r b wk) := by
  intro work
  obtain ⟨w1, ms, hc, hm⟩ := hd
  have hc0 := hc
  cases st with
  | new =>
    simp only [Xtra.call, hr] at hc
    simp at hc; obtain ⟨rfl, rfl⟩ := hc
    rcases runs_recvTry (hq.call hc0) hm with ⟨m, h1, h2, h3, h4⟩ | ⟨m, h1, h2, h3, h4⟩ | ⟨h1, h2, h3, h4⟩ | ⟨h1, h2, h3, h4⟩
    · refine ⟨fun _ => ⟨_, h4⟩, fun hn => absurd (.inl ?_) hn⟩
      intro he; have h1' : m ∈ w.uq := h1; rw [he] at h1'; simp at h1'
    · refine ⟨fun _ => ⟨_, h4⟩, fun hn => absurd (.inr (.inl ?_)) hn⟩
      intro he; have : m ∈ w.items b := h1; rw [he] at this; simp at this
    · exact ⟨fun _ => ⟨_, h4⟩, fun hn => absurd (.inr (.inr (.inl h3))) hn⟩
    · refine ⟨fun hw => ?_, fun _ => h4⟩
      rcases hw with h | h | h | ⟨c, m, x, h, -⟩
      · exact absurd h1 h
      · exact absurd h2 h
      · exact absurd h h3
      · simp at h
  | waiting c =>
    simp only [Xtra.call, hr] at hc
    simp at hc; obtain ⟨rfl, rfl⟩ := hc
    rcases runs_recvPoll (hq.call hc0) hm with ⟨x, h1, h2⟩ | ⟨m, x, h1, h2⟩ | ⟨x, h1, h2⟩ | ⟨x, h1, h2⟩
    · obtain ⟨a1, a2, a3, a4⟩ := hq.waiting hr h1
      refine ⟨fun hw => ?_, fun _ => h2⟩
      rcases hw with h | h | h | ⟨c', m, x', h, h'⟩
      · exact absurd a2 h
      · exact absurd a3 h
      · exact absurd h a4
      · simp at h; subst h; have h1' : w.cells[c]? = _ := h1; rw [h1'] at h'; simp at h'
    · exact ⟨fun _ => ⟨_, h2⟩, fun hn => absurd (.inr (.inr (.inr ⟨c, m, x, rfl, h1⟩))) hn⟩
    · refine ⟨fun _ => ⟨_, h2⟩, fun hn => absurd (.inr (.inr (.inl ?_))) hn⟩
      obtain ⟨th, hr', ht⟩ := hq.tot0
      exact (iInv_reachable hr').sh c x h1
    · rcases h2 with ⟨m, h3, -, h4⟩ | ⟨h3, ⟨m, h4, -, h5⟩ | ⟨h4, h5, h6⟩ | ⟨h4, h5, h6⟩⟩
      · refine ⟨fun _ => ⟨_, h4⟩, fun hn => absurd (.inr (.inl ?_)) hn⟩
        intro he; have h3' : m ∈ w.items b := h3; rw [he] at h3'; simp at h3'
      · refine ⟨fun _ => ⟨_, h5⟩, fun hn => absurd (.inl ?_) hn⟩
        intro he; have h3' : m ∈ w.uq := h4; rw [he] at h3'; simp at h3'
      · exact ⟨fun _ => ⟨_, h6⟩, fun hn => absurd (.inr (.inr (.inl h5))) hn⟩
      · refine ⟨fun hw => ?_, fun _ => h6⟩
        have hi : w.items b = [] := h3
        rcases hw with h | h | h | ⟨c', m, x', h, h'⟩
        · exact absurd h4 h
        · exact absurd hi h
        · exact absurd h h5
        · simp at h; subst h; have h1' : w.cells[c]? = _ := h1; rw [h1'] at h'; simp at h'

end Xtra
