import Verif.PropsPark
/-! # C12 and C22: idle receivers -/

set_option linter.unusedSimpArgs false

namespace Xtra

/-! ### registration order -/

structure RxSorted (w : World) : Prop where
  sorted : w.wRx.Pairwise (· < ·)
  lt : ∀ c ∈ w.wRx, c < w.cells.length

theorem notifyAll_len (q : List Nat) (k : Ctrl) (cells : List RxCell) :
    (q.foldl (fun cs c => notifyCell cs c k) cells).length = cells.length := by
  induction q generalizing cells with
  | nil => rfl
  | cons d q ih => rw [List.foldl_cons, ih, notifyCell_len]

theorem RxSorted.sub {w w' : World} (h : RxSorted w) (hs : w'.wRx.Sublist w.wRx) (hl : w.cells.length ≤ w'.cells.length) :
    RxSorted w' where
  sorted := h.sorted.sublist hs
  lt := fun c hc => Nat.lt_of_lt_of_le (h.lt c (hs.subset hc)) hl

theorem popBroadcast_rx {w w' : World} {b : Nat} {m : Msg} (r : RegWs w.ws w.wOne w.wAll)
    (hp : w.popBroadcast b = some (m, w')) : w'.wRx.Sublist w.wRx ∧ w'.cells.length = w.cells.length := by
  obtain ⟨q, -, ⟨-, rfl⟩ | ⟨-, hg, rfl⟩ | ⟨-, h, wk, m', q', t, rfl⟩⟩ := popBroadcast_cases r.all hp
  · simp
  · simp
  · refine ⟨by simp [World.sendBroadcast], ?_⟩
    simp [World.sendBroadcast, notifyAll_len]

theorem execR_rxSorted {w w' : World} {mc : Micro} {ms : List Micro} (h : ExecR w mc w' ms)
    (r : RegWs w.ws w.wOne w.wAll) (k : RxSorted w) : RxSorted w' := by
  cases h
  case recv_all hp _ _ => have := popBroadcast_rx r hp; exact k.sub this.1 (Nat.le_of_eq this.2.symm)
  case recvBcast_some hp =>
    have := popBroadcast_rx r hp; exact k.sub this.1 (by simp [World.yieldMsg, World.ev, this.2])
  case recv_one hp _ _ => exact k.sub (by simp [World.popUnicast_wRx hp]) (by simp [World.popUnicast_cells hp])
  case critOne_hand h1 h2 h3 h4 =>
    refine k.sub ?_ (by simp)
    simp only []; rw [h2]
    exact (List.sublist_cons_self ..).trans (List.sublist_append_right ..)
  case requeue_hand h2 h3 h4 =>
    refine k.sub ?_ (by simp)
    simp only []; rw [h2]
    exact (List.sublist_cons_self ..).trans (List.sublist_append_right ..)
  case critAll_sent => exact k.sub (by simp [World.sendBroadcast]) (by simp [World.sendBroadcast, notifyAll_len])
  case bcastShutdown => exact k.sub (by simp [World.sendBroadcast]) (by simp [World.sendBroadcast, notifyAll_len])
  case recv_wait =>
    refine ⟨?_, ?_⟩
    · rw [List.pairwise_append]
      refine ⟨k.sorted, by simp, fun a ha b hb => ?_⟩
      simp at hb; subst hb; exact k.lt a ha
    · intro c hc
      simp at hc ⊢
      rcases hc with hc | rfl
      · have := k.lt c hc; omega
      · omega
  case notifyShut => exact k.sub (List.Sublist.refl _) (by simp [notifyCell_len])
  all_goals exact k.sub (by simp) (by simp)

theorem callR_rx {w w' : World} {c : Call} {ms : List Micro} (h : CallR w c w' ms) : w'.wRx = w.wRx ∧ w'.cells = w.cells := by
  cases h <;> simp

theorem rxSorted_reachable {cap : Option Nat} {s : Sys} (h : Reachable cap s) : RxSorted s.w := by
  refine Reachable.inv (P := fun s => RxSorted s.w) ?_ ?_ ?_ h
  · exact ⟨by simp [init], by simp [init]⟩
  · intro s c w' ms _ ih hc
    have := callR_rx hc
    exact ih.sub (by rw [this.1]; exact List.Sublist.refl _) (by rw [this.2]; exact Nat.le_refl _)
  · intro s t mc rest w' ms hr ih ht he
    exact execR_rxSorted he (regWs_reachable hr) ih

theorem first_least {cells : List RxCell} {q pre rest : List Nat} {c : Nat} (hs : q.Pairwise (· < ·))
    (hq : q = pre ++ c :: rest) (hn : noneEmpty cells pre) {c' : Nat} {x : Option Nat} (hm : c' ∈ q)
    (hc : cells[c']? = some (.empty x)) : c ≤ c' := by
  subst hq
  rw [List.pairwise_append] at hs
  rcases List.mem_append.mp hm with h | h
  · exact absurd hc (hn c' h x)
  · rcases List.mem_cons.mp h with rfl | h
    · exact Nat.le_refl _
    · exact Nat.le_of_lt ((List.pairwise_cons.mp hs.2.1).1 _ h)

/-! ### C22 -/

/-- **C22.** Tickets: the registration number a receive future gets when it starts to wait is larger than that of
every registration made before, so a smaller number means having waited longer. -/
theorem C22_tickets_increase {cap : Option Nat} {s s' : Sys} {t r b wk : Nat} {rest : List Micro} (h : Reachable cap s)
    (ht : s.th[t]? = some (.recvTry r b wk :: rest)) (hs : s.step (.exec t) = some s')
    {c : Nat} (hw : s'.th[t]? = some (.recvPoll r b c wk :: rest)) :
    s'.w.cells[c]? = some (.empty none) ∧ (∀ c' ∈ s.w.wRx, c' < c) ∧ s'.w.wRx = s.w.wRx ++ [c] ∧
    ∀ r' b' c' : Nat, s.w.objs[r']? = some (.recv b' (.waiting c')) → c' < c := by
  have hlt : t < s.th.length := (List.getElem?_eq_some_iff.mp ht).1
  have he := exec_rel s.w (.recvTry r b wk)
  simp only [Sys.step, ht] at hs
  simp at hs; subst hs
  simp only at hw ⊢
  generalize (exec s.w (.recvTry r b wk)).1 = w' at *
  generalize (exec s.w (.recvTry r b wk)).2 = ms at *
  simp [hlt] at hw
  cases he with
  | recv_all => simp at hw
  | recv_one => simp at hw
  | recv_shutdown => simp at hw
  | recv_wait =>
    simp at hw; subst hw
    refine ⟨by simp, fun c' hc' => (rxSorted_reachable h).lt c' hc', rfl, fun r' b' c' ho => ?_⟩
    obtain ⟨⟨x, hx, -⟩, -⟩ := owns_cell (own_reachable h) ho
    exact (List.getElem?_eq_some_iff.mp hx).1

/-- **C22**, all interleavings: in the atomic step in which a send (or a cancelled receive putting a message back)
offers a message to the receivers while at least one registered receiver is still waiting, the message goes to
the one registered first; registrations that were cancelled or already served are skipped. -/
theorem C22_first_come_first_served {cap : Option Nat} {s s' : Sys} {t : Nat} {mc : Micro} {m : Msg} {rest : List Micro}
    (h : Reachable cap s) (ht : s.th[t]? = some (mc :: rest))
    (hmc : (∃ f md rc wk, md ≠ .bcast ∧ mc = .sendCrit f md m rc wk) ∨ mc = .requeue m)
    (hs : s.step (.exec t) = some s') (hw : ∃ c ∈ s.w.wRx, ∃ x, s.w.cells[c]? = some (.empty x)) :
    ∃ c ∈ s.w.wRx, ∃ x, s.w.cells[c]? = some (.empty x) ∧
      (∀ c' ∈ s.w.wRx, ∀ x', s.w.cells[c']? = some (.empty x') → c ≤ c') ∧
      s'.w.cells[c]? = some (.full (.newMessage m) x) ∧ (∀ c', c' ≠ c → s'.w.cells[c']? = s.w.cells[c']?) ∧
      s'.w.uq = s.w.uq := by
  have hw' : ¬ noneEmpty s.w.cells s.w.wRx := not_noneEmpty.mpr hw
  have he := exec_rel s.w mc
  have hsrt := (rxSorted_reachable h).sorted
  simp only [Sys.step, ht] at hs
  simp at hs; subst hs
  simp only
  generalize (exec s.w mc).1 = w' at *
  generalize (exec s.w mc).2 = ms at *
  rcases hmc with ⟨f, md, rc, wk, hmd, rfl⟩ | rfl
  · cases he with
    | critAll_park => exact absurd rfl hmd
    | critAll_sent => exact absurd rfl hmd
    | critOne_park _ h1 _ => exact absurd h1 hw'
    | critOne_queue _ h1 _ => exact absurd h1 hw'
    | critOne_hand _ h1 h2 h3 =>
      have hl := (List.getElem?_eq_some_iff.mp h3).1
      refine ⟨_, by rw [h1]; simp, _, h3, fun c' hc' x' hx' => first_least hsrt h1 h2 hc' hx', by simp [hl], ?_, rfl⟩
      intro c' hne; simp [List.getElem?_set_ne (Ne.symm hne)]
  · cases he with
    | requeue_queue h1 => exact absurd h1 hw'
    | requeue_hand h1 h2 h3 =>
      have hl := (List.getElem?_eq_some_iff.mp h3).1
      refine ⟨_, by rw [h1]; simp, _, h3, fun c' hc' x' hx' => first_least hsrt h1 h2 hc' hx', by simp [hl], ?_, rfl⟩
      intro c' hne; simp [List.getElem?_set_ne (Ne.symm hne)]

/-- **C22.** The same for a whole undisturbed first poll of a send: among all idle receive futures, the one that
has been waiting longest is handed the message. -/
theorem C22_send_serves_longest_waiting {cap : Option Nat} {w w' : World} {f mid wk : Nat} {md : Mode} {m : Msg} {rc : Rc}
    (hq : Quiet cap w) (hmd : md ≠ .bcast) (ho : w.objs[f]? = some (.send md mid (.new m rc)))
    (hrcv : w.rcv ≠ 0) (hsc : w.sc ≠ 0) (hd : Does w (.pollSend f wk) w') (hi : ∃ r b, w.idleReceiver r b) :
    ∃ (r b c : Nat) (x : Option Nat), w.objs[r]? = some (.recv b (.waiting c)) ∧ w.cells[c]? = some (.empty x) ∧
      (∀ (r' b' c' : Nat) (x' : Option Nat), w.objs[r']? = some (.recv b' (.waiting c')) → w.cells[c']? = some (.empty x') → c ≤ c') ∧
      w'.objs[r]? = some (.recv b (.waiting c)) ∧ w'.cells[c]? = some (.full (.newMessage m) x) := by
  obtain ⟨th0, hre, hth⟩ := id hq
  obtain ⟨hid, -, -⟩ := held_unsent hre ho
  subst hid
  have hresp := resp_unsent hre hmd ho
  have hsrt := (rxSorted_reachable hre).sorted
  have hidle := hq.idle_iff.mp hi
  obtain ⟨w1, ms, hc, hm⟩ := hd
  have hc0 := hc
  simp only [Xtra.call, ho] at hc
  simp at hc; obtain ⟨rfl, rfl⟩ := hc
  rcases runs_sendNew (hq.call hc0) hm with ⟨h1, -⟩ | ⟨-, -, hs, hr⟩
  · rcases h1 with h1 | h1
    · exact absurd h1 hrcv
    · exact absurd h1 hsc
  obtain ⟨w2, ns, he, hs2, hr2⟩ := hs.exec hr
  cases he with
  | critAll_park => exact absurd rfl hmd
  | critAll_sent => exact absurd rfl hmd
  | critOne_park _ h1 _ => exact absurd h1 hidle
  | critOne_queue _ h1 _ => exact absurd h1 hidle
  | critOne_hand hmd' h1 h2 h3 =>
    rename_i pre c rest x
    have h3' : w.cells[c]? = some (.empty x) := h3
    have hl := (List.getElem?_eq_some_iff.mp h3').1
    obtain ⟨r, b, hro⟩ := hq.owner (c := c) (by simp [cellLive, h3'])
    have hne : f ≠ r := by rintro rfl; rw [ho] at hro; simp at hro
    obtain ⟨w3, a1, a2, a3, a4⟩ := runs_dropTx hs2 hr2
    obtain ⟨b1, b2, b3, b4, b5⟩ := runs_sendFin hmd a3 a4 (fun _ => by rw [a1.resp]; exact hresp)
    refine ⟨r, b, c, x, hro, h3', fun r' b' c' x' hr' hc' => ?_, ?_, ?_⟩
    · exact first_least hsrt h1 h2 (hq.waiting hr' hc').1 hc'
    · rw [b1, a1.objs]; simp [World.setObj, List.getElem?_set_ne hne, hro]
    · rw [b3]
      rcases a1.cells c (.full (.newMessage m) x) (by simp [hl]) with h | ⟨_, h, -⟩
      · exact h
      · simp at h

/-- Two receivers wait, then the first is cancelled and a third comes: a send serves the second. -/
def exIdleSched : List Act :=
  [.call (.next 1), .call (.pollRecv 2 0), .exec 1, .exec 1, .call (.next 1), .call (.pollRecv 3 1), .exec 3, .exec 3,
   .call (.dropRecv 2), .exec 4, .exec 4, .exec 4, .exec 4, .call (.next 1), .call (.pollRecv 4 2), .exec 6, .exec 6, .call (.send 0)]

/-- Meets the hypotheses of `C22_send_serves_longest_waiting`, `C22_no_message_while_idle`. -/
example : ∃ w w', Quiet none w ∧ w.objs[5]? = some (.send .ret 0 (.new ⟨0, .valued 0⟩ .strong)) ∧ w.rcv ≠ 0 ∧ w.sc ≠ 0 ∧
    w.objs[2]? = some .gone ∧ w.idleReceiver 3 0 ∧ w.idleReceiver 4 0 ∧ w.wRx = [0, 1, 2] ∧ Does w (.pollSend 5 7) w' ∧
    w'.objs[3]? = some (.recv 0 (.waiting 1)) ∧ w'.cells[1]? = some (.full (.newMessage ⟨0, .valued 0⟩) (some 1)) := by
  refine ⟨_, _, ⟨_, Reachable.run .init (as := exIdleSched) rfl, by decide⟩, rfl, by decide, by decide, rfl, ⟨1, some 1, rfl, rfl⟩,
    ⟨2, some 2, rfl, rfl⟩, rfl, ⟨_, _, rfl, .cons (.cons (.cons (.cons (.cons .nil))))⟩, rfl, rfl⟩

/-- The hypotheses of the two step theorems are met: the registering step of the third receive, and the deciding
step of the send. Meets the hypotheses of `C22_tickets_increase`. -/
example : ∃ s s', Reachable none s ∧ s.th[6]? = some [.recvTry 4 0 2] ∧ s.w.wRx = [0, 1] ∧ s.step (.exec 6) = some s' ∧
    s'.th[6]? = some [.recvPoll 4 0 2 2] :=
  ⟨_, _, Reachable.run .init (as := exIdleSched.take 15) rfl, rfl, rfl, rfl, rfl⟩
/-- Meets the hypotheses of `C22_first_come_first_served`. -/
example : ∃ s s', Reachable none s ∧ s.th[8]? = some [.sendCrit 5 .ret ⟨0, .valued 0⟩ .strong 7] ∧ s.w.wRx = [0, 1, 2] ∧
    s.w.cells[1]? = some (.empty (some 1)) ∧ s.step (.exec 8) = some s' :=
  ⟨_, _, Reachable.run .init (as := exIdleSched ++ [.call (.pollSend 5 7), .exec 8, .exec 8]) rfl, rfl, rfl, rfl, rfl⟩

/-- **C22.** No message is queued for a receiver that waits idle, when no call is in progress. -/
theorem C22_no_message_while_idle {cap : Option Nat} {w : World} {r b : Nat} (hq : Quiet cap w) (hi : w.idleReceiver r b) :
    w.uq = [] ∧ w.items b = [] := by
  obtain ⟨c, x, h1, h2⟩ := hi
  have := hq.waiting h1 h2
  exact ⟨this.2.1, this.2.2.1⟩

theorem tot_pos_mem {α : Type _} {g : α → Nat} {th : List (List α)} (h : 0 < tot g th) : ∃ x ∈ th, ∃ m ∈ x, 0 < g m := by
  obtain ⟨x, hx, h1⟩ := (sumBy_pos _).mp h
  obtain ⟨m, hm, h2⟩ := (sumBy_pos _).mp h1
  exact ⟨x, hx, m, hm, h2⟩

/-- An idle receiver in any state: either registered, or about to be told that the channel shut down. -/
theorem idle_reg {cap : Option Nat} {s : Sys} (h : Reachable cap s) {r b c : Nat} {x : Option Nat}
    (h2 : s.w.cells[c]? = some (.empty x)) :
    c ∈ s.w.wRx ∨ ∃ ms ∈ s.th, .notifyShut c ∈ ms := by
  have h1 := (reg1_reachable h c).1
  by_cases hm : c ∈ s.w.wRx
  · exact .inl hm
  · right
    simp [emptyL, h2] at h1
    have : 0 < tot (mNs c) s.th := by
      have h3 : s.w.wRx.count c = 0 := List.count_eq_zero.mpr hm
      omega
    obtain ⟨ms, hms, mc, hmc, hp⟩ := tot_pos_mem this
    refine ⟨ms, hms, ?_⟩
    cases mc <;> simp [mNs] at hp
    rename_i c'
    have : c' = c := by
      by_cases hh : c' = c
      · exact hh
      · simp [is1, hh] at hp
    subst this; exact hmc

/-- **C22**, all interleavings: while a receiver waits idle, nothing is queued for it, unless all strong addresses are
gone and a running call is about to notify this very receiver of that. -/
theorem C22_no_message_while_idle_concurrent {cap : Option Nat} {s : Sys} {r b : Nat} (h : Reachable cap s)
    (hi : s.w.idleReceiver r b) :
    (s.w.uq = [] ∧ s.w.items b = []) ∨
    (s.w.sc = 0 ∧ ∃ c, s.w.objs[r]? = some (.recv b (.waiting c)) ∧ ∃ ms ∈ s.th, .notifyShut c ∈ ms) := by
  obtain ⟨c, x, h1, h2⟩ := hi
  rcases idle_reg (r := r) (b := b) h h2 with hm | ⟨ms, hms, hn⟩
  · left
    refine ⟨?_, (iInv_reachable h).ob r b c h1 hm⟩
    cases hu : s.w.uq with
    | nil => rfl
    | cons a l =>
      have := (uInv_reachable h).idle (by rw [hu]; simp)
      rw [this] at hm; simp at hm
  · exact .inr ⟨(iInv_reachable h).ns ms hms c hn, c, h1, ms, hms, hn⟩

/-! ### C12 -/

/-- **C12.** When the last strong reference is gone and no call is in progress, no receive future waits idle. -/
theorem C12_no_idle_left {cap : Option Nat} {w : World} (hq : Quiet cap w) (h0 : w.strongRefs = 0) :
    ¬ ∃ r b, w.idleReceiver r b := by
  rintro ⟨r, b, c, x, h1, h2⟩
  have := (C14_counts_exact_quiet hq).1
  exact (hq.waiting h1 h2).2.2.2 (by omega)

/-- **C12.** ... and every receive future, new or waiting, completes in its next poll. -/
theorem C12_every_receive_completes {cap : Option Nat} {w w' : World} {r b wk : Nat} {st : Recv} (hq : Quiet cap w)
    (h0 : w.strongRefs = 0) (hr : w.objs[r]? = some (.recv b st)) (hd : Does w (.pollRecv r wk) w') :
    ∃ am, w'.yielded r b am := by
  have := (C14_counts_exact_quiet hq).1
  exact (C20_one_poll_iff_work hq hr hd).1 (.inr (.inr (.inl (by omega))))

/-- **C12**, all interleavings: at any moment after the count of strong references has reached zero, a receive future
that still waits idle is about to be notified: the call that dropped the last reference is still running and has,
among its next steps, the one that takes the list of waiting receivers (this one being on it) or the
notification of this very receiver. -/
theorem C12_notification_under_way {cap : Option Nat} {s : Sys} {r b : Nat} (h : Reachable cap s) (h0 : s.w.sc = 0)
    (hi : s.w.idleReceiver r b) :
    ∃ c, s.w.objs[r]? = some (.recv b (.waiting c)) ∧
      ((c ∈ s.w.wRx ∧ ∃ ms ∈ s.th, .shutRx ∈ ms) ∨ ∃ ms ∈ s.th, .notifyShut c ∈ ms) := by
  obtain ⟨c, x, h1, h2⟩ := hi
  refine ⟨c, h1, ?_⟩
  rcases idle_reg (r := r) (b := b) h h2 with hm | hn
  · left
    refine ⟨hm, ?_⟩
    rcases (iInv_reachable h).rx (by intro he; rw [he] at hm; simp at hm) with h3 | h3
    · omega
    · obtain ⟨ms, hms, mc, hmc, hp⟩ := tot_pos_mem h3
      cases mc <;> simp [mShutRx] at hp
      exact ⟨ms, hms, hmc⟩
  · exact .inr hn

/-- **C12.** What that notification does: an idle receiver of registration `c` is told to shut down and its waker is
woken; taking the list turns every registered receiver into a pending notification. -/
theorem C12_notification_effect {w : World} {c : Nat} :
    (∀ x, w.cells[c]? = some (.empty x) → (exec w (.notifyShut c)).1.cells[c]? = some (.full .shutdown x)) ∧
    (c ∈ w.wRx → .notifyShut c ∈ (exec w .shutRx).2) := by
  constructor
  · intro x hx
    have hl := (List.getElem?_eq_some_iff.mp hx).1
    simp only [exec, notifyCell, hx]
    exact List.getElem?_set_self hl
  · intro hm
    simp [exec, hm]

/-- A receiver waits, then the only address is dropped: it is idle until the two steps of the drop are done.
Meets the hypotheses of `C12_notification_under_way`, `C22_no_message_while_idle_concurrent`. -/
example : ∃ s, Reachable none s ∧ s.w.sc = 0 ∧ s.w.idleReceiver 2 0 :=
  ⟨_, Reachable.run .init (as := [.call (.next 1), .call (.pollRecv 2 0), .exec 1, .exec 1, .call (.dropAddr 0), .exec 2]) rfl, rfl,
    ⟨0, some 0, rfl, rfl⟩⟩
/-- Meets the hypotheses of `C12_no_idle_left`, `C12_every_receive_completes`. -/
example : ∃ w w', Quiet none w ∧ w.strongRefs = 0 ∧ w.objs[2]? = some (.recv 0 (.waiting 0)) ∧ Does w (.pollRecv 2 1) w' ∧
    w'.yielded 2 0 .shutdown :=
  ⟨_, _, ⟨_, Reachable.run .init (as := [.call (.next 1), .call (.pollRecv 2 0), .exec 1, .exec 1, .call (.dropAddr 0), .exec 2,
      .exec 2, .exec 2]) rfl, by decide⟩, rfl, rfl, ⟨_, _, rfl, .cons .nil⟩, rfl, rfl⟩

end Xtra
