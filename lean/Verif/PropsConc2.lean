import Verif.PropsConc
import Verif.PropsStop
/-!
# C07, C20, C34 in the midst of other activity

`PropsSend2`, `PropsRecv`, `PropsCancel` have these for whole polls during which nothing else happens. Here they are stated about the atomic
step in which the poll is decided, in every interleaving.
-/

set_option linter.unusedSimpArgs false

namespace Xtra

/-- The steps in which a receive future completes. -/
theorem yields_at {cap : Option Nat} {s s' : Sys} {a : Act} {b r : Nat} {am : AMsg} (h : Reachable cap s)
    (hs : s.step a = some s') (hy : .recv r b am ∈ s'.w.log) (ho : .recv r b am ∉ s.w.log) :
    ∃ t wk rest, a = .exec t ∧
      ((s.th[t]? = some (.recvTry r b wk :: rest) ∧
          ((∃ m, am = .one m ∧ m ∈ s.w.uq ∧ (∀ x ∈ s.w.uq, x.prio ≤ m.prio) ∧ (∀ x ∈ s.w.items b, x.prio ≤ m.prio)) ∨
           (∃ m, am = .all m ∧ m ∈ s.w.items b ∧ (∀ x ∈ s.w.uq, x.prio ≤ m.prio) ∧ (∀ x ∈ s.w.items b, x.prio ≤ m.prio)) ∨
           (am = .shutdown ∧ s.w.uq = [] ∧ s.w.items b = [] ∧ s.w.sc = 0))) ∨
       (∃ c m x, s.th[t]? = some (.recvPoll r b c wk :: rest) ∧ am = .one m ∧ s.w.cells[c]? = some (.full (.newMessage m) x)) ∨
       (∃ c x, s.th[t]? = some (.recvPoll r b c wk :: rest) ∧ am = .shutdown ∧ s.w.cells[c]? = some (.full .shutdown x) ∧ s.w.sc = 0) ∨
       (∃ c m, s.th[t]? = some (.recvBcast r b c wk :: rest) ∧ am = .all m ∧ m ∈ s.w.items b ∧ ∀ x ∈ s.w.items b, x.prio ≤ m.prio)) := by
  cases a with
  | call c =>
    simp only [Sys.step] at hs
    split at hs <;> simp at hs
    rename_i w' ms hc
    subst hs
    have hc := call_rel hc
    exfalso; apply ho
    cases hc <;> simpa [World.ev, World.addObj, World.setObj] using hy
  | exec t =>
    simp only [Sys.step] at hs
    split at hs <;> simp at hs
    rename_i mc rest ht
    subst hs
    have he := exec_rel s.w mc
    simp only at hy
    generalize (exec s.w mc).1 = w' at *
    generalize (exec s.w mc).2 = ms at *
    have hb := bInv_reachable h
    have hu := uInv_reachable h
    have hrg := regWs_reachable h
    cases he
    case recv_all r' b' wk m w1 hpp h1 h2 =>
      simp only [World.yieldMsg, World.ev] at hy
      rcases List.mem_cons.mp hy with hy | hy
      · simp at hy; obtain ⟨rfl, rfl, rfl⟩ := hy
        refine ⟨t, wk, rest, rfl, .inl ⟨ht, .inr (.inl ⟨m, rfl, (head_max (hb.heap b) h1).1, fun x hx => ?_, (head_max (hb.heap b) h1).2⟩)⟩⟩
        cases hq : s.w.uq.head? with
        | none => rw [List.head?_eq_none_iff] at hq; rw [hq] at hx; simp at hx
        | some u =>
          have h3 := (head_max hu.heap hq).2 x hx
          have h4 := h2 u (by simp [hq])
          exact prio_le_trans h3 (by
            rcases Prio.ble_total u.prio m.prio with h6 | h6
            · exact h6
            · simp [Prio.blt, h6] at h4)
      · exfalso; apply ho
        rcases popBroadcast_log hrg hpp with h' | ⟨m', ts, h'⟩ <;> rw [show _ = _ from h'] at hy
        · exact hy
        · simpa using hy
    case recvBcast_some r' b' c wk m w1 hpp =>
      simp only [World.yieldMsg, World.ev] at hy
      rcases List.mem_cons.mp hy with hy | hy
      · simp at hy; obtain ⟨rfl, rfl, rfl⟩ := hy
        obtain ⟨q, hq, -⟩ := popBroadcast_cases hrg.all hpp
        have := Heap.pop_max Msg.total (hb.heap b) hq
        exact ⟨t, wk, rest, rfl, .inr (.inr (.inr ⟨c, m, ht, rfl, this.1, this.2⟩))⟩
      · exfalso; apply ho
        rcases popBroadcast_log hrg hpp with h' | ⟨m', ts, h'⟩ <;> rw [show _ = _ from h'] at hy
        · exact hy
        · simpa using hy
    case recv_one r' b' wk m w1 hpp h1 h2 =>
      simp only [World.yieldMsg, World.ev] at hy
      rcases List.mem_cons.mp hy with hy | hy
      · simp at hy; obtain ⟨rfl, rfl, rfl⟩ := hy
        refine ⟨t, wk, rest, rfl, .inl ⟨ht, .inl ⟨m, rfl, (head_max hu.heap h1).1, (head_max hu.heap h1).2, fun x hx => ?_⟩⟩⟩
        cases hq : (s.w.items b).head? with
        | none => rw [List.head?_eq_none_iff] at hq; rw [hq] at hx; simp at hx
        | some u => exact prio_le_trans ((head_max (hb.heap b) hq).2 x hx) (h2 u hq)
      · exfalso; rw [show _ = _ from World.popUnicast_log hpp] at hy; exact ho hy
    case recv_shutdown h1 h2 h3 =>
      simp only [World.yieldMsg, World.ev] at hy
      rcases List.mem_cons.mp hy with hy | hy
      · simp at hy; obtain ⟨rfl, rfl, rfl⟩ := hy
        exact ⟨t, _, rest, rfl, .inl ⟨ht, .inr (.inr ⟨rfl, h1, h2, h3⟩)⟩⟩
      · exact absurd hy ho
    case recvPoll_one hc =>
      simp only [World.yieldMsg, World.ev] at hy
      rcases List.mem_cons.mp hy with hy | hy
      · simp at hy; obtain ⟨rfl, rfl, rfl⟩ := hy
        exact ⟨t, _, rest, rfl, .inr (.inl ⟨_, _, _, ht, rfl, hc⟩)⟩
      · exact absurd hy ho
    case recvPoll_shutdown hc =>
      simp only [World.yieldMsg, World.ev] at hy
      rcases List.mem_cons.mp hy with hy | hy
      · simp at hy; obtain ⟨rfl, rfl, rfl⟩ := hy
        exact ⟨t, _, rest, rfl, .inr (.inr (.inl ⟨_, _, ht, rfl, hc, (iInv_reachable h).sh _ _ hc⟩))⟩
      · exact absurd hy ho
    case shutTx =>
      exfalso
      rcases shutTx_mem hy with h | ⟨j, h⟩
      · exact ho h
      · simp at h
    all_goals
      exfalso; apply ho
      first
      | exact hy
      | (simp at hy; exact hy)
      | (simp at hy; exact lateLog_recv hy)
      | (simp [World.sendBroadcast] at hy; exact hy)
      | (simp [World.sendBroadcast] at hy; exact lateLog_recv hy)

/-- **C20**, all interleavings: a receive completes only if there is work. Whenever a poll of a receive future, whatever happens around it,
completes, then at that very moment the message was queued for its mailbox, or had been handed to it, or no strong address existed. -/
theorem C20_ready_concurrent {cap : Option Nat} {s s' : Sys} {a : Act} {b r : Nat} {am : AMsg} (h : Reachable cap s)
    (hs : s.step a = some s') (hy : .recv r b am ∈ s'.w.log) (ho : .recv r b am ∉ s.w.log) :
    (∃ m, am = .one m ∧ m ∈ s.w.uq) ∨ (∃ m, am = .all m ∧ m ∈ s.w.items b) ∨
    (∃ m t c wk rest x, am = .one m ∧ a = .exec t ∧ s.th[t]? = some (.recvPoll r b c wk :: rest) ∧
      s.w.cells[c]? = some (.full (.newMessage m) x)) ∨
    (am = .shutdown ∧ s.w.sc = 0) := by
  obtain ⟨t, wk, rest, ha, ⟨-, hk⟩ | ⟨c, m, x, h1, h2, h3⟩ | ⟨c, x, h1, h2, h3, h4⟩ | ⟨c, m, h1, h2, h3, h4⟩⟩ := yields_at h hs hy ho
  · rcases hk with ⟨m, h1, h2, -⟩ | ⟨m, h1, h2, -⟩ | ⟨h1, -, -, h2⟩
    · exact .inl ⟨m, h1, h2⟩
    · exact .inr (.inl ⟨m, h1, h2⟩)
    · exact .inr (.inr (.inr ⟨h1, h2⟩))
  · exact .inr (.inr (.inl ⟨m, t, c, wk, rest, x, h2, ha, h1, h3⟩))
  · exact .inr (.inr (.inr ⟨h2, h4⟩))
  · exact .inr (.inl ⟨m, h2, h3⟩)

/-- **C20**, all interleavings: a receive waits only if there is no work. Whenever a poll of a receive future, new or waiting, whatever
happens around it, returns `Pending`, then at that very moment (before and after the step) nothing was queued for its mailbox, nothing had
been handed to it, and a strong address existed; or the last strong address has just been dropped by a call that is still running and has
the notification of this very receiver among its next steps. -/
theorem C20_pending_concurrent {cap : Option Nat} {s s' : Sys} {a : Act} {r wk : Nat} (h : Reachable cap s)
    (hs : s.step a = some s') (hy : s'.w.log = .recvPending r wk :: s.w.log) :
    s'.w.uq = s.w.uq ∧ s'.w.sc = s.w.sc ∧ ∃ b c, s'.w.items b = s.w.items b ∧ s'.w.objs[r]? = some (.recv b (.waiting c)) ∧
      (∃ x, s.w.cells[c]? = some (.empty x)) ∧
      ((s.w.uq = [] ∧ s.w.items b = [] ∧ s.w.sc ≠ 0) ∨
       (s.w.sc = 0 ∧ ((c ∈ s.w.wRx ∧ ∃ ms ∈ s.th, .shutRx ∈ ms) ∨ ∃ ms ∈ s.th, .notifyShut c ∈ ms))) := by
  have hr' : Reachable cap s' := .step h hs
  have key : ∃ t b c rest x, a = .exec t ∧ s.th[t]? = some (.recvPoll r b c wk :: rest) ∧ s.w.cells[c]? = some (.empty x) := by
    rcases step_rel hs with ⟨c, w', ms, rfl, hc, rfl⟩ | ⟨t, m1, rest, w', ms, rfl, ht', hx, rfl⟩
    · exfalso
      cases hc <;> simp [World.ev, World.addObj, World.setObj] at hy
    · cases hx
      case recvPoll_empty c wk' hc => simp at hy; obtain ⟨rfl, rfl⟩ := hy; exact ⟨_, _, _, _, _, rfl, ht', hc⟩
      case shutTx =>
        exfalso
        have := shutTx_drops (fun e => if e matches .recvPending .. then 1 else 0) (by simp) s.w
        rw [show s.w.shutTx.log = _ from hy] at this
        simp at this
      all_goals
        exfalso
        first
        | (simp [World.yieldMsg, World.ev, World.setObj, World.kill, World.sendBroadcast] at hy; done)
        | (simp only [World.lateLog] at hy; split at hy <;> simp at hy; done)
        | skip
  obtain ⟨t, b, c, rest, x, rfl, ht, hc⟩ := key
  have hidle := idle_reg (r := r) (b := b) h hc
  have hmem : .recvPoll r b c wk ∈ (.recvPoll r b c wk :: rest : List Micro) := by simp
  have hI := iInv_reachable h
  have hfut : s'.w.uq = s.w.uq ∧ s'.w.sc = s.w.sc ∧ s'.w.items b = s.w.items b ∧ s'.w.objs[r]? = some (.recv b (.waiting c)) := by
    have hlr : r < s.w.objs.length := (List.getElem?_eq_some_iff.mp (wf_reachable h ht).1).1
    have he := exec_rel s.w (.recvPoll r b c wk)
    simp only [Sys.step, ht] at hs
    simp at hs; subst hs
    generalize (exec s.w (.recvPoll r b c wk)).1 = w' at *
    generalize (exec s.w (.recvPoll r b c wk)).2 = ms at *
    cases he with
    | recvPoll_empty h1 => exact ⟨rfl, rfl, rfl, by simp [hlr]⟩
    | recvPoll_one h1 => rw [hc] at h1; simp at h1
    | recvPoll_shutdown h1 => rw [hc] at h1; simp at h1
    | recvPoll_bcast h1 => rw [hc] at h1; simp at h1
    | recvPoll_panic h1 => rw [hc] at h1; simp at h1
  refine ⟨hfut.1, hfut.2.1, b, c, hfut.2.2.1, hfut.2.2.2, ⟨x, hc⟩, ?_⟩
  by_cases hsc : s.w.sc = 0
  · refine .inr ⟨hsc, hidle.imp (fun hm => ⟨hm, ?_⟩) id⟩
    rcases hI.rx (by intro he; rw [he] at hm; simp at hm) with h3 | h3
    · omega
    · obtain ⟨ms, hms, mc, hmc, hp⟩ := tot_pos_mem h3
      cases mc <;> simp [mShutRx] at hp
      exact ⟨ms, hms, hmc⟩
  · left
    rcases hidle with hm | ⟨ms, hms, hn⟩
    · refine ⟨?_, hI.ot _ (List.mem_of_getElem? ht) r b c wk hmem hm, hsc⟩
      cases hu : s.w.uq with
      | nil => rfl
      | cons a l =>
        have := (uInv_reachable h).idle (by rw [hu]; simp)
        rw [this] at hm; simp at hm
    · exact absurd (hI.ns ms hms c hn) hsc

/-- **C34**, all interleavings: if a receive future completes with something of lower priority than a message `x` then queued for its
mailbox, it had been waiting, and was handed a message directly or told of a broadcast, while it waited. (A receive that looks into both
queues takes a maximal message, `C01_highest_priority_first_concurrent`, so the next one does.) -/
theorem C34_inversion_concurrent {cap : Option Nat} {s s' : Sys} {a : Act} {b r : Nat} {am : AMsg} {x : Msg} (h : Reachable cap s)
    (hs : s.step a = some s') (hy : .recv r b am ∈ s'.w.log) (ho : .recv r b am ∉ s.w.log) (hx : x ∈ s.w.uq ∨ x ∈ s.w.items b)
    (hlt : am.prio < x.prio) :
    ∃ t c wk rest, a = .exec t ∧
      ((∃ m wk', am = .one m ∧ s.th[t]? = some (.recvPoll r b c wk :: rest) ∧ s.w.cells[c]? = some (.full (.newMessage m) wk')) ∨
       (∃ m, am = .all m ∧ s.th[t]? = some (.recvBcast r b c wk :: rest) ∧ x ∈ s.w.uq)) := by
  obtain ⟨t, wk, rest, ha, ⟨-, hk⟩ | ⟨c, m, y, h1, h2, h3⟩ | ⟨c, y, h1, h2, h3, h4⟩ | ⟨c, m, h1, h2, h3, h4⟩⟩ := yields_at h hs hy ho
  · exfalso
    rcases hk with ⟨m, rfl, -, h2, h3⟩ | ⟨m, rfl, -, h2, h3⟩ | ⟨-, h2, h3, -⟩
    · rcases hx with hx | hx
      · exact hlt (h2 x hx)
      · exact hlt (h3 x hx)
    · rcases hx with hx | hx
      · exact hlt (h2 x hx)
      · exact hlt (h3 x hx)
    · rw [h2, h3] at hx; simp at hx
  · exact ⟨t, c, wk, rest, ha, .inl ⟨m, y, h2, h1, h3⟩⟩
  · subst h2; exact absurd (Prio.ble_shutdown _) hlt
  · refine ⟨t, c, wk, rest, ha, .inr ⟨m, h2, h1, ?_⟩⟩
    rcases hx with hx | hx
    · exact hx
    · subst h2; exact absurd (h4 x hx) hlt

/-- **C07**, all interleavings: the atomic step of a broadcast that decides. It puts the message into every live mailbox exactly if the
channel's broadcast length is below the capacity; otherwise the sender is parked and no mailbox changes. -/
theorem C07_accepted_concurrent {cap : Option Nat} {s s' : Sys} {t f wk : Nat} {m : Msg} {rc : Rc} {rest : List Micro}
    (h : Reachable cap s) (ht : s.th[t]? = some (.sendCrit f .bcast m rc wk :: rest)) (hs : s.step (.exec t) = some s') :
    (s.w.hasBcRoom → (∃ ts, .bsent m ts ∈ s'.w.log) ∧ s'.th[t]? = some (.dropTx rc :: .sendFin f .bcast m.id wk :: rest) ∧
      ∀ b, s.w.mailboxLive b → (s'.w.items b).Perm (m :: s.w.items b)) ∧
    (¬ s.w.hasBcRoom → s'.w.bq = s.w.bq ∧ ∃ hd, s'.w.ws[hd]? = some (.active none m) ∧ hd ∈ s'.w.wAll ∧
      s'.th[t]? = some (.dropTx rc :: .pollWs f .bcast m.id hd wk :: rest)) := by
  have hlt : t < s.th.length := (List.getElem?_eq_some_iff.mp ht).1
  rw [← bcFull_iff]
  have he := exec_rel s.w (.sendCrit f .bcast m rc wk)
  simp only [Sys.step, ht] at hs
  simp at hs; subst hs
  generalize (exec s.w (.sendCrit f .bcast m rc wk)).1 = w' at *
  generalize (exec s.w (.sendCrit f .bcast m rc wk)).2 = ms at *
  cases he with
  | critAll_park h1 => exact ⟨fun h => by simp [h1] at h, fun _ => ⟨rfl, s.w.ws.length, by simp, by simp, by simp [hlt]⟩⟩
  | critAll_sent h1 =>
    refine ⟨fun _ => ⟨⟨s.w.bqs.filter s.w.alive, ?_⟩, by simp [hlt], fun b hb => ?_⟩, fun h => absurd h1 h⟩
    · simp [World.sendBroadcast]; left; rfl
    · have hit := sendBroadcast_items ({ s.w with log := s.w.lateLog m } : World) m (bqsOk_reachable h).nodup b
      have ha := mailboxLive_alive h hb
      have hb' : b ∈ s.w.bqs.filter s.w.alive := by
        rcases bAll_reachable h b ha with h1 | h1
        · exact List.mem_filter.mpr ⟨h1, ha⟩
        · exact absurd h1 (mailboxLive_rcv h hb)
      show (World.items _ b).Perm _
      rw [hit]
      split
      · exact Heap.push_perm Msg.le _ _
      · rename_i hn; exact absurd (List.mem_filter.mp hb') hn
  | critOne_hand hmd' h1 h2 h3 => exact absurd rfl hmd'
  | critOne_park hmd' h1 h2 => exact absurd rfl hmd'
  | critOne_queue hmd' h1 h2 => exact absurd rfl hmd'

/-- The waiting receive was handed a message of priority 0; one of priority 9 is queued; another send is in the middle of its poll while the
waiting receive is polled. Meets the hypotheses of `C20_ready_concurrent`, `C34_inversion_concurrent`. -/
example : ∃ s s', Reachable (some 5) s ∧ s.step (.exec 9) = some s' ∧ (Ev.recv 2 0 (.one ⟨0, .valued 0⟩)) ∈ s'.w.log ∧
    (Ev.recv 2 0 (.one ⟨0, .valued 0⟩)) ∉ s.w.log ∧ s.w.uq = [⟨1, .valued 9⟩] ∧ (AMsg.one ⟨0, .valued 0⟩).prio < Prio.valued 9 ∧
    s.th[8]? = some [.sendCrit 5 .ret ⟨2, .valued 0⟩ .strong 0] :=
  ⟨_, _, Reachable.run .init (as := exInversionSched ++ [.call (.send 0), .call (.pollSend 5 0), .exec 8, .exec 8, .call (.pollRecv 2 3)]) rfl,
    rfl, by decide, by decide, rfl, (fun h => by cases h), rfl⟩

/-- A receive goes to wait while the last address is being dropped. Meets the hypotheses of `C20_pending_concurrent`, in its second
alternative; one step less and it is the first. -/
example : ∃ s s' s0 s0', Reachable none s ∧ s.step (.exec 1) = some s' ∧ s'.w.log = .recvPending 2 0 :: s.w.log ∧ s.w.sc = 0 ∧ 0 ∈ s.w.wRx ∧
    s.th[2]? = some [.shutRx] ∧
    Reachable none s0 ∧ s0.step (.exec 1) = some s0' ∧ s0'.w.log = .recvPending 2 0 :: s0.w.log ∧ s0.w.sc = 1 :=
  ⟨_, _, _, _, Reachable.run .init (as := [.call (.next 1), .call (.pollRecv 2 0), .exec 1, .call (.dropAddr 0), .exec 2]) rfl, rfl, rfl, rfl,
    by decide, rfl, Reachable.run .init (as := [.call (.next 1), .call (.pollRecv 2 0), .exec 1, .call (.dropAddr 0)]) rfl, rfl, rfl, rfl⟩

/-- Two broadcasts race for the last place: one is accepted, the other parked. Meets the hypotheses of `C07_accepted_concurrent`. -/
example : ∃ s s' s'', Reachable (some 1) s ∧ s.th[2]? = some [.sendCrit 2 .bcast ⟨0, .valued 0⟩ .strong 0] ∧
    s.th[3]? = some [.sendCrit 3 .bcast ⟨1, .valued 0⟩ .strong 0] ∧ s.step (.exec 3) = some s' ∧ s'.w.items 0 = [⟨1, .valued 0⟩] ∧
    s'.step (.exec 2) = some s'' ∧ s''.w.items 0 = [⟨1, .valued 0⟩] ∧ s''.w.wAll = [0] :=
  ⟨_, _, _, Reachable.run .init (as := [.call (.broadcast 0), .call (.broadcast 0), .call (.pollSend 2 0), .call (.pollSend 3 0), .exec 2,
    .exec 2, .exec 3, .exec 3]) rfl, rfl, rfl, rfl, rfl, rfl, rfl, rfl⟩

end Xtra
