import Verif.PropsStop
/-! # C28, C30: the channel's broadcast length -/

set_option linter.unusedSimpArgs false

namespace Xtra

/-- The channel's broadcast length is attained by a live mailbox (or is zero). -/
def Tight (w : World) : Prop := w.tail = 0 ∨ ∃ b, w.alive b = true ∧ (w.items b).length = w.tail

theorem Tight.send {w : World} (o : BqsOk w) (i : BInv w) (k : BAll w) (hr : w.rcv ≠ 0) (hl : ∃ b, w.alive b = true)
    (ht : Tight w) (m : Msg) : Tight (w.sendBroadcast m) := by
  have hin : ∀ b, w.alive b = true → b ∈ w.bqs := fun b hb => by
    rcases k b hb with h | h
    · exact h
    · exact absurd h hr
  have key : ∀ b, w.alive b = true → (w.items b).length = w.tail → Tight (w.sendBroadcast m) := by
    intro b hb he
    right
    refine ⟨b, by rw [alive_congr (sendBroadcast_refs w m o.nodup b)]; exact hb, ?_⟩
    rw [sendBroadcast_items w m o.nodup, if_pos ⟨hin b hb, hb⟩, push_length]
    show _ = w.tail + 1
    omega
  rcases ht with h | ⟨b, h1, h2⟩
  · obtain ⟨b, hb⟩ := hl
    have := i.tail (hin b hb) hb
    exact key b hb (by omega)
  · exact key b h1 h2

theorem afterPop_tight {w : World} {b : Nat} (h : w.items b ≠ []) (q : List Msg) : Tight (w.afterPop b q) := by
  unfold Tight
  rw [afterPop_tail h]
  unfold World.longest
  rcases foldl_max_mem (w.afterPop b q) (w.afterPop b q).bqs 0 with h1 | ⟨b', -, h2, h3⟩
  · exact .inl h1
  · exact .inr ⟨b', h2, h3.symm⟩

theorem pop_tight {w w' : World} {b : Nat} {m : Msg} (r : RegWs w.ws w.wOne w.wAll) (o : BqsOk w) (i : BInv w) (k : BAll w)
    (hr : w.rcv ≠ 0) (ha : w.alive b = true) (hp : w.popBroadcast b = some (m, w')) : Tight w' := by
  obtain ⟨q, hq, hc⟩ := popBroadcast_cases r.all hp
  have hne := pop_ne hq
  have ht := afterPop_tight hne q
  rcases hc with ⟨-, rfl⟩ | ⟨-, hg, rfl⟩ | ⟨hf, h', wk, m', q', t, rfl⟩
  · exact ht
  · exact ht
  · have hi := afterPop_bInv i hq
    have ho : BqsOk (w.afterPop b q) := o.congr (by simp) (afterPop_bqlen w b q)
    have hk : BAll (w.afterPop b q) :=
      k.congr (fun b' h => by rw [← alive_congr (afterPop_refs w b q b')]; exact h) (fun b h _ _ => by simpa using h)
        (fun h => by unfold World.afterPop; split <;> exact h)
    have hr' : (w.afterPop b q).rcv ≠ 0 := by unfold World.afterPop; split <;> exact hr
    apply Tight.send
    · exact ho.congr rfl rfl
    · exact hi.congr (fun _ => rfl) (fun _ h => h) (fun _ h => h) rfl rfl (Nat.le_refl _)
    · exact hk.congr (fun _ h => h) (fun _ h _ _ => h) (fun h => h)
    · exact hr'
    · exact ⟨b, (alive_congr (afterPop_refs w b q b)).trans ha⟩
    · exact ht

theorem Tight.congr {w w' : World} (h : Tight w) (h1 : ∀ b, w.alive b = true → (w.items b).length = w.tail → w'.alive b = true)
    (h2 : ∀ b, w'.items b = w.items b) (h3 : w'.tail = w.tail) : Tight w' := by
  rcases h with h | ⟨b, h4, h5⟩
  · exact .inl (by rw [h3]; exact h)
  · exact .inr ⟨b, h1 b h4 h5, by rw [h2, h3]; exact h5⟩

theorem recv_holder {cap : Option Nat} {s : Sys} {t : Nat} {mc : Micro} {rest : List Micro} {b : Nat} (h : Reachable cap s)
    (ht : s.th[t]? = some (mc :: rest)) (h1 : mBq b mc = 1) : s.w.alive b = true := by
  have := refs_reachable h b
  have := tot_head (mBq b) ht
  rw [alive_iff]; omega

theorem recv_rcv {cap : Option Nat} {s : Sys} {t : Nat} {mc : Micro} {rest : List Micro} (h : Reachable cap s)
    (ht : s.th[t]? = some (mc :: rest)) (h1 : mRcv mc = 1) : s.w.rcv ≠ 0 := by
  have := rcv_reachable h
  have := tot_head mRcv ht
  omega

/-- The step accepts a broadcast sent by a future or by `stop_all`. -/
def Micro.sendsAll : Micro → Bool
  | .sendCrit _ .bcast _ _ _ => true
  | .bcastShutdown => true
  | _ => false

theorem step_tight {cap : Option Nat} {s s' : Sys} {t : Nat} {mc : Micro} {rest : List Micro} (h : Reachable cap s)
    (ht : s.th[t]? = some (mc :: rest)) (hs : s.step (.exec t) = some s')
    (hkeep : ∀ b, s.w.alive b = true → (s.w.items b).length = s.w.tail → 0 < s.w.tail → s'.w.alive b = true)
    (hlive : mc.sendsAll = true → s.w.rcv ≠ 0 ∧ ∃ b, s.w.alive b = true) (htt : Tight s.w) : Tight s'.w := by
  have hr := regWs_reachable h
  have ho := bqsOk_reachable h
  have hi := bInv_reachable h
  have hk := bAll_reachable h
  have hh1 := @recv_holder cap s t mc rest
  have hh2 := @recv_rcv cap s t mc rest h ht
  have he := exec_rel s.w mc
  simp only [Sys.step, ht] at hs; simp at hs; subst hs
  show Tight (exec s.w mc).1
  have hkeep : ∀ b, s.w.alive b = true → (s.w.items b).length = s.w.tail → 0 < s.w.tail → (exec s.w mc).1.alive b = true := hkeep
  generalize (exec s.w mc).1 = w' at *
  generalize (exec s.w mc).2 = ms at *
  cases he
  case recv_all hp _ _ _ =>
    exact (pop_tight hr ho hi hk (hh2 rfl) (hh1 h ht (by simp [mBq])) hp).congr
      (fun b h _ => (alive_congr' (by simp) b).trans h) (fun b => items_congr (by simp) b) (by simp)
  case recvBcast_some hp _ =>
    exact (pop_tight hr ho hi hk (hh2 rfl) (hh1 h ht (by simp [mBq])) hp).congr
      (fun b h _ => (alive_congr' (by simp) b).trans h) (fun b => items_congr (by simp) b) (by simp)
  case recv_one hp _ _ _ =>
    exact htt.congr (fun b h _ => (alive_congr' (by simp [World.popUnicast_bq hp]) b).trans h)
      (fun b => items_congr (by simp [World.popUnicast_bq hp]) b) (by simp [World.popUnicast_tail hp])
  case critAll_sent hf =>
    obtain ⟨h1, h2⟩ := hlive rfl
    apply Tight.send
    · exact ho.congr rfl rfl
    · exact hi.congr (fun b => rfl) (fun _ h => h) (fun _ h => h) rfl rfl (lateLog_log _ _ _)
    · exact hk.congr (fun _ h => h) (fun _ h _ _ => h) (fun h => h)
    · exact h1
    · exact h2
    · exact htt
  case bcastShutdown =>
    obtain ⟨h1, h2⟩ := hlive rfl
    apply Tight.send
    · exact ho.congr rfl rfl
    · exact hi.congr (fun b => rfl) (fun _ h => h) (fun _ h => h) rfl rfl (Nat.le_refl _)
    · exact hk.congr (fun _ h => h) (fun _ h _ _ => h) (fun h => h)
    · exact h1
    · exact h2
    · exact htt
  case dropBq b0 _ =>
    rcases htt with h1 | ⟨b, h1, h2⟩
    · exact .inl (by simpa using h1)
    · by_cases h0 : s.w.tail = 0
      · exact .inl (by simpa using h0)
      · have h3 := hkeep b h1 h2 (by omega)
        refine .inr ⟨b, h3, ?_⟩
        rw [alive_iff, decBq_refs] at h3
        rw [decBq_items]
        by_cases hb : b = b0
        · subst hb; simp at h3; rw [if_neg (by omega)]; simpa using h2
        · simp [hb]; exact h2
  case newBq ob =>
    refine htt.congr (fun b h _ => ?_) (fun b => newBq_items _ _ _) rfl
    have hl := alive_lt h
    unfold World.alive at h ⊢
    simp only [List.getElem?_append_left hl]; exact h
  all_goals
    exact htt.congr (fun b h _ => (alive_congr' (by simp) b).trans h) (fun b => items_congr (by simp) b) (by simp)

theorem popBroadcast_bqlen {w w' : World} {b : Nat} {m : Msg} (r : RegWs w.ws w.wOne w.wAll)
    (hp : w.popBroadcast b = some (m, w')) : w'.bq.length = w.bq.length := by
  obtain ⟨q, -, ⟨-, rfl⟩ | ⟨-, hg, rfl⟩ | ⟨-, h', wk, m', q', t, rfl⟩⟩ := popBroadcast_cases r.all hp
  · exact afterPop_bqlen w b q
  · exact afterPop_bqlen w b q
  · rw [sendBroadcast_bqlen]; exact afterPop_bqlen w b q

theorem run_snoc {s s1 s2 : Sys} {a : Act} {as : List Act} (h : s.run as = some s1) (h2 : s1.step a = some s2) :
    s.run (as ++ [a]) = some s2 := by
  induction as generalizing s with
  | nil => simp [Sys.run] at h ⊢; subst h; rw [h2]
  | cons b bs ih =>
    simp only [Sys.run, List.cons_append] at h ⊢
    split at h
    · exact ih h
    · simp at h

theorem reachable_schedule {cap : Option Nat} {s : Sys} (h : Reachable cap s) : ∃ as, (init cap).run as = some s := by
  induction h with
  | init => exact ⟨[], rfl⟩
  | step _ hs ih => obtain ⟨as, h⟩ := ih; exact ⟨_, run_snoc h hs⟩

theorem callR_tail {w w' : World} {c : Call} {ms : List Micro} (h : CallR w c w' ms) : w'.tail = w.tail :=
  (callR_regWs h).2.2.2.2.2.2.2.1

/-- The set of existing mailboxes only grows, and a dead one stays dead. -/
theorem exec_dead {w w' : World} {m : Micro} {ms : List Micro} (h : ExecR w m w' ms)
    (r : RegWs w.ws w.wOne w.wAll) (o : BqsOk w) :
    w.bq.length ≤ w'.bq.length ∧ ∀ b, w'.alive b = true → b < w.bq.length → w.alive b = true := by
  cases h
  case recv_all hp _ _ =>
    refine ⟨by simp [popBroadcast_bqlen r hp], fun b h _ => ?_⟩
    rw [alive_iff] at h ⊢; rw [refs_congr (World.yieldMsg_bq _ _ _ _) b, popBroadcast_refs r hp o b] at h; exact h
  case recvBcast_some w1 hp =>
    refine ⟨by simp [popBroadcast_bqlen r hp], fun b h _ => ?_⟩
    rw [alive_iff] at h ⊢; rw [refs_congr (w := w1) (by simp) b, popBroadcast_refs r hp o b] at h; exact h
  case recv_one hp _ _ =>
    exact ⟨by simp [World.popUnicast_bq hp], fun b h _ => (alive_congr' (by simp [World.popUnicast_bq hp]) b).symm.trans h⟩
  case critAll_sent =>
    refine ⟨by rw [sendBroadcast_bqlen]; exact Nat.le_refl _, fun b h _ => ?_⟩
    rw [alive_iff] at h ⊢; rw [sendBroadcast_refs _ _ (by exact o.nodup)] at h; exact h
  case bcastShutdown =>
    refine ⟨by rw [sendBroadcast_bqlen]; exact Nat.le_refl _, fun b h _ => ?_⟩
    rw [alive_iff] at h ⊢; rw [sendBroadcast_refs _ _ (by exact o.nodup)] at h; exact h
  case dropBq b0 =>
    refine ⟨by rw [decBq_len]; exact Nat.le_refl _, fun b h _ => ?_⟩
    rw [alive_iff] at h ⊢; rw [decBq_refs] at h; split at h
    · rename_i e; subst e; omega
    · exact h
  case newBq ob =>
    refine ⟨by simp, fun b hb hl => ?_⟩
    unfold World.alive at hb ⊢
    simp only [List.getElem?_append_left hl] at hb; exact hb
  all_goals exact ⟨by simp, fun b h _ => (alive_congr' (by simp) b).symm.trans h⟩

theorem step_dead {cap : Option Nat} {s s' : Sys} {a : Act} (h : Reachable cap s) (hs : s.step a = some s') :
    s.w.bq.length ≤ s'.w.bq.length ∧ ∀ b, s'.w.alive b = true → b < s.w.bq.length → s.w.alive b = true := by
  rcases step_rel hs with ⟨c, w', ms, rfl, hc, rfl⟩ | ⟨t, m1, rest, w', ms, rfl, ht, he, rfl⟩
  · exact ⟨by simp [(callR_bqs hc).2.1], fun b hb _ => callR_alive hc (fun k => by have := refs_reachable h k; omega) b hb⟩
  · exact exec_dead he (regWs_reachable h) (bqsOk_reachable h)

theorem run_dead {cap : Option Nat} (as : List Act) : ∀ {s s' : Sys}, Reachable cap s → s.run as = some s' →
    s.w.bq.length ≤ s'.w.bq.length ∧ (∀ b, s'.w.alive b = true → b < s.w.bq.length → s.w.alive b = true) ∧
    (s'.w.rcv ≠ 0 → s.w.rcv ≠ 0) := by
  induction as with
  | nil => intro s s' _ hr; simp [Sys.run] at hr; subst hr; exact ⟨Nat.le_refl _, fun _ h _ => h, fun h => h⟩
  | cons a as ih =>
    intro s s' h hr
    simp only [Sys.run] at hr
    split at hr
    · rename_i s1 h1
      obtain ⟨a1, a2, a3⟩ := ih (.step h h1) hr
      obtain ⟨b1, b2⟩ := step_dead h h1
      exact ⟨by omega, fun b hb hl => b2 b (a2 b hb (by omega)) hl,
        fun hz => fun h0 => a3 hz ((C15_zero_forever h h1).2 h0)⟩
    · simp at hr

theorem run_tight {cap : Option Nat} (as : List Act) : ∀ {s s' : Sys}, Reachable cap s → s.run as = some s' →
    (∀ b, b < s'.w.bq.length → s'.w.alive b = true ∨ (b < s.w.bq.length ∧ ¬ s.w.alive b = true)) →
    (∃ b, s.w.alive b = true ∧ s'.w.alive b = true) → s'.w.rcv ≠ 0 → Tight s.w → Tight s'.w := by
  induction as with
  | nil => intro s s' _ hr _ _ _ ht; simp [Sys.run] at hr; subst hr; exact ht
  | cons a as ih =>
    intro s s' h hr hk hb h0 ht
    simp only [Sys.run] at hr
    split at hr
    · rename_i s1 h1
      obtain ⟨a1, a2, a3⟩ := run_dead as (.step h h1) hr
      obtain ⟨b1, b2⟩ := step_dead h h1
      have hkeep : ∀ b, s.w.alive b = true → s1.w.alive b = true := by
        intro b hb
        have hl := alive_lt hb
        rcases hk b (by omega) with h2 | ⟨-, h2⟩
        · exact a2 b h2 (by omega)
        · exact absurd hb h2
      refine ih (.step h h1) hr ?_ ?_ h0 ?_
      · intro b hl
        rcases hk b hl with h2 | ⟨h2, h3⟩
        · exact .inl h2
        · exact .inr ⟨by omega, fun h4 => h3 (b2 b h4 h2)⟩
      · obtain ⟨b, h2, h3⟩ := hb
        exact ⟨b, hkeep b h2, h3⟩
      · cases a with
        | call c =>
          rcases step_rel h1 with ⟨c', w', ms, hcc, hc, rfl⟩ | ⟨t, m1, rest, w', ms, hcc, ht, he, rfl⟩
          · exact ht.congr (fun b h _ => hkeep b h) (callR_bqs hc).2.2 (callR_tail hc)
          · simp at hcc
        | exec t =>
          have h1' := h1
          simp only [Sys.step] at h1'
          split at h1'
          · rename_i mc rest hth
            obtain ⟨b, h2, -⟩ := hb
            exact step_tight h hth h1 (fun b h _ _ => hkeep b h)
              (fun _ => ⟨fun h4 => a3 h0 ((C15_zero_forever h h1).2 h4), b, h2⟩) ht
          · simp at h1'
    · simp at hr

theorem quiet_alive {cap : Option Nat} {s : Sys} (h : Reachable cap s) (hq : ∀ x ∈ s.th, x = []) {b : Nat}
    (ha : s.w.alive b = true) : s.w.mailboxLive b := by
  have h1 := refs_reachable h b
  have h2 : tot (mBq b) s.th = 0 := by
    simp only [tot]; rw [sumBy_eq_zero]; intro x hx; rw [hq x hx]; rfl
  rw [alive_iff] at ha
  obtain ⟨o, ho, hp⟩ := (sumBy_pos _).mp (by omega : 0 < sumBy (oBq b) s.w.objs)
  refine ⟨o, ho, ?_⟩
  cases o <;> simp_all [oBq, Obj.holdsMailbox, is1] <;> grind

theorem quiet_some {cap : Option Nat} {s : Sys} (h : Reachable cap s) (hq : ∀ x ∈ s.th, x = [])
    (ha : s.w.rcv ≠ 0) : ∃ b, s.w.mailboxLive b := by
  have h1 := rcv_reachable h
  have h2 : tot mRcv s.th = 0 := by
    simp only [tot]; rw [sumBy_eq_zero]; intro x hx; rw [hq x hx]; rfl
  obtain ⟨o, ho, hp⟩ := (sumBy_pos _).mp (by omega : 0 < sumBy oRcv s.w.objs)
  cases o with
  | mailbox b => exact ⟨b, _, ho, by simp [Obj.holdsMailbox]⟩
  | recv b _ => exact ⟨b, _, ho, by simp [Obj.holdsMailbox]⟩
  | message b _ => exact ⟨b, _, ho, by simp [Obj.holdsMailbox]⟩
  | dispatch b _ _ => exact ⟨b, _, ho, by simp [Obj.holdsMailbox]⟩
  | _ => simp [oRcv] at hp

theorem tail_ge {cap : Option Nat} {s : Sys} (h : Reachable cap s) {b : Nat} (hl : s.w.mailboxLive b) :
    (s.w.items b).length ≤ s.w.tail := by
  have ha := mailboxLive_alive h hl
  rcases bAll_reachable h b ha with h1 | h1
  · exact (bInv_reachable h).tail h1 ha
  · exact absurd h1 (mailboxLive_rcv h hl)

theorem longestLive_tight {cap : Option Nat} {s : Sys} (h : Reachable cap s) (hl : s.w.longestLive s.w.tail) : Tight s.w := by
  rcases hl.2 with h1 | ⟨b, h1, h2⟩
  · exact .inl h1
  · exact .inr ⟨b, mailboxLive_alive h h1, h2⟩

/-- **C28, one direction, always.** `len`, called at any moment in any interleaving, returns the number of queued unicast
messages plus the channel's broadcast length; it never under-reports: it is at least the number of queued unicast messages
plus the number of broadcasts queued in any live mailbox. -/
theorem C28_never_under_partial {cap : Option Nat} {s s' : Sys} {i : Nat} (h : Reachable cap s)
    (hs : s.step (.call (.len i)) = some s') :
    ∃ n, s'.w.log = .len i n :: s.w.log ∧ n = s.w.uq.length + s.w.tail ∧
      ∀ b, s.w.mailboxLive b → s.w.uq.length + (s.w.items b).length ≤ n := by
  simp only [Sys.step, Xtra.call] at hs
  split at hs <;> simp at hs
  rename_i w' ms hc
  split at hc <;> simp at hc
  obtain ⟨rfl, rfl⟩ := hc
  subst hs
  refine ⟨_, rfl, by omega, fun b hl => ?_⟩
  have := tail_ge h hl
  omega

/-- **C28 (partial).** Take any moment `s` when no call is in progress and the channel's broadcast length is exact, and any
later moment `s'` (any interleaving of any calls in between) at which a mailbox exists. If none of the mailboxes that lived
at `s` or were created since has been dropped, the broadcast length is exact at `s'`. Missing: see `C28_refuted`. -/
theorem C28_exact_partial {cap : Option Nat} {s s' : Sys} {as : List Act} (h : Reachable cap s)
    (hq : ∀ x ∈ s.th, x = []) (hx : s.w.longestLive s.w.tail) (hr : s.run as = some s')
    (hk : ∀ b, b < s'.w.bq.length → s'.w.mailboxLive b ∨ (b < s.w.bq.length ∧ ¬ s.w.mailboxLive b))
    (hl : ∃ b, s'.w.mailboxLive b) : s'.w.longestLive s'.w.tail := by
  have h' := h.run hr
  obtain ⟨b0, hb0⟩ := hl
  have hrcv := mailboxLive_rcv h' hb0
  obtain ⟨a1, a2, a3⟩ := run_dead as h hr
  obtain ⟨b1, hb1⟩ := quiet_some h hq (a3 hrcv)
  have hb1' := mailboxLive_alive h hb1
  have hl1 := alive_lt hb1'
  have ht : Tight s'.w := by
    refine run_tight as h hr (fun b hb => ?_) ⟨b1, hb1', ?_⟩ hrcv (longestLive_tight h hx)
    · rcases hk b hb with h1 | ⟨h1, h2⟩
      · exact .inl (mailboxLive_alive h' h1)
      · exact .inr ⟨h1, fun h3 => h2 (quiet_alive h hq h3)⟩
    · rcases hk b1 (by omega) with h1 | ⟨-, h2⟩
      · exact mailboxLive_alive h' h1
      · exact absurd hb1 h2
  refine ⟨fun b hb => tail_ge h' hb, ?_⟩
  rcases ht with h1 | ⟨b, h1, h2⟩
  · exact .inl h1
  · rcases hk b (alive_lt h1) with h3 | ⟨h3, h4⟩
    · exact .inr ⟨b, h3, h2⟩
    · exact absurd (quiet_alive h hq (a2 b h1 h3)) h4

/-- **C28 (partial).** As long as every mailbox ever created on this address is still alive, `len`, called at any moment in
any interleaving, returns exactly the number of queued unicast messages plus the length of the longest live mailbox. -/
theorem C28_len_partial {cap : Option Nat} {s s' : Sys} {i : Nat} (h : Reachable cap s)
    (hk : ∀ b, b < s.w.bq.length → s.w.mailboxLive b) (hs : s.step (.call (.len i)) = some s') :
    ∃ n, s.w.longestLive n ∧ s'.w.log = .len i (s.w.uq.length + n) :: s.w.log := by
  obtain ⟨as, hr⟩ := reachable_schedule h
  have hb : 0 < s.w.bq.length := by
    have := (run_dead as .init hr).1
    simp [init] at this; omega
  have := C28_exact_partial .init (by simp [init]) ⟨fun b _ => ?_, .inl rfl⟩ hr (fun b h => .inl (hk b h)) ⟨0, hk 0 hb⟩
  · obtain ⟨n, h1, h2, -⟩ := C28_never_under_partial h hs
    exact ⟨_, this, by rw [h1, h2]⟩
  · cases b <;> simp [init, World.items]

/-- **C28 (partial), recovery.** Whenever a receive future yields a broadcast (no other call in progress), the channel's
broadcast length is exact afterwards, whatever happened before. -/
theorem C28_recovers_partial {cap : Option Nat} {w w' : World} {r b wk : Nat} {m : Msg} (hq : Quiet cap w)
    (hd : Does w (.pollRecv r wk) w') (hy : w'.yielded r b (.all m)) : w'.longestLive w'.tail := by
  have hq' := hq.does hd
  obtain ⟨th', hre', hth'⟩ := hq'
  have ht : Tight w' := by
    have key : ∀ {w : World} {b : Nat}, Solo cap w [.recvTry r b wk] → Runs w [.recvTry r b wk] w' → Tight w' := by
      intro w b hs hm
      obtain ⟨w1, ns, he, hs1, hr1⟩ := hs.exec hm
      obtain ⟨th, t, hre, ht⟩ := hs.reach
      cases he with
      | recv_all hp h1 h2 =>
        have := runs_nil hr1; subst this
        exact (pop_tight hs.regWs (bqsOk_reachable hre) hs.bInv (bAll_reachable hre) (recv_rcv hre ht rfl)
          (recv_holder hre ht (by simp [mBq])) hp).congr
          (fun b h _ => (alive_congr' (by simp) b).trans h) (fun b => items_congr (by simp) b) (by simp)
      | recv_one hp h1 h2 =>
        have := runs_nil hr1; subst this
        have := hy.2; simp [World.yieldMsg, World.ev] at this
      | recv_shutdown h1 h2 h3 =>
        have := runs_nil hr1; subst this
        have := hy.2; simp [World.yieldMsg, World.ev] at this
      | recv_wait h1 h2 h3 =>
        obtain ⟨w2, ns2, he2, hs2, hr2⟩ := hs1.exec hr1
        cases he2 with
        | recvPoll_empty hc =>
          have := runs_nil hr2; subst this
          have := hy.2; simp [World.ev] at this
        | recvPoll_one h => simp at h
        | recvPoll_shutdown h => simp at h
        | recvPoll_bcast h => simp at h
        | recvPoll_panic h => simp at h
    obtain ⟨w1, ms, hc, hm⟩ := hd
    have hc0 := hc
    simp only [Xtra.call] at hc
    split at hc <;> simp at hc
    · obtain ⟨rfl, rfl⟩ := hc
      exact key (hq.call hc0) hm
    · obtain ⟨rfl, rfl⟩ := hc
      have hs := hq.call hc0
      have hwf := hs.wf
      obtain ⟨w1, ns, he, hs1, hr1⟩ := hs.exec hm
      cases he with
      | recvPoll_empty hc =>
        have := runs_nil hr1; subst this
        have := hy.2; simp [World.ev] at this
      | recvPoll_one hc =>
        have := runs_nil hr1; subst this
        have := hy.2; simp [World.yieldMsg, World.ev] at this
      | recvPoll_shutdown hc =>
        have := runs_nil hr1; subst this
        have := hy.2; simp [World.yieldMsg, World.ev] at this
      | recvPoll_panic hc =>
        obtain ⟨x, h1, h2, h3⟩ := hwf.2; rw [h1] at hc; simp [h2, h3] at hc
      | recvPoll_bcast hc =>
        obtain ⟨w2, ns2, he2, hs2, hr2⟩ := hs1.exec hr1
        obtain ⟨th, t, hre, ht⟩ := hs1.reach
        cases he2 with
        | recvBcast_some hp =>
          have := runs_nil hr2; subst this
          exact (pop_tight hs1.regWs (bqsOk_reachable hre) hs1.bInv (bAll_reachable hre) (recv_rcv hre ht rfl)
            (recv_holder hre ht (by simp [mBq])) hp).congr
            (fun b h _ => (alive_congr' (by simp) b).trans h) (fun b => items_congr (by simp) b) (by simp)
        | recvBcast_none hp => exact key hs2 hr2
  refine ⟨fun b hb => tail_ge hre' hb, ?_⟩
  rcases ht with h1 | ⟨b, h1, h2⟩
  · exact .inl h1
  · exact .inr ⟨b, quiet_alive hre' hth' h1, h2⟩

/-! ### Examples and refutations -/

/-- Two mailboxes on a bounded(1) address; a broadcast reaches both. -/
def exLenSched : List Act :=
  [.call (.cloneMailbox 1), .exec 0, .call (.broadcast 0), .call (.pollSend 3 0), .exec 2, .exec 2, .exec 2, .exec 2, .exec 2]

/-- … the first mailbox receives its copy, and the second one is dropped with its copy unread. -/
def exStaleSched : List Act :=
  exLenSched ++ [.call (.next 1), .call (.pollRecv 4 0), .exec 4, .call (.dropMailbox 2), .exec 5, .exec 5]

/-- Both mailboxes live: `len` is exact. Meets the hypotheses of `C28_never_under_partial`, `C28_len_partial`. -/
example : ∃ s s', Reachable (some 1) s ∧ (∀ b, b < s.w.bq.length → s.w.mailboxLive b) ∧ s.w.bq.length = 2 ∧
    s.step (.call (.len 0)) = some s' ∧ s'.w.log.head? = some (.len 0 1) := by
  refine ⟨_, _, Reachable.run .init (as := exLenSched) rfl, ?_, rfl, rfl, rfl⟩
  intro b hb
  match b, hb with
  | 0, _ => exact ⟨.mailbox 0, by decide, rfl⟩
  | 1, _ => exact ⟨.mailbox 1, by decide, rfl⟩

/-- The receive that takes the last copy restores exactness (it takes the first mailbox's copy here).
Meets the hypotheses of `C28_recovers_partial`. -/
example : ∃ w w', Quiet (some 1) w ∧ Does w (.pollRecv 4 0) w' ∧ w'.yielded 4 0 (.all ⟨0, .valued 0⟩) := by
  exact ⟨_, _, ⟨_, Reachable.run .init (as := exLenSched ++ [.call (.next 1)]) rfl, by decide⟩, ⟨_, _, rfl, .cons .nil⟩, rfl, rfl⟩

theorem items_nil' {w : World} (h : ∀ q ∈ w.bq, q.items = []) (b : Nat) : w.items b = [] := by
  unfold World.items
  split
  · rename_i q hq; exact h q (List.mem_of_getElem? hq)
  · rfl

theorem longestLive_zero {w : World} (h : ∀ q ∈ w.bq, q.items = []) : w.longestLive 0 := by
  refine ⟨fun b _ => ?_, .inl rfl⟩
  unfold World.items
  split
  · rename_i q hq; rw [h q (List.mem_of_getElem? hq)]; simp
  · simp

/-- **C28 is false of the code.** After a mailbox that lagged behind was dropped, nothing at all is queued in any live
mailbox, no call is in progress, and `len` reports 1. -/
theorem C28_refuted : ∃ s s', Reachable (some 1) s ∧ (∀ x ∈ s.th, x = []) ∧ s.w.uq = [] ∧ s.w.mailboxLive 0 ∧
    s.w.longestLive 0 ∧ s.step (.call (.len 0)) = some s' ∧ s'.w.log.head? = some (.len 0 1) := by
  refine ⟨_, _, Reachable.run .init (as := exStaleSched) rfl, by decide, rfl, ⟨.mailbox 0, by decide, rfl⟩,
    longestLive_zero (by decide), rfl, rfl⟩

/-- **C30 (partial).** If the channel's broadcast length is exact (which it is as long as no mailbox was dropped since it
last was, `C28_exact_partial`, and after every receive of a broadcast, `C28_recovers_partial`), a mailbox exists, and every
live mailbox holds fewer broadcasts than the capacity, then a broadcast polled for the first time (no other call in
progress) on a connected address is accepted in that poll and put into every live mailbox. Missing: see `C30_refuted`. -/
theorem C30_accepted_partial {cap : Option Nat} {w w' : World} {f mid wk : Nat} {m : Msg} {rc : Rc}
    (hq : Quiet cap w) (hx : w.longestLive w.tail) (hl : ∃ b, w.mailboxLive b)
    (hlt : ∀ c, cap = some c → ∀ b, w.mailboxLive b → (w.items b).length < c)
    (ho : w.objs[f]? = some (.send .bcast mid (.new m rc))) (hsc : 0 < w.strongRefs) (hd : Does w (.pollSend f wk) w') :
    (∃ ts, w'.log = .sendOk f mid :: .bsent m ts :: w.log) ∧
      ∀ b, w.mailboxLive b → (w'.items b).Perm (m :: w.items b) := by
  obtain ⟨th, hre, hth⟩ := id hq
  obtain ⟨b0, hb0⟩ := hl
  have hcnt := (C14_counts_exact hre).1
  refine (C07_accepted_iff hq ho (mailboxLive_rcv hre hb0) (by have : (⟨w, th⟩ : Sys).w.sc = w.sc := rfl; simp only at hcnt; omega) hd).1 ?_
  intro c hc
  have hcap := cap_reachable hre
  simp only at hcap
  rw [hcap] at hc
  rcases hx.2 with h0 | ⟨b, h1, h2⟩
  · have := hlt c hc b0 hb0; omega
  · have := hlt c hc b h1; omega

/-- **C30 (partial).** As long as every mailbox ever created on this address is still alive, the claim holds without reservation: if every
live mailbox holds fewer broadcasts than the capacity, a broadcast is accepted in its first poll. Missing: see `C30_refuted`. -/
theorem C30_no_mailbox_dropped_partial {cap : Option Nat} {w w' : World} {f mid wk : Nat} {m : Msg} {rc : Rc}
    (hq : Quiet cap w) (hk : ∀ b, b < w.bq.length → w.mailboxLive b)
    (hlt : ∀ c, cap = some c → ∀ b, w.mailboxLive b → (w.items b).length < c)
    (ho : w.objs[f]? = some (.send .bcast mid (.new m rc))) (hsc : 0 < w.strongRefs) (hd : Does w (.pollSend f wk) w') :
    (∃ ts, w'.log = .sendOk f mid :: .bsent m ts :: w.log) ∧
      ∀ b, w.mailboxLive b → (w'.items b).Perm (m :: w.items b) := by
  obtain ⟨th, hre, hth⟩ := id hq
  obtain ⟨as, hr⟩ := reachable_schedule hre
  have hb : 0 < w.bq.length := by
    have := (run_dead as .init hr).1
    simp [init] at this; omega
  refine C30_accepted_partial hq ?_ ⟨0, hk 0 hb⟩ hlt ho hsc hd
  refine C28_exact_partial .init (by simp [init]) ⟨fun b _ => ?_, .inl rfl⟩ hr (fun b h => .inl (hk b h)) ⟨0, hk 0 hb⟩
  cases b <;> simp [init, World.items]

/-- **C30 (partial).** Whatever mailboxes were dropped before: right after an actor has taken a broadcast (no other call in progress), the
claim holds. Missing: see `C30_refuted`. -/
theorem C30_after_receive_partial {cap : Option Nat} {w w1 w' : World} {r b0 f mid wk wk' : Nat} {m m0 : Msg} {rc : Rc}
    (hq : Quiet cap w) (hr : Does w (.pollRecv r wk) w1) (hy : w1.yielded r b0 (.all m0)) (hl : ∃ b, w1.mailboxLive b)
    (hlt : ∀ c, cap = some c → ∀ b, w1.mailboxLive b → (w1.items b).length < c)
    (ho : w1.objs[f]? = some (.send .bcast mid (.new m rc))) (hsc : 0 < w1.strongRefs) (hd : Does w1 (.pollSend f wk') w') :
    (∃ ts, w'.log = .sendOk f mid :: .bsent m ts :: w1.log) ∧
      ∀ b, w1.mailboxLive b → (w'.items b).Perm (m :: w1.items b) :=
  C30_accepted_partial (hq.does hr) (C28_recovers_partial hq hr hy) hl hlt ho hsc hd

/-- A broadcast on a bounded(2) address with two live mailboxes, one of which has one pending broadcast.
Meets the hypotheses of `C30_accepted_partial`. -/
example : ∃ w w', Quiet (some 2) w ∧ w.mailboxLive 0 ∧ w.mailboxLive 1 ∧ w.tail = 1 ∧ (w.items 0).length = 1 ∧
    w.objs[4]? = some (.send .bcast 1 (.new ⟨1, .valued 0⟩ .strong)) ∧ Does w (.pollSend 4 0) w' ∧
    (w'.items 0).length = 2 :=
  ⟨_, _, ⟨_, Reachable.run .init (as := exLenSched ++ [.call (.broadcast 0)]) rfl, by decide⟩, ⟨.mailbox 0, by decide, rfl⟩,
    ⟨.mailbox 1, by decide, rfl⟩, rfl, rfl, rfl, ⟨_, _, rfl, .cons (.cons (.cons (.cons (.cons .nil))))⟩, rfl⟩

/-- … none of the mailboxes of this channel was dropped (`C30_no_mailbox_dropped_partial`). -/
example : ∃ w, Quiet (some 2) w ∧ (∀ b, b < w.bq.length → w.mailboxLive b) ∧ w.bq.length = 2 ∧ 0 < w.strongRefs ∧
    w.objs[4]? = some (.send .bcast 1 (.new ⟨1, .valued 0⟩ .strong)) := by
  refine ⟨_, ⟨_, Reachable.run .init (as := exLenSched ++ [.call (.broadcast 0)]) rfl, by decide⟩, fun b hb => ?_, rfl, by decide, rfl⟩
  match b with
  | 0 => exact ⟨.mailbox 0, by decide, rfl⟩
  | 1 => exact ⟨.mailbox 1, by decide, rfl⟩
  | b + 2 => exact absurd hb (by show ¬ b + 2 < 2; omega)

/-- … after one of two mailboxes was dropped, the other actor takes a broadcast, and the next broadcast is accepted
(`C30_after_receive_partial`; capacity 1). -/
example : ∃ w w1 w', Quiet (some 1) w ∧ ¬ w.mailboxLive 1 ∧ Does w (.pollRecv 4 0) w1 ∧ w1.yielded 4 0 (.all ⟨0, .valued 0⟩) ∧
    w1.mailboxLive 0 ∧ (w1.items 0).length = 0 ∧ w1.objs[5]? = some (.send .bcast 1 (.new ⟨1, .valued 0⟩ .strong)) ∧
    0 < w1.strongRefs ∧ Does w1 (.pollSend 5 0) w' ∧ (w'.items 0).length = 1 := by
  refine ⟨_, _, _, ⟨_, Reachable.run .init (as := exLenSched ++ [.call (.dropMailbox 2), .exec 3, .exec 3, .call (.next 1), .call (.broadcast 0)]) rfl,
    by decide⟩, ?_, ⟨_, _, rfl, .cons .nil⟩, ⟨rfl, rfl⟩, ⟨.mailbox 0, by decide, rfl⟩, rfl, rfl, by decide,
    ⟨_, _, rfl, .cons (.cons (.cons (.cons (.cons .nil))))⟩, rfl⟩
  unfold World.mailboxLive; decide

/-- … a second broadcast is made and polled. -/
def exStuckSched : List Act :=
  exStaleSched ++ [.call (.dispatch 4), .call (.finish 4 0), .exec 7, .exec 7, .exec 7, .call (.broadcast 0), .call (.pollSend 5 7),
    .exec 9, .exec 9, .exec 9, .exec 9, .exec 9]

/-- **C30 is false of the code** (capacity 1): nothing is queued in the only live mailbox and no call is in progress, but the
broadcast was parked; and however many receive futures this actor creates and polls, however often, none of them yields
anything any more and the broadcast stays parked. -/
theorem C30_refuted : ∃ w, Quiet (some 1) w ∧ w.objs[1]? = some (.mailbox 0) ∧ w.uq = [] ∧ w.longestLive 0 ∧
    w.parkedSend 5 .bcast ⟨1, .valued 0⟩ ∧
    ∀ cs w', (∀ c ∈ cs, c.receives = true) → DoesAll w cs w' →
      w'.parkedSend 5 .bcast ⟨1, .valued 0⟩ ∧ ∀ r b am, .recv r b am ∈ w'.log → .recv r b am ∈ w.log := by
  refine ⟨_, ⟨_, Reachable.run .init (as := exStuckSched) rfl, by decide⟩, rfl, rfl, longestLive_zero (by decide), ⟨0, some 7, rfl, rfl⟩,
    fun cs w' hc hd => ?_⟩
  have h0 : Stuck0 (some 1) _ 5 .bcast ⟨1, .valued 0⟩ _ := ⟨⟨_, Reachable.run .init (as := exStuckSched) rfl, by decide⟩, rfl,
    fun b => items_nil' (by decide) b, by decide, noCells rfl, ⟨0, some 7, rfl, rfl⟩, fun _ _ _ h => h⟩
  have h1 := h0.all hc hd
  exact ⟨h1.parked, h1.silent⟩

/-- From the new channel (where the count is exact) through the clone and the broadcast. Meets the hypotheses of `C28_exact_partial`. -/
example : ∃ s', (init (some 1)).run exLenSched = some s' ∧ (∀ x ∈ (init (some 1)).th, x = []) ∧
    (init (some 1)).w.longestLive (init (some 1)).w.tail ∧ (∀ b, b < s'.w.bq.length → s'.w.mailboxLive b) ∧ s'.w.bq.length = 2 ∧ s'.w.tail = 1 := by
  refine ⟨_, rfl, by decide, ⟨fun b _ => ?_, .inl rfl⟩, fun b hb => ?_, rfl, rfl⟩
  · match b with
    | 0 => exact Nat.le_refl _
    | b + 1 => exact Nat.le_refl _
  · match b with
    | 0 => exact ⟨.mailbox 0, by decide, rfl⟩
    | 1 => exact ⟨.mailbox 1, by decide, rfl⟩
    | b + 2 => exact absurd hb (by show ¬ b + 2 < 2; omega)

end Xtra
