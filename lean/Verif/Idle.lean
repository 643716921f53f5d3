import Verif.Join
/-! Idle receivers (C12, C20, C22). -/

set_option linter.unusedSimpArgs false

namespace Xtra

theorem newBq_items (w : World) (ob b' : Nat) :
    ({ w with bq := w.bq ++ [⟨1, []⟩], bqs := w.bqs ++ [w.bq.length], objs := w.objs.set ob (.mailbox w.bq.length) } : World).items b' = w.items b' := by
  unfold World.items
  simp only []
  by_cases hl : b' < w.bq.length
  · rw [List.getElem?_append_left hl]
  · have hn : w.bq[b']? = none := by simp; omega
    rw [hn]
    by_cases he : b' = w.bq.length
    · subst he; simp
    · have : (w.bq ++ [(⟨1, []⟩ : BQ)])[b']? = none := by simp; omega
      rw [this]

theorem popB_idle {w w' : World} {b : Nat} {m : Msg} (r : RegWs w.ws w.wOne w.wAll)
    (hp : w.popBroadcast b = some (m, w')) :
    w'.wRx = [] ∨ (w'.wRx = w.wRx ∧ ∀ b', w.items b' = [] → w'.items b' = []) := by
  obtain ⟨q, hq, ⟨-, rfl⟩ | ⟨-, hg, rfl⟩ | ⟨-, h, wk, m', q', t, rfl⟩⟩ := popBroadcast_cases r.all hp
  · right; refine ⟨by simp, fun b' hb => ?_⟩
    rw [afterPop_items (pop_ne hq)]; split
    · rename_i e; subst e; exact (pop_ne hq hb).elim
    · exact hb
  · right; refine ⟨by simp, fun b' hb => ?_⟩
    have := afterPop_items (pop_ne hq) q b'
    rw [show (({ w.afterPop b q with wAll := [] } : World)).items b' = (w.afterPop b q).items b' from rfl, this]
    split
    · rename_i e; subst e; exact (pop_ne hq hb).elim
    · exact hb
  · left; rfl

/-- Registered receivers and broadcast queues in one step. -/
theorem execR_idle {w w' : World} {m : Micro} {ms : List Micro} (h : ExecR w m w' ms)
    (r : RegWs w.ws w.wOne w.wAll) :
    w'.wRx = [] ∨ ((∀ c ∈ w'.wRx, c ∈ w.wRx ∨ c = w.cells.length ∧ ∃ r0 b wk, m = .recvTry r0 b wk ∧ (w.sc ≠ 0 ∨ w.lag = .late) ∧ w'.sc = w.sc ∧ sumBy mShutRx ms = 0) ∧
      ∀ b', w.items b' = [] → w'.items b' = []) := by
  cases h
  case recv_all hp _ _ =>
    rcases popB_idle r hp with h | ⟨h, h2⟩
    · left; simpa using h
    · right; exact ⟨fun c hc => .inl (by simpa [h] using hc), fun b' hb => h2 b' hb⟩
  case recvBcast_some hp =>
    rcases popB_idle r hp with h | ⟨h, h2⟩
    · left; simpa using h
    · right; exact ⟨fun c hc => .inl (by simpa [h] using hc), fun b' hb => h2 b' hb⟩
  case recv_one hp _ _ =>
    right
    refine ⟨fun c hc => .inl (by simpa [World.popUnicast_wRx hp] using hc), fun b' hb => ?_⟩
    rw [items_congr (w := w) (by simp [World.popUnicast_bq hp])]; exact hb
  case critAll_sent => left; rfl
  case bcastShutdown => left; rfl
  case shutRx => left; rfl
  case critOne_park => left; rfl
  case critOne_queue => left; rfl
  case requeue_queue => left; rfl
  case critOne_hand hw _ _ =>
    right; refine ⟨fun c hc => .inl ?_, fun b' hb => hb⟩
    rw [hw]; simp at hc ⊢; simp [hc]
  case requeue_hand hw _ _ =>
    right; refine ⟨fun c hc => .inl ?_, fun b' hb => hb⟩
    rw [hw]; simp at hc ⊢; simp [hc]
  case recv_wait r0 b wk _ _ hs =>
    right; refine ⟨fun c hc => ?_, fun b' hb => hb⟩
    simp at hc
    rcases hc with hc | hc
    · exact .inl hc
    · exact .inr ⟨hc, _, _, _, rfl, hs, rfl, by simp [mShutRx]⟩
  case dropBq b =>
    right; refine ⟨fun c hc => .inl (by simpa using hc), fun b' hb => ?_⟩
    rw [decBq_items]; split
    · rfl
    · exact hb
  case newBq => right; exact ⟨fun c hc => .inl hc, fun b' hb => by rw [newBq_items]; exact hb⟩
  all_goals
    right
    refine ⟨fun c hc => .inl (by simpa using hc), fun b' hb => ?_⟩
    rw [items_congr (w := w) (by simp)]; exact hb

/-- Receive futures waiting on a cell, and the polls under way. -/
theorem execR_recvObj {w w' : World} {m : Micro} {ms : List Micro} (h : ExecR w m w' ms) {f b c : Nat}
    (ho : w'.objs[f]? = some (.recv b (.waiting c))) :
    w.objs[f]? = some (.recv b (.waiting c)) ∨ ∃ r wk, m = .recvPoll r b c wk := by
  cases h
  case recv_all hp _ _ =>
    simp [World.popBroadcast_objs hp] at ho
    rcases set_cases ho with ⟨_, h⟩ | h <;> simp_all
  case recv_one hp _ _ =>
    simp [World.popUnicast_objs hp] at ho
    rcases set_cases ho with ⟨_, h⟩ | h <;> simp_all
  case recvBcast_some hp =>
    simp [World.popBroadcast_objs hp] at ho
    rcases set_cases ho with ⟨_, h⟩ | h <;> simp_all
  all_goals first
    | exact .inl ho
    | (simp at ho; exact .inl ho)
    | (simp at ho; rcases set_cases ho with ⟨h1, h⟩ | h
       · first
           | (simp at h; done)
           | (simp at h; obtain ⟨rfl, rfl⟩ := h; exact .inr ⟨_, _, rfl⟩)
       · exact .inl h.2)

theorem execR_recvTh {w w' : World} {m : Micro} {ms : List Micro} (h : ExecR w m w' ms) {r b c wk : Nat}
    (hm : Micro.recvPoll r b c wk ∈ ms) : m = .recvTry r b wk ∧ c = w.cells.length ∧ w'.items b = [] := by
  cases h
  case recv_wait h1 h2 h3 => simp at hm; obtain ⟨rfl, rfl, rfl, rfl⟩ := hm; exact ⟨rfl, rfl, h2⟩
  all_goals simp at hm

theorem execR_ns {w w' : World} {m : Micro} {ms : List Micro} (h : ExecR w m w' ms) {c : Nat}
    (hm : Micro.notifyShut c ∈ ms) : m = .shutRx := by
  cases h
  case shutRx => rfl
  all_goals simp at hm

theorem notifyCell_sh {cells : List RxCell} {c d : Nat} {k : Ctrl} {wk : Option Nat}
    (h : (notifyCell cells c k)[d]? = some (.full .shutdown wk)) :
    cells[d]? = some (.full .shutdown wk) ∨ k = .shutdown := by
  unfold notifyCell at h
  split at h
  · rcases set_cases h with ⟨_, h⟩ | h
    · simp at h; exact .inr h.1.symm
    · exact .inl h.2
  · exact .inl h

theorem notifyAll_sh {q : List Nat} {cells : List RxCell} {d : Nat} {wk : Option Nat}
    (h : (q.foldl (fun cs c => notifyCell cs c .newBroadcast) cells)[d]? = some (.full .shutdown wk)) :
    cells[d]? = some (.full .shutdown wk) := by
  induction q generalizing cells with
  | nil => exact h
  | cons c cs ih =>
    rcases notifyCell_sh (ih h) with h | h
    · exact h
    · simp at h

theorem popB_sh {w w' : World} {b : Nat} {m : Msg} (r : RegWs w.ws w.wOne w.wAll)
    (hp : w.popBroadcast b = some (m, w')) {d : Nat} {wk : Option Nat}
    (h : w'.cells[d]? = some (.full .shutdown wk)) : w.cells[d]? = some (.full .shutdown wk) := by
  obtain ⟨q, hq, ⟨-, rfl⟩ | ⟨-, hg, rfl⟩ | ⟨-, h0, wk0, m', q', t, rfl⟩⟩ := popBroadcast_cases r.all hp
  · simpa using h
  · simpa using h
  · have := notifyAll_sh h; simpa using this

/-- A cell holding a shutdown notice. -/
theorem execR_sh {w w' : World} {m : Micro} {ms : List Micro} (h : ExecR w m w' ms)
    (r : RegWs w.ws w.wOne w.wAll) {d : Nat} {wk : Option Nat}
    (hd : w'.cells[d]? = some (.full .shutdown wk)) :
    w.cells[d]? = some (.full .shutdown wk) ∨ ∃ c, m = .notifyShut c := by
  cases h
  case recv_all hp _ _ => left; exact popB_sh r hp hd
  case recvBcast_some hp =>
    left; simp at hd; rcases set_cases hd with ⟨_, h⟩ | h
    · simp at h
    · exact popB_sh r hp h.2
  case recv_one hp _ _ => left; simpa [World.popUnicast_cells hp] using hd
  case notifyShut => right; exact ⟨_, rfl⟩
  case critAll_sent => left; exact notifyAll_sh hd
  case bcastShutdown => left; exact notifyAll_sh hd
  case recv_wait =>
    left; rcases append_cases hd with h | ⟨_, h⟩
    · exact h.2
    · simp at h
  all_goals first
    | (left; simpa using hd)
    | (left; simp at hd; rcases set_cases hd with ⟨_, h⟩ | h
       · simp at h
       · exact h.2)

structure IInv (s : Sys) : Prop where
  rx : s.w.wRx ≠ [] → 0 < s.w.sc ∨ 0 < tot mShutRx s.th
  ns : ∀ x ∈ s.th, ∀ c, Micro.notifyShut c ∈ x → s.w.sc = 0
  sh : ∀ (c : Nat) (wk : Option Nat), s.w.cells[c]? = some (.full .shutdown wk) → s.w.sc = 0
  ob : ∀ f b c : Nat, s.w.objs[f]? = some (.recv b (.waiting c)) → c ∈ s.w.wRx → s.w.items b = []
  ot : ∀ x ∈ s.th, ∀ r b c wk, Micro.recvPoll r b c wk ∈ x → c ∈ s.w.wRx → s.w.items b = []

/-- A cell owned by a receive future or a poll under way exists. -/
theorem own_cell_obj {cap : Option Nat} {s : Sys} (hr : Reachable cap s) {f b c : Nat}
    (h : s.w.objs[f]? = some (.recv b (.waiting c))) : cellLive s.w.cells c = true := by
  have h1 := (own_reachable hr).cell c
  have h2 := le_sumBy (oCell c) h
  simp [oCell, rCell] at h2
  unfold cellL at h1
  split at h1
  · assumption
  · omega

theorem own_cell_th {cap : Option Nat} {s : Sys} (hr : Reachable cap s) {x : List Micro} (hx : x ∈ s.th)
    {r b c wk : Nat} (h : Micro.recvPoll r b c wk ∈ x) : cellLive s.w.cells c = true := by
  have h1 := (own_reachable hr).cell c
  obtain ⟨t, ht⟩ := List.getElem?_of_mem hx
  obtain ⟨i, hi⟩ := List.getElem?_of_mem h
  have h2 := le_sumBy (sumBy (mCell c)) ht
  have h3 := le_sumBy (mCell c) hi
  have h4 : tot (mCell c) s.th = sumBy (sumBy (mCell c)) s.th := rfl
  simp [mCell] at h3
  unfold cellL at h1
  split at h1
  · assumption
  · omega

theorem iInv_exec {cap : Option Nat} {s : Sys} {t : Nat} {m : Micro} {rest : List Micro} {w' : World}
    {ms : List Micro} (hr : Reachable cap s) (k : IInv s) (ht : s.th[t]? = some (m :: rest))
    (he : ExecR s.w m w' ms) : IInv ⟨w', s.th.set t (ms ++ rest)⟩ := by
  have r := regWs_reachable hr
  have hsz := fun h0 => execR_sc_zero he h0
  have hidle := execR_idle he r
  have hmem := List.mem_of_getElem? ht
  have h1 := tot_exec mShutRx ms ht
  have hscr := sc_reachable hr
  have hms := tot_head mStrong ht
  refine ⟨?_, ?_, ?_, ?_, ?_⟩
  · intro hne
    rcases hidle with h | ⟨h2, -⟩
    · exact (hne h).elim
    · cases hw : w'.wRx with
      | nil => exact (hne hw).elim
      | cons c cs =>
        have hc := h2 c (by simp [hw])
        rcases hc with hc | ⟨-, r0, b, wk, rfl, h3, h4, h6⟩
        · have h5 := k.rx (by intro h; rw [h] at hc; simp at hc)
          have hm0 : mShutRx m = 0 := by
            cases m <;> simp [mShutRx]
            cases he; simp at hw
          rcases h5 with h5 | h5
          · by_cases hz : w'.sc = 0
            · right
              have : sumBy mShutRx ms = 1 := by
                have hd : ∀ rc : Rc, rc.isStrong = true → mStrong (.dropTx rc) = 1 := by
                  intro rc h; simp [mStrong, Rc.cnt_strong h]
                cases he
                case recv_all hp _ _ => simp [World.popBroadcast_sc hp] at hz; omega
                case recv_one hp _ _ => simp [World.popUnicast_sc hp] at hz; omega
                case recvBcast_some hp => simp [World.popBroadcast_sc hp] at hz; omega
                case dropTx_last => simp [mShutRx]
                case dropTx_more hs1 hs2 => simp at hz; omega
                all_goals first
                  | omega
                  | (simp at hz; omega)
              simp only at *; omega
            · left; simp only; omega
          · right; simp only at *; omega
        · have h7 : 0 < s.w.sc ∨ 0 < tot mShutRx s.th := h3.elim (fun h => .inl (by omega)) (oldLoad_reachable hr)
          simp only [mShutRx] at h1 ⊢
          omega
  · intro x hx c hc
    apply hsz
    rcases List.mem_or_eq_of_mem_set hx with hx | rfl
    · exact k.ns x hx c hc
    · rcases List.mem_append.mp hc with h | h
      · have := execR_ns he h; subst this
        apply shutRx_pending hr
        have := tot_head mShutRx ht; simp [mShutRx] at this; omega
      · exact k.ns _ hmem c (by simp [h])
  · intro c wk h
    apply hsz
    rcases execR_sh he r h with h | ⟨c', rfl⟩
    · exact k.sh _ _ h
    · exact k.ns _ hmem c' (by simp)
  · intro f b c h hc
    have hown : cellLive s.w.cells c = true ∧ (c ∈ s.w.wRx → s.w.items b = []) := by
      rcases execR_recvObj he h with h | ⟨r0, wk, rfl⟩
      · exact ⟨own_cell_obj hr h, k.ob f b c h⟩
      · exact ⟨own_cell_th hr hmem (r := r0) (b := b) (wk := wk) (by simp), k.ot _ hmem r0 b c wk (by simp)⟩
    rcases hidle with h2 | ⟨h2, h3⟩
    · simp only [h2] at hc; simp at hc
    · rcases h2 c hc with h4 | ⟨h4, -⟩
      · exact h3 _ (hown.2 h4)
      · have := cellLive_lt hown.1; omega
  · intro x hx r0 b c wk h hc
    rcases List.mem_or_eq_of_mem_set hx with hx | rfl
    · have hown := own_cell_th hr hx h
      rcases hidle with h2 | ⟨h2, h3⟩
      · simp only [h2] at hc; simp at hc
      · rcases h2 c hc with h4 | ⟨h4, -⟩
        · exact h3 _ (k.ot x hx r0 b c wk h h4)
        · have := cellLive_lt hown; omega
    · rcases List.mem_append.mp h with h | h
      · exact (execR_recvTh he h).2.2
      · have hin : Micro.recvPoll r0 b c wk ∈ m :: rest := by simp [h]
        have hown := own_cell_th hr hmem hin
        rcases hidle with h2 | ⟨h2, h3⟩
        · simp only [h2] at hc; simp at hc
        · rcases h2 c hc with h4 | ⟨h4, -⟩
          · exact h3 _ (k.ot _ hmem r0 b c wk hin h4)
          · have := cellLive_lt hown; omega

theorem iInv_call {cap : Option Nat} {s : Sys} {c : Call} {w' : World}
    {ms : List Micro} (hr : Reachable cap s) (k : IInv s) (hc : CallR s.w c w' ms) :
    IInv ⟨w', s.th ++ [ms]⟩ := by
  have hsz := fun h0 => sc_zero_call hr hc h0
  have hs := (callR_noShut hc).2
  have hw := callR_regWs hc
  have hit := (callR_bqs hc).2.2
  have hsc : s.w.sc ≤ w'.sc := by
    cases hc <;> simp [World.addTx] <;> grind
  have hcl : w'.cells = s.w.cells := hw.2.2.2.2.2.1
  have hrx : w'.wRx = s.w.wRx := hw.2.2.2.2.1
  refine ⟨?_, ?_, ?_, ?_, ?_⟩
  · intro h
    simp only [hrx] at h
    rw [tot_append]
    exact (k.rx h).imp (fun h => by simp only; omega) (fun h => by omega)
  · intro x hx d hd
    rcases List.mem_append.mp hx with hx | hx
    · exact hsz (k.ns x hx d hd)
    · simp at hx; subst hx; cases hc <;> simp at hd
  · intro d wk h
    simp only [hcl] at h; exact hsz (k.sh d wk h)
  · intro f b d h hd
    simp only [hrx] at hd
    simp only [hit]
    refine k.ob f b d ?_ hd
    cases hc
    all_goals first
      | exact h
      | (simp at h; exact h)
      | (simp at h; rcases set_cases h with ⟨_, h3⟩ | h3
         · simp at h3
         · exact h3.2)
      | (simp at h; rcases append_cases h with h3 | ⟨_, h3⟩
         · exact h3.2
         · simp at h3)
  · intro x hx r0 b d wk h hd
    simp only [hrx] at hd
    simp only [hit]
    rcases List.mem_append.mp hx with hx | hx
    · exact k.ot x hx r0 b d wk h hd
    · simp at hx; subst hx
      cases hc <;> simp at h
      case pollRecv_waiting ho =>
        obtain ⟨rfl, rfl, rfl, rfl⟩ := h
        exact k.ob _ _ _ ho hd

theorem iInv_reachable {cap : Option Nat} {s : Sys} (h : Reachable cap s) : IInv s := by
  refine Reachable.inv ?_ ?_ ?_ h
  · refine ⟨?_, ?_, ?_, ?_, ?_⟩ <;> simp [init]
  · intro s c w' ms hr ih hc; exact iInv_call hr ih hc
  · intro s t m rest w' ms hr ih ht he; exact iInv_exec hr ih ht he

end Xtra
