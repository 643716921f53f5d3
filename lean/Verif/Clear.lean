import Verif.PropsJoin
/-! After the last mailbox is gone nothing stays in the channel, unless a send came too late. -/

set_option linter.unusedSimpArgs false

namespace Xtra

/-! ### a running cancellation still owns its mailbox reference -/

def ReqOk (x : List Micro) : Prop :=
  ∀ m, Micro.requeue m ∈ x → ∃ post, x = .requeue m :: post ∧ Micro.dropRx ∈ post ∧ ∀ m', Micro.requeue m' ∉ post

theorem execR_requeue {w w' : World} {mc : Micro} {ms : List Micro} (h : ExecR w mc w' ms) {m : Msg}
    (hm : Micro.requeue m ∈ ms) : (∃ b c, mc = .cancel b c) ∧ ∃ b c, ms = [.requeue m, .dropRx, .dropBq b, .dropCell c] := by
  cases h <;> simp at hm
  subst hm
  exact ⟨⟨_, _, rfl⟩, _, _, rfl⟩

theorem callR_requeue {w w' : World} {c : Call} {ms : List Micro} (h : CallR w c w' ms) {m : Msg} :
    Micro.requeue m ∉ ms := by
  cases h <;> simp

theorem reqOk_reachable {cap : Option Nat} {s : Sys} (h : Reachable cap s) : ∀ x ∈ s.th, ReqOk x := by
  refine Reachable.inv (P := fun s => ∀ x ∈ s.th, ReqOk x) ?_ ?_ ?_ h
  · simp [init]
  · intro s c w' ms _ ih hc x hx m hm
    simp at hx
    rcases hx with hx | rfl
    · exact ih x hx m hm
    · exact absurd hm (callR_requeue hc)
  · intro s t mc rest w' ms hr ih ht he x hx m hm
    have hold := ih _ (List.mem_of_getElem? ht)
    rcases mem_set_cases hx with hx | rfl
    · exact ih x hx m hm
    · have hrest : ∀ m', Micro.requeue m' ∈ rest → False := by
        intro m' hm'
        obtain ⟨post, h1, -, h3⟩ := hold m' (List.mem_cons_of_mem _ hm')
        simp at h1; obtain ⟨-, rfl⟩ := h1
        exact h3 m' hm'
      rcases List.mem_append.mp hm with h1 | h1
      · obtain ⟨-, b, c, rfl⟩ := execR_requeue he h1
        refine ⟨_, rfl, by simp, fun m' hm' => ?_⟩
        simp at hm'
        exact hrest m' hm'
      · exact (hrest m h1).elim

/-- When no mailbox reference is left, no receive and no cancellation is running. -/
theorem noRx_steps {cap : Option Nat} {s : Sys} (h : Reachable cap s) (h0 : s.w.rcv = 0) {t : Nat} {mc : Micro}
    {rest : List Micro} (ht : s.th[t]? = some (mc :: rest)) : mRcv mc = 0 ∧ ∀ m, mc ≠ .requeue m := by
  have h1 := rcv_reachable h
  have h2 := tot_head mRcv ht
  refine ⟨by omega, ?_⟩
  rintro m rfl
  obtain ⟨post, h3, h4, -⟩ := reqOk_reachable h _ (List.mem_of_getElem? ht) m (by simp)
  simp at h3; subst h3
  have h5 := sum_ne_of_mem mRcv h4
  have h6 := le_sumBy (sumBy mRcv) ht
  simp [mRcv] at h5 h6
  have h7 : tot mRcv s.th = sumBy (sumBy mRcv) s.th := rfl
  omega

/-! ### the invariant -/

/-- Nothing is left in the channel. -/
structure Cleared (w : World) : Prop where
  uq : w.uq = []
  ws : ∀ (h : Nat) (wk : Option Nat) (m : Msg), w.ws[h]? ≠ some (.active wk m)

theorem Cleared.congr {w w' : World} (h : Cleared w) (h1 : w'.uq = w.uq) (h2 : w'.ws = w.ws) : Cleared w' :=
  ⟨by rw [h1]; exact h.uq, by rw [h2]; exact h.ws⟩

theorem Cleared.set {w : World} (h : Cleared w) {w' : World} {k : Nat} {x : WsCell} (hx : ∀ wk m, x ≠ .active wk m)
    (h1 : w'.uq = w.uq) (h2 : w'.ws = w.ws.set k x) : Cleared w' := by
  refine ⟨by rw [h1]; exact h.uq, fun i wk m hi => ?_⟩
  rw [h2] at hi
  rcases set_cases hi with ⟨-, h⟩ | h3
  · exact hx _ _ h.symm
  · exact h.ws _ _ _ h3.2

theorem shutTx_cleared {w : World} (r : RegWs w.ws w.wOne w.wAll) : Cleared w.shutTx := by
  refine ⟨by simp [World.shutTx], fun h wk m hh => ?_⟩
  rw [shutTx_ws] at hh
  split at hh
  · cases hx : w.ws[h]? with
    | none => simp [hx] at hh
    | some x => rw [hx] at hh; cases x <;> simp [WsCell.close] at hh
  · rename_i hn; exact hn (r.reg hh)

theorem execR_toZero {w w' : World} {mc : Micro} {ms : List Micro} (h : ExecR w mc w' ms) (h0 : w'.rcv = 0) :
    w.rcv = 0 ∨ mc = .dropRx ∧ ms = [.shutTx] := by
  cases h
  case recv_all hp _ _ => left; simpa [World.popBroadcast_rcv hp] using h0
  case recv_one hp _ _ => left; simpa [World.popUnicast_rcv hp] using h0
  case recvBcast_some hp => left; simpa [World.popBroadcast_rcv hp] using h0
  case dropRx_last => exact .inr ⟨rfl, rfl⟩
  case dropRx_more h1 => left; simp at h0; omega
  all_goals (left; simpa using h0)

theorem callR_toZero {w w' : World} {c : Call} {ms : List Micro} (h : CallR w c w' ms) (h0 : w'.rcv = 0) : w.rcv = 0 := by
  cases h <;> first | exact h0 | (simp at h0; exact h0) | (simp at h0)

theorem callR_uq {w w' : World} {c : Call} {ms : List Micro} (h : CallR w c w' ms) : w'.uq = w.uq := by
  cases h <;> simp

theorem clear_reachable {cap : Option Nat} {s : Sys} (h : Reachable cap s) : s.w.rcv = 0 →
    0 < tot mShutTx s.th ∨ (∃ i, Ev.late i ∈ s.w.log) ∨ Cleared s.w := by
  refine Reachable.inv (P := fun s => s.w.rcv = 0 → 0 < tot mShutTx s.th ∨ (∃ i, Ev.late i ∈ s.w.log) ∨ Cleared s.w) ?_ ?_ ?_ h
  · intro h; simp [init] at h
  · intro s c w' ms hr ih hc h0
    rcases ih (callR_toZero hc h0) with h1 | ⟨i, h1⟩ | h1
    · left; rw [tot_append]; omega
    · right; left; exact ⟨i, (callR_suffix hc).mem h1⟩
    · right; right; exact h1.congr (callR_uq hc) (callR_wsEq hc)
  · intro s t mc rest w' ms hr ih ht he h0
    have hreg := regWs_reachable hr
    have htot := tot_exec mShutTx ms ht
    rcases execR_toZero he h0 with h1 | ⟨rfl, rfl⟩
    · rcases ih h1 with h2 | ⟨i, h2⟩ | h2
      · by_cases hs : mc = .shutTx
        · subst hs; cases he; right; right; exact shutTx_cleared hreg
        · left
          have : mShutTx mc = 0 := by cases mc <;> simp [mShutTx] at hs ⊢
          show 0 < tot mShutTx (s.th.set t (ms ++ rest))
          omega
      · exact .inr (.inl ⟨i, (execR_suffix he hreg).mem h2⟩)
      · right
        have hn := noRx_steps hr h1 ht
        cases he
        case critAll_park => left; exact ⟨_, by simp [World.lateLog, h1]; exact .inl rfl⟩
        case critAll_sent m _ _ _ => left; exact ⟨m.id, by simp [World.sendBroadcast, World.lateLog, h1]⟩
        case critOne_park => left; exact ⟨_, by simp [World.lateLog, h1]; exact .inl rfl⟩
        case critOne_hand => left; exact ⟨_, by simp [World.lateLog, h1]; exact .inl rfl⟩
        case critOne_queue => left; exact ⟨_, by simp [World.lateLog, h1]; exact .inl rfl⟩
        case pollWs_active hc => exact absurd hc (h2.ws _ _ _)
        case pollWs_delivered => right; exact h2.set (by simp) rfl rfl
        case pollWs_closed => right; exact h2.set (by simp) rfl rfl
        case dropWs_active hc => exact absurd hc (h2.ws _ _ _)
        case dropWs_other => right; exact h2.set (by simp) rfl rfl
        case requeue_hand => exact absurd rfl (hn.2 _)
        case requeue_queue => exact absurd rfl (hn.2 _)
        case shutTx => right; exact shutTx_cleared hreg
        case recv_all => simp [mRcv] at hn
        case recv_one => simp [mRcv] at hn
        case recvBcast_some => simp [mRcv] at hn
        all_goals (right; exact h2.congr (by simp) (by simp))
    · left
      show 0 < tot mShutTx (s.th.set t ([Micro.shutTx] ++ rest))
      simp only [sumBy_cons, sumBy_nil, mShutTx] at htot
      omega

end Xtra
