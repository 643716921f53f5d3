import Verif.Grace
import Verif.PropsLen
/-! Shutdown notices and the broadcasts sent before them (C56): proofs about the channel. -/

set_option linter.unusedSimpArgs false

namespace Xtra

/-- Cell `c` belongs to a receive future on mailbox `b`, at rest or being polled. -/
def Sys.ownsCell (s : Sys) (b c : Nat) : Prop :=
  (∃ f : Nat, s.w.objs[f]? = some (.recv b (.waiting c))) ∨ ∃ x ∈ s.th, ∃ r wk, Micro.recvPoll r b c wk ∈ x

theorem callR_recvObj {w w' : World} {cl : Call} {ms : List Micro} (h : CallR w cl w' ms) {f b c : Nat}
    (ho : w'.objs[f]? = some (.recv b (.waiting c))) : w.objs[f]? = some (.recv b (.waiting c)) := by
  cases h
  all_goals first
    | exact ho
    | (simp at ho; exact ho)
    | (simp at ho; rcases set_cases ho with ⟨_, h3⟩ | h3
       · simp at h3
       · exact h3.2)
    | (simp at ho; rcases append_cases ho with h3 | ⟨_, h3⟩
       · exact h3.2
       · simp at h3)

/-- While broadcasts are in the mailbox, no receive future on it goes to wait. -/
theorem ownsCell_back {cap : Option Nat} {s s' : Sys} {a : Act} (h : Reachable cap s) (hs : s.step a = some s') {b c : Nat}
    (hne : s.w.items b ≠ []) (ho : s'.ownsCell b c) : s.ownsCell b c := by
  rcases step_rel hs with ⟨cl, w', ms, rfl, hc, rfl⟩ | ⟨t, mc, rest, w', ms, rfl, ht, he, rfl⟩
  · rcases ho with ⟨f, h1⟩ | ⟨x, hx, r, wk, h1⟩
    · exact .inl ⟨f, callR_recvObj hc h1⟩
    · simp at hx; rcases hx with hx | rfl
      · exact .inr ⟨x, hx, r, wk, h1⟩
      · cases hc <;> simp at h1
        case pollRecv_waiting ho =>
          obtain ⟨rfl, rfl, rfl, rfl⟩ := h1
          exact .inl ⟨_, ho⟩
  · have hmem := List.mem_of_getElem? ht
    rcases ho with ⟨f, h1⟩ | ⟨x, hx, r, wk, h1⟩
    · rcases execR_recvObj he h1 with h2 | ⟨r, wk, rfl⟩
      · exact .inl ⟨f, h2⟩
      · exact .inr ⟨_, hmem, r, wk, by simp⟩
    · rcases List.mem_or_eq_of_mem_set hx with hx | rfl
      · exact .inr ⟨x, hx, r, wk, h1⟩
      · rcases List.mem_append.mp h1 with h1 | h1
        · exfalso
          obtain ⟨rfl, -, -⟩ := execR_recvTh he h1
          cases he <;> simp at h1
          rename_i e _; exact hne e
        · exact .inr ⟨_, hmem, r, wk, by simp [h1]⟩

theorem ownsCell_idle {cap : Option Nat} {s : Sys} (h : Reachable cap s) {b c : Nat} (ho : s.ownsCell b c) (hc : c ∈ s.w.wRx) :
    s.w.items b = [] := by
  rcases ho with ⟨f, h1⟩ | ⟨x, hx, r, wk, h1⟩
  · exact (iInv_reachable h).ob f b c h1 hc
  · exact (iInv_reachable h).ot x hx r b c wk h1 hc

/-- No receive future on mailbox `b` has been told, or is about to be told, that the strong addresses are gone. -/
structure UntoldB (b : Nat) (s : Sys) : Prop where
  told : ∀ r, Ev.recv r b .shutdown ∉ s.w.log
  ns : ∀ c, s.ownsCell b c → ∀ x ∈ s.th, Micro.notifyShut c ∉ x
  sh : ∀ (c : Nat) (wk : Option Nat), s.ownsCell b c → s.w.cells[c]? ≠ some (.full .shutdown wk)

theorem UntoldB.of_sc {cap : Option Nat} {s : Sys} {b : Nat} (h : Reachable cap s) (hs : s.w.sc ≠ 0) : UntoldB b s :=
  have u := Untold.of_sc h hs
  ⟨fun r hr => u.told ⟨r, b, hr⟩, fun c _ x hx => u.ns x hx c, fun c wk _ => u.sh c wk⟩

theorem execR_sh_at {w w' : World} {c d : Nat} {ms : List Micro} {wk : Option Nat} (h : ExecR w (.notifyShut c) w' ms)
    (hd : w'.cells[d]? = some (.full .shutdown wk)) : w.cells[d]? = some (.full .shutdown wk) ∨ d = c := by
  cases h
  by_cases e : d = c
  · exact .inr e
  · left
    simp only [notifyCell] at hd
    split at hd
    · simpa [List.getElem?_set_ne (Ne.symm e)] using hd
    · exact hd

/-- While broadcasts are in the mailbox, nobody comes to be told. -/
theorem UntoldB.step {cap : Option Nat} {s s' : Sys} {a : Act} {b : Nat} (h : Reachable cap s) (hu : UntoldB b s) (hq : s.w.items b ≠ [])
    (hs : s.step a = some s') : UntoldB b s' := by
  have hrg := regWs_reachable h
  have back : ∀ {c : Nat}, s'.ownsCell b c → s.ownsCell b c := fun ho => ownsCell_back h hs hq ho
  rcases step_rel hs with ⟨c, w', ms, rfl, hc, rfl⟩ | ⟨t, mc, rest, w', ms, rfl, ht, he, rfl⟩
  · refine ⟨?_, ?_, ?_⟩
    · intro r he; exact hu.told r (callR_recvEv hc he)
    · intro d ho x hx hd
      simp at hx; rcases hx with hx | rfl
      · exact hu.ns d (back ho) x hx hd
      · cases hc <;> simp at hd
    · intro d wk ho hd
      simp only [callR_cells hc] at hd; exact hu.sh d wk (back ho) hd
  · have hth := List.mem_of_getElem? ht
    refine ⟨?_, ?_, ?_⟩
    · intro r h1
      rcases execR_told he hrg h1 with h2 | ⟨wk, -, -, h2, -⟩ | ⟨c, wk, wk', rfl, h2⟩
      · exact hu.told r h2
      · exact hq h2
      · exact hu.sh _ _ (.inr ⟨_, hth, r, wk, by simp⟩) h2
    · intro d ho0 x hx hd
      have ho := back ho0
      clear ho0
      rcases List.mem_or_eq_of_mem_set hx with hx | rfl
      · exact hu.ns d ho x hx hd
      · rcases List.mem_append.mp hd with hd | hd
        · have := execR_ns he hd; subst this
          clear hs back
          cases he
          simp at hd
          exact hq (ownsCell_idle h ho hd)
        · exact hu.ns d ho _ hth (by simp [hd])
    · intro d wk ho hd
      have ho := back ho
      rcases execR_sh he hrg hd with h1 | ⟨c, rfl⟩
      · exact hu.sh d wk ho h1
      · rcases execR_sh_at he hd with h1 | rfl
        · exact hu.sh d wk ho h1
        · exact hu.ns d ho _ hth (by simp)

/-- Mailbox `b` is gone and no receive future on it was ever told: none ever will be. -/
theorem untoldB_dead {cap : Option Nat} {s s' : Sys} {a : Act} {b : Nat} (h : Reachable cap s) (hb : b < s.w.bq.length)
    (h0 : s.w.alive b = false) (hn : ∀ r, Ev.recv r b .shutdown ∉ s.w.log) (hs : s.step a = some s') :
    b < s'.w.bq.length ∧ s'.w.alive b = false ∧ ∀ r, Ev.recv r b .shutdown ∉ s'.w.log := by
  obtain ⟨h1, h2⟩ := step_dead h hs
  refine ⟨by omega, ?_, ?_⟩
  · cases hx : s'.w.alive b with
    | false => rfl
    | true => rw [h2 b hx hb] at h0; simp at h0
  · intro r he
    have href : s.w.refs b = 0 := by
      apply Classical.byContradiction; intro hne
      have := (alive_iff s.w b).mpr (by omega)
      rw [h0] at this; simp at this
    have hrr := refs_reachable h b
    rcases step_rel hs with ⟨c, w', ms, rfl, hc, rfl⟩ | ⟨t, mc, rest, w', ms, rfl, ht, hx, rfl⟩
    · exact hn r (callR_recvEv hc he)
    · have h3 := tot_head (mBq b) ht
      rcases execR_told hx (regWs_reachable h) he with h4 | ⟨wk, rfl, -⟩ | ⟨c, wk, wk', rfl, -⟩
      · exact hn r h4
      · simp [mBq, is1] at h3; omega
      · simp [mBq, is1] at h3; omega

/-- Broadcast `m` is in mailbox `b`, and nobody is being told there; or it has been received there; or the mailbox is gone and nobody was
told there. -/
def QueuedB (b : Nat) (m : Msg) (s : Sys) : Prop :=
  (∃ r, Ev.recv r b (.all m) ∈ s.w.log) ∨ (m ∈ s.w.items b ∧ UntoldB b s) ∨
  (b < s.w.bq.length ∧ s.w.alive b = false ∧ ∀ r, Ev.recv r b .shutdown ∉ s.w.log)

theorem QueuedB.step {cap : Option Nat} {s s' : Sys} {a : Act} {b : Nat} {m : Msg} (h : Reachable cap s) (hq : QueuedB b m s)
    (hs : s.step a = some s') : QueuedB b m s' := by
  rcases hq with ⟨r, h1⟩ | ⟨h1, h2⟩ | ⟨h1, h2, h3⟩
  · exact .inl ⟨r, (step_suffix h hs).subset h1⟩
  · have hne : s.w.items b ≠ [] := by intro e; rw [e] at h1; simp at h1
    have hu := h2.step h hne hs
    obtain ⟨q, hlt⟩ := items_ne hne
    have hlt := (List.getElem?_eq_some_iff.mp hlt).1
    have hlen := (step_dead h hs).1
    cases ha : s'.w.alive b with
    | false => exact .inr (.inr ⟨by omega, ha, hu.told⟩)
    | true =>
      rcases step_rel hs with ⟨c, w', ms, rfl, hc, rfl⟩ | ⟨t, mc, rest, w', ms, rfl, ht, he, rfl⟩
      · refine .inr (.inl ⟨?_, hu⟩)
        rw [show (Sys.mk w' (s.th ++ [ms])).w.items b = s.w.items b from (callR_bqs hc).2.2 b]; exact h1
      · rcases execR_items_mem he (regWs_reachable h) (bqsOk_reachable h) h1 ha with h3 | ⟨r, h3⟩
        · exact .inr (.inl ⟨h3, hu⟩)
        · exact .inl ⟨r, List.mem_of_mem_head? (by simp only; rw [h3]; simp)⟩
  · exact .inr (.inr (untoldB_dead h h1 h2 h3 hs))

end Xtra
