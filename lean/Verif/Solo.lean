import Verif.Seq
import Verif.Idle
import Verif.Bcast
import Verif.Join
import Verif.Once
import Verif.RespInv
/-! Proof tools for whole API calls: inverting an undisturbed run step by step, with all invariants at hand. -/

namespace Xtra

theorem runs_nil {w w' : World} (h : Runs w [] w') : w' = w := by cases h; rfl
theorem runs_cons {w w' : World} {m : Micro} {ms : List Micro} (h : Runs w (m :: ms) w') :
    ∃ w1 ns, ExecR w m w1 ns ∧ Runs w1 (ns ++ ms) w' := by
  cases h with | cons h => exact ⟨_, _, exec_rel w m, h⟩

/-! ### Undisturbed calls -/

/-- One call is in progress, with the steps `ms` to go, in a reachable state. -/
def Solo (cap : Option Nat) (w : World) (ms : List Micro) : Prop :=
  ∃ th, Reachable cap ⟨w, th ++ [ms]⟩ ∧ ∀ x ∈ th, x = []

theorem Quiet.call {cap : Option Nat} {w w1 : World} {c : Call} {ms : List Micro} (h : Quiet cap w)
    (hc : Xtra.call w c = some (w1, ms)) : Solo cap w1 ms := by
  obtain ⟨th, hr, he⟩ := h
  exact ⟨th, .step hr (by simp [Sys.step, hc] : Sys.step ⟨w, th⟩ (.call c) = _), he⟩

theorem Solo.exec {cap : Option Nat} {w w' : World} {m : Micro} {ms : List Micro} (h : Solo cap w (m :: ms))
    (hr : Runs w (m :: ms) w') : ∃ w1 ns, ExecR w m w1 ns ∧ Solo cap w1 (ns ++ ms) ∧ Runs w1 (ns ++ ms) w' := by
  obtain ⟨th, hre, he⟩ := h
  cases hr with
  | cons hr =>
    refine ⟨_, _, exec_rel w m, ⟨th, .step hre (a := .exec th.length) ?_, he⟩, hr⟩
    simp [Sys.step]

theorem Solo.tots {cap : Option Nat} {w : World} {ms : List Micro} (h : Solo cap w ms) :
    ∃ th, Reachable cap ⟨w, th⟩ ∧ ∀ g : Micro → Nat, tot g th = sumBy g ms := by
  obtain ⟨th, hr, he⟩ := h
  refine ⟨_, hr, fun g => ?_⟩
  have : tot g th = 0 := by
    simp only [tot]; rw [sumBy_eq_zero]; intro x hx; rw [he x hx]; rfl
  simp [this]

/-- Nothing else is going on: loads of the counter are up to date. -/
theorem Solo.wait {cap : Option Nat} {w : World} {ms : List Micro} (h : Solo cap w ms) (hs : sumBy mShutRx ms = 0)
    (hl : w.sc ≠ 0 ∨ w.lag = .late) : w.sc ≠ 0 := by
  obtain ⟨th, hr, he⟩ := h.tots
  rcases hl with hl | hl
  · exact hl
  · have := oldLoad_reachable hr hl
    have h2 := he mShutRx
    simp only at this; omega

theorem Solo.reach {cap : Option Nat} {w : World} {ms : List Micro} (h : Solo cap w ms) :
    ∃ (th : List (List Micro)) (t : Nat), Reachable cap ⟨w, th⟩ ∧ th[t]? = some ms := by
  obtain ⟨th, hr, he⟩ := h
  exact ⟨_, th.length, hr, by simp⟩

theorem Solo.wf {cap : Option Nat} {w : World} {m : Micro} {ms : List Micro} (h : Solo cap w (m :: ms)) : WF w m := by
  obtain ⟨th, t, hr, ht⟩ := h.reach
  exact wf_reachable hr ht
theorem Solo.uInv {cap : Option Nat} {w : World} {ms : List Micro} (h : Solo cap w ms) : UInv w := by
  obtain ⟨th, t, hr, ht⟩ := h.reach
  exact uInv_reachable hr
theorem Solo.bInv {cap : Option Nat} {w : World} {ms : List Micro} (h : Solo cap w ms) : BInv w := by
  obtain ⟨th, t, hr, ht⟩ := h.reach
  exact bInv_reachable hr
theorem Solo.regWs {cap : Option Nat} {w : World} {ms : List Micro} (h : Solo cap w ms) :
    RegWs w.ws w.wOne w.wAll := by
  obtain ⟨th, t, hr, ht⟩ := h.reach
  exact regWs_reachable hr
theorem Solo.reg1 {cap : Option Nat} {w : World} {ms : List Micro} (h : Solo cap w ms) (k : Nat) :
    Reg1 w.cells w.wRx k (sumBy (mNs k) ms) := by
  obtain ⟨th, hr, ht⟩ := h.tots
  have := reg1_reachable hr k
  rwa [ht] at this

theorem Quiet.uInv {cap : Option Nat} {w : World} (h : Quiet cap w) : UInv w := by
  obtain ⟨th, hr, ht⟩ := h
  exact uInv_reachable hr
theorem Quiet.bInv {cap : Option Nat} {w : World} (h : Quiet cap w) : BInv w := by
  obtain ⟨th, hr, ht⟩ := h
  exact bInv_reachable hr
theorem Quiet.regWs {cap : Option Nat} {w : World} (h : Quiet cap w) : RegWs w.ws w.wOne w.wAll := by
  obtain ⟨th, hr, ht⟩ := h
  exact regWs_reachable hr
theorem Quiet.reg1 {cap : Option Nat} {w : World} (h : Quiet cap w) (k : Nat) : Reg1 w.cells w.wRx k 0 := by
  obtain ⟨th, hr, ht⟩ := h.tot0
  have := reg1_reachable hr k
  rwa [ht] at this
theorem Quiet.own {cap : Option Nat} {w : World} (h : Quiet cap w) (k : Nat) :
    sumBy (oWs k) w.objs = wsL w.ws k ∧ sumBy (oCell k) w.objs = cellL w.cells k ∧ usedL w.cells k = 0 := by
  obtain ⟨th, hr, ht⟩ := h.tot0
  have := own_reachable hr
  have h1 := this.ws k; have h2 := this.cell k; have h3 := this.used k
  simp only [ht] at h1 h2 h3
  exact ⟨by omega, by omega, by omega⟩

end Xtra
