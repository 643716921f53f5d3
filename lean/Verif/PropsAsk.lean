import Verif.Ask
import Verif.PropsExtra
/-! # C79: asking changes nothing

`is_connected`, `len`, `is_empty` (and the calls that are made of them) are invisible to everybody else. -/

set_option linter.unusedSimpArgs false
set_option linter.unusedVariables false

namespace Xtra

/-- Specification: the call asks the address in slot `i` something. -/
def Asks (i : Nat) (c : Call) : Prop := c = .isConnected i ∨ c = .isConnectedStale i ∨ c = .len i

/-- Specification: the answer. -/
def IsAnswer (i : Nat) (e : Ev) : Prop := (∃ b, e = .connected i b) ∨ ∃ n, e = .len i n

/-- Specification: the same world and the same history, but for an answer. -/
def Answered (i : Nat) (s s' : Sys) : Prop :=
  ∃ new e old, IsAnswer i e ∧ s.w.log = new ++ e :: old ∧ s'.w.log = new ++ old ∧ s.w = { s'.w with log := s.w.log }

/-- In the first system thread `k` asks, in the second nobody does. -/
def Asking (i k : Nat) (s1 s2 : Sys) : Prop :=
  ((s1.th[k]? = some [.conn1 i] ∨ s1.th[k]? = some [.conn2 i]) ∧ Gap k (s1.cut k) s2) ∨
  ∃ t1 t2 e l, IsAnswer i e ∧ Gap k t1 t2 ∧ s1 = t1.base (e :: l) ∧ s2 = t2.base l

theorem answered {i k : Nat} {t1 t2 : Sys} {e : Ev} {l : List Ev} (he : IsAnswer i e) (h : Gap k t1 t2) : Answered i (t1.base (e :: l)) (t2.base l) := by
  obtain ⟨w1, th1⟩ := t1
  obtain ⟨w2, th2⟩ := t2
  have hw : w1 = w2 := h.1
  subst hw
  exact ⟨w1.log, e, l, he, rfl, rfl, rfl⟩

theorem Asking.alike {i k : Nat} {s1 s2 : Sys} (h : Asking i k s1 s2) : s1.w = s2.w ∨ Answered i s1 s2 := by
  rcases h with ⟨-, hw, -⟩ | ⟨t1, t2, e, l, he, hg, rfl, rfl⟩
  · exact .inl hw
  · exact .inr (answered he hg)

theorem gap_idle {k : Nat} {s1 s2 : Sys} (h : Gap k s1 s2) : s1.th[k]? = some [] := by
  obtain ⟨-, a, b, -, hk, h1⟩ := h
  rw [h1, List.getElem?_append_right (by omega)]
  simp [hk]

theorem gap_len {k : Nat} {s1 s2 : Sys} (h : Gap k s1 s2) : k < s1.th.length := (List.getElem?_eq_some_iff.mp (gap_idle h)).1

/-- The answer is given. -/
theorem gap_answer {i k : Nat} {s1 s2 t : Sys} {e : Ev} (h : Gap k t s2) (hw : s1.w = t.w.ev e) (hth : s1.th = t.th) (he : IsAnswer i e) :
    Asking i k s1 s2 := by
  refine .inr ⟨{ t with w := { t.w with log := [] } }, { s2 with w := { s2.w with log := [] } }, e, s2.w.log, he, ⟨?_, h.2⟩, ?_, rfl⟩
  · show ({ t.w with log := [] } : World) = { s2.w with log := [] }
    rw [h.1]
  · have h2 := h.1
    obtain ⟨w, th⟩ := s1
    obtain ⟨wt, tht⟩ := t
    obtain ⟨w2, th2⟩ := s2
    simp only at hw hth h2
    subst hth h2 hw
    rfl

theorem asked_begin {i : Nat} {s s1 : Sys} {c : Call} (hc : Asks i c) (hs : s.step (.call c) = some s1) : Asking i s.th.length s1 s := by
  have hg : ∀ x : List Micro, Gap s.th.length (⟨s.w, s.th ++ [[]]⟩ : Sys) s := fun _ => ⟨rfl, s.th, [], by simp, rfl, rfl⟩
  rcases hc with rfl | rfl | rfl <;> simp only [Sys.step, call] at hs
  · split at hs
    · rename_i w' ms h9
      split at h9
      · simp only [Option.some.injEq, Prod.mk.injEq] at h9 hs
        obtain ⟨rfl, rfl⟩ := h9
        subst hs
        exact .inl ⟨.inl (by simp), rfl, s.th, [], by simp, rfl, by simp [Sys.cut]⟩
      · cases h9
    · cases hs
  · split at hs
    · rename_i w' ms h9
      split at h9
      · simp only [Option.some.injEq, Prod.mk.injEq] at h9 hs
        obtain ⟨rfl, rfl⟩ := h9
        subst hs
        exact gap_answer (hg []) rfl rfl (.inl ⟨_, rfl⟩)
      · cases h9
    · cases hs
  · split at hs
    · rename_i w' ms h9
      split at h9
      · simp only [Option.some.injEq, Prod.mk.injEq] at h9 hs
        obtain ⟨rfl, rfl⟩ := h9
        subst hs
        exact gap_answer (hg []) rfl rfl (.inr ⟨_, rfl⟩)
      · cases h9
    · cases hs

/-- A step of the one who asks. -/
theorem asked_own {i k : Nat} {s1 s2 s1' : Sys} (h : Asking i k s1 s2) (hs : s1.step (.exec k) = some s1') : Asking i k s1' s2 := by
  rcases h with ⟨hth, hg⟩ | ⟨t1, t2, e, l, he, hg, rfl, rfl⟩
  · have hk : k < s1.th.length := by rcases hth with h | h <;> exact (List.getElem?_eq_some_iff.mp h).1
    rcases hth with hth | hth <;> simp only [Sys.step, hth, Option.some.injEq] at hs <;> subst hs <;> simp only [exec]
    · split
      · exact gap_answer (t := s1.cut k) hg rfl (by simp [Sys.cut]) (.inl ⟨_, rfl⟩)
      · refine .inl ⟨.inr (by simp [hk]), ?_⟩
        refine ⟨hg.1, ?_⟩
        simpa [Sys.cut] using hg.2
    · exact gap_answer (t := s1.cut k) hg rfl (by simp [Sys.cut]) (.inl ⟨_, rfl⟩)
  · have h1 : (t1.base (e :: l)).th[k]? = some [] := (gap_idle hg :)
    simp [Sys.step, h1] at hs

/-- Any other step. -/
theorem asked_step {i k : Nat} {s1 s2 s1' : Sys} (h : Asking i k s1 s2) {a : Act} (ha : a ≠ .exec k) (hs : s1.step a = some s1') :
    ∃ s2', s2.step (a.skip k) = some s2' ∧ Asking i k s1' s2' := by
  rcases h with ⟨hth, hg⟩ | ⟨t1, t2, e, l, he, hg, rfl, rfl⟩
  · have hk : k < s1.th.length := by rcases hth with h | h <;> exact (List.getElem?_eq_some_iff.mp h).1
    obtain ⟨h2, h3⟩ := step_cut hk ha hs
    obtain ⟨s2', h4, h5⟩ := step_gap hg h2
    exact ⟨s2', h4, .inl ⟨by rw [h3]; exact hth, h5⟩⟩
  · rw [step_base] at hs
    cases h1 : t1.step a with
    | none => rw [h1] at hs; cases hs
    | some t1' =>
      rw [h1] at hs
      simp only [Option.map_some, Option.some.injEq] at hs
      subst hs
      obtain ⟨t2', h4, h5⟩ := step_gap hg h1
      exact ⟨t2'.base l, by rw [step_base, h4]; rfl, .inr ⟨t1', t2', e, l, he, h5, rfl, rfl⟩⟩

theorem asked_step_conv {i k : Nat} {s1 s2 s2' : Sys} (h : Asking i k s1 s2) {a : Act} (hs : s2.step a = some s2') :
    ∃ s1', s1.step (a.shift k) = some s1' ∧ Asking i k s1' s2' ∧ s1'.th[k]? = s1.th[k]? := by
  have hne : a.shift k ≠ .exec k := by
    cases a with
    | call c => simp [Act.shift]
    | exec t => simp only [Act.shift, ne_eq, Act.exec.injEq]; split <;> omega
  rcases h with ⟨hth, hg⟩ | ⟨t1, t2, e, l, he, hg, rfl, rfl⟩
  · have hk : k < s1.th.length := by rcases hth with h | h <;> exact (List.getElem?_eq_some_iff.mp h).1
    obtain ⟨t, h4, h5⟩ := step_gap_conv hg hs
    obtain ⟨s1', h6, rfl, h7⟩ := step_cut_conv hk hne h4
    exact ⟨s1', h6, .inl ⟨by rw [h7]; exact hth, h5⟩, h7⟩
  · rw [step_base] at hs
    cases h1 : t2.step a with
    | none => rw [h1] at hs; cases hs
    | some t2' =>
      rw [h1] at hs
      simp only [Option.map_some, Option.some.injEq] at hs
      subst hs
      obtain ⟨t1', h4, h5⟩ := step_gap_conv hg h1
      refine ⟨t1'.base (e :: l), by rw [step_base, h4]; rfl, .inr ⟨t1', t2', e, l, he, h5, rfl, rfl⟩, ?_⟩
      exact (gap_idle h5).trans (gap_idle hg).symm

theorem run_asked {i k : Nat} {s1 s2 s1' : Sys} (h : Asking i k s1 s2) {as : List Act} (hs : s1.run as = some s1') :
    ∃ s2', s2.run (without k as) = some s2' ∧ Asking i k s1' s2' := by
  induction as generalizing s1 s2 with
  | nil => simp only [Sys.run, Option.some.injEq] at hs; subst hs; exact ⟨s2, rfl, h⟩
  | cons a as ih =>
    simp only [Sys.run] at hs
    split at hs
    · rename_i s3 h3
      by_cases ha : a = .exec k
      · subst ha
        obtain ⟨s5, h5, hfin⟩ := ih (asked_own h h3) hs
        exact ⟨s5, by simpa [without] using h5, hfin⟩
      · obtain ⟨s4, h4, hsim⟩ := asked_step h ha h3
        obtain ⟨s5, h5, hfin⟩ := ih hsim hs
        refine ⟨s5, ?_, hfin⟩
        have : without k (a :: as) = a.skip k :: without k as := by simp [without, ha]
        rw [this]
        simp only [Sys.run, h4]; exact h5
    · cases hs

theorem run_asked_conv {i k : Nat} {s1 s2 s2' : Sys} (h : Asking i k s1 s2) {as : List Act} (hs : s2.run as = some s2') :
    ∃ s1', s1.run (as.map (Act.shift k)) = some s1' ∧ Asking i k s1' s2' ∧ s1'.th[k]? = s1.th[k]? := by
  induction as generalizing s1 s2 with
  | nil => simp only [Sys.run, Option.some.injEq] at hs; subst hs; exact ⟨s1, rfl, h, rfl⟩
  | cons a as ih =>
    simp only [Sys.run] at hs
    split at hs
    · rename_i s3 h3
      obtain ⟨s4, h4, hsim, h5⟩ := asked_step_conv h h3
      obtain ⟨s5, h6, hfin, h8⟩ := ih hsim hs
      exact ⟨s5, by simp only [List.map_cons, Sys.run, h4]; exact h6, hfin, by rw [h8, h5]⟩
    · cases hs

/-- C79: somebody asks an address whether it is connected, or how many messages there are, and anything happens after that (`as`; the parts of the
answer, thread `s.th.length`, at any moments of it, or not yet). Then all of it could have happened without the question: only the answer is
missing, if it has been given. -/
theorem C79_asking_changes_nothing {cap : Option Nat} {s s1 s2 : Sys} {i : Nat} {c : Call} {as : List Act} (_ : Reachable cap s) (hc : Asks i c)
    (h1 : s.step (.call c) = some s1) (h2 : s1.run as = some s2) :
    ∃ s2', s.run (without s.th.length as) = some s2' ∧ (s2.w = s2'.w ∨ Answered i s2 s2') := by
  obtain ⟨s2', h3, h4⟩ := run_asked (asked_begin hc h1) h2
  exact ⟨s2', h3, h4.alike⟩

/-- The one who asks comes to an end in at most two steps. -/
theorem asked_finish {i k : Nat} {s1 s2 : Sys} (h : Asking i k s1 s2) :
    ∃ n s3 t1 t2 e l, n ≤ 2 ∧ s1.run (List.replicate n (.exec k)) = some s3 ∧ IsAnswer i e ∧ Gap k t1 t2 ∧ s3 = t1.base (e :: l) ∧ s2 = t2.base l := by
  have two : ∀ {s1 : Sys}, s1.th[k]? = some [.conn2 i] → Gap k (s1.cut k) s2 →
      ∃ s3 t1 t2 e l, s1.step (.exec k) = some s3 ∧ IsAnswer i e ∧ Gap k t1 t2 ∧ s3 = t1.base (e :: l) ∧ s2 = t2.base l := by
    intro s1 hth hg
    have h1 : s1.step (.exec k) = some ⟨(exec s1.w (.conn2 i)).1, s1.th.set k ((exec s1.w (.conn2 i)).2 ++ [])⟩ := by simp only [Sys.step, hth]
    rcases asked_own (.inl ⟨.inr hth, hg⟩) h1 with ⟨h2, -⟩ | ⟨t1, t2, e, l, h2⟩
    · have hk : k < s1.th.length := (List.getElem?_eq_some_iff.mp hth).1
      simp [exec, hk] at h2
    · exact ⟨_, t1, t2, e, l, h1, h2⟩
  rcases h with ⟨hth | hth, hg⟩ | ⟨t1, t2, e, l, h⟩
  · have hk : k < s1.th.length := (List.getElem?_eq_some_iff.mp hth).1
    have h1 : s1.step (.exec k) = some ⟨(exec s1.w (.conn1 i)).1, s1.th.set k ((exec s1.w (.conn1 i)).2 ++ [])⟩ := by simp only [Sys.step, hth]
    rcases asked_own (.inl ⟨.inl hth, hg⟩) h1 with ⟨h2 | h2, h3⟩ | ⟨t1, t2, e, l, h2⟩
    · exfalso
      simp only [exec] at h2
      split at h2 <;> simp [hk] at h2
    · obtain ⟨s3, t1, t2, e, l, h4, h5⟩ := two h2 h3
      exact ⟨2, s3, t1, t2, e, l, by omega, by simp only [List.replicate, Sys.run, h1, h4], h5⟩
    · exact ⟨1, _, t1, t2, e, l, by omega, by simp only [List.replicate, Sys.run, h1], h2⟩
  · obtain ⟨s3, t1, t2, e, l, h4, h5⟩ := two hth hg
    exact ⟨1, s3, t1, t2, e, l, by omega, by simp only [List.replicate, Sys.run, h4], h5⟩
  · exact ⟨0, s1, t1, t2, e, l, by omega, rfl, h⟩

/-- C79, conversely: what could have happened (`as`, then `bs`) without the question can happen with it: somebody begins to ask before `as` and has the
answer, after at most two steps, between `as` and `bs`. -/
theorem C79_asking_prevents_nothing {cap : Option Nat} {s s2' s4' : Sys} {i : Nat} {rc : Rc} {c : Call} {as bs : List Act} (_ : Reachable cap s)
    (hc : Asks i c) (hi : s.w.objs[i]? = some (.addr rc)) (h2 : s.run as = some s2') (h4 : s2'.run bs = some s4') :
    ∃ n s3 s4, n ≤ 2 ∧ s.run (.call c :: as.map (Act.shift s.th.length) ++ List.replicate n (.exec s.th.length)) = some s3 ∧
      Answered i s3 s2' ∧ s3.run (bs.map (Act.shift s.th.length)) = some s4 ∧ Answered i s4 s4' := by
  obtain ⟨s1, h1⟩ : ∃ s1, s.step (.call c) = some s1 := by
    rcases hc with rfl | rfl | rfl <;> simp only [Sys.step, call, hi] <;> exact ⟨_, rfl⟩
  obtain ⟨s2, h3, hg2, -⟩ := run_asked_conv (asked_begin hc h1) h2
  obtain ⟨n, s3, t1, t2, e, l, hn, h5, he, hg, rfl, rfl⟩ := asked_finish hg2
  obtain ⟨t2', h6, rfl⟩ : ∃ t2', t2.run bs = some t2' ∧ s4' = t2'.base l := by
    rw [run_base] at h4
    cases h7 : t2.run bs with
    | none => rw [h7] at h4; cases h4
    | some t => rw [h7] at h4; simp only [Option.map_some, Option.some.injEq] at h4; exact ⟨t, rfl, h4.symm⟩
  obtain ⟨t1', h8, hg'⟩ := run_gap_conv hg h6
  refine ⟨n, t1.base (e :: l), t1'.base (e :: l), hn, ?_, answered he hg, by rw [run_base, h8]; rfl, answered he hg'⟩
  refine run_join (s1 := s2) ?_ h5
  simp only [Sys.run, h1]; exact h3

/-! ## Concrete cases -/

/-- A request is sent and received while somebody asks the address (thread 1) whether it is connected. -/
def askServe : List Act :=
  [.call (.send 0), .exec 1, .call (.pollSend 3 0), .exec 3, .exec 3, .exec 3, .exec 1, .exec 3, .exec 3, .call (.pollRecv 2 0), .exec 4]

/-- Meets the hypotheses of `C79_asking_changes_nothing`. -/
example : ∃ s s1 s2, Reachable none s ∧ Asks 0 (.isConnected 0) ∧ s.step (.call (.isConnected 0)) = some s1 ∧ s1.run askServe = some s2 ∧
    Ev.connected 0 true ∈ s2.w.log ∧ Ev.recv 2 0 (.one ⟨0, .valued 0⟩) ∈ s2.w.log :=
  ⟨_, _, _, Reachable.run .init (as := [.call (.next 1)]) rfl, .inl rfl, rfl, rfl, by decide, by decide⟩

/-- Meets the hypotheses of `C79_asking_prevents_nothing`. -/
example : ∃ s s2 s4, Reachable none s ∧ Asks 0 (.len 0) ∧ s.w.objs[0]? = some (.addr .strong) ∧
    s.run [.call (.send 0), .call (.pollSend 3 0), .exec 2, .exec 2, .exec 2] = some s2 ∧
    s2.run [.exec 2, .exec 2, .call (.pollRecv 2 0), .exec 3] = some s4 ∧ Ev.recv 2 0 (.one ⟨0, .valued 0⟩) ∈ s4.w.log :=
  ⟨_, _, _, Reachable.run .init (as := [.call (.next 1)]) rfl, .inr (.inr rfl), rfl, rfl, rfl, by decide⟩

end Xtra
