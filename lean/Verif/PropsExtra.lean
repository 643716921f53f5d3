import Verif.Extra
/-! # C77: only the last strong address matters

Dropping an address (a clone, a `MessageChannel`, a weak address, anything but the last strong one) is invisible to everybody else. -/

set_option linter.unusedSimpArgs false

namespace Xtra

/-- Specification: the same history, and the same world except for what is in slot `f` and the number of strong addresses. -/
def AlikeBut (f : Nat) (s s' : Sys) : Prop :=
  s.w.log = s'.w.log ∧ s.w = { s'.w with objs := s.w.objs, sc := s.w.sc } ∧ s.w.objs.length = s'.w.objs.length ∧
  ∀ i, i ≠ f → s.w.objs[i]? = s'.w.objs[i]?

/-- The schedule without thread `k`. -/
def without (k : Nat) (as : List Act) : List Act := (as.filter (fun a => decide (a ≠ .exec k))).map (Act.skip k)

theorem Gave.alike {f k : Nat} {rc : Rc} {s1 s2 : Sys} (h : Gave f k rc s1 s2) : AlikeBut f s1 s2 := by
  rcases h with ⟨-, ⟨x, hx, hl, he, -⟩, -⟩ | ⟨s', ⟨⟨x, hx, hl, he, -⟩, -⟩, rfl⟩
  · have hx' : s1.w = s2.w.withObjs x := hx
    rw [AlikeBut, hx']
    exact ⟨rfl, rfl, hl, he⟩
  · rw [AlikeBut, hx]
    cases rc.isStrong <;> exact ⟨rfl, rfl, hl, he⟩

theorem run_sc {cap : Option Nat} {s s' : Sys} (hr : Reachable cap s) {as : List Act} (hs : s.run as = some s') (h0 : s.w.sc = 0) : s'.w.sc = 0 := by
  induction as generalizing s with
  | nil => simp only [Sys.run, Option.some.injEq] at hs; subst hs; exact h0
  | cons a as ih =>
    simp only [Sys.run] at hs
    split at hs
    · rename_i s3 h3
      exact ih (.step hr h3) hs (sc_zero_step hr h3 h0)
    · cases hs

theorem run_gave {cap : Option Nat} {f k : Nat} {rc : Rc} {s1 s2 s1' : Sys} (hr : Reachable cap s1) (h : Gave f k rc s1 s2) {as : List Act}
    (hs : s1.run as = some s1') (hsc : rc.isStrong = true → s1'.w.sc ≠ 0) :
    ∃ s2', s2.run (without k as) = some s2' ∧ Gave f k rc s1' s2' := by
  induction as generalizing s1 s2 with
  | nil => simp only [Sys.run, Option.some.injEq] at hs; subst hs; exact ⟨s2, rfl, h⟩
  | cons a as ih =>
    simp only [Sys.run] at hs
    split at hs
    · rename_i s3 h3
      have hsc3 : rc.isStrong = true → s3.w.sc ≠ 0 := fun h4 h5 => hsc h4 (run_sc (.step hr h3) hs h5)
      by_cases ha : a = .exec k
      · subst ha
        obtain ⟨s5, h5, hfin⟩ := ih (.step hr h3) (gave_drop h h3 hsc3) hs
        exact ⟨s5, by simpa [without] using h5, hfin⟩
      · obtain ⟨s4, h4, hsim⟩ := gave_step hr h ha h3 hsc3
        obtain ⟨s5, h5, hfin⟩ := ih (.step hr h3) hsim hs
        refine ⟨s5, ?_, hfin⟩
        have : without k (a :: as) = a.skip k :: without k as := by simp [without, ha]
        rw [this]
        simp only [Sys.run, h4]; exact h5
    · cases hs

/-- C77: an address is dropped, and anything happens after that (`as`; the drop itself, thread `s.th.length`, may take effect at any moment of it, or
not yet). If the address is weak, or a strong reference is left at the end, then all of it could have happened without the drop: the same calls with
the same results, the same messages in the same order, the same wakers. -/
theorem C77_drop_changes_nothing {cap : Option Nat} {s s1 s2 : Sys} {f : Nat} {rc : Rc} {as : List Act} (hr : Reachable cap s)
    (ho : s.w.objs[f]? = some (.addr rc)) (h1 : s.step (.call (.dropAddr f)) = some s1) (h2 : s1.run as = some s2)
    (hsc : rc.isStrong = true → 0 < s2.w.sc) :
    ∃ s2', s.run (without s.th.length as) = some s2' ∧ AlikeBut f s2 s2' := by
  obtain ⟨s2', h3, h4⟩ := run_gave (.step hr h1) (gave_begin ho h1) h2 (fun h => Nat.pos_iff_ne_zero.mp (hsc h))
  exact ⟨s2', h3, h4.alike⟩

/-- C77 for a user who still has a strong address at the end (or a send made with one, not polled yet: `oStrong`). -/
theorem C77_another_address {cap : Option Nat} {s s1 s2 : Sys} {f i : Nat} {rc : Rc} {o : Obj} {as : List Act} (hr : Reachable cap s)
    (ho : s.w.objs[f]? = some (.addr rc)) (h1 : s.step (.call (.dropAddr f)) = some s1) (h2 : s1.run as = some s2)
    (hi : s2.w.objs[i]? = some o)
    (hst : (∃ rc', o = .addr rc' ∧ rc'.isStrong = true) ∨ ∃ md mid m rc', o = .send md mid (.new m rc') ∧ rc'.isStrong = true) :
    ∃ s2', s.run (without s.th.length as) = some s2' ∧ AlikeBut f s2 s2' := by
  refine C77_drop_changes_nothing hr ho h1 h2 fun _ => ?_
  have h3 := sc_reachable (Reachable.run (.step hr h1) h2)
  have h4 := le_sumBy oStrong hi
  have h5 : oStrong o = 1 := by
    rcases hst with ⟨rc', rfl, h⟩ | ⟨md, mid, m, rc', rfl, h⟩ <;> simp [oStrong, sStrong, Rc.cnt_strong h]
  omega

theorem run_gave_conv {f k : Nat} {rc : Rc} {s1 s2 s2' : Sys} (h : Gave f k rc s1 s2) {as : List Act} (ha : ∀ a ∈ as, a.avoids f)
    (hs : s2.run as = some s2')
    (hsc : rc.isStrong = true → s1.th[k]? = some [] → ∀ bs s3, bs <+: as → s2.run bs = some s3 → 1 < s3.w.sc) :
    ∃ s1', s1.run (as.map (Act.shift k)) = some s1' ∧ Gave f k rc s1' s2' ∧ s1'.th[k]? = s1.th[k]? := by
  induction as generalizing s1 s2 with
  | nil => simp only [Sys.run, Option.some.injEq] at hs; subst hs; exact ⟨s1, rfl, h, rfl⟩
  | cons a as ih =>
    simp only [Sys.run] at hs
    split at hs
    · rename_i s3 h3
      obtain ⟨s4, h4, hsim, h5⟩ := gave_step_conv h (ha a (List.mem_cons_self ..)) h3
        (fun h6 h7 => ⟨hsc h6 h7 [] s2 (List.nil_prefix) rfl, hsc h6 h7 [a] s3 (by simp) (by simp [Sys.run, h3])⟩)
      obtain ⟨s5, h6, hfin, h8⟩ := ih hsim (fun b hb => ha b (List.mem_cons_of_mem _ hb)) hs
        (fun h9 h10 bs s6 hbs h11 => hsc h9 (h5 ▸ h10) (a :: bs) s6 (by simpa using hbs) (by simp only [Sys.run, h3]; exact h11))
      exact ⟨s5, by simp only [List.map_cons, Sys.run, h4]; exact h6, hfin, by rw [h8, h5]⟩
    · cases hs

theorem run_join {s s1 s2 : Sys} {as bs : List Act} (h1 : s.run as = some s1) (h2 : s1.run bs = some s2) : s.run (as ++ bs) = some s2 := by
  induction as generalizing s with
  | nil => simp only [Sys.run, Option.some.injEq] at h1; subst h1; exact h2
  | cons a as ih =>
    simp only [Sys.run, List.cons_append] at h1 ⊢
    split at h1
    · rename_i s3 h3; exact ih h1
    · cases h1

/-- C77, conversely: what could have happened (`as`, then `bs`) without using the address can happen although the address is dropped: the drop begins
before `as` and takes effect between `as` and `bs`. If the address is strong, there is another strong reference from then on. -/
theorem C77_drop_prevents_nothing {cap : Option Nat} {s s2' s4' : Sys} {f : Nat} {rc : Rc} {as bs : List Act} (_ : Reachable cap s)
    (ho : s.w.objs[f]? = some (.addr rc)) (ha : ∀ a ∈ as ++ bs, a.avoids f) (h2 : s.run as = some s2') (h4 : s2'.run bs = some s4')
    (hsc : rc.isStrong = true → ∀ cs s3, cs <+: bs → s2'.run cs = some s3 → 1 < s3.w.sc) :
    ∃ s4, s.run (.call (.dropAddr f) :: as.map (Act.shift s.th.length) ++ .exec s.th.length :: bs.map (Act.shift s.th.length)) = some s4 ∧
      AlikeBut f s4 s4' := by
  have h1 : s.step (.call (.dropAddr f)) = some ⟨s.w.setObj f .gone, s.th ++ [[.dropTx rc]]⟩ := by simp only [Sys.step, call, ho]
  have hb := gave_begin ho h1
  obtain ⟨s2, h3, hg, hth⟩ := run_gave_conv hb (fun a h => ha a (List.mem_append_left _ h)) h2 (by simp)
  simp only [List.getElem?_concat_length] at hth
  have h5 : s2.step (.exec s.th.length) = some ⟨(exec s2.w (.dropTx rc)).1, s2.th.set s.th.length ((exec s2.w (.dropTx rc)).2 ++ [])⟩ := by
    simp only [Sys.step, hth]
  have hsc2 : rc.isStrong = true → (exec s2.w (.dropTx rc)).1.sc ≠ 0 := by
    intro h
    have h6 := hsc h [] s2' List.nil_prefix rfl
    rcases hg with ⟨-, hg⟩ | ⟨s', hg, -⟩
    · have h7 : (s2.cut s.th.length).w.sc = s2'.w.sc := simBut_sc hg
      have h8 : (s2.cut s.th.length).w.sc = s2.w.sc := rfl
      simp only [exec, h, if_true]
      omega
    · rw [simBut_idle hg] at hth; simp at hth
  obtain ⟨s4, h6, hg4, -⟩ := run_gave_conv (gave_drop hg h5 hsc2) (fun a h => ha a (List.mem_append_right _ h)) h4 (fun h7 _ => hsc h7)
  refine ⟨s4, ?_, hg4.alike⟩
  refine run_join (s1 := s2) ?_ ?_
  · simp only [Sys.run, h1]; exact h3
  · simp only [Sys.run, h5]; exact h6

/-! ## Concrete cases -/

/-- Two strong addresses; a request has been sent with the first. -/
def extraSent : List Act :=
  [.call (.cloneAddr 0), .call (.send 0), .call (.pollSend 3 0), .exec 2, .exec 2, .exec 2, .exec 2, .exec 2]

/-- The request is received and answered; the drop of the address (thread 3) takes effect meanwhile. -/
def extraServe : List Act :=
  [.call (.next 1), .call (.pollRecv 4 0), .exec 3, .exec 5, .call (.dispatch 4), .call (.finish 4 9), .exec 7, .exec 7, .exec 7,
   .call (.isConnected 2), .exec 8, .exec 8]

/-- Meets the hypotheses of `C77_drop_changes_nothing` and `C77_another_address`: the sender's address is dropped, the clone is left. -/
example : ∃ s s1 s2, Reachable none s ∧ s.w.objs[0]? = some (.addr .strong) ∧ s.step (.call (.dropAddr 0)) = some s1 ∧
    s1.run extraServe = some s2 ∧ 0 < s2.w.sc ∧ s2.w.objs[2]? = some (.addr .strong) ∧ Rc.isStrong .strong = true ∧
    Ev.handled 0 9 ∈ s2.w.log ∧ Ev.connected 2 true ∈ s2.w.log :=
  ⟨_, _, _, Reachable.run .init (as := extraSent) rfl, rfl, rfl, rfl, by decide, rfl, rfl, by decide, by decide⟩

/-- Without the clone the conclusion is false: after the drop of the last strong address a receive gets the shutdown notice. -/
example : ∃ s s1 s2, Reachable none s ∧ s.w.objs[0]? = some (.addr .strong) ∧ s.step (.call (.dropAddr 0)) = some s1 ∧
    s1.run [.exec 0, .exec 0, .call (.next 1), .call (.pollRecv 2 0), .exec 2] = some s2 ∧ s2.w.sc = 0 ∧ Ev.recv 2 0 .shutdown ∈ s2.w.log ∧
    ∀ s2', s.run (without 0 [.exec 0, .exec 0, .call (.next 1), .call (.pollRecv 2 0), .exec 2]) = some s2' → Ev.recv 2 0 .shutdown ∉ s2'.w.log :=
  ⟨_, _, _, .init, rfl, rfl, rfl, rfl, by decide, fun s2' h => by
    have : s2' = _ := (Option.some.inj h).symm
    subst this; decide⟩

end Xtra
