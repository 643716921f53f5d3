import Verif.Slow
import Verif.PropsHush
/-! # C72, slow polls: anything may happen between the beginning of a poll and the moment it takes effect

`C72_spurious_poll_changes_nothing` and `C72_spurious_poll_prevents_nothing` are about polls that run without interruption (while other calls are
under way). Here other threads run in the middle of the poll too. Only the future itself is off limits to them: a poll borrows it mutably. -/

set_option linter.unusedSimpArgs false

namespace Xtra

/-- The poll of a send or receive that waits: it takes the future, and has one step before it. -/
theorem poll_shape {w0 : World} {wk0 f wk : Nat} {o : Obj} (hs : w0.sleeps wk0 o) (hmd : ∀ mid, o ≠ .send .detached mid .done ∧ o ≠ .send .bcast mid .done) :
    (∃ mc, mc.slot = some f ∧ ∀ w : World, w.objs[f]? = some o → call w (o.pollCall f wk) = some (w.setObj f .busy, [mc])) ∨
    (∀ w w' : World, ∀ ms, w.objs[f]? = some o → call w (o.pollCall f wk) = some (w', ms) → ms = []) := by
  cases o with
  | send md mid st =>
    cases st with
    | new => simp [World.sleeps] at hs
    | waiting h => exact .inl ⟨.pollWs f md mid h wk, rfl, fun w ho => by simp [Obj.pollCall, call, ho]⟩
    | done =>
      cases md with
      | ret => exact .inl ⟨.sendFin f .ret mid wk, rfl, fun w ho => by simp [Obj.pollCall, call, ho]⟩
      | detached => exact absurd rfl (hmd mid).1
      | bcast => exact absurd rfl (hmd mid).2
  | recv b st =>
    cases st with
    | new => simp [World.sleeps] at hs
    | waiting c => exact .inl ⟨.recvPoll f b c wk, rfl, fun w ho => by simp [Obj.pollCall, call, ho]⟩
  | reply mid =>
    refine .inr fun w w' ms ho hc => ?_
    simp only [Obj.pollCall, call, ho] at hc
    repeat' split at hc
    all_goals simp at hc
    all_goals exact hc.2
  | join l =>
    refine .inr fun w w' ms ho hc => ?_
    simp only [Obj.pollCall, call, ho] at hc
    repeat' split at hc
    all_goals simp at hc
    all_goals (try exact hc.2)
  | _ => simp [World.sleeps] at hs

theorem sleeps_setObj {w : World} {f wk : Nat} {o ob : Obj} : (w.setObj f ob).sleeps wk o ↔ w.sleeps wk o := by
  cases o <;> try exact Iff.rfl
  all_goals (rename_i y; cases y <;> exact Iff.rfl)

/-- The step of the slow poll. -/
theorem slow_step {s2 s2' s3 : Sys} {f k wk0 wk : Nat} {o : Obj} {mc : Micro} (h : Slow f o k [mc] s2 s2') (hsl : s2'.w.sleeps wk0 o)
    (hmd : ∀ mid, o ≠ .send .detached mid .done ∧ o ≠ .send .bcast mid .done)
    (hcall : call s2'.w (o.pollCall f wk) = some (s2'.w.setObj f .busy, [mc])) (hs3 : s2.step (.exec k) = some s3) :
    s3.w.hush = s2'.w.hush ∧ Gap k s3 ⟨s3.w, s2'.th⟩ ∧ s3.w.sleeps wk o ∧ pendingWith f s3.w.log = some wk := by
  obtain ⟨hw, ho, ta, tb, ht2, hk, ht1⟩ := h
  have hx : s2.th[k]? = some [mc] := by rw [ht1, ← hk]; simp
  simp only [Sys.step, hx, List.append_nil, Option.some.injEq] at hs3
  have hrun : s2'.run (.call (o.pollCall f wk) :: List.replicate 1 (.exec s2'.th.length)) =
      some ⟨(exec s2.w mc).1, s2'.th ++ [(exec s2.w mc).2]⟩ := by
    simp [Sys.run, Sys.step, hcall, hw]
  have hnil : (exec s2.w mc).2 = [] := by
    have hl := (List.getElem?_eq_some_iff.mp ho).1
    cases o with
    | send md mid st =>
      cases st with
      | new => simp [World.sleeps] at hsl
      | waiting h =>
        obtain ⟨m, hs⟩ := hsl
        simp [Obj.pollCall, call, ho] at hcall
        subst hcall
        rw [hw]
        simp only [exec, World.setObj, hs]
      | done =>
        cases md with
        | ret =>
          simp only [World.sleeps] at hsl
          simp [Obj.pollCall, call, ho] at hcall
          subst hcall
          rw [hw]
          simp only [exec, World.setObj, hsl]
        | detached => exact absurd rfl (hmd mid).1
        | bcast => exact absurd rfl (hmd mid).2
    | recv b st =>
      cases st with
      | new => simp [World.sleeps] at hsl
      | waiting c =>
        simp only [World.sleeps] at hsl
        simp [Obj.pollCall, call, ho] at hcall
        subst hcall
        rw [hw]
        simp only [exec, World.setObj, hsl]
    | reply mid =>
      simp only [World.sleeps] at hsl
      simp [Obj.pollCall, call, ho, hsl] at hcall
    | join l =>
      cases l with
      | none => simp [World.sleeps] at hsl
      | some l =>
        simp only [World.sleeps] at hsl
        simp [Obj.pollCall, call, ho, hsl] at hcall
    | _ => simp [World.sleeps] at hsl
  obtain ⟨h1, h2, h3, h4⟩ := spurious_poll ho hsl hmd hrun (by simp [hnil])
  subst hs3
  refine ⟨h1, ⟨rfl, ta, tb, ht2, hk, ?_⟩, h3, h4⟩
  simp only [hnil, ht1]
  rw [List.set_append_right _ _ (by omega)]
  simp [hk]

theorem gap_alike {k : Nat} {s3 s2' : Sys} (hg : Gap k s3 ⟨s3.w, s2'.th⟩) (hw : s3.w.hush = s2'.w.hush) {bs : List Act} {s4 : Sys} (hr : s3.run bs = some s4) :
    ∃ s4', s2'.run (bs.map (Act.skip k)) = some s4' ∧ s4'.w.hush = s4.w.hush := by
  obtain ⟨s5, h5, hg'⟩ := run_gap hg hr
  have h4 := run_alike (s := ⟨s3.w, s2'.th⟩) (s' := s2') (as := bs.map (Act.skip k)) (by simp [Sys.hush, hw]) rfl
  rw [h5] at h4
  cases h6 : s2'.run (bs.map (Act.skip k)) with
  | none => rw [h6] at h4; simp at h4
  | some s4' =>
    rw [h6] at h4
    simp only [Option.map_some, Option.some.injEq, Sys.hush, Sys.mk.injEq] at h4
    exact ⟨s4', rfl, by rw [← h4.1, hg'.1]⟩

theorem gap_alike_conv {k : Nat} {s3 s2' : Sys} (hg : Gap k s3 ⟨s3.w, s2'.th⟩) (hw : s3.w.hush = s2'.w.hush) {bs : List Act} {s4' : Sys}
    (hr : s2'.run bs = some s4') : ∃ s4, s3.run (bs.map (Act.shift k)) = some s4 ∧ s4'.w.hush = s4.w.hush := by
  have h4 := run_alike (s := ⟨s3.w, s2'.th⟩) (s' := s2') (as := bs) (by simp [Sys.hush, hw]) rfl
  rw [hr] at h4
  cases h5 : (Sys.mk s3.w s2'.th).run bs with
  | none => rw [h5] at h4; simp at h4
  | some s5 =>
    rw [h5] at h4
    simp only [Option.map_some, Option.some.injEq, Sys.hush, Sys.mk.injEq] at h4
    obtain ⟨s4, h6, hg'⟩ := run_gap_conv hg h5
    exact ⟨s4, h6, by rw [hg'.1, h4.1]⟩

theorem run_then {s s1 s2 : Sys} {as bs : List Act} (h1 : s.run as = some s1) (h2 : s1.run bs = some s2) : s.run (as ++ bs) = some s2 := by
  induction as generalizing s with
  | nil => simp only [Sys.run, Option.some.injEq] at h1; subst h1; exact h2
  | cons a as ih =>
    simp only [Sys.run, List.cons_append] at h1 ⊢
    split at h1
    · rename_i s3 h3; exact ih h1
    · cases h1

/-- The call begins. -/
theorem slow_begin {s s1 : Sys} {f wk : Nat} {o : Obj} {mc : Micro} (ho : s.w.objs[f]? = some o)
    (hcall : call s.w (o.pollCall f wk) = some (s.w.setObj f .busy, [mc])) (hs1 : s.step (.call (o.pollCall f wk)) = some s1) :
    Slow f o s.th.length [mc] s1 s := by
  simp only [Sys.step, hcall, Option.some.injEq] at hs1
  subst hs1
  exact ⟨rfl, ho, s.th, [], by simp, rfl, rfl⟩

/-- C72, all interleavings: a waiting future is polled; between the beginning of the poll and the step in which it looks at its place in the channel,
other threads do anything (`as`); at that step the future cannot complete. Then the poll returns `Pending`, the waker is the new one, and everything
that happens meanwhile (`as`) and afterwards (`bs`) could have happened, with the same effects, without the poll (thread `s.th.length` is the poll's). -/
theorem C72_slow_poll_changes_nothing {cap : Option Nat} {s s1 s2 s3 : Sys} {f wk0 wk : Nat} {o : Obj} {as : List Act} (hr : Reachable cap s)
    (ho : s.w.objs[f]? = some o) (hmd : ∀ mid, o ≠ .send .detached mid .done ∧ o ≠ .send .bcast mid .done)
    (hs1 : s.step (.call (o.pollCall f wk)) = some s1) (ha : .exec s.th.length ∉ as) (hs2 : s1.run as = some s2) (hsl : s2.w.sleeps wk0 o)
    (hs3 : s2.step (.exec s.th.length) = some s3) :
    pendingWith f s3.w.log = some wk ∧ s3.w.sleeps wk o ∧ s3.th[s.th.length]? = some [] ∧
    ∀ bs s4, s3.run bs = some s4 → ∃ s4', s.run ((as ++ bs).map (Act.skip s.th.length)) = some s4' ∧ s4'.w.hush = s4.w.hush := by
  rcases poll_shape (f := f) (wk := wk) hsl hmd with ⟨mc, hmc, hcall⟩ | hno
  · have hb := slow_begin ho (hcall _ ho) hs1
    obtain ⟨s2', h2', hsim⟩ := run_slow (.step hr hs1) hmc hb ha hs2
    have hsl' : s2'.w.sleeps wk0 o := by rw [hsim.w] at hsl; exact sleeps_setObj.mp hsl
    obtain ⟨h1, h2, h3, h4⟩ := slow_step hsim hsl' hmd (hcall _ hsim.obj) hs3
    refine ⟨h4, h3, ?_, fun bs s4 h5 => ?_⟩
    · obtain ⟨-, a, b, -, h6, h7⟩ := h2
      rw [h7, ← h6]; simp
    · obtain ⟨s4', h6, h7⟩ := gap_alike h2 h1 h5
      exact ⟨s4', by rw [List.map_append]; exact run_then h2' h6, h7⟩
  · exfalso
    simp only [Sys.step] at hs1
    split at hs1
    · rename_i w' ms hc
      simp only [Option.some.injEq] at hs1
      subst hs1
      have := hno _ _ _ ho hc
      subst this
      have key : ∀ (as : List Act) (s1 s2 : Sys), .exec s.th.length ∉ as → s1.th[s.th.length]? = some [] → s1.run as = some s2 → s2.th[s.th.length]? = some [] := by
        intro as
        induction as with
        | nil => intro s1 s2 _ h h2; simp only [Sys.run, Option.some.injEq] at h2; subst h2; exact h
        | cons a as ih =>
          intro s1 s2 hna h h2
          simp only [List.mem_cons, not_or] at hna
          simp only [Sys.run] at h2
          split at h2
          · rename_i s5 h5
            refine ih s5 s2 hna.2 ?_ h2
            have hl := (List.getElem?_eq_some_iff.mp h).1
            cases a with
            | call c =>
              simp only [Sys.step] at h5
              split at h5
              · simp only [Option.some.injEq] at h5; subst h5
                simp only; rw [List.getElem?_append_left hl]; exact h
              · cases h5
            | exec t =>
              simp only [Sys.step] at h5
              split at h5
              · simp only [Option.some.injEq] at h5; subst h5
                have : t ≠ s.th.length := fun e => hna.1 (by rw [e])
                simp only; rw [List.getElem?_set_ne this]; exact h
              · cases h5
          · cases h2
      have := key as _ s2 ha (by simp) hs2
      simp [Sys.step, this] at hs3
    · cases hs1

/-- C72, all interleavings, conversely: if something can happen (`as`, which leaves the future alone, and at the end of which the future cannot
complete, then `bs`), it can happen, with the same effects, while the future is polled: the poll begins before `as` and looks at its place in the
channel after `as`. (For sends and receives; the poll of a reply or of a join handle is one step in the model, and is covered by
`C72_spurious_poll_prevents_nothing`.) -/
theorem C72_slow_poll_prevents_nothing {cap : Option Nat} {s s2' s4' : Sys} {f wk0 wk : Nat} {o : Obj} {as bs : List Act} (hr : Reachable cap s)
    (ho : s.w.objs[f]? = some o) (hmd : ∀ mid, o ≠ .send .detached mid .done ∧ o ≠ .send .bcast mid .done)
    (hkind : (∀ mid, o ≠ .reply mid) ∧ ∀ l, o ≠ .join l)
    (ha : ∀ a ∈ as, a.avoids f) (hs2 : s.run as = some s2') (hsl : s2'.w.sleeps wk0 o) (hs4 : s2'.run bs = some s4') :
    ∃ s4, s.run (.call (o.pollCall f wk) :: as.map (Act.shift s.th.length) ++ .exec s.th.length :: bs.map (Act.shift s.th.length)) = some s4 ∧
      s4'.w.hush = s4.w.hush := by
  have hshape : ∃ mc, mc.slot = some f ∧ ∀ w : World, w.objs[f]? = some o → call w (o.pollCall f wk) = some (w.setObj f .busy, [mc]) := by
    cases o with
    | send md mid st =>
      cases st with
      | new => simp [World.sleeps] at hsl
      | waiting h => exact ⟨.pollWs f md mid h wk, rfl, fun w ho => by simp [Obj.pollCall, call, ho]⟩
      | done =>
        cases md with
        | ret => exact ⟨.sendFin f .ret mid wk, rfl, fun w ho => by simp [Obj.pollCall, call, ho]⟩
        | detached => exact absurd rfl (hmd mid).1
        | bcast => exact absurd rfl (hmd mid).2
    | recv b st =>
      cases st with
      | new => simp [World.sleeps] at hsl
      | waiting c => exact ⟨.recvPoll f b c wk, rfl, fun w ho => by simp [Obj.pollCall, call, ho]⟩
    | reply mid => exact absurd rfl (hkind.1 mid)
    | join l => exact absurd rfl (hkind.2 l)
    | _ => simp [World.sleeps] at hsl
  obtain ⟨mc, hmc, hcall⟩ := hshape
  have hs1 : s.step (.call (o.pollCall f wk)) = some ⟨s.w.setObj f .busy, s.th ++ [[mc]]⟩ := by simp only [Sys.step, hcall _ ho]
  have hb := slow_begin ho (hcall _ ho) hs1
  obtain ⟨s2, h2, hsim⟩ := run_slow_conv (.step hr hs1) hmc hb ha hs2
  have hx : s2.th[s.th.length]? = some [mc] := by
    obtain ⟨a, b, -, h6, h7⟩ := hsim.th
    rw [h7, ← h6]; simp
  have hs3 : s2.step (.exec s.th.length) = some ⟨(exec s2.w mc).1, s2.th.set s.th.length ((exec s2.w mc).2 ++ [])⟩ := by
    simp only [Sys.step, hx]
  obtain ⟨h3, h4, -, -⟩ := slow_step hsim hsl hmd (hcall _ hsim.obj) hs3
  obtain ⟨s4, h5, h6⟩ := gap_alike_conv h4 h3 hs4
  refine ⟨s4, ?_, h6⟩
  refine run_then (s1 := s2) ?_ ?_
  · simp only [Sys.run, hs1]; exact h2
  · simp only [Sys.run, hs3]; exact h5

/-! ## Examples -/

/-- `C72_slow_poll_changes_nothing`: two receives wait. A poll of the second begins; meanwhile a request is handed to the first; the poll returns
`Pending`; the next request is handed to the second. -/
example : ∃ s s1 s2 s3 s4, Reachable none s ∧ s.w.objs[3]? = some (.recv 0 (.waiting 1)) ∧
    s.step (.call (Obj.pollCall 3 8 (.recv 0 (.waiting 1)))) = some s1 ∧ s1.run [.exec 5, .exec 5] = some s2 ∧
    s2.w.sleeps 6 (.recv 0 (.waiting 1)) ∧ s2.w.wokenUp 5 (.recv 0 (.waiting 0)) ∧ s2.step (.exec s.th.length) = some s3 ∧
    s3.run [.call (.send 0), .call (.pollSend 5 9), .exec 8, .exec 8, .exec 8] = some s4 ∧ s4.w.wokenUp 8 (.recv 0 (.waiting 1)) :=
  ⟨_, _, _, _, _, Reachable.run .init (as := hushSched) rfl, rfl, rfl, rfl, rfl, ⟨_, rfl⟩, rfl, rfl, ⟨_, rfl⟩⟩

/-- `C72_slow_poll_prevents_nothing`: the same without the poll; nobody uses the second receive. -/
example : ∃ s s2 s4, Reachable none s ∧ s.w.objs[3]? = some (.recv 0 (.waiting 1)) ∧ (∀ a ∈ [Act.exec 5, .exec 5], a.avoids 3) ∧
    s.run [.exec 5, .exec 5] = some s2 ∧ s2.w.sleeps 6 (.recv 0 (.waiting 1)) ∧
    s2.run [.call (.send 0), .call (.pollSend 5 9), .exec 7, .exec 7, .exec 7] = some s4 ∧ s4.w.wokenUp 6 (.recv 0 (.waiting 1)) :=
  ⟨_, _, _, Reachable.run .init (as := hushSched) rfl, rfl, by simp [Act.avoids], rfl, rfl, rfl, ⟨_, rfl⟩⟩

end Xtra
