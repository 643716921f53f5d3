import Verif.Hush
import Verif.Wake2
/-! # C72: polling too often, or with whatever waker, changes nothing

Executors, `select!` and `join!` poll futures without being asked to, and each time with whatever waker they have. The channel stores the waker and
wakes it; apart from that neither the poll nor the waker has any influence on what happens. The specification is `World.hush` (the same objects,
queues and history, without wakers and without the `Pending` answers) and `Act.hush` (the same call, with another waker). -/

namespace Xtra

/-- C72: two schedules that differ in nothing but the wakers are both possible or both not, and lead to the same mailbox, the same objects and the
same history, up to wakers. -/
theorem C72_wakers_do_not_matter {s s1 : Sys} {as as' : List Act} (ha : as.map Act.hush = as'.map Act.hush) (hr : s.run as = some s1) :
    ∃ s2, s.run as' = some s2 ∧ s2.w.hush = s1.w.hush := by
  have h := run_alike (s := s) rfl ha
  rw [hr] at h
  cases h2 : s.run as' with
  | none => rw [h2] at h; simp at h
  | some s2 =>
    rw [h2] at h
    simp only [Option.map_some, Option.some.injEq, Sys.hush, Sys.mk.injEq] at h
    exact ⟨s2, rfl, h.1.symm⟩


theorem hush_set_same {α : Type _} {l : List α} {g : α → α} {h : Nat} {x y : α} (hx : l[h]? = some x) (e : g y = g x) :
    (l.map g).set h (g y) = l.map g := by
  rw [e]
  apply List.ext_getElem?
  intro j
  rw [List.getElem?_set]
  split
  · rename_i e; subst e
    obtain ⟨h1, h2⟩ := List.getElem?_eq_some_iff.mp hx
    simp [h1, h2]
  · rfl

theorem set_back {α : Type _} {l : List α} {i : Nat} {x y : α} (h : l[i]? = some x) : (l.set i y).set i x = l := by
  rw [List.set_set]
  apply List.ext_getElem?
  intro j
  rw [List.getElem?_set]
  split
  · rename_i e; subst e
    obtain ⟨h1, h2⟩ := List.getElem?_eq_some_iff.mp h
    simp [h1, h2]
  · rfl

/-- A poll of a future that cannot complete leaves everything but the wakers as it was. -/
theorem spurious_poll {s s1 : Sys} {f wk0 wk n : Nat} {o : Obj} (ho : s.w.objs[f]? = some o) (hs : s.w.sleeps wk0 o)
    (hmd : ∀ mid, o ≠ .send .detached mid .done ∧ o ≠ .send .bcast mid .done)
    (hp : s.run (.call (o.pollCall f wk) :: List.replicate n (.exec s.th.length)) = some s1) (hd : s1.th[s.th.length]? = some []) :
    s1.w.hush = s.w.hush ∧ s1.th = s.th ++ [[]] ∧ s1.w.sleeps wk o ∧ pendingWith f s1.w.log = some wk := by
  simp only [Sys.run] at hp
  split at hp
  · rename_i s2 h2
    have idle : ∀ (w : World) (n : Nat), (Sys.mk w (s.th ++ [[]])).run (List.replicate n (.exec s.th.length)) = some s1 → s1 = ⟨w, s.th ++ [[]]⟩ := by
      intro w n h
      cases n with
      | zero => simpa [Sys.run] using h.symm
      | succ n => simp [List.replicate_succ, Sys.run, Sys.step] at h
    have one : ∀ (w w' : World) (m : Micro), exec w m = (w', []) → (Sys.mk w (s.th ++ [[m]])).run (List.replicate n (.exec s.th.length)) = some s1 →
        s1 = ⟨w', s.th ++ [[]]⟩ := by
      intro w w' m he h
      cases n with
      | zero =>
        simp [Sys.run] at h
        subst h
        simp at hd
      | succ n =>
        simp [List.replicate_succ, Sys.run, Sys.step, he] at h
        exact idle _ _ h
    simp only [Sys.step] at h2
    split at h2
    · rename_i w' ms hc
      simp only [Option.some.injEq] at h2
      subst h2
      have hf := (List.getElem?_eq_some_iff.mp ho).1
      cases o with
      | send md mid st =>
        cases st with
        | new => simp [World.sleeps] at hs
        | waiting h =>
          obtain ⟨m, hs⟩ := hs
          simp only [Obj.pollCall, call, ho] at hc; simp at hc; obtain ⟨rfl, rfl⟩ := hc
          have hl := (List.getElem?_eq_some_iff.mp hs).1
          have := one _ _ _ (by simp only [exec, World.setObj, hs]; rfl) hp
          subst this
          refine ⟨?_, rfl, ⟨m, by simp [World.ev, hl]⟩, pendingWith_here _ _ _ (by simp [Ev.poll])⟩
          simp [World.hush, World.ev, Ev.isPending, set_back ho]; exact hush_set_same hs rfl
        | done =>
          cases md with
          | ret =>
            simp only [World.sleeps] at hs
            simp only [Obj.pollCall, call, ho] at hc; simp at hc; obtain ⟨rfl, rfl⟩ := hc
            have hl := (List.getElem?_eq_some_iff.mp hs).1
            have := one _ _ _ (by simp only [exec, World.setObj, hs]; rfl) hp
            subst this
            refine ⟨?_, rfl, by simp [World.sleeps, World.ev, hl], pendingWith_here _ _ _ (by simp [Ev.poll])⟩
            simp [World.hush, World.ev, Ev.isPending, set_back ho]; exact hush_set_same hs rfl
          | detached => exact absurd rfl (hmd mid).1
          | bcast => exact absurd rfl (hmd mid).2
      | reply mid =>
        simp only [World.sleeps] at hs
        simp only [Obj.pollCall, call, ho, hs] at hc; simp at hc; obtain ⟨rfl, rfl⟩ := hc
        have hl := (List.getElem?_eq_some_iff.mp hs).1
        have := idle _ _ hp
        subst this
        refine ⟨?_, rfl, by simp [World.sleeps, World.ev, hl], pendingWith_here _ _ _ (by simp [Ev.poll])⟩
        simp [World.hush, World.ev, Ev.isPending, set_back ho]; exact hush_set_same hs rfl
      | recv b st =>
        cases st with
        | new => simp [World.sleeps] at hs
        | waiting c =>
          simp only [World.sleeps] at hs
          simp only [Obj.pollCall, call, ho] at hc; simp at hc; obtain ⟨rfl, rfl⟩ := hc
          have hl := (List.getElem?_eq_some_iff.mp hs).1
          have := one _ _ _ (by simp only [exec, World.setObj, hs]; rfl) hp
          subst this
          refine ⟨?_, rfl, by simp [World.sleeps, World.ev, hl], pendingWith_here _ _ _ (by simp [Ev.poll])⟩
          simp [World.hush, World.ev, Ev.isPending, set_back ho]; exact hush_set_same hs rfl
      | join l =>
        cases l with
        | none => simp [World.sleeps] at hs
        | some l =>
          simp only [World.sleeps] at hs
          simp only [Obj.pollCall, call, ho, hs] at hc; simp at hc; obtain ⟨rfl, rfl⟩ := hc
          have hl := (List.getElem?_eq_some_iff.mp hs).1
          have := idle _ _ hp
          subst this
          refine ⟨?_, rfl, by simp [World.sleeps, World.ev, hl], pendingWith_here _ _ _ (by simp [Ev.poll])⟩
          simp [World.hush, World.ev, Ev.isPending, set_back ho]; exact hush_set_same hs rfl
      | _ => simp [World.sleeps] at hs
    · cases h2
  · cases hp

/-- C72: a future that cannot complete is polled again, with any waker, while other calls are under way. The poll returns `Pending`; it changes neither
the mailbox nor any object nor the history, except for the waker; and whatever happens from then on could have happened, with the same effects,
without the poll (thread `s.th.length` is the poll's). -/
theorem C72_spurious_poll_changes_nothing {s s1 : Sys} {f wk0 wk n : Nat} {o : Obj} (ho : s.w.objs[f]? = some o) (hs : s.w.sleeps wk0 o)
    (hmd : ∀ mid, o ≠ .send .detached mid .done ∧ o ≠ .send .bcast mid .done)
    (hp : s.run (.call (o.pollCall f wk) :: List.replicate n (.exec s.th.length)) = some s1) (hd : s1.th[s.th.length]? = some []) :
    pendingWith f s1.w.log = some wk ∧ s1.w.sleeps wk o ∧ s1.w.hush = s.w.hush ∧
    ∀ as s2, s1.run as = some s2 → ∃ s2', s.run (as.map (Act.skip s.th.length)) = some s2' ∧ s2'.w.hush = s2.w.hush := by
  obtain ⟨hw, hth, hsl, hpend⟩ := spurious_poll ho hs hmd hp hd
  refine ⟨hpend, hsl, hw, fun as s2 hr => ?_⟩
  have hg0 : Gap s.th.length s1 ⟨s1.w, s.th⟩ := ⟨rfl, s.th, [], by simp, rfl, hth⟩
  obtain ⟨s3, h3, hg⟩ := run_gap hg0 hr
  have h4 := run_alike (s := ⟨s1.w, s.th⟩) (s' := s) (as := as.map (Act.skip s.th.length)) (by simp [Sys.hush, hw]) rfl
  rw [h3] at h4
  cases h5 : s.run (as.map (Act.skip s.th.length)) with
  | none => rw [h5] at h4; simp at h4
  | some s2' =>
    rw [h5] at h4
    simp only [Option.map_some, Option.some.injEq, Sys.hush, Sys.mk.injEq] at h4
    exact ⟨s2', rfl, by rw [← h4.1, hg.1]⟩

/-- C72: and whatever could have happened without the poll can happen, with the same effects, after it. -/
theorem C72_spurious_poll_prevents_nothing {s s1 s2 : Sys} {f wk0 wk n : Nat} {o : Obj} {as : List Act} (ho : s.w.objs[f]? = some o)
    (hs : s.w.sleeps wk0 o) (hmd : ∀ mid, o ≠ .send .detached mid .done ∧ o ≠ .send .bcast mid .done)
    (hp : s.run (.call (o.pollCall f wk) :: List.replicate n (.exec s.th.length)) = some s1) (hd : s1.th[s.th.length]? = some [])
    (hr : s.run as = some s2) : ∃ s2', s1.run (as.map (Act.shift s.th.length)) = some s2' ∧ s2'.w.hush = s2.w.hush := by
  obtain ⟨hw, hth, -, -⟩ := spurious_poll ho hs hmd hp hd
  have h4 := run_alike (s := ⟨s1.w, s.th⟩) (s' := s) (as := as) (by simp [Sys.hush, hw]) rfl
  rw [hr] at h4
  cases h5 : (Sys.mk s1.w s.th).run as with
  | none => rw [h5] at h4; simp at h4
  | some s3 =>
    rw [h5] at h4
    simp only [Option.map_some, Option.some.injEq, Sys.hush, Sys.mk.injEq] at h4
    have hg0 : Gap s.th.length s1 ⟨s1.w, s.th⟩ := ⟨rfl, s.th, [], by simp, rfl, hth⟩
    obtain ⟨s4, h6, hg⟩ := run_gap_conv hg0 h5
    exact ⟨s4, h6, by rw [hg.1, h4.1]⟩

/-! ## Examples -/

/-- Two receives wait, a request is being sent: the first receive is polled again, by a waker that never asked for it. -/
def hushSched : List Act := [.call (.next 1), .call (.pollRecv 2 5), .exec 1, .exec 1, .call (.next 1), .call (.pollRecv 3 6), .exec 3, .exec 3,
  .call (.send 0), .call (.pollSend 4 9), .exec 5]

/-- `C72_spurious_poll_changes_nothing`, `C72_spurious_poll_prevents_nothing`: the receive polled again keeps its place: the request is handed to it. -/
example : ∃ s s1 s2 s3, Reachable none s ∧ s.w.objs[2]? = some (.recv 0 (.waiting 0)) ∧ s.w.sleeps 5 (.recv 0 (.waiting 0)) ∧
    s.run (.call (Obj.pollCall 2 8 (.recv 0 (.waiting 0))) :: List.replicate 1 (.exec s.th.length)) = some s1 ∧ s1.th[s.th.length]? = some [] ∧
    s1.run [.exec 5, .exec 5] = some s2 ∧ s2.w.wokenUp 8 (.recv 0 (.waiting 0)) ∧
    s.run [.exec 5, .exec 5] = some s3 ∧ s3.w.wokenUp 5 (.recv 0 (.waiting 0)) :=
  ⟨_, _, _, _, Reachable.run .init (as := hushSched) rfl, rfl, rfl, rfl, rfl, rfl, ⟨_, rfl⟩, rfl, ⟨_, rfl⟩⟩

/-- `C72_spurious_poll_changes_nothing`: a waiting send, a request that awaits its answer and a join handle polled again. -/
example : ∃ s s1, Reachable (some 0) s ∧ s.w.sleeps 8 (.send .ret 0 (.waiting 0)) ∧ s.w.objs[2]? = some (.send .ret 0 (.waiting 0)) ∧
    s.run (.call (Obj.pollCall 2 9 (.send .ret 0 (.waiting 0))) :: List.replicate 1 (.exec s.th.length)) = some s1 ∧ s1.th[s.th.length]? = some [] :=
  ⟨_, _, Reachable.run .init (as := [.call (.send 0), .call (.pollSend 2 8), .exec 1, .exec 1, .exec 1, .exec 1, .exec 1]) rfl, ⟨_, rfl⟩, rfl, rfl, rfl⟩

example : ∃ s s1, Reachable none s ∧ s.w.sleeps 5 (.join (some 0)) ∧ s.w.objs[2]? = some (.join (some 0)) ∧
    s.run (.call (Obj.pollCall 2 9 (.join (some 0))) :: List.replicate 0 (.exec s.th.length)) = some s1 ∧ s1.th[s.th.length]? = some [] :=
  ⟨_, _, Reachable.run .init (as := [.call (.join 0), .exec 0, .exec 0, .call (.pollJoin 2 5)]) rfl, rfl, rfl, rfl, rfl⟩

/-- `C72_wakers_do_not_matter`: a receive polled with waker 5, or with waker 77. -/
example : ∃ s, (init none).run [.call (.next 1), .call (.pollRecv 2 5), .exec 1, .exec 1] = some s ∧
    [Act.call (.next 1), .call (.pollRecv 2 5), .exec 1, .exec 1].map Act.hush = [Act.call (.next 1), .call (.pollRecv 2 77), .exec 1, .exec 1].map Act.hush :=
  ⟨_, rfl, rfl⟩

end Xtra
