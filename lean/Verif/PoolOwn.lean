import Verif.Pool
import Verif.Why
import Verif.PropsIdle
import Verif.PropsPark
/-! Who owns what in a pool of actors: with receives left to the tasks, every receive future, message and running handler belongs to
exactly one task, and nothing received is lost or thrown away unless a task is dropped. -/

set_option linter.unusedSimpArgs false

namespace Xtra

/-- A step of the poll of receive future `r`. -/
def Micro.pollsRecv (r : Nat) : Micro → Prop
  | .recvTry r' _ _ => r' = r
  | .recvPoll r' _ _ _ => r' = r
  | .recvBcast r' _ _ _ => r' = r
  | _ => False

def Obj.rx : Obj → Prop
  | .recv _ _ => True
  | .message _ _ => True
  | .dispatch _ _ _ => True
  | _ => False

/-- Object `r` is a receive future, being polled or not, or what it resolved to. -/
def RxAt (s : Sys) (r : Nat) : Prop :=
  (∃ o, s.w.objs[r]? = some o ∧ o.rx) ∨ ∃ ms ∈ s.th, ∃ mc ∈ ms, mc.pollsRecv r

theorem callR_rxAt {w w' : World} {c : Call} {ms : List Micro} (h : CallR w c w' ms) {r : Nat} :
    ((∃ o, w'.objs[r]? = some o ∧ o.rx) ∨ ∃ mc ∈ ms, mc.pollsRecv r) →
    (∃ o, w.objs[r]? = some o ∧ o.rx) ∨ ((∃ i, c = .next i) ∧ r = w.objs.length) := by
  intro hh
  have push : ∀ {x : Obj}, ¬ x.rx → (∃ o, (w.objs ++ [x])[r]? = some o ∧ o.rx) → ∃ o, w.objs[r]? = some o ∧ o.rx := by
    rintro x hx ⟨o, ho, hr⟩
    rcases append_cases ho with ⟨-, h⟩ | ⟨-, rfl⟩
    · exact ⟨o, h, hr⟩
    · exact absurd hr hx
  have set : ∀ {i : Nat} {x y : Obj}, w.objs[i]? = some y → (x.rx → y.rx) → (∃ o, (w.objs.set i x)[r]? = some o ∧ o.rx) →
      ∃ o, w.objs[r]? = some o ∧ o.rx := by
    rintro i x y hy hx ⟨o, ho, hr⟩
    rcases set_cases ho with ⟨rfl, rfl⟩ | ⟨-, h⟩
    · exact ⟨y, hy, hx hr⟩
    · exact ⟨o, h, hr⟩
  cases h
  case next =>
    rcases hh with ⟨o, ho, hr⟩ | ⟨mc, hm, -⟩
    · simp at ho
      rcases append_cases ho with ⟨-, h⟩ | ⟨h, -⟩
      · exact .inl ⟨o, h, hr⟩
      · exact .inr ⟨⟨_, rfl⟩, h⟩
    · simp at hm
  case pollRecv_new h0 =>
    left
    rcases hh with hh | ⟨mc, hm, hr⟩
    · exact set h0 (by simp [Obj.rx]) hh
    · simp at hm; subst hm; simp [Micro.pollsRecv] at hr; subst hr; exact ⟨_, h0, trivial⟩
  case pollRecv_waiting h0 =>
    left
    rcases hh with hh | ⟨mc, hm, hr⟩
    · exact set h0 (by simp [Obj.rx]) hh
    · simp at hm; subst hm; simp [Micro.pollsRecv] at hr; subst hr; exact ⟨_, h0, trivial⟩
  all_goals
    left
    rcases hh with hh | ⟨mc, hm, hr⟩
    · first
        | exact hh
        | exact push (by simp [Obj.rx]) hh
        | exact set (by assumption) (by simp [Obj.rx]) hh
    · simp at hm
      try (rcases hm with rfl | rfl | rfl <;> simp [Micro.pollsRecv] at hr; done)
      try (rcases hm with rfl | rfl <;> simp [Micro.pollsRecv] at hr; done)
      try (subst hm; simp [Micro.pollsRecv] at hr; done)

theorem execR_rxAt {w w' : World} {mc : Micro} {ms : List Micro} (h : ExecR w mc w' ms) (hwf : WF w mc) {r : Nat} :
    ((∃ o, w'.objs[r]? = some o ∧ o.rx) ∨ ∃ mc ∈ ms, mc.pollsRecv r) →
    (∃ o, w.objs[r]? = some o ∧ o.rx) ∨ mc.pollsRecv r := by
  intro hh
  have set : ∀ {i : Nat} {x : Obj}, (¬ x.rx ∨ i ≠ r) → (∃ o, (w.objs.set i x)[r]? = some o ∧ o.rx) →
      ∃ o, w.objs[r]? = some o ∧ o.rx := by
    rintro i x hx ⟨o, ho, hr⟩
    rcases set_cases ho with ⟨rfl, rfl⟩ | ⟨-, h⟩
    · rcases hx with hx | hx
      · exact absurd hr hx
      · exact absurd rfl hx
    · exact ⟨o, h, hr⟩
  cases h
  case recv_all r0 b wk m w1 hp _ _ =>
    by_cases hrr : r0 = r
    · exact .inr hrr
    · simp [World.popBroadcast_objs hp] at hh; exact .inl (set (.inr hrr) (by simpa using hh))
  case recv_one r0 b wk m w1 hp _ _ =>
    by_cases hrr : r0 = r
    · exact .inr hrr
    · simp [World.popUnicast_objs hp] at hh; exact .inl (set (.inr hrr) (by simpa using hh))
  case recv_shutdown r0 b wk _ _ _ =>
    by_cases hrr : r0 = r
    · exact .inr hrr
    · simp at hh; exact .inl (set (.inr hrr) (by simpa using hh))
  case recv_wait r0 b wk _ _ _ =>
    by_cases hrr : r0 = r
    · exact .inr hrr
    · left; simpa [Micro.pollsRecv, hrr] using hh
  case recvPoll_empty r0 b c wk x h0 =>
    by_cases hrr : r0 = r
    · exact .inr hrr
    · simp at hh; exact .inl (set (.inr hrr) (by simpa using hh))
  case recvPoll_one r0 b c wk m x h0 =>
    by_cases hrr : r0 = r
    · exact .inr hrr
    · simp at hh; exact .inl (set (.inr hrr) (by simpa using hh))
  case recvPoll_shutdown r0 b c wk x h0 =>
    by_cases hrr : r0 = r
    · exact .inr hrr
    · simp at hh; exact .inl (set (.inr hrr) (by simpa using hh))
  case recvPoll_bcast r0 b c wk x h0 =>
    by_cases hrr : r0 = r
    · exact .inr hrr
    · left; simpa [Micro.pollsRecv, hrr] using hh
  case recvBcast_some r0 b c wk m w1 hp =>
    by_cases hrr : r0 = r
    · exact .inr hrr
    · simp [World.popBroadcast_objs hp] at hh; exact .inl (set (.inr hrr) (by simpa using hh))
  case recvBcast_none r0 b c wk hp =>
    by_cases hrr : r0 = r
    · exact .inr hrr
    · left; simpa [Micro.pollsRecv, hrr] using hh
  all_goals
    left
    rcases hh with hh | ⟨mc, hm, hr⟩
    · first
        | exact hh
        | (simp at hh; exact hh)
        | exact set (.inl (by simp [Obj.rx])) hh
        | (simp at hh; exact set (.inl (by simp [Obj.rx])) (by simpa using hh))
    · simp at hm
      try (rcases hm with rfl | rfl | rfl | rfl <;> simp [Micro.pollsRecv] at hr; done)
      try (rcases hm with rfl | rfl | rfl <;> simp [Micro.pollsRecv] at hr; done)
      try (rcases hm with rfl | rfl <;> simp [Micro.pollsRecv] at hr; done)
      try (obtain ⟨_, _, rfl⟩ := hm; simp [Micro.pollsRecv] at hr; done)
      try (subst hm; simp [Micro.pollsRecv] at hr; done)

theorem rxAt_back {cap : Option Nat} {s s' : Sys} {a : Act} (hr : Reachable cap s) (hs : s.step a = some s') {r : Nat} (h : RxAt s' r) :
    RxAt s r ∨ ((∃ i, a = .call (.next i)) ∧ r = s.w.objs.length) := by
  rcases step_rel hs with ⟨c, w', ms, rfl, hc, rfl⟩ | ⟨t, mc, rest, w', ms, rfl, ht, hx, rfl⟩
  · have := @callR_rxAt _ _ _ _ hc r
    rcases h with h | ⟨x, hx, mc, hm, hi⟩
    · rcases this (.inl h) with h | ⟨⟨i, rfl⟩, h⟩
      · exact .inl (.inl h)
      · exact .inr ⟨⟨i, rfl⟩, h⟩
    · simp at hx; rcases hx with hx | rfl
      · exact .inl (.inr ⟨x, hx, mc, hm, hi⟩)
      · rcases this (.inr ⟨mc, hm, hi⟩) with h | ⟨⟨i, rfl⟩, h⟩
        · exact .inl (.inl h)
        · exact .inr ⟨⟨i, rfl⟩, h⟩
  · have := @execR_rxAt _ _ _ _ hx (wf_reachable hr ht) r
    have hth := List.mem_of_getElem? ht
    left
    rcases h with h | ⟨x, hx, mc', hm, hi⟩
    · rcases this (.inl h) with h | h
      · exact .inl h
      · exact .inr ⟨_, hth, _, List.mem_cons_self .., h⟩
    · rcases List.mem_or_eq_of_mem_set hx with hx | rfl
      · exact .inr ⟨x, hx, mc', hm, hi⟩
      · rcases List.mem_append.mp hm with hm | hm
        · rcases this (.inr ⟨mc', hm, hi⟩) with h | h
          · exact .inl h
          · exact .inr ⟨_, hth, _, List.mem_cons_self .., h⟩
        · exact .inr ⟨_, hth, mc', by simp [hm], hi⟩

theorem not_rxAt_gone {cap : Option Nat} {s : Sys} (hr : Reachable cap s) {r : Nat} (h : s.w.objs[r]? = some .gone) : ¬ RxAt s r := by
  rintro (⟨o, ho, hx⟩ | ⟨x, hx, mc, hm, hi⟩)
  · rw [h] at ho; simp at ho; subst ho; exact hx
  · have a := sum_ne_of_mem (fun x : Micro => eq1 r x.slot) hm
    have b := sum_ne_of_mem (sumBy (fun x : Micro => eq1 r x.slot)) hx
    have c := (own_reachable hr).slot r
    have d : busyL s.w.objs r = 0 := by simp [busyL, h]
    have e : mc.slot = some r := by cases mc <;> simp [Micro.pollsRecv] at hi <;> simp [Micro.slot, hi]
    have f : eq1 r mc.slot = 1 := by simp [e, eq1]
    simp only [f] at a
    simp only [tot] at c
    omega

/-- The step of a task: what it owned it still owns, or it is gone. -/
theorem TStep.curOr {cap : Option Nat} {s s' : Sys} {T T' : Task} (hr : Reachable cap s) (hT : TaskOk T ∧ TInv s T)
    (hbx : T.ph = .idle → ∃ o, s.w.objs[T.i]? = some o ∧ o.mbox = some T.b) (ht : TStep s T s' T') {r : Nat} :
    T.ph.cur = some r → T'.ph.cur = some r ∨ s'.w.objs[r]? = some .gone := by
  intro hc
  have h' := (ht.inv hr hT.1 hT.2 hbx).futs r
  have hm := hT.2.curMem hc
  rcases ht.newFut with h | ⟨h, -⟩
  · rw [h] at h'; exact h' hm
  · rw [h] at h'; exact h' (List.mem_cons_of_mem _ hm)

/-- Everything that can yield or hold a received message belongs to a task. -/
theorem rxOwned {cap : Option Nat} {c : PCfg} (h : PRun cap true c) : ∀ r, RxAt c.s r → ∃ T ∈ c.ts, T.ph.cur = some r := by
  induction h with
  | new =>
    rintro r (⟨o, ho, hx⟩ | ⟨x, hx, -⟩)
    · simp [init] at ho
      match r with
      | 0 => simp at ho; subst ho; simp [Obj.rx] at hx
      | 1 => simp at ho; subst ho; simp [Obj.rx] at hx
      | r + 2 => simp at ho
    · simp [init] at hx
  | @step c c' hrun hst ih =>
    have hr := hrun.reachable
    have pi := pInv_run hrun
    intro r hx
    cases hst with
    | other h1 h2 hs =>
      rcases rxAt_back hr hs hx with h | ⟨⟨i, h⟩, -⟩
      · exact ih r h
      · exact absurd h (h2 rfl i)
    | spawn ho hi =>
      obtain ⟨T, hT, hc⟩ := ih r hx
      exact ⟨T, by simp [hT], hc⟩
    | nest h0 hot hg _ =>
      obtain ⟨T, hT, hc⟩ := ih r hx
      exact ⟨T, by simp [hT], hc⟩
    | @task k0 T0 T1 s' h0 hot ht =>
      have hl0 := (List.getElem?_eq_some_iff.mp h0).1
      have a0 := pi.all k0 T0 h0
      have mem1 : T1 ∈ c.ts.set k0 T1 := by
        apply List.mem_of_getElem? (i := k0); simp [hl0]
      have old : RxAt c.s r → ∃ T ∈ c.ts.set k0 T1, T.ph.cur = some r := by
        intro h
        obtain ⟨T, hT, hc⟩ := ih r h
        obtain ⟨k, hk⟩ := List.getElem?_of_mem hT
        by_cases e : k = k0
        · subst e
          rw [h0] at hk; simp at hk; subst hk
          rcases ht.curOr hr a0 (fun hp => pi.hbx h0 (by rw [hp]; rfl)) hc with h | h
          · exact ⟨T1, mem1, h⟩
          · exact absurd hx (not_rxAt_gone (ht.reach hr) h)
        · exact ⟨T, List.mem_of_getElem? (i := k) (by rw [List.getElem?_set_ne (by omega)]; exact hk), hc⟩
      cases ht with
      | next hp hs =>
        rcases rxAt_back hr hs hx with h | ⟨-, rfl⟩
        · exact old h
        · exact ⟨_, mem1, rfl⟩
      | started _ => exact old hx
      | pending _ _ _ _ => exact old hx
      | ready _ _ _ => exact old hx
      | loop _ _ _ => exact old hx
      | «break» _ _ _ => exact old hx
      | «return» _ _ _ => exact old hx
      | over _ _ _ => exact old hx
      | futReady _ _ hs => rcases rxAt_back hr hs hx with h | ⟨⟨_, h⟩, -⟩; exact old h; simp at h
      | giveUp _ _ _ _ hs => rcases rxAt_back hr hs hx with h | ⟨⟨_, h⟩, -⟩; exact old h; simp at h
      | left _ _ => exact old hx
      | startFails _ hs => rcases rxAt_back hr hs hx with h | ⟨⟨_, h⟩, -⟩; exact old h; simp at h
      | poll _ hs => rcases rxAt_back hr hs hx with h | ⟨⟨_, h⟩, -⟩; exact old h; simp at h
      | dispatch _ _ hs => rcases rxAt_back hr hs hx with h | ⟨⟨_, h⟩, -⟩; exact old h; simp at h
      | notice _ _ hs => rcases rxAt_back hr hs hx with h | ⟨⟨_, h⟩, -⟩; exact old h; simp at h
      | finish _ _ hs => rcases rxAt_back hr hs hx with h | ⟨⟨_, h⟩, -⟩; exact old h; simp at h
      | stopped _ hs => rcases rxAt_back hr hs hx with h | ⟨⟨_, h⟩, -⟩; exact old h; simp at h
      | abortOuter _ hs => rcases rxAt_back hr hs hx with h | ⟨⟨_, h⟩, -⟩; exact old h; simp at h
      | abortWaiting _ hs => rcases rxAt_back hr hs hx with h | ⟨⟨_, h⟩, -⟩; exact old h; simp at h
      | abortHandling _ hs => rcases rxAt_back hr hs hx with h | ⟨⟨_, h⟩, -⟩; exact old h; simp at h
      | aborted _ _ _ hs => rcases rxAt_back hr hs hx with h | ⟨⟨_, h⟩, -⟩; exact old h; simp at h

/-- A step of dropping a receive future, a message or a running handler. -/
def Micro.wastes : Micro → Bool
  | .cancel _ _ => true
  | .requeue _ => true
  | .dropCell _ => true
  | .discard _ => true
  | _ => false

def Call.wastes : Call → Bool
  | .dropRecv _ => true
  | .dropMessage _ => true
  | .dropDispatch _ => true
  | _ => false

structure Kept (s : Sys) : Prop where
  th : ∀ ms ∈ s.th, ∀ mc ∈ ms, mc.wastes = false
  lost : ∀ i, Ev.lost i ∉ s.w.log
  disc : ∀ i, Ev.discarded i ∉ s.w.log

theorem Kept.step {cap : Option Nat} {s s' : Sys} {a : Act} (hr : Reachable cap s) (h : Kept s) (hs : s.step a = some s')
    (ha : ∀ c, a = .call c → c.wastes = false) : Kept s' := by
  rcases step_rel hs with ⟨c, w', ms, rfl, hc, rfl⟩ | ⟨t, mc, rest, w', ms, rfl, ht, hx, rfl⟩
  · have ha := ha c rfl
    refine ⟨fun x hx mc hm => ?_, fun i he => ?_, fun i he => ?_⟩
    · simp at hx; rcases hx with hx | rfl
      · exact h.th x hx mc hm
      · cases hc <;> simp [Call.wastes] at ha <;> simp at hm <;> (try rcases hm with rfl | rfl | rfl) <;> (try rcases hm with rfl | rfl) <;>
          (try subst hm) <;> rfl
    · rcases callR_traced hc he rfl with h1 | ⟨_, _, _, _, -, -, -, h1⟩
      · exact h.lost i h1
      · simp at h1
    · rcases callR_traced hc he rfl with h1 | ⟨_, _, _, _, -, -, -, h1⟩
      · exact h.disc i h1
      · simp at h1
  · have hth := List.mem_of_getElem? ht
    have hw := h.th _ hth mc (List.mem_cons_self ..)
    refine ⟨fun x hx' mc' hm => ?_, fun i he => ?_, fun i he => ?_⟩
    · rcases List.mem_or_eq_of_mem_set hx' with hx' | rfl
      · exact h.th x hx' mc' hm
      · rcases List.mem_append.mp hm with hm | hm
        · cases hx <;> simp [Micro.wastes] at hw <;> simp at hm <;> (try rcases hm with rfl | rfl) <;> (try obtain ⟨_, _, rfl⟩ := hm) <;>
            (try subst hm) <;> rfl
        · exact h.th _ hth mc' (by simp [hm])
    · rcases execR_traced hx (regWs_reachable hr) he rfl with h1 | h1
      · exact h.lost i h1
      · cases h1; simp [Micro.wastes] at hw
    · rcases execR_traced hx (regWs_reachable hr) he rfl with h1 | h1
      · exact h.disc i h1
      · cases h1; simp [Micro.wastes] at hw

theorem TStep.mono {s s' : Sys} {T T' : Task} (ht : TStep s T s' T') (h : T'.aborted = false) : T.aborted = false := by
  cases ht <;> first | exact h | simp at h

theorem TStep.mono_cut {s s' : Sys} {T T' : Task} (ht : TStep s T s' T') (h : T'.cut = false) : T.cut = false := by
  cases ht <;> simp_all [Task.cut]

theorem Task.cut_aborted {T : Task} (h : T.cut = false) : T.aborted = false := by simp [Task.cut] at h; exact h.1

theorem TStep.kept {cap : Option Nat} {s s' : Sys} {T T' : Task} (hr : Reachable cap s) (ht : TStep s T s' T') (h : T'.cut = false)
    (hk : Kept s) : Kept s' := by
  cases ht with
  | started _ => exact hk
  | pending _ _ _ _ => exact hk
  | ready _ _ _ => exact hk
  | loop _ _ _ => exact hk
  | «break» _ _ _ => exact hk
  | «return» _ _ _ => exact hk
  | over _ _ _ => exact hk
  | futReady _ _ hs => exact hk.step hr hs (by rintro c h; simp at h; subst h; rfl)
  | giveUp _ _ _ _ hs => simp [Task.cut] at h
  | left _ _ => exact hk
  | next _ hs => exact hk.step hr hs (by rintro c h; simp at h; subst h; rfl)
  | startFails _ hs => exact hk.step hr hs (by rintro c h; simp at h; subst h; rfl)
  | poll _ hs => exact hk.step hr hs (by rintro c h; simp at h; subst h; rfl)
  | dispatch _ _ hs => exact hk.step hr hs (by rintro c h; simp at h; subst h; rfl)
  | notice _ _ hs => exact hk.step hr hs (by rintro c h; simp at h; subst h; rfl)
  | finish _ _ hs => exact hk.step hr hs (by rintro c h; simp at h; subst h; rfl)
  | stopped _ hs => exact hk.step hr hs (by rintro c h; simp at h; subst h; rfl)
  | aborted _ _ _ hs => exact hk.step hr hs (by rintro c h; simp at h; subst h; rfl)
  | abortOuter _ hs => simp [Task.cut] at h
  | abortWaiting _ hs => simp [Task.cut] at h
  | abortHandling _ hs => simp [Task.cut] at h

/-- As long as no task was dropped and no `select` gave up a receive future, nothing received was thrown away. -/
theorem kept_run {cap : Option Nat} {c : PCfg} (h : PRun cap true c) (ha : ∀ T ∈ c.ts, T.cut = false) : Kept c.s := by
  induction h with
  | new => exact ⟨by simp [init], by simp [init], by simp [init]⟩
  | @step c c' hrun hst ih =>
    have hr := hrun.reachable
    cases hst with
    | other h1 h2 hs =>
      refine (ih ha).step hr hs ?_
      rintro cl rfl
      have own : ∀ {r : Nat} {o : Obj}, c.s.w.objs[r]? = some o → o.rx → (∀ T : Task, T.ph.cur = some r → Act.steals T (.call cl) = true) → False := by
        intro r o ho hx hst
        obtain ⟨T, hT, hc⟩ := rxOwned hrun r (.inl ⟨o, ho, hx⟩)
        have := h1 T hT
        rw [hst T hc] at this; simp at this
      obtain ⟨w', ms, hcl, rfl⟩ := step_call hs
      cases hcl <;> first
        | rfl
        | (rename_i ho; exact (own ho trivial (by intro T hT; simp [Act.steals, hT])).elim)
        | (rename_i ho _; exact (own ho trivial (by intro T hT; simp [Act.steals, hT])).elim)
    | spawn ho hi => exact ih (fun T hT => ha T (by simp [hT]))
    | nest _ _ _ _ => exact ih (fun T hT => ha T (by simp [hT]))
    | @task k0 T0 T1 s' h0 hot ht =>
      have hl0 := (List.getElem?_eq_some_iff.mp h0).1
      have h1 : T1.cut = false := ha T1 (List.mem_of_getElem? (i := k0) (by simp [hl0]))
      refine ht.kept hr h1 (ih fun T hT => ?_)
      obtain ⟨k, hk⟩ := List.getElem?_of_mem hT
      by_cases e : k = k0
      · subst e; rw [h0] at hk; simp at hk; subst hk; exact ht.mono_cut h1
      · exact ha T (List.mem_of_getElem? (i := k) (by simp only; rw [List.getElem?_set_ne (by omega)]; exact hk))

end Xtra
