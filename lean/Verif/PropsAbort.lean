import Verif.PropsPool
import Verif.PoolRun
/-! # C49: dropping a running actor; concrete cases for C48 and C49 -/

set_option linter.unusedSimpArgs false

namespace Xtra

/-- A receive future is being dropped, or one was and took a handed-over message with it. -/
def Cancels (s : Sys) : Prop :=
  (∃ ms ∈ s.th, ∃ mc ∈ ms, (∃ b c, mc = .cancel b c) ∨ ∃ c, mc = .dropCell c) ∨ ∃ i, Ev.lost i ∈ s.w.log

/-- Request `i` is being thrown away, or was, by dropping its message or its running handler. -/
def Discards (s : Sys) (i : Nat) : Prop :=
  (∃ ms ∈ s.th, ∃ m, .discard (.one m) ∈ ms ∧ m.id = i) ∨ Ev.discarded i ∈ s.w.log

theorem cancels_back {cap : Option Nat} {s s' : Sys} {a : Act} (hr : Reachable cap s) (hs : s.step a = some s') (h : Cancels s') :
    Cancels s ∨ ∃ r, a = .call (.dropRecv r) := by
  rcases step_rel hs with ⟨c, w', ms, rfl, hc, rfl⟩ | ⟨t, mc, rest, w', ms, rfl, ht, hx, rfl⟩
  · rcases h with ⟨x, hx, mc, hm, h⟩ | ⟨i, he⟩
    · simp at hx; rcases hx with hx | rfl
      · exact .inl (.inl ⟨x, hx, mc, hm, h⟩)
      · right
        cases hc
        case dropRecv_new => exact ⟨_, rfl⟩
        case dropRecv_waiting => exact ⟨_, rfl⟩
        all_goals
          simp at hm
          try (rcases hm with rfl | rfl | rfl <;> simp at h; done)
          try (rcases hm with rfl | rfl <;> simp at h; done)
          try (subst hm; simp at h; done)
    · rcases callR_traced hc he rfl with h1 | ⟨_, _, _, _, -, -, -, h1⟩
      · exact .inl (.inr ⟨i, h1⟩)
      · simp at h1
  · left
    have hth := List.mem_of_getElem? ht
    rcases h with ⟨x, hx', mc', hm, h⟩ | ⟨i, he⟩
    · rcases List.mem_or_eq_of_mem_set hx' with hx' | rfl
      · exact .inl ⟨x, hx', mc', hm, h⟩
      · rcases List.mem_append.mp hm with hm | hm
        · refine .inl ⟨_, hth, mc, List.mem_cons_self .., ?_⟩
          cases hx
          case cancel_msg => exact .inl ⟨_, _, rfl⟩
          case cancel_full => exact .inl ⟨_, _, rfl⟩
          case cancel_none => exact .inl ⟨_, _, rfl⟩
          all_goals
            exfalso
            simp at hm
            try (rcases hm with rfl | rfl <;> simp at h; done)
            try (obtain ⟨_, _, rfl⟩ := hm; simp at h; done)
            try (subst hm; simp at h; done)
        · exact .inl ⟨_, hth, mc', by simp [hm], h⟩
    · rcases execR_traced hx (regWs_reachable hr) he rfl with h1 | h1
      · exact .inr ⟨i, h1⟩
      · cases h1; exact .inl ⟨_, hth, _, List.mem_cons_self .., .inr ⟨_, rfl⟩⟩

theorem discards_back {cap : Option Nat} {s s' : Sys} {a : Act} (hr : Reachable cap s) (hs : s.step a = some s') {i : Nat}
    (h : Discards s' i) : Discards s i ∨ ∃ r b m, m.id = i ∧
      ((a = .call (.dropMessage r) ∧ s.w.objs[r]? = some (.message b (.one m))) ∨
       ∃ x, a = .call (.dropDispatch r) ∧ s.w.objs[r]? = some (.dispatch b (.one m) x)) := by
  rcases step_rel hs with ⟨c, w', ms, rfl, hc, rfl⟩ | ⟨t, mc, rest, w', ms, rfl, ht, hx, rfl⟩
  · rcases h with ⟨x, hx, m, hm, h⟩ | he
    · simp at hx; rcases hx with hx | rfl
      · exact .inl (.inl ⟨x, hx, m, hm, h⟩)
      · right
        cases hc
        case dropMessage h0 => simp at hm; subst hm; exact ⟨_, _, _, h, .inl ⟨rfl, h0⟩⟩
        case dropDispatch h0 => simp at hm; subst hm; exact ⟨_, _, _, h, .inr ⟨_, rfl, h0⟩⟩
        all_goals simp at hm
    · rcases callR_traced hc he rfl with h1 | ⟨_, _, _, _, -, -, -, h1⟩
      · exact .inl (.inr h1)
      · simp at h1
  · left
    have hth := List.mem_of_getElem? ht
    rcases h with ⟨x, hx', m, hm, h⟩ | he
    · rcases List.mem_or_eq_of_mem_set hx' with hx' | rfl
      · exact .inl ⟨x, hx', m, hm, h⟩
      · rcases List.mem_append.mp hm with hm | hm
        · exfalso; cases hx <;> simp at hm
        · exact .inl ⟨_, hth, m, by simp [hm], h⟩
    · rcases execR_traced hx (regWs_reachable hr) he rfl with h1 | h1
      · exact .inr h1
      · cases h1; exact .inl ⟨_, hth, _, List.mem_cons_self .., rfl⟩

/-- The task was dropped while its receive future `r` waited, or `select` gave `r` up because its future completed. -/
def CancelledTask (w : World) (T : Task) : Prop :=
  T.cut = true ∧ ∃ r, T.futs.head? = some r ∧ w.objs[r]? = some .gone ∧ ∀ b am, Ev.recv r b am ∉ w.log

/-- The task was dropped while it handled request `i`. -/
def DroppedTask (w : World) (i : Nat) (T : Task) : Prop :=
  T.aborted = true ∧ ∃ r m, T.futs.head? = some r ∧ w.objs[r]? = some .gone ∧ Ev.recv r T.b (.one m) ∈ w.log ∧ m.id = i ∧
    ∀ am brk, (r, am, brk) ∉ T.hist

theorem CancelledTask.step {cap : Option Nat} {s s' : Sys} {a : Act} {T : Task} (hr : Reachable cap s) (hs : s.step a = some s')
    (h : CancelledTask s.w T) : CancelledTask s'.w T := by
  obtain ⟨h1, r, h2, h3, h4⟩ := h
  refine ⟨h1, r, h2, obj_gone hr hs h3, fun b am he => ?_⟩
  rcases step_recvEv hr hs he with h5 | ⟨h5, -⟩
  · exact h4 b am h5
  · rw [h3] at h5; simp at h5

theorem DroppedTask.step {cap : Option Nat} {s s' : Sys} {a : Act} {T : Task} {i : Nat} (hr : Reachable cap s) (hs : s.step a = some s')
    (h : DroppedTask s.w i T) : DroppedTask s'.w i T := by
  obtain ⟨h1, r, m, h2, h3, h4, h5⟩ := h
  exact ⟨h1, r, m, h2, obj_gone hr hs h3, (step_suffix hr hs).subset h4, h5⟩

/-- A dropped task stays what it is. -/
theorem TStep.keepsAborted {s s' : Sys} {T T' : Task} (ht : TStep s T s' T') (hsh : TaskOk T) (h : T.aborted = true) :
    T'.aborted = true ∧ T'.futs = T.futs ∧ T'.hist = T.hist := by
  unfold TaskOk at hsh
  cases ht <;> (try (rename_i hp; rw [hp] at hsh; obtain ⟨-, -, h3, -⟩ := hsh; rw [h] at h3; simp at h3; done)) <;>
    (try (rename_i hp _; rw [hp] at hsh; obtain ⟨-, -, h3, -⟩ := hsh; rw [h] at h3; simp at h3; done)) <;>
    (try (rename_i hp _ _; rw [hp] at hsh; obtain ⟨-, -, h3, -⟩ := hsh; rw [h] at h3; simp at h3; done)) <;>
    exact ⟨by first | exact h | rfl, rfl, rfl⟩

/-- A task that was dropped or gave up stays what it is. -/
theorem TStep.keepsCut {s s' : Sys} {T T' : Task} (ht : TStep s T s' T') (hsh : TaskOk T) (h : T.cut = true) :
    T'.cut = true ∧ T'.futs = T.futs ∧ T'.hist = T.hist := by
  by_cases ha : T.aborted = true
  · obtain ⟨h1, h2⟩ := ht.keepsAborted hsh ha
    exact ⟨by simp [Task.cut, h1], h2⟩
  · have hl : T.lvl = .gave := by simp [Task.cut, ha] at h; exact h
    have key : (∃ r am t, T.ph = .aborting r am t) ∨ T.ph = .done := by
      unfold TaskOk at hsh
      rw [hl] at hsh
      cases hp : T.ph <;> rw [hp] at hsh <;> simp [TaskOkP] at hsh
      · exact .inl ⟨_, _, _, rfl⟩
      · exact .inr rfl
    rcases key with ⟨r, am, t, hp⟩ | hp
    · cases ht with
      | over _ _ _ => exact ⟨h, rfl, rfl⟩
      | aborted _ _ h1 _ => rw [hl] at h1; simp at h1
      | abortOuter h1 _ => rcases h1 with h1 | h1 <;> simp [hp] at h1
      | _ => simp_all
    · exact absurd hp ht.not_done

theorem abort_causes {cap : Option Nat} {c : PCfg} (h : PRun cap true c) :
    (Cancels c.s → ∃ T ∈ c.ts, CancelledTask c.s.w T) ∧ ∀ i, Discards c.s i → ∃ T ∈ c.ts, DroppedTask c.s.w i T := by
  induction h with
  | new => refine ⟨?_, fun i => ?_⟩ <;> simp [Cancels, Discards, init]
  | @step c c' hrun hst ih =>
    have hr := hrun.reachable
    have pi := pInv_run hrun
    cases hst with
    | @other a s' h1 h2 hs =>
      have own : ∀ {r : Nat} {o : Obj}, c.s.w.objs[r]? = some o → o.rx → (∀ T : Task, T.ph.cur = some r → a.steals T = true) → False := by
        intro r o ho hx hst
        obtain ⟨T, hT, hc⟩ := rxOwned hrun r (.inl ⟨o, ho, hx⟩)
        have := h1 T hT
        rw [hst T hc] at this; simp at this
      refine ⟨fun hc => ?_, fun i hc => ?_⟩
      · rcases cancels_back hr hs hc with hc | ⟨r, rfl⟩
        · obtain ⟨T, hT, h3⟩ := ih.1 hc
          exact ⟨T, hT, h3.step hr hs⟩
        · exfalso
          obtain ⟨w', ms, hcl, rfl⟩ := step_call hs
          cases hcl with
          | dropRecv_new ho => exact own ho trivial (by intro T hT; simp [Act.steals, hT])
          | dropRecv_waiting ho => exact own ho trivial (by intro T hT; simp [Act.steals, hT])
      · rcases discards_back hr hs hc with hc | ⟨r, b, m, -, ⟨rfl, ho⟩ | ⟨x, rfl, ho⟩⟩
        · obtain ⟨T, hT, h3⟩ := ih.2 i hc
          exact ⟨T, hT, h3.step hr hs⟩
        · exact (own ho trivial (by intro T hT; simp [Act.steals, hT])).elim
        · exact (own ho trivial (by intro T hT; simp [Act.steals, hT])).elim
    | spawn ho hi =>
      refine ⟨fun hc => ?_, fun i hc => ?_⟩
      · obtain ⟨T, hT, h3⟩ := ih.1 hc; exact ⟨T, by simp [hT], h3⟩
      · obtain ⟨T, hT, h3⟩ := ih.2 i hc; exact ⟨T, by simp [hT], h3⟩
    | nest _ _ _ _ =>
      refine ⟨fun hc => ?_, fun i hc => ?_⟩
      · obtain ⟨T, hT, h3⟩ := ih.1 hc; exact ⟨T, by simp [hT], h3⟩
      · obtain ⟨T, hT, h3⟩ := ih.2 i hc; exact ⟨T, by simp [hT], h3⟩
    | @task k0 T0 T1 s' h0 hot ht =>
      have hl0 := (List.getElem?_eq_some_iff.mp h0).1
      have a0 := pi.all k0 T0 h0
      have mem1 : T1 ∈ c.ts.set k0 T1 := List.mem_of_getElem? (i := k0) (by simp [hl0])
      have oldC : ∀ T ∈ c.ts, CancelledTask c.s.w T → ∃ T ∈ c.ts.set k0 T1, CancelledTask s'.w T := by
        intro T hT hc
        have hw : CancelledTask s'.w T := by
          rcases ht.chan a0.1 with rfl | ⟨a, hs, -⟩
          · exact hc
          · exact hc.step hr hs
        obtain ⟨k, hk⟩ := List.getElem?_of_mem hT
        by_cases e : k = k0
        · subst e
          rw [h0] at hk; simp at hk; subst hk
          obtain ⟨e1, e2, e3⟩ := ht.keepsCut a0.1 hw.1
          obtain ⟨-, r, h2, h3⟩ := hw
          exact ⟨T1, mem1, e1, r, by rw [e2]; exact h2, h3⟩
        · exact ⟨T, List.mem_of_getElem? (i := k) (by rw [List.getElem?_set_ne (by omega)]; exact hk), hw⟩
      have oldD : ∀ i, ∀ T ∈ c.ts, DroppedTask c.s.w i T → ∃ T ∈ c.ts.set k0 T1, DroppedTask s'.w i T := by
        intro i T hT hc
        have hw : DroppedTask s'.w i T := by
          rcases ht.chan a0.1 with rfl | ⟨a, hs, -⟩
          · exact hc
          · exact hc.step hr hs
        obtain ⟨k, hk⟩ := List.getElem?_of_mem hT
        by_cases e : k = k0
        · subst e
          rw [h0] at hk; simp at hk; subst hk
          obtain ⟨e1, e2, e3⟩ := ht.keepsAborted a0.1 hw.1
          obtain ⟨-, r, m, h2, h3, h4, h5, h6⟩ := hw
          exact ⟨T1, mem1, e1, r, m, by rw [e2]; exact h2, h3, by rw [ht.ids.2]; exact h4, h5, by rw [e3]; exact h6⟩
        · exact ⟨T, List.mem_of_getElem? (i := k) (by rw [List.getElem?_set_ne (by omega)]; exact hk), hw⟩
      have gen : ∀ (cl : Call), c.s.step (.call cl) = some s' → cl.wastes = false →
          (Cancels s' → ∃ T ∈ c.ts.set k0 T1, CancelledTask s'.w T) ∧ ∀ i, Discards s' i → ∃ T ∈ c.ts.set k0 T1, DroppedTask s'.w i T := by
        intro cl hs hw
        refine ⟨fun hc => ?_, fun i hc => ?_⟩
        · rcases cancels_back hr hs hc with hc | ⟨r, e⟩
          · obtain ⟨T, hT, h3⟩ := ih.1 hc; exact oldC T hT h3
          · simp at e; subst e; simp [Call.wastes] at hw
        · rcases discards_back hr hs hc with hc | ⟨r, b, m, -, ⟨e, -⟩ | ⟨x, e, -⟩⟩
          · obtain ⟨T, hT, h3⟩ := ih.2 i hc; exact oldD i T hT h3
          · simp at e; subst e; simp [Call.wastes] at hw
          · simp at e; subst e; simp [Call.wastes] at hw
      have noop : s' = c.s → 
          (Cancels s' → ∃ T ∈ c.ts.set k0 T1, CancelledTask s'.w T) ∧ ∀ i, Discards s' i → ∃ T ∈ c.ts.set k0 T1, DroppedTask s'.w i T := by
        intro e
        refine ⟨fun hc => ?_, fun i hc => ?_⟩
        · obtain ⟨T, hT, h3⟩ := ih.1 (e ▸ hc); exact oldC T hT h3
        · obtain ⟨T, hT, h3⟩ := ih.2 i (e ▸ hc); exact oldD i T hT h3
      have ti := ht.inv hr a0.1 a0.2 (fun hp => pi.hbx h0 (by rw [hp]; rfl))
      have tsh := ht.shape a0.1
      have a02 := a0.2
      have tph := a0.2.ph
      have sh0 := a0.1
      unfold TaskOk at sh0
      cases ht with
      | started _ => exact noop rfl
      | pending _ _ _ _ => exact noop rfl
      | ready _ _ _ => exact noop rfl
      | loop _ _ _ => exact noop rfl
      | «break» _ _ _ => exact noop rfl
      | «return» _ _ _ => exact noop rfl
      | over _ _ _ => exact noop rfl
      | futReady _ _ hs => exact gen _ hs rfl
      | left _ _ => exact noop rfl
      | next _ hs => exact gen _ hs rfl
      | startFails _ hs => exact gen _ hs rfl
      | poll _ hs => exact gen _ hs rfl
      | dispatch _ _ hs => exact gen _ hs rfl
      | notice _ _ hs => exact gen _ hs rfl
      | finish _ _ hs => exact gen _ hs rfl
      | stopped _ hs => exact gen _ hs rfl
      | aborted _ _ _ hs => exact gen _ hs rfl
      | abortOuter _ hs => exact gen _ hs rfl
      | @abortWaiting _ _ r hp hs =>
        refine ⟨fun _ => ⟨_, mem1, by simp [Task.cut], r, a02.cur r (by rw [hp]; rfl), ?_, fun b am he => ?_⟩, fun i hc => ?_⟩
        · rcases ti.futs r (a02.curMem (by rw [hp]; rfl)) with e | e
          · simp [APh.cur] at e
          · exact e
        · rw [hp] at tph
          obtain ⟨st, ho⟩ := tph
          rcases step_recvEv hr hs he with e | ⟨e, -⟩
          · rcases yielded_reachable hr e with e | ⟨_, e⟩ | e <;> rw [ho] at e <;> simp at e
          · rw [ho] at e; simp at e
        · rcases discards_back hr hs hc with hc | ⟨r, b, m, -, ⟨e, -⟩ | ⟨x, e, -⟩⟩
          · obtain ⟨T, hT, h3⟩ := ih.2 i hc; exact oldD i T hT h3
          · simp at e
          · simp at e
      | @giveUp _ _ r t b0 st hp hx hlv ho hs =>
        refine ⟨fun _ => ⟨_, mem1, by simp [Task.cut], r, a02.cur r (by rw [hp]; rfl), ?_, fun b am he => ?_⟩, fun i hc => ?_⟩
        · rcases ti.futs r (a02.curMem (by rw [hp]; rfl)) with e | e
          · simp [APh.cur] at e
          · exact e
        · rcases step_recvEv hr hs he with e | ⟨e, -⟩
          · rcases yielded_reachable hr e with e | ⟨_, e⟩ | e <;> rw [ho] at e <;> simp at e
          · rw [ho] at e; simp at e
        · rcases discards_back hr hs hc with hc | ⟨r, b, m, -, ⟨e, -⟩ | ⟨x, e, -⟩⟩
          · obtain ⟨T, hT, h3⟩ := ih.2 i hc; exact oldD i T hT h3
          · simp at e
          · simp at e
      | @abortHandling _ _ r am hp hs =>
        refine ⟨fun hc => ?_, fun i hc => ?_⟩
        · rcases cancels_back hr hs hc with hc | ⟨r, e⟩
          · obtain ⟨T, hT, h3⟩ := ih.1 hc; exact oldC T hT h3
          · simp at e
        · rcases discards_back hr hs hc with hc | ⟨r', b, m, hi, ⟨e, -⟩ | ⟨x, e, ho⟩⟩
          · obtain ⟨T, hT, h3⟩ := ih.2 i hc; exact oldD i T hT h3
          · simp at e
          · simp at e; subst e
            rw [hp] at tph sh0
            obtain ⟨⟨y, hy⟩, h5, -⟩ := tph
            rw [hy] at ho; simp at ho; obtain ⟨rfl, rfl, -⟩ := ho
            refine ⟨_, mem1, rfl, r, m, a02.cur r (by rw [hp]; rfl), ?_, (step_suffix hr hs).subset h5, hi, fun am brk hm => ?_⟩
            · rcases ti.futs r (a02.curMem (by rw [hp]; rfl)) with e | e
              · simp [APh.cur] at e
              · exact e
            · obtain ⟨-, h6, -, v, h7⟩ := a02.hist _ _ _ hm
              rcases yielded_reachable hr h6 with e | ⟨_, e⟩ | e <;> rw [hy] at e <;> simp at e
              obtain ⟨rfl, -⟩ := e
              have h8 := (C47_at_most_one_end hr m.id).2 (List.countP_pos_iff.mpr ⟨_, h7.2 m rfl, by simp [Ev.endsMsg]⟩)
              exact h8.2.2.2.2 _ _ _ _ hy rfl

/-! ## Statements -/

/-- What a dropped task was busy with. -/
def AbInv (s : Sys) (T : Task) : Prop := T.aborted = true → ∀ r b m, T.futs.head? = some r → Ev.recv r b (.one m) ∈ s.w.log →
  (∃ brk, (r, .one m, brk) ∈ T.hist) ∨ (∃ t, T.ph = .aborting r (some (.one m)) t) ∨ Ev.discarded m.id ∈ s.w.log

theorem AbInv.frame {cap : Option Nat} {s s' : Sys} {a : Act} {T : Task} (hr : Reachable cap s) (hs : s.step a = some s') (hsh : TaskOk T)
    (ti : TInv s T) (h : AbInv s T) : AbInv s' T := by
  intro ha r b m hh he
  rcases step_recvEv hr hs he with h1 | ⟨h1, -⟩
  · rcases h ha r b m hh h1 with h2 | h2 | h2
    · exact .inl h2
    · exact .inr (.inl h2)
    · exact .inr (.inr ((step_suffix hr hs).subset h2))
  · exfalso
    rcases ti.futs r (List.mem_of_mem_head? hh) with h2 | h2
    · unfold TaskOk at hsh
      generalize T.ph = p at hsh h2
      cases p <;> simp [APh.cur] at h2 <;> (obtain ⟨-, -, h3, -⟩ := hsh; rw [ha] at h3; simp at h3)
    · rw [h1] at h2; simp at h2

theorem AbInv.task {cap : Option Nat} {s s' : Sys} {T T' : Task} (hr : Reachable cap s) (hsh : TaskOk T) (ti : TInv s T)
    (ht : TStep s T s' T') (h : AbInv s T) : AbInv s' T' := by
  intro ha r b m hh he
  have old : T.aborted = true → (∀ r am t, T.ph ≠ .aborting r am t) →
      (∃ brk, (r, .one m, brk) ∈ T'.hist) ∨ (∃ t, T'.ph = .aborting r (some (.one m)) t) ∨ Ev.discarded m.id ∈ s'.w.log := by
    intro h0 hn
    obtain ⟨e1, e2, e3⟩ := ht.keepsAborted hsh h0
    have h' : AbInv s' T := by
      rcases ht.chan hsh with rfl | ⟨a, hs, -⟩
      · exact h
      · exact h.frame hr hs hsh ti
    rcases h' h0 r b m (by rw [← e2]; exact hh) he with h2 | ⟨t, h2⟩ | h2
    · exact .inl (by rw [e3]; exact h2)
    · exact absurd h2 (hn _ _ _)
    · exact .inr (.inr h2)
  have hph := ti.ph
  cases ht with
  | abortOuter hp hs =>
    have hcur : T.ph.cur ≠ some r := by rcases hp with hp | hp <;> rw [hp] <;> simp [APh.cur]
    have hm : r ∈ T.futs := List.mem_of_mem_head? hh
    rcases step_recvEv hr hs he with h1 | ⟨h1, -⟩
    · rcases ti.seen r hm hcur b _ h1 with h2 | ⟨_, _, _, h2⟩ | ⟨h2, -⟩
      · exact .inl h2
      · rcases hp with hp | hp <;> rw [hp] at h2 <;> simp at h2
      · exact old h2 (by rcases hp with hp | hp <;> simp [hp])
    · rcases ti.futs r hm with h2 | h2
      · exact absurd h2 hcur
      · rw [h1] at h2; simp at h2
  | @abortWaiting _ _ r' hp hs =>
    rw [hp] at hph
    obtain ⟨st, ho⟩ := hph
    have hc := ti.cur r' (by rw [hp]; rfl)
    simp only at hh
    rw [hc] at hh; simp at hh; subst hh
    rcases step_recvEv hr hs he with h1 | ⟨h1, -⟩
    · rcases yielded_reachable hr h1 with e | ⟨_, e⟩ | e <;> rw [ho] at e <;> simp at e
    · rw [ho] at h1; simp at h1
  | @abortHandling _ _ r' am hp hs =>
    rw [hp] at hph
    obtain ⟨⟨x, ho⟩, -⟩ := hph
    have hc := ti.cur r' (by rw [hp]; rfl)
    simp only at hh
    rw [hc] at hh; simp at hh; subst hh
    rcases step_recvEv hr hs he with h1 | ⟨h1, -⟩
    · rcases yielded_reachable hr h1 with e | ⟨_, e⟩ | e <;> rw [ho] at e <;> simp at e
      obtain ⟨-, rfl, -⟩ := e
      exact .inr (.inl ⟨_, rfl⟩)
    · rw [ho] at h1; simp at h1
  | @aborted _ _ r' t am hp hx hlv hs =>
    rw [hp] at hph
    have h' := h.frame hr hs hsh ti
    rcases h' ha r b m hh he with h2 | ⟨t', h2⟩ | h2
    · exact .inl h2
    · rw [hp] at h2; simp at h2; obtain ⟨rfl, rfl, rfl⟩ := h2
      obtain ⟨x, h3, h4⟩ := hph
      rw [hx] at h3; simp at h3; subst h3
      rcases h4 m rfl with ⟨pre, h5⟩ | h5
      · simp at h5
      · exact .inr (.inr ((step_suffix hr hs).subset h5))
    · exact .inr (.inr h2)
  | started hp => exact old ha (by simp [hp])
  | pending hp _ _ _ => exact old ha (by simp [hp])
  | ready hp _ _ => exact old ha (by simp [hp])
  | loop hp _ _ => exact old ha (by simp [hp])
  | «break» hp _ _ => exact old ha (by simp [hp])
  | «return» hp _ _ => exact old ha (by simp [hp])
  | futReady hp _ _ => exact old ha (by simp [hp])
  | giveUp hp _ _ _ _ => exact old ha (by simp [hp])
  | @over _ r' t am hp hx hlv =>
    rw [hp] at hph
    rcases h ha r b m hh he with h2 | ⟨t', h2⟩ | h2
    · exact .inl h2
    · rw [hp] at h2; simp at h2; obtain ⟨rfl, rfl, rfl⟩ := h2
      obtain ⟨x, h3, h4⟩ := hph
      rw [hx] at h3; simp at h3; subst h3
      rcases h4 m rfl with ⟨pre, h5⟩ | h5
      · simp at h5
      · exact .inr (.inr h5)
    · exact .inr (.inr h2)
  | left hp _ => exact old ha (by simp [hp])
  | next hp hs => exact old ha (by simp [hp])
  | startFails hp hs => exact old ha (by simp [hp])
  | poll hp hs => exact old ha (by simp [hp])
  | dispatch hp _ hs => exact old ha (by simp [hp])
  | notice hp _ hs => exact old ha (by simp [hp])
  | finish hp _ hs => exact old ha (by simp [hp])
  | stopped hp hs => exact old ha (by simp [hp])

theorem abInv_run {cap : Option Nat} {closed : Bool} {c : PCfg} (h : PRun cap closed c) : ∀ T ∈ c.ts, AbInv c.s T := by
  induction h with
  | new => simp
  | @step c c' hrun hst ih =>
    have hr := hrun.reachable
    have pi := pInv_run hrun
    intro T hT
    cases hst with
    | other h1 h2 hs =>
      obtain ⟨k, hk⟩ := List.getElem?_of_mem hT
      exact (ih T hT).frame hr hs (pi.all k T hk).1 (pi.all k T hk).2
    | spawn ho hi =>
      simp at hT; rcases hT with hT | rfl
      · exact ih T hT
      · intro ha; simp at ha
    | nest _ _ _ _ =>
      simp at hT; rcases hT with hT | rfl
      · exact ih T hT
      · intro ha; simp at ha
    | @task k0 T0 T1 s' h0 hot ht =>
      have a0 := pi.all k0 T0 h0
      rcases List.mem_or_eq_of_mem_set hT with hT | rfl
      · have hT' : T ∈ c.ts := hT
        obtain ⟨k, hk⟩ := List.getElem?_of_mem hT'
        rcases ht.chan a0.1 with rfl | ⟨a, hs, -⟩
        · exact ih T hT'
        · exact (ih T hT').frame hr hs (pi.all k T hk).1 (pi.all k T hk).2
      · exact (ih T0 (List.mem_of_getElem? h0)).task hr a0.1 a0.2 ht

/-- **C49.** Dropping a running actor's task answers the request it was handling: once the drop is done, a request the dropped task had
received was either handled to completion before, or its reply is `Interrupted`. -/
theorem C49_request_interrupted {cap : Option Nat} {closed : Bool} {c : PCfg} (h : PRun cap closed c) {T : Task} (hT : T ∈ c.ts)
    (hd : T.ph = .done) {r b f : Nat} {m : Msg} (hf : r ∈ T.futs) (he : Ev.recv r b (.one m) ∈ c.s.w.log)
    (hm : .made f m.id false ∈ c.s.w.log) :
    (∃ v wk, .handled m.id v ∈ c.s.w.log ∧ c.s.w.resp[m.id]? = some (.value v wk)) ∨
    (T.aborted = true ∧ T.futs.head? = some r ∧ .discarded m.id ∈ c.s.w.log ∧ ∃ wk, c.s.w.resp[m.id]? = some (.interrupted wk)) := by
  have hr := h.reachable
  have done : ∀ v, .handled m.id v ∈ c.s.w.log →
      ∃ v wk, .handled m.id v ∈ c.s.w.log ∧ c.s.w.resp[m.id]? = some (.value v wk) := by
    intro v hv
    rcases resp_cases hr hm with ⟨wk', a1, a2, a3⟩ | ⟨v, wk', a1, a2⟩ | ⟨wk', a1, a2⟩
    · exact absurd hv (a3 _)
    · exact ⟨v, wk', a2, a1⟩
    · exact absurd a2 (fin_excl hr hv).1
  rcases C48_received_is_handled h hT hf he with h1 | ⟨h1, h2⟩ | ⟨v, brk, -, -, h1⟩
  · rw [hd] at h1; exact h1.elim
  · rcases abInv_run h T hT h1 r b m h2 he with ⟨brk, h3⟩ | ⟨t, h3⟩ | h3
    · obtain ⟨k, hk⟩ := List.getElem?_of_mem hT
      obtain ⟨-, -, -, v, -, h4⟩ := ((pInv_run h).all k T hk).2.hist _ _ _ h3
      exact .inl (done v (h4 m rfl))
    · rw [hd] at h3; simp at h3
    · right
      refine ⟨h1, h2, h3, ?_⟩
      rcases resp_cases hr hm with ⟨wk', a1, a2, a3⟩ | ⟨v, wk', a1, a2⟩ | ⟨wk', a1, a2⟩
      · exact absurd (.inr (.inr h3)) a2
      · exact absurd (.inr (.inr h3)) (fin_excl hr a2).1
      · exact ⟨wk', a1⟩
  · exact .inl (done v (h1 m rfl))

/-- **C49.** Dropping tasks interrupts nothing but the requests they were handling: if messages are received by the tasks only and a
mailbox is left, a reply that was `Interrupted` is that of a request whose handler was dropped with its task, or of a request that was
being handed to the receive of a task at the very moment the task was dropped, or to that of a `select` at the very moment it returned
because its future had completed (the race of C03). -/
theorem C49_only_own_request {cap : Option Nat} {c : PCfg} (h : PRun cap true c) (hm : c.s.w.rcv ≠ 0) {f i : Nat}
    (he : Ev.replyInt f i ∈ c.s.w.log) :
    (∃ T ∈ c.ts, DroppedTask c.s.w i T) ∨ (.lost i ∈ c.s.w.log ∧ ∃ T ∈ c.ts, CancelledTask c.s.w T) := by
  rcases C18_interrupted_only_if h.reachable he with h1 | h1 | h1
  · exact absurd h1 hm
  · exact .inr ⟨h1, (abort_causes h).1 (.inr ⟨i, h1⟩)⟩
  · exact .inl ((abort_causes h).2 i (.inr h1))

/-- The API calls a task makes act on its mailbox or on its current receive future. -/
theorem TStep.target {s s' : Sys} {T T' : Task} (hsh : TaskOk T) (ht : TStep s T s' T') :
    s' = s ∨ (∃ i, s.step (.call (.next i)) = some s') ∨
    ∃ cl, s.step (.call cl) = some s' ∧ ((cl.target = some T.i ∧ T.ph.hasBox = true ∧ T.lvl = .run) ∨ ∃ r, cl.target = some r ∧ T.ph.cur = some r) := by
  unfold TaskOk at hsh
  cases ht with
  | started hp => exact .inl rfl
  | pending hp ht hl ho => exact .inl rfl
  | ready hp ht ho => exact .inl rfl
  | loop hp ht hl => exact .inl rfl
  | «break» hp ht hl => exact .inl rfl
  | «return» hp ht hl => exact .inl rfl
  | over hp ht hl => exact .inl rfl
  | left hp ht => exact .inl rfl
  | next hp hs => exact .inr (.inl ⟨_, hs⟩)
  | startFails hp hs => rw [hp] at hsh; exact .inr (.inr ⟨_, hs, .inl ⟨rfl, by rw [hp]; rfl, hsh.2.2.2⟩⟩)
  | stopped hp hs => rw [hp] at hsh; exact .inr (.inr ⟨_, hs, .inl ⟨rfl, by rw [hp]; rfl, hsh.2.2.2⟩⟩)
  | aborted hp _ hl hs => exact .inr (.inr ⟨_, hs, .inl ⟨rfl, by rw [hp]; rfl, hl⟩⟩)
  | abortOuter hp hs =>
    refine .inr (.inr ⟨_, hs, .inl ⟨rfl, by rcases hp with hp | hp <;> rw [hp] <;> rfl, ?_⟩⟩)
    rcases hp with hp | hp <;> rw [hp] at hsh <;> exact hsh.2.2.2
  | poll hp hs => exact .inr (.inr ⟨_, hs, .inr ⟨_, rfl, by rw [hp]; rfl⟩⟩)
  | futReady hp _ hs => exact .inr (.inr ⟨_, hs, .inr ⟨_, rfl, by rw [hp]; rfl⟩⟩)
  | giveUp hp _ _ _ hs => exact .inr (.inr ⟨_, hs, .inr ⟨_, rfl, by rw [hp]; rfl⟩⟩)
  | dispatch hp _ hs => exact .inr (.inr ⟨_, hs, .inr ⟨_, rfl, by rw [hp]; rfl⟩⟩)
  | notice hp _ hs => exact .inr (.inr ⟨_, hs, .inr ⟨_, rfl, by rw [hp]; rfl⟩⟩)
  | finish hp _ hs => exact .inr (.inr ⟨_, hs, .inr ⟨_, rfl, by rw [hp]; rfl⟩⟩)
  | abortWaiting hp hs => exact .inr (.inr ⟨_, hs, .inr ⟨_, rfl, by rw [hp]; rfl⟩⟩)
  | abortHandling hp hs => exact .inr (.inr ⟨_, hs, .inr ⟨_, rfl, by rw [hp]; rfl⟩⟩)

/-- **C49.** A step of one task (an execution of `run` or `select`), dropping it included, leaves the mailbox of every other execution of
`run` untouched, and whatever any other task is receiving or handling. -/
theorem C49_others_unaffected {cap : Option Nat} {closed : Bool} {c : PCfg} {s' : Sys} {k l : Nat} {T T' U : Task} (h : PRun cap closed c)
    (hT : c.ts[k]? = some T) (hU : c.ts[l]? = some U) (hkl : k ≠ l) (ht : TStep c.s T s' T') :
    (U.lvl = .run → s'.w.objs[U.i]? = c.s.w.objs[U.i]?) ∧ ∀ r ∈ U.futs, s'.w.objs[r]? = c.s.w.objs[r]? := by
  have hr := h.reachable
  have pi := pInv_run h
  obtain ⟨tok, ti⟩ := pi.all k T hT
  obtain ⟨-, ui⟩ := pi.all l U hU
  have hid := pi.ids k l T U hT hU hkl
  have hdj := pi.disj k l T U hT hU hkl
  have hoi : U.lvl = .run → ∃ o, c.s.w.objs[U.i]? = some o ∧ ((∃ b, o = .mailbox b) ∨ o = .gone) := by
    intro hl
    cases hb : U.ph.hasBox with
    | true => exact ⟨_, ui.box hl hb, .inl ⟨_, rfl⟩⟩
    | false => exact ⟨_, ui.gone hl hb, .inr rfl⟩
  have hfo : ∀ r ∈ U.futs, ∃ o, c.s.w.objs[r]? = some o ∧ ∀ b, o ≠ .mailbox b := by
    intro r hm
    rcases ui.futs r hm with h1 | h1
    · obtain ⟨o, h2, -, h3⟩ := ui.curObj hr h1; exact ⟨o, h2, h3⟩
    · exact ⟨_, h1, by simp⟩
  rcases ht.target tok with rfl | ⟨i, hs⟩ | ⟨cl, hs, htg⟩
  · exact ⟨fun _ => rfl, fun _ _ => rfl⟩
  · have key : ∀ (r : Nat) (o : Obj), c.s.w.objs[r]? = some o → s'.w.objs[r]? = some o := by
      intro r o ho
      obtain ⟨w', ms, hcl, rfl⟩ := step_call hs
      cases hcl with
      | next h1 h2 =>
        have hl := (List.getElem?_eq_some_iff.mp ho).1
        simp [World.addObj, World.incBq_objs, List.getElem?_append_left hl, ho]
    refine ⟨fun hl => ?_, fun r hm => ?_⟩
    · obtain ⟨o, ho, -⟩ := hoi hl; rw [ho]; exact key _ _ ho
    · obtain ⟨o, ho, -⟩ := hfo r hm; rw [ho]; exact key _ _ ho
  · obtain ⟨w', ms, hcl, rfl⟩ := step_call hs
    rcases htg with ⟨htg, hb, htl⟩ | ⟨rt, htg', htg⟩
    · refine ⟨fun hl => ?_, fun r hm => ?_⟩
      · obtain ⟨o, ho, -⟩ := hoi hl
        rw [ho]; exact callR_keeps hcl (by rw [htg]; exact fun e => hid htl hl (Option.some.inj e)) ho
      · obtain ⟨o, ho, hn⟩ := hfo r hm
        rw [ho]
        refine callR_keeps hcl (fun e => ?_) ho
        rw [htg] at e; simp only [Option.some.injEq] at e
        rw [← e, ti.box htl hb] at ho; simp at ho; exact hn _ ho.symm
    · obtain ⟨o, ho, hg, hn⟩ := ti.curObj hr htg
      refine ⟨fun hl => ?_, fun r hm => ?_⟩
      · obtain ⟨oi, hoi, hbi⟩ := hoi hl
        rw [hoi]
        refine callR_keeps hcl (fun e => ?_) hoi
        rw [htg'] at e; simp only [Option.some.injEq] at e
        rw [e] at ho; rw [hoi] at ho; simp at ho; subst ho
        rcases hbi with ⟨b, e⟩ | e
        · exact hn b e
        · exact hg e
      · obtain ⟨o', ho', -⟩ := hfo r hm
        rw [ho']
        refine callR_keeps hcl (fun e => ?_) ho'
        rw [htg'] at e; simp only [Option.some.injEq] at e
        exact hdj rt (ti.curMem htg) (e ▸ hm)

/-- **C49.** The pool survives. Let messages be received by the tasks only; tasks may have been dropped at any time. When everything has
come to rest and at least one actor still sleeps in `next().await`, every request ever made has been handled, its value sent to the
requester, except: its send future has not been polled yet or was dropped by its owner; the task handling it was dropped; it was being
handed to the receive of a task at the moment the task was dropped, or to that of a `select` at the moment it returned (C03); its handler
itself waits for a further message in `yield_once`. -/
theorem C49_at_rest {cap : Option Nat} {c : PCfg} (h : PRun cap true c) (hcap : cap ≠ some 0) (hq : c.settled)
    (hz : ∃ T ∈ c.ts, T.asleep c.s.w) {f i : Nat} (hm : .made f i false ∈ c.s.w.log) :
    (∃ md m rc, c.s.w.objs[f]? = some (.send md i (.new m rc))) ∨ (c.s.w.objs[f]? = some .gone ∧ .dropped i ∈ c.s.w.log) ∨
    (∃ v wk, .handled i v ∈ c.s.w.log ∧ c.s.w.resp[i]? = some (.value v wk)) ∨
    (∃ T ∈ c.ts, DroppedTask c.s.w i T) ∨ (.lost i ∈ c.s.w.log ∧ ∃ T ∈ c.ts, CancelledTask c.s.w T) ∨ c.yields i := by
  rcases (at_rest_gen h hcap hq hz).1 f i hm with h1 | h1 | h1 | h1 | h1 | h1
  · exact .inl h1
  · exact .inr (.inl h1)
  · exact .inr (.inr (.inl h1))
  · exact .inr (.inr (.inr (.inr (.inl ⟨h1, (abort_causes h).1 (.inr ⟨i, h1⟩)⟩))))
  · exact .inr (.inr (.inr (.inl ((abort_causes h).2 i (.inr h1)))))
  · exact .inr (.inr (.inr (.inr (.inr h1))))

/-! ## Concrete cases -/

/-- A pool at rest: one actor, a request handled, the value received, the actor asleep again (`C48_at_rest`, `C48_no_request_fails`,
`C48_received_is_handled`, `C48_never_stuck`). -/
example : ∃ c, PRun none true c ∧ c.atRest ∧ c.s.w.rcv ≠ 0 ∧ (∀ T ∈ c.ts, T.cut = false) ∧ .made 3 0 false ∈ c.s.w.log ∧
    .replyOk 3 0 7 ∈ c.s.w.log ∧ ∃ T ∈ c.ts, T.asleep c.s.w ∧ 2 ∈ T.futs ∧ .recv 2 0 (.one ⟨0, .valued 0⟩) ∈ c.s.w.log := by
  refine ⟨_, PRun.run .new (as := oneSched) rfl, ⟨by decide, ?_⟩, by decide, by decide, by decide, by decide, _, List.mem_cons_self .., ?_, by decide,
    by decide⟩
  · intro T hT
    simp at hT
    subst hT
    exact .inr ⟨4, rfl, 1, some 5, rfl, rfl⟩
  · exact ⟨4, rfl, 1, some 5, rfl, rfl⟩

/-- `run` returns because a handler called `stop_self`; a second actor sleeps on (`C48_returns_only_on_break`, `C48_leaves_nothing`,
`C48_one_at_a_time`). -/
example : ∃ c, PRun none true c ∧ ∃ T U, c.ts = [T, U] ∧ T.lvl = .run ∧ T.ph = .done ∧ T.aborted = false ∧ T.futs = [3] ∧
    T.hist = [(3, .one ⟨0, .valued 0⟩, true)] ∧ U.asleep c.s.w := by
  exact ⟨_, PRun.run .new (as := stopSched) rfl, _, _, rfl, rfl, rfl, rfl, rfl, rfl, 4, rfl, 1, some 6, rfl, rfl⟩

/-- A task is dropped while its handler runs; the requester gets `Interrupted`; the other actor sleeps on (`C49_request_interrupted`,
`C49_only_own_request`, `C49_at_rest`). -/
example : ∃ c, PRun none true c ∧ c.atRest ∧ c.s.w.rcv ≠ 0 ∧ .made 5 0 false ∈ c.s.w.log ∧ .replyInt 5 0 ∈ c.s.w.log ∧
    ∃ T U, c.ts = [T, U] ∧ T.ph = .done ∧ T.aborted = true ∧ 3 ∈ T.futs ∧ .recv 3 0 (.one ⟨0, .valued 0⟩) ∈ c.s.w.log ∧ U.asleep c.s.w := by
  refine ⟨_, PRun.run .new (as := abortSched) rfl, ⟨by decide, ?_⟩, by decide, by decide, by decide, _, _, rfl, rfl, rfl, by decide, by decide, 4,
    rfl, 1, some 6, rfl, rfl⟩
  intro T hT
  simp at hT
  rcases hT with rfl | rfl
  · exact .inl rfl
  · exact .inr ⟨4, rfl, 1, some 6, rfl, rfl⟩

/-- Two tasks, and a step of the first: it is dropped (`C49_others_unaffected`). -/
example : ∃ c s' T T' U, PRun none true c ∧ c.ts[0]? = some T ∧ c.ts[1]? = some U ∧ TStep c.s T s' T' ∧ T'.aborted = true ∧
    c.s.w.objs[U.i]? = some (.mailbox 1) ∧ 4 ∈ U.futs ∧ c.s.w.objs[4]? = some (.recv 1 (.waiting 1)) :=
  ⟨_, _, _, _, _, PRun.run .new (as := twoSched) rfl, rfl, rfl, tstep_sound (a := .abortHandling) rfl, rfl, rfl, by decide, rfl⟩

/-- A handler calls `select`, which handles a second request and returns; then the handler itself finishes (`C48_select_returns`,
`C48_one_at_a_time`). -/
example : ∃ c, PRun none true c ∧ ∃ T U, c.ts = [T, U] ∧ T.lvl = .run ∧ T.ph = .idle ∧ T.hist = [(2, .one ⟨0, .valued 0⟩, false)] ∧
    U.lvl = .last ∧ U.ph = .done ∧ U.aborted = false ∧ U.futs = [4] ∧ U.hist = [(4, .one ⟨1, .valued 0⟩, false)] ∧
    .handled 1 8 ∈ c.s.w.log ∧ .handled 0 7 ∈ c.s.w.log :=
  ⟨_, PRun.run .new (as := lastSched) rfl, _, _, rfl, rfl, rfl, rfl, rfl, rfl, rfl, rfl, rfl, by decide, by decide⟩

/-- **C48, refuted for `select` and `join`.** *A request is answered while an actor lives and no task is dropped* is false of a program
whose handlers call `select` or `join`: when the given future completes, `select` drops the receive future it was waiting on, and a
message just being handed to that receive is lost with it (`xtra/src/lib.rs:311-317`, `xtra/src/recv_future.rs` `Waiting::drop`, C03). Here nobody drops a task, the actor
is alive and in its handler, and the second request is never received by anybody and reports `Interrupted`. -/
theorem C48_select_refuted : ∃ c, PRun none true c ∧ (∀ T ∈ c.ts, T.aborted = false) ∧ c.s.w.rcv ≠ 0 ∧ .made 5 1 false ∈ c.s.w.log ∧
    .dropped 1 ∉ c.s.w.log ∧ .lost 1 ∈ c.s.w.log ∧ .replyInt 5 1 ∈ c.s.w.log ∧
    (∃ T ∈ c.ts, T.lvl = .run ∧ T.ph = .handling 2 (.one ⟨0, .valued 0⟩)) ∧ ∃ U ∈ c.ts, U.lvl = .gave ∧ U.ph = .done :=
  ⟨_, PRun.run .new (as := loseSched) rfl, by decide, by decide, by decide, by decide, by decide, by decide,
    ⟨_, List.mem_cons_self .., rfl, rfl⟩, ⟨_, List.mem_cons_of_mem _ (List.mem_cons_self ..), rfl, rfl⟩⟩

end Xtra
