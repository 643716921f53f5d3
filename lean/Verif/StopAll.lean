import Verif.PropsGrace
/-! What happens to a running actor once a `stop_all` notice is in its mailbox (C57): proofs. -/

set_option linter.unusedSimpArgs false

namespace Xtra

/-! ## Mailboxes have different broadcast queues -/

theorem callR_box {w w' : World} {cl : Call} {ms : List Micro} (h : CallR w cl w' ms) {i b : Nat}
    (ho : w'.objs[i]? = some (.mailbox b)) : w.objs[i]? = some (.mailbox b) := by
  cases h
  all_goals first
    | exact ho
    | (simp at ho; exact ho)
    | (simp at ho; rcases set_cases ho with ⟨_, h3⟩ | h3
       · simp at h3
       · exact h3.2)
    | (simp at ho; rcases append_cases ho with h3 | ⟨_, h3⟩
       · exact h3.2
       · simp at h3)

/-- A new mailbox has a new queue. -/
theorem execR_box {w w' : World} {mc : Micro} {ms : List Micro} (h : ExecR w mc w' ms) {i b : Nat}
    (ho : w'.objs[i]? = some (.mailbox b)) : w.objs[i]? = some (.mailbox b) ∨ (b = w.bq.length ∧ mc = .newBq i ∧ w'.bq.length = w.bq.length + 1) := by
  cases h
  case recv_all hp _ _ =>
    simp [World.popBroadcast_objs hp] at ho
    rcases set_cases ho with ⟨_, h⟩ | h <;> simp_all
  case recvBcast_some hp =>
    simp [World.popBroadcast_objs hp] at ho
    rcases set_cases ho with ⟨_, h⟩ | h <;> simp_all
  case recv_one hp _ _ =>
    simp [World.popUnicast_objs hp] at ho
    rcases set_cases ho with ⟨_, h⟩ | h <;> simp_all
  case newBq =>
    simp at ho
    rcases set_cases ho with ⟨rfl, h⟩ | h
    · simp at h; subst h
      exact .inr ⟨rfl, rfl, by simp⟩
    · exact .inl h.2
  all_goals first
    | exact .inl ho
    | (simp at ho; exact .inl ho)
    | (simp at ho; rcases set_cases ho with ⟨_, h⟩ | h
       · simp at h
       · exact .inl h.2)
    | (simp at ho; rcases append_cases ho with h3 | ⟨_, h3⟩
       · exact .inl h3.2
       · simp at h3)

theorem step_box {cap : Option Nat} {s s' : Sys} {a : Act} (h : Reachable cap s) (hs : s.step a = some s') {i b : Nat}
    (ho : s'.w.objs[i]? = some (.mailbox b)) :
    s.w.objs[i]? = some (.mailbox b) ∨ (s.w.bq.length ≤ b ∧ b < s'.w.bq.length ∧ ∃ t rest, a = .exec t ∧ s.th[t]? = some (.newBq i :: rest)) := by
  rcases step_rel hs with ⟨c, w', ms, rfl, hc, rfl⟩ | ⟨t, mc, rest, w', ms, rfl, ht, he, rfl⟩
  · exact .inl (callR_box hc ho)
  · rcases execR_box he ho with h1 | ⟨rfl, rfl, h2⟩
    · exact .inl h1
    · exact .inr ⟨Nat.le_refl _, by simp only; omega, t, rest, rfl, ht⟩

structure Boxes (s : Sys) : Prop where
  lt : ∀ (i b : Nat), s.w.objs[i]? = some (.mailbox b) → b < s.w.bq.length
  inj : ∀ (i j b : Nat), s.w.objs[i]? = some (.mailbox b) → s.w.objs[j]? = some (.mailbox b) → i = j

theorem boxes_reachable {cap : Option Nat} {s : Sys} (h : Reachable cap s) : Boxes s := by
  induction h with
  | init =>
    have key : ∀ (i b : Nat), (init cap).w.objs[i]? = some (.mailbox b) → i = 1 ∧ b = 0 := by
      intro i b hi
      match i with
      | 0 => simp [init] at hi
      | 1 => simp [init] at hi; exact ⟨rfl, hi.symm⟩
      | i + 2 => simp [init] at hi
    refine ⟨fun i b hi => ?_, fun i j b hi hj => ?_⟩
    · rw [(key i b hi).2]; simp [init]
    · rw [(key i b hi).1, (key j b hj).1]
  | @step s s' a hr hs ih =>
    have hl := (step_dead hr hs).1
    refine ⟨fun i b hi => ?_, fun i j b hi hj => ?_⟩
    · rcases step_box hr hs hi with h1 | ⟨-, h1, -⟩
      · have := ih.lt i b h1; omega
      · exact h1
    · rcases step_box hr hs hi with h1 | ⟨h1, -, t, rest, rfl, ht⟩ <;> rcases step_box hr hs hj with h2 | ⟨h2, -, t', rest', e, ht'⟩
      · exact ih.inj i j b h1 h2
      · have := ih.lt i b h1; omega
      · have := ih.lt j b h2; omega
      · simp at e; subst e; rw [ht] at ht'; simp at ht'; exact ht'.1

/-! ## Tasks by position -/

theorem PStep.task_at {closed : Bool} {c c' : PCfg} (h : PStep closed c c') {k : Nat} {T : Task} (hT : c.ts[k]? = some T) :
    ∃ T', c'.ts[k]? = some T' ∧ (T' = T ∨ TStep c.s T c'.s T') := by
  have hl := (List.getElem?_eq_some_iff.mp hT).1
  cases h with
  | other _ _ _ => exact ⟨T, hT, .inl rfl⟩
  | spawn _ _ => exact ⟨T, by simp [List.getElem?_append_left hl, hT], .inl rfl⟩
  | nest _ _ _ _ => exact ⟨T, by simp [List.getElem?_append_left hl, hT], .inl rfl⟩
  | @task k' T0 T1 s' h0 _ ht =>
    by_cases e : k' = k
    · subst e; rw [h0] at hT; simp at hT; subst hT
      exact ⟨T1, by simp [hl], .inr ht⟩
    · exact ⟨T, by simp [List.getElem?_set_ne e, hT], .inl rfl⟩

theorem PStep.task_back {closed : Bool} {c c' : PCfg} (h : PStep closed c c') {k : Nat} {T' : Task} (hT : c'.ts[k]? = some T') :
    (∃ T, c.ts[k]? = some T ∧ (T' = T ∨ TStep c.s T c'.s T')) ∨ (T'.futs = [] ∧ c'.s = c.s ∧ k = c.ts.length ∧
      (T'.lvl = .run → c.s.w.objs[T'.i]? = some (.mailbox T'.b) ∧ ∀ U ∈ c.ts, U.i ≠ T'.i)) := by
  cases h with
  | other _ _ _ => exact .inl ⟨T', hT, .inl rfl⟩
  | spawn h1 h2 =>
    rcases append_split hT with ⟨-, h⟩ | ⟨e, rfl⟩
    · exact .inl ⟨T', h, .inl rfl⟩
    · exact .inr ⟨rfl, rfl, e, fun _ => ⟨h1, h2⟩⟩
  | nest _ _ _ hlv =>
    rcases append_split hT with ⟨-, h⟩ | ⟨e, rfl⟩
    · exact .inl ⟨T', h, .inl rfl⟩
    · exact .inr ⟨rfl, rfl, e, fun h => by rcases hlv with e | e <;> rw [e] at h <;> simp at h⟩
  | @task k' T0 T1 s' h0 _ ht =>
    have hl := (List.getElem?_eq_some_iff.mp h0).1
    by_cases e : k' = k
    · subst e; simp [hl] at hT; subst hT
      exact .inl ⟨T0, h0, .inr ht⟩
    · simp [List.getElem?_set_ne e] at hT
      exact .inl ⟨T', hT, .inl rfl⟩

theorem TStep.lvl_run {s s' : Sys} {T T' : Task} (ht : TStep s T s' T') : T'.lvl = .run ↔ T.lvl = .run := by
  cases ht <;> simp_all

/-- No two executions of `run` have the same broadcast queue, even after the mailbox of one is gone. -/
structure BoxInv (c : PCfg) : Prop where
  lt : ∀ (k : Nat) T, c.ts[k]? = some T → T.lvl = .run → T.b < c.s.w.bq.length
  own : ∀ (k : Nat) T, c.ts[k]? = some T → T.lvl = .run → ∀ (i : Nat), c.s.w.objs[i]? = some (.mailbox T.b) → i = T.i
  inj : ∀ (k l : Nat) T U, c.ts[k]? = some T → c.ts[l]? = some U → T.lvl = .run → U.lvl = .run → T.b = U.b → k = l

theorem boxInv_run {cap : Option Nat} {closed : Bool} {c : PCfg} (h : PRun cap closed c) : BoxInv c := by
  induction h with
  | new => exact ⟨by simp, by simp, by simp⟩
  | @step c c' hrun hst ih =>
    have hr := hrun.reachable
    have hlen : c.s.w.bq.length ≤ c'.s.w.bq.length := by
      rcases hst.chan hrun with e | ⟨a, hs⟩
      · rw [e]; exact Nat.le_refl _
      · exact (step_dead hr hs).1
    have old : ∀ {k : Nat} {T T' : Task}, c.ts[k]? = some T → T.lvl = .run → (T' = T ∨ TStep c.s T c'.s T') →
        T'.b < c'.s.w.bq.length ∧ ∀ (i : Nat), c'.s.w.objs[i]? = some (.mailbox T'.b) → i = T'.i := by
      intro k T T' hk hl e
      have hb : T'.i = T.i ∧ T'.b = T.b := by
        rcases e with rfl | e
        · exact ⟨rfl, rfl⟩
        · exact e.ids
      rw [hb.1, hb.2]
      refine ⟨Nat.lt_of_lt_of_le (ih.lt k T hk hl) hlen, fun i hi => ?_⟩
      rcases hst.chan hrun with e | ⟨a, hs⟩
      · rw [e] at hi; exact ih.own k T hk hl i hi
      · rcases step_box hr hs hi with h1 | ⟨h1, -⟩
        · exact ih.own k T hk hl i h1
        · have := ih.lt k T hk hl; omega
    have lvl : ∀ {T T' : Task}, (T' = T ∨ TStep c.s T c'.s T') → T'.lvl = .run → T.lvl = .run := by
      rintro T T' (rfl | e) h
      · exact h
      · exact e.lvl_run.mp h
    have bx := boxes_reachable hr
    refine ⟨fun k T hk hl => ?_, fun k T hk hl => ?_, fun k l T U hk hl hT hU hb => ?_⟩
    · rcases hst.task_back hk with ⟨T0, h0, e⟩ | ⟨-, e, -, h1⟩
      · exact (old h0 (lvl e hl) e).1
      · rw [e]; exact bx.lt _ _ (h1 hl).1
    · rcases hst.task_back hk with ⟨T0, h0, e⟩ | ⟨-, e, -, h1⟩
      · exact (old h0 (lvl e hl) e).2
      · intro i hi; rw [e] at hi; exact bx.inj _ _ _ hi (h1 hl).1
    · have key : ∀ {k : Nat} {T T0 U : Task}, c.ts[k]? = some T0 → (T = T0 ∨ TStep c.s T0 c'.s T) → T.lvl = .run →
          c.s.w.objs[U.i]? = some (.mailbox U.b) → (∀ V ∈ c.ts, V.i ≠ U.i) → T.b = U.b → False := by
        intro k T T0 U h0 e hT h1 h2 hb
        have hb' : T.b = T0.b := by
          rcases e with rfl | e
          · rfl
          · exact e.ids.2
        have := ih.own k T0 h0 (lvl e hT) U.i (by rw [← hb', hb]; exact h1)
        exact h2 T0 (List.mem_of_getElem? h0) this.symm
      rcases hst.task_back hk with ⟨T0, h0, e⟩ | ⟨-, -, e, h1⟩ <;> rcases hst.task_back hl with ⟨U0, h0', e'⟩ | ⟨-, -, e', h1'⟩
      · have hb' : T.b = T0.b := by
          rcases e with rfl | e
          · rfl
          · exact e.ids.2
        have hb'' : U.b = U0.b := by
          rcases e' with rfl | e'
          · rfl
          · exact e'.ids.2
        exact ih.inj k l T0 U0 h0 h0' (lvl e hT) (lvl e' hU) (by rw [← hb', ← hb'', hb])
      · exact (key h0 e hT (h1' hU).1 (h1' hU).2 hb).elim
      · exact (key h0' e' hU (h1 hT).1 (h1 hT).2 hb.symm).elim
      · omega

/-! ## Receives of a task -/

/-- What a task currently receives with belongs to its mailbox. -/
theorem cur_box {cap : Option Nat} {closed : Bool} {c : PCfg} (h : PRun cap closed c) {T : Task} (hT : T ∈ c.ts) {r : Nat}
    (hc : T.ph.cur = some r) :
    (∀ (b : Nat) st, c.s.w.objs[r]? = some (.recv b st) → b = T.b) ∧ (∀ (b : Nat) am, c.s.w.objs[r]? = some (.message b am) → b = T.b) ∧
    (∀ (b : Nat) am x, c.s.w.objs[r]? = some (.dispatch b am x) → b = T.b) := by
  obtain ⟨k, hk⟩ := List.getElem?_of_mem hT
  have hp := ((pInv_run h).all k T hk).2.ph
  have hr := h.reachable
  cases e : T.ph <;> rw [e] at hp hc <;> simp [APh.cur] at hc <;> subst hc
  case waiting r =>
    obtain ⟨st, h1⟩ := hp
    refine ⟨?_, ?_, ?_⟩ <;> intros <;> simp_all
  case got r am =>
    obtain ⟨h1, -⟩ := hp
    refine ⟨?_, ?_, ?_⟩ <;> intros <;> simp_all
  case handling r am =>
    obtain ⟨⟨x, h1⟩, -⟩ := hp
    refine ⟨?_, ?_, ?_⟩ <;> intros <;> simp_all
  case polling r t =>
    obtain ⟨x, hx, h1⟩ := hp
    rcases h1 with ⟨wk, rfl⟩ | ⟨c, wk, rfl⟩ | ⟨c, wk, rfl⟩ | ⟨-, ⟨c, h1⟩ | ⟨am, h1, -⟩⟩
    · have := wf_reachable hr hx
      simp only [WF] at this
      refine ⟨?_, ?_, ?_⟩ <;> intros <;> simp_all
    · have := wf_reachable hr hx
      simp only [WF] at this
      refine ⟨?_, ?_, ?_⟩ <;> intros <;> simp_all
    · have := wf_reachable hr hx
      simp only [WF] at this
      refine ⟨?_, ?_, ?_⟩ <;> intros <;> simp_all
    · refine ⟨?_, ?_, ?_⟩ <;> intros <;> simp_all
    · refine ⟨?_, ?_, ?_⟩ <;> intros <;> simp_all

/-- What a task receives comes from its mailbox. -/
theorem futs_box {cap : Option Nat} {closed : Bool} {c : PCfg} (h : PRun cap closed c) {T : Task} (hT : T ∈ c.ts) {r b : Nat} {am : AMsg}
    (hf : r ∈ T.futs) (he : Ev.recv r b am ∈ c.s.w.log) : b = T.b := by
  induction h generalizing T with
  | new => simp at hT
  | @step c c' hrun hst ih =>
    have hr' := PRun.step hrun hst
    have old : Ev.recv r b am ∈ c.s.w.log → b = T.b := by
      intro h1
      obtain ⟨k, hk⟩ := List.getElem?_of_mem hT
      rcases hst.task_back hk with ⟨T0, h0, e⟩ | ⟨e, -⟩
      · have hb : T.b = T0.b := by
          rcases e with rfl | e
          · rfl
          · exact e.ids.2
        rw [hb]
        refine ih (List.mem_of_getElem? h0) ?_ h1
        rcases e with rfl | e
        · exact hf
        · rcases e.newFut with e | ⟨e, -⟩
          · rw [e] at hf; exact hf
          · rw [e] at hf
            rcases List.mem_cons.mp hf with rfl | hf
            · have := yielded_reachable hrun.reachable h1
              simp [YieldedOk] at this
            · exact hf
      · rw [e] at hf; simp at hf
    rcases hst.chan hrun with e | ⟨a, hs⟩
    · exact old (e ▸ he)
    · rcases step_recvEv hrun.reachable hs he with h1 | ⟨-, h1⟩
      · exact old h1
      · obtain ⟨k, hk⟩ := List.getElem?_of_mem hT
        rcases ((pInv_run hr').all k T hk).2.futs r hf with h2 | h2
        · exact (cur_box hr' hT h2).2.1 _ _ h1
        · rw [h1] at h2; simp at h2

/-- User code of the task on mailbox `b` has not called `select`, `join` or `yield_once`. -/
def PCfg.noSelect (c : PCfg) (b : Nat) : Prop := ∀ U ∈ c.ts, U.b = b → U.lvl = .run

theorem noSelect_back {closed : Bool} {c c' : PCfg} {b : Nat} (h : PStep closed c c') (hn : c'.noSelect b) : c.noSelect b := by
  intro U hU hb
  obtain ⟨U', hU', e⟩ := h.task_evo hU
  have : U'.b = U.b ∧ (U'.lvl = .run ↔ U.lvl = .run) := by
    rcases e with rfl | e
    · exact ⟨rfl, .rfl⟩
    · exact ⟨e.ids.2, e.lvl_run⟩
  exact this.2.mp (hn U' hU' (this.1.trans hb))

theorem noSelect_steps {closed : Bool} {c c' : PCfg} {b : Nat} (h : PSteps closed c c') (hn : c'.noSelect b) : c.noSelect b := by
  induction h with
  | refl => exact hn
  | step h1 _ ih => exact noSelect_back h1 (ih hn)

/-- Receive future `r` on mailbox `b` waits with cell `c`, at rest or being polled. -/
def Sys.waitsOn (s : Sys) (r b c : Nat) : Prop :=
  s.w.objs[r]? = some (.recv b (.waiting c)) ∨ ∃ x ∈ s.th, ∃ wk, Micro.recvPoll r b c wk ∈ x

theorem execR_recvObj_same {w w' : World} {r b c c' f b' : Nat} {wk : Nat} {ms : List Micro} (h : ExecR w (.recvPoll r b c wk) w' ms)
    (ho : w'.objs[f]? = some (.recv b' (.waiting c'))) : w.objs[f]? = some (.recv b' (.waiting c')) ∨ (f = r ∧ b' = b ∧ c' = c) := by
  cases h <;> simp at ho <;> (try (exact .inl ho)) <;> (rcases set_cases ho with ⟨rfl, h1⟩ | h1
                                                        · simp_all
                                                        · exact .inl h1.2)

/-- While something is in the mailbox, no receive future on it goes to wait. -/
theorem waitsOn_back {cap : Option Nat} {s s' : Sys} {a : Act} (h : Reachable cap s) (hs : s.step a = some s') {r b c : Nat}
    (hne : s.w.items b ≠ []) (ho : s'.waitsOn r b c) : s.waitsOn r b c := by
  rcases step_rel hs with ⟨cl, w', ms, rfl, hc, rfl⟩ | ⟨t, mc, rest, w', ms, rfl, ht, he, rfl⟩
  · rcases ho with h1 | ⟨x, hx, wk, h1⟩
    · exact .inl (callR_recvObj hc h1)
    · simp at hx; rcases hx with hx | rfl
      · exact .inr ⟨x, hx, wk, h1⟩
      · cases hc <;> simp at h1
        case pollRecv_waiting ho =>
          obtain ⟨rfl, rfl, rfl, rfl⟩ := h1
          exact .inl ho
  · have hmem := List.mem_of_getElem? ht
    rcases ho with h1 | ⟨x, hx, wk, h1⟩
    · rcases execR_recvObj he h1 with h2 | ⟨r', wk, rfl⟩
      · exact .inl h2
      · rcases execR_recvObj_same he h1 with h2 | ⟨rfl, -, -⟩
        · exact .inl h2
        · exact .inr ⟨_, hmem, wk, by simp⟩
    · rcases List.mem_or_eq_of_mem_set hx with hx | rfl
      · exact .inr ⟨x, hx, wk, h1⟩
      · rcases List.mem_append.mp h1 with h1 | h1
        · exfalso
          obtain ⟨rfl, -, -⟩ := execR_recvTh he h1
          cases he <;> simp at h1
          rename_i e _; exact hne e
        · exact .inr ⟨_, hmem, wk, by simp [h1]⟩

/-- A receive future of the pool that waits is the current one of a task on that mailbox. -/
theorem waitsOn_cur {cap : Option Nat} {c : PCfg} (h : PRun cap true c) {r b x : Nat} (hw : c.s.waitsOn r b x) :
    ∃ T ∈ c.ts, T.b = b ∧ T.ph.cur = some r := by
  rcases hw with h1 | ⟨ms, hms, wk, h1⟩
  · obtain ⟨T, hT, hc⟩ := rxOwned h r (.inl ⟨_, h1, trivial⟩)
    exact ⟨T, hT, ((cur_box h hT hc).1 _ _ h1).symm, hc⟩
  · obtain ⟨T, hT, hc⟩ := rxOwned h r (.inr ⟨ms, hms, _, h1, rfl⟩)
    refine ⟨T, hT, ?_, hc⟩
    obtain ⟨k, hk⟩ := List.getElem?_of_mem hT
    have hp := ((pInv_run h).all k T hk).2.ph
    have hr := h.reachable
    obtain ⟨t', ht'⟩ := List.getElem?_of_mem hms
    have hbusy := (own_reachable hr).slot r
    have hle : busyL c.s.w.objs r ≤ 1 := by unfold busyL; split <;> simp
    have h1' : 0 < sumBy (fun x : Micro => eq1 r x.slot) ms := (sumBy_pos _).mpr ⟨_, h1, by simp [Micro.slot, eq1]⟩
    have hpos : 0 < busyL c.s.w.objs r := by
      have := le_sumBy (sumBy (fun x : Micro => eq1 r x.slot)) ht'
      unfold tot at hbusy; omega
    have hb : ∀ {o : Obj}, c.s.w.objs[r]? = some o → o ≠ .busy → False := by
      intro o ho hn
      unfold busyL at hpos
      split at hpos
      · rename_i h5; rw [ho] at h5; simp at h5; exact hn h5
      · simp at hpos
    have other : ∀ {t : Nat} {y : Micro}, c.s.th[t]? = some [y] → y.slot = some r → Micro.recvPoll r b x wk = y := by
      intro t y ht hy
      by_cases e : t = t'
      · subst e; rw [ht] at ht'; simp at ht'; subst ht'; simpa using h1
      · exfalso
        have h2 := tot_exec (fun x : Micro => eq1 r x.slot) (ms := []) ht
        have h3 : (c.s.th.set t ([] ++ []))[t']? = some ms := by rw [List.getElem?_set_ne e]; exact ht'
        have h4 := le_sumBy (sumBy (fun x : Micro => eq1 r x.slot)) h3
        simp only [hy, eq1, sumBy_nil] at h2 h4 h1' hbusy
        unfold tot at h2 hbusy
        simp at h2 hbusy h4
        omega
    cases e : T.ph <;> rw [e] at hp hc <;> simp [APh.cur] at hc <;> subst hc
    case waiting =>
      obtain ⟨st, h1⟩ := hp; exact (hb h1 (by simp)).elim
    case got => exact (hb hp.1 (by simp)).elim
    case handling =>
      obtain ⟨⟨x, h1⟩, -⟩ := hp; exact (hb h1 (by simp)).elim
    case polling t =>
      obtain ⟨y, hy, h2⟩ := hp
      rcases h2 with ⟨wk, rfl⟩ | ⟨c, wk, rfl⟩ | ⟨c, wk, rfl⟩ | ⟨-, ⟨c, h2⟩ | ⟨am, h2, -⟩⟩
      · have := other hy rfl; simp at this
      · have := other hy rfl; simp at this; exact this.1.symm
      · have := other hy rfl; simp at this
      · exact (hb h2 (by simp)).elim
      · exact (hb h2 (by simp)).elim

end Xtra
