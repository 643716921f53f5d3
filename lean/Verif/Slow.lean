import Verif.Local
import Verif.ObjEvo
import Verif.Wake2
/-! Leaving out a call that has begun and has not taken its step yet: nothing but the slot it works on differs. (`xtra/src/send_future.rs`,
`xtra/src/recv_future.rs`: a poll takes the future by `&mut`, so that nobody else can use it meanwhile; in the model its slot is `busy`.) -/

set_option linter.unusedSimpArgs false

namespace Xtra

/-- The first system is the second in which a call on object `f` (which is `o`) has begun in thread `k`, and has the steps `x` before it. -/
structure Slow (f : Nat) (o : Obj) (k : Nat) (x : List Micro) (s1 s2 : Sys) : Prop where
  w : s1.w = s2.w.setObj f .busy
  obj : s2.w.objs[f]? = some o
  th : ∃ a b, s2.th = a ++ b ∧ a.length = k ∧ s1.th = a ++ x :: b

/-- A call on an object somebody uses is not possible. -/
theorem call_busy {w : World} {c : Call} {i : Nat} (hi : c.subject = some i) (h : w.objs[i]? = some .busy) : call w c = none := by
  cases c <;> simp only [Call.subject, Option.some.injEq, reduceCtorEq] at hi <;> subst hi <;> simp [call, h, Obj.mbox]

/-- A call changes no object but the one it is made on. -/
theorem callR_otherObj {w w' : World} {c : Call} {ms : List Micro} (h : CallR w c w' ms) {f : Nat} {o : Obj} (ho : w.objs[f]? = some o)
    (hf : c.subject ≠ some f) : w'.objs[f]? = some o := by
  have hl := (List.getElem?_eq_some_iff.mp ho).1
  cases h <;> simp [Call.subject, World.setObj, World.ev, World.addObj] at hf ⊢ <;>
    first
    | assumption
    | (rw [List.getElem?_set_ne (by omega)]; exact ho)
    | (rw [List.getElem?_append_left hl]; exact ho)
    | grind

/-- A step of a call changes no object but the one the call works on. -/
theorem execR_otherObj {w w' : World} {m : Micro} {ms : List Micro} (h : ExecR w m w' ms) (hlen : w'.objs.length = w.objs.length) {f : Nat} {o : Obj}
    (ho : w.objs[f]? = some o) (hf : m.slot ≠ some f) : w'.objs[f]? = some o := by
  have hl := (List.getElem?_eq_some_iff.mp ho).1
  have h1 : w'.objs[f]? = some (w'.objs[f]'(by omega)) := List.getElem?_eq_getElem (by omega)
  rcases execR_objEvo h h1 with h2 | h2
  · rw [h1, ← h2, ho]
  · exact absurd h2.1 hf

theorem slot_eq {w : World} {x : List Obj} {f : Nat} {o : Obj} (hx : x[f]? = some o) (hl : x.length = w.objs.length)
    (he : ∀ i, i ≠ f → x[i]? = w.objs[i]?) : x = w.objs.set f o := by
  apply List.ext_getElem?
  intro j
  by_cases hj : f = j
  · subst hj
    have := (List.getElem?_eq_some_iff.mp hx).1
    rw [hx, List.getElem?_set_self (by omega)]
  · rw [List.getElem?_set_ne hj]; exact he j (Ne.symm hj)

theorem call_slow {w : World} {f : Nat} {o : Obj} (ho : w.objs[f]? = some o) {c : Call} {w1' : World} {ms : List Micro}
    (hc : call (w.setObj f .busy) c = some (w1', ms)) :
    c.subject ≠ some f ∧ ∃ w', call w c = some (w', ms) ∧ w1' = w'.setObj f .busy ∧ w'.objs[f]? = some o := by
  have hl := (List.getElem?_eq_some_iff.mp ho).1
  have hb : (w.setObj f .busy).objs[f]? = some .busy := by simp [World.setObj, hl]
  have hs : c.subject ≠ some f := fun e => by rw [call_busy e hb] at hc; cases hc
  refine ⟨hs, ?_⟩
  obtain ⟨u, hu, h1, h2⟩ := call_withObjs _ _ _ _ hc
  have h3 := h2 w.objs (by simp [World.setObj]) (fun i hi => by
    have : f ≠ i := fun e => hs (by rw [e]; exact hi)
    simp [World.setObj, List.getElem?_set_ne this])
  have hw : (w.setObj f .busy).withObjs w.objs = w := rfl
  rw [hw] at h3
  refine ⟨_, h3, ?_, callR_otherObj (call_rel h3) ho hs⟩
  have hb' := callR_otherObj (call_rel hc) hb hs
  have e : w1'.objs = (u w.objs).set f .busy := by
    refine slot_eq (w := w1'.withObjs (u w.objs)) hb' ?_ ?_
    · rw [h1]
      show _ = (u w.objs).length
      rcases hu with hu | ⟨i, ob, hu⟩ | ⟨ob, hu⟩ <;> simp [hu, World.setObj]
    · intro i hi
      rw [h1]
      show _ = (u w.objs)[i]?
      rcases hu with hu | ⟨j, ob, hu⟩ | ⟨ob, hu⟩
      · simp [hu, World.setObj, List.getElem?_set_ne (Ne.symm hi)]
      · simp only [hu, World.setObj, List.getElem?_set, List.length_set]; grind
      · simp only [hu, World.setObj, List.getElem?_append, List.length_set, List.getElem?_set_ne (Ne.symm hi)]
  show w1' = (w1'.withObjs (u w.objs)).setObj f .busy
  simp only [World.setObj, World.withObjs]
  rw [← e]

theorem call_slow_conv {w w' : World} {f : Nat} {o : Obj} (ho : w.objs[f]? = some o) {c : Call} {ms : List Micro} (hs : c.subject ≠ some f)
    (hc : call w c = some (w', ms)) : call (w.setObj f .busy) c = some (w'.setObj f .busy, ms) := by
  obtain ⟨u, hu, h1, h2⟩ := call_withObjs _ _ _ _ hc
  have h3 := h2 (w.objs.set f .busy) (by simp) (fun i hi => by
    have : f ≠ i := fun e => hs (by rw [e]; exact hi)
    simp [List.getElem?_set_ne this])
  have h4 : call (w.setObj f .busy) c = some (w'.withObjs (u (w.objs.set f .busy)), ms) := h3
  obtain ⟨-, w2, h5, h6, h7⟩ := call_slow ho h4
  rw [hc] at h5
  simp only [Option.some.injEq, Prod.mk.injEq, and_true] at h5
  subst h5
  rw [h4, h6]

theorem exec_slow {w : World} {f : Nat} {o : Obj} (ho : w.objs[f]? = some o) {m : Micro} (hs : m.slot ≠ some f) :
    (exec (w.setObj f .busy) m).1 = (exec w m).1.setObj f .busy ∧ (exec (w.setObj f .busy) m).2 = (exec w m).2 ∧
    (exec w m).1.objs[f]? = some o := by
  have hl := (List.getElem?_eq_some_iff.mp ho).1
  have hb : (w.setObj f .busy).objs[f]? = some .busy := by simp [World.setObj, hl]
  obtain ⟨u, hu, h1, h2⟩ := exec_withObjs w m
  have hlen : ∀ x : List Obj, (u x).length = x.length := by
    intro x; rcases hu with hu | ⟨i, ob, hu⟩ <;> simp [hu]
  have h3 : exec (w.setObj f .busy) m = ((exec w m).1.withObjs (u (w.objs.set f .busy)), (exec w m).2) := h2 (w.objs.set f .busy)
  have hob := execR_otherObj (exec_rel w m) (by rw [h1, hlen]) ho hs
  have hbb := execR_otherObj (exec_rel (w.setObj f .busy) m) (by rw [h3]; simp [World.withObjs, hlen, World.setObj]) hb hs
  rw [h3] at hbb
  refine ⟨?_, by rw [h3], hob⟩
  have e : u (w.objs.set f .busy) = (exec w m).1.objs.set f .busy := by
    refine slot_eq (w := (exec w m).1) hbb ?_ ?_
    · rw [h1, hlen, hlen]; simp
    · intro i hi
      rw [h1]
      rcases hu with hu | ⟨j, ob, hu⟩
      · simp [hu, List.getElem?_set_ne (Ne.symm hi)]
      · simp only [hu, List.getElem?_set, List.length_set]; grind
  rw [h3, e]; rfl

/-- Only one thread works on an object. -/
theorem slot_other {cap : Option Nat} {s : Sys} (hr : Reachable cap s) {f k t : Nat} {mc m : Micro} {x rest : List Micro} (hmc : mc.slot = some f)
    (hx : s.th[k]? = some (mc :: x)) (ht : s.th[t]? = some (m :: rest)) (hne : t ≠ k) : m.slot ≠ some f := by
  intro e
  have h1 := (own_reachable hr).slot f
  have h2 := two_le (sumBy (fun x : Micro => eq1 f x.slot)) hne ht hx
  have h3 : busyL s.w.objs f ≤ 1 := by unfold busyL; split <;> omega
  have h4 : tot (fun x : Micro => eq1 f x.slot) s.th ≤ 1 := by omega
  unfold tot at h4
  simp only [sumBy_cons, e, hmc, eq1, if_true] at h2 h4
  omega

theorem step_slow {cap : Option Nat} {f k : Nat} {o : Obj} {mc : Micro} {x : List Micro} {s1 s2 s1' : Sys} (hr : Reachable cap s1) (hmc : mc.slot = some f)
    (h : Slow f o k (mc :: x) s1 s2) {a : Act} (ha : a ≠ .exec k) (hs : s1.step a = some s1') :
    ∃ s2', s2.step (a.skip k) = some s2' ∧ Slow f o k (mc :: x) s1' s2' := by
  obtain ⟨hw, ho, ta, tb, ht2, hk, ht1⟩ := h
  have hx : s1.th[k]? = some (mc :: x) := by rw [ht1, ← hk]; simp
  cases a with
  | call c =>
    simp only [Sys.step] at hs
    split at hs
    · rename_i w' ms hc
      simp only [Option.some.injEq] at hs
      subst hs
      rw [hw] at hc
      obtain ⟨-, w2', hc2, hw', ho'⟩ := call_slow ho hc
      refine ⟨⟨w2', s2.th ++ [ms]⟩, by simp only [Act.skip, Sys.step, hc2], hw', ho', ta, tb ++ [ms], ?_, hk, ?_⟩
      · simp [ht2]
      · simp [ht1]
    · cases hs
  | exec t =>
    have htk0 : t ≠ k := fun e => ha (by rw [e])
    simp only [Sys.step] at hs
    split at hs
    · rename_i m rest htm
      have hsl := slot_other hr hmc hx htm htk0
      simp only [Option.some.injEq] at hs
      subst hs
      obtain ⟨hw', hms, ho'⟩ := exec_slow ho hsl
      rw [← hw] at hw' hms
      rw [ht1] at htm
      rcases Nat.lt_or_ge t k with htk | htk
      · have h1 : s2.th[t]? = some (m :: rest) := by
          rw [ht2, List.getElem?_append_left (by omega)]
          rwa [List.getElem?_append_left (by omega)] at htm
        have hnk : ¬ k < t := by omega
        refine ⟨⟨(exec s2.w m).1, s2.th.set t ((exec s2.w m).2 ++ rest)⟩, ?_, hw', ho',
          ta.set t ((exec s2.w m).2 ++ rest), tb, ?_, by simpa using hk, ?_⟩
        · simp only [Act.skip, if_neg hnk, Sys.step, h1]
        · simp only [ht2]; rw [List.set_append_left _ _ (by omega)]
        · simp only [ht1, hms]; rw [List.set_append_left _ _ (by omega)]
      · have htk : k < t := by omega
        have h1 : s2.th[t - 1]? = some (m :: rest) := by
          rw [ht2, List.getElem?_append_right (by omega)]
          rw [List.getElem?_append_right (by omega)] at htm
          have : t - ta.length = (t - 1 - ta.length) + 1 := by omega
          rw [this] at htm
          simpa using htm
        refine ⟨⟨(exec s2.w m).1, s2.th.set (t - 1) ((exec s2.w m).2 ++ rest)⟩, ?_, hw', ho',
          ta, tb.set (t - 1 - ta.length) ((exec s2.w m).2 ++ rest), ?_, hk, ?_⟩
        · simp only [Act.skip, if_pos htk, Sys.step, h1]
        · simp only [ht2]; rw [List.set_append_right _ _ (by omega)]
        · simp only [ht1, hms]; rw [List.set_append_right _ _ (by omega)]
          have : t - ta.length = (t - 1 - ta.length) + 1 := by omega
          rw [this]; simp
    · cases hs

theorem run_slow {cap : Option Nat} {f k : Nat} {o : Obj} {mc : Micro} {x : List Micro} {s1 s2 s1' : Sys} (hr : Reachable cap s1) (hmc : mc.slot = some f)
    (h : Slow f o k (mc :: x) s1 s2) {as : List Act} (ha : .exec k ∉ as) (hs : s1.run as = some s1') :
    ∃ s2', s2.run (as.map (Act.skip k)) = some s2' ∧ Slow f o k (mc :: x) s1' s2' := by
  induction as generalizing s1 s2 with
  | nil => simp only [Sys.run, Option.some.injEq] at hs; subst hs; exact ⟨s2, rfl, h⟩
  | cons a as ih =>
    simp only [Sys.run] at hs
    simp only [List.mem_cons, not_or] at ha
    split at hs
    · rename_i s3 h3
      obtain ⟨s4, h4, hsim⟩ := step_slow hr hmc h (Ne.symm ha.1) h3
      obtain ⟨s5, h5, hfin⟩ := ih (.step hr h3) hsim ha.2 hs
      exact ⟨s5, by simp only [List.map_cons, Sys.run, h4]; exact h5, hfin⟩
    · cases hs

theorem step_slow_conv {cap : Option Nat} {f k : Nat} {o : Obj} {mc : Micro} {x : List Micro} {s1 s2 s2' : Sys} (hr : Reachable cap s1)
    (hmc : mc.slot = some f) (h : Slow f o k (mc :: x) s1 s2) {a : Act} (ha : a.avoids f) (hs : s2.step a = some s2') :
    ∃ s1', s1.step (a.shift k) = some s1' ∧ Slow f o k (mc :: x) s1' s2' := by
  obtain ⟨hw, ho, ta, tb, ht2, hk, ht1⟩ := h
  have hx : s1.th[k]? = some (mc :: x) := by rw [ht1, ← hk]; simp
  cases a with
  | call c =>
    simp only [Sys.step] at hs
    split at hs
    · rename_i w' ms hc
      simp only [Option.some.injEq] at hs
      subst hs
      have hc1 := call_slow_conv ho ha hc
      rw [← hw] at hc1
      refine ⟨⟨w'.setObj f .busy, s1.th ++ [ms]⟩, by simp only [Act.shift, Sys.step, hc1], rfl, callR_otherObj (call_rel hc) ho ha, ta, tb ++ [ms], ?_, hk, ?_⟩
      · simp [ht2]
      · simp [ht1]
    · cases hs
  | exec t =>
    simp only [Sys.step] at hs
    split at hs
    · rename_i m rest htm
      simp only [Option.some.injEq] at hs
      subst hs
      rw [ht2] at htm
      by_cases htk : t < k
      · have h1 : s1.th[t]? = some (m :: rest) := by
          rw [ht1, List.getElem?_append_left (by omega)]
          rwa [List.getElem?_append_left (by omega)] at htm
        obtain ⟨hw', hms, ho'⟩ := exec_slow ho (slot_other hr hmc hx h1 (by omega))
        rw [← hw] at hw' hms
        refine ⟨⟨(exec s1.w m).1, s1.th.set t ((exec s1.w m).2 ++ rest)⟩, ?_, hw', ho',
          ta.set t ((exec s2.w m).2 ++ rest), tb, ?_, by simpa using hk, ?_⟩
        · simp only [Act.shift, if_pos htk, Sys.step, h1]
        · simp only [ht2]; rw [List.set_append_left _ _ (by omega)]
        · simp only [ht1, hms]; rw [List.set_append_left _ _ (by omega)]
      · have h1 : s1.th[t + 1]? = some (m :: rest) := by
          rw [ht1, List.getElem?_append_right (by omega)]
          rw [List.getElem?_append_right (by omega)] at htm
          have : t + 1 - ta.length = (t - ta.length) + 1 := by omega
          rw [this]
          simpa using htm
        obtain ⟨hw', hms, ho'⟩ := exec_slow ho (slot_other hr hmc hx h1 (by omega))
        rw [← hw] at hw' hms
        refine ⟨⟨(exec s1.w m).1, s1.th.set (t + 1) ((exec s1.w m).2 ++ rest)⟩, ?_, hw', ho',
          ta, tb.set (t - ta.length) ((exec s2.w m).2 ++ rest), ?_, hk, ?_⟩
        · simp only [Act.shift, if_neg htk, Sys.step, h1]
        · simp only [ht2]; rw [List.set_append_right _ _ (by omega)]
        · simp only [ht1, hms]; rw [List.set_append_right _ _ (by omega)]
          have : t + 1 - ta.length = (t - ta.length) + 1 := by omega
          rw [this]; simp
    · cases hs

theorem run_slow_conv {cap : Option Nat} {f k : Nat} {o : Obj} {mc : Micro} {x : List Micro} {s1 s2 s2' : Sys} (hr : Reachable cap s1)
    (hmc : mc.slot = some f) (h : Slow f o k (mc :: x) s1 s2) {as : List Act} (ha : ∀ a ∈ as, a.avoids f) (hs : s2.run as = some s2') :
    ∃ s1', s1.run (as.map (Act.shift k)) = some s1' ∧ Slow f o k (mc :: x) s1' s2' := by
  induction as generalizing s1 s2 with
  | nil => simp only [Sys.run, Option.some.injEq] at hs; subst hs; exact ⟨s1, rfl, h⟩
  | cons a as ih =>
    simp only [Sys.run] at hs
    split at hs
    · rename_i s3 h3
      obtain ⟨s4, h4, hsim⟩ := step_slow_conv hr hmc h (ha a (List.mem_cons_self ..)) h3
      obtain ⟨s5, h5, hfin⟩ := ih (.step hr h4) hsim (fun b hb => ha b (List.mem_cons_of_mem _ hb)) hs
      exact ⟨s5, by simp only [List.map_cons, Sys.run, h4]; exact h5, hfin⟩
    · cases hs

end Xtra
