import Verif.More
import Verif.PropsExtra
import Verif.PropsStop
import Verif.PropsCausal
import Verif.Slow
/-! # C78: only the last holder of a mailbox matters

Dropping a mailbox, or a receive future which was never polled, while the same mailbox is held by somebody else, is invisible to everybody else. -/

set_option linter.unusedSimpArgs false

namespace Xtra

/-- Specification: call `c` drops the object in slot `f`, which is a mailbox with the broadcast queue `b` or a receive future of it which was never
polled. -/
def LeavesMb (s : Sys) (f b : Nat) (c : Call) : Prop :=
  (s.w.objs[f]? = some (.mailbox b) ∧ c = .dropMailbox f) ∨ (s.w.objs[f]? = some (.recv b .new) ∧ c = .dropRecv f)

/-- Specification: the object keeps mailbox `b` alive: the mailbox itself, a receive future, a message which was taken and not dispatched yet, or a
message which is being handled. -/
def HoldsMb (b : Nat) (o : Obj) : Prop :=
  o = .mailbox b ∨ (∃ st, o = .recv b st) ∨ (∃ m, o = .message b m) ∨ ∃ m st, o = .dispatch b m st

/-- Specification: somebody else than slot `f` holds mailbox `b`: an object, or a receive future which is just being polled. -/
def Held (f b : Nat) (s : Sys) : Prop :=
  (∃ (i : Nat) (o : Obj), i ≠ f ∧ s.w.objs[i]? = some o ∧ HoldsMb b o) ∨
  ∃ (t : Nat) (ms : List Micro) (m : Micro), s.th[t]? = some ms ∧ m ∈ ms ∧
    ((∃ r wk, m = Micro.recvTry r b wk) ∨ (∃ r c wk, m = Micro.recvPoll r b c wk) ∨ ∃ r c wk, m = Micro.recvBcast r b c wk)

/-- Specification: the same history and the same world except for what is in slot `f`, the number of mailboxes and the number of holders of `b`. -/
def AlikeMb (f b : Nat) (s s' : Sys) : Prop :=
  s.w.log = s'.w.log ∧ s.w = { s'.w with objs := s.w.objs, rcv := s.w.rcv, bq := s.w.bq } ∧
  s.w.bq.length = s'.w.bq.length ∧ (∀ i, s.w.items i = s'.w.items i) ∧ (∀ i, i ≠ b → s.w.bq[i]? = s'.w.bq[i]?) ∧
  s.w.objs.length = s'.w.objs.length ∧ ∀ i, i ≠ f → s.w.objs[i]? = s'.w.objs[i]?

theorem GaveMb.alike {f k b : Nat} {s1 s2 : Sys} (h : GaveMb f k b s1 s2) : AlikeMb f b s1 s2 := by
  obtain ⟨s', x, n, q, -, -, ⟨⟨y, hy, hl, he, -⟩, -⟩, rfl⟩ := h
  have hx' : s1.w = s'.w.withObjs y := hy
  rw [AlikeMb, hx']
  refine ⟨rfl, rfl, (more_bqlen s'.w n q b).symm, fun i => (items_more s'.w n q b i).symm, fun i hi => ?_, hl, he⟩
  show s'.w.bq[i]? = (s'.w.bq.modify b (BQ.more q))[i]?
  rw [List.getElem?_modify]
  have h5 : ¬ b = i := fun e => hi e.symm
  simp [h5]

/-- Once there is no mailbox, or nobody holds `b`, it stays so. -/
def GoneMb (b : Nat) (s : Sys) : Prop := s.w.rcv = 0 ∨ (b < s.w.bq.length ∧ s.w.refs b = 0)

theorem goneMb_step {cap : Option Nat} {s s' : Sys} (hr : Reachable cap s) {a : Act} (hs : s.step a = some s') {b : Nat} (h : GoneMb b s) :
    GoneMb b s' := by
  rcases h with h | ⟨hl, h⟩
  · refine .inl ?_
    cases a with
    | call c =>
      simp only [Sys.step] at hs
      split at hs
      · rename_i w' ms hc
        simp only [Option.some.injEq] at hs
        subst hs
        exact rcv_zero_call hr (call_rel hc) h
      · cases hs
    | exec t =>
      simp only [Sys.step] at hs
      split at hs
      · simp only [Option.some.injEq] at hs
        subst hs
        exact execR_rcv_zero (exec_rel _ _) h
      · cases hs
  · exact .inr (refs_zero_step hr hs hl h)

theorem run_goneMb {cap : Option Nat} {s s' : Sys} (hr : Reachable cap s) {as : List Act} (hs : s.run as = some s') {b : Nat} (h : GoneMb b s) :
    GoneMb b s' := by
  induction as generalizing s with
  | nil => simp only [Sys.run, Option.some.injEq] at hs; subst hs; exact h
  | cons a as ih =>
    simp only [Sys.run] at hs
    split at hs
    · rename_i s3 h3
      exact ih (.step hr h3) hs (goneMb_step hr h3 h)
    · cases hs

/-- The table of broadcast queues never shrinks. -/
theorem bqlen_step {cap : Option Nat} {s s' : Sys} (hr : Reachable cap s) {a : Act} (hs : s.step a = some s') {b : Nat} (hl : b < s.w.bq.length) :
    b < s'.w.bq.length := by
  by_cases h0 : s.w.refs b = 0
  · exact (refs_zero_step hr hs hl h0).1
  · cases a with
    | call c =>
      simp only [Sys.step] at hs
      split at hs
      · rename_i w' ms hc
        simp only [Option.some.injEq] at hs
        subst hs
        have hcr := call_rel hc
        generalize hms : ms = ms' at hcr
        cases hcr
        case next => simp [incBq_len]; exact hl
        all_goals (simp; exact hl)
      · cases hs
    | exec t =>
      simp only [Sys.step] at hs
      split at hs
      · rename_i m rest ht
        simp only [Option.some.injEq] at hs
        subst hs
        exact (exec_refs_len s.w m hl).1
      · cases hs

theorem not_gone {b : Nat} {s : Sys} (hl : b < s.w.bq.length) (h : ¬ GoneMb b s) : s.w.rcv ≠ 0 ∧ s.w.refs b ≠ 0 :=
  ⟨fun e => h (.inl e), fun e => h (.inr ⟨hl, e⟩)⟩

theorem run_gaveMb {cap : Option Nat} {f k b : Nat} {s1 s2 s1' : Sys} (hr : Reachable cap s1) (hl : b < s1.w.bq.length) (h : GaveMb f k b s1 s2)
    {as : List Act} (hs : s1.run as = some s1') (hn : ¬ GoneMb b s1') :
    ∃ s2', s2.run (without k as) = some s2' ∧ GaveMb f k b s1' s2' := by
  induction as generalizing s1 s2 with
  | nil => simp only [Sys.run, Option.some.injEq] at hs; subst hs; exact ⟨s2, rfl, h⟩
  | cons a as ih =>
    have hg1 := not_gone hl (fun h4 => hn (run_goneMb hr hs h4))
    simp only [Sys.run] at hs
    split at hs
    · rename_i s3 h3
      have hr3 := Reachable.step hr h3
      have hl3 := bqlen_step hr h3 hl
      have hg3 := not_gone hl3 (fun h4 => hn (run_goneMb hr3 hs h4))
      by_cases ha : a = .exec k
      · subst ha
        obtain ⟨s5, h5, hfin⟩ := ih hr3 hl3 (gaveMb_drop h h3 hg3.1 hg3.2) hs
        exact ⟨s5, by simpa [without] using h5, hfin⟩
      · obtain ⟨s4, h4, hsim⟩ := gaveMb_step h ha h3 hg1.1 hg1.2 hg3.1 hg3.2
        obtain ⟨s5, h5, hfin⟩ := ih hr3 hl3 hsim hs
        refine ⟨s5, ?_, hfin⟩
        have : without k (a :: as) = a.skip k :: without k as := by simp [without, ha]
        rw [this]
        simp only [Sys.run, h4]; exact h5
    · cases hs

theorem leavesMb_step {s s1 : Sys} {f b : Nat} {c : Call} (ho : LeavesMb s f b c) (hs : s.step (.call c) = some s1) :
    s1 = ⟨s.w.setObj f .gone, s.th ++ [[.dropRx, .dropBq b]]⟩ := by
  rcases ho with ⟨ho, rfl⟩ | ⟨ho, rfl⟩ <;> simp only [Sys.step, call, ho, Option.some.injEq] at hs <;> exact hs.symm

theorem leavesMb_lt {s : Sys} {f b : Nat} {c : Call} (ho : LeavesMb s f b c) : f < s.w.objs.length := by
  rcases ho with ⟨ho, -⟩ | ⟨ho, -⟩ <;> exact (List.getElem?_eq_some_iff.mp ho).1

theorem gaveMb_begin {s s1 : Sys} {f b : Nat} {c : Call} (ho : LeavesMb s f b c) (hs : s.step (.call c) = some s1) :
    GaveMb f s.th.length b s1 s := by
  have hl := leavesMb_lt ho
  rw [leavesMb_step ho hs]
  refine ⟨s, _, 0, 0, by simp, .inl ⟨rfl, rfl, rfl⟩, ⟨⟨s.w.objs.set f .gone, rfl, by simp, fun i hi => ?_, .inl ?_⟩, s.th, [], by simp, rfl,
    by simp [Sys.cut]⟩, by rw [Sys.more, more_zero]⟩
  · rw [List.getElem?_set_ne (Ne.symm hi)]
  · rw [List.getElem?_set_self hl]

theorem leavesMb_refs {cap : Option Nat} {s : Sys} {f b : Nat} {c : Call} (hr : Reachable cap s) (ho : LeavesMb s f b c) : b < s.w.bq.length := by
  have hrf := refs_reachable hr b
  refine refs_lt (w := s.w) ?_
  rcases ho with ⟨ho, -⟩ | ⟨ho, -⟩
  all_goals
    have := le_sumBy (oBq b) ho
    simp [oBq, is1] at this
    omega

theorem sumBy_two_slots {α : Type _} (g : α → Nat) {l : List α} {i j : Nat} {x y : α} (hi : l[i]? = some x) (hj : l[j]? = some y) (hn : i ≠ j) :
    g x + g y ≤ sumBy g l := by
  induction l generalizing i j with
  | nil => simp at hi
  | cons z l ih =>
    cases i with
    | zero =>
      cases j with
      | zero => exact absurd rfl hn
      | succ j => simp at hi hj; subst hi; have := le_sumBy g hj; simp; omega
    | succ i =>
      cases j with
      | zero => simp at hi hj; subst hj; have := le_sumBy g hi; simp; omega
      | succ j => simp at hi hj; have := ih hi hj (by omega); simp; omega

theorem holdsMb_weights {b : Nat} {o : Obj} (h : HoldsMb b o) : oBq b o = 1 ∧ oRcv o = 1 := by
  rcases h with rfl | ⟨st, rfl⟩ | ⟨m, rfl⟩ | ⟨m, st, rfl⟩ <;> simp [oBq, oRcv, is1]

theorem held_pos {cap : Option Nat} {s : Sys} (hr : Reachable cap s) {f b : Nat} (h : Held f b s) : 0 < s.w.rcv ∧ 0 < s.w.refs b := by
  have h1 := rcv_reachable hr
  have h2 := refs_reachable hr b
  rcases h with ⟨i, o, -, hi, ho⟩ | ⟨t, ms, m, ht, hm, hmm⟩
  · obtain ⟨h3, h4⟩ := holdsMb_weights ho
    have h5 := le_sumBy oRcv hi
    have h6 := le_sumBy (oBq b) hi
    omega
  · have h5 := mem_tot mRcv ht hm
    have h6 := mem_tot (mBq b) ht hm
    have h7 : mRcv m = 1 ∧ mBq b m = 1 := by
      rcases hmm with ⟨r, wk, rfl⟩ | ⟨r, c, wk, rfl⟩ | ⟨r, c, wk, rfl⟩ <;> simp [mRcv, mBq, is1]
    omega

theorem held_two {cap : Option Nat} {s : Sys} (hr : Reachable cap s) {f b : Nat} {x : Obj} (hf : s.w.objs[f]? = some x) (hx : HoldsMb b x)
    (h : Held f b s) : 1 < s.w.rcv ∧ 1 < s.w.refs b := by
  have h1 := rcv_reachable hr
  have h2 := refs_reachable hr b
  obtain ⟨h8, h9⟩ := holdsMb_weights hx
  rcases h with ⟨i, o, hn, hi, ho⟩ | ⟨t, ms, m, ht, hm, hmm⟩
  · obtain ⟨h3, h4⟩ := holdsMb_weights ho
    have h5 := sumBy_two_slots oRcv hi hf hn
    have h6 := sumBy_two_slots (oBq b) hi hf hn
    omega
  · have h5 := mem_tot mRcv ht hm
    have h6 := mem_tot (mBq b) ht hm
    have h7 : mRcv m = 1 ∧ mBq b m = 1 := by
      rcases hmm with ⟨r, wk, rfl⟩ | ⟨r, c, wk, rfl⟩ | ⟨r, c, wk, rfl⟩ <;> simp [mRcv, mBq, is1]
    have h10 := le_sumBy oRcv hf
    have h11 := le_sumBy (oBq b) hf
    omega

/-- C78: a mailbox (or a receive future which was never polled) is dropped, and anything happens after that (`as`; the drop itself, thread
`s.th.length`, may take effect at any moments of it, or not yet). If somebody holds the mailbox at the end, all of it could have happened without the
drop: the same calls with the same results, the same messages in the same order, the same wakers. -/
theorem C78_drop_changes_nothing {cap : Option Nat} {s s1 s2 : Sys} {f b : Nat} {c : Call} {as : List Act} (hr : Reachable cap s)
    (ho : LeavesMb s f b c) (h1 : s.step (.call c) = some s1) (h2 : s1.run as = some s2) (hh : Held f b s2) :
    ∃ s2', s.run (without s.th.length as) = some s2' ∧ AlikeMb f b s2 s2' := by
  have hr1 := Reachable.step hr h1
  have h5 := held_pos (Reachable.run hr1 h2) hh
  have hn : ¬ GoneMb b s2 := by
    rintro (h | ⟨-, h⟩) <;> omega
  obtain ⟨s2', h3, h4⟩ := run_gaveMb hr1 (bqlen_step hr h1 (leavesMb_refs hr ho)) (gaveMb_begin ho h1) h2 hn
  exact ⟨s2', h3, h4.alike⟩

theorem step_slot {cap : Option Nat} {s s' : Sys} {a : Act} (hr : Reachable cap s) (hs : s.step a = some s') {f : Nat} {o : Obj}
    (ho : s.w.objs[f]? = some o) (hb : o ≠ .busy) (ha : a.avoids f) : s'.w.objs[f]? = some o := by
  cases a with
  | call c =>
    simp only [Sys.step] at hs
    split at hs
    · rename_i w' ms hc
      simp only [Option.some.injEq] at hs
      subst hs
      exact callR_otherObj (call_rel hc) ho ha
    · cases hs
  | exec t => exact exec_keeps_obj hr hs ho hb

theorem run_slot {cap : Option Nat} {s s' : Sys} {as : List Act} (hr : Reachable cap s) (hs : s.run as = some s') {f : Nat} {o : Obj}
    (ho : s.w.objs[f]? = some o) (hb : o ≠ .busy) (ha : ∀ a ∈ as, a.avoids f) : s'.w.objs[f]? = some o := by
  induction as generalizing s with
  | nil => simp only [Sys.run, Option.some.injEq] at hs; subst hs; exact ho
  | cons a as ih =>
    simp only [Sys.run] at hs
    split at hs
    · rename_i s3 h3
      exact ih (.step hr h3) hs (step_slot hr h3 ho hb (ha a (List.mem_cons_self ..))) (fun c hc => ha c (List.mem_cons_of_mem _ hc))
    · cases hs

theorem run_gaveMb_conv {cap : Option Nat} {f k b : Nat} {s1 s2 s2' : Sys} (h : GaveMb f k b s1 s2) {as : List Act} (hr : Reachable cap s2)
    {o : Obj} (ho : s2.w.objs[f]? = some o) (hmb : HoldsMb b o) (ha : ∀ a ∈ as, a.avoids f) (hs : s2.run as = some s2')
    (hn : s1.th[k]? ≠ some [.dropRx, .dropBq b] → ∀ bs s3, bs <+: as → s2.run bs = some s3 → Held f b s3) :
    ∃ s1', s1.run (as.map (Act.shift k)) = some s1' ∧ GaveMb f k b s1' s2' ∧ s1'.th[k]? = s1.th[k]? := by
  have hb : o ≠ .busy := by rcases hmb with rfl | ⟨_, rfl⟩ | ⟨_, rfl⟩ | ⟨_, _, rfl⟩ <;> simp
  have pos : ∀ {s : Sys}, Reachable cap s → s.w.objs[f]? = some o → 0 < s.w.rcv ∧ 0 < s.w.refs b := by
    intro s hr ho
    exact held_pos (f := f + 1) hr (.inl ⟨f, o, by omega, ho, hmb⟩)
  induction as generalizing s1 s2 with
  | nil => simp only [Sys.run, Option.some.injEq] at hs; subst hs; exact ⟨s1, rfl, h, rfl⟩
  | cons a as ih =>
    simp only [Sys.run] at hs
    split at hs
    · rename_i s3 h3
      have hr3 := Reachable.step hr h3
      have ho3 := step_slot hr h3 ho hb (ha a (List.mem_cons_self ..))
      obtain ⟨s4, h4, hsim, h5⟩ := gaveMb_step_conv h (ha a (List.mem_cons_self ..)) h3 (pos hr ho) (pos hr3 ho3)
        (fun h6 => ⟨held_two hr ho hmb (hn h6 [] s2 List.nil_prefix rfl),
          held_two hr3 ho3 hmb (hn h6 [a] s3 (by simp) (by simp [Sys.run, h3]))⟩)
      obtain ⟨s5, h6, hfin, h8⟩ := ih hsim hr3 ho3 (fun b hb => ha b (List.mem_cons_of_mem _ hb)) hs
        (fun h10 bs s6 hbs h11 => hn (h5 ▸ h10) (a :: bs) s6 (by simpa using hbs) (by simp only [Sys.run, h3]; exact h11))
      exact ⟨s5, by simp only [List.map_cons, Sys.run, h4]; exact h6, hfin, by rw [h8, h5]⟩
    · cases hs

theorem gaveMb_rcv {f k b : Nat} {s1 s2 : Sys} (h : GaveMb f k b s1 s2) :
    ∃ n q, s2.w.rcv = s1.w.rcv + n ∧ (b < s2.w.bq.length → s2.w.refs b = s1.w.refs b + q) ∧
      ((s1.th[k]? = some [.dropRx, .dropBq b] ∧ n = 0 ∧ q = 0) ∨ (s1.th[k]? = some [.dropBq b] ∧ n = 1 ∧ q = 0) ∨
        (s1.th[k]? = some [] ∧ n = 1 ∧ q = 1)) := by
  obtain ⟨s', x, n, q, ht, hx, hsim, rfl⟩ := h
  refine ⟨n, q, ?_, ?_, ?_⟩
  · have h5 : s1.w.rcv = s'.w.rcv := (simBut_rcv hsim :)
    rw [h5]; rfl
  · intro hl
    have h6 : (s'.more n q b).w.bq.length = s'.w.bq.length := more_bqlen ..
    have := refs_more s'.w n q b b (by omega)
    rw [if_pos rfl] at this
    have h5 : s1.w.refs b = s'.w.refs b := (simBut_refs (b := b) hsim :)
    rw [h5]
    exact this
  · rw [ht]
    rcases hx with ⟨rfl, rfl, rfl⟩ | ⟨rfl, rfl, rfl⟩ | ⟨rfl, rfl, rfl⟩ <;> simp

/-- C78, conversely: what could have happened (`as`, then `bs`, then `cs`) without using the object can happen although it is dropped: the drop begins
before `as`, gives back the mailbox between `as` and `bs`, and its broadcast queue between `bs` and `cs`. From `bs` on somebody else holds the
mailbox. -/
theorem C78_drop_prevents_nothing {cap : Option Nat} {s s2' s3' s4' : Sys} {f b : Nat} {c : Call} {as bs cs : List Act} (hr : Reachable cap s)
    (ho : LeavesMb s f b c) (ha : ∀ a ∈ as ++ (bs ++ cs), a.avoids f) (h2 : s.run as = some s2') (h3 : s2'.run bs = some s3')
    (h4 : s3'.run cs = some s4') (hh : ∀ ds s5, ds <+: bs ++ cs → s2'.run ds = some s5 → Held f b s5) :
    ∃ s4, s.run (.call c :: as.map (Act.shift s.th.length) ++ (.exec s.th.length :: bs.map (Act.shift s.th.length) ++
      .exec s.th.length :: cs.map (Act.shift s.th.length))) = some s4 ∧ AlikeMb f b s4 s4' := by
  obtain ⟨s1, h1⟩ : ∃ s1, s.step (.call c) = some s1 := by
    rcases ho with ⟨ho, rfl⟩ | ⟨ho, rfl⟩ 
    · exact ⟨⟨s.w.setObj f .gone, s.th ++ [[.dropRx, .dropBq b]]⟩, by simp only [Sys.step, call, ho]⟩
    · exact ⟨⟨s.w.setObj f .gone, s.th ++ [[.dropRx, .dropBq b]]⟩, by simp only [Sys.step, call, ho]⟩
  obtain ⟨o, hof, hmb⟩ : ∃ o, s.w.objs[f]? = some o ∧ HoldsMb b o := by
    rcases ho with ⟨ho, rfl⟩ | ⟨ho, rfl⟩
    · exact ⟨_, ho, .inl rfl⟩
    · exact ⟨_, ho, .inr (.inl ⟨_, rfl⟩)⟩
  have hb : o ≠ .busy := by rcases hmb with rfl | ⟨_, rfl⟩ | ⟨_, rfl⟩ | ⟨_, _, rfl⟩ <;> simp
  have hg := gaveMb_begin ho h1
  have hth1 : s1.th[s.th.length]? = some [.dropRx, .dropBq b] := by rw [leavesMb_step ho h1]; simp
  have haa : ∀ a ∈ as, a.avoids f := fun a h => ha a (List.mem_append_left _ h)
  have hab : ∀ a ∈ bs, a.avoids f := fun a h => ha a (List.mem_append_right _ (List.mem_append_left _ h))
  have hac : ∀ a ∈ cs, a.avoids f := fun a h => ha a (List.mem_append_right _ (List.mem_append_right _ h))
  obtain ⟨s2, h5, hg2, hth2⟩ := run_gaveMb_conv hg hr hof hmb haa h2 (fun h => absurd hth1 h)
  rw [hth1] at hth2
  have hr2 := Reachable.run hr h2
  have ho2 := run_slot hr h2 hof hb haa
  have hr3 := Reachable.run hr2 h3
  have ho3 := run_slot hr2 h3 ho2 hb hab
  have h6 := held_two hr2 ho2 hmb (hh [] s2' List.nil_prefix rfl)
  have h7 := held_two hr3 ho3 hmb (hh bs s3' (List.prefix_append ..) h3)
  have h8 : s2.step (.exec s.th.length) = some ⟨(exec s2.w .dropRx).1, s2.th.set s.th.length ((exec s2.w .dropRx).2 ++ [.dropBq b])⟩ := by
    simp only [Sys.step, hth2]
  obtain ⟨n, q, h9, h10, h11⟩ := gaveMb_rcv hg2
  have hl2 : b < s2'.w.bq.length := refs_lt (by omega)
  have h10 := h10 hl2
  rw [hth2] at h11
  simp at h11
  obtain ⟨rfl, rfl⟩ := h11
  have hgx := gaveMb_drop hg2 h8 (by simp only [exec]; omega) (by
    have : (exec s2.w .dropRx).1.refs b = s2.w.refs b := refs_congr rfl b
    show (exec s2.w .dropRx).1.refs b ≠ 0
    omega)
  have hthx : (⟨(exec s2.w .dropRx).1, s2.th.set s.th.length ((exec s2.w .dropRx).2 ++ [.dropBq b])⟩ : Sys).th[s.th.length]? = some [.dropBq b] := by
    have : ¬ s2.w.rcv = 1 := by omega
    simp [exec, this, gaveMb_len hg2]
  obtain ⟨s3, h12, hg3, hth3⟩ := run_gaveMb_conv hgx hr2 ho2 hmb hab h3
    (fun _ ds s5 hd h => hh ds s5 (hd.trans (List.prefix_append ..)) h)
  rw [hthx] at hth3
  have h13 : s3.step (.exec s.th.length) = some ⟨(exec s3.w (.dropBq b)).1, s3.th.set s.th.length ((exec s3.w (.dropBq b)).2 ++ [])⟩ := by
    simp only [Sys.step, hth3]
  obtain ⟨n, q, h14, h15, h16⟩ := gaveMb_rcv hg3
  have hl3 : b < s3'.w.bq.length := refs_lt (by omega)
  have h15 := h15 hl3
  rw [hth3] at h16
  simp at h16
  obtain ⟨rfl, rfl⟩ := h16
  have hgy := gaveMb_drop hg3 h13 (by
    have : (exec s3.w (.dropBq b)).1.rcv = s3.w.rcv := execR_rcv_eq (exec_rel _ _) (by simp)
    show (exec s3.w (.dropBq b)).1.rcv ≠ 0
    omega) (by
    have h17 : (exec s3.w (.dropBq b)).1.refs b = (s3.w.decBq b).refs b := rfl
    have h18 := decBq_refs s3.w b b
    rw [if_pos rfl] at h18
    show (exec s3.w (.dropBq b)).1.refs b ≠ 0
    omega)
  obtain ⟨s4, h19, hg4, -⟩ := run_gaveMb_conv hgy hr3 ho3 hmb hac h4
    (fun _ ds s5 hd h => hh (bs ++ ds) s5 (by rw [List.prefix_append_right_inj]; exact hd) (run_join h3 h))
  refine ⟨s4, ?_, hg4.alike⟩
  refine run_join (s1 := s2) ?_ (run_join (as := .exec s.th.length :: bs.map (Act.shift s.th.length)) (s1 := s3) ?_ ?_)
  · simp only [Sys.run, h1]; exact h5
  · simp only [Sys.run, h8]; exact h12
  · simp only [Sys.run, h13]; exact h19

/-- A mailbox is there until it is dropped. -/
theorem step_mailbox {cap : Option Nat} {s s' : Sys} {a : Act} (hr : Reachable cap s) (hs : s.step a = some s') {i b : Nat}
    (ho : s.w.objs[i]? = some (.mailbox b)) (ha : a ≠ .call (.dropMailbox i)) : s'.w.objs[i]? = some (.mailbox b) := by
  cases a with
  | call c =>
    have hc' : c ≠ .dropMailbox i := fun e => ha (by rw [e])
    by_cases hsub : c.subject = some i
    · have hl := (List.getElem?_eq_some_iff.mp ho).1
      simp only [Sys.step] at hs
      split at hs
      · rename_i w' ms hc
        simp only [Option.some.injEq] at hs
        subst hs
        show w'.objs[i]? = _
        cases c <;> simp [Call.subject] at hsub <;> subst hsub <;> simp [call, ho, Obj.mbox] at hc hc' <;> obtain ⟨rfl, rfl⟩ := hc <;>
          simp [World.addObj] <;> (rw [List.getElem?_append_left hl]; exact ho)
      · cases hs
    · exact step_slot hr hs ho (by simp) hsub
  | exec t => exact exec_keeps_obj hr hs ho (by simp)

theorem run_mailbox {cap : Option Nat} {s s' : Sys} {as : List Act} (hr : Reachable cap s) (hs : s.run as = some s') {i b : Nat}
    (ho : s.w.objs[i]? = some (.mailbox b)) (ha : ∀ a ∈ as, a ≠ .call (.dropMailbox i)) : s'.w.objs[i]? = some (.mailbox b) := by
  induction as generalizing s with
  | nil => simp only [Sys.run, Option.some.injEq] at hs; subst hs; exact ho
  | cons a as ih =>
    simp only [Sys.run] at hs
    split at hs
    · rename_i s3 h3
      exact ih (.step hr h3) hs (step_mailbox hr h3 ho (ha a (List.mem_cons_self ..))) (fun c hc => ha c (List.mem_cons_of_mem _ hc))
    · cases hs

/-- C78 for the future of `next` that is made and never polled (the loser of a `select!` which was not looked at): as long as its mailbox is not
dropped, dropping the future is invisible, and prevents nothing. -/
theorem C78_unpolled_next {cap : Option Nat} {s : Sys} {f i b : Nat} (hr : Reachable cap s) (hf : s.w.objs[f]? = some (.recv b .new))
    (hi : s.w.objs[i]? = some (.mailbox b)) :
    (∀ s1 s2 as, s.step (.call (.dropRecv f)) = some s1 → s1.run as = some s2 → (∀ a ∈ as, a ≠ .call (.dropMailbox i)) →
      ∃ s2', s.run (without s.th.length as) = some s2' ∧ AlikeMb f b s2 s2') ∧
    (∀ s2' s3' s4' as bs cs, s.run as = some s2' → s2'.run bs = some s3' → s3'.run cs = some s4' →
      (∀ a ∈ as ++ (bs ++ cs), a.avoids f ∧ a ≠ .call (.dropMailbox i)) →
      ∃ s4, s.run (.call (.dropRecv f) :: as.map (Act.shift s.th.length) ++ (.exec s.th.length :: bs.map (Act.shift s.th.length) ++
        .exec s.th.length :: cs.map (Act.shift s.th.length))) = some s4 ∧ AlikeMb f b s4 s4') := by
  have hif : i ≠ f := by
    rintro rfl
    rw [hi] at hf; simp at hf
  constructor
  · intro s1 s2 as h1 h2 ha
    have hi1 := step_mailbox hr h1 hi (by simp)
    exact C78_drop_changes_nothing hr (.inr ⟨hf, rfl⟩) h1 h2 (.inl ⟨i, _, hif, run_mailbox (.step hr h1) h2 hi1 ha, .inl rfl⟩)
  · intro s2' s3' s4' as bs cs h2 h3 h4 ha
    refine C78_drop_prevents_nothing hr (.inr ⟨hf, rfl⟩) (fun a h => (ha a h).1) h2 h3 h4 fun ds s5 hd h => .inl ⟨i, _, hif, ?_, .inl rfl⟩
    have hi2 := run_mailbox hr h2 hi (fun a h => (ha a (List.mem_append_left _ h)).2)
    exact run_mailbox (.run hr h2) h hi2 (fun a h => (ha a (List.mem_append_right _ (hd.subset h))).2)

/-- An address is there until it is dropped. -/
theorem step_addr {cap : Option Nat} {s s' : Sys} {a : Act} (hr : Reachable cap s) (hs : s.step a = some s') {i : Nat} {rc : Rc}
    (ho : s.w.objs[i]? = some (.addr rc)) (ha : a ≠ .call (.dropAddr i)) : s'.w.objs[i]? = some (.addr rc) := by
  cases a with
  | call c =>
    have hc' : c ≠ .dropAddr i := fun e => ha (by rw [e])
    by_cases hsub : c.subject = some i
    · have hl := (List.getElem?_eq_some_iff.mp ho).1
      simp only [Sys.step] at hs
      split at hs
      · rename_i w' ms hc
        simp only [Option.some.injEq] at hs
        subst hs
        have hcr := call_rel hc
        generalize hms : ms = ms' at hcr
        show w'.objs[i]? = _
        have hk : ∀ o, (s.w.objs ++ [o])[i]? = some (.addr rc) := fun o => by rw [List.getElem?_append_left hl]; exact ho
        cases hcr <;> simp [Call.subject] at hsub <;> subst hsub <;>
          first
          | exact hk _
          | exact ho
          | (simp_all [Obj.mbox]; done)
          | (simp only [World.addObj, World.ev]; exact hk _)
          | (simp; exact hk _)
          | grind
      · cases hs
    · exact step_slot hr hs ho (by simp) hsub
  | exec t => exact exec_keeps_obj hr hs ho (by simp)

theorem run_addr {cap : Option Nat} {s s' : Sys} {as : List Act} (hr : Reachable cap s) (hs : s.run as = some s') {i : Nat} {rc : Rc}
    (ho : s.w.objs[i]? = some (.addr rc)) (ha : ∀ a ∈ as, a ≠ .call (.dropAddr i)) : s'.w.objs[i]? = some (.addr rc) := by
  induction as generalizing s with
  | nil => simp only [Sys.run, Option.some.injEq] at hs; subst hs; exact ho
  | cons a as ih =>
    simp only [Sys.run] at hs
    split at hs
    · rename_i s3 h3
      exact ih (.step hr h3) hs (step_addr hr h3 ho (ha a (List.mem_cons_self ..))) (fun c hc => ha c (List.mem_cons_of_mem _ hc))
    · cases hs

/-- C77 for a clone: as long as another strong address is not dropped, dropping an address of any kind is invisible, and prevents nothing. -/
theorem C77_clone_left {cap : Option Nat} {s : Sys} {f i : Nat} {rc rc' : Rc} (hr : Reachable cap s) (hf : s.w.objs[f]? = some (.addr rc))
    (hif : i ≠ f) (hi : s.w.objs[i]? = some (.addr rc')) (hst : rc'.isStrong = true) :
    (∀ s1 s2 as, s.step (.call (.dropAddr f)) = some s1 → s1.run as = some s2 → (∀ a ∈ as, a ≠ .call (.dropAddr i)) →
      ∃ s2', s.run (without s.th.length as) = some s2' ∧ AlikeBut f s2 s2') ∧
    (∀ s2' s4' as bs, s.run as = some s2' → s2'.run bs = some s4' →
      (∀ a ∈ as ++ bs, a.avoids f ∧ a ≠ .call (.dropAddr i)) →
      ∃ s4, s.run (.call (.dropAddr f) :: as.map (Act.shift s.th.length) ++ .exec s.th.length :: bs.map (Act.shift s.th.length)) = some s4 ∧
        AlikeBut f s4 s4') := by
  constructor
  · intro s1 s2 as h1 h2 ha
    have hi1 := step_addr hr h1 hi (by simpa using fun e => hif e.symm)
    exact C77_another_address hr hf h1 h2 (run_addr (.step hr h1) h2 hi1 ha) (.inl ⟨rc', rfl, hst⟩)
  · intro s2' s4' as bs h2 h4 ha
    refine C77_drop_prevents_nothing hr hf (fun a h => (ha a h).1) h2 h4 fun hs cs s3 hd h => ?_
    have hr2 := Reachable.run hr h2
    have hi2 := run_addr hr h2 hi (fun a h => (ha a (List.mem_append_left _ h)).2)
    have hi3 := run_addr hr2 h hi2 (fun a h => (ha a (List.mem_append_right _ (hd.subset h))).2)
    have hf2 := run_slot hr h2 hf (by simp) (fun a h => (ha a (List.mem_append_left _ h)).1)
    have hf3 := run_slot hr2 h hf2 (by simp) (fun a h => (ha a (List.mem_append_right _ (hd.subset h))).1)
    have h5 := sc_reachable (Reachable.run hr2 h)
    have h6 := sumBy_two_slots oStrong hi3 hf3 hif
    simp only [oStrong, Rc.cnt_strong hs, Rc.cnt_strong hst] at h6
    omega

/-! ## Concrete cases -/

/-- A receive future of the mailbox waits. -/
def moreWait : List Act := [.call (.next 1), .call (.pollRecv 2 0), .exec 1, .exec 1]

/-- The mailbox is dropped (thread 2) while the future gets a broadcast and hands it over, and the message is dispatched. -/
def moreServe : List Act :=
  [.exec 2, .call (.broadcast 0), .call (.pollSend 3 1), .exec 4, .exec 4, .exec 4, .exec 2, .exec 4, .exec 4, .call (.pollRecv 2 0), .exec 5,
   .exec 5, .call (.dispatch 2)]

/-- Meets the hypotheses of `C78_drop_changes_nothing`: the mailbox is dropped, a waiting receive future of it is left. -/
example : ∃ s s1 s2, Reachable none s ∧ LeavesMb s 1 0 (.dropMailbox 1) ∧ s.step (.call (.dropMailbox 1)) = some s1 ∧
    s1.run moreServe = some s2 ∧ Held 1 0 s2 ∧ Ev.recv 2 0 (.all ⟨0, .valued 0⟩) ∈ s2.w.log :=
  ⟨_, _, _, Reachable.run .init (as := moreWait) rfl, .inl ⟨rfl, rfl⟩, rfl, rfl,
    .inl ⟨2, _, by decide, rfl, .inr (.inr (.inr ⟨_, _, rfl⟩))⟩, by decide⟩

/-- Without another holder the conclusion is false: after the drop of the mailbox the address is disconnected. -/
example : ∃ s s1 s2, Reachable none s ∧ LeavesMb s 1 0 (.dropMailbox 1) ∧ s.step (.call (.dropMailbox 1)) = some s1 ∧
    s1.run [.exec 0, .call (.isConnected 0), .exec 1] = some s2 ∧ Ev.connected 0 false ∈ s2.w.log ∧
    ∀ s2', s.run (without 0 [.exec 0, .call (.isConnected 0), .exec 1]) = some s2' → Ev.connected 0 false ∉ s2'.w.log :=
  ⟨_, _, _, .init, .inl ⟨rfl, rfl⟩, rfl, rfl, by decide, fun s2' h => by
    have : s2' = _ := (Option.some.inj h).symm
    subst this; decide⟩

/-- A request, sent while the unpolled `next` (slot 3) is dropped. -/
def moreA : List Act := [.call (.send 0), .call (.pollSend 4 1)]
def moreB : List Act := [.exec 3, .exec 3, .exec 3]
/-- It is received with the other future. -/
def moreC : List Act := [.exec 3, .exec 3, .call (.pollRecv 2 0), .exec 4]

/-- The same with the drop (thread 2) in the midst of it. -/
def moreD : List Act :=
  [.call (.send 0), .exec 2, .call (.pollSend 4 1), .exec 4, .exec 4, .exec 4, .exec 2, .exec 4, .exec 4, .call (.pollRecv 2 0), .exec 5]

/-- Meets the hypotheses of `C78_drop_prevents_nothing`: an unpolled `next` is dropped, the mailbox is left. -/
example : ∃ s s2 s3 s4, Reachable none s ∧ LeavesMb s 3 0 (.dropRecv 3) ∧ (∀ a ∈ moreA ++ (moreB ++ moreC), a.avoids 3) ∧
    s.run moreA = some s2 ∧ s2.run moreB = some s3 ∧ s3.run moreC = some s4 ∧
    (∀ ds s5, ds <+: moreB ++ moreC → s2.run ds = some s5 → Held 3 0 s5) ∧ Ev.recv 2 0 (.one ⟨0, .valued 0⟩) ∈ s4.w.log := by
  refine ⟨_, _, _, _, Reachable.run .init (as := [.call (.next 1), .call (.next 1)]) rfl, .inr ⟨rfl, rfl⟩, ?_, rfl, rfl, rfl, ?_, by decide⟩
  · simp [moreA, moreB, moreC, Act.avoids, Call.subject]
  · intro ds s5 hd h
    refine .inl ⟨1, .mailbox 0, by decide, ?_, .inl rfl⟩
    refine run_slot (cap := none) (Reachable.run .init (as := [.call (.next 1), .call (.next 1)] ++ moreA) rfl) h rfl (by simp) ?_
    intro a ha
    have := hd.subset ha
    simp [moreB, moreC] at this
    rcases this with rfl | rfl | rfl <;> simp [Act.avoids, Call.subject]

/-- Meets the hypotheses of `C78_unpolled_next`, the first part with `moreD` and the second with `moreA`, `moreB`, `moreC`. -/
example : ∃ s, Reachable none s ∧ s.w.objs[3]? = some (.recv 0 .new) ∧ s.w.objs[1]? = some (.mailbox 0) ∧
    ∃ s1 s2, s.step (.call (.dropRecv 3)) = some s1 ∧ s1.run moreD = some s2 ∧ (∀ a ∈ moreD, a ≠ .call (.dropMailbox 1)) ∧
      Ev.recv 2 0 (.one ⟨0, .valued 0⟩) ∈ s2.w.log :=
  ⟨_, Reachable.run .init (as := [.call (.next 1), .call (.next 1)]) rfl, rfl, rfl, _, _, rfl, rfl, by decide, by decide⟩

example : (∀ a ∈ moreA ++ (moreB ++ moreC), a.avoids 3 ∧ a ≠ .call (.dropMailbox 1)) := by
  simp [moreA, moreB, moreC, Act.avoids, Call.subject]

/-- Meets the hypotheses of `C78_drop_changes_nothing` with a receive future which is just being polled. -/
example : ∃ s s1 s2, Reachable none s ∧ LeavesMb s 1 0 (.dropMailbox 1) ∧ s.step (.call (.dropMailbox 1)) = some s1 ∧
    s1.run [.exec 2, .exec 2] = some s2 ∧ Held 1 0 s2 :=
  ⟨_, _, _, Reachable.run .init (as := [.call (.next 1), .call (.pollRecv 2 0)]) rfl, .inl ⟨rfl, rfl⟩, rfl, rfl,
    .inr ⟨1, _, .recvTry 2 0 0, rfl, by simp, .inl ⟨_, _, rfl⟩⟩⟩

/-- Meets the hypotheses of `C77_clone_left`, the first part with `extraServe`. -/
example : ∃ s s1 s2, Reachable none s ∧ s.w.objs[0]? = some (.addr .strong) ∧ s.w.objs[2]? = some (.addr .strong) ∧ Rc.isStrong .strong = true ∧
    s.step (.call (.dropAddr 0)) = some s1 ∧ s1.run extraServe = some s2 ∧ (∀ a ∈ extraServe, a ≠ .call (.dropAddr 2)) ∧
    Ev.handled 0 9 ∈ s2.w.log :=
  ⟨_, _, _, Reachable.run .init (as := extraSent) rfl, rfl, rfl, rfl, rfl, rfl, by decide, by decide⟩

/-- The second part: a request is sent with the clone while the other address is dropped. -/
example : ∃ s s2 s4, Reachable none s ∧ s.w.objs[0]? = some (.addr .strong) ∧ s.w.objs[2]? = some (.addr .strong) ∧
    s.run [.call (.send 2), .call (.pollSend 3 0)] = some s2 ∧ s2.run [.exec 2, .exec 2, .exec 2, .exec 2, .exec 2] = some s4 ∧
    (∀ a ∈ [Act.call (.send 2), .call (.pollSend 3 0)] ++ [.exec 2, .exec 2, .exec 2, .exec 2, .exec 2],
      a.avoids 0 ∧ a ≠ .call (.dropAddr 2)) ∧ Ev.sendPending 3 0 0 ∈ s4.w.log :=
  ⟨_, _, _, Reachable.run .init (as := [.call (.cloneAddr 0)]) rfl, rfl, rfl, rfl, rfl,
    by simp [Act.avoids, Call.subject], by decide⟩

end Xtra
