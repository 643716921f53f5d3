import Verif.GraceB
import Verif.PropsHang
import Verif.WhyErr
/-! # C56: graceful shutdown -/

set_option linter.unusedSimpArgs false

namespace Xtra

/-! ## The channel -/

theorem Queued.run {cap : Option Nat} {m : Msg} (as : List Act) : ∀ {s s' : Sys}, Reachable cap s → Queued m s → s.run as = some s' → Queued m s' := by
  induction as with
  | nil => intro s s' _ hq hr; simp [Sys.run] at hr; subst hr; exact hq
  | cons a as ih =>
    intro s s' h hq hr
    simp only [Sys.run] at hr
    cases hs : s.step a with
    | none => rw [hs] at hr; simp at hr
    | some s1 => rw [hs] at hr; exact ih (h.step hs) (hq.step h hs) hr

theorem InLine.run {cap : Option Nat} (hc : cap ≠ some 0) {m : Msg} (as : List Act) :
    ∀ {s s' : Sys}, Reachable cap s → InLine m s → s.run as = some s' → InLine m s' := by
  induction as with
  | nil => intro s s' _ hq hr; simp [Sys.run] at hr; subst hr; exact hq
  | cons a as ih =>
    intro s s' h hq hr
    simp only [Sys.run] at hr
    cases hs : s.step a with
    | none => rw [hs] at hr; simp at hr
    | some s1 => rw [hs] at hr; exact ih (h.step hs) (hq.step h hc hs) hr

/-- Some strong reference exists: an object, or one owned by a call in progress. -/
def Sys.someStrong (s : Sys) : Prop := 0 < s.w.strongRefs + s.th.flatten.countP Micro.holdsStrong

theorem someStrong_sc {cap : Option Nat} {s : Sys} (h : Reachable cap s) (hs : s.someStrong) : s.w.sc ≠ 0 := by
  have := (C14_counts_exact h).1
  unfold Sys.someStrong at hs; omega

/-- **C56**, all interleavings: nobody is told to shut down before the messages are out. If a message is queued while a strong address
exists, then whatever happens afterwards, no receive future of any mailbox, whether made later or already waiting, ever yields the
shutdown notice unless the message has been received. -/
theorem C56_no_notice_before_queued {cap : Option Nat} {s s' : Sys} {as : List Act} {m : Msg} (h : Reachable cap s) (hst : s.someStrong)
    (hm : m ∈ s.w.uq) (hr : s.run as = some s') {r b : Nat} (hn : .recv r b .shutdown ∈ s'.w.log) :
    ∃ r' b', .recv r' b' (.one m) ∈ s'.w.log := by
  rcases Queued.run as h (.inr (.inl ⟨hm, .of_sc h (someStrong_sc h hst)⟩)) hr with h1 | ⟨-, h1⟩ | ⟨-, h1⟩
  · exact h1
  · exact absurd ⟨r, b, hn⟩ h1.told
  · exact absurd ⟨r, b, hn⟩ h1

/-- **C56**, the same for a message whose send is parked: it has been received, or its send future was dropped by its owner. -/
theorem C56_no_notice_before_parked {cap : Option Nat} {s s' : Sys} {as : List Act} {m : Msg} {f : Nat} {md : Mode} (h : Reachable cap s)
    (hcap : cap ≠ some 0) (hst : s.someStrong) (hmd : md ≠ .bcast) (hm : s.w.parkedSend f md m) (hr : s.run as = some s') {r b : Nat}
    (hn : .recv r b .shutdown ∈ s'.w.log) :
    (∃ r' b', .recv r' b' (.one m) ∈ s'.w.log) ∨ s'.w.ownerDropped m.id := by
  obtain ⟨k, wk, h1, h2⟩ := hm
  have h3 := (parked_reg h h1 h2).1 hmd
  rcases InLine.run hcap as h (.inr (.inl ⟨⟨k, wk, h2, h3⟩, .of_sc h (someStrong_sc h hst)⟩)) hr with (h1 | ⟨-, h1⟩ | ⟨-, h1⟩) | ⟨-, h1⟩ | h1
  · exact .inl h1
  · exact absurd ⟨r, b, hn⟩ h1.told
  · exact absurd ⟨r, b, hn⟩ h1
  · exact absurd ⟨r, b, hn⟩ h1.told
  · exact .inr h1

theorem QueuedB.run {cap : Option Nat} {b : Nat} {m : Msg} (as : List Act) :
    ∀ {s s' : Sys}, Reachable cap s → QueuedB b m s → s.run as = some s' → QueuedB b m s' := by
  induction as with
  | nil => intro s s' _ hq hr; simp [Sys.run] at hr; subst hr; exact hq
  | cons a as ih =>
    intro s s' h hq hr
    simp only [Sys.run] at hr
    cases hs : s.step a with
    | none => rw [hs] at hr; simp at hr
    | some s1 => rw [hs] at hr; exact ih (h.step hs) (hq.step h hs) hr

/-- **C56**, the same for broadcasts: if a broadcast is in a mailbox while a strong address exists, no receive future of this mailbox ever
yields the shutdown notice unless the broadcast has been received from it. -/
theorem C56_no_notice_before_broadcast {cap : Option Nat} {s s' : Sys} {as : List Act} {b : Nat} {m : Msg} (h : Reachable cap s)
    (hst : s.someStrong) (hm : m ∈ s.w.items b) (hr : s.run as = some s') {r : Nat} (hn : .recv r b .shutdown ∈ s'.w.log) :
    ∃ r', .recv r' b (.all m) ∈ s'.w.log := by
  rcases QueuedB.run as h (.inr (.inl ⟨hm, .of_sc h (someStrong_sc h hst)⟩)) hr with h1 | ⟨-, h1⟩ | ⟨-, -, h1⟩
  · exact h1
  · exact absurd hn (h1.told r)
  · exact absurd hn (h1 r)

/-! ## The pool -/

/-- Any number of steps of the whole. -/
inductive PSteps (closed : Bool) : PCfg → PCfg → Prop where
  | refl {c : PCfg} : PSteps closed c c
  | step {c c1 c' : PCfg} : PStep closed c c1 → PSteps closed c1 c' → PSteps closed c c'

theorem PSteps.run {cap : Option Nat} {closed : Bool} {c c' : PCfg} (hs : PSteps closed c c') : PRun cap closed c → PRun cap closed c' := by
  induction hs with
  | refl => exact id
  | step h1 _ ih => exact fun h => ih (.step h h1)

theorem TStep.futs_sub {s s' : Sys} {T T' : Task} (h : TStep s T s' T') {r : Nat} (hr : r ∈ T.futs) : r ∈ T'.futs := by
  cases h <;> simp [hr]

/-- A task after a step. -/
theorem PStep.task_evo {closed : Bool} {c c' : PCfg} (h : PStep closed c c') {T : Task} (hT : T ∈ c.ts) :
    ∃ T' ∈ c'.ts, T' = T ∨ TStep c.s T c'.s T' := by
  cases h with
  | other _ _ _ => exact ⟨T, hT, .inl rfl⟩
  | spawn _ _ => exact ⟨T, by simp [hT], .inl rfl⟩
  | nest _ _ _ _ => exact ⟨T, by simp [hT], .inl rfl⟩
  | @task k T0 T1 s' h0 _ ht =>
    obtain ⟨l, hl⟩ := List.getElem?_of_mem hT
    have hlt := (List.getElem?_eq_some_iff.mp h0).1
    by_cases e : l = k
    · subst e
      rw [h0] at hl; simp at hl; subst hl
      exact ⟨T1, List.mem_of_getElem? (i := l) (by simp [hlt]), .inr ht⟩
    · exact ⟨T, List.mem_of_getElem? (i := l) (by simp only; rw [List.getElem?_set_ne (by omega)]; exact hl), .inl rfl⟩

theorem PStep.chan {cap : Option Nat} {closed : Bool} {c c' : PCfg} (hr : PRun cap closed c) (h : PStep closed c c') :
    c'.s = c.s ∨ ∃ a, c.s.step a = some c'.s := by
  cases h with
  | other _ _ hs => exact .inr ⟨_, hs⟩
  | spawn _ _ => exact .inl rfl
  | nest _ _ _ _ => exact .inl rfl
  | @task k T0 T1 s' h0 _ ht =>
    rcases ht.chan ((pInv_run hr).all k T0 h0).1 with e | ⟨a, hs, -⟩
    · exact .inl e
    · exact .inr ⟨a, hs⟩

theorem uncut_back {cap : Option Nat} {closed : Bool} {c c' : PCfg} (hr : PRun cap closed c) (h : PStep closed c c')
    (ha : ∀ T ∈ c'.ts, T.cut = false) : ∀ T ∈ c.ts, T.cut = false := by
  intro T hT
  obtain ⟨l, hl⟩ := List.getElem?_of_mem hT
  cases hc : T.cut with
  | false => rfl
  | true =>
    obtain ⟨T', hT', e | e⟩ := h.task_evo hT
    · subst e; rw [ha T' hT'] at hc; simp at hc
    · have := (e.keepsCut ((pInv_run hr).all l T hl).1 hc).1
      rw [ha T' hT'] at this; simp at this

/-- Whatever was received was received by a task. -/
theorem received_by {cap : Option Nat} {c : PCfg} (h : PRun cap true c) {r b : Nat} {am : AMsg} (he : Ev.recv r b am ∈ c.s.w.log) :
    ∃ T ∈ c.ts, r ∈ T.futs := by
  induction h with
  | new => simp [init] at he
  | @step c c' hrun hst ih =>
    have old : Ev.recv r b am ∈ c.s.w.log → ∃ T ∈ c'.ts, r ∈ T.futs := by
      intro h1
      obtain ⟨T, hT, h2⟩ := ih h1
      obtain ⟨T', hT', rfl | e⟩ := hst.task_evo hT
      · exact ⟨T', hT', h2⟩
      · exact ⟨T', hT', e.futs_sub h2⟩
    rcases hst.chan hrun with e | ⟨a, hs⟩
    · exact old (e ▸ he)
    · rcases step_recvEv hrun.reachable hs he with h1 | ⟨-, h1⟩
      · exact old h1
      · have hr' := PRun.step hrun hst
        obtain ⟨T, hT, h2⟩ := rxOwned hr' r (.inl ⟨_, h1, trivial⟩)
        obtain ⟨l, hl⟩ := List.getElem?_of_mem hT
        exact ⟨T, hT, ((pInv_run hr').all l T hl).2.curMem h2⟩

/-- A receive future belongs to one mailbox. -/
theorem recv_same {cap : Option Nat} {s : Sys} (h : Reachable cap s) {r b b' : Nat} {am am' : AMsg} (h1 : Ev.recv r b am ∈ s.w.log)
    (h2 : Ev.recv r b' am' ∈ s.w.log) : b = b' := by
  have h3 := acc_reachable h r
  have h4 : atL oDone s.w.objs r ≤ 1 := by
    unfold atL; split
    · rename_i o _; cases o <;> simp [oDone]
    · simp
  apply Classical.byContradiction
  intro hne
  obtain ⟨l1, l2, hl⟩ := List.append_of_mem h1
  rw [hl] at h2 h3
  simp only [sumBy_append, sumBy_cons, evAcc, n1] at h3
  simp at h2
  rcases h2 with h2 | ⟨h2, -⟩ | h2
  · have := sum_ne_of_mem (evAcc r) h2; simp [evAcc, n1] at this h3; omega
  · exact hne h2.symm
  · have := sum_ne_of_mem (evAcc r) h2; simp [evAcc, n1] at this h3; omega

/-- Once all has settled, everything received by tasks that were not dropped has been handled, or its handler awaits a `yield_once`. -/
theorem received_handled {cap : Option Nat} {c : PCfg} (h : PRun cap true c) (ha : ∀ T ∈ c.ts, T.aborted = false) (hq : c.settled)
    {r b : Nat} {am : AMsg} (he : Ev.recv r b am ∈ c.s.w.log) :
    (∃ T ∈ c.ts, T.b = b ∧ ∃ v brk, (r, am, brk) ∈ T.hist ∧ c.s.w.dispatched b am v brk) ∨
    ∃ T ∈ c.ts, T.b = b ∧ T.ph = .handling r am ∧ ∃ U ∈ c.ts, U.lvl = .once ∧ U.b = b ∧ U.asleep c.s.w := by
  obtain ⟨T, hT, hf⟩ := received_by h he
  obtain ⟨l, hl⟩ := List.getElem?_of_mem hT
  rcases C48_received_is_handled h hT hf he with h1 | ⟨h1, -⟩ | ⟨v, brk, h1, h2⟩
  · right
    have hp := ((pInv_run h).all l T hl).2.ph
    by_cases hd : T.ph = .done
    · rw [hd] at h1; exact h1.elim
    rcases hq.top h hT hd with ⟨⟨_, e, -⟩, -⟩ | ⟨hu, hy⟩
    · rw [e] at h1; exact h1.elim
    · generalize hph : T.ph = ph at h1 hu hp
      cases ph <;> simp [APh.busyWith] at h1 <;> simp [APh.inUser] at hu
      obtain ⟨rfl, rfl⟩ := h1
      have e := recv_same h.reachable hp.2.1 he
      refine ⟨T, hT, e, hph, ?_⟩
      obtain ⟨U, hU, a1, a2, a3⟩ := hy
      exact ⟨U, hU, a1, a2.trans e, a3⟩
  · have := ha T hT; simp [h1] at this
  · have := recv_same h.reachable (((pInv_run h).all l T hl).2.hist _ _ _ h1).2.1 he
    exact .inl ⟨T, hT, this, v, brk, h1, this ▸ h2⟩

/-- Message `m` has been handed to a receive future, or was received. -/
def HandedOver (m : Msg) (s : Sys) : Prop :=
  (∃ r b, Ev.recv r b (.one m) ∈ s.w.log) ∨ ∃ (c : Nat) (wk : Option Nat), s.w.cells[c]? = some (.full (.newMessage m) wk)

theorem HandedOver.step {cap : Option Nat} {s s' : Sys} {a : Act} {m : Msg} (h : Reachable cap s) (hk : Kept s) (hq : HandedOver m s)
    (hs : s.step a = some s') : HandedOver m s' := by
  rcases hq with ⟨r, b, h1⟩ | ⟨c, wk, h1⟩
  · exact .inl ⟨r, b, (step_suffix h hs).subset h1⟩
  · rcases step_rel hs with ⟨cl, w', ms, rfl, hc, rfl⟩ | ⟨t, mc, rest, w', ms, rfl, ht, he, rfl⟩
    · exact .inr ⟨c, wk, by rw [show (Sys.mk w' (s.th ++ [ms])).w.cells = s.w.cells from callR_cells hc]; exact h1⟩
    · have hw := hk.th _ (List.mem_of_getElem? ht) mc (by simp)
      rcases execR_full he (wf_reachable h ht) (regWs_reachable h) h1 with h2 | ⟨r, b, wk', -, h2⟩ | ⟨b, rfl, -⟩ | rfl
      · exact .inr ⟨c, wk, h2⟩
      · exact .inl ⟨r, b, by rw [show (Sys.mk w' (s.th.set t (ms ++ rest))).w.log = _ from h2]; simp⟩
      · simp [Micro.wastes] at hw
      · simp [Micro.wastes] at hw

theorem handedOver_steps {cap : Option Nat} {c c' : PCfg} {m : Msg} (hs : PSteps true c c') (ha : ∀ T ∈ c'.ts, T.cut = false) :
    PRun cap true c → (∀ T ∈ c.ts, T.cut = false) ∧ (HandedOver m c.s → HandedOver m c'.s) := by
  induction hs with
  | refl => exact fun _ => ⟨ha, id⟩
  | @step c c1 c' h1 _ ih =>
    intro h
    obtain ⟨i1, i2⟩ := ih ha (.step h h1)
    have hu := uncut_back h h1 i1
    refine ⟨hu, fun hq => i2 ?_⟩
    rcases h1.chan h with e | ⟨a, hs⟩
    · rw [e]; exact hq
    · exact hq.step h.reachable (kept_run h hu) hs

theorem inLine_steps {cap : Option Nat} (hc : cap ≠ some 0) {closed : Bool} {c c' : PCfg} {m : Msg} (hs : PSteps closed c c') :
    PRun cap closed c → InLine m c.s → InLine m c'.s := by
  induction hs with
  | refl => exact fun _ => id
  | @step c c1 c' h1 _ ih =>
    intro h hq
    refine ih (.step h h1) ?_
    rcases h1.chan h with e | ⟨a, hs⟩
    · rw [e]; exact hq
    · exact hq.step h.reachable hc hs

/-- **C56.** Graceful shutdown loses nothing. Let a request be queued, parked, or handed to an actor at a moment when a strong address
exists. Whatever happens then (all addresses may be dropped at once): when everything has come to rest, and some actor ended because it
was told that the addresses are gone, or some actor still sleeps, the request has been handled and its value sent to the requester,
unless its send future was dropped by its owner, or its handler waits for another message in `yield_once`. (Messages are received by tasks
only, no task was dropped, and no `select` gave up a receive future; other actors may have stopped themselves.) -/
theorem C56_all_handled {cap : Option Nat} {c c' : PCfg} (h : PRun cap true c) (hcap : cap ≠ some 0) (hst : c.s.someStrong) {m : Msg}
    (hm : c.s.available m ∨ ∃ f md, md ≠ .bcast ∧ c.s.w.parkedSend f md m) (hs : PSteps true c c') (hq : c'.settled)
    (ha : ∀ T ∈ c'.ts, T.cut = false)
    (hz : (∃ T ∈ c'.ts, ∃ r brk, (r, .shutdown, brk) ∈ T.hist) ∨ ∃ T ∈ c'.ts, T.asleep c'.s.w) :
    (∃ v wk, .handled m.id v ∈ c'.s.w.log ∧ c'.s.w.resp[m.id]? = some (.value v wk)) ∨ c'.s.w.ownerDropped m.id ∨ c'.yields m.id := by
  have hr' := hs.run h
  have quiet : Quiet cap c'.s.w := ⟨c'.s.th, hr'.reachable, hq.1⟩
  obtain ⟨hac, hho⟩ := handedOver_steps (m := m) hs ha h
  have hk := kept_run h hac
  have hz' : c'.s.w.told ∨ (c'.s.w.uq = [] ∧ c'.s.w.rcv ≠ 0) := by
    rcases hz with ⟨T, hT, r, brk, h1⟩ | ⟨T, hT, r, -, cc, x, h2, h3⟩
    · obtain ⟨l, hl⟩ := List.getElem?_of_mem hT
      exact .inl ⟨r, T.b, (((pInv_run hr').all l T hl).2.hist _ _ _ h1).2.1⟩
    · refine .inr ⟨(quiet.waiting h2 h3).2.1, ?_⟩
      rw [(C14_counts_exact_quiet quiet).2]
      have : 0 < c'.s.w.mailboxRefs := List.countP_pos_iff.mpr ⟨_, List.mem_of_getElem? h2, rfl⟩
      omega
  have fin : (∃ r b, Ev.recv r b (.one m) ∈ c'.s.w.log) →
      (∃ v wk, .handled m.id v ∈ c'.s.w.log ∧ c'.s.w.resp[m.id]? = some (.value v wk)) ∨ c'.s.w.ownerDropped m.id ∨ c'.yields m.id := by
    rintro ⟨r, b, h1⟩
    rcases received_handled hr' (fun T hT => by have := ha T hT; simp [Task.cut] at this; exact this.1) hq h1 with
      ⟨T, hT, -, v, brk, -, -, h2⟩ | ⟨T, hT, rfl, hp, hy⟩
    rotate_left
    · exact .inr (.inr ⟨T, hT, ⟨r, m, hp, rfl⟩, hy⟩)
    have hv := h2 m rfl
    have k := kInv_reachable hr'.reachable
    have h3 := k.evs _ h1
    obtain ⟨⟨f, hf⟩, -⟩ : uniMsg c'.s.w.log m := h3
    rcases resp_cases hr'.reachable hf with ⟨wk', a1, a2, a3⟩ | ⟨v, wk', a1, a2⟩ | ⟨wk', a1, a2⟩
    · exact absurd hv (a3 _)
    · exact .inl ⟨v, wk', a2, a1⟩
    · exact absurd a2 (fin_excl hr'.reachable hv).1
  have line : InLine m c.s → (∃ r b, Ev.recv r b (.one m) ∈ c'.s.w.log) ∨ c'.s.w.ownerDropped m.id := by
    intro hl
    rcases inLine_steps hcap hs h hl with (h1 | ⟨h1, h2⟩ | ⟨h1, h2⟩) | ⟨h1, h2⟩ | h1
    · exact .inl h1
    · rcases hz' with h3 | ⟨h3, -⟩
      · exact absurd h3 h2.told
      · rw [h3] at h1; simp at h1
    · rcases hz' with h3 | ⟨-, h3⟩
      · exact absurd h3 h2
      · exact absurd h1 h3
    · rcases hz' with h3 | ⟨h3, -⟩
      · exact absurd h3 h2.told
      · exact absurd h3 (parkedUni_ne hr'.reachable hcap h1)
    · exact .inr h1
  have hu := Untold.of_sc h.reachable (someStrong_sc h.reachable hst)
  rcases hm with (h1 | ⟨cc, wk, h1, -⟩ | ⟨x, hx, h1⟩) | ⟨f, md, hmd, k, wk, h1, h2⟩
  · exact (line (.inl (.inr (.inl ⟨h1, hu⟩)))).elim fin (fun h => .inr (.inl h))
  · rcases hho (.inr ⟨cc, wk, h1⟩) with h2 | ⟨cc', wk', h2⟩
    · exact fin h2
    · exfalso
      obtain ⟨r, b, hb⟩ := quiet.owner (c := cc') (by simp [cellLive, h2])
      obtain ⟨T, hT, h3⟩ := rxOwned hr' r (.inl ⟨_, hb, trivial⟩)
      rcases (hq.calm hr').2 T hT with hd | ⟨r', hp, c2, x, h4, h5⟩ | hiu
      rotate_right
      · obtain ⟨l, hl⟩ := List.getElem?_of_mem hT
        have hp := ((pInv_run hr').all l T hl).2.ph
        generalize T.ph = ph at h3 hiu hp
        cases ph <;> simp [APh.inUser] at hiu <;> simp [APh.cur] at h3
        subst h3
        obtain ⟨⟨x, hx⟩, -⟩ := hp
        rw [hb] at hx; simp at hx
      · rw [hd] at h3; simp [APh.cur] at h3
      · rw [hp] at h3; simp [APh.cur] at h3; subst h3
        rw [hb] at h4; simp at h4; obtain ⟨-, rfl⟩ := h4
        rw [h2] at h5; simp at h5
  · have := hk.th x hx _ h1; simp [Micro.wastes] at this
  · exact (line (.inr (.inl ⟨⟨k, wk, h2, (parked_reg h.reachable h1 h2).1 hmd⟩, hu⟩))).elim fin (fun h => .inr (.inl h))

theorem queuedB_steps {cap : Option Nat} {closed : Bool} {c c' : PCfg} {b : Nat} {m : Msg} (hs : PSteps closed c c') :
    PRun cap closed c → QueuedB b m c.s → QueuedB b m c'.s := by
  induction hs with
  | refl => exact fun _ => id
  | @step c c1 c' h1 _ ih =>
    intro h hq
    refine ih (.step h h1) ?_
    rcases h1.chan h with e | ⟨a, hs⟩
    · rw [e]; exact hq
    · exact hq.step h.reachable hs

/-- **C56.** … nor are broadcasts lost. Let a broadcast be in a mailbox at a moment when a strong address exists. When everything has come
to rest, and the actor of that mailbox ended because it was told that the addresses are gone, or still sleeps, it has handled the
broadcast (or another task receiving from the same mailbox has), unless its handler waits for another message in `yield_once`. No task
was dropped. -/
theorem C56_broadcasts_handled {cap : Option Nat} {c c' : PCfg} (h : PRun cap true c) (hst : c.s.someStrong) {b : Nat} {m : Msg}
    (hm : m ∈ c.s.w.items b) (hs : PSteps true c c') (hq : c'.settled) (ha : ∀ T ∈ c'.ts, T.aborted = false)
    (hz : ∃ T ∈ c'.ts, T.b = b ∧ ((∃ r brk, (r, .shutdown, brk) ∈ T.hist) ∨ T.asleep c'.s.w)) :
    (∃ T ∈ c'.ts, T.b = b ∧ ∃ r v brk, (r, .all m, brk) ∈ T.hist ∧ c'.s.w.dispatched b (.all m) v brk) ∨
    ∃ T ∈ c'.ts, T.b = b ∧ (∃ r, T.ph = .handling r (.all m)) ∧ ∃ U ∈ c'.ts, U.lvl = .once ∧ U.b = b ∧ U.asleep c'.s.w := by
  have hr' := hs.run h
  have quiet : Quiet cap c'.s.w := ⟨c'.s.th, hr'.reachable, hq.1⟩
  have fin : (∃ r, Ev.recv r b (.all m) ∈ c'.s.w.log) →
      (∃ T ∈ c'.ts, T.b = b ∧ ∃ r v brk, (r, .all m, brk) ∈ T.hist ∧ c'.s.w.dispatched b (.all m) v brk) ∨
      ∃ T ∈ c'.ts, T.b = b ∧ (∃ r, T.ph = .handling r (.all m)) ∧ ∃ U ∈ c'.ts, U.lvl = .once ∧ U.b = b ∧ U.asleep c'.s.w := by
    rintro ⟨r, h1⟩
    rcases received_handled hr' ha hq h1 with ⟨T, hT, e, v, brk, h2, h3⟩ | ⟨T, hT, e, h2, h3⟩
    · exact .inl ⟨T, hT, e, r, v, brk, h2, h3⟩
    · exact .inr ⟨T, hT, e, ⟨r, h2⟩, h3⟩
  obtain ⟨T, hT, rfl, hz⟩ := hz
  have hz' : (∃ r, Ev.recv r T.b .shutdown ∈ c'.s.w.log) ∨ (c'.s.w.items T.b = [] ∧ c'.s.w.alive T.b = true) := by
    rcases hz with ⟨r, brk, h1⟩ | ⟨r, -, cc, x, h2, h3⟩
    · obtain ⟨l, hl⟩ := List.getElem?_of_mem hT
      exact .inl ⟨r, (((pInv_run hr').all l T hl).2.hist _ _ _ h1).2.1⟩
    · refine .inr ⟨(quiet.waiting h2 h3).2.2.1, mailboxLive_alive hr'.reachable ⟨_, List.mem_of_getElem? h2, ?_⟩⟩
      simp [Obj.holdsMailbox]
  rcases queuedB_steps hs h (.inr (.inl ⟨hm, .of_sc h.reachable (someStrong_sc h.reachable hst)⟩)) with h1 | ⟨h1, h2⟩ | ⟨-, h1, h2⟩
  · exact fin h1
  · rcases hz' with ⟨r, h3⟩ | ⟨h3, -⟩
    · exact absurd h3 (h2.told r)
    · rw [h3] at h1; simp at h1
  · rcases hz' with ⟨r, h3⟩ | ⟨-, h3⟩
    · exact absurd h3 (h2 r)
    · rw [h1] at h3; simp at h3

theorem PSteps.append {closed : Bool} {c c1 c2 : PCfg} (h1 : PSteps closed c c1) (h2 : PSteps closed c1 c2) : PSteps closed c c2 := by
  induction h1 with
  | refl => exact h2
  | step h _ ih => exact .step h (ih h2)

theorem AutosC.psteps {A : Nat → Prop} {closed : Bool} {c c' : PCfg} (h : AutosC A c c') : PSteps closed c c' := by
  induction h with
  | refl => exact .refl
  | step h _ _ ih => exact .step h.pstep ih

/-- **C56.** … and everybody who awaits the answer gets it. As `C56_all_handled`, for a requester (send future or detached `Receiver`)
that still waits some time after the request was queued: once nothing more can happen without a new API call, its future has resolved to
`Ok(v)`, `v` being what the handler returned, never to `Disconnected` or `Interrupted`, although all addresses may be gone; unless the handler
waits for another message in `yield_once`. -/
theorem C56_answered {A : Nat → Prop} {cap : Option Nat} {c c1 c' : PCfg} (h : PRun cap true c) (hcap : cap ≠ some 0) (hst : c.s.someStrong)
    {m : Msg} (hm : c.s.available m ∨ ∃ f md, md ≠ .bcast ∧ c.s.w.parkedSend f md m) (hs1 : PSteps true c c1)
    {f : Nat} (hf : A f) (hu : c1.s.unresolved f m.id false) (hs : AutosC A c1 c') (he : ¬ ∃ c2, AutoC A c' c2 ∧ NoDrop c' c2)
    (ha : ∀ T ∈ c'.ts, T.cut = false)
    (hz : (∃ T ∈ c'.ts, ∃ r brk, (r, .shutdown, brk) ∈ T.hist) ∨ ∃ T ∈ c'.ts, T.asleep c'.s.w) :
    (∃ v, .replyOk f m.id v ∈ c'.s.w.log ∧ .handled m.id v ∈ c'.s.w.log) ∨ c'.yields m.id := by
  have hr1 := hs1.run h
  have hr := (hs.run hr1).1
  have hq : c'.atRestC A := Classical.byContradiction fun hn => he (C51_progress hr hn)
  have k := kInv_reachable hr.reachable
  obtain ⟨bc, made⟩ : ∃ bc, Ev.made f m.id bc ∈ c'.s.w.log := by
    rcases hs.unresolved hr1 (.inl hu) with hu' | hre
    · rcases unresolved_rest hq.1.1 hu' with ⟨md, st, hb, ho⟩ | ⟨-, ho⟩
      · have := (k.kw.objs _ _ ho).1
        exact ⟨_, this⟩
      · exact ⟨_, k.kw.objs _ _ ho⟩
    · rcases hre with hre | ⟨hre, -⟩ | ⟨-, ⟨v, hre⟩ | hre⟩
      · exact k.evs _ hre
      · simp at hre
      · exact ⟨_, k.evs _ hre⟩
      · exact ⟨_, k.evs _ hre⟩
  have fate := C56_all_handled h hcap hst hm (hs1.append hs.psteps) hq.1 ha hz
  have hdz := hq.2 f hf
  have exc : c'.s.w.ownerDropped m.id → False := by
    rintro ⟨-, g, h1, h2, h3⟩
    have : g = f := (k.uniq _ _ _ _ _ _ h1 made).1.mpr rfl
    subst this
    rcases hs.unresolved hr1 (.inl hu) with hu' | hre
    · rcases unresolved_rest hq.1.1 hu' with ⟨md, st, -, ho⟩ | ⟨-, ho⟩ <;> rw [h2] at ho <;> simp at ho
    · rcases hre with hre | ⟨hre, -⟩ | ⟨-, ⟨v, hre⟩ | hre⟩
      · have := h3 _ hre; simp [Ev.resolves] at this
      · simp at hre
      · have := h3 _ hre; simp [Ev.resolves] at this
      · have := h3 _ hre; simp [Ev.resolves] at this
  rcases fate with ⟨v, wk, hv, hrp⟩ | hx | hx
  rotate_left
  · exact (exc hx).elim
  · exact .inr hx
  left
  rcases hs.unresolved hr1 (.inl hu) with hu' | hre
  · exfalso
    have nowait : ∀ wk', c'.s.w.resp[m.id]? ≠ some (.waiting (some wk')) := by
      intro wk' e; rw [hrp] at e; simp at e
    have hnd := (fin_excl hr.reachable hv).1
    rcases unresolved_rest hq.1.1 hu' with ⟨md, st, hb, ho⟩ | ⟨-, ho⟩
    · cases st with
      | new m rc => simp [World.dozes, ho] at hdz
      | waiting l =>
        simp only [World.dozes, ho] at hdz
        obtain ⟨wk', m', hw⟩ := hdz
        have hid := (wsId_reachable hr.reachable).obj ho hw
        have h1 := held_reachable hr.reachable m.id
        have h2 := created_le m.id c'.s.w
        simp only [World.held] at h1
        have h3 := le_sumBy (wsW m.id) hw
        have h4 := sum_ne_of_mem (eAll m.id) hv
        simp [wsW, mid1, eAll, n1, hid] at h3 h4
        omega
      | done =>
        cases md with
        | ret =>
          simp only [World.dozes, ho] at hdz
          obtain ⟨wk', hw⟩ := hdz
          exact nowait _ hw
        | detached => simp [World.dozes, ho] at hdz
        | bcast => simp at hb
    · simp only [World.dozes, ho] at hdz
      obtain ⟨wk', hw⟩ := hdz
      exact nowait _ hw
  · rcases hre with hre | ⟨hre, -⟩ | ⟨-, ⟨v', hre⟩ | hre⟩
    · exact absurd (.inl (C10_err_never_handled hr.reachable hre).1) (fin_excl hr.reachable hv).1
    · simp at hre
    · exact ⟨v', hre, ((C18_replies hr.reachable).1 f _ v' hre).2.1⟩
    · exact absurd hv (((C18_replies hr.reachable).2.1 f _ hre).2.2 v)

/-- **C56.** Everybody goes home: when everything has come to rest and no strong address is left, every `run`, `select` and `yield_once` has
returned; and if no other mailboxes were kept, none is left, so that nobody who awaits anything is left hanging (`C52_after_the_end`). -/
theorem C56_all_return {cap : Option Nat} {c : PCfg} (h : PRun cap true c) (hq : c.settled) (h0 : c.s.w.strongRefs = 0) :
    (∀ T ∈ c.ts, T.ph = .done) ∧
    ((∀ (i b : Nat), c.s.w.objs[i]? = some (.mailbox b) → ∃ T ∈ c.ts, T.i = i ∧ T.lvl = .run) → c.s.w.mailboxRefs = 0) := by
  have quiet : Quiet cap c.s.w := ⟨c.s.th, h.reachable, hq.1⟩
  have hd : ∀ T ∈ c.ts, T.ph = .done := by
    intro T hT
    apply Classical.byContradiction
    intro hd
    obtain ⟨U, -, -, r, -, hi⟩ := hq.sleeper h hT hd
    exact absurd ⟨r, U.b, hi⟩ (C12_no_idle_left quiet h0)
  refine ⟨hd, fun hb => ?_⟩
  apply Classical.byContradiction
  intro hne
  obtain ⟨o, ho, hx⟩ := List.countP_pos_iff.mp (Nat.pos_of_ne_zero hne)
  obtain ⟨i, hi⟩ := List.getElem?_of_mem ho
  have rx : o.rx → False := by
    intro hrx
    obtain ⟨T, hT, hc⟩ := rxOwned h i (.inl ⟨o, hi, hrx⟩)
    rw [hd T hT] at hc; simp [APh.cur] at hc
  cases o <;> simp [Obj.isMailboxRef] at hx
  · rename_i b
    obtain ⟨T, hT, rfl, hl⟩ := hb _ _ hi
    have := (C48_leaves_nothing h hT (hd T hT)).1 hl
    rw [hi] at this; simp at this
  all_goals exact rx trivial

/-- **C56.** End to end: as `C56_all_handled`, when at the end no strong address is left and an actor of the pool started and never wanted
to stop (the only `Break` in its history, if any, is the notice that the addresses are gone). Then every task has returned, that actor was
told, and the request was handled. -/
theorem C56_graceful {cap : Option Nat} {c c' : PCfg} (h : PRun cap true c) (hcap : cap ≠ some 0) (hst : c.s.someStrong) {m : Msg}
    (hm : c.s.available m ∨ ∃ f md, md ≠ .bcast ∧ c.s.w.parkedSend f md m) (hs : PSteps true c c') (hq : c'.settled)
    (ha : ∀ T ∈ c'.ts, T.cut = false) (h0 : c'.s.w.strongRefs = 0) {T : Task} (hT : T ∈ c'.ts) (hl : T.lvl = .run) (hf : T.futs ≠ [])
    (hb : ∀ r am, (r, am, true) ∈ T.hist → am = .shutdown) :
    (∀ U ∈ c'.ts, U.ph = .done) ∧ (∃ r, (r, .shutdown, true) ∈ T.hist) ∧
    ((∃ v wk, .handled m.id v ∈ c'.s.w.log ∧ c'.s.w.resp[m.id]? = some (.value v wk)) ∨ c'.s.w.ownerDropped m.id) := by
  have hr' := hs.run h
  have hd := (C56_all_return hr' hq h0).1
  have hab : T.aborted = false := by have := ha T hT; simp [Task.cut] at this; exact this.1
  have ht : ∃ r, (r, .shutdown, true) ∈ T.hist := by
    rcases (C48_returns_only_on_break hr' hT hl (hd T hT) hab).1 with ⟨e, -⟩ | ⟨r, am, l, e, -, -⟩
    · exact absurd e hf
    · have := hb r am (by rw [e]; simp)
      subst this
      exact ⟨r, by rw [e]; simp⟩
  obtain ⟨r, hr⟩ := ht
  refine ⟨hd, ⟨r, hr⟩, ?_⟩
  rcases C56_all_handled h hcap hst hm hs hq ha (.inl ⟨T, hT, r, true, hr⟩) with h1 | h1 | ⟨U, hU, ⟨_, _, h1, -⟩, -⟩
  · exact .inl h1
  · exact .inr h1
  · rw [hd U hU] at h1; simp at h1

/-! ## Concrete executions -/

/-- Capacity 1: a request is queued, a second one parked, a broadcast put into the mailbox. -/
def graceStart : List Act :=
  [.call (.send 0), .call (.pollSend 2 1), .exec 1, .exec 1, .exec 1, .exec 1, .exec 1,
   .call (.send 0), .call (.pollSend 3 1), .exec 3, .exec 3, .exec 3, .exec 3, .exec 3,
   .call (.broadcast 0), .call (.pollSend 4 1), .exec 5, .exec 5, .exec 5, .exec 5, .exec 5]
/-- Then the only address is dropped; four receives. -/
def graceSteps : List Act :=
  [.call (.dropAddr 0), .exec 6, .exec 6, .call (.next 1), .call (.pollRecv 5 2), .exec 8, .call (.next 1), .call (.pollRecv 6 2), .exec 10,
   .call (.next 1), .call (.pollRecv 7 2), .exec 12, .call (.next 1), .call (.pollRecv 8 2), .exec 14]

/-- The last receive yields the notice; the hypotheses of `C56_no_notice_before_queued`, `…_parked` and `…_broadcast` are met.
Meets the hypotheses of `C56_no_notice_before_parked`, `C56_no_notice_before_broadcast`. -/
example : ∃ s s', Reachable (some 1) s ∧ s.someStrong ∧ ⟨0, .valued 0⟩ ∈ s.w.uq ∧ s.w.parkedSend 3 .ret ⟨1, .valued 0⟩ ∧
    ⟨2, .valued 0⟩ ∈ s.w.items 0 ∧ s.run graceSteps = some s' ∧ .recv 8 0 .shutdown ∈ s'.w.log := by
  refine ⟨_, _, Reachable.run .init (as := graceStart) rfl, ?_, by decide, ⟨0, _, rfl, rfl⟩, by decide, rfl, by decide⟩
  unfold Sys.someStrong; decide

theorem noBox (w : World) (h : w.objs.all (fun o => match o with | .mailbox _ => false | _ => true) = true) :
    ∀ (i b : Nat), w.objs[i]? ≠ some (.mailbox b) := by
  intro i b hi
  have := List.all_eq_true.mp h _ (List.mem_of_getElem? hi)
  simp at this

theorem psteps_of_run (as : List PAct) : ∀ {c c' : PCfg}, c.run as = some c' → PSteps true c c' := by
  induction as with
  | nil => intro c c' h; simp [PCfg.run] at h; subst h; exact .refl
  | cons a as ih =>
    intro c c' h
    simp only [PCfg.run] at h
    split at h
    · rename_i h1; exact .step (PCfg.step_sound h1) (ih h)
    · simp at h

/-- An actor is starting; a request is queued, a broadcast put into its mailbox. -/
def farewellStart : List PAct :=
  [.spawn 1, .other (.call (.send 0)), .other (.call (.pollSend 2 6)), .other (.exec 1), .other (.exec 1), .other (.exec 1), .other (.exec 1),
   .other (.exec 1), .other (.call (.broadcast 0)), .other (.call (.pollSend 3 6)), .other (.exec 3), .other (.exec 3), .other (.exec 3),
   .other (.exec 3), .other (.exec 3)]
/-- The only address is dropped. -/
def farewellDrop : List PAct := [.other (.call (.dropAddr 0)), .other (.exec 4), .other (.exec 4)]
/-- The actor starts, handles both, is told, and `run` returns; the requester gets its answer. -/
def farewellSteps : List PAct :=
  [.task 0 .started, .task 0 .next, .task 0 (.poll 5), .other (.exec 6), .task 0 .ready, .task 0 .dispatch, .task 0 (.finish 7),
   .other (.exec 8), .other (.exec 8), .other (.exec 8), .task 0 .loop, .task 0 .next, .task 0 (.poll 5), .other (.exec 10), .task 0 .ready,
   .task 0 .dispatch, .task 0 (.finish 7), .other (.exec 12), .other (.exec 12), .other (.exec 12), .task 0 .loop, .task 0 .next,
   .task 0 (.poll 5), .other (.exec 14), .task 0 .ready, .task 0 .notice, .other (.exec 15), .other (.exec 15), .task 0 .break,
   .task 0 .stopped, .other (.exec 16), .other (.exec 16), .other (.exec 16), .task 0 .left, .other (.call (.pollSend 2 6)),
   .other (.exec 17)]

/-- The hypotheses of `C56_all_handled`, `C56_answered`, `C56_broadcasts_handled`, `C56_all_return` and `C56_graceful` are met. -/
example : ∃ c c1 c', PRun none true c ∧ c.s.someStrong ∧ c.s.available ⟨0, .valued 0⟩ ∧ ⟨1, .valued 0⟩ ∈ c.s.w.items 0 ∧ PSteps true c c1 ∧
    c1.s.unresolved 2 0 false ∧ AutosC (· ∈ [2]) c1 c' ∧ (¬ ∃ c2, AutoC (· ∈ [2]) c' c2 ∧ NoDrop c' c2) ∧ c'.settled ∧
    (∀ T ∈ c'.ts, T.cut = false) ∧ c'.s.w.strongRefs = 0 ∧
    (∃ T ∈ c'.ts, T.lvl = .run ∧ T.b = 0 ∧ T.futs ≠ [] ∧ (6, .shutdown, true) ∈ T.hist ∧ ∀ r am, (r, am, true) ∈ T.hist → am = .shutdown) ∧
    (∀ (i b : Nat), c'.s.w.objs[i]? = some (.mailbox b) → ∃ T ∈ c'.ts, T.i = i ∧ T.lvl = .run) := by
  have rest : PRun none true _ := PRun.run .new (as := farewellStart ++ farewellDrop ++ farewellSteps) rfl
  refine ⟨_, _, _, PRun.run .new (as := farewellStart) rfl, ?_, .inl (by decide), by decide, psteps_of_run farewellDrop rfl,
    .inl ⟨.ret, _, rfl, rfl⟩, autosC_sound [2] farewellSteps rfl, C51_rest_is_final rest (atRest_of (by decide) rfl (by decide)),
    (atRest_of (f := 2) (by decide) rfl (by decide)).1, by decide, by decide,
    ⟨_, List.mem_cons_self .., by decide, by decide, by decide, by decide, ?_⟩, ?_⟩
  · unfold Sys.someStrong; decide
  · intro r am hm
    simp at hm
    exact hm.2
  · intro i b hi
    exact absurd hi (noBox _ (by decide) i b)

end Xtra
