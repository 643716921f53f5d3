import Verif.Net
/-! # C54: a network of actors that await each other without a cycle never deadlocks -/

set_option linter.unusedSimpArgs false

namespace Xtra

/-! ## Proofs -/

@[simp] theorem setCh_self {N : Net} {p : Nat} {c : PCfg} : (N.setCh p c).ch p = c := by simp [Net.setCh]
@[simp] theorem setCh_ne {N : Net} {p q : Nat} {c : PCfg} (h : q ≠ p) : (N.setCh p c).ch q = N.ch q := by simp [Net.setCh, h]
@[simp] theorem setCh_h {N : Net} {p : Nat} {c : PCfg} : (N.setCh p c).h = N.h := rfl
@[simp] theorem setHs_ch {N : Net} {p : Nat} {h : Nat → HSt} : (N.setHs p h).ch = N.ch := rfl
@[simp] theorem setHs_self {N : Net} {p : Nat} {h : Nat → HSt} : (N.setHs p h).h p = h := by simp [Net.setHs]
@[simp] theorem setHs_ne {N : Net} {p q : Nat} {h : Nat → HSt} (hq : q ≠ p) : (N.setHs p h).h q = N.h q := by simp [Net.setHs, hq]
@[simp] theorem setH_ch {N : Net} {p k : Nat} {x : HSt} : (N.setH p k x).ch = N.ch := rfl

theorem setH_at {N : Net} {p k : Nat} {x : HSt} (q j : Nat) :
    (N.setH p k x).h q j = if q = p ∧ j = k then x else N.h q j := by
  by_cases hq : q = p
  · subst hq; simp [Net.setH]
  · simp [Net.setH, hq]

theorem Gate.wait_mem {c c' : PCfg} {h h' : Nat → HSt} (g : Gate c c' h h') {k : Nat} {x : Await} (hx : x ∈ (h' k).wait) :
    x ∈ (h k).wait := by
  by_cases hb : c'.busy k
  · by_cases hb0 : c.busy k
    · rw [g.keeps k hb0 hb] at hx; exact hx
    · rw [g.calls k hb hb0] at hx; simp at hx
  · rw [g.ends k hb] at hx; simp [HSt.idle] at hx

/-- What holds in every reachable network. -/
structure NInv (ok : Allowed) (caps : Nat → Option Nat) (N : Net) : Prop where
  run : ∀ p, PRun (caps p) true (N.ch p)
  idle : ∀ p k, ¬ (N.ch p).busy k → N.h p k = .idle
  wait : ∀ q k x, x ∈ (N.h q k).wait → ok q x.p x.want x.joined ∧
    ((N.ch x.p).s.unresolved x.f x.i x.want.bc ∨ (N.ch x.p).s.w.resolved x.f x.i x.want.bc)

theorem pstep_unresolved {cap : Option Nat} {c c' : PCfg} (hr : PRun cap true c) {f i : Nat} {bc : Bool}
    (hs : (∃ a s', c' = { c with s := s' } ∧ c.s.step a = some s' ∧ ∀ cl, a = .call cl → cl.polite f = true) ∨
      (∃ k T T' s', c.ts[k]? = some T ∧ TStep c.s T s' T' ∧ c' = ⟨s', c.ts.set k T'⟩))
    (hu : c.s.unresolved f i bc ∨ c.s.w.resolved f i bc) : c'.s.unresolved f i bc ∨ c'.s.w.resolved f i bc := by
  rcases hs with ⟨a, s', rfl, hs, hp⟩ | ⟨k, T, T', s', hk, ht, rfl⟩
  · rcases hu with hu | hu
    · exact step_unresolved hr.reachable hs hp hu
    · exact .inr (resolved_mono (step_suffix hr.reachable hs) hu)
  · rcases hu with hu | hu
    · exact tstep_unresolved hr.reachable ht hu
    · exact .inr (resolved_mono (tstep_suffix hr.reachable ht) hu)

/-- `priority` on a future that was not polled. -/
theorem setPrio_unresolved {s s' : Sys} {g n mid : Nat} {md : Mode} {m : Msg} {rc : Rc} (ho : s.w.objs[g]? = some (.send md mid (.new m rc)))
    (hs : s.step (.call (.setPrio g n)) = some s') :
    s'.w.objs[g]? = some (.send md mid (.new { m with prio := .valued n } rc)) ∧ ∀ f i bc, s.unresolved f i bc → s'.unresolved f i bc := by
  have hl := (List.getElem?_eq_some_iff.mp ho).1
  rcases step_rel hs with ⟨c, w', ms, e, hc, rfl⟩ | ⟨t, m, rest, w', ms, e, ht, he, rfl⟩
  · cases e
    cases hc
    case setPrio hx =>
      rw [ho] at hx; simp at hx
      obtain ⟨rfl, rfl, rfl, rfl⟩ := hx
      refine ⟨by simp [World.ev, World.setObj, hl], fun f i bc hu => ?_⟩
      rcases hu with ⟨md', st, h1, h2⟩ | ⟨x, hx, h2⟩ | ⟨h1, h2⟩
      · by_cases e : f = g
        · subst e
          rw [ho] at h2; simp at h2
          obtain ⟨rfl, rfl, rfl⟩ := h2
          exact .inl ⟨_, .new { m with prio := .valued n } rc, h1, by simp [World.ev, World.setObj, hl]⟩
        · exact .inl ⟨md', st, h1, by simp [World.ev, World.setObj, List.getElem?_set_ne (Ne.symm e), h2]⟩
      · exact .inr (.inl ⟨x, by simp [hx], h2⟩)
      · by_cases e : f = g
        · subst e; rw [ho] at h2; simp at h2
        · exact .inr (.inr ⟨h1, by simp [World.ev, World.setObj, List.getElem?_set_ne (Ne.symm e), h2]⟩)
    case setPrio_waiting hx => rw [ho] at hx; simp at hx
    case setPrio_done hx => rw [ho] at hx; simp at hx
  · cases e

/-- What `Asked` does: the future is there, and everything else that is awaited is still awaited. -/
structure AskedOk (cap : Option Nat) (c : PCfg) (want : Want) (s' : Sys) : Prop where
  run : PRun cap true { c with s := s' }
  made : ∃ md m rc, (md == Mode.bcast) = want.bc ∧ (want = .answer → md = .ret) ∧
    s'.w.objs[c.s.w.objs.length]? = some (.send md c.s.w.resp.length (.new m rc))
  keeps : ∀ f i bc, c.s.unresolved f i bc ∨ c.s.w.resolved f i bc → s'.unresolved f i bc ∨ s'.w.resolved f i bc
  res : ∀ f i bc, c.s.w.resolved f i bc → s'.w.resolved f i bc
  ok : c.s.w.log <:+ s'.w.log

theorem asked_ok {cap : Option Nat} {c : PCfg} (hr : PRun cap true c) {want : Want} {s' : Sys} (h : Asked c.s want s') :
    AskedOk cap c want s' := by
  induction h with
  | send hs =>
    refine ⟨.step hr (.other (fun _ _ => rfl) (fun _ _ => by simp) hs), ?_,
      fun f i bc => pstep_unresolved hr (.inl ⟨_, _, rfl, hs, by intro cl e; cases e; rfl⟩),
      fun f i bc => resolved_mono (step_suffix hr.reachable hs), step_suffix hr.reachable hs⟩
    rcases step_rel hs with ⟨_, w', ms, e, hc, rfl⟩ | ⟨t, m, rest, w', ms, e, ht, he, rfl⟩
    · cases e
      cases hc
      rename_i rc _
      exact ⟨.ret, ⟨c.s.w.resp.length, .valued 0⟩, rc, rfl, fun _ => rfl, by simp [World.ev, World.addObj]⟩
    · cases e
  | bcast hs =>
    refine ⟨.step hr (.other (fun _ _ => rfl) (fun _ _ => by simp) hs), ?_,
      fun f i bc => pstep_unresolved hr (.inl ⟨_, _, rfl, hs, by intro cl e; cases e; rfl⟩),
      fun f i bc => resolved_mono (step_suffix hr.reachable hs), step_suffix hr.reachable hs⟩
    rcases step_rel hs with ⟨_, w', ms, e, hc, rfl⟩ | ⟨t, m, rest, w', ms, e, ht, he, rfl⟩
    · cases e
      cases hc
      rename_i rc _
      exact ⟨.bcast, ⟨c.s.w.resp.length, .valued 0⟩, rc, rfl, fun h => by simp at h, by simp [World.ev, World.addObj]⟩
    · cases e
  | detach _ hs ih =>
    have hsf := step_suffix ih.run.reachable hs
    refine ⟨.step ih.run (.other (fun _ _ => rfl) (fun _ _ => by simp) hs), ?_,
      fun f i bc hu => pstep_unresolved ih.run (.inl ⟨_, _, rfl, hs, by intro cl e; cases e; rfl⟩) (ih.keeps f i bc hu),
      fun f i bc hu => resolved_mono hsf (ih.res f i bc hu), ih.ok.trans hsf⟩
    obtain ⟨md, m, rc, h1, h2, h3⟩ := ih.made
    have hl := (List.getElem?_eq_some_iff.mp h3).1
    rcases step_rel hs with ⟨_, w', ms, e, hc, rfl⟩ | ⟨t, m, rest, w', ms, e, ht, he, rfl⟩
    · cases e
      cases hc
      rename_i hx
      rw [h3] at hx; simp at hx
      obtain ⟨rfl, rfl, rfl⟩ := hx
      exact ⟨.detached, m, rc, rfl, fun h => by simp at h, by simp [World.setObj, hl]⟩
    · cases e
  | priority _ hs ih =>
    have hsf := step_suffix ih.run.reachable hs
    obtain ⟨md, m, rc, h1, h2, h3⟩ := ih.made
    obtain ⟨h4, h5⟩ := setPrio_unresolved h3 hs
    refine ⟨.step ih.run (.other (fun _ _ => rfl) (fun _ _ => by simp) hs), ⟨md, _, rc, h1, h2, h4⟩, fun f i bc hu => ?_,
      fun f i bc hu => resolved_mono hsf (ih.res f i bc hu), ih.ok.trans hsf⟩
    rcases ih.keeps f i bc hu with hu | hu
    · exact .inl (h5 f i bc hu)
    · exact .inr (resolved_mono hsf hu)

theorem NInv.askStep {ok : Allowed} {caps : Nat → Option Nat} {N N' : Net} {p : Nat} (iv : NInv ok caps N) (h : N.Ask ok p N') :
    NInv ok caps N' := by
  cases h with
  | @ask k j n want jn l s' hok hmay hh hs =>
    have hs := asked_ok (iv.run j) hs
    have hb : (N.ch p).busy k := Classical.byContradiction fun hn => by
      have := iv.idle p k hn; rw [hh] at this; simp [HSt.idle] at this
    have hbusy' : ∀ q k, (N.ch q).busy k → ((N.setCh j { N.ch j with s := s' }).ch q).busy k := by
      intro q k hq
      by_cases e : q = j
      · subst e; simpa [PCfg.busy] using hq
      · simpa [e] using hq
    have hun : ∀ q f i bc, ((N.ch q).s.unresolved f i bc ∨ (N.ch q).s.w.resolved f i bc) →
        (((N.setCh j { N.ch j with s := s' }).ch q).s.unresolved f i bc ∨ ((N.setCh j { N.ch j with s := s' }).ch q).s.w.resolved f i bc) := by
      intro q f i bc hu
      by_cases e : q = j
      · subst e
        rw [setCh_self]
        exact hs.keeps f i bc hu
      · rw [setCh_ne e]; exact hu
    refine ⟨fun q => ?_, fun q k' hq => ?_, fun q k' x hm => ?_⟩
    · by_cases e : q = j
      · subst e
        simp
        exact hs.run
      · simpa [e] using iv.run q
    · rw [setH_at]
      split
      · rename_i e
        obtain ⟨rfl, rfl⟩ := e
        exact absurd (hbusy' _ _ hb) hq
      · exact iv.idle q k' fun hn => hq (hbusy' _ _ hn)
    · rw [setH_at] at hm
      split at hm
      · rename_i e
        obtain ⟨rfl, rfl⟩ := e
        simp at hm
        rcases hm with rfl | hm
        · refine ⟨hok, .inl ?_⟩
          rw [setH_ch]
          simp only [setCh_self]
          obtain ⟨md, m, rc, h1, -, h3⟩ := hs.made
          exact .inl ⟨md, _, h1, h3⟩
        · have := iv.wait q k' x (by rw [hh]; exact hm)
          exact ⟨this.1, hun _ _ _ _ this.2⟩
      · have := iv.wait q k' x hm
        exact ⟨this.1, hun _ _ _ _ this.2⟩

theorem NInv.resumeStep {ok : Allowed} {caps : Nat → Option Nat} {N N' : Net} {p : Nat} (iv : NInv ok caps N) (h : N.Resume p N') :
    NInv ok caps N' := by
  cases h with
  | @resume k n y l1 l2 hh hmay hs =>
    refine ⟨iv.run, fun q k' hq => ?_, fun q k' x hm => ?_⟩
    · rw [setH_at]
      split
      · rename_i e
        obtain ⟨rfl, rfl⟩ := e
        have := iv.idle q k' hq
        rw [hh] at this; simp [HSt.idle] at this
      · exact iv.idle q k' hq
    · rw [setH_at] at hm
      split at hm
      · rename_i e
        obtain ⟨rfl, rfl⟩ := e
        refine iv.wait q k' x ?_
        rw [hh]
        simp at hm ⊢
        rcases hm with hm | hm <;> simp [hm]
      · exact iv.wait q k' x hm

/-- The channel `p` and its actors take a step. -/
theorem NInv.chanStep {ok : Allowed} {caps : Nat → Option Nat} {N : Net} {p : Nat} {c' : PCfg} {h' : Nat → HSt} (iv : NInv ok caps N)
    (hr : PRun (caps p) true c')
    (hu : ∀ f i bc, N.waited p f → ((N.ch p).s.unresolved f i bc ∨ (N.ch p).s.w.resolved f i bc) →
      (c'.s.unresolved f i bc ∨ c'.s.w.resolved f i bc))
    (hi : ∀ k, ¬ c'.busy k → h' k = .idle) (hw : ∀ k x, x ∈ (h' k).wait → x ∈ (N.h p k).wait) :
    NInv ok caps ((N.setCh p c').setHs p h') := by
  refine ⟨fun q => ?_, fun q k hq => ?_, fun q k x hm => ?_⟩
  · by_cases e : q = p
    · subst e; simpa using hr
    · simpa [e] using iv.run q
  · by_cases e : q = p
    · subst e; simp at hq ⊢; exact hi k hq
    · simp [e] at hq ⊢; exact iv.idle q k hq
  · have hm0 : x ∈ (N.h q k).wait := by
      by_cases e : q = p
      · subst e; simp at hm; exact hw k _ hm
      · simpa [e] using hm
    have := iv.wait q k x hm0
    refine ⟨this.1, ?_⟩
    obtain ⟨r, f, i, want, jn⟩ := x
    by_cases e : r = p
    · subst e; simp; exact hu f i want.bc ⟨q, k, i, want, jn, hm0⟩ this.2
    · simpa [e] using this.2

theorem setHs_same {N : Net} {p : Nat} {c : PCfg} : (N.setCh p c).setHs p (N.h p) = N.setCh p c := by
  simp only [Net.setHs, Net.setCh]
  congr
  funext q
  by_cases e : q = p <;> simp [e]

theorem busy_s {c : PCfg} {s' : Sys} {k : Nat} : PCfg.busy { c with s := s' } k ↔ c.busy k := Iff.rfl

theorem NInv.nestStep {ok : Allowed} {caps : Nat → Option Nat} {N N' : Net} {p : Nat} (iv : NInv ok caps N) (h : N.Nest p N') :
    NInv ok caps N' := by
  cases h with
  | @nest k i T hk hot hg =>
    rw [← setHs_same]
    refine iv.chanStep (.step (iv.run p) (.nest hk hot hg (.inl rfl))) (fun f i bc _ hu => hu) (fun k' hk' => ?_) (fun k x hx => hx)
    refine iv.idle p k' fun ⟨U, hU, hu⟩ => hk' ⟨U, ?_, hu⟩
    have := (List.getElem?_eq_some_iff.mp hU).1
    simp [List.getElem?_append_left this, hU]

theorem NInv.step {ok : Allowed} {caps : Nat → Option Nat} {N N' : Net} (iv : NInv ok caps N) (h : NStep ok N N') :
    NInv ok caps N' := by
  cases h with
  | @other p a s' h1 h2 h3 hs =>
    rw [← setHs_same]
    exact iv.chanStep (.step (iv.run p) (.other h1 (fun _ => h2) hs))
      (fun f i bc hf hu => pstep_unresolved (iv.run p) (.inl ⟨_, _, rfl, hs, fun cl e => h3 f cl hf e⟩) hu)
      (fun k hk => iv.idle p k hk) (fun k x hx => hx)
  | @spawn p i b n h1 h2 =>
    refine iv.chanStep (.step (iv.run p) (.spawn h1 h2)) (fun f i bc _ hu => hu) (fun k hk => ?_) (fun k x hx => ?_)
    · split
      · rename_i e; subst e
        exact absurd ⟨_, by simp; rfl, rfl⟩ hk
      · refine iv.idle p k fun ⟨T, hT, hu⟩ => hk ⟨T, ?_, hu⟩
        have := (List.getElem?_eq_some_iff.mp hT).1
        simp [List.getElem?_append_left this, hT]
    · split at hx
      · simp at hx
      · exact hx
  | @task p k T T' s' h' hk ho ht g =>
    exact iv.chanStep (.step (iv.run p) (.task hk ho ht))
      (fun f i bc hf hu => pstep_unresolved (iv.run p) (.inr ⟨_, _, _, _, hk, ht, rfl⟩) hu) g.ends (fun k x hx => g.wait_mem hx)
  | nest h => exact iv.nestStep h
  | ask h => exact iv.askStep h
  | resume h => exact iv.resumeStep h

theorem nInv_run {ok : Allowed} {caps : Nat → Option Nat} {N : Net} (h : NRun ok caps N) : NInv ok caps N := by
  induction h with
  | new => exact ⟨fun p => .new, fun p k _ => rfl, fun q k x hm => by simp [HSt.idle] at hm⟩
  | step _ hs ih => exact ih.step hs

theorem TStep.noOnce {s s' : Sys} {T T' : Task} (ht : TStep s T s' T') (h : T.lvl ≠ .once) : T'.lvl ≠ .once := by
  cases ht <;> simp_all

/-- Actors of a network do not call `yield_once`. -/
theorem noOnce_run {ok : Allowed} {caps : Nat → Option Nat} {N : Net} (h : NRun ok caps N) : ∀ p, ∀ T ∈ (N.ch p).ts, T.lvl ≠ .once := by
  induction h with
  | new => intro p T hT; simp at hT
  | @step N N' _ hs ih =>
    have key : ∀ (q : Nat) (c : PCfg), (∀ T ∈ c.ts, T.lvl ≠ .once) → ∀ p, ∀ T ∈ ((N.setCh q c).ch p).ts, T.lvl ≠ .once := by
      intro q c hc p T hT
      simp only [Net.setCh] at hT
      split at hT
      · exact hc T hT
      · exact ih p T hT
    intro p T hT
    cases hs with
    | @other q a s' => exact key q { N.ch q with s := s' } (ih q) p T hT
    | @spawn q i b n =>
      refine key q _ (fun T hT => ?_) p T hT
      simp at hT
      rcases hT with h | rfl
      · exact ih q T h
      · simp
    | @task q k U U' s' h' hk _ ht =>
      refine key q _ (fun T hT => ?_) p T hT
      rcases List.mem_or_eq_of_mem_set hT with h | rfl
      · exact ih q T h
      · exact ht.noOnce (ih q U (List.mem_of_getElem? hk))
    | @nest _ q h =>
      cases h with
      | nest =>
        refine key q _ (fun T hT => ?_) p T hT
        simp at hT
        rcases hT with h | rfl
        · exact ih q T h
        · simp
    | @ask _ q h =>
      cases h with
      | @ask k j n want jn l s' => exact key j { N.ch j with s := s' } (ih j) p T hT
    | @resume _ q h =>
      cases h with
      | resume => exact ih p T hT

theorem Gate.same {c : PCfg} {s' : Sys} {h h' : Nat → HSt} (g : Gate c { c with s := s' } h h') (hi : ∀ k, ¬ c.busy k → h k = .idle) : h' = h := by
  funext k
  by_cases hb : c.busy k
  · exact g.keeps k hb hb
  · rw [g.ends k hb, hi k hb]

/-- The steps of `NAuto` are among all that can happen. -/
theorem NAt.nstep {ok : Allowed} {Ext : Nat → Nat → Prop} {caps : Nat → Option Nat} {p : Nat} {N N' : Net} (iv : NInv ok caps N)
    (h : NAt ok Ext p N N') : NStep ok N N' := by
  cases h with
  | ask h => exact .ask h
  | resume h => exact .resume h
  | chan ha g =>
    have key : ∀ {a : Act} {s' : Sys} {h' : Nat → HSt}, (N.ch p).s.step a = some s' → ((∃ t, a = .exec t) ∨ (∃ f wk, a = .call (.pollSend f wk)) ∨
        ∃ f wk, a = .call (.pollReply f wk)) → Gate (N.ch p) { N.ch p with s := s' } (N.h p) h' →
        NStep ok N ((N.setCh p { N.ch p with s := s' }).setHs p h') := by
      intro a s' h' hs ha g
      rw [g.same (iv.idle p), setHs_same]
      rcases ha with ⟨t, rfl⟩ | ⟨f, wk, rfl⟩ | ⟨f, wk, rfl⟩
      · exact .other (fun _ _ => rfl) (by simp) (by intro f c _ e; cases e) hs
      · exact .other (fun _ _ => rfl) (by simp) (by intro f c _ e; cases e; rfl) hs
      · exact .other (fun _ _ => rfl) (by simp) (by intro f c _ e; cases e; rfl) hs
    cases ha with
    | auto ha =>
      cases ha with
      | exec hs => exact key hs (.inl ⟨_, rfl⟩) g
      | task hk ho ht _ => exact .task hk ho ht g
    | await _ _ hs =>
      rcases hs with hs | hs
      · exact key hs (.inr (.inl ⟨_, _, rfl⟩)) g
      · exact key hs (.inr (.inr ⟨_, _, rfl⟩)) g

theorem NAuto.run {ok : Allowed} {Ext : Nat → Nat → Prop} {caps : Nat → Option Nat} {n : Nat} {N N' : Net} (hr : NRun ok caps N)
    (h : NAuto ok Ext n N N') : NRun ok caps N' := by
  obtain ⟨p, -, h⟩ := h
  exact .step hr (h.nstep (nInv_run hr))

/-! ### No livelock -/

def HSt.weight (x : HSt) : Nat := 2 * x.fuel + x.wait.length

def hsum (h : Nat → HSt) : Nat → Nat
  | 0 => 0
  | n + 1 => hsum h n + (h n).weight

theorem hsum_upd {h : Nat → HSt} {k : Nat} {x : HSt} : ∀ {n : Nat}, k < n →
    hsum (fun j => if j = k then x else h j) n + (h k).weight = hsum h n + x.weight := by
  have low : ∀ n, n ≤ k → hsum (fun j => if j = k then x else h j) n = hsum h n := by
    intro n
    induction n with
    | zero => intro _; rfl
    | succ n ih => intro hn; simp only [hsum]; rw [ih (by omega), if_neg (by omega)]
  intro n
  induction n with
  | zero => omega
  | succ n ih =>
    intro hk
    simp only [hsum]
    by_cases e : n = k
    · subst e; rw [low n (Nat.le_refl _)]; simp; omega
    · have := ih (by omega)
      rw [if_neg e]; omega

/-- The rank of level `p`. -/
def Net.m (N : Net) (p : Nat) : Nat := hsum (N.h p) (N.ch p).ts.length

def L4 (N N' : Net) (p : Nat) : Prop :=
  L3 (N.ch p).k0 (N.ch p).s.k1 (N.ch p).k2 (N'.ch p).k0 (N'.ch p).s.k1 (N'.ch p).k2 ∨ (N'.ch p = N.ch p ∧ N'.m p < N.m p)

theorem busy_lt {c : PCfg} {k : Nat} (h : c.busy k) : k < c.ts.length := by
  obtain ⟨T, hT, -⟩ := h
  exact (List.getElem?_eq_some_iff.mp hT).1

theorem NAt.down {ok : Allowed} {Ext : Nat → Nat → Prop} {caps : Nat → Option Nat} {p : Nat} {N N' : Net}
    (hok : ∀ want jn, ¬ ok p p want jn) (iv : NInv ok caps N) (h : NAt ok Ext p N N') : L4 N N' p := by
  have hlt : ∀ k, N.h p k ≠ .idle → k < (N.ch p).ts.length := fun k hk =>
    busy_lt (Classical.byContradiction fun hn => hk (iv.idle p k hn))
  cases h with
  | chan ha g =>
    left
    have := ha.down (iv.run p)
    simpa using this
  | ask h =>
    cases h with
    | @ask k j n want jn l s' ho hmay hh hs =>
      have hj : p ≠ j := by rintro rfl; exact hok _ _ ho
      right
      refine ⟨by rw [setH_ch, setCh_ne hj], ?_⟩
      have := hsum_upd (h := N.h p) (x := ⟨n, ⟨j, (N.ch j).s.w.objs.length, (N.ch j).s.w.resp.length, want, jn⟩ :: l⟩) (hlt k (by rw [hh]; simp [HSt.idle]))
      simp only [Net.m, setH_ch, setCh_ne hj, Net.setH, setHs_self, setCh_h]
      rw [hh] at this
      simp [HSt.weight] at this
      show hsum (fun j => if j = k then _ else _) _ < _
      simp only [setHs_ch, setCh_ne hj]
      omega
  | resume h =>
    cases h with
    | @resume k n y l1 l2 hh hmay hs =>
      right
      refine ⟨rfl, ?_⟩
      have := hsum_upd (h := N.h p) (x := ⟨n, l1 ++ l2⟩) (hlt k (by rw [hh]; simp [HSt.idle]))
      simp only [Net.m, setH_ch, Net.setH, setHs_self]
      rw [hh] at this
      simp [HSt.weight] at this
      show hsum (fun j => if j = k then _ else _) _ < _
      simp only [setHs_ch]
      omega

theorem NAt.above {ok : Allowed} {Ext : Nat → Nat → Prop} {p q : Nat} {N N' : Net}
    (hok : ∀ want jn, ¬ ok p q want jn) (h : NAt ok Ext p N N') (hne : q ≠ p) : N'.ch q = N.ch q ∧ N'.m q = N.m q := by
  cases h with
  | chan ha g => simp [Net.m, hne]
  | ask h =>
    cases h with
    | @ask k j n want jn l s' ho hmay hh hs =>
      have hj : q ≠ j := by rintro rfl; exact hok _ _ ho
      simp [Net.m, Net.setH, hne, hj]
  | resume h =>
    cases h with
    | resume hh _ hs => simp [Net.m, Net.setH, hne]

theorem nauto_acc_list {ok : Allowed} {Ext : Nat → Nat → Prop} {caps : Nat → Option Nat} :
    ∀ (L : List Nat), L.Pairwise (fun p q => q ≠ p ∧ ∀ want jn, ¬ ok q p want jn) → (∀ p ∈ L, ∀ want jn, ¬ ok p p want jn) → ∀ {N : Net}, NRun ok caps N →
      Acc (fun N' N => ∃ p, p ∈ L ∧ NAt ok Ext p N N') N := by
  intro L
  induction L with
  | nil => intro _ _ N _; exact ⟨_, fun N' ⟨p, hp, _⟩ => by simp at hp⟩
  | cons n L ih =>
    intro hL hself
    obtain ⟨hn, hL⟩ := List.pairwise_cons.mp hL
    have ih := fun {N : Net} => ih hL (fun p hp => hself p (by simp [hp])) (N := N)
    -- lexicographic: (k0, k1, k2) of channel n, then the sum, then the other channels
    suffices H : ∀ (a b c m : Nat) (N : Net), NRun ok caps N → (N.ch n).k0 = a → (N.ch n).s.k1 = b → (N.ch n).k2 = c → N.m n = m →
        Acc (fun N' N => ∃ p, p ∈ n :: L ∧ NAt ok Ext p N N') N from fun {N} h => H _ _ _ _ N h rfl rfl rfl rfl
    intro a
    induction a using Nat.strongRecOn with
    | _ a ia =>
    intro b
    induction b using Nat.strongRecOn with
    | _ b ib =>
    intro c
    induction c using Nat.strongRecOn with
    | _ c ic =>
    intro m
    induction m using Nat.strongRecOn with
    | _ m im =>
    intro N hN
    have hacc := ih hN
    induction hacc with
    | intro N _ ihN =>
      intro e1 e2 e3 e4
      refine ⟨_, fun N' hstep => ?_⟩
      obtain ⟨p, hp, h⟩ := hstep
      have hN' : NRun ok caps N' := .step hN (h.nstep (nInv_run hN))
      rcases List.mem_cons.mp hp with rfl | hp
      · rcases h.down (hself p (by simp)) (nInv_run hN) with hl | ⟨hc, hm⟩
        · unfold L3 at hl
          rw [e1, e2, e3] at hl
          rcases hl with h1 | ⟨h1, h2 | ⟨h2, h3⟩⟩
          · exact ia _ h1 _ _ _ N' hN' rfl rfl rfl rfl
          · exact ib _ h2 _ _ N' hN' h1 rfl rfl rfl
          · exact ic _ h3 _ N' hN' h1 h2 rfl rfl
        · rw [e4] at hm
          exact im _ hm N' hN' (by rw [hc]; exact e1) (by rw [hc]; exact e2) (by rw [hc]; exact e3) rfl
      · obtain ⟨h0, h0'⟩ := hn p hp
        obtain ⟨h1, h2⟩ := h.above h0' (Ne.symm h0)
        exact ihN N' ⟨p, hp, h⟩ hN' (by rw [h1]; exact e1) (by rw [h1]; exact e2) (by rw [h1]; exact e3) (by rw [h2]; exact e4)

theorem nauto_acc {ok : Allowed} {Ext : Nat → Nat → Prop} {caps : Nat → Option Nat} {rk : Nat → Nat}
    (hok : ∀ p j want jn, ok p j want jn → rk j < rk p) (n : Nat) {N : Net} (hN : NRun ok caps N) : Acc (fun N' N => NAuto ok Ext n N N') N := by
  have hp := List.mergeSort_perm (List.range n) (fun a b => decide (rk b ≤ rk a))
  have hs : ((List.range n).mergeSort (fun a b => decide (rk b ≤ rk a))).Pairwise (fun a b => decide (rk b ≤ rk a) = true) :=
    List.pairwise_mergeSort (fun a b c h1 h2 => by simp at *; omega) (fun a b => by simp; omega) _
  have hd : ((List.range n).mergeSort (fun a b => decide (rk b ≤ rk a))).Nodup := hp.nodup_iff.mpr List.nodup_range
  have := nauto_acc_list (ok := ok) (Ext := Ext) (caps := caps) _ (hs.imp₂ (fun a b h1 h2 => ⟨Ne.symm h2, fun want jn h => by
    have := hok _ _ _ _ h; simp at h1; omega⟩) hd) (fun p _ want jn h => by have := hok _ _ _ _ h; omega) hN
  refine Subrelation.accessible ?_ this
  intro N' N h
  obtain ⟨p, hp', h⟩ := h
  exact ⟨p, hp.mem_iff.mpr (by simp [hp']), h⟩

/-- **C54.** No livelock: let awaiting be acyclic, i.e. there is a rank such that actors await something only of actors of lower rank. Then clients,
 actors and channels do not keep each other busy forever. -/
theorem C54_no_livelock {ok : Allowed} {Ext : Nat → Nat → Prop} {caps : Nat → Option Nat} {rk : Nat → Nat} {n : Nat} {f : Nat → Net}
    (hok : ∀ p j want jn, ok p j want jn → rk j < rk p) (h : NRun ok caps (f 0)) : ¬ ∀ m, NAuto ok Ext n (f m) (f (m + 1)) :=
  acc_no_seq (nauto_acc hok n h) f rfl

/-! ### Who started when -/

/-- A time is given to every running piece of user code: a handler started after the user code around it, and after whoever awaits it. -/
structure Timed (N : Net) (τ : Nat → Nat → Nat) (M : Nat) : Prop where
  le : ∀ p k, τ p k ≤ M
  sub : ∀ (p k l : Nat) (T U : Task), (N.ch p).ts[k]? = some T → (N.ch p).ts[l]? = some U → U.covers T = true → T.ph.inUser = true →
    U.ph.inUser = true → τ p k < τ p l
  msg : ∀ (q k : Nat) (x : Await) (l : Nat) (U : Task) (r : Nat) (m : Msg), x ∈ (N.h q k).wait → (N.ch x.p).ts[l]? = some U →
    U.ph = .handling r (.one m) → m.id = x.i → τ q k < τ x.p l

theorem tstep_user {s s' : Sys} {T T' : Task} (h : TStep s T s' T') (hu : T'.ph.inUser = true) :
    T.ph.inUser = false ∧ ∀ U : Task, U.covers T' = true → U.covers T = true := by
  cases h <;> simp_all [APh.inUser, Task.covers, APh.cur]

theorem handling_lt {cap : Option Nat} {c : PCfg} (h : PRun cap true c) {l r : Nat} {U : Task} {m : Msg} (hl : c.ts[l]? = some U)
    (hp : U.ph = .handling r (.one m)) : m.id < c.s.w.resp.length := by
  obtain ⟨-, ti⟩ := (pInv_run h).all l U hl
  have := ti.ph
  rw [hp] at this
  have k := kInv_reachable h.reachable
  obtain ⟨⟨f, h1⟩, -⟩ := k.evs _ this.2.1
  exact (k.made _ _ _ h1).2.1

theorem Timed.mono {N : Net} {τ : Nat → Nat → Nat} {M : Nat} (tm : Timed N τ M) {p : Nat} {s' : Sys} : Timed (N.setCh p { N.ch p with s := s' }) τ M := by
  have e : ∀ q, ((N.setCh p { N.ch p with s := s' }).ch q).ts = (N.ch q).ts := by
    intro q; by_cases h : q = p
    · subst h; simp
    · simp [h]
  refine ⟨tm.le, fun q k l T U h1 h2 => ?_, fun q k x l U r m h1 h2 => ?_⟩
  · rw [e] at h1 h2; exact tm.sub q k l T U h1 h2
  · rw [e] at h2; exact tm.msg q k x l U r m h1 h2

theorem set_cases_l {α : Type} {l : List α} {i j : Nat} {x y : α} (h : (l.set i x)[j]? = some y) :
    (j = i ∧ y = x) ∨ (j ≠ i ∧ l[j]? = some y) :=
  (set_cases h).imp (fun ⟨a, b⟩ => ⟨a.symm, b⟩) (fun ⟨a, b⟩ => ⟨Ne.symm a, b⟩)

theorem timed_step {ok : Allowed} {caps : Nat → Option Nat} {N N' : Net} (iv : NInv ok caps N) (h : NStep ok N N') {τ : Nat → Nat → Nat} {M : Nat}
    (tm : Timed N τ M) : ∃ τ' M', Timed N' τ' M' := by
  cases h with
  | other h1 h2 h3 hs => exact ⟨τ, M, tm.mono⟩
  | @spawn p i b n h1 h2 =>
    refine ⟨fun q k => if q = p ∧ k = (N.ch p).ts.length then M + 1 else τ q k, M + 1, fun q k => ?_, ?_, ?_⟩
    · have := tm.le q k; split <;> omega
    · intro q k l T U hk hl hc hu hu'
      by_cases e : q = p
      · subst e
        simp only [setH_ch, setCh_self] at hk hl
        rcases append_split hl with ⟨a, hl⟩ | ⟨rfl, rfl⟩
        · rcases append_split hk with ⟨a', hk⟩ | ⟨rfl, rfl⟩
          · have := tm.sub q k l T U hk hl hc hu hu'
            simpa [show k ≠ (N.ch q).ts.length by omega, show l ≠ (N.ch q).ts.length by omega] using this
          · simp [Task.covers, APh.cur] at hc
            exact absurd hc.2.symm (h2 U (List.mem_of_getElem? hl))
        · simp [Task.covers] at hc
      · simp only [setH_ch, setCh_ne e] at hk hl
        simpa [e] using tm.sub q k l T U hk hl hc hu hu'
    · intro q k x l U r m hx hl hph hid
      rw [setH_at] at hx
      split at hx
      · simp at hx
      · rename_i ne
        have hlt := tm.le q k
        by_cases e : x.p = p
        · rw [setH_ch, e, setCh_self] at hl
          rcases append_split hl with ⟨a, hl⟩ | ⟨rfl, rfl⟩
          · have := tm.msg q k x l U r m hx (by rw [e]; exact hl) hph hid
            simp only [if_neg ne, e]
            rw [if_neg (by omega)]
            rw [e] at this; exact this
          · simp at hph
        · rw [setH_ch, setCh_ne e] at hl
          have := tm.msg q k x l U r m hx hl hph hid
          simpa [e, if_neg ne] using this
  | @task p k T T' s' h' hk hot ht g =>
    have hlen := (List.getElem?_eq_some_iff.mp hk).1
    by_cases hT' : T'.ph.inUser = true
    · obtain ⟨hTu, hcov⟩ := tstep_user ht hT'
      have hw : (h' k).wait = [] := g.calls k ⟨T', by simp [hlen], hT'⟩ (by
        rintro ⟨V, hV, hu⟩; rw [hk] at hV; simp at hV; subst hV; rw [hTu] at hu; simp at hu)
      refine ⟨fun q j => if q = p ∧ j = k then M + 1 else τ q j, M + 1, fun q j => ?_, ?_, ?_⟩
      · have := tm.le q j; split <;> omega
      · intro q j l V U hj hl hc hu hu'
        by_cases e : q = p
        · subst e
          simp only [setHs_ch, setCh_self] at hj hl
          have hlt := tm.le q j
          rcases set_cases_l hj with ⟨rfl, rfl⟩ | ⟨hjk, hj⟩
          · exfalso
            have hcT := hcov U hc
            rcases set_cases_l hl with ⟨rfl, rfl⟩ | ⟨hlk, hl⟩
            · exact absurd (covers_lt (k := l) (l := l) (T := U) (U := U) (.step (iv.run q) (.task hk hot ht)) (by simp [hlen]) (by simp [hlen]) hc).1 (Nat.lt_irrefl _)
            · have := hot U (List.mem_of_getElem? hl); rw [hcT] at this; simp at this
          · rcases set_cases_l hl with ⟨rfl, rfl⟩ | ⟨hlk, hl⟩
            · simp [hjk]; omega
            · simpa [hjk, hlk] using tm.sub q j l V U hj hl hc hu hu'
        · simp only [setHs_ch, setCh_ne e] at hj hl
          simpa [e] using tm.sub q j l V U hj hl hc hu hu'
      · intro q j x l U r m hx hl hph hid
        have hx0 : x ∈ (N.h q j).wait ∧ ¬ (q = p ∧ j = k) := by
          by_cases e : q = p
          · subst e; simp at hx
            refine ⟨g.wait_mem hx, ?_⟩
            rintro ⟨-, rfl⟩; rw [hw] at hx; simp at hx
          · simp [e] at hx; exact ⟨hx, fun h => e h.1⟩
        obtain ⟨hx0, ne⟩ := hx0
        have hlt := tm.le q j
        simp only [if_neg ne]
        by_cases e : x.p = p
        · simp only [setHs_ch, e, setCh_self] at hl
          rcases set_cases_l hl with ⟨rfl, rfl⟩ | ⟨hlk, hl⟩
          · simp [e]; omega
          · have := tm.msg q j x l U r m hx0 (by rw [e]; exact hl) hph hid
            simpa [hlk] using this
        · simp only [setHs_ch, setCh_ne e] at hl
          have := tm.msg q j x l U r m hx0 hl hph hid
          simpa [e] using this
    · refine ⟨τ, M, tm.le, ?_, ?_⟩
      · intro q j l V U hj hl hc hu hu'
        by_cases e : q = p
        · subst e
          simp only [setHs_ch, setCh_self] at hj hl
          rcases set_cases_l hj with ⟨rfl, rfl⟩ | ⟨hjk, hj⟩
          · exact absurd hu hT'
          · rcases set_cases_l hl with ⟨rfl, rfl⟩ | ⟨hlk, hl⟩
            · exact absurd hu' hT'
            · exact tm.sub q j l V U hj hl hc hu hu'
        · simp only [setHs_ch, setCh_ne e] at hj hl
          exact tm.sub q j l V U hj hl hc hu hu'
      · intro q j x l U r m hx hl hph hid
        have hx0 : x ∈ (N.h q j).wait := by
          by_cases e : q = p
          · subst e; simp at hx; exact g.wait_mem hx
          · simpa [e] using hx
        by_cases e : x.p = p
        · simp only [setHs_ch, e, setCh_self] at hl
          rcases set_cases_l hl with ⟨rfl, rfl⟩ | ⟨hlk, hl⟩
          · rw [hph] at hT'; simp [APh.inUser] at hT'
          · exact tm.msg q j x l U r m hx0 (by rw [e]; exact hl) hph hid
        · simp only [setHs_ch, setCh_ne e] at hl
          exact tm.msg q j x l U r m hx0 hl hph hid
  | @nest _ p h =>
    cases h with
    | @nest k i T hk hot hg =>
      refine ⟨τ, M, tm.le, ?_, ?_⟩
      · intro q j l V U hj hl hc hu hu'
        by_cases e : q = p
        · subst e
          simp only [setCh_self] at hj hl
          rcases append_split hj with ⟨a, hj⟩ | ⟨rfl, rfl⟩
          · rcases append_split hl with ⟨a', hl⟩ | ⟨rfl, rfl⟩
            · exact tm.sub q j l V U hj hl hc hu hu'
            · simp [APh.inUser] at hu'
          · simp [APh.inUser] at hu
        · simp only [setCh_ne e] at hj hl
          exact tm.sub q j l V U hj hl hc hu hu'
      · intro q j x l U r m hx hl hph hid
        by_cases e : x.p = p
        · simp only [e, setCh_self] at hl
          rcases append_split hl with ⟨a, hl⟩ | ⟨rfl, rfl⟩
          · exact tm.msg q j x l U r m hx (by rw [e]; exact hl) hph hid
          · simp at hph
        · simp only [setCh_ne e] at hl
          exact tm.msg q j x l U r m hx hl hph hid
  | ask h =>
    cases h with
    | @ask k j n want jn l s' hok hmay hh hs =>
      have tm' : Timed (N.setCh j { N.ch j with s := s' }) τ M := tm.mono
      refine ⟨τ, M, tm.le, fun q => tm'.sub q, fun q k' x l' U r m hx hl hph hid => ?_⟩
      rw [setH_at] at hx
      split at hx
      · rename_i e
        obtain ⟨rfl, rfl⟩ := e
        rcases List.mem_cons.mp hx with rfl | hx
        · simp only [setH_ch, setCh_self] at hl
          have := handling_lt (iv.run j) hl hph
          simp at hid; omega
        · exact tm'.msg q k' x l' U r m (by rw [setCh_h, hh]; exact hx) hl hph hid
      · exact tm'.msg q k' x l' U r m hx hl hph hid
  | resume h =>
    cases h with
    | @resume k n y l1 l2 hh hmay hs =>
      refine ⟨τ, M, tm.le, fun q => tm.sub q, fun q k' x l' U r m hx hl hph hid => ?_⟩
      refine tm.msg q k' x l' U r m ?_ hl hph hid
      rw [setH_at] at hx
      split at hx
      · rename_i e
        obtain ⟨rfl, rfl⟩ := e
        rw [hh]
        simp at hx ⊢
        rcases hx with hx | hx <;> simp [hx]
      · exact hx

theorem timed_run {ok : Allowed} {caps : Nat → Option Nat} {N : Net} (h : NRun ok caps N) : ∃ τ M, Timed N τ M := by
  induction h with
  | new => exact ⟨fun _ _ => 0, 0, fun _ _ => Nat.le_refl _, fun p k l T U h1 => by simp at h1, fun q k x l U r m h1 => by simp [HSt.idle] at h1⟩
  | step hr hs ih => obtain ⟨τ, M, tm⟩ := ih; exact timed_step (nInv_run hr) hs tm

/-! ### No deadlock -/

theorem gate_same {c : PCfg} {s' : Sys} {h : Nat → HSt} (hi : ∀ k, ¬ c.busy k → h k = .idle) : Gate c { c with s := s' } h h :=
  ⟨fun _ h1 h2 => absurd h1 h2, fun _ h1 h2 => absurd h1 h2, fun _ _ _ => rfl, hi, fun l U U' k T x h1 h2 h3 h4 => by
    rw [h1] at h2; simp at h2; subst h2; rw [h3] at h4; simp at h4⟩

theorem gate_task {ok : Allowed} {caps : Nat → Option Nat} {N : Net} (iv : NInv ok caps N) {p k n : Nat} {T T' : Task} {s' : Sys}
    (hk : (N.ch p).ts[k]? = some T) (hc : ¬ (T.ph.inUser && !T'.ph.inUser && !(N.h p k).wait.isEmpty && !T'.aborted) = true)
    (hf : T.lvl = .sel → T'.lvl = .last → ∀ (k' : Nat) (V : Task) (x : Await), (N.ch p).ts[k']? = some V → T.covers V = true →
      x ∈ (N.h p k').wait → x.joined = false) :
    Gate (N.ch p) ⟨s', (N.ch p).ts.set k T'⟩ (N.h p)
      (fun j => if j = k then (if T'.ph.inUser then (if T.ph.inUser then N.h p k else ⟨n, []⟩) else .idle) else N.h p j) := by
  have hl := (List.getElem?_eq_some_iff.mp hk).1
  have b1 : (N.ch p).busy k ↔ T.ph.inUser = true := by
    constructor
    · rintro ⟨U, hU, h⟩; rw [hk] at hU; simp at hU; subst hU; exact h
    · intro h; exact ⟨T, hk, h⟩
  have b2 : PCfg.busy ⟨s', (N.ch p).ts.set k T'⟩ k ↔ T'.ph.inUser = true := by
    constructor
    · rintro ⟨U, hU, h⟩; simp [hl] at hU; subst hU; exact h
    · intro h; exact ⟨T', by simp [hl], h⟩
  have b3 : ∀ j, j ≠ k → (PCfg.busy ⟨s', (N.ch p).ts.set k T'⟩ j ↔ (N.ch p).busy j) := by
    intro j hj
    simp [PCfg.busy, List.getElem?_set_ne (Ne.symm hj)]
  refine ⟨fun j h1 h2 => ?_, fun j h1 h2 => ?_, fun j h1 h2 => ?_, fun j h1 => ?_, fun l U U' k' V x h1 h2 h3 h4 h5 h6 h7 => ?_⟩
  rotate_right
  · by_cases e : l = k
    · subst e
      rw [hk] at h1; simp at h1; subst h1
      simp [hl] at h2; subst h2
      exact hf h3 h4 k' V x h5 h6 h7
    · simp only [List.getElem?_set_ne (Ne.symm e)] at h2
      rw [h1] at h2; simp at h2; subst h2; rw [h3] at h4; simp at h4
  all_goals by_cases e : j = k
  · subst e
    rw [b1] at h1; rw [b2] at h2
    simp [h1, h2] at hc
    cases hw : (N.h p j).wait with
    | nil => exact .inl rfl
    | cons x l => exact .inr ⟨T', by simp [hl], hc (by rw [hw]; simp)⟩
  · exact absurd ((b3 j e).mpr h1) h2
  · subst e
    rw [b2] at h1; rw [b1] at h2
    simp [h1, h2]
  · exact absurd ((b3 j e).mp h1) h2
  · subst e
    rw [b1] at h1; rw [b2] at h2
    simp [h1, h2]
  · simp [e]
  · subst e
    rw [b2] at h1
    simp [h1]
  · simp [e]
    exact iv.idle p j fun h => h1 ((b3 j e).mpr h)

theorem noDrop_chan {N : Net} {p : Nat} {c' : PCfg} {h' : Nat → HSt} (h : Xtra.NoDrop (N.ch p) c') : N.NoDrop ((N.setCh p c').setHs p h') := by
  intro q
  by_cases e : q = p
  · subst e; simpa using h
  · simp [e, Xtra.NoDrop]

/-- An awaited future of a channel at rest that is served has resolved. -/
theorem rest_resolved {A : Nat → Prop} {cap : Option Nat} {c : PCfg} (hr : PRun cap true c) (hcap : cap ≠ some 0) {bc : Bool}
    (hz : bc = false → c.served) (hzb : bc = true → c.servedAll)
    (hq : c.atRestS A) {f i : Nat} (hf : A f) (hu : c.s.unresolved f i bc ∨ c.s.w.resolved f i bc) : c.s.w.resolved f i bc := by
  rcases hu with hu | hu
  · have he := C51_rest_is_final hr ⟨hq.1.settled hr, hq.2⟩
    cases bc with
    | false =>
      rcases hz rfl with hz | ⟨h0, hl⟩
      · rcases C52_while_running hr hcap hf hu .refl he hz with h | ⟨T, hT, ⟨r, m, h, -⟩, -⟩
        · exact h
        · rcases hq.1.2 T hT with e | ⟨_, e, -⟩ <;> rw [h] at e <;> simp at e
      · exact (C52_after_the_end hr hf hu .refl he h0).resolve_right (hl i)
    | true =>
      rcases hzb rfl with hz | ⟨h0, hl⟩
      · exact .inr (.inl ⟨rfl, C51_broadcast_completes hr hcap hf hu .refl he hz⟩)
      · exact (C52_after_the_end hr hf hu .refl he h0).resolve_right (hl i)
  · exact hu

theorem met_of_resolved {w : World} {f i : Nat} {want : Want} (h : w.resolved f i want.bc) : w.met f i want := by
  cases want with
  | answer => exact h
  | accept => exact .inl h
  | bcast => exact h

theorem met_mono {w w' : World} (h : w.log <:+ w'.log) {f i : Nat} {want : Want} (hr : w.met f i want) : w'.met f i want := by
  cases want with
  | answer => exact resolved_mono h hr
  | accept =>
    rcases hr with hr | hr
    · exact .inl (resolved_mono h hr)
    · exact .inr (h.subset hr)
  | bcast => exact resolved_mono h hr

/-! #### When nothing more happens -/

theorem fin_threads {ok : Allowed} {Ext : Nat → Nat → Prop} {caps : Nat → Option Nat} {n : Nat} {N : Net} (iv : NInv ok caps N)
    (hfin : N.final ok Ext n) {p : Nat} (hp : p < n) : ∀ x ∈ (N.ch p).s.th, x = [] := by
  intro x hx
  cases x with
  | nil => rfl
  | cons m rest =>
    obtain ⟨t, ht⟩ := List.getElem?_of_mem hx
    obtain ⟨s', hs⟩ := exec_enabled ht
    exact absurd ⟨_, ⟨p, hp, .chan (.auto (.exec hs)) (gate_same (iv.idle p))⟩, noDrop_chan rfl⟩ hfin

theorem fin_dozes {ok : Allowed} {Ext : Nat → Nat → Prop} {caps : Nat → Option Nat} {n : Nat} {N : Net} (iv : NInv ok caps N)
    (hfin : N.final ok Ext n) {p : Nat} (hp : p < n) {f : Nat} (hf : N.awaited Ext p f) : (N.ch p).s.w.dozes f := by
  apply Classical.byContradiction
  intro hd
  obtain ⟨s', hs⟩ := await_enabled hd
  exact hfin ⟨_, ⟨p, hp, .chan (.await hf hd hs) (gate_same (iv.idle p))⟩, noDrop_chan rfl⟩

/-- Whatever is on top sleeps, or awaits something. -/
theorem fin_top {ok : Allowed} {Ext : Nat → Nat → Prop} {caps : Nat → Option Nat} {n : Nat} {N : Net} (iv : NInv ok caps N)
    (hfin : N.final ok Ext n) {p : Nat} (hp : p < n) {k : Nat} {T : Task} (hk : (N.ch p).ts[k]? = some T) (hot : (N.ch p).onTop T)
    (hd : T.ph ≠ .done) : T.asleep (N.ch p).s.w ∨ (N.h p k).wait ≠ [] := by
  apply Classical.byContradiction
  intro hn
  simp only [not_or, Classical.not_not] at hn
  obtain ⟨hz, hw⟩ := hn
  rcases C48_never_stuck (iv.run p) (List.mem_of_getElem? hk) hd with ⟨t, s', -, hs⟩ | ⟨s', T', ht, ha, hl⟩
  · exact hfin ⟨_, ⟨p, hp, .chan (.auto (.exec hs)) (gate_same (iv.idle p))⟩, noDrop_chan rfl⟩
  · refine hfin ⟨_, ⟨p, hp, .chan (.auto (.task hk hot ht fun h => absurd h hz)) (gate_task (n := 0) iv hk (by simp [hw]) fun h1 h2 => ?_)⟩,
      noDrop_chan (set_aborted hk ha)⟩
    rw [hl h1] at h2; simp at h2

/-- A sleeping `select` has a caller that awaits something in the future given to it. -/
theorem fin_sel {ok : Allowed} {Ext : Nat → Nat → Prop} {caps : Nat → Option Nat} {n : Nat} {N : Net} (iv : NInv ok caps N)
    (hfin : N.final ok Ext n) {p : Nat} (hp : p < n) {k l : Nat} {T U : Task} (hk : (N.ch p).ts[k]? = some T) (hl : (N.ch p).ts[l]? = some U)
    (hc : U.covers T = true) (hot : (N.ch p).onTop U) (hz : U.asleep (N.ch p).s.w)
    (hno : U.lvl ≠ .once) : (N.ch p).polls k ∧ ∃ x ∈ (N.h p k).wait, x.joined = true := by
  have hcc := hc
  simp only [Task.covers, Bool.and_eq_true, Bool.or_eq_true, bne_iff_ne, beq_iff_eq, ne_eq] at hcc
  obtain ⟨r, hph, cc, wk, ho, -⟩ := hz
  have hlv : U.lvl = .sel := by
    have ok := ((pInv_run (iv.run p)).all l U hl).1
    unfold TaskOk at ok; rw [hph] at ok
    exact (ok.2.2.2.resolve_left hcc.1.1).resolve_right hno
  refine ⟨⟨T, U, r, hk, List.mem_of_getElem? hl, hc, hlv, hph⟩, ?_⟩
  apply Classical.byContradiction
  intro hn
  obtain ⟨s', hs⟩ := call_enabled (s := (N.ch p).s) (cl := .pollRecv r 0) (x := _) (by simp [call, ho]; rfl)
  refine hfin ⟨_, ⟨p, hp, .chan (.auto (.task hl hot (.futReady hph hlv hs) fun _ => .inr (by simp [hlv])))
    (gate_task (n := 0) iv hl (by simp [hph, APh.inUser]) fun _ _ k' V x h1 h2 h3 => ?_)⟩, noDrop_chan (set_aborted hl rfl)⟩
  have e := covers_giver (iv.run p) h1 h2 hk (covers_lt (iv.run p) hk hl hc).2.1
  subst e
  cases hj : x.joined with
  | false => rfl
  | true => exact absurd ⟨x, h3, hj⟩ hn

theorem fin_resume {ok : Allowed} {Ext : Nat → Nat → Prop} {n : Nat} {N : Net} (hfin : N.final ok Ext n) {p : Nat} (hp : p < n) {k : Nat}
    {x : Await} (hm : x ∈ (N.h p k).wait) (hmay : (N.ch p).mayResume k x.joined) : ¬ (N.ch x.p).s.w.met x.f x.i x.want := by
  intro hres
  obtain ⟨l1, l2, e⟩ := List.append_of_mem hm
  exact hfin ⟨_, ⟨p, hp, .resume (.resume (k := k) (n := (N.h p k).fuel) (x := x) (l1 := l1) (l2 := l2) (by rw [← e]) hmay hres)⟩, fun q => rfl⟩

/-- When nothing more happens, nobody awaits anything: direct awaits go down in rank, and awaits in a `select` at least not up, and nothing
but direct awaits is left of a `select` that is over. -/
theorem final_level {ok : Allowed} {Ext : Nat → Nat → Prop} {caps : Nat → Option Nat} {rk : Nat → Nat} {n : Nat} {N : Net}
    (hle : ∀ p j want jn, ok p j want jn → rk j ≤ rk p)
    (hj : ∀ p k T x, p < n → (N.ch p).ts[k]? = some T → (N.ch p).onTop T → x ∈ (N.h p k).wait → rk x.p < rk p)
    (hcl : ∀ p j want jn, p < n → ok p j want jn → j < n) (hcap : ∀ p, p < n → caps p ≠ some 0)
    (hr : NRun ok caps N) (hz : N.served ok n) (hfin : N.final ok Ext n) :
    ∀ p, p < n → (∀ k, (N.h p k).wait = []) ∧ (N.ch p).atRestS (N.awaited Ext p) := by
  have iv := nInv_run hr
  suffices H : ∀ (r p : Nat), rk p = r → p < n → (∀ k, (N.h p k).wait = []) ∧ (N.ch p).atRestS (N.awaited Ext p) from fun p hp => H _ p rfl hp
  intro r
  induction r using Nat.strongRecOn with
  | _ r ih =>
    -- what a channel at rest was asked for has happened
    have rest : ∀ p k x, p < n → x ∈ (N.h p k).wait → (N.ch x.p).atRest → (N.ch x.p).s.w.met x.f x.i x.want := by
      intro p k x hp hm hrest
      obtain ⟨hok, hu⟩ := iv.wait p k x hm
      have hjn := hcl _ _ _ _ hp hok
      have haw : N.awaited Ext x.p x.f := .inr ⟨p, k, x.i, x.want, x.joined, hm⟩
      exact met_of_resolved (rest_resolved (iv.run x.p) (hcap x.p hjn) (fun _ => (hz x.p hjn).1) (fun e => (hz x.p hjn).2 ⟨p, x.joined, by
        have : x.want = .bcast := by cases hx : x.want <;> simp [hx, Want.bc] at e ⊢
        rw [← this]; exact hok⟩) ⟨hrest, fun f hf => fin_dozes iv hfin hjn hf⟩ haw hu)
    have low : ∀ p k x, p < n → rk x.p < r → x ∈ (N.h p k).wait → (N.ch x.p).s.w.met x.f x.i x.want := by
      intro p k x hp hlt hm
      exact rest p k x hp hm (ih _ hlt x.p rfl (hcl _ _ _ _ hp (iv.wait p k x hm).1)).2.1
    -- on top nobody is busy
    have top : ∀ p, rk p = r → p < n → ∀ (k : Nat) (T : Task), (N.ch p).ts[k]? = some T → (N.ch p).onTop T → T.ph ≠ .done →
        T.asleep (N.ch p).s.w := by
      intro p hrp hp k T hk hot hd
      rcases fin_top iv hfin hp hk hot hd with h | h
      · exact h
      · obtain ⟨x, hm⟩ := List.exists_mem_of_ne_nil _ h
        exact absurd (low p k x hp (hrp ▸ hj p k T x hp hk hot hm) hm) (fin_resume hfin hp hm (.inl ⟨T, hk, hot⟩))
    have calm : ∀ p, rk p = r → p < n → (N.ch p).calm := by
      intro p hrp hp
      refine ⟨fin_threads iv hfin hp, fun T hT => ?_⟩
      obtain ⟨k, hk⟩ := List.getElem?_of_mem hT
      by_cases hd : T.ph = .done
      · exact .inl hd
      · by_cases hot : (N.ch p).onTop T
        · exact .inr (.inl (top p hrp hp k T hk hot hd))
        · obtain ⟨l, U, hl, hc⟩ := not_onTop hot
          exact .inr (.inr (given_inUser (covers_lt (iv.run p) hk hl hc).2.1))
    have awake : ∀ p, rk p = r → p < n → ∀ T ∈ (N.ch p).ts, T.ph ≠ .done → ∃ U ∈ (N.ch p).ts, U.b = T.b ∧ U.asleep (N.ch p).s.w := by
      intro p hrp hp T hT hd
      obtain ⟨k, hk⟩ := List.getElem?_of_mem hT
      obtain ⟨l, U, hl, hd', hot, hb, -⟩ := exists_top (iv.run p) (N.ch p).ts.length k (by omega) hk hd
      exact ⟨U, List.mem_of_getElem? hl, hb, top p hrp hp l U hl hot hd'⟩
    -- and so nobody at all
    obtain ⟨τ, M, tm⟩ := timed_run hr
    have nobody : ∀ (m p k : Nat) (T : Task), rk p = r → p < n → (N.ch p).ts[k]? = some T → T.ph.inUser = true → M - τ p k = m → False := by
      intro m
      induction m using Nat.strongRecOn with
      | _ m ihm =>
        intro p k T hrp hp hk hu hm
        have hnd : T.ph ≠ .done := by intro e; rw [e] at hu; simp [APh.inUser] at hu
        have hnz : ∀ r', T.ph ≠ .waiting r' := by intro r' e; rw [e] at hu; simp [APh.inUser] at hu
        have hot : ¬ (N.ch p).onTop T := fun hot => by
          obtain ⟨r', e, -⟩ := top p hrp hp k T hk hot hnd
          exact hnz r' e
        obtain ⟨l, U, hl, hc⟩ := not_onTop hot
        have hcc := hc
        simp only [Task.covers, Bool.and_eq_true, Bool.or_eq_true, bne_iff_ne, beq_iff_eq, ne_eq] at hcc
        by_cases huU : U.ph.inUser = true
        · have h1 := tm.sub p k l T U hk hl hc hu huU
          have h2 := tm.le p l
          exact ihm (M - τ p l) (by omega) p l U hrp hp hl huU rfl
        · have hotU : (N.ch p).onTop U := Classical.byContradiction fun hn => by
            obtain ⟨l', V, hl', hc'⟩ := not_onTop hn
            exact huU (given_inUser (covers_lt (iv.run p) hl hl' hc').2.1)
          obtain ⟨hpo, x, hx, hjn⟩ := fin_sel iv hfin hp hk hl hc hotU (top p hrp hp l U hl hotU hcc.1.2)
            (noOnce_run hr p U (List.mem_of_getElem? hl))
          have hnm := fin_resume hfin hp hx (.inr ⟨hjn, hpo⟩)
          obtain ⟨hok, hun⟩ := iv.wait p k x hx
          have hxn := hcl _ _ _ _ hp hok
          have hrx : rk x.p = r := by
            have := hle _ _ _ _ hok
            by_cases h : rk x.p < r
            · exact absurd (low p k x hp h hx) hnm
            · omega
          have hdz := fin_dozes iv hfin hxn (f := x.f) (.inr ⟨p, k, x.i, x.want, x.joined, hx⟩)
          have hun : (N.ch x.p).s.unresolved x.f x.i x.want.bc := hun.resolve_right fun h => hnm (met_of_resolved h)
          by_cases hsome : ∃ V ∈ (N.ch x.p).ts, V.ph ≠ .done
          · obtain ⟨V, hV, hVd⟩ := hsome
            obtain ⟨W, hW, -, hWz⟩ := awake x.p hrx hxn V hV hVd
            cases hbc : x.want.bc with
            | false =>
              rw [hbc] at hun
              obtain ⟨⟨V', hV', r', mm, hp', hid⟩, -⟩ := calm_request (iv.run x.p) (hcap x.p hxn) (calm x.p hrx hxn) ⟨W, hW, hWz⟩ hdz hun
              obtain ⟨l', hl'⟩ := List.getElem?_of_mem hV'
              have h1 := tm.msg p k x l' V' r' mm hx hl' hp' hid
              have h2 := tm.le x.p l'
              exact ihm (M - τ x.p l') (by omega) x.p l' V' hrx hxn hl' (by rw [hp']; rfl) rfl
            | true =>
              rw [hbc] at hun
              have hza := (hz x.p hxn).2 ⟨p, x.joined, by
                have : x.want = .bcast := by cases hx : x.want <;> simp [hx, Want.bc] at hbc ⊢
                rw [← this]; exact hok⟩
              rcases hza with hza | ⟨h0, -⟩
              · refine calm_broadcast (iv.run x.p) (hcap x.p hxn) (calm x.p hrx hxn) (fun b hb => ?_) hdz hun
                obtain ⟨V1, hV1, hb1, hd1⟩ := hza b hb
                obtain ⟨W1, hW1, hb2, hz1⟩ := awake x.p hrx hxn V1 hV1 hd1
                exact ⟨W1, hW1, hb2.trans hb1, hz1⟩
              · obtain ⟨r0, -, cc, wk, ho, -⟩ := hWz
                have : 0 < (N.ch x.p).s.w.mailboxRefs := List.countP_pos_iff.mpr ⟨_, List.mem_of_getElem? ho, rfl⟩
                omega
          · exact hnm (rest p k x hp hx ⟨fin_threads iv hfin hxn, fun V hV => .inl (Classical.byContradiction fun h => hsome ⟨V, hV, h⟩)⟩)
    intro p hrp hp
    have hnb : ∀ k, ¬ (N.ch p).busy k := fun k ⟨T, hk, hu⟩ => nobody _ p k T hrp hp hk hu rfl
    refine ⟨fun k => by rw [iv.idle p k (hnb k)]; rfl, ⟨fin_threads iv hfin hp, fun T hT => ?_⟩, fun f hf => fin_dozes iv hfin hp hf⟩
    obtain ⟨k, hk⟩ := List.getElem?_of_mem hT
    rcases (calm p hrp hp).2 T hT with h | h | h
    · exact .inl h
    · exact .inr h
    · exact absurd ⟨T, hk, h⟩ (hnb k)

theorem final_rest {ok : Allowed} {Ext : Nat → Nat → Prop} {caps : Nat → Option Nat} {rk : Nat → Nat} {n : Nat} {N : Net}
    (hle : ∀ p j want jn, ok p j want jn → rk j ≤ rk p)
    (hj : ∀ p k T x, p < n → (N.ch p).ts[k]? = some T → (N.ch p).onTop T → x ∈ (N.h p k).wait → rk x.p < rk p)
    (hcl : ∀ p j want jn, p < n → ok p j want jn → j < n) (hcap : ∀ p, p < n → caps p ≠ some 0)
    (hr : NRun ok caps N) (hz : N.served ok n) (hfin : N.final ok Ext n) : N.atRest Ext n := by
  intro p hp
  obtain ⟨-, h2⟩ := final_level hle hj hcl hcap hr hz hfin p hp
  refine ⟨h2, fun k => (nInv_run hr).idle p k ?_⟩
  rintro ⟨T, hT, hu⟩
  rcases h2.1.2 T (List.mem_of_getElem? hT) with e | ⟨r, e, -⟩ <;> rw [e] at hu <;> simp [APh.inUser] at hu

/-- **C54.** No deadlock: let awaiting be acyclic, let no capacity be 0, and let every channel be served. Unless the whole network is at rest,
something happens by itself, and no task is dropped for it. -/
theorem C54_progress {ok : Allowed} {Ext : Nat → Nat → Prop} {caps : Nat → Option Nat} {rk : Nat → Nat} {n : Nat} {N : Net}
    (hok : ∀ p j want jn, ok p j want jn → rk j < rk p) (hcl : ∀ p j want jn, p < n → ok p j want jn → j < n) (hcap : ∀ p, p < n → caps p ≠ some 0)
    (hr : NRun ok caps N) (hz : N.served ok n) (hn : ¬ N.atRest Ext n) : ∃ N', NAuto ok Ext n N N' ∧ N.NoDrop N' :=
  Classical.byContradiction fun hfin => hn (final_rest (fun p j want jn h => Nat.le_of_lt (hok p j want jn h))
    (fun p k T x hp _ _ hm => hok _ _ _ _ ((nInv_run hr).wait p k x hm).1) hcl hcap hr hz hfin)

theorem NAutos.run {ok : Allowed} {Ext : Nat → Nat → Prop} {caps : Nat → Option Nat} {n : Nat} {N N' : Net}
    (h : NAutos ok Ext n N N') (hr : NRun ok caps N) : NRun ok caps N' ∧ N.NoDrop N' := by
  induction h with
  | refl => exact ⟨hr, fun _ => rfl⟩
  | step h1 h2 _ ih =>
    obtain ⟨h3, h4⟩ := ih (h1.run hr)
    exact ⟨h3, fun p => (h4 p).trans (h2 p)⟩

/-- **C54.** From every reachable configuration the network gets, in finitely many steps, to where nothing more happens. -/
theorem C54_reaches_rest {ok : Allowed} {Ext : Nat → Nat → Prop} {caps : Nat → Option Nat} {rk : Nat → Nat} {n : Nat} {N : Net}
    (hok : ∀ p j want jn, ok p j want jn → rk j < rk p) (hr : NRun ok caps N) : ∃ N', NAutos ok Ext n N N' ∧ N'.final ok Ext n := by
  have ha := nauto_acc (Ext := Ext) hok n hr
  induction ha with
  | intro N _ ih =>
    by_cases hf : N.final ok Ext n
    · exact ⟨N, .refl, hf⟩
    · obtain ⟨N1, h1, h2⟩ := Classical.not_not.mp hf
      obtain ⟨N2, h3, h4⟩ := ih N1 h1 (h1.run hr)
      exact ⟨N2, .step h1 h2 h3, h4⟩

/-- What a step of the network does to a channel. -/
theorem NAt.channel {ok : Allowed} {Ext : Nat → Nat → Prop} {caps : Nat → Option Nat} {p : Nat} {N N' : Net} (iv : NInv ok caps N)
    (h : NAt ok Ext p N N') (q : Nat) : (N.ch q).s.w.log <:+ (N'.ch q).s.w.log ∧
      ∀ f i bc, (N.ch q).s.unresolved f i bc ∨ (N.ch q).s.w.resolved f i bc → (N'.ch q).s.unresolved f i bc ∨ (N'.ch q).s.w.resolved f i bc := by
  cases h with
  | chan ha g =>
    by_cases e : q = p
    · subst e; rw [setHs_ch, setCh_self]
      refine ⟨?_, fun f i bc hu => ha.unresolved (iv.run q) hu⟩
      have hr := (iv.run q).reachable
      cases ha with
      | auto h =>
        cases h with
        | exec hs => exact step_suffix hr hs
        | task _ _ ht _ => exact tstep_suffix hr ht
      | await _ _ hs =>
        rcases hs with hs | hs
        · exact step_suffix hr hs
        · exact step_suffix hr hs
    · rw [setHs_ch, setCh_ne e]; exact ⟨List.suffix_refl _, fun _ _ _ h => h⟩
  | ask h =>
    cases h with
    | @ask k j n want jn l s' ho hmay hh hs =>
      rw [setH_ch]
      by_cases e : q = j
      · subst e; rw [setCh_self]
        have := asked_ok (iv.run q) hs
        exact ⟨this.ok, this.keeps⟩
      · rw [setCh_ne e]; exact ⟨List.suffix_refl _, fun _ _ _ h => h⟩
  | resume h => cases h; exact ⟨List.suffix_refl _, fun _ _ _ h => h⟩

theorem NMoves.run {ok : Allowed} {Ext : Nat → Nat → Prop} {caps : Nat → Option Nat} {n : Nat} {N N' : Net}
    (h : NMoves ok Ext n N N') (hr : NRun ok caps N) : NRun ok caps N' := by
  induction h with
  | refl => exact hr
  | step h1 h2 _ ih => exact ih (h1.run hr)
  | nest h1 _ ih => exact ih (.step hr (.nest h1))

theorem NAutos.moves {ok : Allowed} {Ext : Nat → Nat → Prop} {n : Nat} {N N' : Net} (h : NAutos ok Ext n N N') : NMoves ok Ext n N N' := by
  induction h with
  | refl => exact .refl
  | step h1 h2 _ ih => exact .step h1 h2 ih

/-- `select` changes nothing by itself. -/
theorem nest_same {p : Nat} {N N' : Net} (h : N.Nest p N') (q : Nat) : (N'.ch q).s = (N.ch q).s ∧ ∀ k, N'.h q k = N.h q k := by
  cases h
  by_cases e : q = p
  · subst e; simp
  · simp [e]

theorem NMoves.unresolved {ok : Allowed} {Ext : Nat → Nat → Prop} {caps : Nat → Option Nat} {n : Nat} {N N' : Net}
    (h : NMoves ok Ext n N N') (hr : NRun ok caps N) {q f i : Nat} {bc : Bool}
    (hu : (N.ch q).s.unresolved f i bc ∨ (N.ch q).s.w.resolved f i bc) :
    (N'.ch q).s.unresolved f i bc ∨ (N'.ch q).s.w.resolved f i bc := by
  induction h with
  | refl => exact hu
  | step h1 _ _ ih =>
    obtain ⟨p, hp, h⟩ := h1
    exact ih (NAuto.run hr ⟨p, hp, h⟩) ((h.channel (nInv_run hr) q).2 f i bc hu)
  | nest h1 _ ih => exact ih (.step hr (.nest h1)) (by rw [(nest_same h1 q).1]; exact hu)

theorem busy_not_aborted {cap : Option Nat} {c : PCfg} (hr : PRun cap true c) {k : Nat} {T : Task} (hk : c.ts[k]? = some T)
    (hu : T.ph.inUser = true) : T.aborted = false := by
  obtain ⟨sh, -⟩ := (pInv_run hr).all k T hk
  unfold TaskOk at sh
  cases ha : T.aborted with
  | false => rfl
  | true => cases hp : T.ph <;> rw [hp] at sh hu <;> simp [TaskOkP, ha, APh.inUser] at sh hu

/-- An await ends only when what it awaits has happened, unless the task is dropped. -/
theorem NAt.wait {ok : Allowed} {Ext : Nat → Nat → Prop} {caps : Nat → Option Nat} {p : Nat} {N N' : Net} (iv : NInv ok caps N)
    (h : NAt ok Ext p N N') (hn : N.NoDrop N') {q k : Nat} {x : Await} (hm : x ∈ (N.h q k).wait) :
    x ∈ (N'.h q k).wait ∨ (N'.ch x.p).s.w.met x.f x.i x.want := by
  cases h with
  | @chan c' h' ha g =>
    by_cases e : q = p
    · subst e
      left
      have hb : (N.ch q).busy k := Classical.byContradiction fun hb => by
        rw [iv.idle q k hb] at hm; simp [HSt.idle] at hm
      rw [setHs_self]
      by_cases hb' : c'.busy k
      · rw [g.keeps k hb hb']; exact hm
      · exfalso
        rcases g.returns k hb hb' with hw | ⟨T', hT', ha'⟩
        · rw [hw] at hm; simp at hm
        · obtain ⟨T, hT, hu⟩ := hb
          have h1 := busy_not_aborted (iv.run q) hT hu
          have h2 := hn q
          simp [Xtra.NoDrop] at h2
          have h3 := congrArg (fun l : List Bool => l[k]?) h2
          simp [hT, hT', ha', h1] at h3
    · left; simpa [e] using hm
  | ask h =>
    cases h with
    | @ask k' j' n want jn l s' ho hmay hh hs =>
      left
      rw [setH_at]
      split
      · rename_i e; obtain ⟨rfl, rfl⟩ := e
        rw [hh] at hm
        exact List.mem_cons_of_mem _ hm
      · exact hm
  | resume h =>
    cases h with
    | @resume k' n y l1 l2 hh hmay hres =>
      rw [setH_at]
      split
      · rename_i e; obtain ⟨rfl, rfl⟩ := e
        rw [hh] at hm
        simp at hm ⊢
        rcases hm with hm | rfl | hm
        · exact .inl (.inl hm)
        · exact .inr hres
        · exact .inl (.inr hm)
      · exact .inl hm

theorem NMoves.wait {ok : Allowed} {Ext : Nat → Nat → Prop} {caps : Nat → Option Nat} {n : Nat} {N N' : Net}
    (h : NMoves ok Ext n N N') (hr : NRun ok caps N) {q k : Nat} {x : Await}
    (hm : x ∈ (N.h q k).wait ∨ (N.ch x.p).s.w.met x.f x.i x.want) :
    x ∈ (N'.h q k).wait ∨ (N'.ch x.p).s.w.met x.f x.i x.want := by
  induction h with
  | refl => exact hm
  | step h1 h2 _ ih =>
    obtain ⟨p, hp, h⟩ := h1
    refine ih (NAuto.run hr ⟨p, hp, h⟩) ?_
    rcases hm with hm | hm
    · exact h.wait (nInv_run hr) h2 hm
    · exact .inr (met_mono (h.channel (nInv_run hr) x.p).1 hm)
  | nest h1 _ ih => exact ih (.step hr (.nest h1)) (by rw [(nest_same h1 q).2, (nest_same h1 x.p).1]; exact hm)

/-- At rest, after whatever happened by itself, everything awaited has happened. -/
theorem rest_met {ok : Allowed} {Ext : Nat → Nat → Prop} {caps : Nat → Option Nat} {n : Nat} {N N' : Net} (hcap : ∀ p, p < n → caps p ≠ some 0)
    (hr : NRun ok caps N) (hs : NMoves ok Ext n N N') (hz : N'.served ok n) (hrest : N'.atRest Ext n) :
    (∀ q k x, q < n → x ∈ (N.h q k).wait → (N'.ch x.p).s.w.met x.f x.i x.want) ∧
    (∀ p f i, p < n → Ext p f → (N.ch p).s.unresolved f i false → (N'.ch p).s.w.resolved f i false) ∧
    (∀ p f i, p < n → Ext p f → (N.ch p).s.unresolved f i true → (N'.ch p).servedAll → (N'.ch p).s.w.resolved f i true) := by
  have iv' := nInv_run (hs.run hr)
  refine ⟨fun q k x hq hm => ?_, fun p f i hp hf hu => ?_, fun p f i hp hf hu hza => ?_⟩
  · rcases hs.wait hr (.inl hm) with h | h
    · rw [(hrest q hq).2 k] at h; simp [HSt.idle] at h
    · exact h
  · exact rest_resolved (iv'.run p) (hcap p hp) (fun _ => (hz p hp).1) (fun e => by simp at e) (hrest p hp).1 (.inl hf) (hs.unresolved hr (.inl hu))
  · exact rest_resolved (iv'.run p) (hcap p hp) (fun e => by simp at e) (fun _ => hza) (hrest p hp).1 (.inl hf) (hs.unresolved hr (.inl hu))

/-- **C54.** Nobody hangs. Let awaiting be acyclic, whether direct or by `select` or `join`, and let no capacity be 0. However the
scheduler proceeds: once nothing more can happen
without a new API call, if every channel is served, then the whole network is at rest, all user code of the actors has returned, everything
the actors awaited has happened, and everything the other clients awaited: a request has resolved; so has a broadcast, if the channel is
served for broadcasts. -/
theorem C54_nobody_hangs {ok : Allowed} {Ext : Nat → Nat → Prop} {caps : Nat → Option Nat} {rk : Nat → Nat} {n : Nat} {N N' : Net}
    (hok : ∀ p j want jn, ok p j want jn → rk j < rk p) (hcl : ∀ p j want jn, p < n → ok p j want jn → j < n) (hcap : ∀ p, p < n → caps p ≠ some 0)
    (hr : NRun ok caps N) (hs : NMoves ok Ext n N N') (hfin : N'.final ok Ext n) (hz : N'.served ok n) :
    N'.atRest Ext n ∧
    (∀ q k x, q < n → x ∈ (N.h q k).wait → (N'.ch x.p).s.w.met x.f x.i x.want) ∧
    (∀ p f i, p < n → Ext p f → (N.ch p).s.unresolved f i false → (N'.ch p).s.w.resolved f i false) ∧
    (∀ p f i, p < n → Ext p f → (N.ch p).s.unresolved f i true → (N'.ch p).servedAll → (N'.ch p).s.w.resolved f i true) := by
  have hrest : N'.atRest Ext n := Classical.byContradiction fun hn => hfin (C54_progress hok hcl hcap (hs.run hr) hz hn)
  exact ⟨hrest, rest_met hcap hr hs hz hrest⟩

/-- A request that has resolved in a channel at rest, with a running actor, has resolved to a handler's value, or it is known why not. -/
theorem rest_ok {cap : Option Nat} {c : PCfg} (hr : PRun cap true c) (hcap : cap ≠ some 0) (hq : c.settled) (hz : ∃ T ∈ c.ts, T.ph ≠ .done)
    {f i : Nat} (h : c.s.w.resolved f i false) : (∃ v, .replyOk f i v ∈ c.s.w.log ∧ .handled i v ∈ c.s.w.log) ∨
      (.replyInt f i ∈ c.s.w.log ∧ ((∃ T ∈ c.ts, DroppedTask c.s.w i T) ∨ (.lost i ∈ c.s.w.log ∧ ∃ T ∈ c.ts, CancelledTask c.s.w T))) := by
  obtain ⟨T, hT, hd⟩ := hz
  obtain ⟨U, hU, -, hsl⟩ := hq.sleeper hr hT hd
  obtain ⟨-, hrcv, hsc, -⟩ := at_rest_gen hr hcap hq ⟨U, hU, hsl⟩
  rcases h with hre | ⟨hre, -⟩ | ⟨-, ⟨v, hre⟩ | hre⟩
  · exact ((C10_err_means_disconnected hr.reachable hre).elim hrcv hsc).elim
  · simp at hre
  · exact .inl ⟨v, hre, ((C18_replies hr.reachable).1 f i v hre).2.1⟩
  · exact .inr ⟨hre, C49_only_own_request hr hrcv hre⟩

/-- **C54.** Every awaited request is answered, or it is known why not: as `C54_nobody_hangs`, and in the channels where an actor is still
running, the request has resolved to `Ok(v)` where `v` is the value that a completed handler invocation of this very message returned; or to
`Interrupted`, because the task handling it was dropped, or because of the race of C03. -/
theorem C54_answered {ok : Allowed} {Ext : Nat → Nat → Prop} {caps : Nat → Option Nat} {rk : Nat → Nat} {n : Nat} {N N' : Net}
    (hok : ∀ p j want jn, ok p j want jn → rk j < rk p) (hcl : ∀ p j want jn, p < n → ok p j want jn → j < n) (hcap : ∀ p, p < n → caps p ≠ some 0)
    (hr : NRun ok caps N) (hs : NMoves ok Ext n N N') (hfin : N'.final ok Ext n) (hz : N'.served ok n) {p f i : Nat} (hp : p < n)
    (hrun : ∃ T ∈ (N'.ch p).ts, T.ph ≠ .done)
    (hf : (Ext p f ∧ (N.ch p).s.unresolved f i false) ∨ ∃ q k jn, q < n ∧ ⟨p, f, i, .answer, jn⟩ ∈ (N.h q k).wait) :
    (∃ v, .replyOk f i v ∈ (N'.ch p).s.w.log ∧ .handled i v ∈ (N'.ch p).s.w.log) ∨
    (.replyInt f i ∈ (N'.ch p).s.w.log ∧ ((∃ T ∈ (N'.ch p).ts, DroppedTask (N'.ch p).s.w i T) ∨
      (.lost i ∈ (N'.ch p).s.w.log ∧ ∃ T ∈ (N'.ch p).ts, CancelledTask (N'.ch p).s.w T))) := by
  obtain ⟨h1, h2, h3, -⟩ := C54_nobody_hangs hok hcl hcap hr hs hfin hz
  refine rest_ok ((nInv_run (hs.run hr)).run p) (hcap p hp) ((h1 p hp).1.1.settled ((nInv_run (hs.run hr)).run p)) hrun ?_
  rcases hf with ⟨he, hu⟩ | ⟨q, k, jn, hq, hm⟩
  · exact h3 p f i hp he hu
  · exact h2 q k _ hq hm

end Xtra
