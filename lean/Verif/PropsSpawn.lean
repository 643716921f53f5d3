import Verif.PropsStopAll
import Verif.PropsAgree
import Verif.PropsGrace
/-!
# C74: an actor runs until it is told to stop

`spawn.rs:1-59`: `spawn_tokio`, `spawn_async_std`, `spawn_smol` and `spawn_wasm_bindgen` hand `run(mailbox, actor)` to an executor (the step
`PStep.spawn` of `Verif/Pool.lean`) and give the address back. The actor is then out of sight: what its user relies on is that it goes on
receiving until somebody stops it, and that it is reachable meanwhile.
-/

set_option linter.unusedSimpArgs false

namespace Xtra

/-! ## Specification -/

/-- The step from `c` to `c'` is a call of `Context::stop_self` (context.rs:13-15) by the handler that the event loop `k` itself is running. -/
def PCfg.stopsSelf (c : PCfg) (k : Nat) (c' : PCfg) : Prop :=
  ∃ T r, c.ts[k]? = some T ∧ T.ph.cur = some r ∧ c.s.step (.call (.stopSelf r)) = some c'.s ∧ c'.ts = c.ts

/-- Everything that can happen as long as no handler of the event loop `k` calls `stop_self`. (Others may.) -/
inductive PRunOn (cap : Option Nat) (closed : Bool) (k : Nat) : PCfg → Prop where
  | new : PRunOn cap closed k ⟨init cap, []⟩
  | step {c c' : PCfg} : PRunOn cap closed k c → PStep closed c c' → ¬ c.stopsSelf k c' → PRunOn cap closed k c'

/-- Nobody has called `stop_all`: no such notice has been put out. -/
def World.noStopAll (w : World) : Prop := ∀ e ∈ w.log, e.isStopAll = false

/-- The event loop receives, handles, or is about to: it has not stopped, nor is it about to. -/
def Task.receiving (T : Task) : Prop :=
  T.ph = .idle ∨ (∃ r, T.ph = .waiting r) ∨ (∃ r t, T.ph = .polling r t) ∨ (∃ r am, T.ph = .got r am ∧ am.isStop = false) ∨
    (∃ r am, T.ph = .handling r am) ∨ ∃ r am v t, T.ph = .finishing r am v false t

/-! ## Proofs -/

theorem PRunOn.run {cap : Option Nat} {closed : Bool} {k : Nat} {c : PCfg} (h : PRunOn cap closed k c) : PRun cap closed c := by
  induction h with
  | new => exact .new
  | step _ hs _ ih => exact .step ih hs

/-- The dispatch in hand, and those before, break off only because of a notice. -/
structure Unstopped (s : Sys) (T : Task) : Prop where
  hand : ∀ r am x b, T.ph = .handling r am → s.w.objs[r]? = some (.dispatch b am x) → x = true
  fin : ∀ r am v t, T.ph = .finishing r am v true t → am.isStop = true
  hist : ∀ r am, (r, am, true) ∈ T.hist → am.isStop = true

theorem unstopped_fresh {s : Sys} {i b : Nat} {p : APh} {l : Lvl} (hp : p = .starting ∨ p = .idle) :
    Unstopped s ⟨i, b, p, [], [], false, l⟩ := by
  rcases hp with rfl | rfl <;> exact ⟨by simp, by simp, by simp⟩

/-- Another one's step. -/
theorem Unstopped.frame {cap : Option Nat} {s s' : Sys} {a : Act} {T : Task} (hr : Reachable cap s) (h : Unstopped s T) (ti : TInv s T)
    (hs : s.step a = some s') (hn : ∀ r, T.ph.cur = some r → a ≠ .call (.stopSelf r)) : Unstopped s' T := by
  refine ⟨fun r am x b hp ho => ?_, h.fin, h.hist⟩
  have hi := ti.ph
  rw [hp] at hi
  obtain ⟨⟨y, hy⟩, -⟩ := hi
  have : y = true := h.hand r am y _ hp hy
  subst this
  rcases (dispatch_step hr hs hy).2.2 _ _ _ rfl with h1 | ⟨h1, -⟩ | ⟨-, h1⟩
  · rw [ho] at h1; simp at h1
  · exact absurd h1 (hn r (by rw [hp]; rfl))
  · rw [ho] at h1; simp at h1; exact h1.2

/-- Its own step. -/
theorem Unstopped.own {s s' : Sys} {T T' : Task} (h : Unstopped s T) (ti : TInv s T) (ht : TStep s T s' T') : Unstopped s' T' := by
  cases ht with
  | @dispatch _ _ r am hp ha hs =>
    refine ⟨fun r' am' x b hp' ho => ?_, by simp, h.hist⟩
    simp at hp'; obtain ⟨rfl, rfl⟩ := hp'
    obtain ⟨w', ms, hcl, rfl⟩ := step_call hs
    have hi := ti.ph
    rw [hp] at hi
    have hl := (List.getElem?_eq_some_iff.mp hi.1).1
    cases hcl <;> simp [World.setObj, hl] at ho <;> simp_all
  | notice hp ha hs =>
    refine ⟨by simp, fun r' am' v t hp' => ?_, h.hist⟩
    simp at hp'; obtain ⟨-, rfl, -⟩ := hp'; exact ha
  | finish hp ho hs =>
    refine ⟨by simp, fun r' am2 v t hp' => ?_, h.hist⟩
    simp at hp'
    have hi := ti.ph
    rw [hp] at hi
    obtain ⟨⟨y, hy⟩, -⟩ := hi
    have := h.hand _ _ _ _ hp hy
    rw [ho] at hy; simp at hy
    simp [hy, this] at hp'
  | «loop» hp ht hl =>
    exact ⟨by simp, by simp, fun r' am' hm => h.hist r' am' (by simpa using hm)⟩
  | «break» hp ht hl =>
    refine ⟨by simp, by simp, fun r' am' hm => ?_⟩
    simp at hm
    rcases hm with ⟨rfl, rfl⟩ | hm
    · exact h.fin _ _ _ _ hp
    · exact h.hist r' am' hm
  | «return» hp ht hl =>
    refine ⟨by simp, by simp, fun r' am' hm => ?_⟩
    simp at hm
    rcases hm with ⟨rfl, rfl, rfl⟩ | hm
    · exact h.fin _ _ _ _ hp
    · exact h.hist r' am' hm
  | _ => exact ⟨by simp, by simp, h.hist⟩

theorem unstopped_run {cap : Option Nat} {closed : Bool} {k : Nat} {c : PCfg} (h : PRunOn cap closed k c) :
    ∀ T, c.ts[k]? = some T → Unstopped c.s T := by
  induction h with
  | new => intro T hT; simp at hT
  | @step c c' hr hs hn ih =>
    intro T' hT'
    have pi := pInv_run hr.run
    cases hs with
    | @other a s' hst hcl hs =>
      refine (ih T' hT').frame hr.run.reachable (pi.all k T' hT').2 hs (fun r hc ha => hn ⟨T', r, hT', hc, ?_, rfl⟩)
      subst ha; exact hs
    | spawn ho hi =>
      rcases append_split hT' with ⟨-, hT⟩ | ⟨-, rfl⟩
      · exact ih T' hT
      · exact unstopped_fresh (.inl rfl)
    | nest hk hon hg hl =>
      rcases append_split hT' with ⟨-, hT⟩ | ⟨-, rfl⟩
      · exact ih T' hT
      · exact unstopped_fresh (.inr rfl)
    | @task j T T2 s' hj hon ht =>
      by_cases hjk : j = k
      · subst hjk
        have hl := (List.getElem?_eq_some_iff.mp hj).1
        simp [hl] at hT'; subst hT'
        exact (ih T hj).own (pi.all j T hj).2 ht
      · simp only [List.getElem?_set_ne hjk] at hT'
        cases ht <;> first
          | exact ih T' hT'
          | (refine (ih T' hT').frame hr.run.reachable (pi.all k T' hT').2 (by assumption) (fun r hc ha => by simp at ha))

theorem sc_of_someStrong {cap : Option Nat} {s : Sys} (h : Reachable cap s) (hs : s.someStrong) : s.w.sc ≠ 0 := by
  have := (C14_counts_exact h).1
  unfold Sys.someStrong at hs
  omega

theorem receiving_of {s : Sys} {T : Task} (ok : TaskOk T) (ti : TInv s T) (hl : T.lvl = .run) (ha : T.aborted = false) (hf : T.futs ≠ [])
    (hn : ∀ r am, Ev.recv r T.b am ∈ s.w.log → am.isStop = false) (u : Unstopped s T) : T.receiving ∧ ∀ e ∈ T.hist, e.2.2 = false := by
  have noBreak : ∀ r am, (r, am, true) ∉ T.hist := fun r am hm => by
    have h1 := u.hist r am hm
    rw [hn r am (ti.hist r am true hm).2.1] at h1; simp at h1
  have noBroke : ¬ Broke T.hist := by
    rintro ⟨r, am, l, h1, -⟩
    exact noBreak r am (by rw [h1]; exact List.mem_cons_self ..)
  refine ⟨?_, fun e he => ?_⟩
  · unfold TaskOk at ok
    have hi := ti.ph
    have hfin := u.fin
    generalize hp : T.ph = p at ok hi hfin
    unfold Task.receiving
    rw [hp]
    cases p with
    | starting => exact absurd ok.1 hf
    | idle => exact .inl rfl
    | waiting r => exact .inr (.inl ⟨r, rfl⟩)
    | polling r t => exact .inr (.inr (.inl ⟨r, t, rfl⟩))
    | got r am => exact .inr (.inr (.inr (.inl ⟨r, am, rfl, hn r am hi.2⟩)))
    | handling r am => exact .inr (.inr (.inr (.inr (.inl ⟨r, am, rfl⟩))))
    | finishing r am v brk t =>
      cases brk with
      | false => exact .inr (.inr (.inr (.inr (.inr ⟨r, am, v, t, rfl⟩))))
      | true =>
        have h1 := hfin r am v t rfl
        rw [hn r am hi.1] at h1; simp at h1
    | stopping => exact absurd ok.2.1 noBroke
    | aborting r am t =>
      simp [TaskOkP, ha, hl] at ok
    | leaving t =>
      simp [TaskOkP, ha] at ok
      rcases ok.2.2 with h1 | h1
      · rw [ok.2.1, h1] at hf; simp at hf
      · exact absurd h1 noBroke
    | done =>
      simp [TaskOkP, ha, hl] at ok
      rcases ok.2 with h1 | h1
      · rw [ok.1, h1] at hf; simp at hf
      · exact absurd h1 noBroke
  · obtain ⟨r, am, brk⟩ := e
    cases brk with
    | false => rfl
    | true => exact absurd he (noBreak r am)

/-- What becomes of an actor whose handler of `am` (receive `r`) has called `stop_self`, when it had dispatched `H` before. -/
def StopsAfter (s : Sys) (r : Nat) (am : AMsg) (F : List Nat) (H : List (Nat × AMsg × Bool)) (T : Task) : Prop :=
  T.futs = F ∧ T.lvl = .run ∧
    ((T.ph = .handling r am ∧ s.w.objs[r]? = some (.dispatch T.b am false) ∧ T.hist = H) ∨
      (∃ v t, T.ph = .finishing r am v true t ∧ T.hist = H) ∨
      (T.ph = .stopping ∧ T.hist = (r, am, true) :: H) ∨
      (T.ph.hasBox = false ∧ T.hist = (r, am, true) :: H) ∨
      (T.aborted = true ∧ T.hist = H ∧ (T.ph.hasBox = false ∨ ∃ t, T.ph = .aborting r (some am) t)))

theorem StopsAfter.frame {cap : Option Nat} {s s' : Sys} {a : Act} {r : Nat} {am : AMsg} {F : List Nat} {H : List (Nat × AMsg × Bool)} {T : Task}
    (hr : Reachable cap s) (hs : s.step a = some s') (ti : TInv s' T) (h : StopsAfter s r am F H T) : StopsAfter s' r am F H T := by
  obtain ⟨h1, h2, h3⟩ := h
  refine ⟨h1, h2, h3.imp (fun ⟨hp, ho, hh⟩ => ⟨hp, ?_, hh⟩) id⟩
  have hi := ti.ph
  rw [hp] at hi
  obtain ⟨⟨y, hy⟩, -⟩ := hi
  rcases (dispatch_step hr hs ho).2.2 _ _ _ rfl with h1 | ⟨-, h1⟩ | ⟨-, h1⟩
  · rw [hy] at h1; simp at h1
  · exact h1
  · exact h1

theorem StopsAfter.own {s s' : Sys} {r : Nat} {am : AMsg} {F : List Nat} {H : List (Nat × AMsg × Bool)} {T T' : Task}
    (ht : TStep s T s' T') (h : StopsAfter s r am F H T) : StopsAfter s' r am F H T' := by
  obtain ⟨h1, h2, h3⟩ := h
  unfold StopsAfter
  cases ht <;>
    rcases h3 with ⟨hp, ho, hh⟩ | ⟨v, t, hp, hh⟩ | ⟨hp, hh⟩ | ⟨hp, hh⟩ | ⟨ha, hh, hp | ⟨t, hp⟩⟩ <;> simp_all [APh.hasBox]

theorem StopsAfter.steps {cap : Option Nat} {closed : Bool} {k : Nat} {r : Nat} {am : AMsg} {F : List Nat} {H : List (Nat × AMsg × Bool)} {c c' : PCfg}
    (hs : PSteps closed c c') : PRun cap closed c → ∀ T, c.ts[k]? = some T → StopsAfter c.s r am F H T →
      ∃ T', c'.ts[k]? = some T' ∧ StopsAfter c'.s r am F H T' := by
  induction hs with
  | refl => exact fun _ T hT h => ⟨T, hT, h⟩
  | @step c c1 c' h1 _ ih =>
    intro hr T hT h
    have hr1 := PRun.step hr h1
    have pi := pInv_run hr1
    have : ∃ T1, c1.ts[k]? = some T1 ∧ StopsAfter c1.s r am F H T1 := by
      cases h1 with
      | @other a s' hst hcl hs => exact ⟨T, hT, h.frame hr.reachable hs (pi.all k T hT).2⟩
      | spawn ho hi =>
        have hl := (List.getElem?_eq_some_iff.mp hT).1
        exact ⟨T, by simp [List.getElem?_append_left hl, hT], h⟩
      | nest hk hon hg hl =>
        have hl := (List.getElem?_eq_some_iff.mp hT).1
        exact ⟨T, by simp [List.getElem?_append_left hl, hT], h⟩
      | @task j U U2 s' hj hon ht =>
        by_cases hjk : j = k
        · subst hjk
          have hl := (List.getElem?_eq_some_iff.mp hj).1
          rw [hT] at hj; cases hj
          exact ⟨U2, by simp [hl], h.own ht⟩
        · have hT1 : (c.ts.set j U2)[k]? = some T := by rw [List.getElem?_set_ne hjk]; exact hT
          have ti := (pi.all k T hT1).2
          refine ⟨T, hT1, ?_⟩
          cases ht <;> first
            | exact h
            | exact h.frame hr.reachable (by assumption) ti
    obtain ⟨T1, hT1, h2⟩ := this
    exact ih hr1 T1 hT1 h2

/-! ## Theorems -/

/-- **C74.** An actor runs until it is told to stop. As long as a strong address exists anywhere, nobody has called `stop_all` and no handler of
its event loop has called `stop_self`, an actor that has begun to receive and whose task is not dropped is receiving or handling, whatever
else happens on the channel: neither what senders and other actors of the pool do (who may stop themselves, or be dropped), nor
what its handlers return can end it. Every dispatch so far evaluated to `Continue`. -/
theorem C74_runs_on {cap : Option Nat} {closed : Bool} {k : Nat} {c : PCfg} (h : PRunOn cap closed k c) {T : Task} (hT : c.ts[k]? = some T)
    (hl : T.lvl = .run) (ha : T.aborted = false) (hf : T.futs ≠ []) (hs : c.s.someStrong) (hn : c.s.w.noStopAll) :
    T.receiving ∧ ∀ e ∈ T.hist, e.2.2 = false := by
  obtain ⟨ok, ti⟩ := (pInv_run h.run).all k T hT
  have hr := h.run.reachable
  refine receiving_of ok ti hl ha hf (fun r am he => ?_) (unstopped_run h T hT)
  cases am with
  | one m => rfl
  | shutdown => exact absurd (told_sc hr ⟨r, _, he⟩) (sc_of_someStrong hr hs)
  | all m =>
    obtain ⟨ts, hts⟩ : bcAcc c.s.w.log m := (kInv_reachable hr).evs _ he
    exact hn _ hts

/-- **C74.** A spawned actor is reachable until it has stopped: as long as its `run` has not returned or been dropped, and somebody holds a
strong address, nobody was ever told otherwise: no `is_connected` gave false, no send failed with `Disconnected`, no upgrade failed, no join
handle resolved and no actor received the shutdown notice. -/
theorem C74_stays_connected {cap : Option Nat} {closed : Bool} {c : PCfg} (h : PRun cap closed c) {T : Task} (hT : T ∈ c.ts) (hl : T.lvl = .run)
    (hb : T.ph.hasBox = true) (hs : c.s.someStrong) : ∀ e ∈ c.s.w.log, e.tellsEnd = false := by
  intro e he
  obtain ⟨k, hk⟩ := List.getElem?_of_mem hT
  have hbox := ((pInv_run h).all k T hk).2.box hl hb
  cases ht : e.tellsEnd with
  | false => rfl
  | true =>
    rcases (C67_observations_are_true h.reachable he ht).1 with h0 | h0
    · have h1 := rcv_reachable h.reachable
      have : 0 < sumBy oRcv c.s.w.objs := (sumBy_pos _).mpr ⟨_, List.mem_of_getElem? hbox, by simp [oRcv]⟩
      omega
    · exact absurd h0 (sc_of_someStrong h.reachable hs)

/-- **C74.** `stop_self` stops the actor after the message in hand. Once the handler of `am` has called it, then, whatever happens
afterwards, the event loop makes no further receive and dispatches nothing more but this message; if it is not dropped, the dispatch of this
message is the last entry of its history, with `Break`, by the time `stopped` is called or `run` has returned; and it does return: when
everything has come to rest it has, unless the handler itself still awaits a `select`, `join` or `yield_once`. -/
theorem C74_stop_self {cap : Option Nat} {closed : Bool} {k : Nat} {c0 c c' : PCfg} (h0 : PRun cap closed c0) {T : Task} (hT0 : c0.ts[k]? = some T)
    (hl : T.lvl = .run) {r : Nat} {am : AMsg} (hp : T.ph = .handling r am) (hc : c0.stopsSelf k c) (hs : PSteps closed c c') :
    ∃ T', c'.ts[k]? = some T' ∧ T'.futs = T.futs ∧ (T'.hist = T.hist ∨ T'.hist = (r, am, true) :: T.hist) ∧
      (T'.aborted = false → T'.ph = .stopping ∨ T'.ph.hasBox = false → T'.hist = (r, am, true) :: T.hist) ∧
      (c'.settled → T'.ph = .done ∨ ∃ U ∈ c'.ts, U.covers T' = true) := by
  obtain ⟨T1, r1, hT1, hcur, hst, hts⟩ := hc
  rw [hT0] at hT1; cases hT1
  rw [hp] at hcur; cases hcur
  have h : PRun cap closed c := by
    have h1 := PRun.step h0 (.other (a := .call (.stopSelf r)) (fun U _ => rfl) (fun _ i => by simp) hst)
    rw [show ({ c0 with s := c.s } : PCfg) = c by rw [← hts]] at h1
    exact h1
  have hT : c.ts[k]? = some T := by rw [hts]; exact hT0
  have ho : c.s.w.objs[r]? = some (.dispatch T.b am false) := by
    have hi := ((pInv_run h0).all k T hT0).2.ph
    rw [hp] at hi
    obtain ⟨⟨y, hy⟩, -⟩ := hi
    rcases (dispatch_step h0.reachable hst hy).2.2 _ _ _ rfl with h1 | ⟨-, h1⟩ | ⟨h1, -⟩
    · have hi := ((pInv_run h).all k T hT).2.ph
      rw [hp] at hi
      obtain ⟨⟨y, hy⟩, -⟩ := hi
      rw [h1] at hy; simp at hy
    · exact h1
    · exact absurd rfl h1
  obtain ⟨T', hT', hf, hl', hd⟩ := StopsAfter.steps (F := T.futs) (H := T.hist) hs h T hT ⟨rfl, hl, .inl ⟨hp, ho, rfl⟩⟩
  refine ⟨T', hT', hf, ?_, fun ha hq => ?_, fun hq => ?_⟩
  · rcases hd with ⟨_, _, hh⟩ | ⟨_, _, _, hh⟩ | ⟨_, hh⟩ | ⟨_, hh⟩ | ⟨_, hh, _⟩
    · exact .inl hh
    · exact .inl hh
    · exact .inr hh
    · exact .inr hh
    · exact .inl hh
  · rcases hd with ⟨hp, _, hh⟩ | ⟨_, _, hp, hh⟩ | ⟨_, hh⟩ | ⟨_, hh⟩ | ⟨ha', hh, _⟩
    · simp [hp, APh.hasBox] at hq
    · simp [hp, APh.hasBox] at hq
    · exact hh
    · exact hh
    · rw [ha] at ha'; simp at ha'
  · rcases hq.2 T' (List.mem_of_getElem? hT') with h1 | ⟨⟨r', h1, -⟩, -⟩ | h1
    · exact .inl h1
    · exfalso
      rcases hd with ⟨hp, _⟩ | ⟨_, _, hp, hh⟩ | ⟨hp, hh⟩ | ⟨hp, hh⟩ | ⟨ha', hh, hp | ⟨t, hp⟩⟩ <;> rw [h1] at hp <;> simp [APh.hasBox] at hp
    · exact .inr h1

/-! ## Examples -/

/-- Executable form of `PCfg.stopsSelf`. -/
def PCfg.stopsSelfD (c : PCfg) (k : Nat) (c' : PCfg) : Bool :=
  match c.ts[k]? with
  | some T => match T.ph.cur with
    | some r => c.s.step (.call (.stopSelf r)) == some c'.s && c'.ts == c.ts
    | none => false
  | none => false

theorem stopsSelf_dec {c c' : PCfg} {k : Nat} (h : c.stopsSelfD k c' = false) : ¬ c.stopsSelf k c' := by
  rintro ⟨T, r, h1, h2, h3, h4⟩
  simp [PCfg.stopsSelfD, h1, h2, h3, h4] at h

/-- Runs a schedule as long as nobody calls `stop_self` in event loop `k`. -/
def PCfg.runOn (c : PCfg) (k : Nat) : List PAct → Option PCfg
  | [] => some c
  | a :: as => match c.step a with
    | some c' => match c.stopsSelfD k c' with
      | false => c'.runOn k as
      | true => none
    | none => none

theorem PRunOn.runOn {cap : Option Nat} {k : Nat} {c c' : PCfg} (h : PRunOn cap true k c) {as : List PAct} (hr : c.runOn k as = some c') :
    PRunOn cap true k c' := by
  induction as generalizing c with
  | nil => simp [PCfg.runOn] at hr; subst hr; exact h
  | cons a as ih =>
    simp only [PCfg.runOn] at hr
    split at hr
    · rename_i h1
      split at hr
      · rename_i h2; exact ih (.step h (PCfg.step_sound h1) (stopsSelf_dec h2)) hr
      · simp at hr
    · simp at hr

def noStopAllD (l : List Ev) : Bool := l.all (fun e => !e.isStopAll)

theorem noStopAll_dec {w : World} (h : noStopAllD w.log = true) : w.noStopAll := by
  intro e he
  simpa using List.all_eq_true.mp h e he

/-- Two actors of a pool: the first one's handler has called `stop_self` and its `run` has returned; the second one, in whose handlers nobody
calls it, receives on, and is reachable. -/
example : ∃ c T, PRunOn none true 1 c ∧ c.ts[1]? = some T ∧ T.lvl = .run ∧ T.aborted = false ∧ T.futs ≠ [] ∧ T.ph.hasBox = true ∧
    c.s.someStrong ∧ c.s.w.noStopAll ∧ ∃ T0, c.ts[0]? = some T0 ∧ T0.ph = .done :=
  ⟨_, _, PRunOn.runOn .new (as := stopSched) rfl, rfl, rfl, rfl, by decide, rfl, by unfold Sys.someStrong; decide, noStopAll_dec (by decide),
    _, rfl, rfl⟩

/-- One actor handles a request (7) and waits again: it has dispatched something, with `Continue`. -/
example : ∃ c T, PRunOn none true 0 c ∧ c.ts[0]? = some T ∧ T.lvl = .run ∧ T.aborted = false ∧ T.futs.length = 2 ∧ T.hist.length = 1 ∧
    c.s.someStrong ∧ c.s.w.noStopAll :=
  ⟨_, _, PRunOn.runOn .new (as := oneSched) rfl, rfl, rfl, rfl, rfl, rfl, by unfold Sys.someStrong; decide, noStopAll_dec (by decide)⟩

/-- A handler has called `stop_self`; afterwards everything comes to rest. -/
example : ∃ c0 c c' T, PRun none true c0 ∧ c0.ts[0]? = some T ∧ T.lvl = .run ∧ T.ph = .handling 3 (.one ⟨0, .valued 0⟩) ∧ c0.stopsSelf 0 c ∧
    PSteps true c c' ∧ c'.settled ∧ ∃ T', c'.ts[0]? = some T' ∧ T'.ph = .done :=
  ⟨_, ⟨_, _⟩, _, _, PRun.run .new (as := stopSched.take 27) rfl, rfl, rfl, rfl, ⟨_, _, rfl, rfl, rfl, rfl⟩, psteps_of_run (stopSched.drop 28) rfl,
    settled_dec (by decide) (by decide), _, rfl, rfl⟩

end Xtra
