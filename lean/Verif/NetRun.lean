import Verif.PropsMutual
/-! Executable schedules of networks of actors, for the concrete cases beside the theorems of C54 and C55. -/

set_option linter.unusedSimpArgs false

namespace Xtra

inductive NAct where
  | exec (p t : Nat)
  | call (p : Nat) (c : Call)
  | spawn (p i n : Nat)
  | task (p k : Nat) (a : TAct) (n : Nat)
  /-- the future `f` of channel `p` is polled -/
  | poll (p f wk : Nat)
  | ask (p k j a : Nat) (want : Want) (jn : Bool)
  /-- user code of task `k` of channel `p` calls `select` -/
  | nest (p k : Nat)
  | resume (p k m : Nat)
  deriving DecidableEq, Repr

/-- The call takes no send future or `Receiver` from anybody. -/
def Call.gentle : Call → Bool
  | .dropSend _ => false
  | .setPrio _ _ => false
  | .dropReply _ => false
  | .next _ => false
  | _ => true

theorem gentle_polite {c : Call} (h : c.gentle = true) (f : Nat) : c.polite f = true := by
  cases c <;> simp [Call.gentle, Call.polite] at h ⊢

def logHas (w : World) (f i : Nat) : Bool :=
  w.log.any fun e => match e with
    | .sendErr f' i' => f' == f && i' == i
    | .replyOk f' i' _ => f' == f && i' == i
    | .replyInt f' i' => f' == f && i' == i
    | _ => false

theorem logHas_iff {w : World} {f i : Nat} : logHas w f i = true ↔ w.resolved f i false := by
  unfold logHas World.resolved
  rw [List.any_eq_true]
  constructor
  · rintro ⟨e, he, h⟩
    cases e <;> simp at h
    case sendErr => obtain ⟨rfl, rfl⟩ := h; exact .inl he
    case replyOk => obtain ⟨rfl, rfl⟩ := h; exact .inr (.inr ⟨rfl, .inl ⟨_, he⟩⟩)
    case replyInt => obtain ⟨rfl, rfl⟩ := h; exact .inr (.inr ⟨rfl, .inr he⟩)
  · rintro (h | ⟨h, -⟩ | ⟨-, ⟨v, h⟩ | h⟩)
    · exact ⟨_, h, by simp⟩
    · simp at h
    · exact ⟨_, h, by simp⟩
    · exact ⟨_, h, by simp⟩

def metB (w : World) (x : Await) : Bool :=
  match x.want with
  | .answer => logHas w x.f x.i
  | .accept => logHas w x.f x.i || decide (.sendOk x.f x.i ∈ w.log)
  | .bcast => decide (.sendErr x.f x.i ∈ w.log) || decide (.sendOk x.f x.i ∈ w.log)

theorem metB_met {w : World} {x : Await} (h : metB w x = true) : w.met x.f x.i x.want := by
  unfold metB at h
  cases e : x.want <;> simp only [e] at h
  · exact logHas_iff.mp h
  · simp at h
    rcases h with h | h
    · exact .inl (logHas_iff.mp h)
    · exact .inr h
  · simp at h
    rcases h with h | h
    · exact .inl h
    · exact .inr (.inl ⟨rfl, h⟩)

/-- `Asked` as a function. -/
def Sys.asked (s : Sys) (a : Nat) : Want → Option Sys
  | .answer => s.step (.call (.send a))
  | .bcast => s.step (.call (.broadcast a))
  | .accept => match s.step (.call (.send a)) with
    | some s1 => s1.step (.call (.detach s.w.objs.length))
    | none => none

theorem asked_sound {s s' : Sys} {a : Nat} {want : Want} (h : s.asked a want = some s') : Asked s want s' := by
  cases want <;> simp only [Sys.asked] at h
  · exact .send h
  · split at h
    · exact .detach (.send (by assumption)) h
    · simp at h
  · exact .bcast h

def PCfg.runsB (c : PCfg) (k : Nat) : Bool :=
  match c.ts[k]? with
  | some T => c.ts.all (fun U => !U.covers T)
  | none => false

theorem runsB_iff {c : PCfg} {k : Nat} : c.runsB k = true ↔ c.runs k := by
  unfold PCfg.runsB PCfg.runs
  cases c.ts[k]? with
  | none => simp
  | some T => simp [PCfg.onTop]

def APh.isWaiting : APh → Bool
  | .waiting _ => true
  | _ => false

def PCfg.pollsB (c : PCfg) (k : Nat) : Bool :=
  match c.ts[k]? with
  | some T => c.ts.any fun U => U.covers T && U.lvl == .sel && U.ph.isWaiting
  | none => false

theorem pollsB_iff {c : PCfg} {k : Nat} : c.pollsB k = true ↔ c.polls k := by
  unfold PCfg.pollsB PCfg.polls
  cases c.ts[k]? with
  | none => simp
  | some T =>
    simp only [List.any_eq_true, Bool.and_eq_true, beq_iff_eq]
    constructor
    · rintro ⟨U, h1, ⟨h2, h3⟩, h4⟩
      cases h : U.ph <;> rw [h] at h4 <;> simp [APh.isWaiting] at h4
      exact ⟨T, U, _, rfl, h1, h2, h3, h⟩
    · rintro ⟨T', U, r, h0, h1, h2, h3, h4⟩
      simp at h0; subst h0
      exact ⟨U, h1, ⟨h2, h3⟩, by rw [h4]; rfl⟩

instance (U T : Task) : Decidable (U.cutShort T) := by unfold Task.cutShort; infer_instance

def PCfg.mayAskB (c : PCfg) (k : Nat) : Bool → Bool
  | false => c.runsB k
  | true => c.pollsB k || match c.ts[k]? with
    | some T => c.ts.all (fun U => !U.covers T) && c.ts.any (fun U => decide (U.cutShort T))
    | none => false

theorem mayAskB_iff {c : PCfg} {k : Nat} {jn : Bool} : c.mayAskB k jn = true ↔ c.mayAsk k jn := by
  cases jn with
  | false => exact runsB_iff
  | true =>
    simp only [PCfg.mayAskB, PCfg.mayAsk, Bool.or_eq_true, pollsB_iff]
    cases c.ts[k]? with
    | none => simp
    | some T => simp [PCfg.onTop]

def PCfg.mayResumeB (c : PCfg) (k : Nat) (jn : Bool) : Bool := c.runsB k || (jn && c.pollsB k)

theorem mayResumeB_iff {c : PCfg} {k : Nat} {jn : Bool} : c.mayResumeB k jn = true ↔ c.mayResume k jn := by
  simp [PCfg.mayResumeB, PCfg.mayResume, runsB_iff, pollsB_iff]

/-- The future given to the `select` `T` is not awaiting anything. -/
def Net.futDone (N : Net) (p : Nat) (T : Task) : Bool :=
  (List.range (N.ch p).ts.length).all fun k => match (N.ch p).ts[k]? with
    | some V => !T.covers V || (N.h p k).wait.all (fun x => !x.joined)
    | none => true

theorem futDone_spec {N : Net} {p : Nat} {T : Task} (h : N.futDone p T = true) (k : Nat) (V : Task) (x : Await)
    (h1 : (N.ch p).ts[k]? = some V) (h2 : T.covers V = true) (h3 : x ∈ (N.h p k).wait) : x.joined = false := by
  have := List.all_eq_true.mp h k (List.mem_range.mpr (List.getElem?_eq_some_iff.mp h1).1)
  rw [h1] at this
  simp [h2] at this
  exact this x h3

/-- `NStep` as a function. -/
def Net.act (N : Net) : NAct → Option Net
  | .exec p t => match (N.ch p).s.step (.exec t) with
    | some s' => some (N.setCh p { N.ch p with s := s' })
    | none => none
  | .call p c => match c.gentle && (N.ch p).ts.all (fun T => !(Act.call c).steals T), (N.ch p).s.step (.call c) with
    | true, some s' => some (N.setCh p { N.ch p with s := s' })
    | _, _ => none
  | .spawn p i n => match (N.ch p).s.w.objs[i]?, (N.ch p).ts.all (fun T => T.i != i) with
    | some (.mailbox b), true =>
      some ((N.setCh p { N.ch p with ts := (N.ch p).ts ++ [⟨i, b, .starting, [], [], false, .run⟩] }).setH p (N.ch p).ts.length ⟨n, []⟩)
    | _, _ => none
  | .task p k a n => match (N.ch p).ts[k]? with
    | some T => match (N.ch p).ts.all (fun U => !U.covers T), tstep (N.ch p).s T a with
      | true, some (s', T') =>
        if (T.lvl == .sel && T'.lvl == .last && !N.futDone p T) then none else
        if T.ph.inUser && !T'.ph.inUser && !(N.h p k).wait.isEmpty && !T'.aborted then none else
        some ((N.setCh p ⟨s', (N.ch p).ts.set k T'⟩).setH p k
          (if T'.ph.inUser then (if T.ph.inUser then N.h p k else ⟨n, []⟩) else .idle))
      | _, _ => none
    | none => none
  | .nest p k => match (N.ch p).ts[k]? with
    | some T => match T.given, (N.ch p).ts.all (fun U => !U.covers T) with
      | some i, true => some (N.setCh p { N.ch p with ts := (N.ch p).ts ++ [⟨i, T.b, .idle, [], [], false, .sel⟩] })
      | _, _ => none
    | none => none
  | .poll p f wk => match (N.ch p).s.step (.call (.pollSend f wk)) with
    | some s' => some (N.setCh p { N.ch p with s := s' })
    | none => none
  | .ask p k j a want jn => match (N.h p k).fuel, (N.ch j).s.asked a want, (N.ch p).mayAskB k jn with
    | n + 1, some s', true => some ((N.setCh j { N.ch j with s := s' }).setH p k
        ⟨n, ⟨j, (N.ch j).s.w.objs.length, (N.ch j).s.w.resp.length, want, jn⟩ :: (N.h p k).wait⟩)
    | _, _, _ => none
  | .resume p k m => match (N.h p k).wait.drop m with
    | x :: l2 => if metB (N.ch x.p).s.w x && (N.ch p).mayResumeB k x.joined then some (N.setH p k ⟨(N.h p k).fuel, (N.h p k).wait.take m ++ l2⟩) else none
    | [] => none

/-- Along `ok` only. -/
def NAct.allowed (ok : Allowed) : NAct → Prop
  | .ask p _ j _ want jn => ok p j want jn
  | _ => True

theorem setH_eq {N : Net} {p k : Nat} {c : PCfg} {x : HSt} :
    (N.setCh p c).setH p k x = (N.setCh p c).setHs p (fun j => if j = k then x else N.h p j) := rfl

theorem act_sound {ok : Allowed} {caps : Nat → Option Nat} {N N' : Net} (iv : NInv ok caps N) {a : NAct} (ha : a.allowed ok)
    (h : N.act a = some N') : NStep ok N N' := by
  cases a <;> simp only [Net.act] at h
  case exec p t =>
    split at h <;> simp at h
    subst h
    exact .other (a := .exec t) (fun _ _ => rfl) (by simp) (by intro f c _ e; cases e) (by assumption)
  case call p c =>
    split at h <;> simp at h
    subst h
    rename_i h1 h2
    simp at h1
    refine .other h1.2 (fun i e => ?_) (fun f c' _ e => ?_) h2
    · cases e; simp [Call.gentle] at h1
    · cases e; exact gentle_polite h1.1 f
  case spawn p i n =>
    split at h <;> simp at h
    subst h
    rename_i h1 h2
    simp at h2
    exact .spawn h1 h2
  case task p k a n =>
    split at h
    · rename_i T hk
      split at h
      · rename_i s' T' hot ht
        split at h
        · simp at h
        · rename_i hf
          split at h
          · simp at h
          · rename_i hc
            simp at h; subst h
            rw [setH_eq]
            exact .task hk (by simpa [PCfg.onTop] using hot) (tstep_sound ht) (gate_task iv hk hc fun h1 h2 => futDone_spec (by simpa [h1, h2] using hf))
      · simp at h
    · simp at h
  case poll p f wk =>
    split at h <;> simp at h
    subst h
    exact .other (a := .call (.pollSend f wk)) (fun _ _ => rfl) (by simp) (by intro f c _ e; cases e; rfl) (by assumption)
  case nest p k =>
    repeat' split at h
    all_goals simp at h
    subst h
    rename_i h1 h2
    exact .nest (.nest (by assumption) (by simpa [PCfg.onTop] using h2) h1)
  case ask p k j a want jn =>
    split at h <;> simp at h
    subst h
    rename_i n s' h1 h2 h3
    exact .ask (.ask ha (mayAskB_iff.mp h3) (show N.h p k = ⟨_ + 1, (N.h p k).wait⟩ by rw [← Nat.succ_eq_add_one, ← h1]) (asked_sound h2))
  case resume p k m =>
    split at h
    · rename_i x l2 hd
      split at h <;> simp at h
      subst h
      rename_i hr
      rw [Bool.and_eq_true] at hr
      refine .resume (.resume (x := x) ?_ (mayResumeB_iff.mp hr.2) (metB_met hr.1))
      conv => lhs; rw [show N.h p k = ⟨(N.h p k).fuel, (N.h p k).wait⟩ from rfl, ← List.take_append_drop m (N.h p k).wait, hd]
    · simp at h

def Net.acts (N : Net) : List NAct → Option Net
  | [] => some N
  | a :: as => match N.act a with
    | some N' => N'.acts as
    | none => none

theorem NRun.acts {ok : Allowed} {caps : Nat → Option Nat} : ∀ (as : List NAct) {N N' : Net}, NRun ok caps N →
    (∀ a ∈ as, a.allowed ok) → N.acts as = some N' → NRun ok caps N' := by
  intro as
  induction as with
  | nil => intro N N' h _ e; simp [Net.acts] at e; subst e; exact h
  | cons a as ih =>
    intro N N' h ha e
    simp only [Net.acts] at e
    split at e
    · rename_i h1
      exact ih (.step h (act_sound (nInv_run h) (ha a (by simp)) h1)) (fun b hb => ha b (by simp [hb])) e
    · simp at e

/-- The action is one of `NAuto` (first `n` channels, futures in `ext` awaited by clients), and drops no task. -/
def Net.autoB (ext : List (Nat × Nat)) (n : Nat) (N : Net) : NAct → Bool
  | .exec p _ => p < n
  | .call _ _ => false
  | .spawn _ _ _ => false
  | .nest _ _ => false
  | .task p k a _ => decide (p < n) && match (N.ch p).ts[k]? with
    | some T => match tstep (N.ch p).s T a with
      | some (_, T') => (!T.asleepB (N.ch p).s.w || T'.lvl != T.lvl) && T'.aborted == T.aborted
      | none => false
    | none => false
  | .poll p f _ => decide (p < n) && !(N.ch p).s.w.dozesB f && (ext.contains (p, f) ||
      (List.range n).any fun q => (List.range (N.ch q).ts.length).any fun k => (N.h q k).wait.any fun x => x.p == p && x.f == f)
  | .ask p _ _ _ _ _ => p < n
  | .resume p _ _ => p < n

theorem autoB_sound {ok : Allowed} {caps : Nat → Option Nat} {ext : List (Nat × Nat)} {n : Nat} {N N' : Net} (iv : NInv ok caps N)
    {a : NAct} (ha : a.allowed ok) (hb : N.autoB ext n a = true) (h : N.act a = some N') :
    NAuto ok (fun p f => (p, f) ∈ ext) n N N' ∧ N.NoDrop N' := by
  cases a <;> simp only [Net.act] at h <;> simp only [Net.autoB] at hb
  case exec p t =>
    split at h <;> simp at h
    subst h
    simp at hb
    rw [← setHs_same]
    exact ⟨⟨p, hb, .chan (.auto (.exec (by assumption))) (gate_same (iv.idle p))⟩, noDrop_chan rfl⟩
  case call => simp at hb
  case spawn => simp at hb
  case nest => simp at hb
  case task p k a m =>
    simp only [Bool.and_eq_true, decide_eq_true_eq] at hb
    obtain ⟨hp, hb⟩ := hb
    split at h
    · rename_i T hk
      rw [hk] at hb
      simp only at hb
      split at h
      · rename_i s' T' hot ht
        rw [ht] at hb
        simp at hb
        split at h
        · simp at h
        · rename_i hf
          split at h
          · simp at h
          · rename_i hc
            simp at h; subst h
            rw [setH_eq]
            refine ⟨⟨p, hp, .chan (.auto (.task hk (by simpa [PCfg.onTop] using hot) (tstep_sound ht) (fun hz => ?_))) (gate_task iv hk hc fun h1 h2 => futDone_spec (by simpa [h1, h2] using hf))⟩,
              noDrop_chan (set_aborted hk hb.2)⟩
            rw [asleepB_of hz] at hb
            simp at hb
            exact .inr hb.1
      · simp at h
    · simp at h
  case poll p f wk =>
    split at h <;> simp at h
    subst h
    simp only [Bool.and_eq_true, decide_eq_true_eq] at hb
    obtain ⟨⟨hp, hd⟩, hb⟩ := hb
    rw [← setHs_same]
    refine ⟨⟨p, hp, .chan (.await ?_ (fun hz => by rw [dozesB_of hz] at hd; simp at hd) (.inl (by assumption))) (gate_same (iv.idle p))⟩,
      noDrop_chan rfl⟩
    rcases Bool.or_eq_true _ _ ▸ hb with hb | hb
    · exact .inl (by simpa using hb)
    · right
      obtain ⟨q, -, hb⟩ := List.any_eq_true.mp hb
      obtain ⟨k, -, hb⟩ := List.any_eq_true.mp hb
      obtain ⟨⟨p', f', i, want, jn⟩, hx, hb⟩ := List.any_eq_true.mp hb
      simp at hb
      obtain ⟨rfl, rfl⟩ := hb
      exact ⟨q, k, i, want, jn, hx⟩
  case ask p k j a want jn =>
    split at h <;> simp at h
    subst h
    rename_i n' s' h1 h2 h3
    simp at hb
    refine ⟨⟨p, hb, .ask (.ask ha (mayAskB_iff.mp h3) (show N.h p k = ⟨_ + 1, (N.h p k).wait⟩ by rw [← Nat.succ_eq_add_one, ← h1]) (asked_sound h2))⟩, fun q => ?_⟩
    rw [setH_ch]
    by_cases e : q = j
    · subst e; rw [setCh_self]; rfl
    · rw [setCh_ne e]; rfl
  case resume p k m =>
    simp at hb
    split at h
    · rename_i x l2 hd
      split at h <;> simp at h
      subst h
      rename_i hr
      rw [Bool.and_eq_true] at hr
      refine ⟨⟨p, hb, .resume (.resume (x := x) ?_ (mayResumeB_iff.mp hr.2) (metB_met hr.1))⟩, fun q => rfl⟩
      conv => lhs; rw [show N.h p k = ⟨(N.h p k).fuel, (N.h p k).wait⟩ from rfl, ← List.take_append_drop m (N.h p k).wait, hd]
    · simp at h

def Net.autos (ext : List (Nat × Nat)) (n : Nat) (N : Net) : List NAct → Option Net
  | [] => some N
  | a :: as => if N.autoB ext n a then match N.act a with
    | some N' => Net.autos ext n N' as
    | none => none
    else none

theorem nautos_sound {ok : Allowed} {caps : Nat → Option Nat} {ext : List (Nat × Nat)} {n : Nat} : ∀ (as : List NAct) {N N' : Net},
    NRun ok caps N → (∀ a ∈ as, a.allowed ok) → N.autos ext n as = some N' → NAutos ok (fun p f => (p, f) ∈ ext) n N N' := by
  intro as
  induction as with
  | nil => intro N N' h _ e; simp [Net.autos] at e; subst e; exact .refl
  | cons a as ih =>
    intro N N' h ha e
    simp only [Net.autos] at e
    split at e
    · rename_i hb
      split at e
      · rename_i h1
        obtain ⟨h2, h3⟩ := autoB_sound (nInv_run h) (ha a (by simp)) hb h1
        exact .step h2 h3 (ih (h2.run h) (fun b hb => ha b (by simp [hb])) e)
      · simp at e
    · simp at e

def PAct.at (p : Nat) : PAct → NAct
  | .other (.exec t) => .exec p t
  | .other (.call (.pollSend f wk)) => .poll p f wk
  | .other (.call c) => .call p c
  | .spawn i => .spawn p i 0
  | .task k a => .task p k a 1
  | .nest k => .nest p k
  | .yieldOnce k => .nest p k

def newNet : Net := ⟨fun _ => ⟨init none, []⟩, fun _ _ => .idle⟩

/-- The channel whose actors' user code is concerned. -/
def NAct.proc : NAct → Nat
  | .exec p _ => p
  | .call p _ => p
  | .spawn p _ _ => p
  | .task p _ _ _ => p
  | .poll p _ _ => p
  | .ask p _ _ _ _ _ => p
  | .nest p _ => p
  | .resume p _ _ => p

theorem act_h {N N' : Net} {a : NAct} (h : N.act a = some N') {q : Nat} (hq : q ≠ a.proc) : N'.h q = N.h q := by
  cases a <;> simp only [Net.act] at h <;> simp only [NAct.proc] at hq <;> repeat' split at h
  all_goals simp at h
  all_goals subst h
  all_goals simp [Net.setH, hq]

theorem acts_h : ∀ (as : List NAct) {N N' : Net} {q : Nat}, N.acts as = some N' → (∀ a ∈ as, q ≠ a.proc) → N'.h q = N.h q := by
  intro as
  induction as with
  | nil => intro N N' q e _; simp [Net.acts] at e; subst e; rfl
  | cons a as ih =>
    intro N N' q e hq
    simp only [Net.acts] at e
    split at e
    · rename_i h1
      rw [ih e (fun b hb => hq b (by simp [hb])), act_h h1 (hq a (by simp))]
    · simp at e

theorem nautos_h {ext : List (Nat × Nat)} {n : Nat} : ∀ (as : List NAct) {N N' : Net}, N.autos ext n as = some N' → N.acts as = some N' := by
  intro as
  induction as with
  | nil => intro N N' e; exact e
  | cons a as ih =>
    intro N N' e
    simp only [Net.autos] at e
    split at e
    · split at e
      · rename_i h1
        simp only [Net.acts, h1]
        exact ih e
      · simp at e
    · simp at e

/-- **C54.** At rest nothing goes on. -/
theorem C54_rest_is_final {ok : Allowed} {Ext : Nat → Nat → Prop} {caps : Nat → Option Nat} {n : Nat} {N : Net} (hr : NRun ok caps N)
    (h : N.atRest Ext n) : N.final ok Ext n := by
  rintro ⟨N', ⟨p, hp, hs⟩, hn⟩
  obtain ⟨h1, h2⟩ := h p hp
  cases hs with
  | chan ha g =>
    have := hn p
    simp at this
    exact C51_rest_is_final ((nInv_run hr).run p) ⟨h1.1.settled ((nInv_run hr).run p), h1.2⟩ ⟨_, ha, this⟩
  | ask h =>
    cases h with
    | ask _ _ hh _ => rw [h2] at hh; simp [HSt.idle] at hh
  | resume h =>
    cases h with
    | resume hh _ _ => rw [h2] at hh; simp [HSt.idle] at hh

/-- Channel 0 has a sleeping actor. The actor of channel 1 handles a request of a client, for which it awaits three things at once: the answer to
a request to the actor of channel 0, that another request is accepted there, and that a broadcast is. -/
def chainStart : List NAct :=
  (oneSched.take 7).map (PAct.at 0) ++ (oneSched.take 17).map (PAct.at 1) ++
    [.task 1 0 .dispatch 3, .ask 1 0 0 0 .answer false, .ask 1 0 0 0 .accept false, .ask 1 0 0 0 .bcast false]
/-- All of it happens, and the client is answered. -/
def chainSteps : List NAct :=
  [.poll 0 3 6, .exec 0 6, .exec 0 6, .exec 0 6, .exec 0 6, .exec 0 6, .poll 0 4 6, .exec 0 7, .exec 0 7, .exec 0 7, .exec 0 7,
   .exec 0 7, .poll 0 5 6, .exec 0 8, .exec 0 8, .exec 0 8, .exec 0 8, .exec 0 8, .task 0 0 (.poll 5) 0, .exec 0 9, .task 0 0 .ready 0,
   .task 0 0 .dispatch 0, .task 0 0 (.finish 7) 0, .exec 0 11, .exec 0 11, .exec 0 11, .poll 0 3 6, .exec 0 12, .task 0 0 .loop 0,
   .task 0 0 .next 0, .task 0 0 (.poll 5) 0, .exec 0 14, .task 0 0 .ready 0, .task 0 0 .dispatch 0, .task 0 0 (.finish 7) 0, .exec 0 16,
   .exec 0 16, .exec 0 16, .task 0 0 .loop 0, .task 0 0 .next 0, .task 0 0 (.poll 5) 0, .exec 0 18, .task 0 0 .ready 0,
   .task 0 0 .dispatch 0, .task 0 0 (.finish 7) 0, .exec 0 20, .exec 0 20, .exec 0 20, .task 0 0 .loop 0, .task 0 0 .next 0,
   .task 0 0 (.poll 5) 0, .exec 0 22, .exec 0 22, .task 0 0 .pending 0, .resume 1 0 0, .resume 1 0 0, .resume 1 0 0,
   .task 1 0 (.finish 7) 0, .exec 1 6, .exec 1 6, .exec 1 6, .poll 1 3 6, .exec 1 7, .task 1 0 .loop 0, .task 1 0 .next 0,
   .task 1 0 (.poll 5) 0, .exec 1 9, .exec 1 9, .task 1 0 .pending 0]
/-- Channel 0 has a sleeping actor; the actor of channel 1 handles a request of a client, for which it asks the actor of channel 0. -/
def askStart : List NAct := (oneSched.take 7).map (PAct.at 0) ++ (oneSched.take 18).map (PAct.at 1) ++ [.ask 1 0 0 0 .answer false]
/-- The actor of channel 1 handles a request, for which it asks the actor of channel 0, which for that asks the actor of channel 1. -/
def cycleSched : List NAct :=
  askStart ++ ((oneSched.drop 8).take 10).map (PAct.at 0) ++
    [.ask 0 0 1 0 .answer false, .poll 1 4 8, .exec 1 7, .exec 1 7, .exec 1 7, .exec 1 7, .exec 1 7]

theorem h_beyond {ok : Allowed} {caps : Nat → Option Nat} {N : Net} (iv : NInv ok caps N) {p k : Nat} (hk : (N.ch p).ts.length ≤ k) :
    N.h p k = .idle := iv.idle p k fun h => absurd (busy_lt h) (by omega)

/-- Everybody awaits something, nothing resolves: final. -/
theorem stuck_final {ok : Allowed} {Ext : Nat → Nat → Prop} {caps : Nat → Option Nat} {n : Nat} {N : Net} (hr : NRun ok caps N)
    (h1 : ∀ p, p < n → ∀ x ∈ (N.ch p).s.th, x = [])
    (h2 : ∀ p, p < n → ∀ k T, (N.ch p).ts[k]? = some T → (∃ r am, T.ph = .handling r am) ∧ (N.h p k).wait ≠ [])
    (h3 : ∀ p, p < n → ∀ k, (N.h p k).fuel = 0)
    (h4 : ∀ p, p < n → ∀ f, N.awaited Ext p f → (N.ch p).s.w.dozes f)
    (h5 : ∀ p, p < n → ∀ k x, x ∈ (N.h p k).wait → ¬ (N.ch x.p).s.w.met x.f x.i x.want) : N.final ok Ext n := by
  have iv := nInv_run hr
  rintro ⟨N', ⟨p, hp, hs⟩, hn⟩
  cases hs with
  | @chan c' h' ha g =>
    have hn := hn p
    rw [setHs_ch, setCh_self] at hn
    cases ha with
    | auto ha =>
      cases ha with
      | @exec t s' hs =>
        simp only [Sys.step] at hs
        cases ht : (N.ch p).s.th[t]? with
        | none => simp [ht] at hs
        | some x =>
          have := h1 p hp x (List.mem_of_getElem? ht)
          subst this
          simp [ht] at hs
      | @task k T T' s' hk hot ht _ =>
        obtain ⟨⟨r, am, hph⟩, hw⟩ := h2 p hp k T hk
        have hl := (List.getElem?_eq_some_iff.mp hk).1
        have hb : (N.ch p).busy k := ⟨T, hk, by rw [hph]; rfl⟩
        have hna := busy_not_aborted (iv.run p) hk (by rw [hph]; rfl)
        have hna' : T'.aborted = false := by
          have h3 := congrArg (fun l : List Bool => l[k]?) hn
          simp [hk, hl, hna] at h3
          rw [h3, (List.getElem?_eq_some_iff.mp hk).2, hna]
        have hg := g.returns k hb
        cases ht <;> simp_all [PCfg.busy, APh.inUser]
    | await hf hd _ => exact hd (h4 p hp _ hf)
  | ask h =>
    cases h with
    | @ask k _ _ _ _ _ _ _ _ hh _ => have := h3 p hp k; rw [hh] at this; simp at this
  | resume h =>
    cases h with
    | @resume k _ _ _ _ hh _ hres => exact h5 p hp k _ (by rw [hh]; simp) hres

/-- The only actor sleeps, on the receive future `r`. -/
def PCfg.restsOn (c : PCfg) (r : Nat) : Prop :=
  (c.ts.length = 1 ∧ c.s.w.bq.length = 1) ∧ (∀ T ∈ c.ts, T.b = 0 ∧ T.ph = .waiting r ∧ T.aborted = false) ∧
  c.s.w.objs[r]? = some (.recv 0 (.waiting 1)) ∧ c.s.w.cells[1]? = some (.empty (some 5)) ∧ (∀ x ∈ c.s.th, x = [])

instance (c : PCfg) (r : Nat) : Decidable (c.restsOn r) := by unfold PCfg.restsOn; infer_instance

theorem restsOn_atRest {c : PCfg} {r : Nat} (h : c.restsOn r) : c.atRest :=
  ⟨h.2.2.2.2, fun T hT => .inr ⟨r, (h.2.1 T hT).2.1, 1, some 5, by rw [(h.2.1 T hT).1]; exact h.2.2.1, h.2.2.2.1⟩⟩

theorem restsOn_served {c : PCfg} {r : Nat} (h : c.restsOn r) : c.served ∧ c.servedAll := by
  obtain ⟨⟨h1, h2⟩, h3, -⟩ := h
  refine ⟨.inl ⟨c.ts[0], List.getElem_mem _, by rw [(h3 _ (List.getElem_mem _)).2.1]; simp⟩,
    .inl fun b hb => ⟨c.ts[0], List.getElem_mem _, ?_, by rw [(h3 _ (List.getElem_mem _)).2.1]; simp⟩⟩
  rw [(h3 _ (List.getElem_mem _)).1]; omega

theorem chain_ex : (newNet.acts chainStart).any (fun N =>
    decide ((∀ T ∈ (N.ch 0).ts, T.aborted = false) ∧ (∀ T ∈ (N.ch 1).ts, T.aborted = false) ∧
      (N.h 1 0).wait = [⟨0, 5, 2, .bcast, false⟩, ⟨0, 4, 1, .accept, false⟩, ⟨0, 3, 0, .answer, false⟩] ∧ (N.ch 1).s.w.objs[3]? = some (.send .ret 0 .done)) &&
    (N.autos [(1, 3)] 2 chainSteps).any (fun N' => decide (
      ((N'.ch 0).restsOn 8 ∧ (N'.ch 1).restsOn 4 ∧ (N'.ch 1).s.w.objs[3]? = some .gone) ∧ (N'.h 0 0 = .idle ∧ N'.h 1 0 = .idle) ∧
      .replyOk 3 0 7 ∈ (N'.ch 0).s.w.log ∧ .sendOk 4 1 ∈ (N'.ch 0).s.w.log ∧ .sendOk 5 2 ∈ (N'.ch 0).s.w.log ∧
      .replyOk 3 0 7 ∈ (N'.ch 1).s.w.log))) = true := by decide

theorem cycle_ex : (newNet.acts cycleSched).any (fun N => decide (
      ((N.ch 0).ts.map (·.ph) = [.handling 2 (.one ⟨0, .valued 0⟩)] ∧ (N.ch 1).ts.map (·.ph) = [.handling 2 (.one ⟨0, .valued 0⟩)]) ∧
      ((∀ x ∈ (N.ch 0).s.th, x = []) ∧ (∀ x ∈ (N.ch 1).s.th, x = [])) ∧
      (N.h 0 0 = ⟨0, [⟨1, 4, 1, .answer, false⟩]⟩ ∧ N.h 1 0 = ⟨0, [⟨0, 3, 0, .answer, false⟩]⟩) ∧
      ((N.ch 0).s.w.objs[3]? = some (.send .ret 0 .done) ∧ (N.ch 1).s.w.objs[4]? = some (.send .ret 1 .done) ∧
        (N.ch 1).s.w.objs[3]? = some (.send .ret 0 .done)) ∧
      ((N.ch 0).s.w.resp = [.waiting (some 6)] ∧ (N.ch 1).s.w.resp = [.waiting (some 6), .waiting (some 8)]) ∧
      logHas (N.ch 0).s.w 3 0 = false ∧ logHas (N.ch 1).s.w 4 1 = false ∧ logHas (N.ch 1).s.w 3 0 = false)) = true := by decide

/-- The actor of channel 1, handling a client's request, awaits an answer of the actor of channel 0, and that another request and a broadcast
are accepted there. All that happens, and it answers the client (`C54_no_livelock`, `C54_progress`, `C54_reaches_rest`, `C54_nobody_hangs`,
`C54_answered`, `C54_rest_is_final`). -/
example : ∃ (N N' : Net), NRun (fun p j _ _ => j < p) (fun _ => none) N ∧ (N.ch 1).s.unresolved 3 0 false ∧
    (N.h 1 0).wait = [⟨0, 5, 2, .bcast, false⟩, ⟨0, 4, 1, .accept, false⟩, ⟨0, 3, 0, .answer, false⟩] ∧
    (∀ p, p < 2 → ∀ T ∈ (N.ch p).ts, T.aborted = false) ∧ ¬ N.atRest (fun p f => (p, f) ∈ [(1, 3)]) 2 ∧
    NAutos (fun p j _ _ => j < p) (fun p f => (p, f) ∈ [(1, 3)]) 2 N N' ∧ N'.atRest (fun p f => (p, f) ∈ [(1, 3)]) 2 ∧
    N'.final (fun p j _ _ => j < p) (fun p f => (p, f) ∈ [(1, 3)]) 2 ∧ N'.served (fun p j _ _ => j < p) 2 ∧
    (∀ p, p < 2 → ∃ T ∈ (N'.ch p).ts, T.ph ≠ .done) ∧
    .replyOk 3 0 7 ∈ (N'.ch 0).s.w.log ∧ .sendOk 4 1 ∈ (N'.ch 0).s.w.log ∧ .sendOk 5 2 ∈ (N'.ch 0).s.w.log ∧
    .replyOk 3 0 7 ∈ (N'.ch 1).s.w.log := by
  obtain ⟨N, h0, hx⟩ := (Option.any_eq_true _ _).mp chain_ex
  rw [Bool.and_eq_true, decide_eq_true_eq] at hx
  obtain ⟨⟨a1, a2, a3, a4⟩, hx⟩ := hx
  obtain ⟨N', h1, hx⟩ := (Option.any_eq_true _ _).mp hx
  rw [decide_eq_true_eq] at hx
  obtain ⟨⟨b0, b1, b2⟩, ⟨d1, d2⟩, e⟩ := hx
  have hr : NRun (fun p j _ _ => j < p) (fun _ => none) N := NRun.acts chainStart .new (by
    intro a ha
    have : (chainStart.all fun a => match a with | .ask p _ j _ _ _ => decide (j < p) | _ => true) = true := by decide
    have := List.all_eq_true.mp this a ha
    cases a <;> simp [NAct.allowed] at this ⊢; exact this) h0
  have hs := nautos_sound (ok := fun p j _ _ => j < p) chainSteps hr (by
    intro a ha
    have : (chainSteps.all fun a => match a with | .ask p _ j _ _ _ => decide (j < p) | _ => true) = true := by decide
    have := List.all_eq_true.mp this a ha
    cases a <;> simp [NAct.allowed] at this ⊢; exact this) h1
  have hr' := (hs.run hr).1
  have iv' := nInv_run hr'
  have hp2 : ∀ p, p < 2 → p = 0 ∨ p = 1 := fun p hp => by omega
  have hidle : ∀ q k, N'.h q k = .idle := by
    intro q k
    by_cases hq : q < 2
    · have : (N'.ch q).ts.length = 1 := by
        rcases hp2 q hq with rfl | rfl
        · exact b0.1.1
        · exact b1.1.1
      by_cases hk : k = 0
      · subst hk
        rcases hp2 q hq with rfl | rfl <;> assumption
      · exact h_beyond iv' (by omega)
    · have key : ∀ as : List NAct, as.all (fun a => decide (a.proc < 2)) = true → ∀ a ∈ as, q ≠ a.proc := by
        intro as h a ha
        have := List.all_eq_true.mp h a ha
        simp at this; omega
      rw [acts_h chainSteps (nautos_h _ h1) (key _ (by decide)), acts_h chainStart h0 (key _ (by decide))]; rfl
  have haw : ∀ p f, N'.awaited (fun p f => (p, f) ∈ [(1, 3)]) p f → p = 1 ∧ f = 3 := by
    rintro p f (h | ⟨q, k, i, want, jn, h⟩)
    · simpa using h
    · rw [hidle] at h; simp [HSt.idle] at h
  have hrest : N'.atRest (fun p f => (p, f) ∈ [(1, 3)]) 2 := by
    intro p hp
    refine ⟨⟨?_, fun f hf => ?_⟩, hidle p⟩
    · rcases hp2 p hp with rfl | rfl
      · exact restsOn_atRest b0
      · exact restsOn_atRest b1
    · obtain ⟨rfl, rfl⟩ := haw p f hf
      simp [World.dozes, b2]
  refine ⟨N, N', hr, .inl ⟨.ret, _, rfl, a4⟩, a3, fun p hp => ?_, fun hn => ?_, hs, hrest, C54_rest_is_final hr' hrest, fun p hp => ?_,
    fun p hp => ?_, e⟩
  · rcases hp2 p hp with rfl | rfl <;> assumption
  · have := (hn 1 (by omega)).2 0
    rw [this] at a3; simp [HSt.idle] at a3
  · rcases hp2 p hp with rfl | rfl
    · exact ⟨(restsOn_served b0).1, fun _ => (restsOn_served b0).2⟩
    · exact ⟨(restsOn_served b1).1, fun _ => (restsOn_served b1).2⟩
  · have key : ∀ {c : PCfg} {r : Nat}, c.restsOn r → ∃ T ∈ c.ts, T.ph ≠ .done := by
      intro c r h
      have hl := h.1.1
      exact ⟨c.ts[0], List.getElem_mem _, by rw [(h.2.1 _ (List.getElem_mem _)).2.1]; simp⟩
    rcases hp2 p hp with rfl | rfl
    · exact key b0
    · exact key b1

/-- **C54.** Without acyclicity it is false: two actors whose handlers ask each other and await the answers wait forever, with everybody
who awaits an answer of theirs. (Nothing in xtra prevents or detects it.) -/
theorem C54_refuted : ∃ (ok : Allowed) (N : Net), (∀ p j want jn, ok p j want jn → p < 2 ∧ j < 2 ∧ p ≠ j) ∧ NRun ok (fun _ => none) N ∧
    (∀ p, p < 2 → (N.ch p).served) ∧ N.final ok (fun p f => (p, f) = (1, 3)) 2 ∧
    -- both are awaiting answers
    ⟨0, 3, 0, .answer, false⟩ ∈ (N.h 1 0).wait ∧ ⟨1, 4, 1, .answer, false⟩ ∈ (N.h 0 0).wait ∧ ¬ (N.ch 0).s.w.resolved 3 0 false ∧ ¬ (N.ch 1).s.w.resolved 4 1 false ∧
    -- and so is a client
    (N.ch 1).s.unresolved 3 0 false ∧ ¬ (N.ch 1).s.w.resolved 3 0 false := by
  obtain ⟨N, h0, hx⟩ := (Option.any_eq_true _ _).mp cycle_ex
  rw [decide_eq_true_eq] at hx
  obtain ⟨⟨a0, a1⟩, ⟨b0, b1⟩, ⟨c0, c1⟩, ⟨d0, d1, d2⟩, ⟨e0, e1⟩, f0, f1, f2⟩ := hx
  have hr : NRun (fun p j _ _ => p < 2 ∧ j < 2 ∧ p ≠ j) (fun _ => none) N := NRun.acts cycleSched .new (by
    intro a ha
    have : (cycleSched.all fun a => match a with | .ask p _ j _ _ _ => decide (p < 2 ∧ j < 2 ∧ p ≠ j) | _ => true) = true := by decide
    have := List.all_eq_true.mp this a ha
    cases a <;> simp [NAct.allowed] at this ⊢; exact this) h0
  have iv := nInv_run hr
  have r0 : ¬ (N.ch 0).s.w.resolved 3 0 false := fun h => by rw [logHas_iff.mpr h] at f0; simp at f0
  have r1 : ¬ (N.ch 1).s.w.resolved 4 1 false := fun h => by rw [logHas_iff.mpr h] at f1; simp at f1
  have r2 : ¬ (N.ch 1).s.w.resolved 3 0 false := fun h => by rw [logHas_iff.mpr h] at f2; simp at f2
  have l0 : (N.ch 0).ts.length = 1 := by simpa using congrArg List.length a0
  have l1 : (N.ch 1).ts.length = 1 := by simpa using congrArg List.length a1
  have hp2 : ∀ p, p < 2 → p = 0 ∨ p = 1 := fun p hp => by omega
  have hbey : ∀ q k, 0 < k ∨ 2 ≤ q → N.h q k = .idle := by
    intro q k hk
    by_cases hq : q < 2
    · exact h_beyond iv (by rcases hp2 q hq with rfl | rfl <;> omega)
    · have key : ∀ as : List NAct, as.all (fun a => decide (a.proc < 2)) = true → ∀ a ∈ as, q ≠ a.proc := by
        intro as h a ha
        have := List.all_eq_true.mp h a ha
        simp at this; omega
      rw [acts_h cycleSched h0 (key _ (by decide))]; rfl
  have hwait : ∀ q k x, x ∈ (N.h q k).wait → x = ⟨1, 4, 1, .answer, false⟩ ∨ x = ⟨0, 3, 0, .answer, false⟩ := by
    intro q k x h
    by_cases hk : 0 < k ∨ 2 ≤ q
    · rw [hbey q k hk] at h; simp [HSt.idle] at h
    · have hk0 : k = 0 := by omega
      subst hk0
      rcases hp2 q (by omega) with rfl | rfl
      · rw [c0] at h; simp at h; simp [h]
      · rw [c1] at h; simp at h; simp [h]
  have hph : ∀ p, p < 2 → ∀ k T, (N.ch p).ts[k]? = some T → k = 0 ∧ T.ph = .handling 2 (.one ⟨0, .valued 0⟩) := by
    intro p hp k T hk
    have hl := (List.getElem?_eq_some_iff.mp hk).1
    have key : ∀ {l : List Task} {x : APh}, l.map (·.ph) = [x] → l[k]? = some T → k = 0 ∧ T.ph = x := by
      intro l x h1 h2
      have h3 := congrArg (fun l : List APh => l[k]?) h1
      simp [h2] at h3
      cases k with
      | zero => simp at h3; exact ⟨rfl, h3⟩
      | succ k => simp at h3
    rcases hp2 p hp with rfl | rfl
    · exact key a0 hk
    · exact key a1 hk
  refine ⟨_, N, fun _ _ _ _ h => h, hr, fun p hp => .inl ?_, stuck_final hr (fun p hp => ?_) (fun p hp k T hk => ?_) (fun p hp k => ?_) (fun p hp f hf => ?_)
    (fun p hp k x h => ?_), by rw [c1]; simp, by rw [c0]; simp, r0, r1, .inl ⟨.ret, _, rfl, d2⟩, r2⟩
  · have hl : 0 < (N.ch p).ts.length := by rcases hp2 p hp with rfl | rfl <;> omega
    exact ⟨(N.ch p).ts[0], List.getElem_mem _, by rw [(hph p hp 0 _ (List.getElem?_eq_getElem hl)).2]; simp⟩
  · rcases hp2 p hp with rfl | rfl
    · exact b0
    · exact b1
  · obtain ⟨rfl, hh⟩ := hph p hp k T hk
    refine ⟨⟨_, _, hh⟩, ?_⟩
    rcases hp2 p hp with rfl | rfl
    · rw [c0]; simp
    · rw [c1]; simp
  · by_cases hk : 0 < k
    · rw [hbey p k (.inl hk)]; rfl
    · have hk0 : k = 0 := by omega
      subst hk0
      rcases hp2 p hp with rfl | rfl
      · rw [c0]
      · rw [c1]
  · have key : p = 1 ∧ f = 3 ∨ p = 1 ∧ f = 4 ∨ p = 0 ∧ f = 3 := by
      rcases hf with hf | ⟨q, k, i, want, jn, hf⟩
      · simp at hf; exact .inl hf
      · rcases hwait q k _ hf with h | h <;> simp at h
        · exact .inr (.inl ⟨h.1, h.2.1⟩)
        · exact .inr (.inr ⟨h.1, h.2.1⟩)
    rcases key with ⟨rfl, rfl⟩ | ⟨rfl, rfl⟩ | ⟨rfl, rfl⟩
    · simp only [World.dozes, d2, e1]; exact ⟨6, by simp⟩
    · simp only [World.dozes, d1, e1]; exact ⟨8, by simp⟩
    · simp only [World.dozes, d0, e0]; exact ⟨6, by simp⟩
  · rcases hwait p k x h with rfl | rfl
    · exact r1
    · exact r0

end Xtra
