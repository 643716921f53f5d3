import Verif.Rest
import Verif.PropsAbort
/-! # C50: a pool of actors comes to rest, having served everything -/

set_option linter.unusedSimpArgs false

namespace Xtra

/-! ## Specification -/

/-- A step that needs no new API call of user code: an API call in progress executes its next step; or a task takes a step, where a task
that sleeps in `next().await` (its waker has not been called) is not polled by the executor, but may be dropped, or, in a `select`, go on
because the future of the `select` has completed. Between two steps of a task its handlers may take any time; they return eventually, and
the futures they give to `select` complete eventually. -/
inductive Auto : PCfg → PCfg → Prop where
  | exec {c : PCfg} {t : Nat} {s' : Sys} : c.s.step (.exec t) = some s' → Auto c { c with s := s' }
  | task {c : PCfg} {k : Nat} {T T' : Task} {s' : Sys} : c.ts[k]? = some T → c.onTop T → TStep c.s T s' T' →
      (T.asleep c.s.w → T'.aborted = true ∨ T'.lvl ≠ T.lvl) → Auto c ⟨s', c.ts.set k T'⟩

/-- No task is dropped in this step. -/
def NoDrop (c c' : PCfg) : Prop := c'.ts.map (·.aborted) = c.ts.map (·.aborted)

/-- Finitely many such steps, in none of which a task is dropped. -/
inductive Autos : PCfg → PCfg → Prop where
  | refl {c : PCfg} : Autos c c
  | step {c c1 c2 : PCfg} : Auto c c1 → NoDrop c c1 → Autos c1 c2 → Autos c c2

/-! ## Proofs -/

theorem Auto.pstep {closed : Bool} {c c' : PCfg} (h : Auto c c') : PStep closed c c' := by
  cases h with
  | exec hs => exact .other (fun _ _ => rfl) (fun _ _ => by simp) hs
  | task hk hot ht _ => exact .task hk hot ht

def PCfg.k0 (c : PCfg) : Nat := c.s.k0 + sumBy (fun T : Task => T.ph.k0 + T.lvl.k0) c.ts
def PCfg.k2 (c : PCfg) : Nat := c.s.k2 + sumBy (fun T : Task => T.ph.k2) c.ts

theorem Auto.down {cap : Option Nat} {closed : Bool} {c c' : PCfg} (hr : PRun cap closed c) (h : Auto c c') :
    L3 c.k0 c.s.k1 c.k2 c'.k0 c'.s.k1 c'.k2 := by
  cases h with
  | exec hs => exact (exec_down hr.reachable hs).add _ 0 _
  | @task k T T' s' hk hot ht hz =>
    obtain ⟨sh, ti⟩ := (pInv_run hr).all k T hk
    have hd := tstep_down hr.reachable ti ht hz (by
      intro ha
      unfold TaskOk at sh
      cases hp : T.ph <;> rw [hp] at sh <;> simp [TaskOkP, ha] at sh <;> rfl)
    have a := sumBy_set (f := fun T : Task => T.ph.k0 + T.lvl.k0) T' hk
    have b := sumBy_set (f := fun T : Task => T.ph.k2) T' hk
    simp only [PCfg.k0, PCfg.k2]
    unfold Down L3 at *
    omega

theorem L3_acc {α : Type _} (r : α → α → Prop) (p : α → Prop) (a b c : α → Nat) (hp : ∀ x y, p x → r x y → p y)
    (hd : ∀ x y, p x → r x y → L3 (a x) (b x) (c x) (a y) (b y) (c y)) :
    ∀ (i j k : Nat) (x : α), a x = i → b x = j → c x = k → p x → Acc (fun y x => r x y) x := by
  intro i
  induction i using Nat.strongRecOn with
  | _ i ih1 =>
    intro j
    induction j using Nat.strongRecOn with
    | _ j ih2 =>
      intro k
      induction k using Nat.strongRecOn with
      | _ k ih3 =>
        intro x hi hj hk hx
        refine ⟨_, fun y hy => ?_⟩
        have hl := hd x y hx hy
        have hy' := hp x y hx hy
        unfold L3 at hl
        rw [hi, hj, hk] at hl
        rcases hl with h | ⟨h, h' | ⟨h', h''⟩⟩
        · exact ih1 _ h _ _ y rfl rfl rfl hy'
        · exact ih2 _ h' _ y h rfl rfl hy'
        · exact ih3 _ h'' y h h' rfl hy'

theorem auto_acc {cap : Option Nat} {closed : Bool} {c : PCfg} (h : PRun cap closed c) : Acc (fun c' c => Auto c c') c :=
  L3_acc Auto (PRun cap closed) PCfg.k0 (fun c => c.s.k1) PCfg.k2 (fun _ _ hx hy => .step hx hy.pstep) (fun _ _ hx hy => hy.down hx)
    _ _ _ c rfl rfl rfl h

theorem acc_no_seq {α : Type _} {r : α → α → Prop} {x : α} (h : Acc (fun y x => r x y) x) : ∀ f : Nat → α, f 0 = x →
    ¬ ∀ n, r (f n) (f (n + 1)) := by
  induction h with
  | intro x _ ih =>
    intro f h0 hf
    exact ih (f 1) (by rw [← h0]; exact hf 0) (fun n => f (n + 1)) rfl (fun n => hf (n + 1))

/-- **C50.** No livelock: from no reachable configuration is there an infinite sequence of steps without a new API call by user code.
The tasks do not poll forever, wake each other forever, or hand messages around forever. -/
theorem C50_no_livelock {cap : Option Nat} {closed : Bool} {f : Nat → PCfg} (h : PRun cap closed (f 0)) :
    ¬ ∀ n, Auto (f n) (f (n + 1)) :=
  acc_no_seq (auto_acc h) f rfl

/-- **C50.** In any infinite execution, user code (or the executor, by polling a sleeping task) comes in again and again. -/
theorem C50_infinite_needs_calls {cap : Option Nat} {closed : Bool} {f : Nat → PCfg} (h : PRun cap closed (f 0))
    (hf : ∀ n, PStep closed (f n) (f (n + 1))) (n : Nat) : ∃ m, n ≤ m ∧ ¬ Auto (f m) (f (m + 1)) := by
  have hr : ∀ n, PRun cap closed (f n) := by
    intro n; induction n with
    | zero => exact h
    | succ n ih => exact .step ih (hf n)
  apply Classical.byContradiction
  intro hn
  refine C50_no_livelock (f := fun k => f (n + k)) (hr n) fun k => ?_
  apply Classical.byContradiction
  intro hk
  exact hn ⟨n + k, Nat.le_add_right _ _, hk⟩

theorem set_aborted {ts : List Task} {k : Nat} {T T' : Task} (hk : ts[k]? = some T) (h : T'.aborted = T.aborted) :
    (ts.set k T').map (·.aborted) = ts.map (·.aborted) := by
  rw [List.map_set, h]
  apply List.ext_getElem?
  intro i
  rw [List.getElem?_set]
  split
  · rename_i e
    subst e
    have hl := (List.getElem?_eq_some_iff.mp hk).1
    simp [hl, hk]
    exact (List.getElem?_eq_some_iff.mp hk).2 ▸ rfl
  · rfl

/-- A task on top proceeds, unless it sleeps in `run` or `yield_once`. -/
theorem top_steps {cap : Option Nat} {closed : Bool} {c : PCfg} (h : PRun cap closed c) {k : Nat} {T : Task} (hk : c.ts[k]? = some T)
    (hd : T.ph ≠ .done) (hot : c.onTop T) (hz : T.asleep c.s.w → T.lvl = .sel) : ∃ c', Auto c c' ∧ NoDrop c c' := by
  by_cases hs : T.asleep c.s.w
  · have hl := hz hs
    obtain ⟨r, hp, cc, wk, ho, -⟩ := hs
    obtain ⟨s', hs⟩ := call_enabled (s := c.s) (cl := .pollRecv r 0) (x := _) (by simp [call, ho]; rfl)
    exact ⟨_, .task hk hot (.futReady hp hl hs) (fun _ => .inr (by simp [hl])), set_aborted hk rfl⟩
  · rcases C48_never_stuck h (List.mem_of_getElem? hk) hd with ⟨t, s', -, hs⟩ | ⟨s', T', ht, ha, -⟩
    · exact ⟨_, .exec hs, rfl⟩
    · exact ⟨_, .task hk hot ht (fun hz => absurd hz hs), set_aborted hk ha⟩

/-- **C50.** No deadlock: unless everything is at rest, some step is possible that needs no new API call and drops no task. -/
theorem C50_progress {cap : Option Nat} {closed : Bool} {c : PCfg} (h : PRun cap closed c) (hn : ¬ c.settled) :
    ∃ c', Auto c c' ∧ NoDrop c c' := by
  by_cases hth : ∀ x ∈ c.s.th, x = []
  · have : ∃ T ∈ c.ts, ¬ (T.ph = .done ∨ (T.asleep c.s.w ∧ T.lvl ≠ .sel) ∨ ∃ U ∈ c.ts, U.covers T = true) := by
      apply Classical.byContradiction
      intro h'
      refine hn ⟨hth, fun T hT => ?_⟩
      apply Classical.byContradiction
      intro h2
      exact h' ⟨T, hT, h2⟩
    obtain ⟨T, hT, hx⟩ := this
    obtain ⟨k, hk⟩ := List.getElem?_of_mem hT
    refine top_steps h hk (fun e => hx (.inl e)) (fun U hU => ?_) fun hz => ?_
    · cases e : U.covers T with
      | false => rfl
      | true => exact absurd (.inr (.inr ⟨U, hU, e⟩)) hx
    · apply Classical.byContradiction
      intro hl
      exact hx (.inr (.inl ⟨hz, hl⟩))
  · have : ∃ x ∈ c.s.th, x ≠ [] := by
      apply Classical.byContradiction
      intro h'
      refine hth fun x hx => ?_
      apply Classical.byContradiction
      intro h2
      exact h' ⟨x, hx, h2⟩
    obtain ⟨x, hx, hne⟩ := this
    obtain ⟨t, ht⟩ := List.getElem?_of_mem hx
    cases x with
    | nil => exact absurd rfl hne
    | cons m rest =>
      obtain ⟨s', hs⟩ := exec_enabled ht
      exact ⟨_, .exec hs, rfl⟩

theorem Autos.run {cap : Option Nat} {closed : Bool} {c c' : PCfg} (h : Autos c c') (hr : PRun cap closed c) :
    PRun cap closed c' ∧ c'.ts.map (·.aborted) = c.ts.map (·.aborted) := by
  induction h with
  | refl => exact ⟨hr, rfl⟩
  | step ha hn _ ih =>
    obtain ⟨h1, h2⟩ := ih (.step hr ha.pstep)
    exact ⟨h1, h2.trans hn⟩

/-- **C50.** From every reachable configuration the pool reaches rest, without anybody's help and without a task being dropped. -/
theorem C50_reaches_rest {cap : Option Nat} {closed : Bool} {c : PCfg} (h : PRun cap closed c) : ∃ c', Autos c c' ∧ c'.settled := by
  have ha := auto_acc h
  induction ha with
  | intro c _ ih =>
    by_cases hr : c.settled
    · exact ⟨c, .refl, hr⟩
    · obtain ⟨c1, h1, h2⟩ := C50_progress h hr
      obtain ⟨c2, h3, h4⟩ := ih c1 h1 (.step h h1.pstep)
      exact ⟨c2, .step h1 h2 h3, h4⟩

/-- **C50.** However the scheduler proceeds: once nothing more can happen without a new API call, everything is at rest. And if messages
are received by the pool only, none of its tasks was dropped, no message was lost in the race of C03 (which takes a `select` that returned at
the same moment: `C49_only_own_request`), and one task still runs, then every request ever made has been handled and
its value sent, except the requests whose send future has not been polled or was dropped before its message was taken, and those whose
handler itself waits for a further message in `yield_once`; no send and no
request has failed; no broadcast is left in a mailbox of the pool. -/
theorem C50_all_served {cap : Option Nat} {c c' : PCfg} (h : PRun cap true c) (hcap : cap ≠ some 0) (hs : Autos c c')
    (ha : ∀ T ∈ c'.ts, T.aborted = false) (hl : ∀ i, .lost i ∉ c'.s.w.log) (he : ¬ ∃ c2, Auto c' c2 ∧ NoDrop c' c2) (hz : ∃ T ∈ c'.ts, T.ph ≠ .done) :
    c'.settled ∧
    (∀ f i, .made f i false ∈ c'.s.w.log →
      (∃ md m rc, c'.s.w.objs[f]? = some (.send md i (.new m rc))) ∨ (c'.s.w.objs[f]? = some .gone ∧ .dropped i ∈ c'.s.w.log) ∨
      (∃ v wk, .handled i v ∈ c'.s.w.log ∧ c'.s.w.resp[i]? = some (.value v wk)) ∨ c'.yields i) ∧
    (∀ f i, Ev.sendErr f i ∉ c'.s.w.log) ∧ (∀ f i, Ev.replyInt f i ∉ c'.s.w.log) ∧
    (∀ T ∈ c'.ts, T.ph ≠ .done → c'.s.w.items T.b = []) := by
  have hr := (hs.run h).1
  have hq : c'.settled := Classical.byContradiction fun hn => he (C50_progress hr hn)
  obtain ⟨T, hT, hd⟩ := hz
  obtain ⟨V, hV, -, hsl⟩ := hq.sleeper hr hT hd
  obtain ⟨-, hrcv, hsc, h4⟩ := at_rest_gen hr hcap hq ⟨V, hV, hsl⟩
  refine ⟨hq, fun f i hm => ?_, fun f i he => (C10_err_means_disconnected hr.reachable he).elim hrcv hsc, fun f i he => ?_,
    fun U hU hd => ?_⟩
  · rcases C49_at_rest hr hcap hq ⟨V, hV, hsl⟩ hm with h1 | h1 | h1 | ⟨U, hU, h1, -⟩ | ⟨h1, -⟩ | h1
    · exact .inl h1
    · exact .inr (.inl h1)
    · exact .inr (.inr (.inl h1))
    · rw [ha U hU] at h1; simp at h1
    · exact absurd h1 (hl i)
    · exact .inr (.inr (.inr h1))
  · rcases C49_only_own_request hr hrcv he with ⟨U, hU, h1, -⟩ | ⟨h1, -⟩
    · rw [ha U hU] at h1; simp at h1
    · exact absurd h1 (hl i)
  · obtain ⟨W, hW, hb, hs⟩ := hq.sleeper hr hU hd
    rw [← hb]; exact h4 W hW hs

/-- **C50.** Rest is final: when everything is at rest, nothing happens any more without a new API call (or a task being dropped). -/
theorem C50_rest_is_final {cap : Option Nat} {closed : Bool} {c : PCfg} (h : PRun cap closed c) (hq : c.settled) :
    ¬ ∃ c', Auto c c' ∧ NoDrop c c' := by
  rintro ⟨c', ha, hn⟩
  cases ha with
  | @exec t s' hs =>
    rcases step_rel hs with ⟨cl, w', ms, hc, -⟩ | ⟨t', m, rest, w', ms, hc, ht', -, -⟩
    · simp at hc
    · have := hq.1 _ (List.mem_of_getElem? ht')
      simp at this
  | @task k T T' s' hk hot ht hz =>
    obtain ⟨sh, -⟩ := (pInv_run h).all k T hk
    have hab : T'.aborted = T.aborted := by
      have h1 := congrArg (·[k]?) hn
      have hl := (List.getElem?_eq_some_iff.mp hk).1
      simp [hl] at h1
      rw [h1, (List.getElem?_eq_some_iff.mp hk).2]
    rcases hq.2 T (List.mem_of_getElem? hk) with hd | ⟨hs, hl⟩ | ⟨U, hU, hc⟩
    · exact ht.not_done hd
    · have h1 := hz hs
      obtain ⟨r, hp, -⟩ := hs
      unfold TaskOk at sh
      rw [hp] at sh
      have h2 := sh.2.2.1
      rw [hab, h2] at h1
      simp at h1
      apply h1
      clear h1 hz hab hn
      cases ht <;> simp_all
    · have := hot U hU
      rw [hc] at this; simp at this

/-! ## Concrete executions -/

def noLost (log : List Ev) : Bool := log.all fun e => match e with
  | .lost _ => false
  | _ => true

theorem noLost_of {log : List Ev} (h : noLost log = true) (i : Nat) : .lost i ∉ log := fun hm => by
  have := List.all_eq_true.mp h _ hm
  simp at this


def Task.asleepB (T : Task) (w : World) : Bool :=
  match T.ph with
  | .waiting r => match w.objs[r]? with
    | some (.recv _ (.waiting c)) => match w.cells[c]? with
      | some (.empty _) => true
      | _ => false
    | _ => false
  | _ => false

theorem asleepB_of {T : Task} {w : World} (h : T.asleep w) : T.asleepB w = true := by
  obtain ⟨r, hp, c, wk, ho, hc⟩ := h
  simp [Task.asleepB, hp, ho, hc]

/-- Execute the actions if they are steps of `Autos`. -/
def PCfg.autos (c : PCfg) : List PAct → Option PCfg
  | [] => some c
  | .other (.exec t) :: as => match c.s.step (.exec t) with
    | some s' => PCfg.autos { c with s := s' } as
    | none => none
  | .task k a :: as => match c.ts[k]? with
    | some T => match c.ts.all (fun U => !U.covers T), tstep c.s T a with
      | true, some (s', T') =>
        if (T.asleepB c.s.w && T'.lvl == T.lvl) || T'.aborted != T.aborted then none else PCfg.autos ⟨s', c.ts.set k T'⟩ as
      | _, _ => none
    | none => none
  | _ => none

theorem autos_sound (as : List PAct) : ∀ {c c' : PCfg}, c.autos as = some c' → Autos c c' := by
  induction as with
  | nil => intro c c' h; simp [PCfg.autos] at h; subst h; exact .refl
  | cons a as ih =>
    intro c c' h
    unfold PCfg.autos at h
    split at h
    · simp_all
    · split at h
      · rename_i e _ s' hs; simp at e; obtain ⟨rfl, rfl⟩ := e; exact .step (.exec hs) rfl (ih h)
      · simp at h
    · split at h
      · split at h
        · split at h
          · simp at h
          · rename_i e _ T hk _ _ s' T' hot ht hc
            simp at e; obtain ⟨rfl, rfl⟩ := e
            simp at hc
            exact .step (.task hk (by simpa [PCfg.onTop] using hot) (tstep_sound ht)
              (fun hz => .inr (hc.1 (asleepB_of hz)))) (set_aborted hk hc.2) (ih h)
        · simp at h
      · simp at h
    · simp at h

/-- An actor sleeps, a request is about to be sent to it. -/
def restStart : List PAct := oneSched.take 9
/-- What happens then, until all is at rest. -/
def restSteps : List PAct := (oneSched.drop 9).take 19

/-- From a configuration where an actor sleeps and the critical section of a request's send is still to come, the pool reaches rest, the
request handled (`C50_no_livelock`, `C50_progress`, `C50_reaches_rest`, `C50_all_served`, `C50_rest_is_final`). -/
example : ∃ c c', PRun none true c ∧ ¬ c.settled ∧ Autos c c' ∧ ((∀ T ∈ c'.ts, T.aborted = false) ∧ ∀ i, .lost i ∉ c'.s.w.log) ∧ c'.settled ∧
    (∃ T ∈ c'.ts, T.ph ≠ .done) ∧ .made 3 0 false ∈ c'.s.w.log ∧ .handled 0 7 ∈ c'.s.w.log ∧ ¬ ∃ c2, Auto c' c2 ∧ NoDrop c' c2 :=
  ⟨_, _, PRun.run .new (as := restStart) rfl, fun hn => absurd hn.1 (by decide), autos_sound restSteps rfl, ⟨by decide, noLost_of (by decide)⟩,
    settled_dec (by decide) (by decide), ⟨_, List.mem_cons_self .., by decide⟩, by decide, by decide,
    C50_rest_is_final (closed := true) (cap := none) (PRun.run .new (as := restStart ++ restSteps) rfl) (settled_dec (by decide) (by decide))⟩

/-- User code that calls `len` again and again. -/
def lenForever : Nat → PCfg
  | 0 => ⟨init none, []⟩
  | n + 1 => { lenForever n with s := ((lenForever n).s.step (.call (.len 0))).getD (init none) }

/-- An infinite execution. Meets the hypotheses of `C50_infinite_needs_calls`. -/
example : PRun none true (lenForever 0) ∧ ∀ n, PStep true (lenForever n) (lenForever (n + 1)) := by
  refine ⟨.new, fun n => ?_⟩
  have h : ∀ n, (lenForever n).s.w.objs[0]? = some (.addr .strong) := by
    intro n; induction n with
    | zero => rfl
    | succ n ih => simp [lenForever, Sys.step, call, ih, World.ev]
  refine .other (a := .call (.len 0)) (fun _ _ => rfl) (fun _ _ => by simp) ?_
  simp [Sys.step, call, h n]

end Xtra
