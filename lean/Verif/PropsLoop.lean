import Verif.Loop
/-!
# Actor lifecycle (C25), `select` and `join` (C26)
-/

namespace Xtra.Loop

/-- `tr` is the record of `run`, the outermost call. -/
def IsRun (c : Cfg) (tr : List LEv) : Prop := ∃ st, c.stack.getLast? = some ⟨.run st, tr⟩

theorem stk_run {fs : List Frame} (h : Stk fs) : ∃ st tr, fs.getLast? = some ⟨.run st, tr⟩ ∧ Loc (.run st) tr := by
  induction h with
  | bottom hl => exact ⟨_, _, rfl, hl⟩
  | cons hl ha hs ih =>
    obtain ⟨st, tr, h1, h2⟩ := ih
    exact ⟨st, tr, by rw [List.getLast?_cons_cons]; exact h1, h2⟩

theorem loc_run {st : RunSt} {tr : List LEv} (h : Loc (.run st) tr) : RunShape tr := by
  match st with
  | .starting => exact .inl h
  | .looping .receiving => obtain ⟨ms, h⟩ := h; exact .inr (.inr ⟨ms, .inl h⟩)
  | .looping (.dispatching d am) => obtain ⟨ms, h⟩ := h; exact .inr (.inr ⟨ms, .inr ⟨d, am, .inl h⟩⟩)
  | .stopping => obtain ⟨ms, d, am, h⟩ := h; exact .inr (.inr ⟨ms, .inr ⟨d, am, .inr (.inl h)⟩⟩)
  | .done =>
    rcases h with h | ⟨ms, d, am, v, h⟩
    · exact .inr (.inl h)
    · exact .inr (.inr ⟨ms, .inr ⟨d, am, .inr (.inr ⟨v, h⟩)⟩⟩)

/-- `run` is always there (so the theorems about `IsRun` are not vacuous). -/
theorem run_exists {c : Cfg} (h : Reach c) : ∃ tr, IsRun c tr := by
  obtain ⟨st, tr, h1, -⟩ := stk_run (inv_reach h).stk
  exact ⟨tr, st, h1⟩

/-- **C25**: in every execution of every actor, what `run` did is a prefix of: call `started` once; if that fails return its error;
otherwise receive and handle messages one at a time, each to the end before the next is received, until the first handling that
ends with the stop signal; then call `stopped` once and return its value. -/
theorem C25_shape {c : Cfg} (h : Reach c) {tr : List LEv} (hr : IsRun c tr) : RunShape tr := by
  obtain ⟨st, tr', h1, h2⟩ := stk_run (inv_reach h).stk
  obtain ⟨st', h3⟩ := hr
  rw [h1] at h3
  simp only [Option.some.injEq, Frame.mk.injEq, Kind.run.injEq] at h3
  obtain ⟨-, rfl⟩ := h3
  exact loc_run h2

/-- **C25**: the outcome `run` saw for a message is a stop exactly if the message is the shutdown notice or its handler called
`stop_self`; the handler has finished by then. -/
theorem C25_stop_signal {c : Cfg} (h : Reach c) {tr : List LEv} (hr : IsRun c tr) {d : Nat} {am : AMsg} {brk : Bool}
    (hm : LEv.handled d am brk ∈ tr) : Outcome c d am brk := by
  obtain ⟨st, hst⟩ := hr
  exact (inv2_reach h).out tr (.inl ⟨_, List.mem_of_getLast? hst, rfl⟩) d am brk hm

/-- **C25**: no dispatch leads to more than one handler invocation. -/
theorem C25_handled_once {c : Cfg} (h : Reach c) : (hids c).Nodup := (inv2_reach h).nodup

/-- **C25**: if `started` fails, `run` returns its value; no message is received and `stopped` is not called. -/
theorem C25_start_fails {c : Cfg} (h : Reach c) {tr : List LEv} (hr : IsRun c tr) {v : Nat} (hm : LEv.startedErr v ∈ tr) :
    tr = [.startedErr v, .ret v] := by
  rcases C25_shape h hr with rfl | ⟨w, rfl⟩ | ⟨ms, rfl | ⟨d, am, rfl | rfl | ⟨w, rfl⟩⟩⟩ <;> simp_all [rounds]

theorem not_mem_rounds {ms : List (Nat × AMsg)} {e : LEv} (h : e ∈ rounds ms) :
    ∃ d am, e = .recv d am ∨ e = .handled d am false := by
  simp only [rounds, List.mem_flatMap] at h
  obtain ⟨m, -, h⟩ := h
  simp only [List.mem_cons, List.not_mem_nil, or_false] at h
  exact ⟨_, _, h⟩

/-- **C25**: `run` returns only the value of a failed `started` or that of `stopped`, as its last act. -/
theorem C25_value {c : Cfg} (h : Reach c) {tr : List LEv} (hr : IsRun c tr) {v : Nat} (hm : LEv.ret v ∈ tr) :
    tr = [.startedErr v, .ret v] ∨ ∃ l, tr = l ++ [.stoppedCall, .stoppedRet v, .ret v] := by
  have nr : ∀ ms, LEv.ret v ∉ rounds ms := by
    intro ms hh; obtain ⟨d, am, h | h⟩ := not_mem_rounds hh <;> simp at h
  rcases C25_shape h hr with rfl | ⟨w, rfl⟩ | ⟨ms, rfl | ⟨d, am, rfl | rfl | ⟨w, rfl⟩⟩⟩
  · simp at hm
  · simp_all
  · simp_all
  · simp_all
  · simp_all
  · simp [nr] at hm
    subst hm
    exact .inr ⟨.startedOk :: rounds ms ++ [.recv d am, .handled d am true], by simp⟩

/-- **C25**: `started` and `stopped` are each called at most once. -/
theorem C25_stopped_once {c : Cfg} (h : Reach c) {tr : List LEv} (hr : IsRun c tr) :
    tr.count .stoppedCall ≤ 1 ∧ tr.count .startedOk ≤ 1 := by
  have n1 : ∀ ms, (rounds ms).count .stoppedCall = 0 := by
    intro ms; rw [List.count_eq_zero]; intro hh; obtain ⟨d, am, h | h⟩ := not_mem_rounds hh <;> simp at h
  have n2 : ∀ ms, (rounds ms).count .startedOk = 0 := by
    intro ms; rw [List.count_eq_zero]; intro hh; obtain ⟨d, am, h | h⟩ := not_mem_rounds hh <;> simp at h
  rcases C25_shape h hr with rfl | ⟨w, rfl⟩ | ⟨ms, rfl | ⟨d, am, rfl | rfl | ⟨w, rfl⟩⟩⟩ <;>
    simp [n1, n2, List.count_cons, List.count_append]

/-- **C25**: after the stop signal `run` receives nothing more: all it does is call `stopped` and return. -/
theorem C25_nothing_after_stop {c : Cfg} (h : Reach c) {tr : List LEv} (hr : IsRun c tr) {d : Nat} {am : AMsg} {a b : List LEv}
    (hm : tr = a ++ .handled d am true :: b) : b = [.stoppedCall] ∨ ∃ v, b = [.stoppedCall, .stoppedRet v, .ret v] := by
  have nr : ∀ ms, LEv.handled d am true ∉ rounds ms := by
    intro ms hh; obtain ⟨d, am, h | h⟩ := not_mem_rounds hh <;> simp at h
  have hmem : LEv.handled d am true ∈ tr := by rw [hm]; simp
  have key : ∀ (p s : List LEv) e, LEv.handled d am true ∉ p → LEv.handled d am true ∉ s → p ++ e :: s = a ++ .handled d am true :: b → s = b := by
    intro p s e hp hs he
    rcases List.append_eq_append_iff.mp he with ⟨x, rfl, hx⟩ | ⟨x, rfl, hx⟩
    · cases x with
      | nil => simp at hx; exact hx.2
      | cons y x => simp at hx; exfalso; apply hs; rw [hx.2]; simp
    · cases x with
      | nil => simp at hx; exact hx.2.symm
      | cons y x => simp at hx; exfalso; apply hp; simp [← hx.1]
  rcases C25_shape h hr with rfl | ⟨w, rfl⟩ | ⟨ms, rfl | ⟨d', am', rfl | rfl | ⟨w, rfl⟩⟩⟩
  · simp at hmem
  · simp at hmem
  · simp [nr] at hmem
  · simp [nr] at hmem
  · left
    exact (key (.startedOk :: rounds ms ++ [.recv d' am']) _ (.handled d' am' true) (by simp [nr]) (by simp) (by simpa using hm)).symm
  · right
    exact ⟨w, (key (.startedOk :: rounds ms ++ [.recv d' am']) _ (.handled d' am' true) (by simp [nr]) (by simp) (by simpa using hm)).symm⟩

/-- **C25**: handling is sequential: while `run` is receiving (or has returned) no handler, and no `started` or `stopped`, is under
way. -/
theorem C25_sequential {c : Cfg} (h : Reach c) {st : RunSt} {tr : List LEv} (hr : c.stack.getLast? = some ⟨.run st, tr⟩)
    (hst : st = .looping .receiving ∨ st = .done) : c.stack = [⟨.run st, tr⟩] := by
  have hs := (inv_reach h).stk
  generalize c.stack = fs at hs hr
  have key : ∀ fs, Stk fs → fs.getLast? = some ⟨.run st, tr⟩ → fs = [⟨.run st, tr⟩] ∨
      ∃ pre f, fs = pre ++ [f, ⟨.run st, tr⟩] ∧ Above f.kind (.run st) := by
    intro fs hs
    induction hs with
    | bottom _ => intro hr; simp at hr; left; simp [hr]
    | cons hl ha hs ih =>
      rename_i f g gs
      intro hr
      rw [List.getLast?_cons_cons] at hr
      rcases ih hr with h | ⟨pre, f', h, ha'⟩
      · simp only [List.cons.injEq] at h
        obtain ⟨rfl, rfl⟩ := h
        exact .inr ⟨[], f, rfl, ha⟩
      · exact .inr ⟨f :: pre, f', by simp [h], ha'⟩
  rcases key fs hs hr with h | ⟨pre, f, -, ha⟩
  · exact h
  · exfalso
    obtain ⟨k, t⟩ := f
    rcases hst with rfl | rfl <;> cases k <;> simp [Above, Kind.dispatchingOf, Kind.isUser] at ha

/-- The innermost call is one that can act. -/
def Kind.active : Kind → Bool
  | .run .starting => false
  | .run .stopping => false
  | k => k.dispatchingOf.isNone

def Top (c : Cfg) : Prop := ∀ f fs, c.stack = f :: fs → f.kind.active = true

theorem user_active {k : Kind} (h : k.isUser = true) : k.active = true := by
  cases k <;> simp_all [Kind.isUser, Kind.active, Kind.dispatchingOf]

theorem stk_user {k : Kind} {tr : List LEv} {g : Frame} {fs : List Frame} (h : Stk (⟨k, tr⟩ :: g :: fs))
    (hk : (∃ y, k = .yieldOnce y) ∨ ∃ j s, k = .sel j s) : g.kind.active = true := by
  cases h with
  | cons _ ha _ =>
    rcases hk with ⟨y, rfl⟩ | ⟨j, s, rfl⟩
    · exact user_active ha
    · exact user_active ha

theorem dispatched_top {c : Cfg} {k : Kind} {tr : List LEv} {rest : List Frame} {d : Nat} {am : AMsg} {brk : Bool}
    (hk : k.dispatchingOf = some (d, am)) (hs : Stk (⟨k, tr⟩ :: rest)) : Top (dispatched c k tr rest d am brk) := by
  have pop : ((∃ y, k = .yieldOnce y) ∨ ∃ j s, k = .sel j s) → ∀ f fs, rest = f :: fs → f.kind.active = true := by
    rintro h f fs rfl
    exact stk_user hs h
  intro f fs he
  revert hk
  cases k with
  | run st =>
    simp only [dispatched] at he
    intro _
    split at he <;> (simp at he; obtain ⟨rfl, -⟩ := he; rfl)
  | yieldOnce st =>
    simp only [dispatched] at he
    intro _
    exact pop (.inl ⟨_, rfl⟩) _ _ he
  | sel j st =>
    cases st with
    | leftDispatch v d' am' =>
      simp only [dispatched] at he
      intro _
      exact pop (.inr ⟨_, _, rfl⟩) _ _ he
    | dispatching d' am' =>
      simp only [dispatched] at he
      intro _
      split at he
      · split at he
        · simp at he; obtain ⟨rfl, -⟩ := he; rfl
        · exact pop (.inr ⟨_, _, rfl⟩) _ _ he
      · simp at he; obtain ⟨rfl, -⟩ := he; rfl
    | _ => simp [Kind.dispatchingOf]
  | _ => simp [Kind.dispatchingOf]

theorem dispatch_top {c : Cfg} {k : Kind} {tr : List LEv} {rest : List Frame} {am : AMsg}
    (hk : k.dispatchingOf = some (c.next, am)) (hs : Stk (⟨k, tr⟩ :: rest)) : Top (dispatch c k tr rest am) := by
  unfold dispatch
  simp only [Nat.add_sub_cancel]
  split
  · exact dispatched_top hk hs
  · intro f fs he; simp at he; obtain ⟨rfl, -⟩ := he; rfl

theorem top_step {c c' : Cfg} {a : Choice} (h : Inv c) (ht : Top c) (hst : step c a = some c') : Top c' := by
  obtain ⟨stack, fin, next⟩ := c
  have hs := h.stk
  simp only at hs
  unfold step at hst
  split at hst
  · simp at hst
  rename_i k tr rest heq
  simp only at heq
  subst heq
  have hl : Loc k tr := by cases hs <;> assumption
  have pop : ((∃ y, k = .yieldOnce y) ∨ ∃ j s, k = .sel j s) → ∀ f fs, rest = f :: fs → f.kind.active = true := by
    rintro h' f fs rfl
    exact stk_user hs h'
  split at hst
  case h_1 n =>
    split at hst
    · split at hst
      · rename_i hu
        cases hst
        intro f fs he; simp at he; obtain ⟨rfl, -⟩ := he; exact user_active hu
      · simp at hst
    · simp at hst
  case h_2 => cases hst; exact ht
  case h_3 =>
    cases hst
    obtain ⟨ms, rfl⟩ := hl
    exact dispatch_top rfl (hs.top ⟨ms, rfl⟩ (fun g h => h) (by simp))
  case h_4 => cases hst; exact ht
  case h_5 =>
    cases hst
    simp only [Loc] at hl
    subst hl
    exact dispatch_top rfl (hs.top rfl (fun g h => h) (by simp))
  case h_6 => cases hst; intro f fs he; simp at he; obtain ⟨rfl, -⟩ := he; rfl
  case h_7 => cases hst; intro f fs he; simp at he; obtain ⟨rfl, -⟩ := he; rfl
  case h_8 => cases hst; intro f fs he; simp at he; obtain ⟨rfl, -⟩ := he; rfl
  case h_9 =>
    cases hst
    obtain ⟨l, h1, rfl⟩ := hl
    exact dispatch_top rfl (hs.top ⟨l, h1, by simp⟩ (fun g h => h) (by simp))
  case h_10 => cases hst; exact pop (.inr ⟨_, _, rfl⟩)
  case h_11 =>
    cases hst
    obtain ⟨l, h1, rfl⟩ := hl
    exact dispatch_top rfl (hs.top ⟨l, h1, by simp⟩ (fun g h => h) (by simp))
  case h_12 => cases hst; intro f fs he; simp at he; obtain ⟨rfl, -⟩ := he; rfl
  case h_13 => cases hst; exact pop (.inr ⟨_, _, rfl⟩)
  case h_14 =>
    split at hst
    · cases hst; intro f fs he; simp at he; obtain ⟨rfl, -⟩ := he; rfl
    · simp at hst
  case h_15 =>
    split at hst
    · cases hst; intro f fs he; simp at he; obtain ⟨rfl, -⟩ := he; rfl
    · simp at hst
  case h_16 =>
    split at hst
    · cases hst; intro f fs he; simp at he; obtain ⟨rfl, -⟩ := he; rfl
    · simp at hst
  case h_17 => cases hst; intro f fs he; simp at he; obtain ⟨rfl, -⟩ := he; rfl
  case h_18 =>
    split at hst
    · cases hst
      cases hs with
      | cons _ ha hs' => exact dispatched_top ha hs'
    · simp at hst
  case h_19 =>
    split at hst
    · cases hst; intro f fs he; simp at he; obtain ⟨rfl, -⟩ := he; rfl
    · cases hst; intro f fs he; simp at he; obtain ⟨rfl, -⟩ := he; rfl
    · simp at hst
  case h_20 =>
    split at hst
    · cases hst; intro f fs he; simp at he; obtain ⟨rfl, -⟩ := he; rfl
    · simp at hst
  case h_21 => simp at hst

theorem top_reach {c : Cfg} (h : Reach c) : Top c := by
  induction h with
  | init => intro f fs he; simp [init] at he; obtain ⟨rfl, -⟩ := he; rfl
  | step hr hs ih => exact top_step (inv_reach hr) ih hs

/-- **C25**: the loop never gets stuck: unless `run` has returned, whatever is innermost can do something: user code can return, and
a poll can give a result. -/
theorem C25_progress {c : Cfg} (h : Reach c) : (∃ tr, c.stack = [⟨.run .done, tr⟩]) ∨ ∃ a c', step c a = some c' ∧ c' ≠ c := by
  obtain ⟨stack, fin, next⟩ := c
  have hs := (inv_reach h).stk
  have ht := top_reach h
  simp only at hs
  cases hs with
  | bottom hl =>
    rename_i st tr
    have := ht _ _ rfl
    match st with
    | .starting => simp [Kind.active] at this
    | .looping .receiving =>
      exact .inr ⟨.nextPoll (some .shutdown), _, rfl, by simp [dispatch, AMsg.isStop, dispatched]⟩
    | .looping (.dispatching d am) => simp [Kind.active, Kind.dispatchingOf] at this
    | .stopping => simp [Kind.active] at this
    | .done => exact .inl ⟨tr, rfl⟩
  | cons hl ha hs =>
    rename_i f g gs
    obtain ⟨k, tr⟩ := f
    have := ht _ _ rfl
    right
    match k with
    | .started =>
      obtain ⟨kg, tg⟩ := g
      simp only [Above] at ha
      subst ha
      exact ⟨.retStarted none, _, rfl, by simp⟩
    | .stopped =>
      obtain ⟨kg, tg⟩ := g
      simp only [Above] at ha
      subst ha
      exact ⟨.retStopped 0, _, rfl, by simp⟩
    | .handle d am r => exact ⟨.stopSelf, _, rfl, by simp⟩
    | .yieldOnce .receiving =>
      refine ⟨.nextPoll (some .shutdown), _, rfl, ?_⟩
      simp [dispatch, AMsg.isStop, dispatched]
    | .sel j .pollFut => exact ⟨.futPoll (some 0), _, rfl, by simp⟩
    | .sel j .pollNext => exact ⟨.nextPoll none, _, rfl, by simp⟩
    | .sel j (.left v) => exact ⟨.nextPoll none, _, rfl, by simp⟩
    | .sel j .awaiting => exact ⟨.futPoll (some 0), _, rfl, by simp⟩

/-! ## C26 -/

/-- **C26**: how a completed `select` went. -/
theorem C26_select {c : Cfg} (h : Reach c) {tr : List LEv} (hf : Fin.sel false tr ∈ c.finished) : SelEnd tr :=
  (inv_reach h).fin _ hf

/-- **C26**: how a completed `join` went. -/
theorem C26_join {c : Cfg} (h : Reach c) {tr : List LEv} (hf : Fin.sel true tr ∈ c.finished) : JoinEnd tr :=
  (inv_reach h).fin _ hf

/-- **C26**: the outcome of every message handled in a `select` or `join` is that of its handler. -/
theorem C26_outcome {c : Cfg} (h : Reach c) {j : Bool} {tr : List LEv} (hf : Fin.sel j tr ∈ c.finished) {d : Nat} {am : AMsg}
    {brk : Bool} (hm : LEv.handled d am brk ∈ tr) : Outcome c d am brk :=
  (inv2_reach h).out tr (.inr ⟨_, hf, rfl⟩) d am brk hm

theorem selPre_mem {l : List LEv} (h : SelPre l) : ∀ e ∈ l, e = .futPending ∨ ∃ d am, e = .recv d am ∨ e = .handled d am false := by
  induction h with
  | nil => simp
  | pending _ ih =>
    intro e he
    simp only [List.mem_append, List.mem_singleton] at he
    rcases he with he | rfl
    · exact ih e he
    · exact .inl rfl
  | message _ ih =>
    intro e he
    simp only [List.mem_append, List.mem_cons, List.not_mem_nil, or_false] at he
    rcases he with he | rfl | rfl | rfl
    · exact ih e he
    · exact .inl rfl
    · exact .inr ⟨_, _, .inl rfl⟩
    · exact .inr ⟨_, _, .inr rfl⟩

/-- **C26**: `select` returns `Left(v)` only if the future completed with `v`; then nothing was returned before. -/
theorem C26_left_value {c : Cfg} (h : Reach c) {tr : List LEv} (hf : Fin.sel false tr ∈ c.finished) {v : Nat} (hm : LEv.left v ∈ tr) :
    LEv.futReady v ∈ tr ∧ tr.getLast? = some (.left v) ∧ LEv.right ∉ tr := by
  obtain ⟨l, hl, h⟩ := C26_select h hf
  have n1 : ∀ w, LEv.left w ∉ l := fun w hw => by have := selPre_mem hl _ hw; simp at this
  have n2 : LEv.right ∉ l := fun hw => by have := selPre_mem hl _ hw; simp at this
  rcases h with ⟨w, rfl⟩ | ⟨w, d, am, brk, rfl⟩ | ⟨d, am, rfl⟩
  · simp [n1] at hm; subst hm; simp [n2, List.getLast?_append]
  · simp [n1] at hm; subst hm; simp [n2, List.getLast?_append]
  · simp [n1] at hm

/-- **C26**: `select` returns the unfinished future (`Right`) only if the last message it handled stopped the actor, and the
future had not completed. -/
theorem C26_right_stop {c : Cfg} (h : Reach c) {tr : List LEv} (hf : Fin.sel false tr ∈ c.finished) (hm : LEv.right ∈ tr) :
    (∃ l d am, tr = l ++ [.handled d am true, .right] ∧ Outcome c d am true) ∧ ∀ v, LEv.futReady v ∉ tr := by
  have ho := fun d am brk => C26_outcome h hf (d := d) (am := am) (brk := brk)
  obtain ⟨l, hl, h⟩ := C26_select h hf
  have n1 : ∀ w, LEv.futReady w ∉ l := fun w hw => by have := selPre_mem hl _ hw; simp at this
  have n2 : LEv.right ∉ l := fun hw => by have := selPre_mem hl _ hw; simp at this
  rcases h with ⟨w, rfl⟩ | ⟨w, d, am, brk, rfl⟩ | ⟨d, am, rfl⟩
  · simp [n2] at hm
  · simp [n2] at hm
  · refine ⟨⟨l ++ [.futPending, .recv d am], d, am, by simp, ho d am true (by simp)⟩, ?_⟩
    intro v hv
    simp [n1] at hv

/-- **C26**: one of the two. -/
theorem C26_left_or_right {c : Cfg} (h : Reach c) {tr : List LEv} (hf : Fin.sel false tr ∈ c.finished) :
    (∃ v, LEv.left v ∈ tr) ∨ LEv.right ∈ tr := by
  obtain ⟨l, hl, h⟩ := C26_select h hf
  rcases h with ⟨w, rfl⟩ | ⟨w, d, am, brk, rfl⟩ | ⟨d, am, rfl⟩
  · exact .inl ⟨w, by simp⟩
  · exact .inl ⟨w, by simp⟩
  · exact .inr (by simp)

/-- **C26**: `join` returns the value the future completed with, which it did once. -/
theorem C26_join_value {c : Cfg} (h : Reach c) {tr : List LEv} (hf : Fin.sel true tr ∈ c.finished) :
    ∃ v, tr.getLast? = some (.left v) ∧ LEv.futReady v ∈ tr ∧ ∀ w, LEv.futReady w ∈ tr → w = v := by
  obtain ⟨l, hl, h⟩ := C26_join h hf
  have n1 : ∀ w, LEv.futReady w ∉ l := fun w hw => by have := selPre_mem hl _ hw; simp at this
  rcases h with ⟨w, rfl⟩ | ⟨w, d, am, brk, rfl⟩ | ⟨d, am, n, w, rfl⟩
  · exact ⟨w, by simp [List.getLast?_append], by simp, by simp [n1]⟩
  · exact ⟨w, by simp [List.getLast?_append], by simp, by simp [n1]⟩
  · refine ⟨w, by rw [List.getLast?_append]; rfl, by simp, ?_⟩
    intro v hv
    simpa [n1, List.mem_replicate] using hv

/-- **C26**: after a message that stopped the actor `select` and `join` receive no further message. -/
theorem C26_no_message_after_stop {c : Cfg} (h : Reach c) {j : Bool} {tr : List LEv} (hf : Fin.sel j tr ∈ c.finished)
    {d : Nat} {am : AMsg} {a b : List LEv} (hm : tr = a ++ .handled d am true :: b) : ∀ d' am', LEv.recv d' am' ∉ b := by
  have key : ∀ (p s : List LEv) e, LEv.handled d am true ∉ p → (∀ d' am', LEv.recv d' am' ∉ s) → LEv.handled d am true ∉ s →
      p ++ e :: s = a ++ .handled d am true :: b → ∀ d' am', LEv.recv d' am' ∉ b := by
    intro p s e hp hr hs he
    rcases List.append_eq_append_iff.mp he with ⟨x, rfl, hx⟩ | ⟨x, rfl, hx⟩
    · cases x with
      | nil => simp at hx; rw [← hx.2]; exact hr
      | cons y x => simp at hx; exfalso; apply hs; rw [hx.2]; simp
    · cases x with
      | nil => simp at hx; rw [hx.2]; exact hr
      | cons y x => simp at hx; exfalso; apply hp; simp [← hx.1]
  have nl : ∀ l, SelPre l → LEv.handled d am true ∉ l := fun l hl hw => by have := selPre_mem hl _ hw; simp at this
  have hmem : LEv.handled d am true ∈ tr := by rw [hm]; simp
  have main : ∀ l, SelPre l → ∀ x, tr = l ++ x → LEv.handled d am true ∈ x := by
    rintro l hl x rfl
    simpa [nl l hl] using hmem
  have e2 : (∃ l, SelPre l ∧ ((∃ v, tr = l ++ [.futReady v, .left v]) ∨
      (∃ v d am brk, tr = l ++ [.futReady v, .recv d am, .handled d am brk, .left v]) ∨
      ∃ d' am' s, tr = (l ++ [.futPending, .recv d' am']) ++ .handled d' am' true :: s ∧ (∀ d' am', LEv.recv d' am' ∉ s) ∧
        LEv.handled d am true ∉ s)) := by
    cases j with
    | false =>
      obtain ⟨l, hl, h1 | h1 | ⟨d', am', h1⟩⟩ := C26_select h hf
      · exact ⟨l, hl, .inl h1⟩
      · exact ⟨l, hl, .inr (.inl h1)⟩
      · exact ⟨l, hl, .inr (.inr ⟨d', am', [.right], by simp [h1], by simp, by simp⟩)⟩
    | true =>
      obtain ⟨l, hl, h1 | h1 | ⟨d', am', n, v, h1⟩⟩ := C26_join h hf
      · exact ⟨l, hl, .inl h1⟩
      · exact ⟨l, hl, .inr (.inl h1)⟩
      · exact ⟨l, hl, .inr (.inr ⟨d', am', .right :: List.replicate n .futPending ++ [.futReady v, .left v], by simp [h1],
          by simp [List.mem_replicate], by simp [List.mem_replicate]⟩)⟩
  obtain ⟨l, hl, ⟨v, h1⟩ | ⟨v, d', am', brk, h1⟩ | ⟨d', am', s, h1, h2, h3⟩⟩ := e2
  · have := main l hl _ h1; simp at this
  · exact key (l ++ [.futReady v, .recv d' am']) [.left v] (.handled d' am' brk) (by simp [nl l hl]) (by simp) (by simp) (by rw [← hm, h1, List.append_assoc]; rfl)
  · exact key (l ++ [.futPending, .recv d' am']) s (.handled d' am' true) (by simp [nl l hl]) h2 h3 (by rw [← hm, h1])

/-- **C26**: `yield_once` handles exactly one message and returns its outcome. -/
theorem C26_yield_once {c : Cfg} (h : Reach c) {tr : List LEv} {brk : Bool} (hf : Fin.yieldOnce tr brk ∈ c.finished) :
    ∃ d am, tr = [.recv d am, .handled d am brk] ∧ Outcome c d am brk := by
  obtain ⟨d, am, rfl⟩ := (inv_reach h).fin _ hf
  exact ⟨d, am, rfl, (inv2_reach h).out _ (.inr ⟨_, hf, rfl⟩) d am brk (by simp [Fin.tr])⟩

/-! ### A stop inside `select` or `join` -/

/-- The claim "a stop signalled to the actor makes `run` stop": once a handler has called `stop_self` and finished, or the shutdown
notice was received, `run` receives no message any more (dispatches are numbered in order of time). -/
def StopsActor (c : Cfg) : Prop :=
  ∀ d am, (∃ h, Fin.handle d am true h ∈ c.finished) ∨ (am.isStop = true ∧ ∃ f ∈ c.finished, LEv.recv d am ∈ f.tr) →
    ∀ tr, IsRun c tr → ∀ d' am', LEv.recv d' am' ∈ tr → d' ≤ d

/-- Handler of dispatch 0 calls `select` on a pending future; dispatch 1 calls `stop_self`, `select` returns `Right`; the outer
handler returns; `run` receives dispatch 2. -/
def lostRight : List Choice := [.retStarted none, .nextPoll (some (.one ⟨0, .valued 0⟩)), .callSelect, .futPoll none,
  .nextPoll (some (.one ⟨1, .valued 0⟩)), .stopSelf, .retHandle, .retHandle, .nextPoll (some (.one ⟨2, .valued 0⟩))]

/-- The same with the future completing first and the stop coming with the message taken by `now_or_never`. -/
def lostLeft : List Choice := [.retStarted none, .nextPoll (some (.one ⟨0, .valued 0⟩)), .callSelect, .futPoll (some 7),
  .nextPoll (some .shutdown), .retHandle, .nextPoll (some (.one ⟨2, .valued 0⟩))]

/-- The same with `join`. -/
def lostJoin : List Choice := [.retStarted none, .nextPoll (some (.one ⟨0, .valued 0⟩)), .callJoin, .futPoll none,
  .nextPoll (some .shutdown), .futPoll (some 7), .retHandle, .nextPoll (some (.one ⟨2, .valued 0⟩))]

/-- **C26** (the last sentence of the claim is false of the code): the outcome of messages handled inside `select`, `join` and
`yield_once` reaches only the caller, and `select` drops even that in its `Left` branch; so an actor one of whose handlers called
`stop_self`, or that took the shutdown notice, goes on handling messages. -/
theorem C26_stop_lost_refuted : ¬ ∀ c, Reach c → StopsActor c := by
  intro h
  have hc := Reach.init.steps (as := lostRight) rfl
  exact absurd (h _ hc 1 (.one ⟨1, .valued 0⟩) (.inl ⟨[.stopSelf], by decide⟩) _ ⟨_, rfl⟩ 2 (.one ⟨2, .valued 0⟩) (by decide)) (by decide)

/-- The same for the shutdown notice with a `select` whose future completes first. -/
theorem C26_stop_lost_left_refuted : ∃ c, Reach c ∧ ∃ tr, Fin.sel false tr ∈ c.finished ∧ LEv.handled 1 .shutdown true ∈ tr ∧
    ∃ rt, IsRun c rt ∧ LEv.recv 2 (.one ⟨2, .valued 0⟩) ∈ rt :=
  ⟨_, Reach.init.steps (as := lostLeft) rfl, _, List.mem_cons_of_mem _ List.mem_cons_self, by decide, _, ⟨_, rfl⟩, by decide⟩

/-- The same with `join`. -/
theorem C26_stop_lost_join_refuted : ∃ c, Reach c ∧ ∃ tr, Fin.sel true tr ∈ c.finished ∧ LEv.handled 1 .shutdown true ∈ tr ∧
    ∃ rt, IsRun c rt ∧ LEv.recv 2 (.one ⟨2, .valued 0⟩) ∈ rt :=
  ⟨_, Reach.init.steps (as := lostJoin) rfl, _, List.mem_cons_of_mem _ List.mem_cons_self, by decide, _, ⟨_, rfl⟩, by decide⟩

/-! ### Cases that meet the hypotheses -/

/-- A whole life: two messages, the second stops the actor, `stopped` returns 9. -/
def life : List Choice := [.retStarted none, .nextPoll none, .nextPoll (some (.one ⟨0, .valued 0⟩)), .retHandle,
  .nextPoll (some (.one ⟨1, .valued 0⟩)), .stopSelf, .retHandle, .retStopped 9]

/-- Meets the hypotheses of `C25_shape`, `C25_stop_signal`, `C25_handled_once`, `C25_value`, `C25_stopped_once`, `C25_nothing_after_stop`,
`C25_sequential`, `C25_progress`. -/
example : ∃ c, Reach c ∧ IsRun c [.startedOk, .recv 0 (.one ⟨0, .valued 0⟩), .handled 0 (.one ⟨0, .valued 0⟩) false,
    .recv 1 (.one ⟨1, .valued 0⟩), .handled 1 (.one ⟨1, .valued 0⟩) true, .stoppedCall, .stoppedRet 9, .ret 9] :=
  ⟨_, Reach.init.steps (as := life) rfl, _, rfl⟩

/-- `started` fails. Meets the hypotheses of `C25_start_fails`. -/
example : ∃ c, Reach c ∧ IsRun c [.startedErr 3, .ret 3] := ⟨_, Reach.init.steps (as := [.retStarted (some 3)]) rfl, _, rfl⟩

/-- `select`: a message handled, then the future completes.
Meets the hypotheses of `C26_select`, `C26_outcome`, `C26_left_value`, `C26_left_or_right`. -/
example : ∃ c, Reach c ∧ Fin.sel false [.futPending, .recv 1 (.one ⟨1, .valued 0⟩), .handled 1 (.one ⟨1, .valued 0⟩) false,
    .futReady 7, .left 7] ∈ c.finished :=
  ⟨_, Reach.init.steps (as := [.retStarted none, .nextPoll (some (.one ⟨0, .valued 0⟩)), .callSelect, .futPoll none,
    .nextPoll (some (.one ⟨1, .valued 0⟩)), .retHandle, .futPoll (some 7), .nextPoll none]) rfl, by decide⟩

/-- `select`: stopped by a message. Meets the hypotheses of `C26_right_stop`, `C26_no_message_after_stop`. -/
example : ∃ c, Reach c ∧ Fin.sel false [.futPending, .recv 1 (.one ⟨1, .valued 0⟩), .handled 1 (.one ⟨1, .valued 0⟩) true, .right] ∈
    c.finished :=
  ⟨_, Reach.init.steps (as := lostRight) rfl, by decide⟩

/-- `join`: stopped by the shutdown notice, then the future completes. Meets the hypotheses of `C26_join`, `C26_join_value`. -/
example : ∃ c, Reach c ∧ Fin.sel true [.futPending, .recv 1 .shutdown, .handled 1 .shutdown true, .right, .futReady 7, .left 7] ∈
    c.finished :=
  ⟨_, Reach.init.steps (as := lostJoin) rfl, by decide⟩

/-- `yield_once` inside `started`, and abandoning a `select` in the middle of handling a message.
Meets the hypotheses of `C26_yield_once`. -/
example : ∃ c, Reach c ∧ Fin.yieldOnce [.recv 0 (.one ⟨0, .valued 0⟩), .handled 0 (.one ⟨0, .valued 0⟩) true] true ∈ c.finished ∧
    IsRun c [.startedOk] :=
  ⟨_, Reach.init.steps (as := [.callYield, .nextPoll (some (.one ⟨0, .valued 0⟩)), .stopSelf, .retHandle, .callSelect, .futPoll none,
    .nextPoll (some (.one ⟨1, .valued 0⟩)), .abandon 2, .retStarted none]) rfl, by decide, _, rfl⟩

end Xtra.Loop
