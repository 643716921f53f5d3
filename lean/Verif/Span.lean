import Verif.Kind2
/-!
# Instrumentation (C45)

Part 1: `DispatchFuture` (`xtra/src/dispatch_future.rs:34-148`) with the spans of `xtra/src/instrumentation/tracing.rs` and
`xtra/src/envelope.rs`. `DispatchFuture::span()` may be called at any time, also before the first poll, when it has to start the
handler's future early. The specification is a handler that is just polled.

Part 2: `start_span` over the channel model. `envelope.rs:88-91, 183-186` assert that no span has been started, and `chan.rs:143-145`,
`send_future.rs:400-402` assert with `Arc::get_mut(..).expect(..)` that a broadcast envelope has not been shared yet.
-/

set_option linter.unusedSimpArgs false

namespace Xtra.Span

/-! ## Part 1: `DispatchFuture` -/

/-- `tracing::Span`: `none` is a disabled span (`Span::none()`). -/
abbrev Span := Option Nat

/-- The three spans xtra creates (`tracing.rs:20-28, 44-47`). -/
inductive Name where
  | request
  | waiting
  | handler
  deriving DecidableEq, Repr

/-- The subscriber: every span created, with its parent; the index is the id. -/
abbrev Trace := List (Name × Span)

/-- `debug_span!(parent: p, name).or_current()`: a new span if the subscriber is interested (`on`), otherwise the current span `cur`. -/
def debugSpan (on : Bool) (n : Name) (p cur : Span) (t : Trace) : Span × Trace :=
  if on then (some t.length, t ++ [(n, p)]) else (cur, t)

/-- `Span::enter`: a disabled span leaves the current one in place. -/
def enter (s cur : Span) : Span := s.or cur

/-- `Instrumentation` (`tracing.rs:6-9`). -/
structure Instr where
  parent : Span
  waiting : Span
  deriving DecidableEq, Repr

/-- `Instrumentation::empty` (`tracing.rs:12-17`). -/
def Instr.empty : Instr := ⟨none, none⟩

/-- `Instrumentation::started` (`tracing.rs:19-34`). -/
def Instr.started (on : Bool) (cur : Span) (t : Trace) : Instr × Trace :=
  let p := debugSpan on .request cur cur t
  let q := debugSpan on .waiting p.1 cur p.2
  (⟨p.1, q.1⟩, q.2)

/-- `MessageEnvelope::start_span` (`envelope.rs:88-91`); `none`: the assertion failed. -/
def Instr.startSpan (i : Instr) (on : Bool) (cur : Span) (t : Trace) : Option (Instr × Trace) :=
  if i.parent = none then some (Instr.started on cur t) else none

/-- `Instrumentation::apply` (`tracing.rs:40-53`): the span of the handler, made inside the request span. -/
def Instr.apply (i : Instr) (on : Bool) (cur : Span) (t : Trace) : Span × Trace :=
  debugSpan on .handler (enter i.parent cur) (enter i.parent cur) t

/-- A handler: `start` makes the future of `Handler::handle` from a message, without running any of it; a poll may change the state
`W` of the actor and of everything else, and is ready with `some brk` (`brk`: `ControlFlow::Break`, i.e. `Context::running` is false). -/
structure Handler (M σ W : Type) where
  start : M → σ
  poll : σ → W → Option Bool × σ × W

variable {M σ W : Type}

/-- The future inside `State::Running`: of a handler, or of `Shutdown::handle` (`envelope.rs:227-231`), which is ready with `Break`. -/
inductive Fut (σ : Type) where
  | shutdown
  | handler (f : σ)
  deriving DecidableEq, Repr

/-- Its poll. -/
def Fut.poll (h : Handler M σ W) : Fut σ → W → Option Bool × Fut σ × W
  | .shutdown, w => (some true, .shutdown, w)
  | .handler f, w => ((h.poll f w).1, .handler (h.poll f w).2.1, (h.poll f w).2.2)

/-- `State` (`dispatch_future.rs:105-116`); the message of `New` is `none` for `ActorMessage::Shutdown`. -/
inductive State (M σ : Type) where
  | new (m : Option (M × Instr))
  | running (f : Fut σ)
  | done
  deriving DecidableEq, Repr

/-- `DispatchFuture` (`dispatch_future.rs:33-36`). -/
structure DF (M σ : Type) where
  state : State M σ
  span : Span
  deriving DecidableEq, Repr

/-- `DispatchFuture::new` (`dispatch_future.rs:119-124`). -/
def DF.new (m : Option (M × Instr)) : DF M σ := ⟨.new m, none⟩

/-- `DispatchFuture::running` (`dispatch_future.rs:88-102`), with `handle` of the envelopes (`envelope.rs:93-128, 188-210, 227-231`). -/
def running (h : Handler M σ W) (m : Option (M × Instr)) (on : Bool) (cur : Span) (t : Trace) : DF M σ × Trace :=
  match m with
  | some (m, i) => (⟨.running (.handler (h.start m)), (i.apply on cur t).1⟩, (i.apply on cur t).2)
  | none => (⟨.running .shutdown, none⟩, t)

/-- `DispatchFuture::span` (`dispatch_future.rs:77-86`). The result is the field `span`. -/
def DF.getSpan (h : Handler M σ W) (d : DF M σ) (on : Bool) (cur : Span) (t : Trace) : DF M σ × Trace :=
  match d.state with
  | .new m => running h m on cur t
  | _ => (d, t)

/-- Result of a poll of the `DispatchFuture`. -/
inductive Res where
  | pending
  | ready (brk : Bool)
  | panic
  deriving DecidableEq, Repr

/-- `Future::poll`, states `Running` and `Done` (`dispatch_future.rs:136-146`). Also: the span that is current inside the handler. -/
def DF.pollRunning (h : Handler M σ W) (d : DF M σ) (cur : Span) (w : W) : Res × List Span × DF M σ × W :=
  match d.state with
  | .running f =>
    match f.poll h w with
    | (some brk, _, w') => (.ready brk, [enter d.span (enter d.span cur)], ⟨.done, d.span⟩, w')
    | (none, f', w') => (.pending, [enter d.span (enter d.span cur)], ⟨.running f', d.span⟩, w')
  | _ => (.panic, [], ⟨.done, d.span⟩, w)

/-- An operation on a `DispatchFuture`. `on`: whether the subscriber is interested in xtra's spans, `cur`: the current span of the caller;
both may be different every time. -/
inductive Op where
  | span (on : Bool) (cur : Span)
  | poll (on : Bool) (cur : Span)
  deriving DecidableEq, Repr

/-- What an operation returned; for a poll also the spans that were current while the handler ran. -/
inductive Out where
  | span (s : Span)
  | poll (r : Res) (inside : List Span)
  deriving DecidableEq, Repr

/-- One operation (`dispatch_future.rs:77-86, 130-148`). -/
def step (h : Handler M σ W) (d : DF M σ) (t : Trace) (w : W) : Op → Out × DF M σ × Trace × W
  | .span on cur => (.span (d.getSpan h on cur t).1.span, (d.getSpan h on cur t).1, (d.getSpan h on cur t).2, w)
  | .poll on cur =>
    let r := (d.getSpan h on cur t).1.pollRunning h cur w
    (.poll r.1 r.2.1, r.2.2.1, (d.getSpan h on cur t).2, r.2.2.2)

/-- Several operations. -/
def run (h : Handler M σ W) (d : DF M σ) (t : Trace) (w : W) : List Op → List Out × DF M σ × Trace × W
  | [] => ([], d, t, w)
  | o :: os =>
    let s := step h d t w o
    let r := run h s.2.1 s.2.2.1 s.2.2.2 os
    (s.1 :: r.1, r.2)

/-- The results of the polls. -/
def polls : List Out → List Res
  | [] => []
  | .span _ :: os => polls os
  | .poll r _ :: os => r :: polls os

/-- Number of polls. -/
def nPolls : List Op → Nat
  | [] => 0
  | .span _ _ :: os => nPolls os
  | .poll _ _ :: os => nPolls os + 1

/-- Specification, without spans: a future is polled `n` times; after completion every poll panics. -/
def plain (h : Handler M σ W) : Option (Fut σ) → W → Nat → List Res × W
  | _, w, 0 => ([], w)
  | none, w, n + 1 => (.panic :: (plain h none w n).1, (plain h none w n).2)
  | some f, w, n + 1 =>
    match f.poll h w with
    | (some brk, _, w') => (.ready brk :: (plain h none w' n).1, (plain h none w' n).2)
    | (none, f', w') => (.pending :: (plain h (some f') w' n).1, (plain h (some f') w' n).2)

/-- The future the message stands for. -/
def futOf (h : Handler M σ W) : Option (M × Instr) → Fut σ
  | some (m, _) => .handler (h.start m)
  | none => .shutdown

/-- The future a `DispatchFuture` stands for. -/
def DF.fut (h : Handler M σ W) (d : DF M σ) : Option (Fut σ) :=
  match d.state with
  | .new m => some (futOf h m)
  | .running f => some f
  | .done => none

theorem getSpan_fut (h : Handler M σ W) (d : DF M σ) (on : Bool) (cur : Span) (t : Trace) :
    (d.getSpan h on cur t).1.fut h = d.fut h := by
  obtain ⟨s, sp⟩ := d
  cases s with
  | new m => cases m <;> rfl
  | running f => rfl
  | done => rfl

theorem getSpan_not_new (h : Handler M σ W) (d : DF M σ) (on : Bool) (cur : Span) (t : Trace) (m) :
    (d.getSpan h on cur t).1.state ≠ .new m := by
  obtain ⟨s, sp⟩ := d
  cases s with
  | new m => cases m <;> simp [DF.getSpan, running]
  | running f => simp [DF.getSpan]
  | done => simp [DF.getSpan]

theorem run_plain (h : Handler M σ W) (ops : List Op) (d : DF M σ) (t : Trace) (w : W) :
    polls (run h d t w ops).1 = (plain h (d.fut h) w (nPolls ops)).1 ∧
    (run h d t w ops).2.2.2 = (plain h (d.fut h) w (nPolls ops)).2 := by
  induction ops generalizing d t w with
  | nil => simp [run, polls, nPolls, plain]
  | cons o os ih =>
    cases o with
    | span on cur =>
      simp only [run, step, polls, nPolls]
      rw [← getSpan_fut h d on cur t]
      exact ih _ _ _
    | poll on cur =>
      simp only [run, step, polls, nPolls]
      rw [← getSpan_fut h d on cur t]
      have hn := getSpan_not_new h d on cur t
      generalize (d.getSpan h on cur t).1 = d' at *
      generalize (d.getSpan h on cur t).2 = t' at *
      obtain ⟨s, sp⟩ := d'
      cases s with
      | new m => exact absurd rfl (hn m)
      | running f =>
        simp only [DF.pollRunning, DF.fut, plain]
        rcases hp : f.poll h w with ⟨b, f', w'⟩
        cases b with
        | none => simp only [hp]; have := ih ⟨.running f', sp⟩ t' w'; simp only [DF.fut] at this; simp [this]
        | some b => simp only [hp]; have := ih ⟨.done, sp⟩ t' w'; simp only [DF.fut] at this; simp [this]
      | done =>
        simp only [DF.pollRunning, DF.fut, plain]
        have := ih ⟨.done, sp⟩ t' w; simp only [DF.fut] at this; simp [this]

/-- **C45 (transparent).** However often, wherever and in whatever contexts `span()` is called in between, the polls of a `DispatchFuture`
return what polling the handler's future returns, and the handler has the same effects. -/
theorem C45_span_is_transparent (h : Handler M σ W) (m : Option (M × Instr)) (t : Trace) (w : W) (ops : List Op) :
    polls (run h (DF.new m) t w ops).1 = (plain h (some (futOf h m)) w (nPolls ops)).1 ∧
    (run h (DF.new m) t w ops).2.2.2 = (plain h (some (futOf h m)) w (nPolls ops)).2 :=
  run_plain h ops (DF.new m) t w

theorem plain_none (h : Handler M σ W) (w : W) (n : Nat) : plain h none w n = (List.replicate n .panic, w) := by
  induction n with
  | zero => rfl
  | succ n ih => simp [plain, ih, List.replicate_succ]

/-- **C45 (the shutdown notice).** The `DispatchFuture` of the shutdown notice runs no handler (nothing is changed), and completes with
`Break` at its first poll; only polling it again panics. -/
theorem C45_shutdown_breaks_at_once (h : Handler M σ W) (t : Trace) (w : W) (ops : List Op) :
    polls (run h (DF.new none) t w ops).1 = (match nPolls ops with
      | 0 => []
      | n + 1 => .ready true :: List.replicate n .panic) ∧ (run h (DF.new none) t w ops).2.2.2 = w := by
  have := C45_span_is_transparent h none t w ops
  rw [this.1, this.2]
  cases nPolls ops with
  | zero => exact ⟨rfl, rfl⟩
  | succ n => simp [plain, futOf, Fut.poll, plain_none]

/-- The span of the future does not change any more. -/
theorem step_span (h : Handler M σ W) (d : DF M σ) (hd : ∀ m, d.state ≠ .new m) (t : Trace) (w : W) (o : Op) :
    (step h d t w o).2.1.span = d.span ∧ (∀ m, (step h d t w o).2.1.state ≠ .new m) ∧ (step h d t w o).2.2.1 = t := by
  have hg : ∀ on cur, d.getSpan h on cur t = (d, t) := by
    intro on cur
    obtain ⟨s, sp⟩ := d
    cases s with
    | new m => exact absurd rfl (hd m)
    | running f => rfl
    | done => rfl
  cases o with
  | span on cur => simp [step, hg, hd]
  | poll on cur =>
    simp only [step, hg, DF.pollRunning]
    split
    · split <;> simp
    · simp

/-- The span that a `DispatchFuture` shows after the first operation `o`. -/
def firstSpan (m : Option (M × Instr)) (t : Trace) : Op → Span
  | .span on cur | .poll on cur =>
    match m with
    | none => none
    | some (_, i) => if on then some t.length else enter i.parent cur

theorem run_span (h : Handler M σ W) (ops : List Op) (d : DF M σ) (hd : ∀ m, d.state ≠ .new m) (t : Trace) (w : W) :
    (∀ s, Out.span s ∈ (run h d t w ops).1 → s = d.span) ∧
    (∀ r l, Out.poll r l ∈ (run h d t w ops).1 → ∀ s ∈ l, d.span ≠ none → s = d.span) ∧
    (run h d t w ops).2.2.1 = t := by
  induction ops generalizing d w with
  | nil => simp [run]
  | cons o os ih =>
    obtain ⟨h1, h2, h3⟩ := step_span h d hd t w o
    have hi := ih _ h2 (step h d t w o).2.2.2
    simp only [run]
    rw [h3]
    rw [h1] at hi
    refine ⟨fun s hs => ?_, fun r l hs => ?_, hi.2.2⟩
    · simp at hs
      rcases hs with hs | hs
      · cases o with
        | span on cur => simp [step] at hs; simp [step] at h1; rw [hs, h1]
        | poll on cur => simp [step] at hs
      · exact hi.1 s hs
    · simp at hs
      rcases hs with hs | hs
      · cases o with
        | span on cur => simp [step] at hs
        | poll on cur =>
          simp only [step, Out.poll.injEq] at hs
          obtain ⟨-, rfl⟩ := hs
          have hg : d.getSpan h on cur t = (d, t) := by
            obtain ⟨s, sp⟩ := d
            cases s with
            | new m => exact absurd rfl (hd m)
            | running f => rfl
            | done => rfl
          simp only [hg, DF.pollRunning]
          split
          · split <;> (simp; intro hne; cases hsp : d.span <;> simp_all [enter])
          · simp
      · exact hi.2.1 r l hs

/-- **C45 (the shutdown notice, 2).** The shutdown notice is not instrumented: `span()` on its `DispatchFuture` is the disabled span,
whenever it is asked for, and no span is ever created for it. -/
theorem C45_shutdown_has_no_span (h : Handler M σ W) (t : Trace) (w : W) (ops : List Op) :
    (∀ s, Out.span s ∈ (run h (DF.new none) t w ops).1 → s = none) ∧ (run h (DF.new none) t w ops).2.2.1 = t := by
  cases ops with
  | nil => simp [run]
  | cons o os =>
    have hd : ∀ m, (step h (DF.new none) t w o).2.1.state ≠ .new m := by
      cases o <;> simp [step, DF.new, DF.getSpan, running, DF.pollRunning, Fut.poll]
    have hs : (step h (DF.new none) t w o).2.1.span = none ∧ (step h (DF.new none) t w o).2.2.1 = t ∧
        ∀ s, (step h (DF.new none) t w o).1 = .span s → s = none := by
      cases o <;> simp [step, DF.new, DF.getSpan, running, DF.pollRunning, Fut.poll]
    have hr := run_span h os _ hd (step h (DF.new none) t w o).2.2.1 (step h (DF.new none) t w o).2.2.2
    simp only [run]
    refine ⟨fun s hm => ?_, hr.2.2.trans hs.2.1⟩
    simp only [List.mem_cons] at hm
    rcases hm with hm | hm
    · exact hs.2.2 s hm.symm
    · exact (hr.1 s hm).trans hs.1

theorem poll_as_span (h : Handler M σ W) (d : DF M σ) (t : Trace) (w : W) (on : Bool) (cur : Span) :
    step h d t w (.poll on cur) =
      step h (d.getSpan h on cur t).1 (d.getSpan h on cur t).2 w (.poll on cur) := by
  have hn := getSpan_not_new h d on cur t
  have hg : ∀ (d' : DF M σ) t', (∀ m, d'.state ≠ .new m) → d'.getSpan h on cur t' = (d', t') := by
    intro d' t' hd
    obtain ⟨s, sp⟩ := d'
    cases s with
    | new m => exact absurd rfl (hd m)
    | running f => rfl
    | done => rfl
  simp only [step]
  rw [hg _ _ hn]

/-- **C45 (one span).** The first operation fixes the span of a `DispatchFuture`: every `span()`, before, between and after the polls,
returns it; while the handler runs it is the current span; and nothing else is ever created. If the subscriber is interested at the first
operation, it is a fresh handler span, whose parent is the message's request span. -/
theorem C45_one_handler_span (h : Handler M σ W) (m : M) (i : Instr) (t : Trace) (w : W) (o : Op) (ops : List Op) :
    let sp := firstSpan (some (m, i)) t o
    let r := run h (DF.new (some (m, i))) t w (o :: ops)
    (∀ s, Out.span s ∈ r.1 → s = sp) ∧
    (∀ res l, Out.poll res l ∈ r.1 → ∀ s ∈ l, sp ≠ none → s = sp) ∧
    r.2.2.1 = match o with
      | .span on cur | .poll on cur => if on then t ++ [(.handler, enter i.parent cur)] else t := by
  intro sp r
  obtain ⟨on, cur, ho⟩ : ∃ on cur, o = .span on cur ∨ o = .poll on cur := by
    cases o with
    | span on cur => exact ⟨on, cur, .inl rfl⟩
    | poll on cur => exact ⟨on, cur, .inr rfl⟩
  have hsp : ((DF.new (some (m, i)) : DF M σ).getSpan h on cur t).1.span = sp := by
    rcases ho with rfl | rfl <;> cases on <;> simp [sp, firstSpan, DF.new, DF.getSpan, running, Instr.apply, debugSpan]
  have ht : ((DF.new (some (m, i)) : DF M σ).getSpan h on cur t).2 =
      if on then t ++ [(.handler, enter i.parent cur)] else t := by
    cases on <;> simp [DF.new, DF.getSpan, running, Instr.apply, debugSpan]
  have hn := getSpan_not_new h (DF.new (some (m, i)) : DF M σ) on cur t
  rcases ho with rfl | rfl
  · have hr := run_span h ops _ hn ((DF.new (some (m, i)) : DF M σ).getSpan h on cur t).2 w
    rw [hsp] at hr
    have e : r = (Out.span sp :: (run h ((DF.new (some (m, i)) : DF M σ).getSpan h on cur t).1
        ((DF.new (some (m, i)) : DF M σ).getSpan h on cur t).2 w ops).1,
        (run h ((DF.new (some (m, i)) : DF M σ).getSpan h on cur t).1
        ((DF.new (some (m, i)) : DF M σ).getSpan h on cur t).2 w ops).2) := by
      show run _ _ _ _ _ = _
      simp only [run, step, hsp]
    rw [e]
    refine ⟨fun s hs => ?_, fun res l hl => ?_, ?_⟩
    · simp at hs; rcases hs with rfl | hs
      · rfl
      · exact hr.1 s hs
    · simp at hl; exact hr.2.1 res l hl
    · exact hr.2.2.trans ht
  · have hr := run_span h (.poll on cur :: ops) _ hn ((DF.new (some (m, i)) : DF M σ).getSpan h on cur t).2 w
    rw [hsp] at hr
    have e : r = run h ((DF.new (some (m, i)) : DF M σ).getSpan h on cur t).1
        ((DF.new (some (m, i)) : DF M σ).getSpan h on cur t).2 w (.poll on cur :: ops) := by
      show run _ _ _ _ _ = _
      simp only [run]
      rw [← poll_as_span]
    rw [e]
    exact ⟨hr.1, hr.2.1, by rw [hr.2.2, ht]⟩

/-- A handler that counts its polls in the actor's state and stops the actor at the third. -/
def demo : Handler Nat Nat Nat where
  start m := m
  poll f w := (if f = 0 then some true else none, f - 1, w + 1)

/-- `span()` before the first poll, between polls and after completion.
Meets the hypotheses of `C45_span_is_transparent`, `C45_one_handler_span`. -/
example : (run demo (DF.new (some (2, ⟨some 0, some 1⟩))) [(.request, none), (.waiting, some 0)] 10
    [.span true (some 7), .poll false none, .span true none, .poll true none, .poll true none, .span false none]).1 =
    [.span (some 2), .poll .pending [some 2], .span (some 2), .poll .pending [some 2], .poll (.ready true) [some 2], .span (some 2)] := rfl

example : plain demo (some (.handler 2)) 10 3 = ([.pending, .pending, .ready true], 13) := rfl

/-- **C45 (started once, 0).** What the assertion in `start_span` does: a fresh envelope can be started, and an envelope whose span was
started refuses a second start. So it matters that `start_span` is called once per message, which part 2 shows. -/
theorem C45_start_refuses_twice (i i' : Instr) (on on' : Bool) (cur cur' : Span) (t t' : Trace)
    (h : i.startSpan on cur t = some (i', t')) (hon : on = true ∨ cur ≠ none) :
    (Instr.empty.startSpan on cur t).isSome ∧ i'.startSpan on' cur' t' = none := by
  refine ⟨by simp [Instr.empty, Instr.startSpan], ?_⟩
  simp only [Instr.startSpan] at h
  split at h
  · simp [Instr.started, debugSpan] at h
    obtain ⟨rfl, -⟩ := h
    cases on <;> simp [Instr.startSpan] at * <;> exact hon
  · simp at h

/-- **C45 (the tree of spans).** A message is sent in the span `cur` of its sender while the subscriber is interested; whatever else is
traced meanwhile (`more`), and whatever the context in which its `DispatchFuture` is first asked for its span or polled: the trace has a
request span whose parent is `cur`, a waiting span whose parent is that request span, and, if the subscriber is interested then, one handler
span whose parent is that request span too. -/
theorem C45_span_tree (h : Handler M σ W) (m : M) (i : Instr) (cur : Span) (t t' more : Trace) (w : W) (o : Op) (ops : List Op)
    (hs : Instr.empty.startSpan true cur t = some (i, t')) :
    t' = t ++ [(.request, cur), (.waiting, some t.length)] ∧
    (run h (DF.new (some (m, i))) (t' ++ more) w (o :: ops)).2.2.1 = match o with
      | .span on _ | .poll on _ => if on then t' ++ more ++ [(.handler, some t.length)] else t' ++ more := by
  simp only [Instr.startSpan, Instr.empty, Instr.started, debugSpan, if_true, Option.some.injEq, Prod.mk.injEq] at hs
  obtain ⟨rfl, rfl⟩ := hs
  refine ⟨by simp, ?_⟩
  have := (C45_one_handler_span h m ⟨some t.length, some (t ++ [(Name.request, cur)]).length⟩ (t ++ [(Name.request, cur)] ++
    [(Name.waiting, some t.length)] ++ more) w o ops).2.2
  rw [this]
  cases o <;> simp [enter]

/-- A message sent inside span 0; another one is sent before it is handled. Meets the hypothesis of `C45_span_tree`. -/
example : Instr.empty.startSpan true (some 0) [(.handler, none)] =
    some (⟨some 1, some 2⟩, [(.handler, none), (.request, some 0), (.waiting, some 1)]) := rfl

/-- The second start is refused. Meets the hypotheses of `C45_start_refuses_twice`. -/
example : (⟨some 1, some 2⟩ : Instr).startSpan true none [(.handler, none), (.request, some 0), (.waiting, some 1)] = none := rfl

/-! ## Part 2: `start_span` in the channel -/

/-- The messages whose `start_span` is called by a step of the system: `try_send_to_one` and `try_send_to_all` call it when the second load
of `is_connected` has succeeded (`chan.rs:109-113, 139-145`). -/
def starts (s : Sys) : Act → List Nat
  | .exec t =>
    match s.th[t]? with
    | some (.sendLd2 _ _ m _ _ :: _) => if s.w.sc = 0 then [] else [m.id]
    | _ => []
  | .call (.pollSendStale f _) =>
    match s.w.objs[f]? with
    | some (.send _ _ (.new m _)) => [m.id]
    | _ => []
  | .call _ => []

/-- The same along a schedule, oldest first. -/
def allStarts (s : Sys) : List Act → List Nat
  | [] => []
  | a :: as =>
    match s.step a with
    | some s' => starts s a ++ allStarts s' as
    | none => []

/-- Message `i`, not polled yet, held by an object. -/
def oNew (i : Nat) : Obj → Nat
  | .send _ _ s => sNewW i s
  | _ => 0

/-- Message `i` on its way to `start_span`. -/
def mPre (i : Nat) : Micro → Nat
  | .sendLd1 _ _ m _ _ => mid1 i m
  | .sendLd2 _ _ m _ _ => mid1 i m
  | _ => 0

/-- The step starts the span of message `i`. -/
def startW (i : Nat) (w : World) : Micro → Nat
  | .sendLd2 _ _ m _ _ => if w.sc = 0 then 0 else mid1 i m
  | _ => 0

/-- The call starts the span of message `i`. -/
def startC (i : Nat) (w : World) : Call → Nat
  | .pollSendStale f _ =>
    match w.objs[f]? with
    | some (.send _ _ (.new m _)) => mid1 i m
    | _ => 0
  | _ => 0

theorem callR_new {i : Nat} {w w' : World} {c : Call} {ms : List Micro} (h : CallR w c w' ms) :
    sumBy (oNew i) w'.objs + sumBy (mPre i) ms + startC i w c + created i w ≤ sumBy (oNew i) w.objs + created i w' := by
  have key : ∀ f x y, w.objs[f]? = some x →
      sumBy (oNew i) (w.objs.set f y) + oNew i x = sumBy (oNew i) w.objs + oNew i y :=
    fun f x y h => sumBy_set _ y h
  cases h <;> simp [mPre, oNew, sNewW, created, World.addTx, startC] <;>
    grind [mPre, oNew, sNewW, mid1]

theorem execR_new {i : Nat} {w w' : World} {m : Micro} {ms : List Micro} (h : ExecR w m w' ms) (hwf : WF w m)
    (r : RegWs w.ws w.wOne w.wAll) :
    sumBy (oNew i) w'.objs + sumBy (mPre i) ms + startW i w m + created i w ≤ sumBy (oNew i) w.objs + mPre i m + created i w' := by
  have key : ∀ f x y, w.objs[f]? = some x →
      sumBy (oNew i) (w.objs.set f y) + oNew i x = sumBy (oNew i) w.objs + oNew i y :=
    fun f x y h => sumBy_set _ y h
  cases h
  case recv_all hp _ _ =>
    simp only [WF] at hwf
    simp [World.popBroadcast_objs hp, World.popBroadcast_resp hp, created, mPre, startW]
    grind [oNew]
  case recvBcast_some hp =>
    simp only [WF] at hwf
    simp [World.popBroadcast_objs hp, World.popBroadcast_resp hp, created, mPre, startW]
    grind [oNew]
  case recv_one hp _ _ =>
    simp only [WF] at hwf
    simp [World.popUnicast_objs hp, World.popUnicast_resp hp, created, mPre, startW]
    grind [oNew]
  case shutRx => simp [mPre, sumBy_map, sumBy_eq_zero, startW, created]
  case shutTx => simp [mPre, startW, created, shutTx_resplen, World.shutTx_objs]
  all_goals simp only [WF] at hwf
  all_goals simp [mPre, startW, oNew, sNewW, created]
  all_goals grind [mPre, oNew, sNewW, mid1, startW]

/-- Message `i` on its way to `start_span`, or to be dropped without having been polled. -/
def mUn (i : Nat) : Micro → Nat
  | .sendLd1 _ _ m _ _ => mid1 i m
  | .sendLd2 _ _ m _ _ => mid1 i m
  | .dropMsg m => mid1 i m
  | _ => 0

/-- Message `i` was dropped, or is the notice of `stop_all` (which is not instrumented). -/
def eUn (i : Nat) : Ev → Nat
  | .dropped j => n1 i j
  | .bsent m _ => if m.prio = .shutdown then mid1 i m else 0
  | _ => 0

theorem callR_un {i : Nat} {w w' : World} {c : Call} {ms : List Micro} (h : CallR w c w' ms) :
    sumBy (oNew i) w.objs + sumBy (eUn i) w.log + created i w' ≤
      sumBy (oNew i) w'.objs + sumBy (eUn i) w'.log + sumBy (mUn i) ms + startC i w c + created i w := by
  have key : ∀ f x y, w.objs[f]? = some x →
      sumBy (oNew i) (w.objs.set f y) + oNew i x = sumBy (oNew i) w.objs + oNew i y :=
    fun f x y h => sumBy_set _ y h
  cases h <;> simp [mUn, oNew, sNewW, created, World.addTx, eUn, startC] <;>
    grind [mUn, oNew, sNewW, mid1]

theorem logLe_un {i : Nat} {l L : List Ev} (h : LogLe l L) : sumBy (eUn i) l ≤ sumBy (eUn i) L := by
  obtain ⟨t, rfl, -⟩ := h
  simp

theorem execR_un {i : Nat} {w w' : World} {m : Micro} {ms : List Micro} (h : ExecR w m w' ms) (hwf : WF w m)
    (r : RegWs w.ws w.wOne w.wAll) :
    sumBy (oNew i) w.objs + sumBy (eUn i) w.log + mUn i m + created i w' ≤
      sumBy (oNew i) w'.objs + sumBy (eUn i) w'.log + sumBy (mUn i) ms + startW i w m + created i w := by
  have key : ∀ f x y, w.objs[f]? = some x →
      sumBy (oNew i) (w.objs.set f y) + oNew i x = sumBy (oNew i) w.objs + oNew i y :=
    fun f x y h => sumBy_set _ y h
  have hl := logLe_un (i := i) (execR_logLe h r)
  cases h
  case recv_all hp _ _ =>
    simp only [WF] at hwf
    simp [World.popBroadcast_objs hp, World.popBroadcast_resp hp, created, mUn, startW] at hl ⊢
    grind [oNew]
  case recvBcast_some hp =>
    simp only [WF] at hwf
    simp [World.popBroadcast_objs hp, World.popBroadcast_resp hp, created, mUn, startW] at hl ⊢
    grind [oNew]
  case recv_one hp _ _ =>
    simp only [WF] at hwf
    simp [World.popUnicast_objs hp, World.popUnicast_resp hp, created, mUn, startW] at hl ⊢
    grind [oNew]
  case shutRx => simp [mUn, sumBy_map, sumBy_eq_zero, startW, created]
  case shutTx => simp [mUn, startW, created, shutTx_resplen, World.shutTx_objs]; exact hl
  case bcastShutdown =>
    simp [mUn, startW, created, World.sendBroadcast, eUn, mid1] at hl ⊢; grind
  all_goals simp only [WF] at hwf
  all_goals simp [mUn, startW, oNew, sNewW, created, eUn] at hl ⊢
  all_goals grind [mUn, oNew, sNewW, mid1, startW, n1]

/-- The two accounts together. -/
structure Acc (i : Nat) (st : List Nat) (s : Sys) : Prop where
  le : sumBy (oNew i) s.w.objs + tot (mPre i) s.th + sumBy (n1 i) st ≤ created i s.w
  ge : created i s.w ≤ sumBy (oNew i) s.w.objs + sumBy (eUn i) s.w.log + tot (mUn i) s.th + sumBy (n1 i) st

theorem starts_exec {s : Sys} {t : Nat} {m : Micro} {rest : List Micro} (ht : s.th[t]? = some (m :: rest)) (i : Nat) :
    sumBy (n1 i) (starts s (.exec t)) = startW i s.w m := by
  simp only [starts, ht]
  cases m <;> simp [startW]
  split <;> simp [n1, mid1]

theorem starts_call (s : Sys) (c : Call) (i : Nat) : sumBy (n1 i) (starts s (.call c)) = startC i s.w c := by
  cases c <;> simp [starts, startC]
  split <;> simp_all [n1, mid1]

theorem acc_run {cap : Option Nat} (i : Nat) (as : List Act) {s s' : Sys} (hr : Reachable cap s) (st : List Nat) (h : Acc i st s)
    (hs : s.run as = some s') : Acc i (st ++ allStarts s as) s' := by
  induction as generalizing s st with
  | nil => simp [Sys.run] at hs; subst hs; simpa [allStarts] using h
  | cons a as ih =>
    simp only [Sys.run] at hs
    cases hst : s.step a with
    | none => simp [hst] at hs
    | some s1 =>
      simp only [hst] at hs
      simp only [allStarts, hst]
      rw [← List.append_assoc]
      refine ih (.step hr hst) _ ?_ hs
      obtain ⟨h1, h2⟩ := h
      rcases step_rel hst with ⟨c, w', ms, rfl, hc, rfl⟩ | ⟨t, m, rest, w', ms, rfl, ht, he, rfl⟩
      · have e1 := callR_new (i := i) hc
        have e2 := callR_un (i := i) hc
        have e3 := starts_call s c i
        constructor <;> simp [e3] at * <;> omega
      · have e1 := execR_new (i := i) he (wf_reachable hr ht) (regWs_reachable hr)
        have e2 := execR_un (i := i) he (wf_reachable hr ht) (regWs_reachable hr)
        have e3 := tot_exec (mPre i) ms ht
        have e4 := tot_exec (mUn i) ms ht
        have e5 := starts_exec ht i
        constructor <;> simp [e5] at * <;> omega

theorem acc_init {cap : Option Nat} {as : List Act} {s : Sys} (hs : (init cap).run as = some s) (i : Nat) :
    Acc i (allStarts (init cap) as) s := by
  have := acc_run (cap := cap) i as .init [] ⟨by simp [init, oNew], by simp [init, created]⟩ hs
  simpa using this

theorem count_n1 (i : Nat) (l : List Nat) : sumBy (n1 i) l = l.count i := by
  induction l with
  | nil => rfl
  | cons x l ih => simp [ih, n1, List.count_cons]; split <;> omega

/-- **C45 (started once).** In every execution `start_span` is called at most once for every message: its assertion that no span has been
started never fails. -/
theorem C45_start_span_once {cap : Option Nat} {as : List Act} {s : Sys} (hs : (init cap).run as = some s) :
    (allStarts (init cap) as).Nodup := by
  rw [List.nodup_iff_count]
  intro i
  have := (acc_init hs i).le
  rw [count_n1] at this
  have : created i s.w ≤ 1 := by unfold created; split <;> omega
  omega

/-- **C45 (instrumented when handled).** Whatever a receive future has yielded has been started, except the shutdown notices, which are
not instrumented. -/
theorem C45_received_is_started {cap : Option Nat} {as : List Act} {s : Sys} (hs : (init cap).run as = some s) {r b : Nat} {m : Msg}
    (h : Ev.recv r b (.one m) ∈ s.w.log ∨ Ev.recv r b (.all m) ∈ s.w.log ∧ m.prio ≠ .shutdown) : m.id ∈ allStarts (init cap) as := by
  have hr : Reachable cap s := .run .init hs
  have hge := (acc_init hs m.id).ge
  have hheld := held_reachable hr m.id
  have hpost := post_reachable hr m.id
  have hc : created m.id s.w ≤ 1 := by unfold created; split <;> omega
  rw [count_n1] at hge
  -- all accounts of unstarted messages are part of `held`
  have l1 : ∀ o, oNew m.id o + oPost m.id o ≤ oAll m.id o := by intro o; cases o <;> simp [oNew, oPost, oAll]
  have l2 : ∀ x, mUn m.id x + mPost m.id x ≤ mAll m.id x := by intro x; cases x <;> simp [mUn, mPost, mAll]
  have a1 := sumBy_le l1 s.w.objs
  have a2 := tot_le l2 s.th
  rw [sumBy_add] at a1
  rw [tot_add] at a2
  have goal : 0 < (allStarts (init cap) as).count m.id → m.id ∈ allStarts (init cap) as := List.count_pos_iff.1
  apply goal
  rcases h with h | ⟨h, hp⟩
  · have l3 : ∀ e, eUn m.id e + ePost m.id e ≤ eAll m.id e := by
      intro e; cases e <;> simp [eUn, ePost, eAll]; split <;> simp
    have a3 := sumBy_le l3 s.w.log
    rw [sumBy_add] at a3
    have hpos : 0 < sumBy (eRecv m.id) s.w.log := (sumBy_pos _).2 ⟨_, h, by simp [eRecv, amW, mid1]⟩
    have hcr : created m.id s.w = 1 := by simp only [World.held, World.post] at *; omega
    simp only [World.held, World.post] at *
    omega
  · obtain ⟨ts, hts⟩ : bcAcc s.w.log m := (kInv_reachable hr).evs _ h
    have l3 : ∀ e, eUn m.id e + (if e = .bsent m ts then 1 else 0) ≤ eAll m.id e := by
      intro e; cases e <;> simp [eUn, eAll]
      rename_i m' ts'
      by_cases e : m' = m ∧ ts' = ts
      · obtain ⟨rfl, rfl⟩ := e; simp [hp, mid1]
      · simp [e]; split <;> simp
    have a3 := sumBy_le l3 s.w.log
    rw [sumBy_add] at a3
    have hpos : 0 < sumBy (fun e => if e = Ev.bsent m ts then 1 else 0) s.w.log := (sumBy_pos _).2 ⟨_, hts, by simp⟩
    have hcr : created m.id s.w = 1 := by simp only [World.held, World.post] at *; omega
    simp only [World.held, World.post] at *
    omega

/-- Copies of message `i` in a received message. -/
def amArc (i : Nat) : AMsg → Nat
  | .one m => mid1 i m
  | .all m => mid1 i m
  | .shutdown => 0

/-- Copies of message `i` in an object. -/
def oArc (i : Nat) : Obj → Nat
  | .send _ _ s => sNewW i s
  | .message _ am => amArc i am
  | .dispatch _ am _ => amArc i am
  | _ => 0

/-- Copies of message `i` in a running call. -/
def mArc (i : Nat) : Micro → Nat
  | .sendLd1 _ _ m _ _ => mid1 i m
  | .sendLd2 _ _ m _ _ => mid1 i m
  | .sendCrit _ _ m _ _ => mid1 i m
  | .dropMsg m => mid1 i m
  | .requeue m => mid1 i m
  | .discard am => amArc i am
  | .respond _ am _ _ => amArc i am
  | _ => 0

/-- How many copies of (the `Arc` or `Box` with) message `i` exist anywhere. -/
def arcs (i : Nat) (s : Sys) : Nat :=
  sumBy (mid1 i) s.w.uq + sumBy (fun q => sumBy (mid1 i) q.items) s.w.bq + sumBy (wsW i) s.w.ws + sumBy (cellW i) s.w.cells +
    sumBy (oArc i) s.w.objs + tot (mArc i) s.th

theorem arcs_one {cap : Option Nat} {s : Sys} (hr : Reachable cap s) {i : Nat}
    (h : 0 < sumBy (oNew i) s.w.objs + tot (mPre i) s.th) : arcs i s = 1 := by
  have hheld := held_reachable hr i
  have hpost := post_reachable hr i
  have hc : created i s.w ≤ 1 := by unfold created; split <;> omega
  have l1 : ∀ o, oNew i o + oPost i o ≤ oAll i o := by intro o; cases o <;> simp [oNew, oPost, oAll]
  have l2 : ∀ x, mPre i x + mPost i x ≤ mAll i x := by intro x; cases x <;> simp [mPre, mPost, mAll]
  have a1 := sumBy_le l1 s.w.objs
  have a2 := tot_le l2 s.th
  rw [sumBy_add] at a1
  rw [tot_add] at a2
  have k := kInv_reachable hr
  have hlog : sumBy (eAll i) s.w.log = 0 := by simp only [World.held, World.post] at *; omega
  have nobs : ∀ m : Msg, m.id = i → ¬ bcAcc s.w.log m := by
    rintro m hm ⟨ts, h⟩
    have := not_of_sum hlog h
    simp [eAll, mid1, hm] at this
  have hbq : sumBy (fun q => sumBy (mid1 i) q.items) s.w.bq = 0 := by
    rw [sumBy_eq_zero]
    intro q hq
    rw [sumBy_eq_zero]
    intro m hm
    obtain ⟨b, hb⟩ := List.getElem?_of_mem hq
    have hi : m ∈ s.w.items b := by simp [World.items, hb, hm]
    have := k.kw.bq b m hi
    by_cases e : m.id = i
    · exact absurd this (nobs m e)
    · simp [mid1, e]
  have am : ∀ am : AMsg, okAm s.w.log am → amArc i am = amW i am := by
    intro am h
    cases am with
    | one m => rfl
    | all m =>
      by_cases e : m.id = i
      · exact absurd h (nobs m e)
      · simp [amArc, amW, mid1, e]
    | shutdown => rfl
  have ho : sumBy (oArc i) s.w.objs = sumBy (oAll i) s.w.objs := by
    apply sumBy_congr
    intro o ho
    obtain ⟨f, hf⟩ := List.getElem?_of_mem ho
    have := k.kw.objs f o hf
    cases o <;> simp [oArc, oAll, okO] at * <;> exact am _ this
  have hm : tot (mArc i) s.th = tot (mAll i) s.th := by
    unfold tot
    apply sumBy_congr
    intro ms hms
    apply sumBy_congr
    intro m hm
    have := k.th ms hms m hm
    cases m <;> simp [mArc, mAll, okM] at * <;> exact am _ this
  simp only [arcs, hbq, ho, hm]
  simp only [World.held, World.post] at *
  omega

/-- **C45 (not shared yet).** When `try_send_to_one` or `try_send_to_all` calls `start_span`, the envelope it holds is the only copy of the
message in the system; so `Arc::get_mut` in `try_send_to_all` succeeds. -/
theorem C45_unshared_when_started {cap : Option Nat} {s : Sys} (hr : Reachable cap s) {t f wk : Nat} {md : Mode} {m : Msg} {rc : Rc}
    {rest : List Micro} (h : s.th[t]? = some (.sendLd2 f md m rc wk :: rest)) : arcs m.id s = 1 := by
  apply arcs_one hr
  have h1 : mPre m.id (.sendLd2 f md m rc wk) ≤ tot (mPre m.id) s.th := by
    have := le_sumBy (sumBy (mPre m.id)) h
    simp [tot] at this ⊢; omega
  simp [mPre, mid1] at h1
  omega

/-- **C45 (not shared yet, 2).** When `SendFuture::priority` changes the priority of a future that was not polled yet, the envelope in it
is the only copy of the message; so `Arc::get_mut` in `set_priority` succeeds. -/
theorem C45_unshared_when_priority_set {cap : Option Nat} {s : Sys} (hr : Reachable cap s) {f mid : Nat} {md : Mode} {m : Msg} {rc : Rc}
    (h : s.w.objs[f]? = some (.send md mid (.new m rc))) : arcs m.id s = 1 := by
  apply arcs_one hr
  have := le_sumBy (oNew m.id) h
  simp [oNew, sNewW, mid1] at this
  omega

/-- A broadcast to two mailboxes, received by one of them: three copies have been made of the envelope, `start_span` was called once.
Meets the hypotheses of `C45_start_span_once`, `C45_received_is_started`. -/
example : ∃ s, (init none).run [.call (.cloneMailbox 1), .exec 0, .call (.broadcast 0), .call (.setPrio 3 4), .call (.pollSend 3 0),
    .exec 3, .exec 3, .exec 3, .call (.next 1), .call (.pollRecv 4 0), .exec 5] = some s ∧ arcs 0 s = 2 ∧
    Ev.recv 4 0 (.all ⟨0, .valued 4⟩) ∈ s.w.log ∧
    allStarts (init none) [.call (.cloneMailbox 1), .exec 0, .call (.broadcast 0), .call (.setPrio 3 4), .call (.pollSend 3 0),
    .exec 3, .exec 3, .exec 3, .call (.next 1), .call (.pollRecv 4 0), .exec 5] = [0] :=
  ⟨_, rfl, by decide, by decide, by decide⟩

/-- The second check of a send, after the span was started. Meets the hypotheses of `C45_unshared_when_started`. -/
example : ∃ s, Reachable none s ∧ s.th[2]? = some [.sendLd2 3 .bcast ⟨0, .valued 0⟩ .strong 0] ∧
    arcs 0 s = 1 :=
  ⟨_, Reachable.run .init (as := [.call (.cloneMailbox 1), .exec 0, .call (.broadcast 0), .call (.pollSend 3 0), .exec 2]) rfl, rfl, by decide⟩

/-- A shutdown notice that is polled twice. Meets the hypotheses of `C45_shutdown_breaks_at_once` and `C45_shutdown_has_no_span`. -/
example : polls (run demo (DF.new none) [] 10 [.span true none, .poll true none, .poll true none]).1 = [.ready true, .panic] := rfl

end Xtra.Span
