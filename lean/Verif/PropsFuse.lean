import Verif.Fuse

/-!
# C61: the futures under an arbitrary caller

For every sequence of polls, with whatever the channel, the reply slot and the handler answer.
-/

namespace Xtra.Fuse

/-- Specification: a panic is only ever seen by a caller who polls again after a `Ready`. -/
def PanicsOnlyAfterReady {α : Type} (seen : List (Out α)) : Prop :=
  ∀ i : Nat, seen[i]? = some .panic → ∃ j : Nat, j < i ∧ ∃ a, seen[j]? = some (.ready a)

/-- Specification: a `Ready` was seen. -/
def Resolved {α : Type} (seen : List (Out α)) : Prop := ∃ a, .ready a ∈ seen

theorem panicsOnly_cons {α : Type} {o : Out α} {os : List (Out α)} (h : o ≠ .panic)
    (ho : (∃ a, o = .ready a) ∨ PanicsOnlyAfterReady os) : PanicsOnlyAfterReady (o :: os) := by
  intro i hi
  cases i with
  | zero => simp at hi; exact absurd hi h
  | succ i =>
    rcases ho with ⟨a, rfl⟩ | ho
    · exact ⟨0, by omega, a, by simp⟩
    · simp at hi
      obtain ⟨j, hj, a, ha⟩ := ho i hi
      exact ⟨j + 1, by omega, a, by simpa using ha⟩

/-- One invariant is enough: from every good state a poll that does not resolve leads to a good state, and
no poll of a good state panics. -/
theorem panicsOnly_of {S E α : Type} {poll : S → E → S × Out α} {good : S → Prop}
    (h : ∀ s e, good s → (poll s e).2 ≠ .panic ∧ ((poll s e).2 = .pending → good (poll s e).1))
    (s : S) (hs : good s) (es : List E) : PanicsOnlyAfterReady (polls poll s es).2 := by
  induction es generalizing s with
  | nil => intro i hi; simp [polls] at hi
  | cons e es ih =>
    obtain ⟨h1, h2⟩ := h s e hs
    refine panicsOnly_cons h1 ?_
    cases ho : (poll s e).2 with
    | pending => exact .inr (ih _ (h2 ho))
    | ready a => exact .inl ⟨a, rfl⟩
    | panic => exact absurd ho h1

theorem ret_good : ∀ (f : SendFut Reply) (e : Env), f.state = .live →
    (pollRet f e).2 ≠ .panic ∧ ((pollRet f e).2 = .pending → (pollRet f e).1.state = .live) := by
  rintro ⟨s, st, n⟩ ⟨t, w, r⟩ h
  simp only at h
  subst h
  cases s <;> cases t <;> cases w <;> cases r <;>
    simp [pollRet, pollSending, pollWaiting, pollReply, Sending.terminated]

theorem detached_good : ∀ (f : SendFut (Option Reply)) (e : Env), f.state.isSome = true →
    (pollDetached f e).2 ≠ .panic ∧
      ((pollDetached f e).2 = .pending → (pollDetached f e).1.state.isSome = true) := by
  rintro ⟨s, st, n⟩ ⟨t, w, r⟩ h
  cases st with
  | none => simp at h
  | some st =>
    cases s <;> cases t <;> cases w <;>
      simp [pollDetached, pollSending, pollWaiting, takeReceiver, Sending.terminated]

theorem bcast_good : ∀ (f : SendFut Unit) (e : Env), f.sending ≠ .done →
    (pollBcast f e).2 ≠ .panic ∧ ((pollBcast f e).2 = .pending → (pollBcast f e).1.sending ≠ .done) := by
  rintro ⟨s, st, n⟩ ⟨t, w, r⟩ h
  cases s <;> cases t <;> cases w <;> simp_all [pollBcast, pollSending, pollWaiting]

/-- C61: no poll of a send future panics before the future has resolved. -/
theorem C61_send_polls (es : List Env) : PanicsOnlyAfterReady (polls pollRet freshRet es).2 :=
  panicsOnly_of (good := fun f => f.state = .live) ret_good _ rfl es

/-- C61: the same for a broadcast. -/
theorem C61_broadcast_polls (es : List Env) : PanicsOnlyAfterReady (polls pollBcast freshBcast es).2 :=
  panicsOnly_of (good := fun f => f.sending ≠ .done) bcast_good _ (by simp [freshBcast]) es

theorem polls_append {S E α : Type} (poll : S → E → S × Out α) (s : S) (es fs : List E) :
    (polls poll s (es ++ fs)).2 = (polls poll s es).2 ++ (polls poll (polls poll s es).1 fs).2 := by
  induction es generalizing s with
  | nil => simp [polls]
  | cons e es ih => simp [polls, ih]

theorem polls_length {S E α : Type} (poll : S → E → S × Out α) (s : S) (es : List E) :
    (polls poll s es).2.length = es.length := by
  induction es generalizing s with
  | nil => simp [polls]
  | cons e es ih => simp [polls, ih]

/-- C61: the same for a detached send, wherever between two polls the future was detached. -/
theorem C61_detached_polls (es fs : List Env) :
    PanicsOnlyAfterReady (polls pollDetached (detach (polls pollRet freshRet es).1) fs).2 :=
  panicsOnly_of (good := fun f => f.state.isSome = true) detached_good _ rfl fs

theorem tries_ret (f : SendFut Reply) (e : Env) (h : f.sending = .new → f.tries = 0) (h1 : f.tries ≤ 1)
    (h2 : f.sending ≠ .new → f.tries = 1) :
    (pollRet f e).1.sending ≠ .new ∧ (pollRet f e).1.tries = 1 := by
  obtain ⟨s, st, n⟩ := f
  obtain ⟨t, w, r⟩ := e
  cases s <;> cases t <;> cases w <;> cases r <;> cases st <;>
    simp_all [pollRet, pollSending, pollWaiting, pollReply, Sending.terminated]

theorem tries_detached (f : SendFut (Option Reply)) (e : Env) (h : f.sending = .new → f.tries = 0)
    (h1 : f.tries ≤ 1) (h2 : f.sending ≠ .new → f.tries = 1) :
    (pollDetached f e).1.sending ≠ .new ∧ (pollDetached f e).1.tries = 1 := by
  obtain ⟨s, st, n⟩ := f
  obtain ⟨t, w, r⟩ := e
  cases s <;> cases t <;> cases w <;> cases st <;>
    simp_all [pollDetached, pollSending, pollWaiting, takeReceiver, Sending.terminated]

theorem tries_bcast (f : SendFut Unit) (e : Env) (h : f.sending = .new → f.tries = 0) (h1 : f.tries ≤ 1)
    (h2 : f.sending ≠ .new → f.tries = 1) :
    (pollBcast f e).1.sending ≠ .new ∧ (pollBcast f e).1.tries = 1 := by
  obtain ⟨s, st, n⟩ := f
  obtain ⟨t, w, r⟩ := e
  cases s <;> cases t <;> cases w <;> simp_all [pollBcast, pollSending, pollWaiting]

/-- The invariant behind `C61_*_sends_once`. -/
def Entered {S : Type} (f : SendFut S) (any : Bool) : Prop :=
  if any then f.sending ≠ .new ∧ f.tries = 1 else f.sending = .new ∧ f.tries = 0

theorem Entered.hyps {S : Type} {f : SendFut S} {b : Bool} (h : Entered f b) :
    (f.sending = .new → f.tries = 0) ∧ f.tries ≤ 1 ∧ (f.sending ≠ .new → f.tries = 1) := by
  cases b <;> simp [Entered] at h <;> simp_all

theorem entered_polls {S α : Type} {poll : SendFut S → Env → SendFut S × Out α}
    (h : ∀ f e b, Entered f b → Entered (poll f e).1 true) (f : SendFut S) (b : Bool)
    (hf : Entered f b) (es : List Env) : Entered (polls poll f es).1 (b || !es.isEmpty) := by
  induction es generalizing f b with
  | nil => simpa [polls] using hf
  | cons e es ih =>
    have := ih _ true (h f e b hf)
    simpa [polls] using this

theorem entered_ret (es : List Env) : Entered (polls pollRet freshRet es).1 (!es.isEmpty) := by
  have := entered_polls (poll := pollRet)
    (fun f e b h => by
      have := tries_ret f e h.hyps.1 h.hyps.2.1 h.hyps.2.2; simpa [Entered] using this)
    freshRet false ⟨rfl, rfl⟩ es
  simpa using this

/-- C61: however often a send future is polled, also after it has resolved, detached at any moment, the
message is offered to the channel exactly once, by the first poll. -/
theorem C61_sends_once (es fs : List Env) :
    (polls pollRet freshRet es).1.tries = (if es = [] then 0 else 1) ∧
    (polls pollDetached (detach (polls pollRet freshRet es).1) fs).1.tries =
      (if es = [] ∧ fs = [] then 0 else 1) ∧
    (polls pollBcast freshBcast es).1.tries = (if es = [] then 0 else 1) := by
  have h1 := entered_ret es
  have h2 : Entered (polls pollDetached (detach (polls pollRet freshRet es).1) fs).1
      (!es.isEmpty || !fs.isEmpty) :=
    entered_polls (poll := pollDetached)
      (fun f e b h => by
        have := tries_detached f e h.hyps.1 h.hyps.2.1 h.hyps.2.2; simpa [Entered] using this)
      _ (!es.isEmpty) (by cases es <;> simpa [Entered, detach] using h1) fs
  have h3 : Entered (polls pollBcast freshBcast es).1 (!es.isEmpty) := by
    have := entered_polls (poll := pollBcast)
      (fun f e b h => by
        have := tries_bcast f e h.hyps.1 h.hyps.2.1 h.hyps.2.2; simpa [Entered] using this)
      freshBcast false ⟨rfl, rfl⟩ es
    simpa using this
  refine ⟨?_, ?_, ?_⟩
  · cases es <;> simp_all [Entered]
  · cases es <;> cases fs <;> simp_all [Entered]
  · cases es <;> simp_all [Entered]

/-- How often the `Receiver` was handed out. -/
def handedOut (seen : List (Out (Except Error Reply))) : Nat :=
  seen.countP fun o => match o with
    | .ready (.ok _) => true
    | _ => false

theorem handed_detached (f : SendFut (Option Reply)) (es : List Env) :
    handedOut (polls pollDetached f es).2 ≤ if f.state.isSome then 1 else 0 := by
  induction es generalizing f with
  | nil => simp [polls, handedOut]
  | cons e es ih =>
    have h := ih (pollDetached f e).1
    obtain ⟨s, st, n⟩ := f
    obtain ⟨t, w, r⟩ := e
    simp only [polls]
    cases s <;> cases t <;> cases w <;> cases st <;>
      simp_all [pollDetached, pollSending, pollWaiting, takeReceiver, Sending.terminated, handedOut]

/-- C61: a detached send future hands out its `Receiver` at most once, however often it is polled. -/
theorem C61_receiver_once (es fs : List Env) :
    handedOut (polls pollDetached (detach (polls pollRet freshRet es).1) fs).2 ≤ 1 := by
  have := handed_detached (detach (polls pollRet freshRet es).1) fs
  split at this <;> omega

/-- Specification: what a caller sees of a receive future that it may poll at will. -/
theorem recv_poll (s : Receiving) (ts : List Turn) :
    (s ≠ .done → (pollRecv s ts).2 ≠ .panic) ∧
    (s ≠ .done → ((pollRecv s ts).1 = .done ↔ ∃ m, (pollRecv s ts).2 = .ready m)) ∧
    (s = .done → pollRecv s ts = (.done, .panic)) := by
  induction ts generalizing s with
  | nil => cases s <;> simp [pollRecv]
  | cons t ts ih =>
    cases s <;> cases t <;> simp [pollRecv]
    · exact ⟨(ih .waiting).1 (by simp), (ih .waiting).2.1 (by simp)⟩
    · exact ⟨(ih .waiting).1 (by simp), (ih .waiting).2.1 (by simp)⟩
    · exact ⟨(ih .new).1 (by simp), (ih .new).2.1 (by simp)⟩

/-- C61: a receive future reports `is_terminated` exactly when one of its polls has been `Ready`; no poll
before that panics; every poll after that does, and receives nothing. -/
theorem C61_receive_fused (es : List (List Turn)) :
    ((polls pollRecv .new es).1.terminated = true ↔ Resolved (polls pollRecv .new es).2) ∧
    PanicsOnlyAfterReady (polls pollRecv .new es).2 ∧
    ((polls pollRecv .new es).1.terminated = true →
      ∀ ts, pollRecv (polls pollRecv .new es).1 ts = (.done, .panic)) := by
  have aux : ∀ (es : List (List Turn)) (s : Receiving),
      (s ≠ .done → ((polls pollRecv s es).1.terminated = true ↔ Resolved (polls pollRecv s es).2)) ∧
      (s = .done → (polls pollRecv s es).1 = .done) := by
    intro es
    induction es with
    | nil =>
      intro s
      refine ⟨fun h => ?_, fun h => by simpa [polls] using h⟩
      cases s <;> simp_all [polls, Receiving.terminated, Resolved]
    | cons e es ih =>
      intro s
      obtain ⟨h1, h2, h3⟩ := recv_poll s e
      refine ⟨fun h => ?_, fun h => ?_⟩
      · by_cases hd : (pollRecv s e).1 = .done
        · obtain ⟨m, hm⟩ := (h2 h).mp hd
          have := (ih _).2 hd
          constructor
          · intro _; exact ⟨m, by simp [polls, hm]⟩
          · intro _; simp [polls, this, Receiving.terminated]
        · have hi := (ih _).1 hd
          simp only [polls]
          rw [hi]
          constructor
          · rintro ⟨a, ha⟩; exact ⟨a, List.mem_cons_of_mem _ ha⟩
          · rintro ⟨a, ha⟩
            rcases List.mem_cons.mp ha with ha | ha
            · exact absurd ((h2 h).mpr ⟨a, ha.symm⟩) hd
            · exact ⟨a, ha⟩
      · simp only [polls, h3 h]; exact (ih _).2 rfl
  refine ⟨(aux es .new).1 (by simp), ?_, ?_⟩
  · refine panicsOnly_of (good := fun s => s ≠ .done) (fun s e hs => ?_) _ (by simp) es
    obtain ⟨h1, h2, _⟩ := recv_poll s e
    refine ⟨h1 hs, fun hp hd => ?_⟩
    obtain ⟨m, hm⟩ := (h2 hs).mp hd
    rw [hp] at hm; cases hm
  · intro ht ts
    have : (polls pollRecv .new es).1 = .done := by
      revert ht; cases (polls pollRecv .new es).1 <;> simp [Receiving.terminated]
    exact (recv_poll _ ts).2.2 this

/-- What the owner of a dispatch future does with it. -/
inductive DispOp where
  | poll (h : HandlerPoll)
  | span
  deriving DecidableEq, Repr

/-- Any sequence of polls and calls of `span`. -/
def dispRun : DispatchFut → List DispOp → DispatchFut
  | f, [] => f
  | f, .poll h :: ops => dispRun (pollDispatch f h).1 ops
  | f, .span :: ops => dispRun (spanDispatch f) ops

/-- The invariant of a dispatch future: the handler was made once unless the future is new, and all its
answers but the newest were `Pending`; the newest was not exactly if the future is done. -/
def DispOk (f : DispatchFut) : Prop :=
  (f.state = .new → f.handles = 0 ∧ f.polls = []) ∧ (f.state ≠ .new → f.handles = 1) ∧
  (f.state = .running → ∀ h ∈ f.polls, h = .pending) ∧
  (f.state = .done → ∃ h t, f.polls = h :: t ∧ h ≠ .pending ∧ ∀ h' ∈ t, h' = .pending)

theorem dispOk_poll {f : DispatchFut} (h : DispOk f) (a : HandlerPoll) : DispOk (pollDispatch f a).1 := by
  obtain ⟨s, n, ps⟩ := f
  obtain ⟨h1, h2, h3, h4⟩ := h
  cases s <;> cases a <;> simp_all [pollDispatch, pollRunning, DispOk]
  all_goals first
    | exact ⟨_, _, ⟨rfl, rfl⟩, by simp, by simp_all⟩
    | grind

theorem dispOk_span {f : DispatchFut} (h : DispOk f) : DispOk (spanDispatch f) := by
  obtain ⟨s, n, ps⟩ := f
  obtain ⟨h1, h2, h3, h4⟩ := h
  cases s <;> simp_all [spanDispatch, DispOk]
  assumption

theorem dispOk_run {f : DispatchFut} (h : DispOk f) (ops : List DispOp) : DispOk (dispRun f ops) := by
  induction ops generalizing f with
  | nil => exact h
  | cons o ops ih =>
    cases o with
    | poll a => exact ih (dispOk_poll h a)
    | span => exact ih (dispOk_span h)

/-- C61: however a dispatch future is polled and its span asked for, the handler is invoked at most once and
its future is never polled again after it has finished or panicked: of all its answers only the last can be
other than `Pending`. -/
theorem C61_handler_once (ops : List DispOp) :
    (dispRun freshDispatch ops).handles ≤ 1 ∧
    ∀ h, h ∈ (dispRun freshDispatch ops).polls.tail → h = .pending := by
  have hok : DispOk (dispRun freshDispatch ops) :=
    dispOk_run ⟨by simp [freshDispatch], by simp [freshDispatch], by simp [freshDispatch],
      by simp [freshDispatch]⟩ ops
  generalize dispRun freshDispatch ops = f at hok
  obtain ⟨s, n, ps⟩ := f
  obtain ⟨h1, h2, h3, h4⟩ := hok
  cases s with
  | new => simp_all
  | running =>
    simp_all
    exact fun h hh => h3 h (List.mem_of_mem_tail hh)
  | done =>
    simp_all
    obtain ⟨h, t, rfl, _, ht⟩ := h4
    exact ht

/-- C61: a poll of a dispatch future panics only if the handler does or the future has already resolved or
panicked. -/
theorem C61_dispatch_panics (ops : List DispOp) (a : HandlerPoll)
    (h : (pollDispatch (dispRun freshDispatch ops) a).2 = .panic) :
    a = .panic ∨ ∃ x ∈ (dispRun freshDispatch ops).polls, x ≠ .pending := by
  have hok : DispOk (dispRun freshDispatch ops) :=
    dispOk_run ⟨by simp [freshDispatch], by simp [freshDispatch], by simp [freshDispatch],
      by simp [freshDispatch]⟩ ops
  generalize dispRun freshDispatch ops = f at hok h
  obtain ⟨s, n, ps⟩ := f
  obtain ⟨h1, h2, h3, h4⟩ := hok
  cases s <;> cases a <;> simp_all [pollDispatch, pollRunning]
  all_goals
    obtain ⟨x, t, rfl, hx, _⟩ := h4
    exact ⟨x, by simp, hx⟩

/-- C61: a join handle may be polled forever: it never panics, and once resolved it is resolved on every
later poll. -/
theorem C61_join_again (l : Option Unit) (es : List Bool) :
    (∀ o ∈ (polls pollJoin l es).2, o ≠ .panic) ∧
    ∀ i j : Nat, i < j → (polls pollJoin l es).2[i]? = some (.ready ()) → j < es.length →
      (polls pollJoin l es).2[j]? = some (.ready ()) := by
  have hnone : ∀ (es : List Bool) (j : Nat), j < es.length →
      (polls pollJoin none es).2[j]? = some (.ready ()) := by
    intro es
    induction es with
    | nil => simp
    | cons e es ih =>
      intro j hj
      cases j with
      | zero => simp [polls, pollJoin]
      | succ j => simpa [polls, pollJoin] using ih j (by simpa using hj)
  induction es generalizing l with
  | nil => simp [polls]
  | cons e es ih =>
    obtain ⟨i1, i2⟩ := ih (pollJoin l e).1
    constructor
    · intro o ho
      simp only [polls, List.mem_cons] at ho
      rcases ho with rfl | ho
      · cases l <;> cases e <;> simp [pollJoin]
      · exact i1 o ho
    · intro i j hij hi hj
      cases j with
      | zero => omega
      | succ j =>
        cases i with
        | zero =>
          have : (pollJoin l e).1 = none := by
            cases l <;> cases e <;> simp_all [pollJoin, polls]
          simp only [polls, List.getElem?_cons_succ, this]
          exact hnone es j (by simpa using hj)
        | succ i =>
          simp only [polls, List.getElem?_cons_succ] at hi ⊢
          exact i2 i j (by omega) hi (by simpa using hj)

/-- Finding 21: a detached send future that has resolved to `Err(Disconnected)` and is polled again resolves
to `Ok(receiver)`, although the message was never sent. (Polling a resolved future is a mistake of the
caller, but the other futures of the library answer it with a panic.) -/
theorem C61_failed_detached_send_repolled (es : List Env) (e1 e2 : Env)
    (h : (pollDetached (polls pollDetached freshDetached es).1 e1).2 = .ready (.error .disconnected)) :
    (pollDetached (pollDetached (polls pollDetached freshDetached es).1 e1).1 e2).2 =
      .ready (.ok .live) := by
  have hinv : ∀ (es : List Env) (f : SendFut (Option Reply)), (f.state = some .live ∨ f.state = none) →
      (polls pollDetached f es).1.state = some .live ∨ (polls pollDetached f es).1.state = none := by
    intro es
    induction es with
    | nil => intro f hf; exact hf
    | cons e es ih =>
      intro f hf
      refine ih _ ?_
      obtain ⟨s, st, n⟩ := f
      obtain ⟨t, w, r⟩ := e
      cases s <;> cases t <;> cases w <;> cases st <;>
        simp_all [pollDetached, pollSending, pollWaiting, takeReceiver, Sending.terminated]
  have hdone : ∀ (es : List Env) (f : SendFut (Option Reply)),
      (f.state = none → f.sending = .done) →
      ((polls pollDetached f es).1.state = none → (polls pollDetached f es).1.sending = .done) := by
    intro es
    induction es with
    | nil => intro f hf; exact hf
    | cons e es ih =>
      intro f hf
      refine ih _ ?_
      obtain ⟨s, st, n⟩ := f
      obtain ⟨t, w, r⟩ := e
      cases s <;> cases t <;> cases w <;> cases st <;>
        simp_all [pollDetached, pollSending, pollWaiting, takeReceiver, Sending.terminated]
  have h1 := hinv es freshDetached (.inl rfl)
  have h2 := hdone es freshDetached (by simp [freshDetached, detach])
  generalize (polls pollDetached freshDetached es).1 = f at h h1 h2 ⊢
  obtain ⟨s, st, n⟩ := f
  obtain ⟨t, w, r⟩ := e1
  cases s <;> cases t <;> cases w <;> cases st <;>
    simp_all [pollDetached, pollSending, pollWaiting, takeReceiver, Sending.terminated]

/-! ## Concrete cases -/

/-- A caller polls a send that is parked, admitted, answered, and polls once too often. -/
example : (polls pollRet freshRet
    [⟨.full, .pending, .pending⟩, ⟨.sent, .pending, .pending⟩, ⟨.sent, .delivered, .pending⟩,
     ⟨.sent, .delivered, .value 7⟩, ⟨.sent, .delivered, .panic⟩]).2 =
    [.pending, .pending, .pending, .ready (.ok 7), .panic] := rfl

/-- The hypothesis of `C61_failed_detached_send_repolled` is met by a parked send whose channel closes. -/
example : (pollDetached (polls pollDetached freshDetached [⟨.full, .pending, .pending⟩]).1
    ⟨.sent, .closed, .pending⟩).2 = .ready (.error .disconnected) := rfl

/-- A receive future woken in vain, then served, then polled once too often. Meets the hypotheses of `C61_receive_fused`. -/
example : polls pollRecv .new [[.wait, .wait], [.spurious, .wait, .wait], [.msg 3], []] =
    (.done, [.pending, .pending, .ready 3, .panic]) := by decide

/-- A handler that is started by `span`, waits once and panics; the future is polled once too often.
Meets the hypotheses of `C61_handler_once`, `C61_dispatch_panics`. -/
example : dispRun freshDispatch [.span, .poll .pending, .span, .poll .panic, .poll (.flow true)] =
    ⟨.done, 1, [.panic, .pending]⟩ := by decide

/-- A join handle that is polled while the actor lives, after it has stopped, and again. Meets the hypotheses of `C61_join_again`. -/
example : (polls pollJoin (some ()) [false, false, true, true]).2 = [.pending, .pending, .ready (), .ready ()] := by decide

/-! ### What the futures resolve to -/

/-- Specification: number and value of the first poll that was `Ready`. -/
def firstReady {α : Type} : List (Out α) → Option (Nat × α)
  | [] => none
  | .ready a :: _ => some (0, a)
  | _ :: os => (firstReady os).map fun p => (p.1 + 1, p.2)

/-- Specification: the poll in which the channel tells a waiting sender that its message was taken (`true`)
or that there is nobody left (`false`). -/
def waited : List Env → Option (Nat × Bool)
  | [] => none
  | e :: es =>
    match e.waiting with
    | .delivered => some (0, true)
    | .closed => some (0, false)
    | .pending => (waited es).map fun p => (p.1 + 1, p.2)

/-- Specification: the poll in which the channel accepts (`true`) or refuses (`false`) the message: the first,
or, if the mailbox was full then, the one in which the wait ends. -/
def accepted : List Env → Option (Nat × Bool)
  | [] => none
  | e :: es =>
    match e.trySend with
    | .sent => some (0, true)
    | .disconnected => some (0, false)
    | .full => waited (e :: es)

/-- Specification: the poll in which the reply slot answers, and the answer. -/
def answered : List Env → Option (Nat × Except Error Nat)
  | [] => none
  | e :: es =>
    match e.reply with
    | .value v => some (0, .ok v)
    | .gone => some (0, .error .interrupted)
    | _ => (answered es).map fun p => (p.1 + 1, p.2)

/-- Specification: what a send future resolves to, and when: refused, `Err(Disconnected)` at once; accepted in
poll `k`, the first answer of the reply slot in poll `k` or later. -/
def requestResult (acc : Option (Nat × Bool)) (es : List Env) : Option (Nat × Except Error Nat) :=
  match acc with
  | none => none
  | some (k, false) => some (k, .error .disconnected)
  | some (k, true) => (answered (es.drop k)).map fun p => (p.1 + k, p.2)

theorem firstReady_done (n : Nat) (es : List Env) :
    firstReady (polls pollRet ⟨.done, .live, n⟩ es).2 = answered es := by
  induction es generalizing n with
  | nil => rfl
  | cons e es ih =>
    obtain ⟨t, w, r⟩ := e
    cases r <;>
      simp [polls, pollRet, pollReply, Sending.terminated, firstReady, answered, ih]

theorem firstReady_waiting (n : Nat) (es : List Env) :
    firstReady (polls pollRet ⟨.waiting, .live, n⟩ es).2 = requestResult (waited es) es := by
  induction es generalizing n with
  | nil => rfl
  | cons e es ih =>
    obtain ⟨t, w, r⟩ := e
    cases w
    · simp only [polls, pollRet, pollSending, pollWaiting, Sending.terminated, firstReady, waited, ih,
        Bool.false_eq_true, if_false]
      cases hw : waited es with
      | none => simp [requestResult]
      | some p =>
        obtain ⟨k, b⟩ := p
        cases b
        · simp [requestResult]
        · simp only [requestResult, Option.map_some, List.drop_succ_cons]
          cases answered (es.drop k) <;> simp <;> omega
    · cases r <;>
        simp [polls, pollRet, pollSending, pollWaiting, pollReply, Sending.terminated, firstReady, waited,
          requestResult, answered, firstReady_done] <;> cases answered es <;> rfl
    · simp [polls, pollRet, pollSending, pollWaiting, Sending.terminated, firstReady, waited,
          requestResult]

/-- C61: a send future resolves to exactly what the channel and the reply slot say, in the poll in which they
say it: `Err(Disconnected)` if the channel refuses the message or gives up on the parked sender, else the
handler's value or `Err(Interrupted)` once the reply slot has it. -/
theorem C61_send_result (es : List Env) :
    firstReady (polls pollRet freshRet es).2 = requestResult (accepted es) es := by
  cases es with
  | nil => rfl
  | cons e es =>
    have hw := firstReady_waiting 0 (e :: es)
    obtain ⟨t, w, r⟩ := e
    cases t
    · simp [polls, pollRet, freshRet, pollSending, Sending.terminated, firstReady, accepted, requestResult]
    · cases r <;>
        simp [polls, pollRet, freshRet, pollSending, pollReply, Sending.terminated, firstReady, accepted,
          requestResult, answered, firstReady_done] <;> cases answered es <;> rfl
    · simp only [accepted]
      rw [← hw]
      cases w <;> cases r <;>
        simp [polls, pollRet, freshRet, pollSending, pollReply, pollWaiting, Sending.terminated, firstReady,
          firstReady_done, firstReady_waiting]

/-- Specification: a broadcast, or the sending half of a detached request, resolves in the poll in which the
channel accepts or refuses the message. -/
def sendResult {α : Type} (ok : α) (acc : Option (Nat × Bool)) : Option (Nat × Except Error α) :=
  acc.map fun p => (p.1, if p.2 then .ok ok else .error .disconnected)

theorem firstReady_bcast_waiting (n : Nat) (es : List Env) :
    firstReady (polls pollBcast ⟨.waiting, (), n⟩ es).2 = sendResult () (waited es) := by
  induction es generalizing n with
  | nil => rfl
  | cons e es ih =>
    obtain ⟨t, w, r⟩ := e
    cases w <;>
      simp [polls, pollBcast, pollSending, pollWaiting, firstReady, waited, sendResult]
    rw [ih]
    simp [sendResult]
    cases waited es <;> simp

/-- C61: a broadcast future resolves to `Ok` in the poll in which the channel accepts the broadcast, and to
`Err(Disconnected)` in the poll in which it refuses it or gives up on the parked sender. -/
theorem C61_broadcast_result (es : List Env) :
    firstReady (polls pollBcast freshBcast es).2 = sendResult () (accepted es) := by
  cases es with
  | nil => rfl
  | cons e es =>
    have hw := firstReady_bcast_waiting 0 (e :: es)
    obtain ⟨t, w, r⟩ := e
    cases t
    · simp [polls, pollBcast, freshBcast, pollSending, firstReady, accepted, sendResult]
    · simp [polls, pollBcast, freshBcast, pollSending, firstReady, accepted, sendResult]
    · simp only [accepted]
      rw [← hw]
      cases w <;>
        simp [polls, pollBcast, freshBcast, pollSending, pollWaiting, firstReady, firstReady_bcast_waiting]

theorem firstReady_detached_waiting (n : Nat) (es : List Env) :
    firstReady (polls pollDetached ⟨.waiting, some .live, n⟩ es).2 = sendResult .live (waited es) := by
  induction es generalizing n with
  | nil => rfl
  | cons e es ih =>
    obtain ⟨t, w, r⟩ := e
    cases w <;>
      simp [polls, pollDetached, pollSending, pollWaiting, takeReceiver, Sending.terminated, firstReady, waited,
        sendResult]
    rw [ih]
    simp [sendResult]
    cases waited es <;> simp

/-- C61: the future of `send(..).detach()` resolves to a `Receiver` that has not resolved, in the poll in which
the channel accepts the message, and to `Err(Disconnected)` in the poll in which it refuses it. -/
theorem C61_detached_result (es : List Env) :
    firstReady (polls pollDetached freshDetached es).2 = sendResult .live (accepted es) := by
  cases es with
  | nil => rfl
  | cons e es =>
    have hw := firstReady_detached_waiting 0 (e :: es)
    obtain ⟨t, w, r⟩ := e
    cases t
    · simp [polls, pollDetached, freshDetached, freshRet, detach, pollSending, takeReceiver, Sending.terminated,
        firstReady, accepted, sendResult]
    · simp [polls, pollDetached, freshDetached, freshRet, detach, pollSending, takeReceiver, Sending.terminated,
        firstReady, accepted, sendResult]
    · simp only [accepted]
      rw [← hw]
      cases w <;>
        simp [polls, pollDetached, freshDetached, freshRet, detach, pollSending, pollWaiting, takeReceiver,
          Sending.terminated, firstReady, firstReady_detached_waiting]

theorem firstReady_reply (es : List Env) :
    firstReady (polls pollReply .live es).2 = answered es := by
  induction es with
  | nil => rfl
  | cons e es ih =>
    obtain ⟨t, w, r⟩ := e
    cases r <;> simp [polls, pollReply, firstReady, answered, ih]

/-- C61: the `Receiver` of a detached send resolves to the first answer of the reply slot. -/
theorem C61_receiver_result (es : List Env) :
    firstReady (polls pollReply .live es).2 = answered es := firstReady_reply es

/-- Specification: what the first answer of the handler's future that is not `Pending` is. -/
def finished : List HandlerPoll → Option (Nat × Bool)
  | [] => none
  | .flow b :: _ => some (0, b)
  | .panic :: _ => none
  | .pending :: hs => (finished hs).map fun p => (p.1 + 1, p.2)

theorem dispatch_done_never (f : DispatchFut) (hf : f.state = .done) (hs : List HandlerPoll) :
    ∀ o ∈ (polls pollDispatch f hs).2, o = .panic := by
  induction hs with
  | nil => simp [polls]
  | cons h hs ih => simpa [polls, pollDispatch, hf] using ih

theorem firstReady_panics {α : Type} {os : List (Out α)} (h : ∀ o ∈ os, o = .panic) :
    firstReady os = none := by
  induction os with
  | nil => rfl
  | cons o os ih =>
    have := h o (by simp)
    subst this
    simp [firstReady, ih (fun o ho => h o (by simp [ho]))]

/-- C61: a dispatch future resolves in the poll in which the handler finishes, to the flow it finished with;
after that, and after a handler that panicked, every poll panics. -/
theorem C61_dispatch_result (hs : List HandlerPoll) :
    firstReady (polls pollDispatch freshDispatch hs).2 = finished hs ∧
    ∀ i j : Nat, i < j → hs[i]? ≠ some .pending → j < hs.length →
      (polls pollDispatch freshDispatch hs).2[j]? = some .panic := by
  have key : ∀ (f : DispatchFut), f.state ≠ .done →
      firstReady (polls pollDispatch f hs).2 = finished hs ∧
      ∀ i j : Nat, i < j → hs[i]? ≠ some .pending → j < hs.length →
        (polls pollDispatch f hs).2[j]? = some .panic := by
    induction hs with
    | nil => intro f _; exact ⟨rfl, by intro i j _ _ h; simp at h⟩
    | cons h hs ih =>
      intro f hf
      have hstep : ∃ g, pollDispatch f h = pollRunning g h := by
        cases hst : f.state
        · exact ⟨_, by simp only [pollDispatch, hst]; rfl⟩
        · exact ⟨_, by simp only [pollDispatch, hst]; rfl⟩
        · exact absurd hst hf
      obtain ⟨g, hg⟩ := hstep
      have tl : ∀ i j : Nat, i < j → (h :: hs)[i]? ≠ some .pending → j < (h :: hs).length →
          (h ≠ .pending → ∀ o ∈ (polls pollDispatch (pollDispatch f h).1 hs).2, o = .panic) →
          (h = .pending → ∀ i j : Nat, i < j → hs[i]? ≠ some .pending → j < hs.length →
            (polls pollDispatch (pollDispatch f h).1 hs).2[j]? = some .panic) →
          (polls pollDispatch f (h :: hs)).2[j]? = some .panic := by
        intro i j hij hi hj h1 h2
        cases j with
        | zero => omega
        | succ j =>
          simp only [polls, List.getElem?_cons_succ]
          by_cases hp : h = .pending
          · cases i with
            | zero => simp [hp] at hi
            | succ i => exact h2 hp i j (by omega) (by simpa using hi) (by simpa using hj)
          · have hlt : j < (polls pollDispatch (pollDispatch f h).1 hs).2.length := by
              rw [polls_length]; simpa using hj
            rw [List.getElem?_eq_getElem hlt, h1 hp _ (List.getElem_mem hlt)]
      have dn : h ≠ .pending → (pollDispatch f h).1.state = .done := by
        intro hp; rw [hg]; cases h <;> simp_all [pollRunning]
      have rn : h = .pending → (pollDispatch f h).1.state ≠ .done := by
        intro hp; rw [hg]; subst hp; simp [pollRunning]
      refine ⟨?_, fun i j hij hi hj => tl i j hij hi hj
        (fun hp => dispatch_done_never _ (dn hp) hs) (fun hp => (ih _ (rn hp)).2)⟩
      cases h with
      | pending =>
        simp only [polls, finished]
        rw [show (pollDispatch f .pending).2 = .pending by rw [hg]; rfl]
        simp only [firstReady]
        rw [(ih _ (rn rfl)).1]
      | flow b =>
        simp only [polls, finished]
        rw [show (pollDispatch f (.flow b)).2 = .ready b by rw [hg]; rfl]
        rfl
      | panic =>
        simp only [polls, finished]
        rw [show (pollDispatch f .panic).2 = .panic by rw [hg]; rfl]
        simp only [firstReady]
        rw [firstReady_panics (dispatch_done_never _ (dn (by simp)) hs)]
        rfl
  exact key _ (by simp [freshDispatch])

/-- C61: the message a receive future resolves to is the first one the channel hands to it in that poll, and
a message handed over by the first answer of a poll is not put off. -/
theorem C61_receive_result (s : Receiving) (ts : List Turn) (m : Nat) :
    ((pollRecv s ts).2 = .ready m → ∃ pre post, ts = pre ++ .msg m :: post ∧ ∀ k, .msg k ∉ pre) ∧
    (s ≠ .done → (pollRecv s (.msg m :: ts)).2 = .ready m) := by
  refine ⟨?_, by cases s <;> simp [pollRecv]⟩
  have ext : ∀ (t : Turn) (ts : List Turn), (∀ k, t ≠ .msg k) →
      (∃ pre post, ts = pre ++ .msg m :: post ∧ ∀ k, .msg k ∉ pre) →
      ∃ pre post, t :: ts = pre ++ .msg m :: post ∧ ∀ k, Turn.msg k ∉ pre := by
    rintro t ts ht ⟨pre, post, rfl, hp⟩
    exact ⟨t :: pre, post, rfl, fun k hk => by
      simp only [List.mem_cons] at hk
      rcases hk with hk | hk
      · exact ht k hk.symm
      · exact hp k hk⟩
  induction ts generalizing s with
  | nil => cases s <;> simp [pollRecv]
  | cons t ts ih =>
    intro h
    cases s with
    | done => simp [pollRecv] at h
    | new =>
      cases t with
      | msg k => simp [pollRecv] at h; subst h; exact ⟨[], ts, rfl, by simp⟩
      | wait => exact ext _ _ (by simp) (ih _ (by simpa [pollRecv] using h))
      | spurious => exact ext _ _ (by simp) (ih _ (by simpa [pollRecv] using h))
    | waiting =>
      cases t with
      | msg k => simp [pollRecv] at h; subst h; exact ⟨[], ts, rfl, by simp⟩
      | wait => simp [pollRecv] at h
      | spurious => exact ext _ _ (by simp) (ih _ (by simpa [pollRecv] using h))

/-- A request that finds the mailbox full, waits for two polls, is accepted, and whose handler is dropped later. -/
example : firstReady (polls pollRet freshRet
    [⟨.full, .pending, .pending⟩, ⟨.full, .delivered, .pending⟩, ⟨.full, .pending, .gone⟩]).2 =
    some (2, .error .interrupted) := by rw [C61_send_result]; rfl

/-- A handler that waits once, finishes with `Break`, and a future that is polled twice more. Meets the hypotheses of `C61_dispatch_result`. -/
example : (polls pollDispatch freshDispatch [.pending, .flow true, .pending, .flow false]).2 = [.pending, .ready true, .panic, .panic] ∧
    firstReady (polls pollDispatch freshDispatch [.pending, .flow true, .pending, .flow false]).2 = some (1, true) := by decide

end Xtra.Fuse
