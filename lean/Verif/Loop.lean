import Verif.PropsStop
/-!
# The event loop: `run`, `yield_once`, `select`, `join` (C25, C26)

Models `xtra/src/lib.rs:222-387`, `xtra/src/dispatch_future.rs` and the control flow of `xtra/src/envelope.rs:93-128, 188-210` for
one actor. The actor's asynchronous call stack is a stack of frames, innermost first. User code (the bodies of `started`, `handle`
and `stopped`) is arbitrary: at each moment it may call `stop_self`, call `yield_once`, `select` or `join` on its mailbox (to any
nesting depth), or return. Futures given to `select` and `join` are arbitrary: every poll returns what it likes. What the mailbox
yields is arbitrary as well (so everything the channel of `Model.lean` can do is covered). A step is one poll of a leaf future or
one action of user code; being suspended is not a step, so a run may stop for any time between two steps, or forever.

Every frame records what it did (`tr`, oldest first); when it returns, the record goes to `finished`.
-/

namespace Xtra.Loop

/-- What a frame did. -/
inductive LEv where
  /-- `started` returned `Ok(())` / `Err(v)` -/
  | startedOk
  | startedErr (v : Nat)
  /-- `mailbox.next()` yielded `am`, which is dispatched at once; `d` numbers the dispatches in order of time -/
  | recv (d : Nat) (am : AMsg)
  /-- `dispatch_to` of `am` returned `Break` (`brk = true`) or `Continue` -/
  | handled (d : Nat) (am : AMsg) (brk : Bool)
  | stoppedCall
  | stoppedRet (v : Nat)
  /-- `run` returned -/
  | ret (v : Nat)
  /-- the future passed to `select`/`join` was polled -/
  | futPending
  | futReady (v : Nat)
  /-- `select` returned `Left(v)` / `join` returned `v` -/
  | left (v : Nat)
  /-- the select loop ended because the actor is to stop -/
  | right
  /-- the handler called `Context::stop_self` -/
  | stopSelf
  deriving DecidableEq, Repr

/-- Where `mailbox.next().await.dispatch_to(actor).await` is (xtra/src/lib.rs:244). -/
inductive YSt where
  | receiving
  | dispatching (d : Nat) (am : AMsg)
  deriving DecidableEq, Repr

/-- Where `run` is (xtra/src/lib.rs:226-237). -/
inductive RunSt where
  | starting
  | looping (y : YSt)
  | stopping
  | done
  deriving DecidableEq, Repr

/-- Where `select` (xtra/src/lib.rs:301-328) or `join` (xtra/src/lib.rs:377-387) is. `join` is `select` followed by awaiting the
future if `select` returned it, so the two share the states; only `join` gets to `awaiting`. -/
inductive SelSt where
  /-- in `future::select`, about to poll the future, which is polled first (lib.rs:311) -/
  | pollFut
  /-- in `future::select`, about to poll `next_msg` (lib.rs:311) -/
  | pollNext
  /-- the future completed, about to call `next_msg.now_or_never()` (lib.rs:312-313) -/
  | left (v : Nat)
  /-- dispatching the message `now_or_never` gave (lib.rs:314) -/
  | leftDispatch (v : Nat) (d : Nat) (am : AMsg)
  /-- dispatching a message in the loop (lib.rs:323) -/
  | dispatching (d : Nat) (am : AMsg)
  /-- `fut.await` (lib.rs:385) -/
  | awaiting
  deriving DecidableEq, Repr

/-- A frame of the asynchronous call stack. -/
inductive Kind where
  | run (st : RunSt)
  | yieldOnce (st : YSt)
  | sel (isJoin : Bool) (st : SelSt)
  /-- body of `Actor::started` -/
  | started
  /-- body of `Handler::handle` for dispatch `d`; `running` is `Context::running` (xtra/src/context.rs:6, envelope.rs:106-109) -/
  | handle (d : Nat) (am : AMsg) (running : Bool)
  /-- body of `Actor::stopped` -/
  | stopped
  deriving DecidableEq, Repr

/-- Frame with its record. -/
structure Frame where
  kind : Kind
  tr : List LEv
  deriving DecidableEq, Repr

/-- A call that returned, with its record. -/
inductive Fin where
  | yieldOnce (tr : List LEv) (brk : Bool)
  | sel (isJoin : Bool) (tr : List LEv)
  | handle (d : Nat) (am : AMsg) (brk : Bool) (tr : List LEv)
  deriving DecidableEq, Repr

/-- The actor. -/
structure Cfg where
  stack : List Frame
  finished : List Fin
  next : Nat
  deriving DecidableEq, Repr

/-- A choice of the environment or of user code. -/
inductive Choice where
  /-- the innermost frame polls its future -/
  | futPoll (r : Option Nat)
  /-- the innermost frame polls its `mailbox.next()` -/
  | nextPoll (r : Option AMsg)
  /-- user code calls `yield_once` / `select` / `join` / `Context::stop_self` -/
  | callYield
  | callSelect
  | callJoin
  | stopSelf
  /-- user code returns: `started` with `Ok(())` or `Err(v)`, `handle`, `stopped` with `v` -/
  | retStarted (e : Option Nat)
  | retHandle
  | retStopped (v : Nat)
  /-- user code at depth `n` drops the future of the `yield_once`/`select`/`join` call it is awaiting (a timeout, say), with all that
  runs inside it -/
  | abandon (n : Nat)
  deriving DecidableEq, Repr

/-- `dispatch_to(..).await` in frame `k` (record `tr`) returned (`dispatch_future.rs:136-144`): what the frame does next.
* `run`: `while let Continue = .. {}`, then `stopped` (lib.rs:234-236)
* `yield_once`: returns it (lib.rs:244)
* `select`: in the loop, `control_flow = ..` (lib.rs:308, 323-327); in the `Left` branch the result is discarded (lib.rs:314-317)
* `join`: awaits the future after `Right` (lib.rs:385) -/
def dispatched (c : Cfg) (k : Kind) (tr : List LEv) (rest : List Frame) (d : Nat) (am : AMsg) (brk : Bool) : Cfg :=
  match k with
  | .run _ =>
    if brk then { c with stack := ⟨.stopped, []⟩ :: ⟨.run .stopping, tr ++ [.handled d am brk, .stoppedCall]⟩ :: rest }
    else { c with stack := ⟨.run (.looping .receiving), tr ++ [.handled d am brk]⟩ :: rest }
  | .yieldOnce _ => { c with stack := rest, finished := .yieldOnce (tr ++ [.handled d am brk]) brk :: c.finished }
  | .sel j (.leftDispatch v _ _) =>
    { c with stack := rest, finished := .sel j (tr ++ [.handled d am brk, .left v]) :: c.finished }
  | .sel j _ =>
    if brk then
      if j then { c with stack := ⟨.sel j .awaiting, tr ++ [.handled d am brk, .right]⟩ :: rest }
      else { c with stack := rest, finished := .sel j (tr ++ [.handled d am brk, .right]) :: c.finished }
    else { c with stack := ⟨.sel j .pollFut, tr ++ [.handled d am brk]⟩ :: rest }
  | _ => c

/-- A frame received `am`, has recorded it and is now in state `k`: dispatch it. A shutdown notice is not given to a handler
(`dispatch_future.rs:88-93`, `envelope.rs:227-231, 251-257`); any other message is, with a fresh context (`envelope.rs:105-117,
195-207`). -/
def dispatch (c : Cfg) (k : Kind) (tr : List LEv) (rest : List Frame) (am : AMsg) : Cfg :=
  let c := { c with next := c.next + 1 }
  if am.isStop then dispatched c k tr rest (c.next - 1) am true
  else { c with stack := ⟨.handle (c.next - 1) am true, []⟩ :: ⟨k, tr⟩ :: rest }

/-- Frames of user code. -/
def Kind.isUser : Kind → Bool
  | .started => true
  | .handle _ _ _ => true
  | .stopped => true
  | _ => false

/-- One step. -/
def step (c : Cfg) (ch : Choice) : Option Cfg :=
  match c.stack with
  | [] => none
  | ⟨k, tr⟩ :: rest =>
    match k, ch with
    -- dropping a call's future drops the frames inside it (Rust's drop glue for `async` blocks)
    | _, .abandon n =>
      match c.stack.drop n with
      | f :: fs => if f.kind.isUser then some { c with stack := f :: fs } else none
      | [] => none
    -- `mailbox.next().await` in `run` and `yield_once` (lib.rs:244)
    | .run (.looping .receiving), .nextPoll none => some c
    | .run (.looping .receiving), .nextPoll (some am) =>
      some (dispatch c (.run (.looping (.dispatching c.next am))) (tr ++ [.recv c.next am]) rest am)
    | .yieldOnce .receiving, .nextPoll none => some c
    | .yieldOnce .receiving, .nextPoll (some am) =>
      some (dispatch c (.yieldOnce (.dispatching c.next am)) (tr ++ [.recv c.next am]) rest am)
    -- `future::select(fut, &mut next_msg)` (lib.rs:311-320)
    | .sel j .pollFut, .futPoll none => some { c with stack := ⟨.sel j .pollNext, tr ++ [.futPending]⟩ :: rest }
    | .sel j .pollFut, .futPoll (some v) => some { c with stack := ⟨.sel j (.left v), tr ++ [.futReady v]⟩ :: rest }
    | .sel j .pollNext, .nextPoll none => some { c with stack := ⟨.sel j .pollFut, tr⟩ :: rest }
    | .sel j .pollNext, .nextPoll (some am) =>
      some (dispatch c (.sel j (.dispatching c.next am)) (tr ++ [.recv c.next am]) rest am)
    -- `next_msg.now_or_never()` (lib.rs:313-317)
    | .sel j (.left v), .nextPoll none => some { c with stack := rest, finished := .sel j (tr ++ [.left v]) :: c.finished }
    | .sel j (.left v), .nextPoll (some am) =>
      some (dispatch c (.sel j (.leftDispatch v c.next am)) (tr ++ [.recv c.next am]) rest am)
    -- `fut.await` (lib.rs:385)
    | .sel j .awaiting, .futPoll none => some { c with stack := ⟨.sel j .awaiting, tr ++ [.futPending]⟩ :: rest }
    | .sel j .awaiting, .futPoll (some v) =>
      some { c with stack := rest, finished := .sel j (tr ++ [.futReady v, .left v]) :: c.finished }
    -- user code calls (lib.rs:240, 301, 377)
    | k, .callYield => if k.isUser then some { c with stack := ⟨.yieldOnce .receiving, []⟩ :: c.stack } else none
    | k, .callSelect => if k.isUser then some { c with stack := ⟨.sel false .pollFut, []⟩ :: c.stack } else none
    | k, .callJoin => if k.isUser then some { c with stack := ⟨.sel true .pollFut, []⟩ :: c.stack } else none
    -- `Context::stop_self` (context.rs:13-15)
    | .handle d am _, .stopSelf => some { c with stack := ⟨.handle d am false, tr ++ [.stopSelf]⟩ :: rest }
    -- `handle` returns (envelope.rs:110-116, 200-206)
    | .handle d am running, .retHandle =>
      match rest with
      | ⟨k', tr'⟩ :: rest' =>
        some (dispatched { c with finished := .handle d am (!running) tr :: c.finished } k' tr' rest' d am (!running))
      | [] => none
    -- `started` returns (lib.rs:230-232)
    | .started, .retStarted e =>
      match rest, e with
      | ⟨.run _, tr'⟩ :: rest', none => some { c with stack := ⟨.run (.looping .receiving), tr' ++ [.startedOk]⟩ :: rest' }
      | ⟨.run _, tr'⟩ :: rest', some v => some { c with stack := ⟨.run .done, tr' ++ [.startedErr v, .ret v]⟩ :: rest' }
      | _, _ => none
    -- `stopped` returns (lib.rs:236)
    | .stopped, .retStopped v =>
      match rest with
      | ⟨.run _, tr'⟩ :: rest' => some { c with stack := ⟨.run .done, tr' ++ [.stoppedRet v, .ret v]⟩ :: rest' }
      | _ => none
    | _, _ => none

/-- `run(mailbox, actor)` first polled: `started` is called (lib.rs:230). -/
def init : Cfg := ⟨[⟨.started, []⟩, ⟨.run .starting, []⟩], [], 0⟩

/-- Run a sequence of choices. -/
def steps (c : Cfg) : List Choice → Option Cfg
  | [] => some c
  | a :: as => match step c a with
    | some c' => steps c' as
    | none => none

/-- Reached in some execution. -/
inductive Reach : Cfg → Prop where
  | init : Reach init
  | step {c c' : Cfg} {a : Choice} : Reach c → step c a = some c' → Reach c'

theorem Reach.steps {c c' : Cfg} {as : List Choice} (h : Reach c) (hs : Loop.steps c as = some c') : Reach c' := by
  induction as generalizing c with
  | nil => simp [Loop.steps] at hs; subst hs; exact h
  | cons a as ih =>
    simp only [Loop.steps] at hs
    split at hs
    · rename_i c1 h1; exact ih (.step h h1) hs
    · simp at hs

/-! ## Specification -/

/-- Each of these messages was received and its handling finished with `Continue`, one after the other. -/
def rounds (ms : List (Nat × AMsg)) : List LEv := ms.flatMap fun m => [.recv m.1 m.2, .handled m.1 m.2 false]

/-- What `run` can have done (oldest first): called `started`; got an error and returned it; or handled messages, each until done
before the next one is received, all with `Continue`; possibly received one more whose handling is under way; or that one finished
with `Break`, upon which `stopped` was called, and possibly returned. -/
def RunShape (tr : List LEv) : Prop :=
  tr = [] ∨ (∃ v, tr = [.startedErr v, .ret v]) ∨
  ∃ ms, tr = .startedOk :: rounds ms ∨ ∃ d am, tr = .startedOk :: rounds ms ++ [.recv d am] ∨
    tr = .startedOk :: rounds ms ++ [.recv d am, .handled d am true, .stoppedCall] ∨
    ∃ v, tr = .startedOk :: rounds ms ++ [.recv d am, .handled d am true, .stoppedCall, .stoppedRet v, .ret v]

/-- What `select` does before it ends: it polls the future, finds it pending, and possibly then receives a message and handles it to
the end, with `Continue`; again and again. -/
inductive SelPre : List LEv → Prop where
  | nil : SelPre []
  | pending {l : List LEv} : SelPre l → SelPre (l ++ [.futPending])
  | message {l : List LEv} {d : Nat} {am : AMsg} : SelPre l → SelPre (l ++ [.futPending, .recv d am, .handled d am false])

/-- How a completed `select` can have gone: the future completed, perhaps one more message was handled, and `Left` of its value was
returned; or a message whose handling ended with `Break` ended the loop. -/
def SelEnd (tr : List LEv) : Prop :=
  ∃ l, SelPre l ∧
    ((∃ v, tr = l ++ [.futReady v, .left v]) ∨
     (∃ v d am brk, tr = l ++ [.futReady v, .recv d am, .handled d am brk, .left v]) ∨
     (∃ d am, tr = l ++ [.futPending, .recv d am, .handled d am true, .right]))

/-- How a completed `join` can have gone: as above, but instead of returning the future after a `Break` it polls the future to
completion, without receiving messages, and returns its value. -/
def JoinEnd (tr : List LEv) : Prop :=
  ∃ l, SelPre l ∧
    ((∃ v, tr = l ++ [.futReady v, .left v]) ∨
     (∃ v d am brk, tr = l ++ [.futReady v, .recv d am, .handled d am brk, .left v]) ∨
     (∃ d am n v, tr = l ++ [.futPending, .recv d am, .handled d am true, .right] ++ List.replicate n .futPending ++ [.futReady v, .left v]))

/-- How a completed `yield_once` went. -/
def YieldEnd (tr : List LEv) (brk : Bool) : Prop := ∃ d am, tr = [.recv d am, .handled d am brk]

/-! ## The invariant -/

theorem rounds_snoc (ms : List (Nat × AMsg)) (d : Nat) (am : AMsg) :
    rounds (ms ++ [(d, am)]) = rounds ms ++ [.recv d am, .handled d am false] := by simp [rounds]

/-- What a frame in this state has recorded. -/
def Loc : Kind → List LEv → Prop
  | .run .starting, tr => tr = []
  | .run (.looping .receiving), tr => ∃ ms, tr = .startedOk :: rounds ms
  | .run (.looping (.dispatching d am)), tr => ∃ ms, tr = .startedOk :: rounds ms ++ [.recv d am]
  | .run .stopping, tr => ∃ ms d am, tr = .startedOk :: rounds ms ++ [.recv d am, .handled d am true, .stoppedCall]
  | .run .done, tr => (∃ v, tr = [.startedErr v, .ret v]) ∨
    ∃ ms d am v, tr = .startedOk :: rounds ms ++ [.recv d am, .handled d am true, .stoppedCall, .stoppedRet v, .ret v]
  | .yieldOnce .receiving, tr => tr = []
  | .yieldOnce (.dispatching d am), tr => tr = [.recv d am]
  | .sel _ .pollFut, tr => SelPre tr
  | .sel _ .pollNext, tr => ∃ l, SelPre l ∧ tr = l ++ [.futPending]
  | .sel _ (.left v), tr => ∃ l, SelPre l ∧ tr = l ++ [.futReady v]
  | .sel _ (.leftDispatch v d am), tr => ∃ l, SelPre l ∧ tr = l ++ [.futReady v, .recv d am]
  | .sel _ (.dispatching d am), tr => ∃ l, SelPre l ∧ tr = l ++ [.futPending, .recv d am]
  | .sel j .awaiting, tr => j = true ∧ ∃ l d am n, SelPre l ∧
      tr = l ++ [.futPending, .recv d am, .handled d am true, .right] ++ List.replicate n .futPending
  | .started, tr => tr = []
  | .stopped, tr => tr = []
  | .handle _ _ running, tr => ∃ n, tr = List.replicate n .stopSelf ∧ (running = true ↔ n = 0)

/-- The frame is inside `dispatch_to` of this message. -/
def Kind.dispatchingOf : Kind → Option (Nat × AMsg)
  | .run (.looping (.dispatching d am)) => some (d, am)
  | .yieldOnce (.dispatching d am) => some (d, am)
  | .sel _ (.leftDispatch _ d am) => some (d, am)
  | .sel _ (.dispatching d am) => some (d, am)
  | _ => none

/-- Which frame can have called which. -/
def Above : Kind → Kind → Prop
  | .handle d am _, k => k.dispatchingOf = some (d, am)
  | .started, k => k = .run .starting
  | .stopped, k => k = .run .stopping
  | .yieldOnce _, k => k.isUser = true
  | .sel _ _, k => k.isUser = true
  | .run _, _ => False

/-- A well-formed call stack. -/
inductive Stk : List Frame → Prop where
  | bottom {st : RunSt} {tr : List LEv} : Loc (.run st) tr → Stk [⟨.run st, tr⟩]
  | cons {f g : Frame} {fs : List Frame} : Loc f.kind f.tr → Above f.kind g.kind → Stk (g :: fs) → Stk (f :: g :: fs)

/-- A record of a finished call has the specified shape. -/
def FinOk : Fin → Prop
  | .yieldOnce tr brk => YieldEnd tr brk
  | .sel false tr => SelEnd tr
  | .sel true tr => JoinEnd tr
  | .handle _ _ brk tr => ∃ n, tr = List.replicate n .stopSelf ∧ (brk = true ↔ n ≠ 0)

theorem Stk.tail {f : Frame} {fs : List Frame} (h : Stk (f :: fs)) (hne : fs ≠ []) : Stk fs := by
  cases h with
  | bottom => simp at hne
  | cons _ _ h => exact h

theorem Stk.drop {fs gs : List Frame} {n : Nat} {f : Frame} (h : Stk fs) (hd : fs.drop n = f :: gs) : Stk (f :: gs) := by
  induction n generalizing fs with
  | zero => simp at hd; rwa [hd] at h
  | succ n ih =>
    cases fs with
    | nil => simp at hd
    | cons a fs =>
      simp only [List.drop_succ_cons] at hd
      exact ih (h.tail (by rintro rfl; simp at hd)) hd

/-- Replacing the top frame by another of the same place in the stack. -/
theorem Stk.top {k k' : Kind} {tr tr' : List LEv} {fs : List Frame} (h : Stk (⟨k, tr⟩ :: fs)) (hl : Loc k' tr')
    (ha : ∀ g, Above k g → Above k' g) (hr : ∀ st, k = .run st → ∃ st', k' = .run st') : Stk (⟨k', tr'⟩ :: fs) := by
  cases h with
  | bottom => obtain ⟨st', rfl⟩ := hr _ rfl; exact .bottom hl
  | cons _ ha' hs => exact .cons hl (ha _ ha') hs

/-- The invariant. -/
structure Inv (c : Cfg) : Prop where
  stk : Stk c.stack
  fin : ∀ f ∈ c.finished, FinOk f

theorem dispatched_inv {c : Cfg} {k : Kind} {tr : List LEv} {rest : List Frame} {d : Nat} {am : AMsg} {brk : Bool}
    (hk : k.dispatchingOf = some (d, am)) (hs : Stk (⟨k, tr⟩ :: rest)) (hf : ∀ f ∈ c.finished, FinOk f) :
    Inv (dispatched c k tr rest d am brk) := by
  have hl : Loc k tr := by cases hs <;> assumption
  have hne : (∀ st, k ≠ .run st) → rest ≠ [] := by
    intro h e; subst e; cases hs; exact h _ rfl
  match k, hk with
  | .run (.looping (.dispatching d' am')), hk =>
    simp only [Kind.dispatchingOf, Option.some.injEq, Prod.mk.injEq] at hk
    obtain ⟨rfl, rfl⟩ := hk
    obtain ⟨ms, rfl⟩ := hl
    have : rest = [] := by
      cases hs with
      | bottom => rfl
      | cons _ h => exact h.elim
    subst this
    cases brk with
    | true =>
      refine ⟨?_, hf⟩
      simp only [dispatched, if_true]
      refine .cons rfl rfl (.bottom ⟨ms, d', am', ?_⟩)
      simp
    | false =>
      refine ⟨?_, hf⟩
      simp only [dispatched]
      refine .bottom ⟨ms ++ [(d', am')], ?_⟩
      rw [rounds_snoc]
      simp
  | .yieldOnce (.dispatching d' am'), hk =>
    simp only [Kind.dispatchingOf, Option.some.injEq, Prod.mk.injEq] at hk
    obtain ⟨rfl, rfl⟩ := hk
    refine ⟨hs.tail (hne (by simp)), ?_⟩
    intro f hm
    simp only [dispatched, List.mem_cons] at hm
    rcases hm with rfl | hm
    · simp only [Loc] at hl; subst hl; exact ⟨_, _, rfl⟩
    · exact hf f hm
  | .sel j (.leftDispatch v d' am'), hk =>
    simp only [Kind.dispatchingOf, Option.some.injEq, Prod.mk.injEq] at hk
    obtain ⟨rfl, rfl⟩ := hk
    refine ⟨hs.tail (hne (by simp)), ?_⟩
    intro f hm
    simp only [dispatched, List.mem_cons] at hm
    rcases hm with rfl | hm
    · obtain ⟨l, h1, rfl⟩ := hl
      cases j
      · exact ⟨l, h1, .inr (.inl ⟨v, d', am', brk, by simp⟩)⟩
      · exact ⟨l, h1, .inr (.inl ⟨v, d', am', brk, by simp⟩)⟩
    · exact hf f hm
  | .sel j (.dispatching d' am'), hk =>
    simp only [Kind.dispatchingOf, Option.some.injEq, Prod.mk.injEq] at hk
    obtain ⟨rfl, rfl⟩ := hk
    obtain ⟨l, h1, rfl⟩ := hl
    cases brk with
    | false =>
      refine ⟨?_, hf⟩
      simp only [dispatched]
      refine hs.top ?_ (fun g h => h) (by simp)
      have := SelPre.message (d := d') (am := am') h1
      simpa [Loc] using this
    | true =>
      cases j with
      | true =>
        refine ⟨?_, hf⟩
        simp only [dispatched, if_true]
        refine hs.top ⟨rfl, l, d', am', 0, h1, by simp⟩ (fun g h => h) (by simp)
      | false =>
        refine ⟨hs.tail (hne (by simp)), ?_⟩
        intro f hm
        simp [dispatched] at hm
        rcases hm with rfl | hm
        · exact ⟨l, h1, .inr (.inr ⟨d', am', by simp⟩)⟩
        · exact hf f hm

theorem dispatch_inv {c : Cfg} {k : Kind} {tr : List LEv} {rest : List Frame} {am : AMsg}
    (hk : k.dispatchingOf = some (c.next, am)) (hs : Stk (⟨k, tr⟩ :: rest)) (hf : ∀ f ∈ c.finished, FinOk f) :
    Inv (dispatch c k tr rest am) := by
  unfold dispatch
  simp only [Nat.add_sub_cancel]
  split
  · exact dispatched_inv hk hs hf
  · exact ⟨.cons ⟨0, by simp⟩ hk hs, hf⟩

theorem inv_step {c c' : Cfg} {a : Choice} (h : Inv c) (hst : step c a = some c') : Inv c' := by
  obtain ⟨stack, fin, next⟩ := c
  obtain ⟨hs, hf⟩ := h
  simp only at hs hf
  unfold step at hst
  split at hst
  · simp at hst
  rename_i k tr rest heq
  simp only at heq
  subst heq
  have hl : Loc k tr := by cases hs <;> assumption
  have hne : (∀ st, k ≠ .run st) → rest ≠ [] := by
    intro h e; subst e; cases hs; exact h _ rfl
  split at hst
  case h_1 n =>
    split at hst
    · rename_i f fs hd
      split at hst
      · cases hst; exact ⟨hs.drop hd, hf⟩
      · simp at hst
    · simp at hst
  case h_2 => cases hst; exact ⟨hs, hf⟩
  case h_3 =>
    cases hst
    obtain ⟨ms, rfl⟩ := hl
    exact dispatch_inv rfl (hs.top ⟨ms, rfl⟩ (fun g h => h) (by simp)) hf
  case h_4 => cases hst; exact ⟨hs, hf⟩
  case h_5 =>
    cases hst
    simp only [Loc] at hl
    subst hl
    exact dispatch_inv rfl (hs.top rfl (fun g h => h) (by simp)) hf
  case h_6 =>
    cases hst
    exact ⟨hs.top ⟨tr, hl, rfl⟩ (fun g h => h) (by simp), hf⟩
  case h_7 =>
    cases hst
    exact ⟨hs.top ⟨tr, hl, rfl⟩ (fun g h => h) (by simp), hf⟩
  case h_8 =>
    cases hst
    obtain ⟨l, h1, rfl⟩ := hl
    exact ⟨hs.top (.pending h1) (fun g h => h) (by simp), hf⟩
  case h_9 =>
    cases hst
    obtain ⟨l, h1, rfl⟩ := hl
    exact dispatch_inv rfl (hs.top ⟨l, h1, by simp⟩ (fun g h => h) (by simp)) hf
  case h_10 j v =>
    cases hst
    obtain ⟨l, h1, rfl⟩ := hl
    refine ⟨hs.tail (hne (by simp)), ?_⟩
    intro f hm
    simp only [List.mem_cons] at hm
    rcases hm with rfl | hm
    · cases j
      · exact ⟨l, h1, .inl ⟨v, by simp⟩⟩
      · exact ⟨l, h1, .inl ⟨v, by simp⟩⟩
    · exact hf f hm
  case h_11 =>
    cases hst
    obtain ⟨l, h1, rfl⟩ := hl
    exact dispatch_inv rfl (hs.top ⟨l, h1, by simp⟩ (fun g h => h) (by simp)) hf
  case h_12 =>
    cases hst
    obtain ⟨rfl, l, d, am, n, h1, rfl⟩ := hl
    exact ⟨hs.top ⟨rfl, l, d, am, n + 1, h1, by simp [List.replicate_succ']⟩ (fun g h => h) (by simp), hf⟩
  case h_13 j v =>
    cases hst
    obtain ⟨rfl, l, d, am, n, h1, rfl⟩ := hl
    refine ⟨hs.tail (hne (by simp)), ?_⟩
    intro f hm
    simp only [List.mem_cons] at hm
    rcases hm with rfl | hm
    · exact ⟨l, h1, .inr (.inr ⟨d, am, n, v, by simp⟩)⟩
    · exact hf f hm
  case h_14 =>
    split at hst
    · rename_i hu; cases hst; exact ⟨.cons rfl hu hs, hf⟩
    · simp at hst
  case h_15 =>
    split at hst
    · rename_i hu; cases hst; exact ⟨.cons .nil hu hs, hf⟩
    · simp at hst
  case h_16 =>
    split at hst
    · rename_i hu; cases hst; exact ⟨.cons .nil hu hs, hf⟩
    · simp at hst
  case h_17 =>
    cases hst
    obtain ⟨n, rfl, -⟩ := hl
    exact ⟨hs.top ⟨n + 1, by simp [List.replicate_succ']⟩ (fun g h => h) (by simp), hf⟩
  case h_18 d am running =>
    split at hst
    · rename_i k' tr' rest'
      cases hst
      cases hs with
      | cons _ ha hs' =>
        refine dispatched_inv ha hs' ?_
        intro f hm
        simp only [List.mem_cons] at hm
        rcases hm with rfl | hm
        · obtain ⟨n, rfl, h2⟩ := hl
          refine ⟨n, rfl, ?_⟩
          cases running <;> simp_all
        · exact hf f hm
    · simp at hst
  case h_19 e =>
    split at hst
    · rename_i st tr' rest'
      cases hst
      cases hs with
      | cons _ ha hs' =>
        cases ha
        have hl' : Loc (.run .starting) tr' := by cases hs' <;> assumption
        simp only [Loc] at hl'
        subst hl'
        exact ⟨hs'.top ⟨[], rfl⟩ (fun g h => h) (by simp), hf⟩
    · rename_i st tr' rest' v
      cases hst
      cases hs with
      | cons _ ha hs' =>
        cases ha
        have hl' : Loc (.run .starting) tr' := by cases hs' <;> assumption
        simp only [Loc] at hl'
        subst hl'
        exact ⟨hs'.top (.inl ⟨v, rfl⟩) (fun g h => h) (by simp), hf⟩
    · simp at hst
  case h_20 v =>
    split at hst
    · rename_i st tr' rest'
      cases hst
      cases hs with
      | cons _ ha hs' =>
        cases ha
        have hl' : Loc (.run .stopping) tr' := by cases hs' <;> assumption
        obtain ⟨ms, d, am, rfl⟩ := hl'
        exact ⟨hs'.top (.inr ⟨ms, d, am, v, by simp⟩) (fun g h => h) (by simp), hf⟩
    · simp at hst
  case h_21 => simp at hst

theorem inv_reach {c : Cfg} (h : Reach c) : Inv c := by
  induction h with
  | init => exact ⟨.cons rfl rfl (.bottom rfl), by simp [init]⟩
  | step _ hs ih => exact inv_step ih hs

/-! ## Every recorded outcome is that of the handler -/

/-- The record of a finished call. -/
def Fin.tr : Fin → List LEv
  | .yieldOnce tr _ => tr
  | .sel _ tr => tr
  | .handle _ _ _ tr => tr

/-- The outcome `brk` of dispatch `d` of `am` is the right one: a shutdown notice breaks; any other message was given to the
handler, which finished, and the outcome says whether it called `stop_self`. -/
def Outcome (c : Cfg) (d : Nat) (am : AMsg) (brk : Bool) : Prop :=
  if am.isStop = true then brk = true
  else ∃ tr, Fin.handle d am brk tr ∈ c.finished ∧ (brk = true ↔ LEv.stopSelf ∈ tr)

/-- The records in a configuration, of calls under way and finished ones. -/
def HasRecord (c : Cfg) (tr : List LEv) : Prop := (∃ f ∈ c.stack, f.tr = tr) ∨ ∃ f ∈ c.finished, f.tr = tr

/-- Number of the dispatch this frame is the handler of. -/
def Frame.hid (f : Frame) : Option Nat := match f.kind with | .handle d _ _ => some d | _ => none

def Fin.hid : Fin → Option Nat
  | .handle d _ _ _ => some d
  | _ => none

/-- All handler invocations, under way and finished. -/
def hids (c : Cfg) : List Nat := c.stack.filterMap Frame.hid ++ c.finished.filterMap Fin.hid

structure Inv2 (c : Cfg) : Prop where
  out : ∀ tr, HasRecord c tr → ∀ d am brk, LEv.handled d am brk ∈ tr → Outcome c d am brk
  msg : ∀ f ∈ c.stack, ∀ d am r, f.kind = .handle d am r → am.isStop = false
  lt : ∀ d ∈ hids c, d < c.next
  nodup : (hids c).Nodup

theorem Outcome.mono {c c' : Cfg} {d : Nat} {am : AMsg} {brk : Bool} (h : Outcome c d am brk)
    (hf : ∀ f ∈ c.finished, f ∈ c'.finished) : Outcome c' d am brk := by
  unfold Outcome at h ⊢
  split
  · simp_all
  · rw [if_neg (by assumption)] at h
    obtain ⟨tr, h1, h2⟩ := h
    exact ⟨tr, hf _ h1, h2⟩

theorem dispatched_inv2 {c : Cfg} {k : Kind} {tr : List LEv} {rest : List Frame} {d : Nat} {am : AMsg} {brk : Bool}
    (hk : k.dispatchingOf = some (d, am)) (hs : c.stack = ⟨k, tr⟩ :: rest) (h : Inv2 c) (ho : Outcome c d am brk) :
    Inv2 (dispatched c k tr rest d am brk) := by
  obtain ⟨stack, fin, next⟩ := c
  simp only at hs
  subst hs
  obtain ⟨h1, h2, h3, h4⟩ := h
  have h1' : ∀ d am brk, LEv.handled d am brk ∈ tr → Outcome ⟨⟨k, tr⟩ :: rest, fin, next⟩ d am brk :=
    h1 tr (.inl ⟨⟨k, tr⟩, by simp⟩)
  have h1r : ∀ f ∈ rest, ∀ d am brk, LEv.handled d am brk ∈ f.tr → Outcome ⟨⟨k, tr⟩ :: rest, fin, next⟩ d am brk :=
    fun f hf => h1 f.tr (.inl ⟨f, by simp [hf]⟩)
  have h1f : ∀ f ∈ fin, ∀ d am brk, LEv.handled d am brk ∈ f.tr → Outcome ⟨⟨k, tr⟩ :: rest, fin, next⟩ d am brk :=
    fun f hf => h1 f.tr (.inr ⟨f, hf, rfl⟩)
  have hkid : Frame.hid ⟨k, tr⟩ = none := by
    cases k <;> simp_all [Frame.hid, Kind.dispatchingOf]
  have heq : hids ⟨⟨k, tr⟩ :: rest, fin, next⟩ = rest.filterMap Frame.hid ++ fin.filterMap Fin.hid := by
    simp [hids, List.filterMap_cons, hkid]
  have key : ∀ c' : Cfg, (∀ f ∈ fin, f ∈ c'.finished) → (∀ f ∈ c'.finished, f ∈ fin ∨ ∃ l, f.tr = tr ++ .handled d am brk :: l ∧ (∀ d am brk, LEv.handled d am brk ∉ l) ∧ f.hid = none) →
      (∀ f ∈ c'.stack, f ∈ rest ∨ (∃ l, f.tr = tr ++ .handled d am brk :: l ∧ (∀ d am brk, LEv.handled d am brk ∉ l)) ∧ f.hid = none ∨ f.tr = [] ∧ f.hid = none) →
      c'.next = next → hids c' = rest.filterMap Frame.hid ++ fin.filterMap Fin.hid → Inv2 c' := by
    intro c' hm hf hst hn hh
    refine ⟨?_, ?_, ?_, ?_⟩
    · rintro t (⟨f, hf1, rfl⟩ | ⟨f, hf1, rfl⟩) d' am' brk' hmem
      · rcases hst f hf1 with hr | ⟨⟨l, hl, hl2⟩, -⟩ | ⟨hr, -⟩
        · exact (h1r f hr _ _ _ hmem).mono hm
        · rw [hl] at hmem
          simp only [List.mem_append, List.mem_cons, hl2, or_false] at hmem
          rcases hmem with hmem | hmem
          · exact (h1' _ _ _ hmem).mono hm
          · cases hmem; exact ho.mono hm
        · rw [hr] at hmem; simp at hmem
      · rcases hf f hf1 with hr | ⟨l, hl, hl2, -⟩
        · exact (h1f f hr _ _ _ hmem).mono hm
        · rw [hl] at hmem
          simp only [List.mem_append, List.mem_cons, hl2, or_false] at hmem
          rcases hmem with hmem | hmem
          · exact (h1' _ _ _ hmem).mono hm
          · cases hmem; exact ho.mono hm
    · intro f hf1 d' am' r hk'
      rcases hst f hf1 with hr | ⟨-, hr⟩ | ⟨-, hr⟩
      · exact h2 f (by simp [hr]) _ _ _ hk'
      · simp [Frame.hid, hk'] at hr
      · simp [Frame.hid, hk'] at hr
    · rw [hh, hn, ← heq]; exact h3
    · rw [hh, ← heq]; exact h4
  match k, hk with
  | .run (.looping (.dispatching d' am')), hk =>
    simp only [dispatched]
    split
    · apply key
      · simp
      · intro f hf; exact .inl hf
      · intro f hf
        simp only [List.mem_cons] at hf
        rcases hf with rfl | rfl | hf
        · exact .inr (.inr ⟨rfl, rfl⟩)
        · exact .inr (.inl ⟨⟨[.stoppedCall], rfl, by simp⟩, rfl⟩)
        · exact .inl hf
      · rfl
      · simp [hids, List.filterMap_cons, Frame.hid]
    · apply key
      · simp
      · intro f hf; exact .inl hf
      · intro f hf
        simp only [List.mem_cons] at hf
        rcases hf with rfl | hf
        · exact .inr (.inl ⟨⟨[], rfl, by simp⟩, rfl⟩)
        · exact .inl hf
      · rfl
      · simp [hids, List.filterMap_cons, Frame.hid]
  | .yieldOnce (.dispatching d' am'), hk =>
    apply key
    · intro f hf; simp [dispatched, hf]
    · intro f hf
      simp only [dispatched, List.mem_cons] at hf
      rcases hf with rfl | hf
      · exact .inr ⟨[], rfl, by simp, rfl⟩
      · exact .inl hf
    · intro f hf; exact .inl hf
    · rfl
    · simp [hids, List.filterMap_cons, Frame.hid, Fin.hid, dispatched]
  | .sel j (.leftDispatch v d' am'), hk =>
    apply key
    · intro f hf; simp [dispatched, hf]
    · intro f hf
      simp only [dispatched, List.mem_cons] at hf
      rcases hf with rfl | hf
      · exact .inr ⟨[.left v], rfl, by simp, rfl⟩
      · exact .inl hf
    · intro f hf; exact .inl hf
    · rfl
    · simp [hids, List.filterMap_cons, Frame.hid, Fin.hid, dispatched]
  | .sel j (.dispatching d' am'), hk =>
    simp only [dispatched]
    split
    · split
      · apply key
        · simp
        · intro f hf; exact .inl hf
        · intro f hf
          simp only [List.mem_cons] at hf
          rcases hf with rfl | hf
          · exact .inr (.inl ⟨⟨[.right], rfl, by simp⟩, rfl⟩)
          · exact .inl hf
        · rfl
        · simp [hids, List.filterMap_cons, Frame.hid]
      · apply key
        · intro f hf; simp [hf]
        · intro f hf
          simp only [List.mem_cons] at hf
          rcases hf with rfl | hf
          · exact .inr ⟨[.right], rfl, by simp, rfl⟩
          · exact .inl hf
        · intro f hf; exact .inl hf
        · rfl
        · simp [hids, List.filterMap_cons, Frame.hid, Fin.hid]
    · apply key
      · simp
      · intro f hf; exact .inl hf
      · intro f hf
        simp only [List.mem_cons] at hf
        rcases hf with rfl | hf
        · exact .inr (.inl ⟨⟨[], rfl, by simp⟩, rfl⟩)
        · exact .inl hf
      · rfl
      · simp [hids, List.filterMap_cons, Frame.hid]

/-- Steps that record no new outcome and start no new handler keep the invariant. -/
theorem Inv2.of {c c' : Cfg} (h : Inv2 c) (hfin : ∀ f ∈ c.finished, f ∈ c'.finished)
    (hrec : ∀ t, HasRecord c' t → ∀ d am brk, LEv.handled d am brk ∈ t → ∃ t', HasRecord c t' ∧ LEv.handled d am brk ∈ t')
    (hmsg : ∀ f ∈ c'.stack, ∀ d am r, f.kind = .handle d am r → ∃ g ∈ c.stack, ∃ r', g.kind = .handle d am r')
    (hid : ∃ l, (hids c).Perm (l ++ hids c')) (hn : c.next ≤ c'.next) : Inv2 c' := by
  obtain ⟨l, hl⟩ := hid
  refine ⟨?_, ?_, ?_, ?_⟩
  · intro t ht d am brk hm
    obtain ⟨t', h1, h2⟩ := hrec t ht d am brk hm
    exact (h.out t' h1 d am brk h2).mono hfin
  · intro f hf d am r hk
    obtain ⟨g, hg, r', hk'⟩ := hmsg f hf d am r hk
    exact h.msg g hg d am r' hk'
  · intro d hd
    have := h.lt d (hl.mem_iff.mpr (by simp [hd]))
    omega
  · have := hl.nodup_iff.mp h.nodup
    exact (List.nodup_append.mp this).2.1

theorem Inv2.top {k k' : Kind} {tr l : List LEv} {rest : List Frame} {fin : List Fin} {n m : Nat} (h : Inv2 ⟨⟨k, tr⟩ :: rest, fin, n⟩)
    (hl : ∀ d am brk, LEv.handled d am brk ∉ l) (hid : ∀ t, Frame.hid ⟨k', t⟩ = Frame.hid ⟨k, t⟩)
    (hk : ∀ d am r, k' = .handle d am r → ∃ r', k = .handle d am r') (hn : n ≤ m) :
    Inv2 ⟨⟨k', tr ++ l⟩ :: rest, fin, m⟩ := by
  refine h.of (fun f hf => hf) ?_ ?_ ⟨[], ?_⟩ hn
  · rintro t (⟨f, hf, rfl⟩ | ⟨f, hf, rfl⟩) d am brk hm
    · simp only [List.mem_cons] at hf
      rcases hf with rfl | hf
      · simp only [List.mem_append, hl, or_false] at hm
        exact ⟨tr, .inl ⟨⟨k, tr⟩, by simp⟩, hm⟩
      · exact ⟨f.tr, .inl ⟨f, by simp [hf]⟩, hm⟩
    · exact ⟨f.tr, .inr ⟨f, hf, rfl⟩, hm⟩
  · intro f hf d am r hkk
    simp only [List.mem_cons] at hf
    rcases hf with rfl | hf
    · obtain ⟨r', hr⟩ := hk d am r hkk
      exact ⟨⟨k, tr⟩, by simp, r', hr⟩
    · exact ⟨f, by simp [hf], r, hkk⟩
  · have : Frame.hid ⟨k', tr ++ l⟩ = Frame.hid ⟨k, tr⟩ := by rw [hid]; rfl
    simp [hids, List.filterMap_cons, this]

theorem Inv2.pop {k : Kind} {tr l : List LEv} {rest : List Frame} {fin : List Fin} {n : Nat} {r : Fin}
    (h : Inv2 ⟨⟨k, tr⟩ :: rest, fin, n⟩) (hl : ∀ d am brk, LEv.handled d am brk ∉ l) (hr : r.tr = tr ++ l)
    (hid : r.hid = none ∨ r.hid = Frame.hid ⟨k, tr⟩) : Inv2 ⟨rest, r :: fin, n⟩ := by
  refine h.of (fun f hf => by simp at hf ⊢; exact .inr hf) ?_ ?_ ?_ (Nat.le_refl _)
  · rintro t (⟨f, hf, rfl⟩ | ⟨f, hf, rfl⟩) d am brk hm
    · exact ⟨f.tr, .inl ⟨f, by simp at hf ⊢; simp [hf]⟩, hm⟩
    · simp only [List.mem_cons] at hf
      rcases hf with rfl | hf
      · rw [hr] at hm
        simp only [List.mem_append, hl, or_false] at hm
        exact ⟨tr, .inl ⟨⟨k, tr⟩, by simp⟩, hm⟩
      · exact ⟨f.tr, .inr ⟨f, hf, rfl⟩, hm⟩
  · intro f hf d am r hkk
    exact ⟨f, by simp at hf ⊢; simp [hf], r, hkk⟩
  · rcases hid with hid | hid
    · cases hkd : Frame.hid ⟨k, tr⟩ with
      | none => exact ⟨[], by simp [hids, List.filterMap_cons, hid, hkd]⟩
      | some d => exact ⟨[d], by simp [hids, List.filterMap_cons, hid, hkd]⟩
    · refine ⟨[], ?_⟩
      cases hkd : Frame.hid ⟨k, tr⟩ with
      | none => simp [hids, List.filterMap_cons, hid, hkd]
      | some d => simp [hids, List.filterMap_cons, hid, hkd]; exact List.perm_middle.symm

theorem Inv2.push {c : Cfg} {k : Kind} (h : Inv2 c) (hid : Frame.hid ⟨k, []⟩ = none) :
    Inv2 { c with stack := ⟨k, []⟩ :: c.stack } := by
  refine h.of (fun f hf => hf) ?_ ?_ ⟨[], ?_⟩ (Nat.le_refl _)
  · rintro t (⟨f, hf, rfl⟩ | ⟨f, hf, rfl⟩) d am brk hm
    · simp only [List.mem_cons] at hf
      rcases hf with rfl | hf
      · simp at hm
      · exact ⟨f.tr, .inl ⟨f, hf, rfl⟩, hm⟩
    · exact ⟨f.tr, .inr ⟨f, hf, rfl⟩, hm⟩
  · intro f hf d am r hkk
    simp only [List.mem_cons] at hf
    rcases hf with rfl | hf
    · simp only at hkk; subst hkk; simp [Frame.hid] at hid
    · exact ⟨f, hf, r, hkk⟩
  · simp [hids, List.filterMap_cons, hid]

theorem Inv2.drop {c : Cfg} {fs : List Frame} {n : Nat} (h : Inv2 c) (hd : c.stack.drop n = fs) : Inv2 { c with stack := fs } := by
  subst hd
  refine h.of (fun f hf => hf) ?_ ?_ ⟨(c.stack.take n).filterMap Frame.hid, ?_⟩ (Nat.le_refl _)
  · rintro t (⟨f, hf, rfl⟩ | ⟨f, hf, rfl⟩) d am brk hm
    · exact ⟨f.tr, .inl ⟨f, List.mem_of_mem_drop hf, rfl⟩, hm⟩
    · exact ⟨f.tr, .inr ⟨f, hf, rfl⟩, hm⟩
  · intro f hf d am r hkk
    exact ⟨f, List.mem_of_mem_drop hf, r, hkk⟩
  · have : c.stack.filterMap Frame.hid = (c.stack.take n).filterMap Frame.hid ++ (c.stack.drop n).filterMap Frame.hid := by
      rw [← List.filterMap_append, List.take_append_drop]
    simp [hids, this]

theorem dispatch_inv2 {k k' : Kind} {tr : List LEv} {rest : List Frame} {fin : List Fin} {n : Nat} {am : AMsg}
    (h : Inv2 ⟨⟨k', tr⟩ :: rest, fin, n⟩) (hid : ∀ t, Frame.hid ⟨k', t⟩ = none)
    (hk : k.dispatchingOf = some (n, am)) :
    Inv2 (dispatch ⟨⟨k', tr⟩ :: rest, fin, n⟩ k (tr ++ [.recv n am]) rest am) := by
  have hkid : ∀ t, Frame.hid ⟨k, t⟩ = none := by
    intro t
    cases k <;> simp_all [Frame.hid, Kind.dispatchingOf]
  have hkh : ∀ d am r, k = .handle d am r → ∃ r', k' = .handle d am r' := by
    rintro d am r rfl; simp [Kind.dispatchingOf] at hk
  have h1 : Inv2 ⟨⟨k, tr ++ [.recv n am]⟩ :: rest, fin, n + 1⟩ :=
    h.top (by simp) (by intro t; rw [hkid, hid]) hkh (Nat.le_succ _)
  have h2 : Inv2 ⟨⟨k, tr ++ [.recv n am]⟩ :: rest, fin, n⟩ :=
    h.top (by simp) (by intro t; rw [hkid, hid]) hkh (Nat.le_refl _)
  unfold dispatch
  simp only [Nat.add_sub_cancel]
  split
  · have := dispatched_inv2 (brk := true) hk rfl h1 (by simp [Outcome, *])
    have e : dispatched ⟨⟨k', tr⟩ :: rest, fin, n + 1⟩ k (tr ++ [.recv n am]) rest n am true =
        dispatched ⟨⟨k, tr ++ [.recv n am]⟩ :: rest, fin, n + 1⟩ k (tr ++ [.recv n am]) rest n am true := by
      revert hk
      cases k with
      | run st => simp [dispatched]
      | yieldOnce st => simp [dispatched]
      | sel j st => cases st <;> cases j <;> simp [dispatched, Kind.dispatchingOf]
      | _ => simp [Kind.dispatchingOf]
    rw [e]
    exact this
  · rename_i hst
    have hh : hids ⟨⟨.handle n am true, []⟩ :: ⟨k, tr ++ [.recv n am]⟩ :: rest, fin, n + 1⟩ =
        n :: hids ⟨⟨k, tr ++ [.recv n am]⟩ :: rest, fin, n⟩ := by
      simp [hids, List.filterMap_cons, Frame.hid]
    refine ⟨?_, ?_, ?_, ?_⟩
    · rintro t (⟨f, hf, rfl⟩ | ⟨f, hf, rfl⟩) d am' brk hm
      · simp only [List.mem_cons] at hf
        rcases hf with rfl | hf
        · simp at hm
        · exact (h1.out f.tr (.inl ⟨f, by simpa using hf, rfl⟩) _ _ _ hm).mono (fun f hf => hf)
      · exact (h1.out f.tr (.inr ⟨f, hf, rfl⟩) _ _ _ hm).mono (fun f hf => hf)
    · intro f hf d am' r hkk
      simp only [List.mem_cons] at hf
      rcases hf with rfl | hf
      · simp only [Kind.handle.injEq] at hkk
        obtain ⟨-, rfl, -⟩ := hkk
        simpa using hst
      · exact h1.msg f (by simpa using hf) d am' r hkk
    · rw [hh]
      intro d hd
      simp only [List.mem_cons] at hd
      rcases hd with rfl | hd
      · simp
      · have := h2.lt d hd; simp at this ⊢; omega
    · rw [hh, List.nodup_cons]
      refine ⟨fun hm => ?_, h2.nodup⟩
      have := h2.lt n hm; simp at this

theorem inv2_step {c c' : Cfg} {a : Choice} (hi : Inv c) (h : Inv2 c) (hst : step c a = some c') : Inv2 c' := by
  obtain ⟨stack, fin, next⟩ := c
  have hs := hi.stk
  simp only at hs
  unfold step at hst
  split at hst
  · simp at hst
  rename_i k tr rest heq
  simp only at heq
  subst heq
  split at hst
  case h_1 n =>
    split at hst
    · rename_i f fs hd
      split at hst
      · cases hst; exact h.drop hd
      · simp at hst
    · simp at hst
  case h_2 => cases hst; exact h
  case h_3 => cases hst; exact dispatch_inv2 h (fun _ => rfl) rfl
  case h_4 => cases hst; exact h
  case h_5 => cases hst; exact dispatch_inv2 h (fun _ => rfl) rfl
  case h_6 => cases hst; exact h.top (by simp) (fun _ => rfl) (by simp) (Nat.le_refl _)
  case h_7 => cases hst; exact h.top (by simp) (fun _ => rfl) (by simp) (Nat.le_refl _)
  case h_8 =>
    cases hst
    have := h.top (k' := .sel ‹_› .pollFut) (l := []) (by simp) (fun _ => rfl) (by simp) (Nat.le_refl _)
    simpa using this
  case h_9 => cases hst; exact dispatch_inv2 h (fun _ => rfl) rfl
  case h_10 j v => cases hst; exact h.pop (l := [.left v]) (by simp) rfl (.inl rfl)
  case h_11 => cases hst; exact dispatch_inv2 h (fun _ => rfl) rfl
  case h_12 => cases hst; exact h.top (by simp) (fun _ => rfl) (by simp) (Nat.le_refl _)
  case h_13 j v => cases hst; exact h.pop (l := [.futReady v, .left v]) (by simp) rfl (.inl rfl)
  case h_14 =>
    split at hst
    · cases hst; exact h.push rfl
    · simp at hst
  case h_15 =>
    split at hst
    · cases hst; exact h.push rfl
    · simp at hst
  case h_16 =>
    split at hst
    · cases hst; exact h.push rfl
    · simp at hst
  case h_17 =>
    cases hst
    exact h.top (by simp) (fun _ => rfl) (by intro d am r e; cases e; exact ⟨_, rfl⟩) (Nat.le_refl _)
  case h_18 d am running =>
    split at hst
    · rename_i k' tr' rest'
      cases hst
      have hl : Loc (.handle d am running) tr := by cases hs; assumption
      obtain ⟨n, rfl, hn⟩ := hl
      cases hs with
      | cons _ ha hs' =>
        have h' := h.pop (l := []) (r := .handle d am (!running) (List.replicate n .stopSelf)) (by simp) (by simp [Fin.tr]) (.inr rfl)
        have hm := h.msg ⟨.handle d am running, List.replicate n .stopSelf⟩ (by simp) d am running rfl
        have := dispatched_inv2 (brk := !running) ha rfl h' (by
          rw [Outcome, if_neg (by simp [hm])]
          refine ⟨_, List.mem_cons_self, ?_⟩
          cases running <;> simp_all)
        revert this ha
        cases k' with
        | run st => simp [dispatched]
        | yieldOnce st => simp [dispatched]
        | sel j st => cases st <;> cases j <;> simp [dispatched, Above, Kind.dispatchingOf]
        | _ => simp [Above, Kind.dispatchingOf]
    · simp at hst
  case h_19 e =>
    have h' : Inv2 ⟨rest, fin, next⟩ := h.drop (n := 1) rfl
    split at hst
    · cases hst; exact h'.top (by simp) (fun _ => rfl) (by simp) (Nat.le_refl _)
    · cases hst; exact h'.top (by simp) (fun _ => rfl) (by simp) (Nat.le_refl _)
    · simp at hst
  case h_20 v =>
    have h' : Inv2 ⟨rest, fin, next⟩ := h.drop (n := 1) rfl
    split at hst
    · cases hst; exact h'.top (by simp) (fun _ => rfl) (by simp) (Nat.le_refl _)
    · simp at hst
  case h_21 => simp at hst

theorem inv2_reach {c : Cfg} (h : Reach c) : Inv2 c := by
  induction h with
  | init =>
    refine ⟨?_, by simp [init], by simp [init, hids, Frame.hid, List.filterMap_cons], by simp [init, hids, Frame.hid, List.filterMap_cons]⟩
    rintro t (⟨f, hf, rfl⟩ | ⟨f, hf, rfl⟩) d am brk hm
    · simp [init] at hf
      rcases hf with rfl | rfl <;> simp at hm
    · simp [init] at hf
  | step hr hs ih => exact inv2_step (inv_reach hr) ih hs

end Xtra.Loop
