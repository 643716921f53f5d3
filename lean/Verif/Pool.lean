import Verif.PropsStop
import Verif.Free
/-!
# Actors on the channel: `xtra::run`, `select` and `join` composed with the channel (C48, C49)

Models `xtra/src/lib.rs:226-245` (`run`, `yield_once`) as tasks that use the channel of `Verif/Model.lean`, and `xtra/src/lib.rs:301-328,
377-387` (`select`, `join`) called by `started` or by a handler with the mailbox it is given, nested to any depth. Any number of tasks may run on
clones of the mailbox (a pool of actors behind one address); everything else that uses the channel goes on concurrently, including what
the handlers themselves do with it. A task takes part in the interleaving with the micro-steps of its API calls like everybody else.
The bodies of `started`, `handle` and `stopped` are arbitrary: they take any time, and what they do with the channel is among the
concurrent activity. A task may be dropped wherever it can be suspended (cancellation, or a panic of user code unwinding through it).
-/

set_option linter.unusedSimpArgs false

namespace Xtra

/-! ## Specification -/

/-- Where a task that executes `run(mailbox, actor)` is. -/
inductive APh where
  /-- in `actor.started(&mailbox)` (lib.rs:230) -/
  | starting
  /-- about to call `mailbox.next()` (lib.rs:234, 244) -/
  | idle
  /-- suspended, or about to poll: it owns the `ReceiveFuture` `r` (lib.rs:244) -/
  | waiting (r : Nat)
  /-- thread `t` executes the poll of `r` -/
  | polling (r t : Nat)
  /-- `next().await` gave the `Message` `am` -/
  | got (r : Nat) (am : AMsg)
  /-- `dispatch_to(actor).await`: the handler runs -/
  | handling (r : Nat) (am : AMsg)
  /-- the handler returned `v`, or `am` is a shutdown notice: thread `t` executes the rest of the dispatch, which evaluates to `Break`
  (`brk = true`) or `Continue` -/
  | finishing (r : Nat) (am : AMsg) (v : Nat) (brk : Bool) (t : Nat)
  /-- in `actor.stopped()` (lib.rs:236) -/
  | stopping
  /-- the task is being dropped: thread `t` drops the receive future, or the dispatch of `am` -/
  | aborting (r : Nat) (am : Option AMsg) (t : Nat)
  /-- thread `t` drops the mailbox, `run`'s argument -/
  | leaving (t : Nat)
  | done
  deriving DecidableEq, Repr

/-- Which event loop it is. -/
inductive Lvl where
  /-- `run` (lib.rs:226-237) -/
  | run
  /-- `select` (lib.rs:301-328), called by user code, possibly through `join` (lib.rs:377-387): its future has not completed -/
  | sel
  /-- its future has completed: `next_msg.now_or_never()`, and the dispatch of what that gives (lib.rs:312-317) -/
  | last
  /-- the last poll gave nothing: the receive future is dropped -/
  | gave
  /-- `yield_once` (lib.rs:240-245), called by user code -/
  | once
  deriving DecidableEq, Repr

/-- A task executing `run` with the mailbox object `i` (broadcast queue `b`), or an execution of `select` by the user code of a task; then
`i` is the mailbox passed to it: that of the task (in `started`) or that of the context of the running handler (the dispatch future `i`). -/
structure Task where
  i : Nat
  b : Nat
  ph : APh
  /-- the receive futures it has made so far, newest first -/
  futs : List Nat
  /-- its completed dispatches, newest first: receive future, message, `Break`? -/
  hist : List (Nat × AMsg × Bool)
  /-- it was dropped before `run` or `select` returned -/
  aborted : Bool
  lvl : Lvl
  deriving DecidableEq, Repr

/-- One of its receive futures or dispatches was dropped. -/
def Task.cut (T : Task) : Bool := T.aborted || T.lvl == .gave

/-- The receive future, message or dispatch future the task owns. -/
def APh.cur : APh → Option Nat
  | .waiting r => some r
  | .polling r _ => some r
  | .got r _ => some r
  | .handling r _ => some r
  | _ => none

/-- The task still owns its mailbox. -/
def APh.hasBox : APh → Bool
  | .leaving _ => false
  | .done => false
  | _ => true

/-- The action polls or consumes something that only the owner `T` can poll or consume. (A running handler may well use its context:
`stop_self`, `stop_all`, and the mailbox.) -/
def Act.steals (T : Task) : Act → Bool
  | .call (.dropMailbox i) => T.lvl == .run && i == T.i
  | .call (.pollRecv r _) => T.ph.cur == some r
  | .call (.dropRecv r) => T.ph.cur == some r
  | .call (.dropMessage r) => T.ph.cur == some r
  | .call (.dispatch r) => T.ph.cur == some r
  | .call (.finish r _) => T.ph.cur == some r
  | .call (.dropDispatch r) => T.ph.cur == some r
  | _ => false

/-- A step of a task. -/
inductive TStep : Sys → Task → Sys → Task → Prop where
  /-- `started` returned `Ok(())` -/
  | started {s : Sys} {T : Task} : T.ph = .starting → TStep s T s { T with ph := .idle }
  /-- `started` returned `Err(_)`: return, dropping the mailbox (lib.rs:230-232) -/
  | startFails {s s' : Sys} {T : Task} : T.ph = .starting → s.step (.call (.dropMailbox T.i)) = some s' →
      TStep s T s' { T with ph := .leaving s.th.length }
  | next {s s' : Sys} {T : Task} : T.ph = .idle → s.step (.call (.next T.i)) = some s' →
      TStep s T s' { T with ph := .waiting s.w.objs.length, futs := s.w.objs.length :: T.futs }
  | poll {s s' : Sys} {T : Task} {r wk : Nat} : T.ph = .waiting r → s.step (.call (.pollRecv r wk)) = some s' →
      TStep s T s' { T with ph := .polling r s.th.length }
  | pending {s : Sys} {T : Task} {r t b : Nat} {st : Recv} : T.ph = .polling r t → s.th[t]? = some [] → T.lvl ≠ .last →
      s.w.objs[r]? = some (.recv b st) → TStep s T s { T with ph := .waiting r }
  | ready {s : Sys} {T : Task} {r t b : Nat} {am : AMsg} : T.ph = .polling r t → s.th[t]? = some [] →
      s.w.objs[r]? = some (.message b am) → TStep s T s { T with ph := .got r am }
  /-- the handler is called -/
  | dispatch {s s' : Sys} {T : Task} {r : Nat} {am : AMsg} : T.ph = .got r am → am.isStop = false →
      s.step (.call (.dispatch r)) = some s' → TStep s T s' { T with ph := .handling r am }
  /-- the dispatch of a shutdown notice calls no handler -/
  | notice {s s' : Sys} {T : Task} {r : Nat} {am : AMsg} : T.ph = .got r am → am.isStop = true →
      s.step (.call (.dispatch r)) = some s' → TStep s T s' { T with ph := .finishing r am 0 true s.th.length }
  /-- the handler returns `v` -/
  | finish {s s' : Sys} {T : Task} {r v b : Nat} {am am' : AMsg} {running : Bool} : T.ph = .handling r am →
      s.w.objs[r]? = some (.dispatch b am' running) → s.step (.call (.finish r v)) = some s' →
      TStep s T s' { T with ph := .finishing r am v (!running) s.th.length }
  /-- `while let Continue = ..` (lib.rs:234), `while control_flow.is_continue()` (lib.rs:308) -/
  | loop {s : Sys} {T : Task} {r v t : Nat} {am : AMsg} : T.ph = .finishing r am v false t → s.th[t]? = some [] → T.lvl = .run ∨ T.lvl = .sel →
      TStep s T s { T with ph := .idle, hist := (r, am, false) :: T.hist }
  | break {s : Sys} {T : Task} {r v t : Nat} {am : AMsg} : T.ph = .finishing r am v true t → s.th[t]? = some [] → T.lvl = .run →
      TStep s T s { T with ph := .stopping, hist := (r, am, true) :: T.hist }
  /-- `select` returns its unfinished future (lib.rs:327), or after the last message whatever its flow is (lib.rs:314, 317); `yield_once` returns
  after one message (lib.rs:244) -/
  | return {s : Sys} {T : Task} {r v t : Nat} {am : AMsg} {brk : Bool} : T.ph = .finishing r am v brk t → s.th[t]? = some [] →
      (T.lvl = .sel ∧ brk = true) ∨ T.lvl = .last ∨ T.lvl = .once →
      TStep s T s { T with ph := .done, hist := (r, am, brk) :: T.hist }
  /-- `select` is polled, and its future completes: the receive future is polled once more (lib.rs:311-313) -/
  | futReady {s s' : Sys} {T : Task} {r wk : Nat} : T.ph = .waiting r → T.lvl = .sel → s.step (.call (.pollRecv r wk)) = some s' →
      TStep s T s' { T with ph := .polling r s.th.length, lvl := .last }
  /-- that gave nothing: `select` drops the receive future and returns (lib.rs:317) -/
  | giveUp {s s' : Sys} {T : Task} {r t b : Nat} {st : Recv} : T.ph = .polling r t → s.th[t]? = some [] → T.lvl = .last →
      s.w.objs[r]? = some (.recv b st) → s.step (.call (.dropRecv r)) = some s' →
      TStep s T s' { T with ph := .aborting r none s.th.length, lvl := .gave }
  /-- `stopped` returned: return, dropping the mailbox (lib.rs:236) -/
  | stopped {s s' : Sys} {T : Task} : T.ph = .stopping → s.step (.call (.dropMailbox T.i)) = some s' →
      TStep s T s' { T with ph := .leaving s.th.length }
  | left {s : Sys} {T : Task} {t : Nat} : T.ph = .leaving t → s.th[t]? = some [] → TStep s T s { T with ph := .done }
  /-- the task is dropped while `started` or `stopped` is suspended -/
  | abortOuter {s s' : Sys} {T : Task} : T.ph = .starting ∨ T.ph = .stopping → s.step (.call (.dropMailbox T.i)) = some s' →
      TStep s T s' { T with ph := .leaving s.th.length, aborted := true }
  /-- the task is dropped while it waits for a message: first the receive future goes -/
  | abortWaiting {s s' : Sys} {T : Task} {r : Nat} : T.ph = .waiting r → s.step (.call (.dropRecv r)) = some s' →
      TStep s T s' { T with ph := .aborting r none s.th.length, aborted := true }
  /-- the task is dropped while the handler is suspended: first the dispatch future goes -/
  | abortHandling {s s' : Sys} {T : Task} {r : Nat} {am : AMsg} : T.ph = .handling r am → s.step (.call (.dropDispatch r)) = some s' →
      TStep s T s' { T with ph := .aborting r (some am) s.th.length, aborted := true }
  /-- then the mailbox -/
  | aborted {s s' : Sys} {T : Task} {r t : Nat} {am : Option AMsg} : T.ph = .aborting r am t → s.th[t]? = some [] → T.lvl = .run →
      s.step (.call (.dropMailbox T.i)) = some s' → TStep s T s' { T with ph := .leaving s.th.length }
  /-- `select` only borrows its mailbox -/
  | over {s : Sys} {T : Task} {r t : Nat} {am : Option AMsg} : T.ph = .aborting r am t → s.th[t]? = some [] → T.lvl ≠ .run →
      TStep s T s { T with ph := .done }

/-- A channel with tasks. -/
structure PCfg where
  s : Sys
  ts : List Task
  deriving DecidableEq, Repr

/-- `U` is an execution of `select` by the user code of `T`: until it returns or is dropped, `T` cannot go on. -/
def Task.covers (U T : Task) : Bool :=
  U.lvl != .run && U.ph != .done && (T.ph.cur == some U.i || (T.ph == .starting && T.i == U.i))

/-- No `select` called by the user code of `T` is going on. -/
def PCfg.onTop (c : PCfg) (T : Task) : Prop := ∀ U ∈ c.ts, U.covers T = false

/-- The mailbox that the running user code of `T` was given: `started(&mailbox)` (lib.rs:230), or `ctx.mailbox()` (context.rs:38-40). -/
def Task.given (T : Task) : Option Nat :=
  match T.ph with
  | .starting => some T.i
  | .handling r _ => some r
  | _ => none

/-- One step of the whole. `closed`: user code does not make receive futures itself, i.e. messages are received by the tasks only. -/
inductive PStep (closed : Bool) : PCfg → PCfg → Prop where
  /-- anything else that happens on the channel -/
  | other {c : PCfg} {a : Act} {s' : Sys} : (∀ T ∈ c.ts, a.steals T = false) → (closed = true → ∀ i, a ≠ .call (.next i)) →
      c.s.step a = some s' → PStep closed c { c with s := s' }
  /-- a mailbox is given to a new task -/
  | spawn {c : PCfg} {i b : Nat} : c.s.w.objs[i]? = some (.mailbox b) → (∀ T ∈ c.ts, T.i ≠ i) →
      PStep closed c { c with ts := c.ts ++ [⟨i, b, .starting, [], [], false, .run⟩] }
  /-- user code calls `select` or `yield_once` -/
  | nest {c : PCfg} {k i : Nat} {T : Task} {l : Lvl} : c.ts[k]? = some T → c.onTop T → T.given = some i → l = .sel ∨ l = .once →
      PStep closed c { c with ts := c.ts ++ [⟨i, T.b, .idle, [], [], false, l⟩] }
  | task {c : PCfg} {k : Nat} {T T' : Task} {s' : Sys} : c.ts[k]? = some T → c.onTop T → TStep c.s T s' T' →
      PStep closed c ⟨s', c.ts.set k T'⟩

/-- Everything that can happen after `Mailbox::bounded`/`unbounded`. -/
inductive PRun (cap : Option Nat) (closed : Bool) : PCfg → Prop where
  | new : PRun cap closed ⟨init cap, []⟩
  | step {c c' : PCfg} : PRun cap closed c → PStep closed c c' → PRun cap closed c'

/-- The task is between receiving and having handled `am` on receive future `r`. -/
def APh.busyWith (r : Nat) (am : AMsg) : APh → Prop
  | .polling r' _ => r' = r
  | .got r' am' => r' = r ∧ am' = am
  | .handling r' am' => r' = r ∧ am' = am
  | .finishing r' am' _ _ _ => r' = r ∧ am' = am
  | _ => False

/-! ## Proofs -/

theorem TStep.reach {cap : Option Nat} {s s' : Sys} {T T' : Task} (h : TStep s T s' T') (hr : Reachable cap s) : Reachable cap s' := by
  cases h <;> first | exact hr | exact .step hr (by assumption)

theorem PRun.reachable {cap : Option Nat} {closed : Bool} {c : PCfg} (h : PRun cap closed c) : Reachable cap c.s := by
  induction h with
  | new => exact .init
  | step _ hs ih =>
    cases hs with
    | other _ _ hs => exact .step ih hs
    | spawn _ _ => exact ih
    | nest _ _ _ _ => exact ih
    | task _ _ ht => exact ht.reach ih

/-- A thread after a step. -/
theorem th_evo {s s' : Sys} {a : Act} {t : Nat} {x : List Micro} (hs : s.step a = some s') (ht : s.th[t]? = some x) :
    s'.th[t]? = some x ∨ ∃ m rest w' ms, x = m :: rest ∧ a = .exec t ∧ ExecR s.w m w' ms ∧ s'.w = w' ∧ s'.th[t]? = some (ms ++ rest) := by
  have hl := (List.getElem?_eq_some_iff.mp ht).1
  rcases step_rel hs with ⟨c, w', ms, rfl, hc, rfl⟩ | ⟨t', m, rest, w', ms, rfl, ht', he, rfl⟩
  · left; simp [List.getElem?_append_left hl, ht]
  · by_cases hte : t' = t
    · subst hte
      rw [ht] at ht'; simp at ht'; subst ht'
      exact .inr ⟨m, rest, w', ms, rfl, rfl, he, rfl, by simp [hl]⟩
    · left; simp [List.getElem?_set_ne hte, ht]

/-- An owned object after a step by somebody else. -/
theorem obj_frame {cap : Option Nat} {s s' : Sys} {a : Act} {T : Task} {r : Nat} {o : Obj} (h : Reachable cap s)
    (hs : s.step a = some s') (ha : a.steals T = false) (hr : T.ph.cur = some r ∨ r = T.i) (ho : s.w.objs[r]? = some o)
    (hb : o.isMailboxRef = true) (hi : ∀ b, o = .mailbox b → T.lvl = .run ∧ r = T.i) (hc : (∀ b, o ≠ .mailbox b) → T.ph.cur = some r) :
    s'.w.objs[r]? = some o ∨ ∃ b am x y, o = .dispatch b am x ∧ s'.w.objs[r]? = some (.dispatch b am y) := by
  cases a with
  | exec t =>
    exact .inl (exec_keeps_obj h hs ho (by rintro rfl; simp [Obj.isMailboxRef] at hb))
  | call c =>
    simp only [Sys.step] at hs
    split at hs <;> simp at hs
    rename_i w' ms hcl
    subst hs
    have hcl := call_rel hcl
    by_cases htg : c.target = some r
    · have hl := (List.getElem?_eq_some_iff.mp ho).1
      cases hcl <;> simp only [Call.target, Option.some.injEq, reduceCtorEq] at htg <;> subst htg <;> simp only [Act.steals] at ha <;>
        (try (rename_i hx; rw [ho] at hx; simp at hx; subst hx; simp [Obj.isMailboxRef] at hb; done)) <;>
        (try (rename_i hx _; rw [ho] at hx; simp at hx; subst hx; simp [Obj.isMailboxRef] at hb; done)) <;>
        (try (rename_i hx _ _; rw [ho] at hx; simp at hx; subst hx; simp [Obj.isMailboxRef] at hb; done)) <;>
        (try (left; simp [World.addObj, List.getElem?_append_left hl, ho]; done))
      case dropMailbox b hx =>
        rw [ho] at hx; simp at hx; subst hx
        have := hi _ rfl; simp [this] at ha
      case stopSelf b am rn hx =>
        rw [ho] at hx; simp at hx; subst hx
        right; exact ⟨b, am, rn, false, rfl, by simp [World.setObj, hl]⟩
      all_goals
        exfalso
        have hq := hc (by intro b hb'; subst hb'; simp_all)
        simp [hq] at ha
    · exact .inl (callR_keeps hcl htg ho)

/-- Only the step that yields a message logs it as received, and turns the receive future into it. -/
theorem execR_recvEv {w w' : World} {mc : Micro} {ms : List Micro} (h : ExecR w mc w' ms) (rg : RegWs w.ws w.wOne w.wAll)
    (hwf : WF w mc) {r b : Nat} {am : AMsg} (he : Ev.recv r b am ∈ w'.log) :
    Ev.recv r b am ∈ w.log ∨ (w.objs[r]? = some .busy ∧ w'.objs[r]? = some (.message b am)) := by
  cases h
  case shutTx =>
    rcases shutTx_mem he with h | ⟨j, h⟩
    · exact .inl h
    · simp at h
  case recv_all r0 b0 wk m w1 hp _ _ =>
    simp only [World.yieldMsg, World.ev] at he
    rcases List.mem_cons.mp he with h | h
    · simp at h; obtain ⟨rfl, rfl, rfl⟩ := h
      have hl := (List.getElem?_eq_some_iff.mp hwf).1
      exact .inr ⟨hwf, by simp [World.popBroadcast_objs hp, hl]⟩
    · rcases popBroadcast_log rg hp with h' | ⟨m', ts, h'⟩ <;> rw [show _ = _ from h'] at h
      · exact .inl h
      · simp at h; exact .inl h
  case recvBcast_some r0 b0 c wk m w1 hp =>
    simp only [World.yieldMsg, World.ev] at he
    rcases List.mem_cons.mp he with h | h
    · simp at h; obtain ⟨rfl, rfl, rfl⟩ := h
      have hl := (List.getElem?_eq_some_iff.mp hwf.1).1
      exact .inr ⟨hwf.1, by simp [World.popBroadcast_objs hp, hl]⟩
    · rcases popBroadcast_log rg hp with h' | ⟨m', ts, h'⟩ <;> rw [show _ = _ from h'] at h
      · exact .inl h
      · simp at h; exact .inl h
  case recv_one r0 b0 wk m w1 hp _ _ =>
    simp only [World.yieldMsg, World.ev] at he
    rcases List.mem_cons.mp he with h | h
    · simp at h; obtain ⟨rfl, rfl, rfl⟩ := h
      have hl := (List.getElem?_eq_some_iff.mp hwf).1
      exact .inr ⟨hwf, by simp [World.popUnicast_objs hp, hl]⟩
    · rw [show _ = _ from World.popUnicast_log hp] at h; exact .inl h
  case recv_shutdown r0 b0 wk _ _ _ =>
    simp only [World.yieldMsg, World.ev] at he
    rcases List.mem_cons.mp he with h | h
    · simp at h; obtain ⟨rfl, rfl, rfl⟩ := h
      have hl := (List.getElem?_eq_some_iff.mp hwf).1
      exact .inr ⟨hwf, by simp [hl]⟩
    · exact .inl h
  case recvPoll_one hc =>
    simp only [World.yieldMsg, World.ev] at he
    rcases List.mem_cons.mp he with h | h
    · simp at h; obtain ⟨rfl, rfl, rfl⟩ := h
      have hl := (List.getElem?_eq_some_iff.mp hwf.1).1
      exact .inr ⟨hwf.1, by simp [hl]⟩
    · exact .inl h
  case recvPoll_shutdown hc =>
    simp only [World.yieldMsg, World.ev] at he
    rcases List.mem_cons.mp he with h | h
    · simp at h; obtain ⟨rfl, rfl, rfl⟩ := h
      have hl := (List.getElem?_eq_some_iff.mp hwf.1).1
      exact .inr ⟨hwf.1, by simp [hl]⟩
    · exact .inl h
  all_goals first
    | exact .inl he
    | (simp at he; exact .inl he)
    | exact .inl (lateLog_recv he)
    | (simp at he; exact .inl (lateLog_recv he))
    | (simp [World.sendBroadcast] at he; exact .inl he)
    | (simp [World.sendBroadcast] at he; exact .inl (lateLog_recv he))
    | (rw [World.decBq_log] at he; exact .inl he)

theorem callR_recvEv {w w' : World} {c : Call} {ms : List Micro} (h : CallR w c w' ms) {r b : Nat} {am : AMsg}
    (he : Ev.recv r b am ∈ w'.log) : Ev.recv r b am ∈ w.log := by
  cases h <;> first
    | exact he
    | (simp at he; exact he)

theorem step_recvEv {cap : Option Nat} {s s' : Sys} {a : Act} (hr : Reachable cap s) (hs : s.step a = some s') {r b : Nat} {am : AMsg}
    (he : Ev.recv r b am ∈ s'.w.log) :
    Ev.recv r b am ∈ s.w.log ∨ (s.w.objs[r]? = some .busy ∧ s'.w.objs[r]? = some (.message b am)) := by
  rcases step_rel hs with ⟨c, w', ms, rfl, hc, rfl⟩ | ⟨t, m, rest, w', ms, rfl, ht, hx, rfl⟩
  · exact .inl (callR_recvEv hc he)
  · exact execR_recvEv hx (regWs_reachable hr) (wf_reachable hr ht) he

/-- What became of a receive future that has yielded `am`. -/
def YieldedOk (am : AMsg) (b : Nat) (o : Option Obj) : Prop :=
  o = some (.message b am) ∨ (∃ x, o = some (.dispatch b am x)) ∨ o = some .gone

theorem yielded_reachable {cap : Option Nat} {s : Sys} (h : Reachable cap s) {r b : Nat} {am : AMsg}
    (he : Ev.recv r b am ∈ s.w.log) : YieldedOk am b s.w.objs[r]? := by
  induction h with
  | init => simp [init] at he
  | @step s s' a hr hs ih =>
    rcases step_recvEv hr hs he with h | ⟨-, h⟩
    · have := ih h
      cases hx : s.w.objs[r]? with
      | none => simp [YieldedOk, hx] at this
      | some x =>
        have d := dispatch_step hr hs hx
        rcases this with h | ⟨y, h⟩ | h <;> rw [hx] at h <;> simp at h <;> subst h
        · rcases (d.2.1 _ _ rfl).2 with h | h | h
          · exact .inl h
          · exact .inr (.inl ⟨_, h⟩)
          · exact .inr (.inr h)
        · rcases d.2.2 _ _ _ rfl with h | ⟨-, h⟩ | ⟨-, h⟩
          · exact .inr (.inr h)
          · exact .inr (.inl ⟨_, h⟩)
          · exact .inr (.inl ⟨_, h⟩)
        · exact .inr (.inr (d.1 rfl))
    · exact .inl h

/-! ### one task -/

def PollInv (s : Sys) (b r t : Nat) : Prop :=
  ∃ x, s.th[t]? = some x ∧ ((∃ wk, x = [.recvTry r b wk]) ∨ (∃ c wk, x = [.recvPoll r b c wk]) ∨ (∃ c wk, x = [.recvBcast r b c wk]) ∨
    (x = [] ∧ ((∃ c, s.w.objs[r]? = some (.recv b (.waiting c))) ∨
      ∃ am, s.w.objs[r]? = some (.message b am) ∧ Ev.recv r b am ∈ s.w.log)))

def FinDone (L : List Ev) (b : Nat) (am : AMsg) (v : Nat) (brk : Bool) : Prop :=
  Ev.flow b am brk ∈ L ∧ ∀ m, am = .one m → Ev.handled m.id v ∈ L

def PhInv (s : Sys) (b : Nat) : APh → Prop
  | .waiting r => ∃ st, s.w.objs[r]? = some (.recv b st)
  | .polling r t => PollInv s b r t
  | .got r am => s.w.objs[r]? = some (.message b am) ∧ Ev.recv r b am ∈ s.w.log
  | .handling r am => (∃ x, s.w.objs[r]? = some (.dispatch b am x)) ∧ Ev.recv r b am ∈ s.w.log ∧ am.isStop = false
  | .finishing r am v brk t => Ev.recv r b am ∈ s.w.log ∧ (am.isStop = true → brk = true) ∧
      ∃ x, s.th[t]? = some x ∧ ((∃ pre, x = pre ++ [.respond b am v brk]) ∨ FinDone s.w.log b am v brk)
  | .aborting _ am t => ∃ x, s.th[t]? = some x ∧
      ∀ m, am = some (.one m) → (∃ pre, x = pre ++ [.discard (.one m)]) ∨ Ev.discarded m.id ∈ s.w.log
  | .leaving t => ∃ x, s.th[t]? = some x
  | _ => True

structure TInv (s : Sys) (T : Task) : Prop where
  box : T.lvl = .run → T.ph.hasBox = true → s.w.objs[T.i]? = some (.mailbox T.b)
  gone : T.lvl = .run → T.ph.hasBox = false → s.w.objs[T.i]? = some .gone
  ph : PhInv s T.b T.ph
  cur : ∀ r, T.ph.cur = some r → T.futs.head? = some r
  futs : ∀ r ∈ T.futs, T.ph.cur = some r ∨ s.w.objs[r]? = some .gone
  seen : ∀ r ∈ T.futs, T.ph.cur ≠ some r → ∀ b am, Ev.recv r b am ∈ s.w.log →
    (∃ brk, (r, am, brk) ∈ T.hist) ∨ (∃ v brk t, T.ph = .finishing r am v brk t) ∨ (T.aborted = true ∧ T.futs.head? = some r)
  hist : ∀ r am brk, (r, am, brk) ∈ T.hist → r ∈ T.futs ∧ Ev.recv r T.b am ∈ s.w.log ∧ (am.isStop = true → brk = true) ∧
    ∃ v, FinDone s.w.log T.b am v brk

theorem FinDone.mono {L L' : List Ev} {b v : Nat} {am : AMsg} {brk : Bool} (h : FinDone L b am v brk) (hs : L <:+ L') : FinDone L' b am v brk :=
  ⟨hs.subset h.1, fun m hm => hs.subset (h.2 m hm)⟩

/-- A thread that will execute `z` last: after a step it still will, or it just did. -/
theorem th_last {s s' : Sys} {a : Act} {t : Nat} {pre : List Micro} {z : Micro} (hs : s.step a = some s')
    (ht : s.th[t]? = some (pre ++ [z])) :
    (∃ pre', s'.th[t]? = some (pre' ++ [z])) ∨ ∃ w' ms, ExecR s.w z w' ms ∧ s'.w = w' ∧ s'.th[t]? = some ms := by
  rcases th_evo hs ht with h | ⟨m, rest, w', ms, hx, -, he, hw, h⟩
  · exact .inl ⟨pre, h⟩
  · cases pre with
    | nil =>
      simp at hx; obtain ⟨rfl, rfl⟩ := hx
      exact .inr ⟨w', ms, he, hw, by simpa using h⟩
    | cons y pre =>
      simp at hx; obtain ⟨rfl, rfl⟩ := hx
      exact .inl ⟨ms ++ pre, by simpa using h⟩

theorem th_some {s s' : Sys} {a : Act} {t : Nat} (hs : s.step a = some s') (ht : ∃ x, s.th[t]? = some x) : ∃ x, s'.th[t]? = some x := by
  obtain ⟨x, ht⟩ := ht
  rcases th_evo hs ht with h | ⟨m, rest, w', ms, -, -, -, -, h⟩
  · exact ⟨_, h⟩
  · exact ⟨_, h⟩

/-- One step of the poll of receive future `r`. -/
theorem execR_poll {w w' : World} {mc : Micro} {ms : List Micro} {b r : Nat} (he : ExecR w mc w' ms) (hwf : WF w mc) (np : Ev.panic ∉ w'.log)
    (hm : (∃ wk, mc = .recvTry r b wk) ∨ (∃ c wk, mc = .recvPoll r b c wk) ∨ (∃ c wk, mc = .recvBcast r b c wk)) :
    (∃ wk, ms = [.recvTry r b wk]) ∨ (∃ c wk, ms = [.recvPoll r b c wk]) ∨ (∃ c wk, ms = [.recvBcast r b c wk]) ∨
    (ms = [] ∧ ((∃ c, w'.objs[r]? = some (.recv b (.waiting c))) ∨
      ∃ am, w'.objs[r]? = some (.message b am) ∧ Ev.recv r b am ∈ w'.log)) := by
  rcases hm with ⟨wk, rfl⟩ | ⟨c, wk, rfl⟩ | ⟨c, wk, rfl⟩
  · have hl := (List.getElem?_eq_some_iff.mp hwf).1
    cases he with
    | recv_all hp _ _ => exact .inr (.inr (.inr ⟨rfl, .inr ⟨_, by simp [World.popBroadcast_objs hp, hl]; rfl, by simp⟩⟩))
    | recv_one hp _ _ => exact .inr (.inr (.inr ⟨rfl, .inr ⟨_, by simp [World.popUnicast_objs hp, hl]; rfl, by simp⟩⟩))
    | recv_shutdown _ _ _ => exact .inr (.inr (.inr ⟨rfl, .inr ⟨.shutdown, by simp [hl], by simp⟩⟩))
    | recv_wait _ _ _ => exact .inr (.inl ⟨_, _, rfl⟩)
  · have hl := (List.getElem?_eq_some_iff.mp hwf.1).1
    cases he with
    | recvPoll_empty hc => exact .inr (.inr (.inr ⟨rfl, .inl ⟨c, by simp [hl]⟩⟩))
    | recvPoll_one hc => exact .inr (.inr (.inr ⟨rfl, .inr ⟨_, by simp [hl]; rfl, by simp⟩⟩))
    | recvPoll_shutdown hc => exact .inr (.inr (.inr ⟨rfl, .inr ⟨_, by simp [hl]; rfl, by simp⟩⟩))
    | recvPoll_bcast hc => exact .inr (.inr (.inl ⟨_, _, rfl⟩))
    | recvPoll_panic hc => simp at np
  · have hl := (List.getElem?_eq_some_iff.mp hwf.1).1
    cases he with
    | recvBcast_some hp => exact .inr (.inr (.inr ⟨rfl, .inr ⟨_, by simp [World.popBroadcast_objs hp, hl]; rfl, by simp⟩⟩))
    | recvBcast_none hp => exact .inl ⟨_, rfl⟩

theorem PollInv.frame {cap : Option Nat} {s s' : Sys} {a : Act} {T : Task} {b r t : Nat} (hr : Reachable cap s) (hs : s.step a = some s')
    (ha : a.steals T = false) (hc : T.ph.cur = some r) (h : PollInv s b r t) : PollInv s' b r t := by
  obtain ⟨x, ht, hx⟩ := h
  have np := C31_no_panic (.step hr hs)
  rcases th_evo hs ht with h | ⟨m, rest, w', ms, rfl, -, he, hw, h⟩
  · refine ⟨x, h, ?_⟩
    rcases hx with h | h | h | ⟨h, h2⟩
    · exact .inl h
    · exact .inr (.inl h)
    · exact .inr (.inr (.inl h))
    · refine .inr (.inr (.inr ⟨h, ?_⟩))
      rcases h2 with ⟨c, h2⟩ | ⟨am, h2, h3⟩
      · rcases obj_frame hr hs ha (.inl hc) h2 rfl (by simp) (fun _ => hc) with h | ⟨_, _, _, _, h, -⟩
        · exact .inl ⟨c, h⟩
        · simp at h
      · rcases obj_frame hr hs ha (.inl hc) h2 rfl (by simp) (fun _ => hc) with h | ⟨_, _, _, _, h, -⟩
        · exact .inr ⟨am, h, (step_suffix hr hs).subset h3⟩
        · simp at h
  · have hwf := wf_reachable hr ht
    refine ⟨_, h, ?_⟩
    have hm : rest = [] ∧ ((∃ wk, m = .recvTry r b wk) ∨ (∃ c wk, m = .recvPoll r b c wk) ∨ (∃ c wk, m = .recvBcast r b c wk)) := by
      rcases hx with ⟨wk, hx⟩ | ⟨c, wk, hx⟩ | ⟨c, wk, hx⟩ | ⟨hx, -⟩ <;> simp at hx <;> obtain ⟨rfl, rfl⟩ := hx
      · exact ⟨rfl, .inl ⟨_, rfl⟩⟩
      · exact ⟨rfl, .inr (.inl ⟨_, _, rfl⟩)⟩
      · exact ⟨rfl, .inr (.inr ⟨_, _, rfl⟩)⟩
    obtain ⟨rfl, hm⟩ := hm
    subst hw
    have := execR_poll he hwf np hm
    simpa using this

theorem obj_gone {cap : Option Nat} {s s' : Sys} {a : Act} (hr : Reachable cap s) (hs : s.step a = some s') {k : Nat}
    (h : s.w.objs[k]? = some .gone) : s'.w.objs[k]? = some .gone := (dispatch_step hr hs h).1 rfl

theorem PhInv.frame {cap : Option Nat} {s s' : Sys} {a : Act} {T : Task} (hr : Reachable cap s) (hs : s.step a = some s')
    (ha : a.steals T = false) (h : PhInv s T.b T.ph) : PhInv s' T.b T.ph := by
  have sx := (step_suffix hr hs).subset
  generalize hph : T.ph = p at h ⊢
  cases p with
  | waiting r =>
    obtain ⟨st, h⟩ := h
    rcases obj_frame hr hs ha (.inl (by rw [hph]; rfl)) h rfl (by simp) (fun _ => by rw [hph]; rfl) with h | ⟨_, _, _, _, h, -⟩
    · exact ⟨st, h⟩
    · simp at h
  | polling r t => exact PollInv.frame hr hs ha (by rw [hph]; rfl) h
  | got r am =>
    obtain ⟨h, h2⟩ := h
    rcases obj_frame hr hs ha (.inl (by rw [hph]; rfl)) h rfl (by simp) (fun _ => by rw [hph]; rfl) with h | ⟨_, _, _, _, h, -⟩
    · exact ⟨h, sx h2⟩
    · simp at h
  | handling r am =>
    obtain ⟨⟨x, h⟩, h2, h3⟩ := h
    rcases obj_frame hr hs ha (.inl (by rw [hph]; rfl)) h rfl (by simp) (fun _ => by rw [hph]; rfl) with h | ⟨_, _, _, y, he, h⟩
    · exact ⟨⟨x, h⟩, sx h2, h3⟩
    · simp at he; obtain ⟨rfl, rfl, -⟩ := he
      exact ⟨⟨y, h⟩, sx h2, h3⟩
  | finishing r am v brk t =>
    obtain ⟨h1, h2, x, h3, h4⟩ := h
    refine ⟨sx h1, h2, ?_⟩
    rcases h4 with ⟨pre, rfl⟩ | h4
    · rcases th_last hs h3 with ⟨pre', h⟩ | ⟨w', ms, he, hw, h⟩
      · exact ⟨_, h, .inl ⟨pre', rfl⟩⟩
      · refine ⟨_, h, .inr ?_⟩
        rw [hw]
        cases he with
        | respond_one => exact ⟨by simp, fun m hm => by simp at hm; subst hm; simp⟩
        | respond_other hn => exact ⟨by simp, fun m hm => absurd hm (hn m)⟩
    · obtain ⟨y, hy⟩ := th_some hs ⟨x, h3⟩
      exact ⟨y, hy, .inr (h4.mono (step_suffix hr hs))⟩
  | aborting r am t =>
    obtain ⟨x, h3, h4⟩ := h
    cases am with
    | some am =>
      cases am with
      | one m =>
        rcases h4 m rfl with ⟨pre, rfl⟩ | h4
        · rcases th_last hs h3 with ⟨pre', h⟩ | ⟨w', ms, he, hw, h⟩
          · refine ⟨_, h, fun m' hm' => .inl ⟨pre', ?_⟩⟩
            simp at hm'; subst hm'; rfl
          · refine ⟨_, h, fun m' hm' => .inr ?_⟩
            simp at hm'; subst hm'
            rw [hw]
            cases he with
            | discard_one => simp
            | discard_other hn => exact absurd rfl (hn m)
        · obtain ⟨y, hy⟩ := th_some hs ⟨x, h3⟩
          refine ⟨y, hy, fun m' hm' => .inr ?_⟩
          simp at hm'; subst hm'; exact sx h4
      | all m => obtain ⟨y, hy⟩ := th_some hs ⟨x, h3⟩; exact ⟨y, hy, by simp⟩
      | shutdown => obtain ⟨y, hy⟩ := th_some hs ⟨x, h3⟩; exact ⟨y, hy, by simp⟩
    | none => obtain ⟨y, hy⟩ := th_some hs ⟨x, h3⟩; exact ⟨y, hy, by simp⟩
  | leaving t => exact th_some hs h
  | starting => trivial
  | idle => trivial
  | stopping => trivial
  | done => trivial

/-- Steps of others do not disturb a task. -/
theorem TInv.frame {cap : Option Nat} {s s' : Sys} {a : Act} {T : Task} (hr : Reachable cap s) (hs : s.step a = some s')
    (ha : a.steals T = false) (h : TInv s T) : TInv s' T := by
  have sx := (step_suffix hr hs).subset
  refine ⟨fun hl hb => ?_, fun hl hb => obj_gone hr hs (h.gone hl hb), h.ph.frame hr hs ha, h.cur, fun r hf => ?_, fun r hf hc b am he => ?_,
    fun r am brk hm => ?_⟩
  · have := h.box hl hb
    rcases obj_frame hr hs ha (.inr rfl) this rfl (fun _ _ => ⟨hl, rfl⟩) (fun hn => absurd rfl (hn T.b)) with h | ⟨_, _, _, _, h, -⟩
    · exact h
    · simp at h
  · rcases h.futs r hf with h | h
    · exact .inl h
    · exact .inr (obj_gone hr hs h)
  · rcases step_recvEv hr hs he with h1 | ⟨h1, -⟩
    · exact h.seen r hf hc b am h1
    · rcases h.futs r hf with h2 | h2
      · exact absurd h2 hc
      · rw [h1] at h2; simp at h2
  · obtain ⟨h1, h2, h3, v, h4⟩ := h.hist r am brk hm
    exact ⟨h1, sx h2, h3, v, h4.mono (step_suffix hr hs)⟩

/-- What a call does, when it is one of the task's. -/
theorem step_call {s s' : Sys} {c : Call} (hs : s.step (.call c) = some s') :
    ∃ w' ms, CallR s.w c w' ms ∧ s' = ⟨w', s.th ++ [ms]⟩ := by
  rcases step_rel hs with ⟨c', w', ms, h, hc, hs⟩ | ⟨t, m, rest, w', ms, h, -⟩
  · simp at h; subst h; exact ⟨w', ms, hc, hs⟩
  · simp at h

theorem th_new {th : List (List Micro)} {ms : List Micro} : (th ++ [ms])[th.length]? = some ms := by simp

/-- The task drops its mailbox and is left with nothing. -/
theorem TInv.leave {cap : Option Nat} {s s' : Sys} {T : Task} (hr : Reachable cap s) (h : TInv s T) (hs : s.step (.call (.dropMailbox T.i)) = some s')
    (hc : T.ph.cur = none) (hf : ∀ r am v brk t, T.ph ≠ .finishing r am v brk t) {x : Bool} (hx : T.aborted = true → x = true) :
    TInv s' { T with ph := .leaving s.th.length, aborted := x } := by
  have sx := (step_suffix hr hs).subset
  have hg : ∀ r ∈ T.futs, s.w.objs[r]? = some .gone := by
    intro r hr
    rcases h.futs r hr with h | h
    · rw [hc] at h; simp at h
    · exact h
  refine ⟨by simp [APh.hasBox], fun _ _ => ?_, ?_, by simp [APh.cur], fun r hm => .inr (obj_gone hr hs (hg r hm)), fun r hm _ b am he => ?_,
    fun r am brk hm => ?_⟩
  · obtain ⟨w', ms, hcl, rfl⟩ := step_call hs
    cases hcl with
    | dropMailbox ho =>
      have := (List.getElem?_eq_some_iff.mp ho).1
      simp [World.setObj, this]
  · obtain ⟨w', ms, hcl, rfl⟩ := step_call hs
    exact ⟨ms, by simp⟩
  · rcases step_recvEv hr hs he with h1 | ⟨h1, -⟩
    · rcases h.seen r hm (by rw [hc]; simp) b am h1 with h2 | ⟨_, _, _, h2⟩ | ⟨h2, h3⟩
      · exact .inl h2
      · exact absurd h2 (hf _ _ _ _ _)
      · exact .inr (.inr ⟨hx h2, h3⟩)
    · rw [hg r hm] at h1; simp at h1
  · obtain ⟨h1, h2, h3, v, h4⟩ := h.hist r am brk hm
    exact ⟨h1, sx h2, h3, v, h4.mono (step_suffix hr hs)⟩

/-- The task goes on without a new action of the channel. -/
theorem TInv.move {s : Sys} {T : Task} (h : TInv s T) {p : APh} (hb : p.hasBox = T.ph.hasBox) (hc : p.cur = T.ph.cur)
    (hf : ∀ r am v brk t, T.ph ≠ .finishing r am v brk t) (hp : PhInv s T.b p) : TInv s { T with ph := p } := by
  refine ⟨fun hl hx => h.box hl (by rw [← hb]; exact hx), fun hl hx => h.gone hl (by rw [← hb]; exact hx), hp, by rw [hc]; exact h.cur, by rw [hc]; exact h.futs,
    fun r hm hcr b am he => ?_, h.hist⟩
  rw [hc] at hcr
  rcases h.seen r hm hcr b am he with h2 | ⟨_, _, _, h2⟩ | h2
  · exact .inl h2
  · exact absurd h2 (hf _ _ _ _ _)
  · exact .inr (.inr h2)

/-- The task acts on its receive future, message or dispatch future and still owns it. -/
theorem TInv.act {cap : Option Nat} {s s' : Sys} {T : Task} {c : Call} {p : APh} {r : Nat} (hr : Reachable cap s) (h : TInv s T)
    (hs : s.step (.call c) = some s') (ht : c.target = some r) (hc : T.ph.cur = some r) (hpc : p.cur = some r) (hb : p.hasBox = true)
    (hb' : T.ph.hasBox = true) (hi : T.lvl = .run → r ≠ T.i) (hp : PhInv s' T.b p) {x : Lvl} (hx : x = T.lvl ∨ T.lvl = .sel ∧ x = .last) :
    TInv s' { T with ph := p, lvl := x } := by
  have hxr : x = .run → T.lvl = .run := by rcases hx with rfl | ⟨h, rfl⟩ <;> simp
  have sx := (step_suffix hr hs).subset
  obtain ⟨w', ms, hcl, rfl⟩ := step_call hs
  refine ⟨fun hl _ => callR_keeps hcl (by rw [ht]; exact fun e => hi (hxr hl) (Option.some.inj e)) (h.box (hxr hl) hb'), by simp [hb], hp, fun r' hx => ?_, fun r' hm => ?_,
    fun r' hm hcr b am he => ?_, fun r am brk hm => ?_⟩
  · rw [hpc] at hx; rw [← hx]; exact h.cur _ hc
  · rw [hpc, ← hc]
    rcases h.futs r' hm with h | h
    · exact .inl h
    · exact .inr (obj_gone hr hs h)
  · rw [hpc, ← hc] at hcr
    have hg := h.futs r' hm
    rcases step_recvEv hr hs he with h1 | ⟨h1, -⟩
    · rcases h.seen r' hm hcr b am h1 with h2 | ⟨_, _, _, h2⟩ | h2
      · exact .inl h2
      · rw [h2] at hc; simp [APh.cur] at hc
      · exact .inr (.inr h2)
    · rcases hg with hg | hg
      · exact absurd hg hcr
      · rw [hg] at h1; simp at h1
  · obtain ⟨h1, h2, h3, v, h4⟩ := h.hist r am brk hm
    exact ⟨h1, sx h2, h3, v, h4.mono (step_suffix hr hs)⟩

/-- The task gives up its message or dispatch future. -/
theorem TInv.give {cap : Option Nat} {s s' : Sys} {T : Task} {c : Call} {p : APh} {r : Nat} (hr : Reachable cap s) (h : TInv s T)
    (hs : s.step (.call c) = some s') (ht : c.target = some r) (hc : T.ph.cur = some r) (hpc : p.cur = none) (hb : p.hasBox = true)
    (hb' : T.ph.hasBox = true) (hi : T.lvl = .run → r ≠ T.i) (hp : PhInv s' T.b p) (hg : s'.w.objs[r]? = some .gone) {x : Bool} {y : Lvl}
    (hx : T.aborted = true → x = true) (hy : y = T.lvl ∨ T.lvl = .last ∧ y = .gave)
    (hseen : x = true ∨ ∀ b am, Ev.recv r b am ∈ s.w.log → ∃ v brk t, p = .finishing r am v brk t)
    (hnb : s.w.objs[r]? ≠ some .busy) : TInv s' { T with ph := p, aborted := x, lvl := y } := by
  have hxr : y = .run → T.lvl = .run := by rcases hy with rfl | ⟨h, rfl⟩ <;> simp
  have sx := (step_suffix hr hs).subset
  obtain ⟨w', ms, hcl, rfl⟩ := step_call hs
  refine ⟨fun hl _ => callR_keeps hcl (by rw [ht]; exact fun e => hi (hxr hl) (Option.some.inj e)) (h.box (hxr hl) hb'), by simp [hb], hp, by simp [hpc], fun r' hm => ?_,
    fun r' hm hcr b am he => ?_, fun r am brk hm => ?_⟩
  · rcases h.futs r' hm with h | h
    · rw [hc] at h; simp at h; subst h; exact .inr hg
    · exact .inr (obj_gone hr hs h)
  · by_cases hrr : r' = r
    · subst hrr
      rcases step_recvEv hr hs he with h1 | ⟨h1, -⟩
      · rcases hseen with h2 | h2
        · exact .inr (.inr ⟨h2, h.cur _ hc⟩)
        · exact .inr (.inl (h2 b am h1))
      · exact absurd h1 hnb
    · have hcr : T.ph.cur ≠ some r' := by rw [hc]; simp; exact fun h => hrr h.symm
      have hg := h.futs r' hm
      rcases step_recvEv hr hs he with h1 | ⟨h1, -⟩
      · rcases h.seen r' hm hcr b am h1 with h2 | ⟨_, _, _, h2⟩ | ⟨h2, h3⟩
        · exact .inl h2
        · rw [h2] at hc; simp [APh.cur] at hc
        · exact .inr (.inr ⟨hx h2, h3⟩)
      · rcases hg with hg | hg
        · exact absurd hg hcr
        · rw [hg] at h1; simp at h1
  · obtain ⟨h1, h2, h3, v, h4⟩ := h.hist r am brk hm
    exact ⟨h1, sx h2, h3, v, h4.mono (step_suffix hr hs)⟩

/-- A dispatch is over. -/
theorem TInv.over {s : Sys} {T : Task} {r v t : Nat} {am : AMsg} {brk : Bool} {p : APh} (h : TInv s T) (hp : T.ph = .finishing r am v brk t)
    (ht : s.th[t]? = some []) (hpp : p = .idle ∨ p = .stopping ∨ (p = .done ∧ T.lvl ≠ .run)) (hm : r ∈ T.futs) :
    TInv s { T with ph := p, hist := (r, am, brk) :: T.hist } := by
  have hph := h.ph
  rw [hp] at hph
  obtain ⟨h1, h2, x, h3, h4⟩ := hph
  have hfin : FinDone s.w.log T.b am v brk := by
    rcases h4 with ⟨pre, rfl⟩ | h4
    · rw [ht] at h3; simp at h3
    · exact h4
  have hcur : p.cur = none := by rcases hpp with rfl | rfl | ⟨rfl, -⟩ <;> rfl
  have hbox : T.lvl = .run → p.hasBox = true := by
    intro hl
    rcases hpp with rfl | rfl | ⟨rfl, hn⟩
    · rfl
    · rfl
    · exact absurd hl hn
  refine ⟨fun hl _ => h.box hl (by rw [hp]; rfl), fun hl => by simp [hbox hl], by rcases hpp with rfl | rfl | ⟨rfl, -⟩ <;> trivial, by simp [hcur], fun r' hm' => ?_,
    fun r' hm' _ b' am' he => ?_, fun r' am' brk' hh => ?_⟩
  · rcases h.futs r' hm' with h | h
    · rw [hp] at h; simp [APh.cur] at h
    · exact .inr h
  · rcases h.seen r' hm' (by rw [hp]; simp [APh.cur]) b' am' he with ⟨b2, h5⟩ | ⟨v2, b2, t2, h5⟩ | h5
    · exact .inl ⟨b2, by simp [h5]⟩
    · rw [hp] at h5; simp at h5; obtain ⟨rfl, rfl, -, -, -⟩ := h5
      exact .inl ⟨brk, by simp⟩
    · exact .inr (.inr h5)
  · simp at hh
    rcases hh with ⟨rfl, rfl, rfl⟩ | hh
    · exact ⟨hm, h1, h2, v, hfin⟩
    · exact h.hist _ _ _ hh

/-- All dispatches ended with `Continue`. -/
def Conts (hist : List (Nat × AMsg × Bool)) : Prop := ∀ e ∈ hist, e.2.2 = false

/-- The last dispatch ended with `Break`, those before it with `Continue`. -/
def Broke (hist : List (Nat × AMsg × Bool)) : Prop := ∃ r am l, hist = (r, am, true) :: l ∧ Conts l

/-- What a task has done so far. -/
def TaskOkP (futs : List Nat) (hist : List (Nat × AMsg × Bool)) (ab : Bool) (lvl : Lvl) : APh → Prop
  | .starting => futs = [] ∧ hist = [] ∧ ab = false ∧ lvl = .run
  | .idle => futs = hist.map (·.1) ∧ Conts hist ∧ ab = false ∧ (lvl = .run ∨ lvl = .sel ∨ lvl = .once)
  | .waiting r => futs = r :: hist.map (·.1) ∧ Conts hist ∧ ab = false ∧ (lvl = .run ∨ lvl = .sel ∨ lvl = .once)
  | .polling r _ => futs = r :: hist.map (·.1) ∧ Conts hist ∧ ab = false ∧ lvl ≠ .gave
  | .got r _ => futs = r :: hist.map (·.1) ∧ Conts hist ∧ ab = false ∧ lvl ≠ .gave
  | .handling r _ => futs = r :: hist.map (·.1) ∧ Conts hist ∧ ab = false ∧ lvl ≠ .gave
  | .finishing r _ _ _ _ => futs = r :: hist.map (·.1) ∧ Conts hist ∧ ab = false ∧ lvl ≠ .gave
  | .stopping => futs = hist.map (·.1) ∧ Broke hist ∧ ab = false ∧ lvl = .run
  | .aborting r _ _ => futs = r :: hist.map (·.1) ∧ Conts hist ∧ (ab = true ∧ lvl ≠ .gave ∨ ab = false ∧ lvl = .gave)
  | .leaving _ => lvl = .run ∧ ((futs = hist.map (·.1) ∧ (hist = [] ∨ Broke hist)) ∨ ∃ r, futs = r :: hist.map (·.1) ∧ Conts hist ∧ ab = true)
  | .done => (futs = hist.map (·.1) ∧ (lvl = .run ∧ (hist = [] ∨ Broke hist) ∨ lvl = .sel ∧ ab = false ∧ Broke hist ∨
        (lvl = .last ∨ lvl = .once) ∧ ab = false ∧ ∃ e l, hist = e :: l ∧ Conts l)) ∨
      ∃ r, futs = r :: hist.map (·.1) ∧ Conts hist ∧ (ab = true ∧ lvl ≠ .gave ∨ ab = false ∧ lvl = .gave)

def TaskOk (T : Task) : Prop := TaskOkP T.futs T.hist T.aborted T.lvl T.ph

theorem TStep.shape {s s' : Sys} {T T' : Task} (h : TaskOk T) (ht : TStep s T s' T') : TaskOk T' := by
  unfold TaskOk at h
  cases ht with
  | started hp => rw [hp] at h; obtain ⟨h1, h2, h3, h4⟩ := h; exact ⟨by simp [h1, h2], by simp [Conts, h2], h3, .inl h4⟩
  | startFails hp hs => rw [hp] at h; obtain ⟨h1, h2, h3, h4⟩ := h; exact ⟨h4, .inl ⟨by simp [h1, h2], .inl h2⟩⟩
  | next hp hs => rw [hp] at h; obtain ⟨h1, h2, h3⟩ := h; exact ⟨by simp [h1], h2, h3⟩
  | poll hp hs => rw [hp] at h; obtain ⟨h1, h2, h3, h4⟩ := h; exact ⟨h1, h2, h3, by rcases h4 with h4 | h4 | h4 <;> simp [h4]⟩
  | futReady hp hl hs => rw [hp] at h; obtain ⟨h1, h2, h3, h4⟩ := h; exact ⟨h1, h2, h3, by simp⟩
  | pending hp ht hl ho =>
    rw [hp] at h; obtain ⟨h1, h2, h3, h4⟩ := h
    refine ⟨h1, h2, h3, ?_⟩
    show T.lvl = .run ∨ T.lvl = .sel ∨ T.lvl = .once
    cases hh : T.lvl <;> simp_all
  | ready hp ht ho => rw [hp] at h; exact h
  | dispatch hp ha hs => rw [hp] at h; exact h
  | notice hp ha hs => rw [hp] at h; exact h
  | finish hp ho hs => rw [hp] at h; exact h
  | loop hp ht hl =>
    rw [hp] at h; obtain ⟨h1, h2, h3, h4⟩ := h
    refine ⟨by simp [h1], by intro e he; simp at he; rcases he with rfl | he; rfl; exact h2 e he, h3, ?_⟩
    show T.lvl = .run ∨ T.lvl = .sel ∨ T.lvl = .once
    cases hh : T.lvl <;> simp_all
  | «break» hp ht hl => rw [hp] at h; obtain ⟨h1, h2, h3, h4⟩ := h; exact ⟨by simp [h1], ⟨_, _, _, rfl, h2⟩, h3, hl⟩
  | «return» hp ht hl =>
    rw [hp] at h; obtain ⟨h1, h2, h3, h4⟩ := h
    refine .inl ⟨by simp [h1], ?_⟩
    rcases hl with ⟨hl, rfl⟩ | hl
    · exact .inr (.inl ⟨hl, h3, _, _, _, rfl, h2⟩)
    · exact .inr (.inr ⟨hl, h3, _, _, rfl, h2⟩)
  | giveUp hp ht hl ho hs => rw [hp] at h; obtain ⟨h1, h2, h3, h4⟩ := h; exact ⟨h1, h2, .inr ⟨h3, rfl⟩⟩
  | over hp ht hl => rw [hp] at h; obtain ⟨h1, h2, h3⟩ := h; exact .inr ⟨_, h1, h2, h3⟩
  | stopped hp hs => rw [hp] at h; obtain ⟨h1, h2, h3, h4⟩ := h; exact ⟨h4, .inl ⟨h1, .inr h2⟩⟩
  | left hp ht =>
    rw [hp] at h; obtain ⟨h1, h | ⟨r, h2, h3, h4⟩⟩ := h
    · exact .inl ⟨h.1, .inl ⟨h1, h.2⟩⟩
    · exact .inr ⟨r, h2, h3, .inl ⟨h4, by simp [h1]⟩⟩
  | abortOuter hp hs =>
    rcases hp with hp | hp <;> rw [hp] at h <;> obtain ⟨h1, h2, h3, h4⟩ := h
    · exact ⟨h4, .inl ⟨by simp [h1, h2], .inl h2⟩⟩
    · exact ⟨h4, .inl ⟨h1, .inr h2⟩⟩
  | abortWaiting hp hs => rw [hp] at h; obtain ⟨h1, h2, h3, h4⟩ := h; exact ⟨h1, h2, .inl ⟨rfl, by rcases h4 with h4 | h4 | h4 <;> simp [h4]⟩⟩
  | abortHandling hp hs => rw [hp] at h; obtain ⟨h1, h2, h3, h4⟩ := h; exact ⟨h1, h2, .inl ⟨rfl, h4⟩⟩
  | aborted hp ht hl hs =>
    rw [hp] at h; obtain ⟨h1, h2, h3⟩ := h
    exact ⟨hl, .inr ⟨_, h1, h2, by rcases h3 with h3 | h3; exact h3.1; simp [hl] at h3⟩⟩

/-- The steps of a task keep its invariant. -/
theorem TStep.inv {cap : Option Nat} {s s' : Sys} {T T' : Task} (hr : Reachable cap s) (hsh : TaskOk T) (h : TInv s T)
    (hbx : T.ph = .idle → ∃ o, s.w.objs[T.i]? = some o ∧ o.mbox = some T.b) (ht : TStep s T s' T') : TInv s' T' := by
  have hph := h.ph
  have hneq : ∀ {r : Nat} {o : Obj}, T.ph.hasBox = true → s.w.objs[r]? = some o → (∀ b, o ≠ .mailbox b) → T.lvl = .run → r ≠ T.i := by
    rintro r o hb ho hn hl rfl
    rw [h.box hl hb] at ho; simp at ho; exact hn _ ho.symm
  cases ht with
  | started hp => exact h.move (by rw [hp]; rfl) (by rw [hp]; rfl) (by simp [hp]) trivial
  | startFails hp hs => exact h.leave hr hs (by rw [hp]; rfl) (by simp [hp]) (fun h => h)
  | next hp hs =>
    have sx := (step_suffix hr hs).subset
    have hbox := hbx hp
    have hold : ∀ r ∈ T.futs, s.w.objs[r]? = some .gone := by
      intro r hm
      rcases h.futs r hm with h | h
      · rw [hp] at h; simp [APh.cur] at h
      · exact h
    have hlen : s.w.objs[s.w.objs.length]? = none := by simp
    have hnew : s'.w.objs[s.w.objs.length]? = some (.recv T.b .new) ∧ (T.lvl = .run → s'.w.objs[T.i]? = some (.mailbox T.b)) := by
      obtain ⟨w', ms, hcl, rfl⟩ := step_call hs
      cases hcl with
      | next ho hb =>
        obtain ⟨o', hbox, hb'⟩ := hbox
        rw [hbox] at ho; simp at ho; subst ho
        rw [hb'] at hb; simp at hb; subst hb
        refine ⟨by simp [World.addObj, World.incBq_objs], fun hl => ?_⟩
        have hbox := h.box hl (by rw [hp]; rfl)
        have hl := (List.getElem?_eq_some_iff.mp hbox).1
        simp [World.addObj, World.incBq_objs, List.getElem?_append_left hl, hbox]
    refine ⟨fun hl _ => hnew.2 hl, by simp [APh.hasBox], ⟨_, hnew.1⟩, by simp [APh.cur], fun r hm => ?_, fun r hm hc b am he => ?_,
      fun r am brk hm => ?_⟩
    · simp at hm
      rcases hm with rfl | hm
      · exact .inl rfl
      · exact .inr (obj_gone hr hs (hold r hm))
    · simp at hm
      rcases hm with rfl | hm
      · simp [APh.cur] at hc
      · rcases step_recvEv hr hs he with h1 | ⟨h1, -⟩
        · rcases h.seen r hm (by rw [hp]; simp [APh.cur]) b am h1 with h2 | ⟨_, _, _, h2⟩ | ⟨h2, h3⟩
          · exact .inl h2
          · rw [hp] at h2; simp at h2
          · unfold TaskOk at hsh; rw [hp] at hsh; rw [hsh.2.2.1] at h2; simp at h2
        · rw [hold r hm] at h1; simp at h1
    · obtain ⟨h1, h2, h3, v, h4⟩ := h.hist r am brk hm
      exact ⟨by simp [h1], sx h2, h3, v, h4.mono (step_suffix hr hs)⟩
  | @poll _ _ r wk hp hs =>
    rw [hp] at hph
    obtain ⟨st, ho⟩ := hph
    refine h.act (r := r) (p := .polling r s.th.length) hr hs rfl (by rw [hp]; rfl) rfl rfl (by rw [hp]; rfl) (hneq (by rw [hp]; rfl) ho (by simp)) ?_ (.inl rfl)
    obtain ⟨w', ms, hcl, rfl⟩ := step_call hs
    cases hcl with
    | pollRecv_new hx =>
      rw [ho] at hx; simp at hx; obtain ⟨rfl, rfl⟩ := hx
      exact ⟨_, th_new, .inl ⟨_, rfl⟩⟩
    | pollRecv_waiting hx =>
      rw [ho] at hx; simp at hx; obtain ⟨rfl, rfl⟩ := hx
      exact ⟨_, th_new, .inr (.inl ⟨_, _, rfl⟩)⟩
  | @futReady _ _ r wk hp hlv hs =>
    rw [hp] at hph
    obtain ⟨st, ho⟩ := hph
    refine h.act (r := r) (p := .polling r s.th.length) hr hs rfl (by rw [hp]; rfl) rfl rfl (by rw [hp]; rfl) (by simp [hlv]) ?_ (.inr ⟨hlv, rfl⟩)
    obtain ⟨w', ms, hcl, rfl⟩ := step_call hs
    cases hcl with
    | pollRecv_new hx =>
      rw [ho] at hx; simp at hx; obtain ⟨rfl, rfl⟩ := hx
      exact ⟨_, th_new, .inl ⟨_, rfl⟩⟩
    | pollRecv_waiting hx =>
      rw [ho] at hx; simp at hx; obtain ⟨rfl, rfl⟩ := hx
      exact ⟨_, th_new, .inr (.inl ⟨_, _, rfl⟩)⟩
  | @giveUp _ _ r t b st hp ht hlv ho hs =>
    have hl := (List.getElem?_eq_some_iff.mp ho).1
    refine h.give (r := r) (p := .aborting r none s.th.length) hr hs rfl (by rw [hp]; rfl) rfl rfl (by rw [hp]; rfl) (by simp [hlv])
      ?_ ?_ (fun h => h) (.inr ⟨hlv, rfl⟩) (.inr fun b' am' he => ?_) (by rw [ho]; simp)
    · obtain ⟨w', ms, hcl, rfl⟩ := step_call hs
      exact ⟨ms, th_new, by simp⟩
    · obtain ⟨w', ms, hcl, rfl⟩ := step_call hs
      cases hcl <;> simp [World.setObj, hl]
    · rcases yielded_reachable hr he with h | ⟨y, h⟩ | h <;> rw [ho] at h <;> simp at h
  | over hp ht hl =>
    refine ⟨fun hl' => absurd hl' hl, fun hl' => absurd hl' hl, trivial, by simp [APh.cur], fun r hm => ?_, fun r hm _ b am he => ?_, h.hist⟩
    · rcases h.futs r hm with h | h
      · rw [hp] at h; simp [APh.cur] at h
      · exact .inr h
    · rcases h.seen r hm (by rw [hp]; simp [APh.cur]) b am he with h2 | ⟨_, _, _, h2⟩ | h2
      · exact .inl h2
      · rw [hp] at h2; simp at h2
      · exact .inr (.inr h2)
  | «return» hp ht hl =>
    exact h.over hp ht (.inr (.inr ⟨rfl, by rcases hl with ⟨hl, -⟩ | hl | hl <;> simp [hl]⟩)) (by unfold TaskOk at hsh; rw [hp] at hsh; simp [hsh.1])
  | pending hp ht hlv ho =>
    rw [hp] at hph
    obtain ⟨x, h1, h2⟩ := hph
    refine h.move (by rw [hp]; rfl) (by rw [hp]; rfl) (by simp [hp]) ?_
    rw [ht] at h1; simp at h1; subst h1
    simp at h2
    rcases h2 with ⟨c, h2⟩ | ⟨am, h2, h3⟩
    · exact ⟨_, h2⟩
    · rw [ho] at h2; simp at h2
  | ready hp ht ho =>
    rw [hp] at hph
    obtain ⟨x, h1, h2⟩ := hph
    refine h.move (by rw [hp]; rfl) (by rw [hp]; rfl) (by simp [hp]) ?_
    rw [ht] at h1; simp at h1; subst h1
    simp at h2
    rcases h2 with ⟨c, h2⟩ | ⟨am, h2, h3⟩
    · rw [ho] at h2; simp at h2
    · rw [ho] at h2; simp at h2; obtain ⟨rfl, rfl⟩ := h2
      exact ⟨ho, h3⟩
  | @dispatch _ _ r am hp ha hs =>
    rw [hp] at hph
    obtain ⟨ho, h1⟩ := hph
    refine h.act (r := r) (p := .handling r am) hr hs rfl (by rw [hp]; rfl) rfl rfl (by rw [hp]; rfl) (hneq (by rw [hp]; rfl) ho (by simp)) ?_ (.inl rfl)
    have sx := (step_suffix hr hs).subset
    obtain ⟨w', ms, hcl, rfl⟩ := step_call hs
    have hl := (List.getElem?_eq_some_iff.mp ho).1
    cases hcl with
    | dispatch_stop hx hst =>
      rw [ho] at hx; simp at hx; obtain ⟨rfl, rfl⟩ := hx
      rcases hst with rfl | ⟨m, rfl, hm⟩
      · simp [AMsg.isStop] at ha
      · simp [AMsg.isStop, hm] at ha
    | dispatch_run hx _ _ =>
      rw [ho] at hx; simp at hx; obtain ⟨rfl, rfl⟩ := hx
      exact ⟨⟨true, by simp [World.setObj, hl]⟩, sx h1, ha⟩
  | @notice _ _ r am hp ha hs =>
    rw [hp] at hph
    obtain ⟨ho, h1⟩ := hph
    have sx := (step_suffix hr hs).subset
    have hl := (List.getElem?_eq_some_iff.mp ho).1
    have key : s'.w.objs[r]? = some .gone ∧ Ev.flow T.b am true ∈ s'.w.log := by
      obtain ⟨w', ms, hcl, rfl⟩ := step_call hs
      cases hcl with
      | dispatch_stop hx hst =>
        rw [ho] at hx; simp at hx; obtain ⟨rfl, rfl⟩ := hx
        exact ⟨by simp [World.setObj, World.ev, hl], by simp⟩
      | dispatch_run hx h2 h3 =>
        rw [ho] at hx; simp at hx; obtain ⟨rfl, rfl⟩ := hx
        exfalso
        cases am with
        | one m => simp [AMsg.isStop] at ha
        | all m => simp [AMsg.isStop] at ha; exact h3 m rfl ha
        | shutdown => exact h2 rfl
    refine h.give (r := r) (p := .finishing r am 0 true s.th.length) hr hs rfl (by rw [hp]; rfl) rfl rfl (by rw [hp]; rfl) (hneq (by rw [hp]; rfl) ho (by simp))
      ⟨sx h1, fun _ => rfl, ?_⟩ key.1 (fun h => h) (.inl rfl) (.inr fun b' am' he => ?_) (by rw [ho]; simp)
    · obtain ⟨w', ms, hcl, rfl⟩ := step_call hs
      exact ⟨ms, th_new, .inr ⟨key.2, fun m hm => by subst hm; simp [AMsg.isStop] at ha⟩⟩
    · rcases yielded_reachable hr he with h | ⟨y, h⟩ | h <;> rw [ho] at h <;> simp at h
      obtain ⟨-, rfl⟩ := h
      exact ⟨_, _, _, rfl⟩
  | @finish _ _ r v b' am am' rn hp ho hs =>
    rw [hp] at hph
    obtain ⟨⟨x, hx⟩, h1, ha⟩ := hph
    rw [ho] at hx; simp at hx; obtain ⟨rfl, rfl, rfl⟩ := hx
    have sx := (step_suffix hr hs).subset
    have hl := (List.getElem?_eq_some_iff.mp ho).1
    have key : s'.w.objs[r]? = some .gone ∧
        s'.th[s.th.length]? = some ([.dropRx, .dropBq T.b] ++ [.respond T.b am' v (!rn)]) := by
      obtain ⟨w', ms, hcl, rfl⟩ := step_call hs
      cases hcl with
      | finish hx =>
        rw [ho] at hx; simp at hx; obtain ⟨rfl, rfl, rfl⟩ := hx
        exact ⟨by simp [World.setObj, hl], by simp⟩
    refine h.give (r := r) (p := .finishing r am' v (!rn) s.th.length) hr hs rfl (by rw [hp]; rfl) rfl rfl (by rw [hp]; rfl) (hneq (by rw [hp]; rfl) ho (by simp))
      ⟨sx h1, by simp [ha], _, key.2, .inl ⟨_, rfl⟩⟩ key.1 (fun h => h) (.inl rfl) (.inr fun b' am2 he => ?_) (by rw [ho]; simp)
    rcases yielded_reachable hr he with h | ⟨y, h⟩ | h <;> rw [ho] at h <;> simp at h
    obtain ⟨-, rfl, -⟩ := h
    exact ⟨_, _, _, rfl⟩
  | loop hp ht hl => exact h.over hp ht (.inl rfl) (by unfold TaskOk at hsh; rw [hp] at hsh; simp [hsh.1])
  | «break» hp ht hl => exact h.over hp ht (.inr (.inl rfl)) (by unfold TaskOk at hsh; rw [hp] at hsh; simp [hsh.1])
  | stopped hp hs => exact h.leave hr hs (by rw [hp]; rfl) (by simp [hp]) (fun h => h)
  | left hp ht => exact h.move (by rw [hp]; rfl) (by rw [hp]; rfl) (by simp [hp]) trivial
  | abortOuter hp hs =>
    exact h.leave hr hs (by rcases hp with hp | hp <;> rw [hp] <;> rfl) (by rcases hp with hp | hp <;> simp [hp]) (fun _ => rfl)
  | @abortWaiting _ _ r hp hs =>
    rw [hp] at hph
    obtain ⟨st, ho⟩ := hph
    have hl := (List.getElem?_eq_some_iff.mp ho).1
    refine h.give (r := r) (p := .aborting r none s.th.length) hr hs rfl (by rw [hp]; rfl) rfl rfl (by rw [hp]; rfl) (hneq (by rw [hp]; rfl) ho (by simp))
      ?_ ?_ (fun _ => rfl) (.inl rfl) (.inl rfl) (by rw [ho]; simp)
    · obtain ⟨w', ms, hcl, rfl⟩ := step_call hs
      exact ⟨ms, th_new, by simp⟩
    · obtain ⟨w', ms, hcl, rfl⟩ := step_call hs
      cases hcl <;> simp [World.setObj, hl]
  | @abortHandling _ _ r am hp hs =>
    rw [hp] at hph
    obtain ⟨⟨x, ho⟩, h1, ha⟩ := hph
    have hl := (List.getElem?_eq_some_iff.mp ho).1
    refine h.give (r := r) (p := .aborting r (some am) s.th.length) hr hs rfl (by rw [hp]; rfl) rfl rfl (by rw [hp]; rfl) (hneq (by rw [hp]; rfl) ho (by simp))
      ?_ ?_ (fun _ => rfl) (.inl rfl) (.inl rfl) (by rw [ho]; simp)
    · obtain ⟨w', ms, hcl, rfl⟩ := step_call hs
      cases hcl with
      | dropDispatch hx =>
        rw [ho] at hx; simp at hx; obtain ⟨rfl, rfl, rfl⟩ := hx
        refine ⟨_, th_new, fun m hm => .inl ⟨[.dropRx, .dropBq T.b], ?_⟩⟩
        simp at hm; subst hm; rfl
    · obtain ⟨w', ms, hcl, rfl⟩ := step_call hs
      cases hcl <;> simp [World.setObj, hl]
  | aborted hp ht hl hs => exact h.leave hr hs (by rw [hp]; rfl) (by simp [hp]) (fun h => h)

theorem step_objs_len {s s' : Sys} {a : Act} (hs : s.step a = some s') : s.w.objs.length ≤ s'.w.objs.length := by
  rcases step_rel hs with ⟨c, w', ms, rfl, hc, rfl⟩ | ⟨t, m, rest, w', ms, rfl, ht, hx, rfl⟩
  · cases hc <;> simp
  · cases hx
    case recv_all hp _ _ => simp [World.popBroadcast_objs hp]
    case recv_one hp _ _ => simp [World.popUnicast_objs hp]
    case recvBcast_some hp => simp [World.popBroadcast_objs hp]
    all_goals simp

/-- A task's step as a step of the channel. -/
theorem TStep.chan {s s' : Sys} {T T' : Task} (hsh : TaskOk T) (ht : TStep s T s' T') :
    s' = s ∨ ∃ a, s.step a = some s' ∧
      ∀ U : Task, (T.lvl = .run → U.lvl = .run → U.i ≠ T.i) → (∀ r, U.ph.cur = some r → T.ph.cur ≠ some r) → a.steals U = false := by
  cases ht with
  | started hp => exact .inl rfl
  | pending hp ht hl ho => exact .inl rfl
  | ready hp ht ho => exact .inl rfl
  | loop hp ht hl => exact .inl rfl
  | «break» hp ht hl => exact .inl rfl
  | «return» hp ht hl => exact .inl rfl
  | over hp ht hl => exact .inl rfl
  | left hp ht => exact .inl rfl
  | startFails hp hs => unfold TaskOk at hsh; rw [hp] at hsh; exact .inr ⟨_, hs, fun U h1 h2 => by simpa [Act.steals] using fun h0 h => h1 hsh.2.2.2 h0 h.symm⟩
  | stopped hp hs => unfold TaskOk at hsh; rw [hp] at hsh; exact .inr ⟨_, hs, fun U h1 h2 => by simpa [Act.steals] using fun h0 h => h1 hsh.2.2.2 h0 h.symm⟩
  | abortOuter hp hs =>
    have hlv : T.lvl = .run := by unfold TaskOk at hsh; rcases hp with hp | hp <;> rw [hp] at hsh <;> exact hsh.2.2.2
    exact .inr ⟨_, hs, fun U h1 h2 => by simpa [Act.steals] using fun h0 h => h1 hlv h0 h.symm⟩
  | aborted hp ht hlv hs => exact .inr ⟨_, hs, fun U h1 h2 => by simpa [Act.steals] using fun h0 h => h1 hlv h0 h.symm⟩
  | futReady hp hl hs => exact .inr ⟨_, hs, fun U h1 h2 => by simpa [Act.steals] using fun h => h2 _ h (by rw [hp]; rfl)⟩
  | giveUp hp ht hl ho hs => exact .inr ⟨_, hs, fun U h1 h2 => by simpa [Act.steals] using fun h => h2 _ h (by rw [hp]; rfl)⟩
  | next hp hs => exact .inr ⟨_, hs, fun U h1 h2 => rfl⟩
  | poll hp hs => exact .inr ⟨_, hs, fun U h1 h2 => by simpa [Act.steals] using fun h => h2 _ h (by rw [hp]; rfl)⟩
  | dispatch hp ha hs => exact .inr ⟨_, hs, fun U h1 h2 => by simpa [Act.steals] using fun h => h2 _ h (by rw [hp]; rfl)⟩
  | notice hp ha hs => exact .inr ⟨_, hs, fun U h1 h2 => by simpa [Act.steals] using fun h => h2 _ h (by rw [hp]; rfl)⟩
  | finish hp ho hs => exact .inr ⟨_, hs, fun U h1 h2 => by simpa [Act.steals] using fun h => h2 _ h (by rw [hp]; rfl)⟩
  | abortWaiting hp hs => exact .inr ⟨_, hs, fun U h1 h2 => by simpa [Act.steals] using fun h => h2 _ h (by rw [hp]; rfl)⟩
  | abortHandling hp hs => exact .inr ⟨_, hs, fun U h1 h2 => by simpa [Act.steals] using fun h => h2 _ h (by rw [hp]; rfl)⟩

theorem TStep.ids {s s' : Sys} {T T' : Task} (ht : TStep s T s' T') : T'.i = T.i ∧ T'.b = T.b := by
  cases ht <;> exact ⟨rfl, rfl⟩

theorem TStep.newFut {s s' : Sys} {T T' : Task} (ht : TStep s T s' T') :
    T'.futs = T.futs ∨ (T'.futs = s.w.objs.length :: T.futs ∧ s.w.objs.length < s'.w.objs.length) := by
  cases ht with
  | next hp hs =>
    refine .inr ⟨rfl, ?_⟩
    obtain ⟨w', ms, hcl, rfl⟩ := step_call hs
    cases hcl with
    | next ho hb => simp
  | _ => exact .inl rfl

/-- A task is what it is for ever: `run`, or `select`. -/
theorem TStep.run_iff {s s' : Sys} {T T' : Task} (ht : TStep s T s' T') : T'.lvl = .run ↔ T.lvl = .run := by
  cases ht with
  | futReady _ hl _ => simp [hl]
  | giveUp _ _ hl _ _ => simp [hl]
  | _ => exact Iff.rfl

theorem TStep.not_done {s s' : Sys} {T T' : Task} (ht : TStep s T s' T') : T.ph ≠ .done := by
  cases ht with
  | abortOuter hp _ => rcases hp with hp | hp <;> simp [hp]
  | _ => simp_all

theorem TStep.len {s s' : Sys} {T T' : Task} (hsh : TaskOk T) (ht : TStep s T s' T') : s.w.objs.length ≤ s'.w.objs.length := by
  rcases ht.chan hsh with rfl | ⟨a, hs, -⟩
  · exact Nat.le_refl _
  · exact step_objs_len hs

structure PInv (c : PCfg) : Prop where
  all : ∀ (k : Nat) T, c.ts[k]? = some T → TaskOk T ∧ TInv c.s T
  ids : ∀ (k l : Nat) T U, c.ts[k]? = some T → c.ts[l]? = some U → k ≠ l → T.lvl = .run → U.lvl = .run → T.i ≠ U.i
  disj : ∀ (k l : Nat) T U, c.ts[k]? = some T → c.ts[l]? = some U → k ≠ l → ∀ r ∈ T.futs, r ∉ U.futs
  lt : ∀ (k : Nat) T, c.ts[k]? = some T → ∀ r ∈ T.futs, r < c.s.w.objs.length
  par : ∀ (l : Nat) U, c.ts[l]? = some U → U.lvl ≠ .run → U.ph ≠ .done → ∃ (k : Nat) (T : Task), k < l ∧ c.ts[k]? = some T ∧ T.given = some U.i ∧ T.b = U.b

theorem TInv.curMem {s : Sys} {T : Task} (h : TInv s T) {r : Nat} (hc : T.ph.cur = some r) : r ∈ T.futs :=
  List.mem_of_mem_head? (h.cur r hc)

theorem append_split {l : List Task} {x : Task} {k : Nat} {T : Task} (hk : (l ++ [x])[k]? = some T) :
    (k < l.length ∧ l[k]? = some T) ∨ (k = l.length ∧ T = x) := by
  rcases Nat.lt_trichotomy k l.length with h | h | h
  · rw [List.getElem?_append_left h] at hk; exact .inl ⟨h, hk⟩
  · subst h; simp at hk; exact .inr ⟨rfl, hk.symm⟩
  · rw [List.getElem?_append_right (by omega)] at hk
    have : k - l.length ≠ 0 := by omega
    simp [List.getElem?_cons, this] at hk

/-- A call of `select` covers its caller. -/
theorem Task.given_covers {T U : Task} (hl : U.lvl ≠ .run) (hd : U.ph ≠ .done) (hg : T.given = some U.i) : U.covers T = true := by
  unfold Task.given at hg
  cases hp : T.ph <;> rw [hp] at hg <;> simp at hg <;> simp [Task.covers, hp, APh.cur, hl, hd, hg]

/-- The mailbox that user code was given is there. -/
theorem Task.given_box {s : Sys} {T : Task} {i : Nat} (hok : TaskOk T) (h : TInv s T) (hg : T.given = some i) :
    ∃ o, s.w.objs[i]? = some o ∧ o.mbox = some T.b := by
  have hph := h.ph
  unfold TaskOk at hok
  unfold Task.given at hg
  cases hp : T.ph <;> rw [hp] at hg hph hok <;> simp at hg <;> subst hg
  · exact ⟨_, h.box hok.2.2.2 (by rw [hp]; rfl), rfl⟩
  · obtain ⟨⟨x, ho⟩, -⟩ := hph
    exact ⟨_, ho, rfl⟩

theorem PInv.hbx {c : PCfg} (h : PInv c) {k : Nat} {T : Task} (hk : c.ts[k]? = some T) (hp : T.ph.hasBox = true) :
    ∃ o, c.s.w.objs[T.i]? = some o ∧ o.mbox = some T.b := by
  by_cases hl : T.lvl = .run
  · exact ⟨_, (h.all k T hk).2.box hl hp, rfl⟩
  · obtain ⟨l, U, -, hU, hg, hb⟩ := h.par k T hk hl (by intro h; rw [h] at hp; simp [APh.hasBox] at hp)
    rw [← hb]
    exact Task.given_box (h.all l U hU).1 (h.all l U hU).2 hg

theorem pInv_run {cap : Option Nat} {closed : Bool} {c : PCfg} (h : PRun cap closed c) : PInv c := by
  induction h with
  | new => exact ⟨by simp, by simp, by simp, by simp, by simp⟩
  | @step c c' hrun hst ih =>
    have hr := hrun.reachable
    cases hst with
    | other h1 h2 hs =>
      refine ⟨fun k T hk => ⟨(ih.all k T hk).1, (ih.all k T hk).2.frame hr hs (h1 T (List.mem_of_getElem? hk))⟩, ih.ids, ih.disj,
        fun k T hk r hm => Nat.lt_of_lt_of_le (ih.lt k T hk r hm) (step_objs_len hs), ih.par⟩
    | @spawn i b ho hi =>
      refine ⟨fun k T hk => ?_, fun k l T U hk hl hn => ?_, fun k l T U hk hl hn => ?_, fun k T hk => ?_, fun l U hl hn hd => ?_⟩
      · rcases append_split hk with ⟨-, hk⟩ | ⟨-, rfl⟩
        · exact ih.all k T hk
        · refine ⟨⟨rfl, rfl, rfl, rfl⟩, ⟨fun _ _ => ho, by simp [APh.hasBox], trivial, by simp [APh.cur], by simp, by simp, by simp⟩⟩
      · rcases append_split hk with ⟨-, hk⟩ | ⟨ek, rfl⟩ <;> rcases append_split hl with ⟨-, hl⟩ | ⟨el, rfl⟩
        · exact ih.ids k l T U hk hl hn
        · exact fun _ _ => hi T (List.mem_of_getElem? hk)
        · exact fun _ _ h => hi U (List.mem_of_getElem? hl) h.symm
        · omega
      · rcases append_split hk with ⟨-, hk⟩ | ⟨ek, rfl⟩ <;> rcases append_split hl with ⟨-, hl⟩ | ⟨el, rfl⟩
        · exact ih.disj k l T U hk hl hn
        · simp
        · simp
        · simp
      · rcases append_split hk with ⟨-, hk⟩ | ⟨ek, rfl⟩
        · exact ih.lt k T hk
        · simp
      · rcases append_split hl with ⟨-, hl⟩ | ⟨el, rfl⟩
        · obtain ⟨k, T, h1, h2, h3⟩ := ih.par l U hl hn hd
          exact ⟨k, T, h1, by rw [List.getElem?_append_left (List.getElem?_eq_some_iff.mp h2).1]; exact h2, h3⟩
        · simp at hn
    | @nest k0 i T0 lv h0 hot hg hlv =>
      have hnr : lv ≠ .run := by rcases hlv with rfl | rfl <;> simp
      have hl0 := (List.getElem?_eq_some_iff.mp h0).1
      refine ⟨fun k T hk => ?_, fun k l T U hk hl hn => ?_, fun k l T U hk hl hn => ?_, fun k T hk => ?_, fun l U hl hn hd => ?_⟩
      · rcases append_split hk with ⟨-, hk⟩ | ⟨-, rfl⟩
        · exact ih.all k T hk
        · refine ⟨⟨rfl, by simp [Conts], rfl, .inr hlv⟩, ⟨by simp [hnr], by simp [APh.hasBox], trivial, by simp [APh.cur], by simp, by simp, by simp⟩⟩
      · rcases append_split hk with ⟨-, hk⟩ | ⟨ek, rfl⟩ <;> rcases append_split hl with ⟨-, hl⟩ | ⟨el, rfl⟩
        · exact ih.ids k l T U hk hl hn
        · simp [hnr]
        · simp [hnr]
        · omega
      · rcases append_split hk with ⟨-, hk⟩ | ⟨ek, rfl⟩ <;> rcases append_split hl with ⟨-, hl⟩ | ⟨el, rfl⟩
        · exact ih.disj k l T U hk hl hn
        · simp
        · simp
        · simp
      · rcases append_split hk with ⟨-, hk⟩ | ⟨ek, rfl⟩
        · exact ih.lt k T hk
        · simp
      · rcases append_split hl with ⟨-, hl⟩ | ⟨el, rfl⟩
        · obtain ⟨k, T, h1, h2, h3⟩ := ih.par l U hl hn hd
          exact ⟨k, T, h1, by rw [List.getElem?_append_left (List.getElem?_eq_some_iff.mp h2).1]; exact h2, h3⟩
        · exact ⟨k0, T0, by omega, by rw [List.getElem?_append_left hl0]; exact h0, hg, rfl⟩
    | @task k0 T0 T1 s' h0 hot ht =>
      have hl0 := (List.getElem?_eq_some_iff.mp h0).1
      have split : ∀ {k : Nat} {T : Task}, (c.ts.set k0 T1)[k]? = some T → (k = k0 ∧ T = T1) ∨ (k ≠ k0 ∧ c.ts[k]? = some T) := by
        intro k T hk
        by_cases h : k = k0
        · subst h; simp [hl0] at hk; exact .inl ⟨rfl, hk.symm⟩
        · rw [List.getElem?_set_ne (by omega)] at hk; exact .inr ⟨h, hk⟩
      have a0 := ih.all k0 T0 h0
      have hlen := ht.len a0.1
      have frame : ∀ (k : Nat) U, k ≠ k0 → c.ts[k]? = some U → TInv s' U := by
        intro k U hk hU
        rcases ht.chan a0.1 with rfl | ⟨a, hs, hst⟩
        · exact (ih.all k U hU).2
        · refine (ih.all k U hU).2.frame hr hs (hst U (fun h1 h2 => ih.ids k k0 U T0 hU h0 hk h2 h1) fun r hc hc' => ?_)
          exact ih.disj k k0 U T0 hU h0 hk r ((ih.all k U hU).2.curMem hc) (a0.2.curMem hc')
      refine ⟨fun k T hk => ?_, fun k l T U hk hl hn => ?_, fun k l T U hk hl hn r hm => ?_, fun k T hk r hm => ?_, fun l U hl hn hd => ?_⟩
      · rcases split hk with ⟨rfl, rfl⟩ | ⟨hn, hk⟩
        · exact ⟨ht.shape a0.1, ht.inv hr a0.1 a0.2 (fun hp => ih.hbx h0 (by rw [hp]; rfl))⟩
        · exact ⟨(ih.all k T hk).1, frame k T hn hk⟩
      · rcases split hk with ⟨rfl, rfl⟩ | ⟨h1, hk2⟩ <;> rcases split hl with ⟨rfl, rfl⟩ | ⟨h2, hl2⟩
        · exact absurd rfl hn
        · rw [ht.ids.1, ht.run_iff]; exact ih.ids _ _ _ _ h0 hl2 hn
        · rw [ht.ids.1, ht.run_iff]; exact ih.ids _ _ _ _ hk2 h0 hn
        · exact ih.ids k l T U hk2 hl2 hn
      · rcases split hk with ⟨rfl, rfl⟩ | ⟨h1, hk2⟩ <;> rcases split hl with ⟨rfl, rfl⟩ | ⟨h2, hl2⟩
        · exact absurd rfl hn
        · rcases ht.newFut with hf | ⟨hf, -⟩ <;> rw [hf] at hm
          · exact ih.disj _ _ _ _ h0 hl2 hn r hm
          · simp at hm
            rcases hm with rfl | hm
            · exact fun h => Nat.lt_irrefl _ (ih.lt l U hl2 _ h)
            · exact ih.disj _ _ _ _ h0 hl2 hn r hm
        · rcases ht.newFut with hf | ⟨hf, -⟩ <;> rw [hf]
          · exact ih.disj _ _ _ _ hk2 h0 hn r hm
          · simp
            refine ⟨fun h => ?_, ih.disj _ _ _ _ hk2 h0 hn r hm⟩
            subst h; exact Nat.lt_irrefl _ (ih.lt k T hk2 _ hm)
        · exact ih.disj k l T U hk2 hl2 hn r hm
      · rcases split hk with ⟨rfl, rfl⟩ | ⟨h1, hk⟩
        · rcases ht.newFut with hf | ⟨hf, hg⟩ <;> rw [hf] at hm
          · exact Nat.lt_of_lt_of_le (ih.lt _ _ h0 r hm) hlen
          · simp at hm
            rcases hm with rfl | hm
            · exact hg
            · exact Nat.lt_of_lt_of_le (ih.lt _ _ h0 r hm) hlen
        · exact Nat.lt_of_lt_of_le (ih.lt k T hk r hm) hlen
      · have key : ∀ (V : Task), V ∈ c.ts → V.lvl ≠ .run → V.ph ≠ .done → T0.given ≠ some V.i := by
          intro V hV h1 h2 h3
          have := hot V hV
          rw [Task.given_covers h1 h2 h3] at this; simp at this
        have step : ∀ V : Task, c.ts[l]? = some V → V.lvl ≠ .run → V.ph ≠ .done →
            ∃ (k : Nat) (T : Task), k < l ∧ (c.ts.set k0 T1)[k]? = some T ∧ T.given = some V.i ∧ T.b = V.b := by
          intro V hV h1 h2
          obtain ⟨k, T, h3, h4, h5⟩ := ih.par l V hV h1 h2
          refine ⟨k, T, h3, ?_, h5⟩
          by_cases hk : k0 = k
          · subst hk; rw [h0] at h4; simp at h4; subst h4
            exact absurd h5.1 (key V (List.mem_of_getElem? hV) h1 h2)
          · rw [List.getElem?_set_ne hk]; exact h4
        rcases split hl with ⟨rfl, rfl⟩ | ⟨h1, hl⟩
        · obtain ⟨k, T, h⟩ := step T0 h0 (fun h => hn (ht.run_iff.mpr h)) ht.not_done
          exact ⟨k, T, by rw [ht.ids.1, ht.ids.2]; exact h⟩
        · exact step U hl hn hd

/-- A task never makes the same receive future twice. -/
theorem futs_nodup {cap : Option Nat} {closed : Bool} {c : PCfg} (h : PRun cap closed c) : ∀ {T : Task}, T ∈ c.ts → T.futs.Nodup := by
  induction h with
  | new => simp
  | @step c c' hrun hst ih =>
    intro T hT
    cases hst with
    | other _ _ _ => exact ih hT
    | spawn _ _ => simp at hT; rcases hT with hT | rfl; exact ih hT; simp
    | nest _ _ _ _ => simp at hT; rcases hT with hT | rfl; exact ih hT; simp
    | @task k0 T0 T1 s' h0 hot ht =>
      rcases List.mem_or_eq_of_mem_set hT with hT | rfl
      · exact ih hT
      · have h1 := ih (List.mem_of_getElem? h0)
        rcases ht.newFut with hf | ⟨hf, -⟩ <;> rw [hf]
        · exact h1
        · exact List.nodup_cons.mpr ⟨fun h => Nat.lt_irrefl _ ((pInv_run hrun).lt _ _ h0 _ h), h1⟩

/-- What a `yield_once` has done so far: nothing but one receive and one dispatch. -/
def OnceOk (T : Task) : Prop := T.lvl = .once → (T.ph ≠ .done ∨ T.aborted = true → T.hist = []) ∧
  (T.ph = .done → T.aborted = false → ∃ e, T.hist = [e])

theorem TStep.onceOk {s s' : Sys} {T T' : Task} (sh : TaskOk T) (h : OnceOk T) (ht : TStep s T s' T') : OnceOk T' := by
  have hlv : T'.lvl = .once → T.lvl = .once := by cases ht <;> simp_all
  intro hl
  have h1 := h (hlv hl)
  unfold TaskOk at sh
  cases ht <;> first
    | (rename_i hp _; rw [hp] at sh h1; simp_all [TaskOkP]; done)
    | (rename_i hp _ _; rw [hp] at sh h1; simp_all [TaskOkP]; done)
    | (rename_i hp _ _ _; rw [hp] at sh h1; simp_all [TaskOkP]; done)
    | (rename_i hp _ _ _ _; rw [hp] at sh h1; simp_all [TaskOkP]; done)
    | (rename_i hp; rw [hp] at sh h1; simp_all [TaskOkP]; done)
    | (rename_i hp _; rcases hp with hp | hp <;> rw [hp] at sh h1 <;> simp_all [TaskOkP]; done)

theorem onceOk_run {cap : Option Nat} {closed : Bool} {c : PCfg} (h : PRun cap closed c) : ∀ {T : Task}, T ∈ c.ts → OnceOk T := by
  induction h with
  | new => simp
  | @step c c' hrun hst ih =>
    intro T hT
    cases hst with
    | other _ _ _ => exact ih hT
    | spawn _ _ => simp at hT; rcases hT with hT | rfl; exact ih hT; simp [OnceOk]
    | nest _ _ _ _ => simp at hT; rcases hT with hT | rfl; exact ih hT; simp [OnceOk]
    | @task k0 T0 T1 s' h0 hot ht =>
      rcases List.mem_or_eq_of_mem_set hT with hT | rfl
      · exact ih hT
      · exact ht.onceOk ((pInv_run hrun).all _ _ h0).1 (ih (List.mem_of_getElem? h0))

end Xtra
