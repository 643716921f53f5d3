import Verif.PropsJoin
import Verif.PropsCancel
/-!
# `xtra::scoped` (C24)

Models `xtra/src/scoped_task.rs` on top of the channel model: the task owns a join handle of the channel (object `j`) and an
arbitrary inner future. Everything else in the channel goes on concurrently. The inner future is arbitrary: each of its polls returns
what it likes (and its own use of the channel is among the concurrent activity).
-/

namespace Xtra

/-- What a scoped task did, newest first in its trace. -/
inductive SEv (v : Type) where
  /-- the join handle was polled: ready or pending -/
  | joinPoll (ready : Bool)
  /-- the inner future was polled: `none` is `Pending` -/
  | innerPoll (r : Option v)
  /-- the task resolved -/
  | out (r : Option v)
  deriving DecidableEq, Repr

/-- Where a `ScopedTask` is: between polls, inside `poll` after the join handle returned `Pending`, resolved. -/
inductive SPhase where
  | idle
  | inner
  | done
  deriving DecidableEq, Repr

/-- A `ScopedTask` (xtra/src/scoped_task.rs:29-33) in a running system. -/
structure SCfg (v : Type) where
  s : Sys
  phase : SPhase
  trace : List (SEv v)

/-- The action polls or drops the join handle `j`, which only its owner can do. -/
def Act.touchesJoin (j : Nat) : Act → Bool
  | .call (.pollJoin j' _) => j' == j
  | .call (.dropJoin j') => j' == j
  | _ => false

/-- One step of a system with a scoped task that owns the join handle `j`. -/
inductive SStep {v : Type} (j : Nat) : SCfg v → SCfg v → Prop where
  /-- anything else that happens -/
  | other {c : SCfg v} {a : Act} {s' : Sys} : a.touchesJoin j = false → c.s.step a = some s' → SStep j c { c with s := s' }
  /-- `poll`: the join handle is ready (xtra/src/scoped_task.rs:45-46) -/
  | ready {c : SCfg v} {wk : Nat} {s' : Sys} : c.phase = .idle → c.s.step (.call (.pollJoin j wk)) = some s' →
      s'.w.log.head? = some (.joined j) →
      SStep j c ⟨s', .done, .out none :: .joinPoll true :: c.trace⟩
  /-- `poll`: the join handle is pending (xtra/src/scoped_task.rs:45, 47) -/
  | pending {c : SCfg v} {wk : Nat} {s' : Sys} : c.phase = .idle → c.s.step (.call (.pollJoin j wk)) = some s' →
      s'.w.log.head? = some (.joinPending j wk) →
      SStep j c ⟨s', .inner, .joinPoll false :: c.trace⟩
  /-- the inner future is ready (xtra/src/scoped_task.rs:47-48) -/
  | value {c : SCfg v} {x : v} : c.phase = .inner → SStep j c { c with phase := .done, trace := .out (some x) :: .innerPoll (some x) :: c.trace }
  /-- the inner future is pending (xtra/src/scoped_task.rs:49) -/
  | again {c : SCfg v} : c.phase = .inner → SStep j c { c with phase := .idle, trace := .innerPoll none :: c.trace }

/-- `scoped(address, fut)` (xtra/src/scoped_task.rs:11-20) made the task out of the join handle `j`, and then anything happened. -/
inductive SRun {v : Type} (cap : Option Nat) (j : Nat) : SCfg v → Prop where
  | new {s : Sys} {x : Option Nat} : Reachable cap s → s.w.objs[j]? = some (.join x) → SRun cap j ⟨s, .idle, []⟩
  | step {c c' : SCfg v} : SRun cap j c → SStep j c c' → SRun cap j c'

theorem SRun.reachable {v : Type} {cap : Option Nat} {j : Nat} {c : SCfg v} (h : SRun cap j c) : Reachable cap c.s := by
  induction h with
  | new h _ => exact h
  | step _ hs ih =>
    cases hs with
    | other _ hs => exact .step ih hs
    | ready _ hs _ => exact .step ih hs
    | pending _ hs _ => exact .step ih hs
    | value _ => exact ih
    | again _ => exact ih

/-- `n` polls that found the actor connected and the inner future pending. -/
def pendingPolls (v : Type) : Nat → List (SEv v)
  | 0 => []
  | n + 1 => pendingPolls v n ++ [.joinPoll false, .innerPoll none]

/-- **C24.** Everything a scoped task can do, in any run: any number of polls that find the join handle pending, poll the inner
future once and find it pending; then, at most once, either a poll that finds the join handle ready, does not poll the inner future
and resolves to `None`; or one that finds the join handle pending, polls the inner future, gets `v` and resolves to `Some(v)`.
Nothing is polled afterwards. -/
theorem C24_shape {v : Type} {cap : Option Nat} {j : Nat} {c : SCfg v} (h : SRun cap j c) :
    ∃ n, c.trace.reverse = pendingPolls v n ∨ c.trace.reverse = pendingPolls v n ++ [.joinPoll false] ∨
      c.trace.reverse = pendingPolls v n ++ [.joinPoll true, .out none] ∨
      ∃ x, c.trace.reverse = pendingPolls v n ++ [.joinPoll false, .innerPoll (some x), .out (some x)] := by
  suffices ∃ n, (c.phase = .idle ∧ c.trace.reverse = pendingPolls v n) ∨
      (c.phase = .inner ∧ c.trace.reverse = pendingPolls v n ++ [.joinPoll false]) ∨
      (c.phase = .done ∧ (c.trace.reverse = pendingPolls v n ++ [.joinPoll true, .out none] ∨
      ∃ x, c.trace.reverse = pendingPolls v n ++ [.joinPoll false, .innerPoll (some x), .out (some x)])) by
    obtain ⟨n, h⟩ := this
    exact ⟨n, by grind⟩
  induction h with
  | new _ _ => exact ⟨0, .inl ⟨rfl, rfl⟩⟩
  | step _ hs ih =>
    obtain ⟨n, ih⟩ := ih
    cases hs with
    | other _ _ => exact ⟨n, ih⟩
    | ready hp _ _ =>
      simp [hp] at ih
      exact ⟨n, .inr (.inr ⟨rfl, .inl (by simp [ih])⟩)⟩
    | pending hp _ _ =>
      simp [hp] at ih
      exact ⟨n, .inr (.inl ⟨rfl, by simp [ih]⟩)⟩
    | value hp =>
      rename_i x
      simp [hp] at ih
      exact ⟨n, .inr (.inr ⟨rfl, .inr ⟨x, by simp [ih]⟩⟩)⟩
    | again hp =>
      simp [hp] at ih
      exact ⟨n + 1, .inl ⟨rfl, by simp [ih, pendingPolls]⟩⟩

theorem pendingPolls_mem {v : Type} {n : Nat} {e : SEv v} (h : e ∈ pendingPolls v n) : e = .joinPoll false ∨ e = .innerPoll none := by
  induction n with
  | zero => simp [pendingPolls] at h
  | succ n ih => simp [pendingPolls] at h; grind

/-- **C24.** The task yields `Some(v)` only if the inner future itself completed with `v`, in that same poll, in which the join
handle was still pending. -/
theorem C24_some {v : Type} {cap : Option Nat} {j : Nat} {c : SCfg v} (h : SRun cap j c) {x : v} (ho : .out (some x) ∈ c.trace) :
    ∃ rest, c.trace = .out (some x) :: .innerPoll (some x) :: .joinPoll false :: rest ∧ ∀ e ∈ rest, e = .joinPoll false ∨ e = .innerPoll none := by
  obtain ⟨n, h | h | h | ⟨y, h⟩⟩ := C24_shape h <;> rw [← List.mem_reverse, h] at ho
  · have := pendingPolls_mem ho; simp at this
  · simp at ho; have := pendingPolls_mem ho; simp at this
  · simp at ho; have := pendingPolls_mem ho; simp at this
  · simp at ho
    rcases ho with ho | rfl
    · have := pendingPolls_mem ho; simp at this
    · have h2 := congrArg List.reverse h
      simp at h2
      exact ⟨_, h2, fun e he => pendingPolls_mem (List.mem_reverse.mp he)⟩

/-- **C24.** The task yields `None` exactly when its join handle was found ready; the inner future is not polled in that poll nor
later, and never before completed. -/
theorem C24_none {v : Type} {cap : Option Nat} {j : Nat} {c : SCfg v} (h : SRun cap j c)
    (ho : .out none ∈ c.trace ∨ .joinPoll true ∈ c.trace) :
    ∃ rest, c.trace = .out none :: .joinPoll true :: rest ∧ ∀ e ∈ rest, e = .joinPoll false ∨ e = .innerPoll none := by
  have hm : ∀ e, e ∈ c.trace ↔ e ∈ c.trace.reverse := fun e => List.mem_reverse.symm
  rw [hm, hm] at ho
  obtain ⟨n, h | h | h | ⟨y, h⟩⟩ := C24_shape h <;> rw [h] at ho
  · rcases ho with ho | ho <;> have := pendingPolls_mem ho <;> simp at this
  · rcases ho with ho | ho <;> simp at ho <;> have := pendingPolls_mem ho <;> simp at this
  · have h2 := congrArg List.reverse h
    simp at h2
    exact ⟨_, h2, fun e he => pendingPolls_mem (List.mem_reverse.mp he)⟩
  · rcases ho with ho | ho <;> simp at ho <;> have := pendingPolls_mem ho <;> simp at this

/-- **C24.** If the task yielded `None`, the actor is disconnected: no mailbox or no strong address is left. -/
theorem C24_none_only_disconnected {v : Type} {cap : Option Nat} {j : Nat} {c : SCfg v} (h : SRun cap j c)
    (ho : .out none ∈ c.trace) : c.s.w.rcv = 0 ∨ c.s.w.sc = 0 := by
  refine C23_resolves_only_disconnected (j := j) h.reachable ?_
  induction h with
  | new _ _ => simp at ho
  | step hr hs ih =>
    have hr := hr.reachable
    cases hs with
    | other _ hs => exact (step_suffix hr hs).mem (ih ho)
    | ready hp hs hl => exact List.mem_of_mem_head? hl
    | pending hp hs hl => simp at ho; exact (step_suffix hr hs).mem (ih ho)
    | value hp => simp at ho; exact ih ho
    | again hp => simp at ho; exact ih ho

/-- **C24.** Once no mailbox is left and nothing is in progress, the next poll of an unresolved task yields `None` without polling
the inner future. -/
theorem C24_ends_with_actor {v : Type} {cap : Option Nat} {j : Nat} {c : SCfg v} {wk : Nat} {s' : Sys} (h : SRun cap j c)
    (hq : ∀ x ∈ c.s.th, x = []) (h0 : c.s.w.mailboxRefs = 0) (hp : c.phase = .idle)
    (hs : c.s.step (.call (.pollJoin j wk)) = some s') :
    SStep j c ⟨s', .done, .out none :: .joinPoll true :: c.trace⟩ ∧
    ∀ c', SStep j c c' → (∃ s1, c' = { c with s := s1 }) ∨ c'.trace = .out none :: .joinPoll true :: c.trace := by
  have key : ∀ {wk s'}, c.s.step (.call (.pollJoin j wk)) = some s' → s'.w.log = .joined j :: c.s.w.log := by
    intro wk s' hs
    simp only [Sys.step] at hs
    split at hs
    · rename_i w' ms hc
      simp at hs; subst hs
      have hq' : Quiet cap c.s.w := ⟨c.s.th, h.reachable, hq⟩
      have hc0 := hc
      have hms : ms = [] ∧ ∃ x, c.s.w.objs[j]? = some (.join x) := by
        simp only [call] at hc
        split at hc
        · rename_i ho; simp at hc; exact ⟨hc.2, _, ho⟩
        · rename_i ho; split at hc <;> simp at hc <;> exact ⟨hc.2, _, ho⟩
        · simp at hc
      obtain ⟨rfl, x, ho⟩ := hms
      exact C23_resolves_after_last_mailbox (wk := wk) hq' h0 ho ⟨w', [], hc0, .nil⟩
    · simp at hs
  refine ⟨.ready hp hs (by rw [key hs]; rfl), fun c' hc' => ?_⟩
  cases hc' with
  | other _ _ => exact .inl ⟨_, rfl⟩
  | ready _ _ _ => exact .inr rfl
  | pending _ hs hl => rw [key hs] at hl; simp at hl
  | value hp' => rw [hp] at hp'; simp at hp'
  | again hp' => rw [hp] at hp'; simp at hp'

/-- **C24.** While a mailbox exists, a task made on a connected address (its handle waits on listener `l`) is transparent: it does
not end the inner future; each poll polls the inner future once and resolves exactly if that does, with its value. -/
theorem C24_transparent {v : Type} {cap : Option Nat} {j l : Nat} {c c' : SCfg v} (h : SRun cap j c)
    (ho : c.s.w.objs[j]? = some (.join (some l))) (hr : c.s.w.rcv ≠ 0) (hs : SStep j c c') :
    (∃ s1, c' = { c with s := s1 }) ∨ c'.phase = .inner ∨
    ∃ r, c'.trace = (match r with | some x => [.out (some x)] | none => []) ++ .innerPoll r :: c.trace := by
  cases hs with
  | other _ _ => exact .inl ⟨_, rfl⟩
  | ready _ hs hl =>
    have := (C23_pending_while_mailbox h.reachable ho hr hs).1
    rw [this] at hl; simp at hl
  | pending _ _ _ => exact .inr (.inl rfl)
  | @value x _ => exact .inr (.inr ⟨some x, rfl⟩)
  | again _ => exact .inr (.inr ⟨none, rfl⟩)

/-- A task that is polled twice while the actor lives, and then once more after the mailbox was dropped. -/
def exScopedSched : List Act := [.call (.join 0), .exec 0, .exec 0]

/-- Meets the hypotheses of `C24_shape`, `C24_none`, `C24_none_only_disconnected`. -/
example : ∃ c : SCfg Nat, SRun none 2 c ∧ c.trace = [.out none, .joinPoll true, .innerPoll none, .joinPoll false] ∧
    c.s.w.mailboxRefs = 0 :=
  ⟨_, .step (.step (.step (.step (.step (.step (.step
      (.new (Reachable.run .init (as := exScopedSched) rfl) rfl)
      (.pending (wk := 5) rfl rfl rfl)) (.again rfl))
      (.other (a := .call (.dropMailbox 1)) rfl rfl)) (.other (a := .exec 2) rfl rfl))
      (.other (a := .exec 2) rfl rfl)) (.other (a := .exec 2) rfl rfl)) (.ready (wk := 5) rfl rfl rfl), rfl, rfl⟩

/-- Meets the hypotheses of `C24_shape`, `C24_some`, `C24_transparent`. -/
example : ∃ c : SCfg Nat, SRun none 2 c ∧ c.trace = [.out (some 7), .innerPoll (some 7), .joinPoll false] ∧ c.s.w.rcv ≠ 0 ∧
    c.s.w.objs[2]? = some (.join (some 0)) :=
  ⟨_, .step (.step (.new (Reachable.run .init (as := exScopedSched) rfl) rfl) (.pending (wk := 5) rfl rfl rfl)) (.value (x := 7) rfl),
    rfl, by decide, rfl⟩

/-- The mailbox was dropped, the scoped task is idle. Meets the hypotheses of `C24_ends_with_actor`. -/
example : ∃ (c : SCfg Nat) (s' : Sys), SRun none 2 c ∧ (∀ x ∈ c.s.th, x = []) ∧ c.s.w.mailboxRefs = 0 ∧ c.phase = .idle ∧
    c.s.step (.call (.pollJoin 2 5)) = some s' :=
  ⟨_, _, .step (.step (.step (.step (.step (.step
      (.new (Reachable.run .init (as := exScopedSched) rfl) rfl)
      (.pending (wk := 5) rfl rfl rfl)) (.again rfl))
      (.other (a := .call (.dropMailbox 1)) rfl rfl)) (.other (a := .exec 2) rfl rfl))
      (.other (a := .exec 2) rfl rfl)) (.other (a := .exec 2) rfl rfl), by decide, rfl, rfl, rfl⟩

end Xtra
