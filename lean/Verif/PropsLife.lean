import Verif.PropsIdeal
import Verif.IdealLife
/-! # C65: the life of a message

`Justified` (in `Verif/Ideal.lean`) says for every kind of event what must have happened before it, and what must not. Proved about the
ideal mailbox (`Verif/IdealLife.lean`) and carried over to the code by C64. -/

namespace Xtra.Ideal
open Xtra

theorem countP_shown {p : Ev → Bool} (hp : ∀ e, p e = true → shown e = true) (l : List Ev) : (l.filter shown).countP p = l.countP p := by
  rw [List.countP_filter]
  apply List.countP_congr
  intro e _
  simp only [Bool.and_eq_true]
  exact ⟨fun h => h.1, fun h => ⟨h, hp e h⟩⟩

theorem got_shown (j : Nat) (e : Ev) (h : got j e = true) : shown e = true := by cases e <;> simp_all [got, shown]
theorem ended_shown (j : Nat) (e : Ev) (h : ended j e = true) : shown e = true := by cases e <;> simp_all [ended, shown]

theorem Justified.unfilter {e : Ev} {l : List Ev} (h : Justified e (l.filter shown)) : Justified e l := by
  have hg := fun j => countP_shown (got_shown j) l
  have he := fun j => countP_shown (ended_shown j) l
  cases e
  case recv r b am =>
    cases am <;> simp only [Justified, hg, he, List.mem_filter] at h ⊢
    · obtain ⟨⟨f, hf, -⟩, h'⟩ := h; exact ⟨⟨f, hf⟩, h'⟩
    · obtain ⟨T, ⟨hT, -⟩, h'⟩ := h; exact ⟨T, hT, h'⟩
  all_goals
    simp only [Justified, hg, he, List.mem_filter, shown, and_true] at h ⊢
    try exact h

/-- **C65.** In every history of every execution, every event is justified by what happened before it: see `Justified`. -/
theorem C65_life_of_a_message {cap : Option Nat} {s : Sys} (h : Reachable cap s) {later before : List Ev} {e : Ev}
    (hl : s.w.log = later ++ e :: before) : Justified e before := by
  obtain ⟨i, hi, ha⟩ := C64_refines_ideal_mailbox h
  have hc := (Life.steps hi).causal
  rw [ha.hist, hl, List.filter_append] at hc
  cases hs : shown e with
  | true =>
    rw [List.filter_cons_of_pos hs] at hc
    exact hc.split.unfilter
  | false => cases e <;> first | exact trivial | simp [shown] at hs

/-- A request whose answer arrived, read backwards: handled before it was answered, received before it was handled, made before it was
received. Meets the hypotheses of `C65_life_of_a_message`. -/
example : ∃ s later before, Reachable (some 1) s ∧ s.w.log = later ++ .handled 0 42 :: before ∧ Ev.replyOk 2 0 42 ∈ later ∧
    Ev.recv 3 0 (.one ⟨0, .valued 0⟩) ∈ before ∧ Justified (.handled 0 42) before := by
  have hr := Reachable.run .init (as := exHandledSched) (s := init (some 1)) rfl
  refine ⟨_, [.replyOk 2 0 42, .flow 0 (.one ⟨0, .valued 0⟩) false],
    [.recv 3 0 (.one ⟨0, .valued 0⟩), .sendPending 2 0 0, .made 2 0 false], hr, rfl, by decide, by decide, ?_⟩
  exact C65_life_of_a_message hr (later := [.replyOk 2 0 42, .flow 0 (.one ⟨0, .valued 0⟩) false]) rfl

/-- What is not justified: handling a message that was not received, handling it twice, receiving it twice, answering with another value. -/
example (l : List Ev) : ¬ Justified (.handled 0 7) [.made 2 0 false] ∧
    ¬ Justified (.handled 0 7) (.handled 0 3 :: l) ∧
    ¬ Justified (.recv 4 0 (.one ⟨0, .valued 0⟩)) (.recv 3 0 (.one ⟨0, .valued 0⟩) :: l) ∧
    ¬ Justified (.replyOk 2 0 7) [.handled 0 42, .recv 3 0 (.one ⟨0, .valued 0⟩), .made 2 0 false] := by
  refine ⟨?_, ?_, ?_, ?_⟩ <;> simp [Justified, List.countP_cons, got, ended]

end Xtra.Ideal
