import Verif.PropsLife
/-! # C68: awaiting orders messages -/

namespace Xtra

/-! ## Specification -/

/-- In the history `log` (newest first) some occurrence of `e` is older than some occurrence of `e'`. -/
def Before (log : List Ev) (e e' : Ev) : Prop := ∃ later mid older, log = later ++ e' :: mid ++ e :: older

/-- The event is one in the life of message `j` after it was made: it waits, is accepted, refused, put into the mailboxes, received,
put back, handled, destroyed, answered. -/
def Ev.concerns (j : Nat) : Ev → Prop
  | .sendPending _ i _ => i = j
  | .sendOk _ i => i = j
  | .sendErr _ i => i = j
  | .bsent m _ => m.id = j
  | .recv _ _ (.one m) => m.id = j
  | .recv _ _ (.all m) => m.id = j
  | .requeued i => i = j
  | .dropped i => i = j
  | .lost i => i = j
  | .handled i _ => i = j
  | .discarded i => i = j
  | .replyOk _ i _ => i = j
  | .replyInt _ i => i = j
  | _ => False

/-! ## Proofs -/

open Ideal in
/-- A message is made before anything else happens to it. -/
theorem made_first {cap : Option Nat} {s : Sys} (h : Reachable cap s) {g j : Nat} {bc : Bool} (hm : .made g j bc ∈ s.w.log)
    {later before : List Ev} {e : Ev} (hl : s.w.log = later ++ e :: before) (he : e.concerns j) : .made g j bc ∈ before := by
  have k := kInv_reachable h
  -- any event that says that `j` was made is this one
  have this1 : ∀ {f : Nat} {b : Bool} {l : List Ev}, (∀ x ∈ l, x ∈ s.w.log) → .made f j b ∈ l → .made g j bc ∈ l := by
    intro f b l hsub hf
    obtain ⟨h1, h2⟩ := k.uniq _ _ _ _ _ _ hm (hsub _ hf)
    rw [h1.mpr rfl, h2 rfl]; exact hf
  have sub : ∀ {a c : List Ev} {x : Ev}, s.w.log = a ++ x :: c → ∀ y ∈ c, y ∈ s.w.log := by
    intro a c x h1 y hy; rw [h1]; simp [hy]
  have split : ∀ {x : Ev}, x ∈ before → ∃ a c, s.w.log = a ++ x :: c ∧ ∀ y ∈ c, y ∈ before := by
    intro x hx
    obtain ⟨a, c, rfl⟩ := List.append_of_mem hx
    exact ⟨later ++ e :: a, c, by simp [hl], by intro y hy; simp [hy]⟩
  have one : ∀ {a c : List Ev} {r b : Nat} {m : Msg}, s.w.log = a ++ .recv r b (.one m) :: c → m.id = j → .made g j bc ∈ c := by
    intro a c r b m h1 h2
    obtain ⟨⟨f, hf⟩, -⟩ := C65_life_of_a_message h h1
    rw [h2] at hf
    exact this1 (sub h1) hf
  have sent : ∀ {a c : List Ev} {T : List Nat} {m : Msg}, s.w.log = a ++ .bsent m T :: c → m.id = j → .made g j bc ∈ c := by
    intro a c T m h1 h2
    rcases C65_life_of_a_message h h1 with ⟨f, hf⟩ | hp
    · rw [h2] at hf; exact this1 (sub h1) hf
    · have := k.evs (.bsent m T) (by rw [h1]; simp)
      rcases this with ⟨-, h3⟩ | ⟨-, h3⟩
      · rw [hp] at h3; simp at h3
      · rw [h2] at h3; exact absurd hm (h3 g bc)
  have J := C65_life_of_a_message h hl
  cases e <;> simp only [Ev.concerns] at he
  case recv r b am =>
    cases am <;> simp only [Ev.concerns] at he
    case one m => exact one hl he
    case all m =>
      obtain ⟨T, hT, -⟩ := J
      obtain ⟨a, c, h1, h2⟩ := split hT
      exact h2 _ (sent h1 he)
  case bsent m T => exact sent hl he
  case handled i v =>
    obtain ⟨⟨r, b, m, hr, hi⟩, -⟩ := J
    obtain ⟨a, c, h1, h2⟩ := split hr
    exact h2 _ (one h1 (hi.trans he))
  case discarded i =>
    obtain ⟨⟨r, b, m, hr, hi⟩, -⟩ := J
    obtain ⟨a, c, h1, h2⟩ := split hr
    exact h2 _ (one h1 (hi.trans he))
  all_goals subst he
  case sendPending => obtain ⟨b, hb⟩ := J; exact this1 (sub hl) hb
  case sendOk => obtain ⟨b, hb⟩ := J; exact this1 (sub hl) hb
  case sendErr => obtain ⟨⟨b, hb⟩, -⟩ := J; exact this1 (sub hl) hb
  case requeued => obtain ⟨⟨f, hb⟩, -⟩ := J; exact this1 (sub hl) hb
  case dropped => obtain ⟨⟨f, b, hb⟩, -⟩ := J; exact this1 (sub hl) hb
  case lost => obtain ⟨⟨f, hb⟩, -⟩ := J; exact this1 (sub hl) hb
  case replyOk => exact this1 (sub hl) J.1
  case replyInt => exact this1 (sub hl) J.1

theorem split_unique {x : Ev} {a b a' b' : List Ev} (h : a ++ x :: b = a' ++ x :: b') (h1 : x ∉ b) (h2 : x ∉ b') : b = b' := by
  rcases List.append_eq_append_iff.mp h with ⟨c, h3, h4⟩ | ⟨c, h3, h4⟩
  · cases c with
    | nil => simpa using h4
    | cons y c =>
      simp only [List.cons_append, List.cons.injEq] at h4
      exact absurd (by rw [h4.2]; simp) h1
  · cases c with
    | nil => simpa using h4.symm
    | cons y c =>
      simp only [List.cons_append, List.cons.injEq] at h4
      exact absurd (by rw [h4.2]; simp) h2

/-- **C68.** Whatever had happened when a message was made happened before anything that ever happens to the message. -/
theorem C68_past_of_a_message {cap : Option Nat} {s : Sys} (h : Reachable cap s) {x : Ev} {g j : Nat} {bc : Bool}
    (hx : Before s.w.log x (.made g j bc)) {later before : List Ev} {e : Ev} (hl : s.w.log = later ++ e :: before) (he : e.concerns j) :
    x ∈ before := by
  obtain ⟨l, m, o, ho⟩ := hx
  rw [List.append_assoc, List.cons_append] at ho
  have hmade := made_first h (g := g) (j := j) (bc := bc) (by rw [ho]; simp) hl he
  obtain ⟨b1, b2, rfl⟩ := List.append_of_mem hmade
  have ho' : s.w.log = (later ++ e :: b1) ++ .made g j bc :: b2 := by simp [hl]
  have := split_unique (ho.symm.trans ho') (Ideal.C65_life_of_a_message h ho g bc) (Ideal.C65_life_of_a_message h ho' g bc)
  simp [← this]

/-- **C68.** A message that is made after the answer to a request was seen (by its maker: it awaited the request) is received, handled,
answered or destroyed only after that request was handled: whichever actors handle the two, whatever their priorities, and whether the
second is a request or a broadcast. -/
theorem C68_awaited_first {cap : Option Nat} {s : Sys} (h : Reachable cap s) {f i v g j : Nat} {bc : Bool}
    (hx : Before s.w.log (.replyOk f i v) (.made g j bc)) {later before : List Ev} {e : Ev} (hl : s.w.log = later ++ e :: before)
    (he : e.concerns j) : .handled i v ∈ before := by
  obtain ⟨b1, b2, rfl⟩ := List.append_of_mem (C68_past_of_a_message h hx hl he)
  have hl' : s.w.log = (later ++ e :: b1) ++ .replyOk f i v :: b2 := by simp [hl]
  have := (Ideal.C65_life_of_a_message h hl').2
  simp [this]

/-- Specification: the answer to `i` was seen before `j` was made. -/
def AwaitedBefore (log : List Ev) (i j : Nat) : Prop := ∃ f v g bc, Before log (.replyOk f i v) (.made g j bc)

/-- Specification: of the messages `is` each was made after the answer to the one before it was seen. -/
def InTurn (log : List Ev) : List Nat → Prop
  | i :: j :: is => AwaitedBefore log i j ∧ InTurn log (j :: is)
  | _ => True

theorem AwaitedBefore.trans {cap : Option Nat} {s : Sys} (h : Reachable cap s) {i j k : Nat} (h1 : AwaitedBefore s.w.log i j)
    (h2 : AwaitedBefore s.w.log j k) : AwaitedBefore s.w.log i k := by
  obtain ⟨f, v, g, bc, hx⟩ := h1
  obtain ⟨f', v', g', bc', l, m, o, ho⟩ := h2
  have := C68_past_of_a_message h hx (later := l ++ .made g' k bc' :: m) (before := o) (e := .replyOk f' j v') (by simp [ho]) rfl
  obtain ⟨o1, o2, rfl⟩ := List.append_of_mem this
  exact ⟨f, v, g', bc', l, m ++ .replyOk f' j v' :: o1, o2, by simp [ho]⟩

/-- **C68.** A client that makes its requests one at a time, each after the answer to the one before, has them handled in that order: when
anything happens to one of them, all the earlier ones have been handled. -/
theorem C68_one_at_a_time {cap : Option Nat} {s : Sys} (h : Reachable cap s) {is : List Nat} (hi : InTurn s.w.log is) :
    is.Pairwise fun i j => ∀ later before e, s.w.log = later ++ e :: before → e.concerns j → ∃ v, .handled i v ∈ before := by
  have key : is.Pairwise (AwaitedBefore s.w.log) := by
    induction is with
    | nil => exact .nil
    | cons i is ih =>
      cases is with
      | nil => simp
      | cons j is =>
        have ih := ih hi.2
        refine List.pairwise_cons.mpr ⟨fun k hk => ?_, ih⟩
        rcases List.mem_cons.mp hk with rfl | hk
        · exact hi.1
        · exact hi.1.trans h ((List.pairwise_cons.mp ih).1 k hk)
  refine key.imp ?_
  intro i j ⟨f, v, g, bc, hx⟩ later before e hl he
  exact ⟨v, C68_awaited_first h hx hl he⟩

def exTurnSched : List Act :=
  exHandledSched ++ [.call (.send 0), .call (.pollSend 4 0), .exec 8, .exec 8, .exec 8, .exec 8, .exec 8, .call (.next 1),
    .call (.pollRecv 5 0), .exec 10, .call (.dispatch 5), .call (.finish 5 43), .exec 12, .exec 12, .exec 12, .call (.pollSend 4 0), .exec 13,
    .call (.broadcast 0), .call (.pollSend 6 0), .exec 15, .exec 15, .exec 15]

/-- A client awaits request 0, then request 1, then broadcasts message 2, which is being put into the mailbox: by then both have been handled.
Meets the hypotheses of `C68_past_of_a_message`, `C68_awaited_first`, `C68_one_at_a_time`. -/
example : ∃ s before, Reachable (some 1) s ∧ InTurn s.w.log [0, 1, 2] ∧ s.w.log = .bsent ⟨2, .valued 0⟩ [0] :: before ∧
    (Ev.bsent ⟨2, .valued 0⟩ [0]).concerns 2 ∧ .handled 0 42 ∈ before ∧ .handled 1 43 ∈ before := by
  refine ⟨_, _, Reachable.run .init (as := exTurnSched) rfl, ⟨⟨2, 42, 4, false, ?_⟩, ⟨4, 43, 6, true, ?_⟩, trivial⟩, rfl, rfl, by decide, by decide⟩
  · exact ⟨[.bsent ⟨2, .valued 0⟩ [0], .made 6 2 true, .replyOk 4 1 43, .flow 0 (.one ⟨1, .valued 0⟩) false, .handled 1 43,
      .recv 5 0 (.one ⟨1, .valued 0⟩), .sendPending 4 1 0], [], _, rfl⟩
  · exact ⟨[.bsent ⟨2, .valued 0⟩ [0]], [], _, rfl⟩

end Xtra
