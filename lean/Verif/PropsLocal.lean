import Verif.Local

/-!
# C62: giving up on an answer is invisible to everybody else
-/

namespace Xtra

/-- Specification: `c` gives up an answer that is only waited for: it drops a detached `Receiver`, a send
future whose message has already been taken by the channel, or a join handle. -/
def GivesUp (s : Sys) (o : Nat) (c : Call) : Prop :=
  (∃ mid, s.w.objs[o]? = some (.reply mid) ∧ c = .dropReply o) ∨
  (∃ md mid, s.w.objs[o]? = some (.send md mid .done) ∧ c = .dropSend o) ∨
  (∃ l, s.w.objs[o]? = some (.join l) ∧ c = .dropJoin o)

/-- Specification: the two systems have the same history, the same channel (queues, waiting senders and
receivers, counts, replies, join listeners) and the same objects in the user's hands except `o`. -/
def SameElsewhere (o : Nat) (s s' : Sys) : Prop :=
  s.w.log = s'.w.log ∧ s.w = { s'.w with objs := s.w.objs } ∧ ∀ i, i ≠ o → s.w.objs[i]? = s'.w.objs[i]?

theorem SimBut.elsewhere {o k : Nat} {s1 s2 : Sys} (h : SimBut o k s1 s2) : SameElsewhere o s2 s1 := by
  obtain ⟨⟨x, hx, hl, he, hg⟩, _⟩ := h
  refine ⟨by rw [hx]; rfl, by rw [hx]; rfl, fun i hi => ?_⟩
  rw [hx]
  exact (he i hi).symm

theorem givesUp_sim {s s1 : Sys} {o : Nat} {c : Call} (hc : GivesUp s o c)
    (h1 : s.step (.call c) = some s1) : SimBut o s.th.length s1 s := by
  have key : ∀ ob, s.w.objs[o]? = some ob → s1 = ⟨s.w.setObj o .gone, s.th ++ [[]]⟩ →
      SimBut o s.th.length s1 s := by
    intro ob hob hs1
    subst hs1
    have hlt : o < s.w.objs.length := by
      rcases Nat.lt_or_ge o s.w.objs.length with h | h
      · exact h
      · rw [List.getElem?_eq_none h] at hob; cases hob
    refine ⟨⟨s.w.objs.set o .gone, rfl, by simp, fun i hi => ?_, .inl ?_⟩, s.th, [], by simp, rfl, rfl⟩
    · rw [List.getElem?_set_ne (Ne.symm hi)]
    · rw [List.getElem?_set_self hlt]
  rcases hc with ⟨mid, hob, rfl⟩ | ⟨md, mid, hob, rfl⟩ | ⟨l, hob, rfl⟩ <;>
    exact key _ hob (by simpa [Sys.step, call, hob] using h1.symm)

/-- C62: after a reply, a queued send or a join handle has been given up, everything that can happen could
have happened without: the same schedule (`Act.skip` only renumbers the threads), the same history, the same
channel, the same objects everywhere else. -/
theorem C62_giving_up_changes_nothing {s s1 s1' : Sys} {o : Nat} {c : Call} (hc : GivesUp s o c)
    (h1 : s.step (.call c) = some s1) {as : List Act} (hr : s1.run as = some s1') :
    ∃ s', s.run (as.map (Act.skip s.th.length)) = some s' ∧ SameElsewhere o s' s1' := by
  obtain ⟨s', h, hs⟩ := run_simBut (givesUp_sim hc h1) hr
  exact ⟨s', h, hs.elsewhere⟩

/-- C62, conversely: everything that could have happened without, and does not use the given up object, can
happen after it: nothing else becomes impossible. -/
theorem C62_giving_up_prevents_nothing {s s1 s' : Sys} {o : Nat} {c : Call} (hc : GivesUp s o c)
    (h1 : s.step (.call c) = some s1) {as : List Act} (ha : ∀ a ∈ as, a.avoids o) (hr : s.run as = some s') :
    ∃ s1', s1.run (as.map (Act.shift s.th.length)) = some s1' ∧ SameElsewhere o s' s1' := by
  obtain ⟨s1', h, hs⟩ := run_simBut_conv (givesUp_sim hc h1) ha hr
  exact ⟨s1', h, hs.elsewhere⟩

/-- C62 in terms of one message: whether and with what result the message is handled does not depend on
whether its sender still waits for the reply. -/
theorem C62_handled_all_the_same {s s1 s1' : Sys} {o : Nat} {c : Call} (hc : GivesUp s o c)
    (h1 : s.step (.call c) = some s1) {as : List Act} (hr : s1.run as = some s1') (mid r : Nat)
    (hh : Ev.handled mid r ∈ s1'.w.log) :
    ∃ s', s.run (as.map (Act.skip s.th.length)) = some s' ∧ Ev.handled mid r ∈ s'.w.log := by
  obtain ⟨s', h, hs⟩ := C62_giving_up_changes_nothing hc h1 hr
  exact ⟨s', h, by rw [hs.1]; exact hh⟩

/-! ## Concrete cases -/

/-- A message is sent and waits in the queue; the sender polls once and is pending. -/
def givenSent : List Act :=
  [.call (.send 0), .call (.pollSend 2 0), .exec 1, .exec 1, .exec 1, .exec 1, .exec 1]

/-- The mailbox receives and handles it. -/
def givenServe : List Act :=
  [.call (.next 1), .call (.pollRecv 3 0), .exec 3, .call (.dispatch 3), .call (.finish 3 9), .exec 5, .exec 5, .exec 5]

/-- The hypotheses are met: the sender gives up while its message is queued (say, a timeout), and the message is
handled afterwards.
Meets the hypotheses of `C62_giving_up_changes_nothing`, `C62_giving_up_prevents_nothing`, `C62_handled_all_the_same`. -/
example : ∃ s s1 s1', Reachable none s ∧ GivesUp s 2 (.dropSend 2) ∧ s.step (.call (.dropSend 2)) = some s1 ∧
    s1.run (givenServe.map (Act.shift s.th.length)) = some s1' ∧ Ev.handled 0 9 ∈ s1'.w.log := by
  refine ⟨_, _, _, Reachable.run .init (as := givenSent) rfl, .inr (.inl ⟨.ret, 0, rfl, rfl⟩), rfl, rfl, by decide⟩

end Xtra
