import Verif.PropsLen
import Verif.PropsRecv
import Verif.PropsCount
import Verif.PropsSend
/-! # C66: what `len`, `is_empty`, `capacity` and `{:?}` tell about a mailbox

The documentation of `Address` (address.rs:29-64, 158-172) makes claims about them. Some hold, some do not. -/

namespace Xtra

/-- `Address::capacity` (address.rs:166-168, chan.rs:209-211; `MessageChannel`: message_channel.rs:109-111, 331-333). -/
def World.capacityAnswer (w : World) : Option Nat := w.cap

/-- `Address::is_empty` (address.rs:171-173; `MessageChannel`: message_channel.rs:114-116): `len() == 0`, `len` as in chan.rs:204-207. -/
def World.isEmptyAnswer (w : World) : Bool := w.tail + w.uq.length == 0

/-- `impl Debug for Address` (address.rs:67-79; `MessageChannel`: message_channel.rs:174-196): the two numbers that are printed,
`addresses` and `mailboxes`, read one after the other (chan/ptr.rs:67-73); `first` and `second` are the moments of the two reads. -/
def debugAnswer (first second : World) : Nat × Nat := (first.sc, second.rcv)

/-- **C66 (len).** `len` never exceeds twice the capacity, plus one for each message a cancelled receive put back and one for each accepted
`stop_all`. (The documentation says: up to three times the capacity.) -/
theorem C66_len_bound_partial {c : Nat} {s s' : Sys} {i : Nat} (h : Reachable (some c) s) (hs : s.step (.call (.len i)) = some s') :
    ∃ n, s'.w.log = .len i n :: s.w.log ∧ n ≤ 2 * c + s.w.log.countP Ev.isRequeue + s.w.log.countP Ev.isStopAll := by
  obtain ⟨n, h1, h2, -⟩ := C28_never_under_partial h hs
  have h3 := C06_capacity h
  have h4 := (bInv_reachable h).tbound (cap_reachable h)
  rw [evStop_count] at h4
  exact ⟨n, h1, by omega⟩

/-- **C66 (is_empty).** If `is_empty` answers `true`, at any moment in any interleaving, then no unicast message is queued and every live mailbox
is empty; and it answers what `len` would at the same moment. The converse fails only as `len` does (C28). -/
theorem C66_is_empty_partial {cap : Option Nat} {s : Sys} (h : Reachable cap s) :
    (s.w.isEmptyAnswer = true → s.w.uq = [] ∧ ∀ b, s.w.mailboxLive b → s.w.items b = []) ∧
    (∀ {i s'}, s.step (.call (.len i)) = some s' → (s.w.isEmptyAnswer = true ↔ s'.w.log = .len i 0 :: s.w.log)) := by
  constructor
  · intro he
    simp only [World.isEmptyAnswer, beq_iff_eq] at he
    refine ⟨List.length_eq_zero_iff.mp (by omega), fun b hb => ?_⟩
    have := tail_ge h hb
    exact List.length_eq_zero_iff.mp (by omega)
  · intro i s' hs
    obtain ⟨n, h1, h2, -⟩ := C28_never_under_partial h hs
    rw [h1]
    simp only [World.isEmptyAnswer, beq_iff_eq, List.cons.injEq, Ev.len.injEq, true_and, and_true]
    omega

/-- **C66 (is_empty, as a prediction).** If `is_empty` answers `true` while no other call is in progress, then the next poll of a fresh receive
future yields no message: it waits, or says that there are no strong addresses any more. -/
theorem C66_empty_yields_nothing_partial {cap : Option Nat} {w w' : World} {r b wk : Nat} (hq : Quiet cap w) (he : w.isEmptyAnswer = true)
    (hr : w.objs[r]? = some (.recv b .new)) (hd : Does w (.pollRecv r wk) w') :
    (w.sc = 0 ∧ w'.yielded r b .shutdown) ∨ (w.sc ≠ 0 ∧ w'.keptWaiting r b wk) := by
  obtain ⟨th, hs, -⟩ := id hq
  obtain ⟨h1, h2⟩ := (C66_is_empty_partial hs).1 he
  have h3 := h2 b ⟨_, List.mem_of_getElem? hr, by simp [Obj.holdsMailbox]⟩
  simp only at h1 h3
  rcases C01_highest_priority_first hq hr hd with ⟨m, hm, -⟩ | ⟨m, hm, -⟩ | ⟨-, -, h, h'⟩ | ⟨-, -, h, h'⟩
  · rw [h1] at hm; simp at hm
  · rw [h3] at hm; simp at hm
  · exact .inl ⟨h, h'⟩
  · exact .inr ⟨h, h'⟩

/-- **C66 (capacity).** `capacity` always answers what the mailbox was created with. -/
theorem C66_capacity_partial {cap : Option Nat} {s : Sys} (h : Reachable cap s) : s.w.capacityAnswer = cap := cap_reachable h

/-- **C66 (Debug).** Printed while no call is in progress, `addresses` is the number of strong references and `mailboxes` the number of references to
mailboxes; printed in the middle of anything, each of the two numbers was right at the moment it was read, counting what calls in progress own. -/
theorem C66_debug_partial {cap : Option Nat} :
    (∀ {w}, Quiet cap w → debugAnswer w w = (w.strongRefs, w.mailboxRefs)) ∧
    (∀ {s1 s2}, Reachable cap s1 → Reachable cap s2 → debugAnswer s1.w s2.w =
      (s1.w.strongRefs + s1.th.flatten.countP Micro.holdsStrong, s2.w.mailboxRefs + s2.th.flatten.countP Micro.holdsRx)) := by
  constructor
  · intro w hq
    obtain ⟨h1, h2⟩ := C14_counts_exact_quiet hq
    simp [debugAnswer, h1, h2]
  · intro s1 s2 h1 h2
    simp [debugAnswer, (C14_counts_exact h1).1, (C14_counts_exact h2).2]

/-- **C66 (default priority last).** If a fresh receive yields a unicast message of the default priority, then everything queued for its mailbox has
the default priority, unicast and broadcast alike. -/
theorem C66_default_last_partial {cap : Option Nat} {w w' : World} {r b wk : Nat} {m : Msg} (hq : Quiet cap w)
    (hr : w.objs[r]? = some (.recv b .new)) (hd : Does w (.pollRecv r wk) w') (hy : w'.yielded r b (.one m)) (hm : m.prio = .valued 0) :
    (∀ x ∈ w.uq, x.prio = .valued 0) ∧ (∀ x ∈ w.items b, x.prio = .valued 0) := by
  have hz : ∀ p : Prio, p ≤ .valued 0 → p = .valued 0 := by
    intro p hp
    have hp' : Prio.ble p (.valued 0) = true := hp
    cases p with
    | valued n => simp [Prio.ble] at hp'; rw [hp']
    | shutdown => simp [Prio.ble] at hp'
  rcases C01_highest_priority_first hq hr hd with ⟨m', -, h2, h3, h4⟩ | ⟨m', -, -, -, h4⟩ | ⟨-, -, -, h4⟩ | ⟨-, -, -, h4⟩
  · have : m' = m := by have := h4.1.symm.trans hy.1; simpa using this
    subst this
    rw [hm] at h2 h3
    exact ⟨fun x hx => hz _ (h2 x hx), fun x hx => hz _ (h3 x hx)⟩
  · have := h4.1.symm.trans hy.1; simp at this
  · have := h4.1.symm.trans hy.1; simp at this
  · obtain ⟨c, hc⟩ := h4.1
    have := hc.symm.trans hy.1; simp at this

/-! ### What the documentation says and the code does not do -/

/-- Capacity 1: an ordinary message (0) fills the queue; a message with priority 5 (1) is made. -/
def sharedSched : List Act :=
  [.call (.send 0), .call (.detach 2), .call (.pollSend 2 0), .exec 2, .exec 2, .exec 2, .exec 2, .exec 2, .call (.send 0), .call (.setPrio 3 5)]

/-- **"The capacity applies severally to each mailbox", ordinary and priority (address.rs:31-42, 158-166): false.** No priority message is queued,
capacity 1, and a priority message has to wait, because an ordinary one is queued: they share one queue. -/
theorem C66_severally_refuted : ∃ w w' m, Quiet (some 1) w ∧ (∀ x ∈ w.uq, x.prio = .valued 0) ∧
    w.objs[3]? = some (.send .ret 1 (.new m .strong)) ∧ m.prio = .valued 5 ∧ Does w (.pollSend 3 0) w' ∧ w'.parkedSend 3 .ret m := by
  refine ⟨_, _, ⟨1, .valued 5⟩, ⟨_, Reachable.run .init (as := sharedSched) rfl, by decide⟩, by decide, rfl, rfl,
    ⟨_, _, rfl, .cons (.cons (.cons (.cons (.cons .nil))))⟩, ⟨0, some 0, rfl, rfl⟩⟩

/-- A broadcast and an ordinary message, both of the default priority. -/
def tieSched : List Act :=
  [.call (.broadcast 0), .call (.pollSend 2 0), .exec 1, .exec 1, .exec 1, .exec 1, .exec 1, .call (.send 0), .call (.detach 3), .call (.pollSend 3 0),
   .exec 4, .exec 4, .exec 4, .exec 4, .exec 4, .call (.next 1)]

/-- **"An ordinary message is taken only if the other two mailboxes are empty" (address.rs:46-49): false.** A broadcast is waiting and the ordinary
message is taken first, since they have the same priority. -/
theorem C66_default_last_refuted : ∃ w w' m x, Quiet none w ∧ w.objs[4]? = some (.recv 0 .new) ∧ Does w (.pollRecv 4 0) w' ∧
    m.prio = .valued 0 ∧ w'.yielded 4 0 (.one m) ∧ x ∈ w.items 0 := by
  refine ⟨_, _, ⟨1, .valued 0⟩, ⟨0, .valued 0⟩, ⟨_, Reachable.run .init (as := tieSched) rfl, by decide⟩, rfl, ⟨_, _, rfl, .cons .nil⟩, rfl,
    ⟨rfl, rfl⟩, by decide⟩

/-! ### Examples -/

/-- Capacity 1, two messages queued (one put back), `len` is 2 of at most 3. Meets the hypotheses of `C66_len_bound_partial`, `C66_capacity_partial`. -/
example : ∃ s s', Reachable (some 1) s ∧ s.step (.call (.len 0)) = some s' ∧ s'.w.log.head? = some (.len 0 2) ∧ s.w.log.countP Ev.isRequeue = 1 ∧
    s.w.capacityAnswer = some 1 := by
  refine ⟨_, _, Reachable.run .init (as := exRequeueSched) rfl, rfl, rfl, by decide, rfl⟩

/-- Unicast and broadcast queue both full at capacity 1: `len` is twice the capacity. The bound is attained. -/
example : ∃ s s', Reachable (some 1) s ∧ s.step (.call (.len 0)) = some s' ∧ s'.w.log.head? = some (.len 0 2) ∧ s.w.log.countP Ev.isRequeue = 0 ∧
    s.w.log.countP Ev.isStopAll = 0 := by
  refine ⟨_, _, Reachable.run .init (as := tieSched) rfl, rfl, rfl, by decide, by decide⟩

/-- Everything sent has been received: empty, and a fresh receive waits. Meets the hypotheses of `C66_is_empty_partial`,
`C66_empty_yields_nothing_partial`. -/
example : ∃ w w', Quiet (some 1) w ∧ w.isEmptyAnswer = true ∧ w.log.length = 6 ∧ w.objs[4]? = some (.recv 0 .new) ∧ Does w (.pollRecv 4 0) w' ∧
    w'.keptWaiting 4 0 0 :=
  ⟨_, _, ⟨_, Reachable.run .init (as := exHandledSched ++ [.call (.next 1)]) rfl, by decide⟩, by decide, rfl, rfl,
    ⟨_, _, rfl, .cons (.cons .nil)⟩, ⟨_, rfl⟩, rfl⟩

/-- A strong and a weak address, an unsent message, a mailbox and a receive future: `addresses: 2, mailboxes: 2`. Meets the hypotheses of
`C66_debug_partial`. -/
example : ∃ w, Quiet none w ∧ debugAnswer w w = (2, 2) :=
  ⟨_, ⟨_, Reachable.run .init (as := [.call (.downgrade 0), .call (.send 0), .call (.next 1)]) rfl, by decide⟩, rfl⟩

/-- Meets the hypotheses of `C66_default_last_partial`. -/
example : ∃ w w', Quiet none w ∧ w.objs[4]? = some (.recv 0 .new) ∧ Does w (.pollRecv 4 0) w' ∧ w'.yielded 4 0 (.one ⟨1, .valued 0⟩) :=
  ⟨_, _, ⟨_, Reachable.run .init (as := tieSched) rfl, by decide⟩, rfl, ⟨_, _, rfl, .cons .nil⟩, ⟨rfl, rfl⟩⟩

end Xtra
