import Verif.IdealSim4
import Verif.IdealOnce
import Verif.PropsStop
import Verif.PropsPark
import Verif.PropsLost
/-! # C64: the channel refines the ideal mailbox

`Verif/Ideal.lean` is a machine of some forty rules that says what a mailbox does with messages, each operation in one step. Here: every
execution of the modelled code, with all its threads, locks, handles and half-finished calls, is an execution of that machine with the same
history. And what the machine guarantees is stated and proved about the machine alone. -/

namespace Xtra.Ideal
open Xtra

/-- What an ideal mailbox and the state of the system have to agree on. -/
structure Agrees (s : Sys) (i : State) : Prop where
  /-- the same history, apart from the events the ideal mailbox does not speak about -/
  hist : i.hist = s.w.log.filter shown
  cap : i.cap = s.w.cap
  strong : i.strong = s.w.sc
  boxes : i.boxes = s.w.rcv
  next : i.next = s.w.resp.length
  /-- the same queued messages, in the same order -/
  store : i.store = s.w.uq
  box : ∀ b, i.box b = s.w.items b
  live : ∀ b, b ∈ i.live ↔ b ∈ s.w.bqs ∧ s.w.alive b = true
  level : i.level = s.w.tail
  owed : ∀ j, i.answer j = .owed ↔ ∃ wk, s.w.resp[j]? = some (.waiting wk)
  value : ∀ j r, i.answer j = .value r ↔ ∃ wk, s.w.resp[j]? = some (.value r wk)
  interrupted : ∀ j, i.answer j = .interrupted ↔ ∃ wk, s.w.resp[j]? = some (.interrupted wk)
  /-- the same senders wait, with the same messages -/
  parked : ∀ h m, (∃ a, i.ticket h = .parked a m) ↔ ∃ wk, s.w.ws[h]? = some (.active wk m)
  /-- the same receivers hold the same messages -/
  told : ∀ c k, i.seat c = .told k ↔ ∃ wk, s.w.cells[c]? = some (.full k wk)
  waiting : ∀ c, i.seat c = .waiting ↔ ∃ wk, s.w.cells[c]? = some (.empty wk)

theorem abs_agrees (s : Sys) (g : Ghost) : Agrees s (abs s.w s.th g) := by
  refine ⟨rfl, rfl, rfl, rfl, rfl, rfl, fun _ => rfl, fun b => by simp [abs], rfl, ?_, ?_, ?_, ?_, ?_, ?_⟩
  · intro j; simp only [abs, answers, tab]
    cases s.w.resp[j]? with
    | none => simp
    | some x => cases x <;> simp [ofResp]
  · intro j r; simp only [abs, answers, tab]
    cases s.w.resp[j]? with
    | none => simp
    | some x => cases x <;> simp [ofResp]
  · intro j; simp only [abs, answers, tab]
    cases s.w.resp[j]? with
    | none => simp
    | some x => cases x <;> simp [ofResp]
  · intro h m; simp only [abs, tickets, tab]
    cases s.w.ws[h]? with
    | none => simp
    | some x => cases x <;> simp [ofWs]
  · intro c k; simp only [abs, seats, tab]
    cases s.w.cells[c]? with
    | none => simp
    | some x => cases x <;> simp [ofRx]
  · intro c; simp only [abs, seats, tab]
    cases s.w.cells[c]? with
    | none => simp
    | some x => cases x <;> simp [ofRx]

/-- **C64 (simulation).** There is a relation between states of the system and ideal mailboxes such that: a new channel is related to a new
ideal mailbox; whatever the system does next, be it the beginning of an API call or one atomic step of a running one, the ideal mailbox can
do the same in some number of its own steps and they are related again; and related states agree. -/
theorem C64_simulation (cap : Option Nat) : ∃ R : Sys → State → Prop,
    R (init cap) (start cap) ∧
    (∀ s i a s', Reachable cap s → R s i → s.step a = some s' → ∃ i', Steps i i' ∧ R s' i') ∧
    (∀ s i, R s i → Agrees s i) := by
  refine ⟨fun s i => ∃ g, GInv s.w s.th g ∧ i = abs s.w s.th g, ⟨ghost0, init_inv cap, (init_abs cap).symm⟩, ?_, ?_⟩
  · rintro s i a s' hr ⟨g, hg, rfl⟩ hs
    obtain ⟨g', hg', h⟩ := step_sim hr hg hs
    exact ⟨_, h, g', hg', rfl⟩
  · rintro s i ⟨g, -, rfl⟩
    exact abs_agrees s g

/-- **C64.** Every reachable state of the system is, to its users, a state of the ideal mailbox reached by an execution of it with the same
history. -/
theorem C64_refines_ideal_mailbox {cap : Option Nat} {s : Sys} (h : Reachable cap s) :
    ∃ i, Steps (start cap) i ∧ Agrees s i := by
  obtain ⟨R, h0, h1, h2⟩ := C64_simulation cap
  suffices ∃ i, Steps (start cap) i ∧ R s i by
    obtain ⟨i, hi, hr⟩ := this; exact ⟨i, hi, h2 s i hr⟩
  induction h with
  | init => exact ⟨_, .refl, h0⟩
  | step hr hs ih =>
    obtain ⟨i, hi, hri⟩ := ih
    obtain ⟨i', hi', hr'⟩ := h1 _ _ _ _ hr hri hs
    exact ⟨i', hi.trans hi', hr'⟩

/-- **C64 (what the ideal mailbox guarantees, 1).** In every execution of the ideal mailbox: a received unicast message was made as a unicast
message before; a received broadcast was made as a broadcast or is the notice of `stop_all`; a request that was answered with `r` was handled
with result `r`; a request whose answer was `Interrupted` was destroyed. -/
theorem C64_ideal_causes {cap : Option Nat} {i : State} (h : Steps (start cap) i) :
    (∀ r b m, Ev.recv r b (.one m) ∈ i.hist → ∃ f, Ev.made f m.id false ∈ i.hist) ∧
    (∀ r b m, Ev.recv r b (.all m) ∈ i.hist → (∃ f, Ev.made f m.id true ∈ i.hist) ∨ m.prio = .shutdown) ∧
    (∀ f j r, Ev.replyOk f j r ∈ i.hist → Ev.handled j r ∈ i.hist) ∧
    (∀ f j, Ev.replyInt f j ∈ i.hist → Ev.dropped j ∈ i.hist ∨ Ev.lost j ∈ i.hist ∨ Ev.discarded j ∈ i.hist) :=
  have s := Sane.steps h
  ⟨s.one, s.all, s.replyOk, s.replyInt⟩

/-- **C64 (what the ideal mailbox guarantees, 2).** In every execution of the ideal mailbox: no message is received twice, and of the ways in
which a message can end (handled, discarded, destroyed unreceived, lost) at most one happens, and at most once. -/
theorem C64_ideal_once {cap : Option Nat} {i : State} (h : Steps (start cap) i) (j : Nat) :
    i.hist.countP (got j) ≤ 1 ∧ i.hist.countP (ended j) ≤ 1 := by
  obtain ⟨loc, o⟩ := Once.steps h
  have h1 := o.recv j
  have h2 := o.ends j
  constructor
  · split at h1 <;> omega
  · split at h2 <;> omega

/-! ### Examples -/

/-- A message was received and handled. Meets the hypotheses of `C64_ideal_once`. -/
example : ∃ i, Steps (start (some 1)) i ∧ i.hist.countP (got 0) = 1 ∧ i.hist.countP (ended 0) = 1 := by
  obtain ⟨i, hi, ha⟩ := C64_refines_ideal_mailbox (Reachable.run .init (as := exHandledSched) (s := init (some 1)) rfl)
  exact ⟨i, hi, by rw [ha.hist]; decide, by rw [ha.hist]; decide⟩

/-- Capacity 1, two parked senders: an ideal mailbox with one stored message and two parked ones. Meets the hypotheses of
`C64_refines_ideal_mailbox`, `C64_ideal_causes`. -/
example : ∃ s i, Reachable (some 1) s ∧ Steps (start (some 1)) i ∧ Agrees s i ∧ i.store = [⟨0, .valued 0⟩] ∧
    (∃ a, i.ticket 0 = .parked a ⟨1, .valued 5⟩) ∧ (∃ a, i.ticket 1 = .parked a ⟨2, .valued 3⟩) ∧ i.hist.length = 8 := by
  have hr := Reachable.run .init (as := exAdmitSched) (s := init (some 1)) rfl
  obtain ⟨i, hi, ha⟩ := C64_refines_ideal_mailbox hr
  exact ⟨_, i, hr, hi, ha, ha.store, (ha.parked 0 _).mpr ⟨some 1, rfl⟩, (ha.parked 1 _).mpr ⟨some 2, rfl⟩, by rw [ha.hist]; rfl⟩

/-- The next step of the same system: a receive future takes the stored message and the better parked one moves up. Meets the hypotheses of
`C64_simulation`. -/
example : ∃ s s', Reachable (some 1) s ∧ s.step (.exec 9) = some s' ∧ s.w.uq = [⟨0, .valued 0⟩] ∧ s'.w.uq = [⟨1, .valued 5⟩] :=
  ⟨_, _, Reachable.run .init (as := exAdmitSched ++ [.call (.pollRecv 5 9)]) rfl, rfl, rfl, rfl⟩

/-- The interleaving that loses a message (C03) is an execution of the ideal mailbox only by its rule `lose`. -/
example : ∃ i, Steps (start none) i ∧ Ev.lost 0 ∈ i.hist := by
  obtain ⟨i, hi, ha⟩ := C64_refines_ideal_mailbox (Reachable.run .init (as := lostSched) (s := init none) rfl)
  exact ⟨i, hi, by rw [ha.hist]; decide⟩

/-- The ideal mailbox does not do everything: no execution of it yields a message nobody made. -/
example (cap : Option Nat) : ¬ ∃ i, Steps (start cap) i ∧ i.hist = [.recv 2 0 (.one ⟨0, .valued 0⟩)] := by
  rintro ⟨i, hi, hh⟩
  obtain ⟨f, hf⟩ := (C64_ideal_causes hi).1 2 0 ⟨0, .valued 0⟩ (by simp [hh])
  simp [hh] at hf

end Xtra.Ideal
