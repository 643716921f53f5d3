import Verif.PropsConc3
import Verif.PropsBcast
/-! # C69: broadcasts that wait for room, and shutdown -/

namespace Xtra

theorem Reachable.has_box {cap : Option Nat} {s : Sys} (h : Reachable cap s) : 0 < s.w.bq.length := by
  obtain ⟨as, hr⟩ := reachable_schedule h
  have := (run_dead as .init hr).1
  simp [Xtra.init] at this; omega

/-- No broadcast waits for room if every mailbox ever created is alive and none is full. -/
theorem no_parked_all {cap : Option Nat} {s : Sys} (h : Reachable cap s) (hk : ∀ b, b < s.w.bq.length → s.w.mailboxLive b)
    (hlt : ∀ c, cap = some c → ∀ b, s.w.mailboxLive b → (s.w.items b).length < c) : parkedMsgs s.w.ws s.w.wAll = [] := by
  rw [List.eq_nil_iff_forall_not_mem]
  intro m hm
  obtain ⟨k, wk, h1, h2⟩ := mem_parkedMsgs.mp hm
  have hlen := h.has_box
  obtain ⟨-, ht, hb⟩ := bp_reachable h (fun b hb => mailboxLive_alive h (hk b hb)) (mailboxLive_rcv h (hk 0 hlen))
  have hf := hb _ h1 _ _ h2
  unfold World.bcFull at hf
  rw [cap_reachable h] at hf
  cases cap with
  | none => simp at hf
  | some c =>
    simp at hf
    rcases ht with h0 | ⟨b, h3, h4⟩
    · have := hlt c rfl 0 (hk 0 hlen); omega
    · have := hlt c rfl b (hk b (alive_lt h3)); omega

/-- **C69 (partial).** An actor receives successively until it is told to shut down; at the end every mailbox ever created is alive and no
other one is full (in particular: this is the only mailbox there ever was). Capacity at least 1, or unbounded. Then the message of every
broadcast that was waiting for room at the start was yielded exactly once. Missing: mailboxes that lag behind (false: `C69_refuted`), and
mailboxes that were dropped (`C30_refuted`). -/
theorem C69_drained_partial {cap : Option Nat} {i b : Nat} {w w' : World} {ams : List AMsg} (hq : Quiet cap w)
    (hi : w.objs[i]? = some (.mailbox b)) (hc : cap ≠ some 0) (hr : Receives i b w ams w') (hs : .shutdown ∈ ams)
    (hk : ∀ b', b' < w'.bq.length → w'.mailboxLive b')
    (hlt : ∀ c, cap = some c → ∀ b', b' ≠ b → w'.mailboxLive b' → (w'.items b').length < c) :
    ∀ f m, w.parkedSend f .bcast m → ams.count (.all m) = 1 := by
  intro f m hp
  have d := receives_drained hr hq hi
  obtain ⟨h1, h2, h3⟩ := d.shut hs
  have hn : parkedMsgs w'.ws w'.wAll = [] := by
    obtain ⟨th, hr', -⟩ := d.quiet
    refine no_parked_all hr' hk fun c hcap b' hb' => ?_
    by_cases hbb : b' = b
    · subst hbb
      rw [h2]
      have : c ≠ 0 := by rintro rfl; exact hc hcap
      simp; omega
    · exact hlt c hcap b' hbb hb'
  have hm : m ∈ w.pB b := by
    obtain ⟨h, wk, h4, h5⟩ := hp
    obtain ⟨th, hr', -⟩ := id hq
    have := (parked_reg hr' h4 h5).2 rfl
    exact List.mem_append.mpr (.inr (mem_parkedMsgs.mpr ⟨h, wk, this, h5⟩))
  have h4 := hq.items_count hm
  have h5 := d.bc.count_eq m
  simp only [World.pB, h2, hn, List.append_nil] at h5
  rw [count_all, h5]
  exact h4

/-- **C69 (partial)**, all interleavings. A receive that was not waiting yields the shutdown notice; as long as every mailbox ever created is
alive, a broadcast that is waiting for room at that moment waits for another mailbox than this one. Missing: see `C69_refuted`. -/
theorem C69_notice_partial {cap : Option Nat} {s s' : Sys} {t b r wk : Nat} {rest : List Micro} (h : Reachable cap s)
    (hcap : cap ≠ some 0) (ht : s.th[t]? = some (.recvTry r b wk :: rest)) (hs : s.step (.exec t) = some s')
    (hy : .recv r b .shutdown ∈ s'.w.log) (ho : .recv r b .shutdown ∉ s.w.log)
    (hk : ∀ b, b < s.w.bq.length → s.w.mailboxLive b) {f : Nat} {m : Msg} (hp : s.w.parkedSend f .bcast m) :
    ∃ c b', cap = some c ∧ b' ≠ b ∧ s.w.mailboxLive b' ∧ c ≤ (s.w.items b').length := by
  obtain ⟨c, rfl, b', h1, h2⟩ := C30_parked_partial h hk hp
  refine ⟨c, b', rfl, ?_, h1, h2⟩
  rintro rfl
  rcases (C13_notice_concurrent h hs hy ho).2 with ⟨-, h3, -⟩ | ⟨t', c', wk', rest', x, h3, h4, -⟩
  · rw [h3] at h2
    simp at h2; subst h2; exact hcap rfl
  · cases h3
    rw [ht] at h4; simp at h4

/-- Capacity 1, two mailboxes. A first broadcast is in both; the actor of mailbox 0 takes it, that of mailbox 1 does not. A second broadcast
has to wait. -/
def exAheadSched : List Act :=
  exLenSched ++ [.call (.next 1), .call (.pollRecv 4 0), .exec 4, .call (.broadcast 0), .call (.pollSend 5 7), .exec 6, .exec 6, .exec 6,
    .exec 6, .exec 6]

/-- … The last address is dropped. -/
def exAheadDropped : List Act := exAheadSched ++ [.call (.dropAddr 0), .exec 7, .exec 7]

/-- **C69 is false of the code** (capacity 1, no call in progress). A broadcast was made through a strong address while mailbox 0 existed, and
waits for room in mailbox 1; the last address is dropped. The actor of mailbox 0 is told to shut down, and goes; then the actor of mailbox 1
takes the message it had, the waiting broadcast is put into the mailboxes, and its sender is told that it was sent: but the first actor
never received it, although its mailbox was empty all the time. -/
theorem C69_refuted : ∃ w w1 w2, Quiet (some 1) w ∧ w.strongRefs = 0 ∧ w.objs[1]? = some (.mailbox 0) ∧ w.items 0 = [] ∧ w.uq = [] ∧
    w.parkedSend 5 .bcast ⟨1, .valued 0⟩ ∧ Receives 1 0 w [.shutdown] w1 ∧
    DoesAll w1 [.dropMessage 6, .dropMessage 4, .dropMailbox 1, .next 2, .pollRecv 7 0, .pollSend 5 8] w2 ∧
    ¬ w2.mailboxLive 0 ∧ .bsent ⟨1, .valued 0⟩ [1] ∈ w2.log ∧ .sendOk 5 1 ∈ w2.log ∧
    ∀ r, .recv r 0 (.all ⟨1, .valued 0⟩) ∉ w2.log := by
  refine ⟨_, _, _, ⟨_, Reachable.run .init (as := exAheadDropped) rfl, by decide⟩, rfl, rfl, rfl, rfl, ⟨0, _, rfl, rfl⟩,
    .recv (wk := 0) ⟨_, _, rfl, .nil⟩ ⟨_, _, rfl, .cons .nil⟩ ⟨rfl, rfl⟩ .nil,
    .cons ⟨_, _, rfl, .cons (.cons (.cons .nil))⟩ (.cons ⟨_, _, rfl, .cons (.cons (.cons .nil))⟩ (.cons ⟨_, _, rfl, .cons (.cons .nil)⟩
      (.cons ⟨_, _, rfl, .nil⟩ (.cons ⟨_, _, rfl, .cons .nil⟩ (.cons ⟨_, _, rfl, .cons (.cons .nil)⟩ .nil))))), ?_, ?_, ?_, ?_⟩
  · unfold World.mailboxLive; decide
  · decide
  · decide
  · intro r hr
    have hall : ∀ {l : List Ev}, (l.all fun e => match e with | .recv _ 0 (.all m) => m.id != 1 | _ => true) = true →
        .recv r 0 (.all ⟨1, .valued 0⟩) ∉ l := by
      intro l h hm; simpa using List.all_eq_true.mp h _ hm
    exact hall rfl hr

theorem two_live {w : World} (h : w.bq.length = 2) (h0 : .mailbox 0 ∈ w.objs) (h1 : .mailbox 1 ∈ w.objs) :
    ∀ b, b < w.bq.length → w.mailboxLive b := by
  intro b hb
  rw [h] at hb
  match b with
  | 0 => exact ⟨.mailbox 0, h0, rfl⟩
  | 1 => exact ⟨.mailbox 1, h1, rfl⟩
  | b + 2 => omega

/-- The actor that lags behind has no such trouble, and neither has one that goes on receiving: in the same situation the actor of mailbox 1
receives both broadcasts before it is told to shut down. Meets the hypotheses of `C69_drained_partial` (at the end no other mailbox is full). -/
example : ∃ w w', Quiet (some 1) w ∧ w.objs[2]? = some (.mailbox 1) ∧ w.parkedSend 5 .bcast ⟨1, .valued 0⟩ ∧
    Receives 2 1 w [.all ⟨0, .valued 0⟩, .all ⟨1, .valued 0⟩, .shutdown] w' ∧ (∀ b, b < w'.bq.length → w'.mailboxLive b) ∧
    w'.bq.length = 2 := by
  refine ⟨_, _, ⟨_, Reachable.run .init (as := exAheadDropped) rfl, by decide⟩, rfl, ⟨0, _, rfl, rfl⟩,
    .recv (wk := 0) ⟨_, _, rfl, .nil⟩ ⟨_, _, rfl, .cons .nil⟩ ⟨rfl, rfl⟩
    (.recv (wk := 0) ⟨_, _, rfl, .nil⟩ ⟨_, _, rfl, .cons .nil⟩ ⟨rfl, rfl⟩
    (.recv (wk := 0) ⟨_, _, rfl, .nil⟩ ⟨_, _, rfl, .cons .nil⟩ ⟨rfl, rfl⟩ .nil)), ?_, rfl⟩
  exact two_live rfl (List.mem_of_getElem? (i := 1) rfl) (List.mem_of_getElem? (i := 2) rfl)

/-- Capacity 1, one mailbox: one broadcast in it, one waiting, the address dropped. -/
def exLoneSched : List Act :=
  [.call (.broadcast 0), .call (.pollSend 2 0), .exec 1, .exec 1, .exec 1, .exec 1, .exec 1, .call (.broadcast 0), .call (.pollSend 3 7),
    .exec 3, .exec 3, .exec 3, .exec 3, .exec 3, .call (.dropAddr 0), .exec 4, .exec 4]

/-- … both are received before the notice. Meets the hypotheses of `C69_drained_partial`. -/
example : ∃ w w', Quiet (some 1) w ∧ w.objs[1]? = some (.mailbox 0) ∧ w.parkedSend 3 .bcast ⟨1, .valued 0⟩ ∧
    Receives 1 0 w [.all ⟨0, .valued 0⟩, .all ⟨1, .valued 0⟩, .shutdown] w' ∧ w'.mailboxLive 0 ∧ w'.bq.length = 1 :=
  ⟨_, _, ⟨_, Reachable.run .init (as := exLoneSched) rfl, by decide⟩, rfl, ⟨0, _, rfl, rfl⟩,
    .recv (wk := 0) ⟨_, _, rfl, .nil⟩ ⟨_, _, rfl, .cons .nil⟩ ⟨rfl, rfl⟩
    (.recv (wk := 0) ⟨_, _, rfl, .nil⟩ ⟨_, _, rfl, .cons .nil⟩ ⟨rfl, rfl⟩
    (.recv (wk := 0) ⟨_, _, rfl, .nil⟩ ⟨_, _, rfl, .cons .nil⟩ ⟨rfl, rfl⟩ .nil)), ⟨.mailbox 0, by decide, rfl⟩, rfl⟩

/-- The notice for mailbox 0, while the second broadcast waits for mailbox 1. Meets the hypotheses of `C69_notice_partial`. -/
example : ∃ s s', Reachable (some 1) s ∧ s.th[9]? = some [.recvTry 6 0 0] ∧ s.step (.exec 9) = some s' ∧
    s'.w.log = .recv 6 0 .shutdown :: s.w.log ∧ s.w.parkedSend 5 .bcast ⟨1, .valued 0⟩ ∧
    (∀ b, b < s.w.bq.length → s.w.mailboxLive b) ∧ s.w.items 1 = [⟨0, .valued 0⟩] := by
  refine ⟨_, _, Reachable.run .init (as := exAheadDropped ++ [.call (.next 1), .call (.pollRecv 6 0)]) rfl, rfl, rfl, rfl, ⟨0, _, rfl, rfl⟩,
    ?_, rfl⟩
  exact two_live rfl (List.mem_of_getElem? (i := 1) rfl) (List.mem_of_getElem? (i := 2) rfl)

end Xtra
