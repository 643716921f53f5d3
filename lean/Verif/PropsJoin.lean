import Verif.PropsIdle
/-! # C23: join handles -/

set_option linter.unusedSimpArgs false

namespace Xtra

/-- **C23**, all interleavings: a join handle resolves only if the actor is disconnected: if one has ever resolved, then
no mailbox reference or no strong reference is left. -/
theorem C23_resolves_only_disconnected {cap : Option Nat} {s : Sys} {j : Nat} (h : Reachable cap s)
    (hj : Ev.joined j ∈ s.w.log) : s.w.rcv = 0 ∨ s.w.sc = 0 := (jInv_reachable h).evs j hj

/-- **C23**, all interleavings: a join handle that was created connected stays pending as long as a mailbox reference
exists, whenever it is polled. -/
theorem C23_pending_while_mailbox {cap : Option Nat} {s s' : Sys} {j l wk : Nat} (h : Reachable cap s)
    (ho : s.w.objs[j]? = some (.join (some l))) (hr : s.w.rcv ≠ 0) (hs : s.step (.call (.pollJoin j wk)) = some s') :
    s'.w.log = .joinPending j wk :: s.w.log ∧ s'.w.objs[j]? = some (.join (some l)) := by
  have hlw := (jInv_reachable h).obj j l ho
  have hnt := (jInv_reachable h).ntf l
  simp only [Sys.step, call, ho] at hs
  cases hc : s.w.lst[l]? with
  | none => have := hlw.1; simp at hc; omega
  | some x =>
    cases x with
    | waiting y =>
      simp [hc] at hs; subst hs; exact ⟨rfl, ho⟩
    | notified y => exact absurd (hnt y hc) hr

/-- **C23**, all interleavings: when the last mailbox reference is gone, an unresolved join handle has been notified, or
the call that dropped the last mailbox is still running and is about to notify all handles. -/
theorem C23_notification_under_way {cap : Option Nat} {s : Sys} {j l : Nat} (h : Reachable cap s)
    (ho : s.w.objs[j]? = some (.join (some l))) (hr : s.w.rcv = 0) :
    (∃ x, s.w.lst[l]? = some (.notified x)) ∨
    ((∃ x, s.w.lst[l]? = some (.waiting x)) ∧ ∃ ms ∈ s.th, .shutTx ∈ ms) := by
  have hlw := (jInv_reachable h).obj j l ho
  cases hc : s.w.lst[l]? with
  | none => have := hlw.1; simp at hc; omega
  | some x =>
    cases x with
    | notified y => exact .inl ⟨y, rfl⟩
    | waiting y =>
      right
      refine ⟨⟨y, rfl⟩, ?_⟩
      rcases hlw.2 y hc with h1 | h1
      · omega
      · obtain ⟨ms, hms, mc, hmc, hp⟩ := tot_pos_mem h1
        cases mc <;> simp [mShutTx] at hp
        exact ⟨ms, hms, hmc⟩

/-- **C23.** What that notification does: every waiting handle is notified and its waker woken. -/
theorem C23_notification_effect {w : World} {l : Nat} {x : Option Nat} (hx : w.lst[l]? = some (.waiting x)) :
    (exec w .shutTx).1.lst[l]? = some (.notified x) := by
  have : (exec w .shutTx).1.lst = w.lst.map LCell.notify := by simp [exec, World.shutTx]
  rw [this]; simp [hx, LCell.notify]

/-- **C23.** Once no mailbox reference is left and no call is in progress, every join handle resolves when polled,
whatever the interleaving in which it was created. -/
theorem C23_resolves_after_last_mailbox {cap : Option Nat} {w w' : World} {j wk : Nat} {x : Option Nat} (hq : Quiet cap w)
    (h0 : w.mailboxRefs = 0) (ho : w.objs[j]? = some (.join x)) (hd : Does w (.pollJoin j wk) w') :
    w'.log = .joined j :: w.log := by
  have hrc : w.rcv = 0 := by have := (C14_counts_exact_quiet hq).2; omega
  obtain ⟨w1, ms, hc, hm⟩ := hd
  simp only [call, ho] at hc
  cases x with
  | none => simp at hc; obtain ⟨rfl, rfl⟩ := hc; cases hm; rfl
  | some l =>
    obtain ⟨th, hre, hth⟩ := hq
    rcases C23_notification_under_way hre ho hrc with ⟨y, hy⟩ | ⟨-, ms', hms, hmem⟩
    · simp only at hy; simp [hy] at hc; obtain ⟨rfl, rfl⟩ := hc; cases hm; rfl
    · have := hth ms' hms; rw [this] at hmem; simp at hmem

/-- **C23.** `join` on a disconnected address gives a handle that is ready at once; on a connected one, a handle that
is not (no other call in progress). -/
theorem C23_created {w w' : World} {i : Nat} (hd : Does w (.join i) w') :
    (w.rcv = 0 ∨ w.sc = 0 → w'.objs = w.objs ++ [.join none]) ∧
    (w.rcv ≠ 0 ∧ w.sc ≠ 0 → w'.objs = w.objs ++ [.join (some w.lst.length)] ∧
      w'.lst[w.lst.length]? = some (.waiting none)) := by
  obtain ⟨w1, ms, hc, hm⟩ := hd
  simp only [call] at hc
  split at hc
  · simp at hc; obtain ⟨rfl, rfl⟩ := hc
    cases hm with
    | cons hm =>
      by_cases h1 : w.rcv = 0
      · simp only [exec, World.addObj, h1, if_true] at hm
        cases hm
        simp [World.setObj, h1]
      · simp only [exec, World.addObj, h1, if_false] at hm
        cases hm with
        | cons hm =>
          by_cases h2 : w.sc = 0
          · simp only [exec, h2, if_true] at hm
            cases hm; simp [World.setObj, h2]
          · simp only [exec, h2, if_false] at hm
            cases hm; simp [World.setObj, h1, h2]
  · simp at hc

/-- **C23**, all interleavings, for a `join` whose own loads are out of date: it gives a handle that waits, and a mailbox still exists or the call
that dropped the last one is still running and is about to notify the new handle too. -/
theorem C23_created_out_of_date {cap : Option Nat} {s s' : Sys} {i : Nat} (h : Reachable cap s)
    (hs : s.step (.call (.joinStale i)) = some s') :
    s'.w.objs = s.w.objs ++ [.join (some s.w.lst.length)] ∧ s'.w.lst[s.w.lst.length]? = some (.waiting none) ∧
    (s'.w.rcv ≠ 0 ∨ ∃ ms ∈ s'.th, .shutTx ∈ ms) := by
  have h0 := C23_notification_under_way (h.step hs) (j := s.w.objs.length) (l := s.w.lst.length)
  simp only [Sys.step, call] at hs
  split at hs
  · rename_i hc
    split at hc
    · split at hc
      · simp at hc
      · simp at hc
        obtain ⟨rfl, rfl⟩ := hc
        simp at hs; subst hs
        refine ⟨by simp [World.addObj], by simp [World.addObj], ?_⟩
        by_cases hr : s.w.rcv = 0
        · rcases h0 (by simp [World.addObj]) (by simpa [World.addObj] using hr) with ⟨x, hx⟩ | ⟨-, hx⟩
          · simp [World.addObj] at hx
          · exact .inr hx
        · exact .inl (by simpa [World.addObj] using hr)
    · simp at hc
  · simp at hs

/-- A `join` whose loads are out of date while the only mailbox is being dropped: the handle waits and the drop notifies it; afterwards its poll
resolves. Meets the hypotheses of `C23_created_out_of_date`. -/
example : ∃ s s' s'', Reachable none s ∧ s.w.rcv = 0 ∧ s.step (.call (.joinStale 0)) = some s' ∧
    s'.run [.exec 0, .call (.pollJoin 2 4)] = some s'' ∧ s''.w.log.head? = some (.joined 2) :=
  ⟨_, _, _, Reachable.run .init (as := [.call (.dropMailbox 1), .exec 0]) rfl, rfl, rfl, rfl, rfl⟩

/-- A handle created while connected: pending as long as the mailbox lives, resolved after its drop. -/
def exJoinSched : List Act := [.call (.join 0), .exec 0, .exec 0, .call (.pollJoin 2 5)]

/-- Meets the hypotheses of `C23_pending_while_mailbox`. -/
example : ∃ s s', Reachable none s ∧ s.w.objs[2]? = some (.join (some 0)) ∧ s.w.rcv ≠ 0 ∧
    s.step (.call (.pollJoin 2 5)) = some s' :=
  ⟨_, _, Reachable.run .init (as := exJoinSched) rfl, rfl, by decide, rfl⟩
/-- Meets the hypotheses of `C23_notification_under_way`, `C23_notification_effect`. -/
example : ∃ s, Reachable none s ∧ s.w.objs[2]? = some (.join (some 0)) ∧ s.w.rcv = 0 ∧ s.w.lst[0]? = some (.waiting (some 5)) :=
  ⟨_, Reachable.run .init (as := exJoinSched ++ [.call (.dropMailbox 1), .exec 2]) rfl, rfl, rfl, rfl⟩
/-- Meets the hypotheses of `C23_resolves_after_last_mailbox`, `C23_resolves_only_disconnected`. -/
example : ∃ w w', Quiet none w ∧ w.mailboxRefs = 0 ∧ w.objs[2]? = some (.join (some 0)) ∧ Does w (.pollJoin 2 6) w' ∧
    w'.log.head? = some (.joined 2) :=
  ⟨_, _, ⟨_, Reachable.run .init (as := exJoinSched ++ [.call (.dropMailbox 1), .exec 2, .exec 2, .exec 2]) rfl, by decide⟩, rfl, rfl,
    ⟨_, _, rfl, .nil⟩, rfl⟩
/-- Created between the drop of the last mailbox and its notification: ready at once. -/
example : ∃ s, Reachable none s ∧ s.w.objs[2]? = some (.join none) ∧ (∃ ms ∈ s.th, .shutTx ∈ ms) :=
  ⟨_, Reachable.run .init (as := [.call (.dropMailbox 1), .exec 0, .call (.join 0), .exec 1]) rfl, rfl, by decide⟩
/-- Meets the hypotheses of `C23_created`. -/
example : ∃ w w', Quiet none w ∧ w.rcv ≠ 0 ∧ w.sc ≠ 0 ∧ Does w (.join 0) w' :=
  ⟨_, _, ⟨_, .init, by decide⟩, by decide, by decide, ⟨_, _, rfl, .cons (.cons .nil)⟩⟩

end Xtra
