import Verif.Clear
/-! # C11: pending sends are released when the actor goes away -/

set_option linter.unusedSimpArgs false

namespace Xtra

theorem killAll_mem (ms : List Msg) {w : World} {m : Msg} (h : m ∈ ms) : Ev.dropped m.id ∈ (w.killAll ms).log := by
  have keep : ∀ (ms : List Msg) (w : World) (e : Ev), e ∈ w.log → e ∈ (w.killAll ms).log := by
    intro ms
    induction ms with
    | nil => intro w e h; exact h
    | cons a ms ih => intro w e h; exact ih _ _ (by simp [World.kill]; exact .inr h)
  induction ms generalizing w with
  | nil => simp at h
  | cons a ms ih =>
    rcases List.mem_cons.mp h with rfl | h
    · exact keep ms (w.kill m) _ (by simp [World.kill])
    · exact ih h

theorem closeHandles_keep (hs : List Nat) (w : World) {e : Ev} (h : e ∈ w.log) : e ∈ (w.closeHandles hs).log := by
  induction hs generalizing w with
  | nil => exact h
  | cons a hs ih =>
    refine ih _ ?_
    unfold World.closeHandle
    split <;> simp [World.kill, h]

theorem shutTx_uq_dropped {w : World} {m : Msg} (h : m ∈ w.uq) : Ev.dropped m.id ∈ w.shutTx.log := by
  unfold World.shutTx
  exact closeHandles_keep _ _ (closeHandles_keep _ _ (killAll_mem _ h))

/-- **C11**, all interleavings: the step in which the call that dropped the last mailbox clears the channel. Every
queued message is destroyed, every parked send fails and its message is destroyed, and nothing is left queued or
parked. -/
theorem C11_release {cap : Option Nat} {s s' : Sys} {t : Nat} {rest : List Micro} (h : Reachable cap s)
    (ht : s.th[t]? = some (.shutTx :: rest)) (hs : s.step (.exec t) = some s') :
    (∀ m ∈ s.w.uq, .dropped m.id ∈ s'.w.log) ∧
    (∀ f md m, s.w.parkedSend f md m → s'.w.failedSend f md m.id ∧ .dropped m.id ∈ s'.w.log) ∧
    s'.w.uq = [] ∧ ∀ f md m, ¬ s'.w.parkedSend f md m := by
  have hc := shutTx_cleared (regWs_reachable h)
  have hs0 := hs
  simp [Sys.step, ht, exec] at hs; subst hs
  refine ⟨fun m hm => shutTx_uq_dropped hm, fun f md m hp => ?_, hc.uq, fun f md m ⟨k, wk, _, h2⟩ => hc.ws _ _ _ h2⟩
  rcases C08_never_forgotten h hp hs0 with ⟨md', k, wk, -, h2⟩ | ⟨-, -, h1⟩ | ⟨rfl, ⟨k, wk, h2, h3⟩, -⟩ | ⟨h1, -, h2⟩ | h1
  · exact absurd h2 (hc.ws _ _ _)
  · rw [hc.uq] at h1; simp at h1
  · exfalso
    obtain ⟨k', wk', h4, h5⟩ := hp
    have h6 : (exec s.w .shutTx).1.objs = s.w.objs := by simp [exec, World.shutTx]
    simp only [exec] at h6
    rw [h6, h4] at h2; simp at h2; subst h2
    simp only [shutTx_ws] at h3
    rw [h5] at h3
    split at h3 <;> simp [WsCell.close] at h3
  · exact ⟨h1, h2⟩
  · simp at h1

/-- **C11.** A parked send that failed resolves to `Disconnected` when it is polled next. -/
theorem C11_failed_resolves {w w' : World} {f mid wk : Nat} {md : Mode}
    (hf : w.failedSend f md mid) (hd : Does w (.pollSend f wk) w') :
    w'.log = .sendErr f mid :: w.log ∧ w'.objs[f]? = some .gone := by
  obtain ⟨k, x, ho, hx⟩ := hf
  have hl := (List.getElem?_eq_some_iff.mp ho).1
  obtain ⟨w1, ms, hc, hm⟩ := hd
  simp only [Xtra.call, ho] at hc
  simp at hc; obtain ⟨rfl, rfl⟩ := hc
  cases hm with
  | cons hm =>
    have hx' : (w.setObj f .busy).ws[k]? = some (.closed x) := hx
    simp only [exec, hx'] at hm
    cases hm
    simp [World.setObj, World.ev, hl]

theorem decBq_mailbox (w : World) (b : Nat) : (w.decBq b).log = w.log ∧ (w.decBq b).ws = w.ws ∧ (w.decBq b).objs = w.objs ∧
    (w.decBq b).uq = w.uq := by
  unfold World.decBq
  split
  · split <;> simp
  · simp

/-- **C11**, as a whole call: the last mailbox reference is a `Mailbox` and is dropped (no other call in progress).
Afterwards no message is queued and no send is parked; every message that was queued has been destroyed and every send
that was parked has failed. -/
theorem C11_drop_last_mailbox {cap : Option Nat} {w w' : World} {i b : Nat} (hq : Quiet cap w)
    (ho : w.objs[i]? = some (.mailbox b)) (hlast : w.mailboxRefs = 1) (hd : Does w (.dropMailbox i) w') :
    (∀ m ∈ w.uq, .dropped m.id ∈ w'.log) ∧
    (∀ f md m, w.parkedSend f md m → w'.failedSend f md m.id ∧ .dropped m.id ∈ w'.log) ∧
    w'.uq = [] ∧ ∀ f md m, ¬ w'.parkedSend f md m := by
  have hrc : w.rcv = 1 := by have := (C14_counts_exact_quiet hq).2; omega
  obtain ⟨w1, ms, hc, hm⟩ := hd
  have hc0 := hc
  simp only [Xtra.call, ho] at hc
  simp at hc; obtain ⟨rfl, rfl⟩ := hc
  obtain ⟨w2, ns, he, hs, hm⟩ := (hq.call hc0).exec hm
  have hpk : ∀ f md m, w.parkedSend f md m → w2.parkedSend f md m := by
    rintro f md m ⟨k, wk, h1, h2⟩
    have hne : i ≠ f := by rintro rfl; rw [h1] at ho; simp at ho
    cases he <;> exact ⟨k, wk, by simp [World.setObj, List.getElem?_set_ne hne, h1], h2⟩
  have huq : w2.uq = w.uq := by cases he <;> rfl
  cases he with
  | dropRx_more h1 => simp [World.setObj] at h1; omega
  | dropRx_last h1 =>
    obtain ⟨th, t, hr, ht⟩ := hs.reach
    simp only [List.cons_append, List.nil_append] at ht
    cases hm with
    | cons hm =>
      simp only [exec, List.nil_append] at hm
      obtain ⟨r1, r2, r3, r4⟩ := C11_release hr ht (by simp only [Sys.step, ht, exec]; exact rfl)
      cases hm with
      | cons hm =>
        simp only [exec, List.nil_append] at hm
        cases hm
        simp only at r1 r2 r3 r4
        obtain ⟨e1, e2, e3, e4⟩ := decBq_mailbox (World.shutTx { w.setObj i .gone with rcv := (w.setObj i .gone).rcv - 1 }) b
        refine ⟨fun m hm => ?_, fun f md m hp => ?_, by rw [e4]; exact r3, fun f md m hp => ?_⟩
        · rw [e1]; exact r1 m (by rw [huq]; exact hm)
        · obtain ⟨a, b⟩ := r2 f md m (hpk f md m hp)
          refine ⟨?_, by rw [e1]; exact b⟩
          obtain ⟨k, wk, a1, a2⟩ := a
          exact ⟨k, wk, by rw [e3]; exact a1, by rw [e2]; exact a2⟩
        · obtain ⟨k, wk, a1, a2⟩ := hp
          exact r4 f md m ⟨k, wk, by rw [e3] at a1; exact a1, by rw [e2] at a2; exact a2⟩

/-- **C11**, all interleavings, the part that holds: when no mailbox reference is left and the call that dropped the last
one has cleared the channel, nothing is queued and nothing is parked, provided no send entered the channel in the
meantime, having found it still connected (`Ev.late`). Missing, and false of the code (`C11_refuted`): the same
without this proviso. -/
theorem C11_nothing_left_partial {cap : Option Nat} {s : Sys} (h : Reachable cap s) (h0 : s.w.rcv = 0)
    (hcl : ∀ x ∈ s.th, .shutTx ∉ x) (hlate : ∀ i, Ev.late i ∉ s.w.log) :
    s.w.uq = [] ∧ ∀ f md m, ¬ s.w.parkedSend f md m := by
  rcases clear_reachable h h0 with h1 | ⟨i, h1⟩ | h1
  · obtain ⟨ms, hms, mc, hmc, hp⟩ := tot_pos_mem h1
    cases mc <;> simp [mShutTx] at hp
    exact absurd hmc (hcl ms hms)
  · exact absurd h1 (hlate i)
  · exact ⟨h1.uq, fun f md m ⟨k, wk, _, h2⟩ => h1.ws _ _ _ h2⟩

end Xtra
