import Verif.PropsConc3
import Verif.PropsStop
import Verif.PropsSend2
/-! # C10, C12 and C17 in the midst of other activity -/

set_option linter.unusedSimpArgs false

namespace Xtra

/-! ## C12 -/

/-- The drop of the last strong address has finished: no strong reference is left, and no call is still busy telling the waiting receivers. -/
structure Swept (s : Sys) : Prop where
  sc : s.w.sc = 0
  sweep : ∀ ms ∈ s.th, Micro.shutRx ∉ ms
  ns : ∀ ms ∈ s.th, ∀ c, Micro.notifyShut c ∉ ms

theorem Swept.of {s : Sys} (h : s.w.sc = 0) (hq : ∀ ms ∈ s.th, ms = []) : Swept s :=
  ⟨h, fun ms hm => by rw [hq ms hm]; simp, fun ms hm c => by rw [hq ms hm]; simp⟩

theorem swept_step {cap : Option Nat} {s s' : Sys} {a : Act} (h : Reachable cap s) (k : Swept s) (hs : s.step a = some s') : Swept s' := by
  have hz : s'.w.sc = 0 :=
     (C15_zero_forever h hs).1 k.sc
  rcases step_rel hs with ⟨c, w', ms, rfl, hc, rfl⟩ | ⟨t, m, rest, w', ms, rfl, ht, he, rfl⟩
  · refine ⟨hz, fun x hx => ?_, fun x hx => ?_⟩
    · rcases List.mem_append.mp hx with hx | hx
      · exact k.sweep x hx
      · simp at hx; subst hx; cases hc <;> simp
    · rcases List.mem_append.mp hx with hx | hx
      · exact k.ns x hx
      · simp at hx; subst hx; cases hc <;> simp
  · have hm : m :: rest ∈ s.th := List.mem_of_getElem? ht
    have h1 := k.sweep _ hm
    have h2 := k.ns _ hm
    have h3 := k.sc
    have key : Micro.shutRx ∉ ms ∧ ∀ c, Micro.notifyShut c ∉ ms := by
      cases he <;> simp at h1 h2 ⊢
      case dropTx_last hsc => omega
    refine ⟨hz, fun x hx => ?_, fun x hx => ?_⟩
    · rcases mem_set_cases hx with hx | hx
      · exact k.sweep x hx
      · subst hx
        simp only [List.mem_append, not_or]; simp at h1; exact ⟨key.1, h1.2⟩
    · rcases mem_set_cases hx with hx | hx
      · exact k.ns x hx
      · subst hx
        intro c
        simp only [List.mem_append, not_or]; have := h2 c; simp at this; exact ⟨key.2 c, this.2⟩

/-- After the sweep nobody waits. -/
theorem Swept.noEmpty {cap : Option Nat} {s : Sys} (h : Reachable cap s) (k : Swept s) (c : Nat) (x : Option Nat) :
    s.w.cells[c]? ≠ some (.empty x) := by
  intro hc
  rcases idle_reg (r := 0) (b := 0) h hc with h1 | ⟨ms, hm, h1⟩
  · rcases (iInv_reachable h).rx (by intro he; rw [he] at h1; simp at h1) with h2 | h2
    · have := k.sc; omega
    · obtain ⟨ms, hm, hx⟩ := mem_of_tot_shutRx h2
      exact k.sweep ms hm hx
  · exact k.ns ms hm c h1

/-- **C12**, all interleavings: once the drop of the last strong address has finished, every receive future that is polled completes in this
poll, new or already waiting, whatever else is going on meanwhile. -/
theorem C12_every_receive_completes_concurrent {cap : Option Nat} {s s1 s2 : Sys} {r b wk : Nat} {st : Recv} {as : List Act}
    (h : Reachable cap s) (k : Swept s) (ho : s.w.objs[r]? = some (.recv b st)) (hc : s.step (.call (.pollRecv r wk)) = some s1)
    (hrun : s1.run as = some s2) (hdone : s2.th[s.th.length]? = some []) :
    ∃ am later before, s2.w.log = later ++ .recv r b am :: before ∧ s.w.log <:+ before := by
  have hr1 : Reachable cap s1 := .step h hc
  obtain ⟨w', ms, hcr, hw, hth⟩ := step_newThread hc
  have hlog : s1.w.log = s.w.log := by
    subst hw
    generalize s1.w = w1 at hcr
    cases hcr <;> rfl
  have hms : ms = [.recvTry r b wk] ∨ ∃ c, ms = [.recvPoll r b c wk] := by
    cases hcr <;> simp_all
  have hlt : s.th.length < s1.th.length := by rw [hth]; simp
  have key := thread_ind2 (t := s.th.length) hr1 hlt
    (P := fun _ x s2 => Swept s2 ∧ s.w.log <:+ s2.w.log ∧ (x = [.recvTry r b wk] ∨ (∃ c, x = [.recvPoll r b c wk]) ∨
      (∃ c, x = [.recvBcast r b c wk]) ∨ (x = [] ∧ ∃ am later before, s2.w.log = later ++ .recv r b am :: before ∧ s.w.log <:+ before)))
    (fun x hx => by
      rw [hth] at hx; simp at hx; subst hx
      refine ⟨swept_step h k hc, by rw [hlog]; exact List.suffix_rfl, ?_⟩
      rcases hms with h1 | h1
      · exact .inl h1
      · exact .inr (.inl h1))
    (fun as x s2 a s3 _ hr2 hp hs => by
      obtain ⟨k2, hl, hp⟩ := hp
      refine ⟨swept_step hr2 k2 hs, hl.trans (step_suffix hr2 hs), ?_⟩
      rcases hp with hp | hp | hp | ⟨hp, am, l, bf, h1, h2⟩
      · exact .inl hp
      · exact .inr (.inl hp)
      · exact .inr (.inr (.inl hp))
      · obtain ⟨t, ht⟩ := step_suffix hr2 hs
        exact .inr (.inr (.inr ⟨hp, am, t ++ l, bf, by rw [← ht, h1]; simp, h2⟩)))
    (fun as m rest s2 s3 ms hr hr2 hp ht hx hs => by
      obtain ⟨k2, hl, hp⟩ := hp
      have k3 := swept_step hr2 k2 hs
      have hsuf := step_suffix hr2 hs
      have k2e := k2.noEmpty hr2
      have k3l : s2.w.lag ≠ .late := by
        intro hl
        rcases oldLoad_reachable hr2 hl with h1 | h1
        · have := k2.sc; omega
        · obtain ⟨ms, hm, hx⟩ := mem_of_tot_shutRx h1
          exact k2.sweep ms hm hx
      refine ⟨k3, hl.trans hsuf, ?_⟩
      have hsc := k2.sc
      have rg := regWs_reachable hr2
      have np := C31_no_panic (hr2.step hs)
      rcases hp with hp | ⟨c, hp⟩ | ⟨c, hp⟩ | ⟨hp, -⟩
      · simp only [List.cons.injEq] at hp
        obtain ⟨rfl, rfl⟩ := hp
        generalize hw3 : s3.w = w3 at hx np hsuf
        cases hx
        case recv_all m1 w1 _ _ _ =>
          have hp : s2.w.popBroadcast b = some (m1, w1) := by assumption
          obtain ⟨t, ht⟩ := hsuf
          refine .inr (.inr (.inr ⟨rfl, .all m1, [], w1.log, rfl, ?_⟩))
          rcases popBroadcast_log rg hp with h' | ⟨m', ts, h'⟩ <;> rw [h']
          · exact hl
          · exact hl.trans (List.suffix_cons ..)
        case recv_one m1 w1 _ _ _ =>
          have hp : s2.w.popUnicast = some (m1, w1) := by assumption
          refine .inr (.inr (.inr ⟨rfl, .one m1, [], w1.log, rfl, ?_⟩))
          rw [World.popUnicast_log hp]; exact hl
        case recv_shutdown => exact .inr (.inr (.inr ⟨rfl, .shutdown, [], _, rfl, hl⟩))
        case recv_wait h0 h1 h2 => rcases h1 with h1 | h1 <;> contradiction
      · simp only [List.cons.injEq] at hp
        obtain ⟨rfl, rfl⟩ := hp
        generalize hw3 : s3.w = w3 at hx np hsuf
        cases hx
        case recvPoll_empty h1 => exact absurd h1 (k2e _ _)
        case recvPoll_one m1 h1 => exact .inr (.inr (.inr ⟨rfl, .one m1, [], _, rfl, hl⟩))
        case recvPoll_shutdown h1 => exact .inr (.inr (.inr ⟨rfl, .shutdown, [], _, rfl, hl⟩))
        case recvPoll_bcast h1 => exact .inr (.inr (.inl ⟨c, rfl⟩))
        case recvPoll_panic => exact absurd (by simp [World.ev]) np
      · simp only [List.cons.injEq] at hp
        obtain ⟨rfl, rfl⟩ := hp
        generalize hw3 : s3.w = w3 at hx np hsuf
        cases hx
        case recvBcast_some m1 w1 hp =>
          refine .inr (.inr (.inr ⟨rfl, .all m1, [], w1.log, rfl, ?_⟩))
          rcases popBroadcast_log rg hp with h' | ⟨m', ts, h'⟩ <;> rw [h']
          · exact hl
          · exact hl.trans (List.suffix_cons ..)
        case recvBcast_none => exact .inl rfl
      · simp at hp)
    as s2 hrun
  obtain ⟨-, -, hp⟩ := key.2 _ hdone
  rcases hp with hp | ⟨c, hp⟩ | ⟨c, hp⟩ | ⟨-, hp⟩
  · simp at hp
  · simp at hp
  · simp at hp
  · exact hp

/-- A receive future that waits and one that is new, after the drop of the only address has finished, polled while another address is being
dropped and a message polled. Meets the hypotheses of `C12_every_receive_completes_concurrent`. -/
example : ∃ s s1 s2, Reachable none s ∧ Swept s ∧ s.w.objs[2]? = some (.recv 0 (.waiting 0)) ∧ s.step (.call (.pollRecv 2 1)) = some s1 ∧
    s1.run [.call (.next 1), .call (.pollRecv 3 0), .exec 5, .exec 3] = some s2 ∧ s2.th[s.th.length]? = some [] ∧
    s2.w.log.head? = some (.recv 2 0 .shutdown) :=
  ⟨_, _, _, Reachable.run .init (as := [.call (.next 1), .call (.pollRecv 2 0), .exec 1, .exec 1, .call (.dropAddr 0), .exec 2, .exec 2, .exec 2]) rfl,
    .of rfl (by decide), rfl, rfl, rfl, rfl, rfl⟩

/-! ## C17 -/

/-- **C17**, all interleavings: object `o` is a received message at some moment; after any schedule `as` its handler completes, in the midst of
anything else (`as2`). By the time the call has returned, the dispatch has answered its event loop, for this very message, and the answer
is `Break` exactly if `stop_self` was called in this handler at some point of `as`. -/
theorem C17_break_concurrent {cap : Option Nat} {s s2 s3 s4 : Sys} {o b v : Nat} {am : AMsg} {as as2 : List Act} (h : Reachable cap s)
    (h0 : s.w.objs[o]? = some (.message b am)) (hr : s.run as = some s2) (hc : s2.step (.call (.finish o v)) = some s3)
    (hrun : s3.run as2 = some s4) (hdone : s4.th[s2.th.length]? = some []) :
    ∃ brk later before, s4.w.log = later ++ .flow b am brk :: before ∧ s2.w.log <:+ before ∧ (brk = true ↔ .call (.stopSelf o) ∈ as) := by
  have hr2 : Reachable cap s2 := Reachable.run h hr
  have hr3 : Reachable cap s3 := .step hr2 hc
  obtain ⟨w', ms, hcr, hw, hth⟩ := step_newThread hc
  have hlog : s3.w.log = s2.w.log := by
    subst hw
    generalize s3.w = w1 at hcr
    cases hcr; rfl
  obtain ⟨rn, hms, hrn⟩ : ∃ rn, ms = [.dropRx, .dropBq b, .respond b am v (!rn)] ∧ (rn = false ↔ .call (.stopSelf o) ∈ as) := by
    rcases message_run as h hr h0 with h1 | h1 | ⟨rn, h1, h2⟩
    · cases hcr; simp_all
    · cases hcr; simp_all
    · refine ⟨rn, ?_, h2⟩
      cases hcr; simp_all
  have hlt : s2.th.length < s3.th.length := by rw [hth]; simp
  have key := thread_ind2 (t := s2.th.length) hr3 hlt
    (P := fun _ x s' => s2.w.log <:+ s'.w.log ∧ (x = [.dropRx, .dropBq b, .respond b am v (!rn)] ∨ x = [.shutTx, .dropBq b, .respond b am v (!rn)] ∨
      x = [.dropBq b, .respond b am v (!rn)] ∨ x = [.respond b am v (!rn)] ∨
      (x = [] ∧ ∃ later before, s'.w.log = later ++ .flow b am (!rn) :: before ∧ s2.w.log <:+ before)))
    (fun x hx => by
      rw [hth] at hx; simp at hx; subst hx
      exact ⟨by rw [hlog]; exact List.suffix_rfl, .inl hms⟩)
    (fun as x s' a s'' _ hr' hp hs => by
      obtain ⟨hl, hp⟩ := hp
      refine ⟨hl.trans (step_suffix hr' hs), ?_⟩
      rcases hp with hp | hp | hp | hp | ⟨hp, l, bf, h1, h2⟩
      · exact .inl hp
      · exact .inr (.inl hp)
      · exact .inr (.inr (.inl hp))
      · exact .inr (.inr (.inr (.inl hp)))
      · obtain ⟨t, ht⟩ := step_suffix hr' hs
        exact .inr (.inr (.inr (.inr ⟨hp, t ++ l, bf, by rw [← ht, h1]; simp, h2⟩))))
    (fun as m rest s' s'' ms hr hr' hp ht hx hs => by
      obtain ⟨hl, hp⟩ := hp
      refine ⟨hl.trans (step_suffix hr' hs), ?_⟩
      rcases hp with hp | hp | hp | hp | ⟨hp, -⟩
      · simp only [List.cons.injEq] at hp
        obtain ⟨rfl, rfl⟩ := hp
        generalize hw3 : s''.w = w3 at hx
        cases hx <;> simp
      · simp only [List.cons.injEq] at hp
        obtain ⟨rfl, rfl⟩ := hp
        generalize hw3 : s''.w = w3 at hx
        cases hx; simp
      · simp only [List.cons.injEq] at hp
        obtain ⟨rfl, rfl⟩ := hp
        generalize hw3 : s''.w = w3 at hx
        cases hx; simp
      · simp only [List.cons.injEq] at hp
        obtain ⟨rfl, rfl⟩ := hp
        right; right; right; right
        generalize hw3 : s''.w = w3 at hx
        cases hx
        · exact ⟨rfl, [], _, rfl, hl.trans (List.suffix_cons ..)⟩
        · exact ⟨rfl, [], _, rfl, hl⟩
      · simp at hp)
    as2 s4 hrun
  obtain ⟨-, hp⟩ := key.2 _ hdone
  rcases hp with hp | hp | hp | hp | ⟨-, l, bf, h1, h2⟩
  · simp at hp
  · simp at hp
  · simp at hp
  · simp at hp
  · exact ⟨!rn, l, bf, h1, h2, by rw [← hrn]; simp⟩

/-- A handler stops its actor and completes while another call is under way. Meets the hypotheses of `C17_break_concurrent`. -/
example : ∃ s s2 s3 s4, Reachable none s ∧ s.w.objs[3]? = some (.message 0 (.one ⟨0, .valued 0⟩)) ∧
    s.run [.call (.dispatch 3), .call (.stopSelf 3)] = some s2 ∧ s2.step (.call (.finish 3 8)) = some s3 ∧
    s3.run [.exec 6, .call (.dropAddr 0), .exec 6, .exec 7, .exec 6] = some s4 ∧ s4.th[s2.th.length]? = some [] ∧
    s4.w.log.head? = some (.flow 0 (.one ⟨0, .valued 0⟩) true) :=
  ⟨_, _, _, _, Reachable.run .init (as := [.call (.send 0), .call (.pollSend 2 0), .exec 1, .exec 1, .exec 1, .exec 1, .exec 1,
    .call (.next 1), .call (.pollRecv 3 0), .exec 3]) rfl, rfl, rfl, rfl, rfl, rfl, rfl⟩

/-! ## C10 -/

/-- **C10**, all interleavings: the first poll of a send or broadcast, begun when no mailbox or no strong address is left, refuses the message,
whatever is going on meanwhile: by the time it has returned it has resolved to `Disconnected`, and no step of it puts the message anywhere. -/
theorem C10_disconnected_concurrent {cap : Option Nat} {s s1 s2 : Sys} {f mid wk : Nat} {md : Mode} {m : Msg} {rc : Rc} {as : List Act}
    (h : Reachable cap s) (ho : s.w.objs[f]? = some (.send md mid (.new m rc))) (hdis : s.w.rcv = 0 ∨ s.w.sc = 0)
    (hc : s.step (.call (.pollSend f wk)) = some s1) (hrun : s1.run as = some s2) :
    (s2.th[s.th.length]? = some [] →
      ∃ later before, s2.w.log = later ++ .sendErr f mid :: .dropped mid :: before ∧ s.w.log <:+ before) ∧
    (∀ s3, s2.step (.exec s.th.length) = some s3 → s3.w.uq = s2.w.uq ∧ s3.w.bq = s2.w.bq ∧ s3.w.ws = s2.w.ws ∧
      ∀ (c : Nat) (m : Msg) (x : Option Nat), s3.w.cells[c]? = some (.full (.newMessage m) x) → s2.w.cells[c]? = some (.full (.newMessage m) x)) := by
  obtain ⟨hid, -, -⟩ := held_unsent h ho
  subst hid
  have hr1 : Reachable cap s1 := .step h hc
  obtain ⟨w', ms, hcr, hw, hth⟩ := step_newThread hc
  have hms : ms = [.sendLd1 f md m rc wk] ∧ w'.log = s.w.log := by
    cases hcr <;> simp_all
  have hd1 : s1.w.rcv = 0 ∨ s1.w.sc = 0 := by
    rcases hdis with h1 | h1
    · exact .inl ((C15_zero_forever h hc).2 h1)
    · exact .inr ((C15_zero_forever h hc).1 h1)
  have hlt : s.th.length < s1.th.length := by rw [hth]; simp
  have key := thread_ind2 (t := s.th.length) hr1 hlt
    (P := fun _ x s' => s.w.log <:+ s'.w.log ∧ (s'.w.rcv = 0 ∨ s'.w.sc = 0) ∧
      (x = [.sendLd1 f md m rc wk] ∨ (s'.w.sc = 0 ∧ x = [.sendLd2 f md m rc wk]) ∨
       ((∀ mc ∈ x, mc = .dropTx rc ∨ mc = .shutRx ∨ ∃ c, mc = .notifyShut c) ∧
        ∃ later before, s'.w.log = later ++ .sendErr f m.id :: .dropped m.id :: before ∧ s.w.log <:+ before)))
    (fun x hx => by
      rw [hth] at hx; simp at hx; subst hx
      refine ⟨?_, hd1, .inl hms.1⟩
      rw [hw, hms.2]; exact List.suffix_rfl)
    (fun as x s' a s'' _ hr' hp hs => by
      obtain ⟨hl, hd, hp⟩ := hp
      have hz := C15_zero_forever hr' hs
      refine ⟨hl.trans (step_suffix hr' hs), hd.imp hz.2 hz.1, ?_⟩
      rcases hp with hp | ⟨h0, hp⟩ | ⟨hp, l, bf, h1, h2⟩
      · exact .inl hp
      · exact .inr (.inl ⟨hz.1 h0, hp⟩)
      · obtain ⟨t, ht⟩ := step_suffix hr' hs
        exact .inr (.inr ⟨hp, t ++ l, bf, by rw [← ht, h1]; simp, h2⟩))
    (fun as mc rest s' s'' ms hr hr' hp ht hx hs => by
      obtain ⟨hl, hd, hp⟩ := hp
      have hz := C15_zero_forever hr' hs
      refine ⟨hl.trans (step_suffix hr' hs), hd.imp hz.2 hz.1, ?_⟩
      rcases hp with hp | ⟨h0, hp⟩ | ⟨hp, l, bf, h1, h2⟩
      · simp only [List.cons.injEq] at hp
        obtain ⟨rfl, rfl⟩ := hp
        generalize hw3 : s''.w = w3 at hx hz
        cases hx
        case sendLd1_err => right; right; exact ⟨by simp, [], _, rfl, hl⟩
        case sendLd1_ok h1 => right; left; exact ⟨hd.resolve_left h1, rfl⟩
      · simp only [List.cons.injEq] at hp
        obtain ⟨rfl, rfl⟩ := hp
        generalize hw3 : s''.w = w3 at hx hz
        cases hx
        case sendLd2_err => right; right; exact ⟨by simp, [], _, rfl, hl⟩
        case sendLd2_ok h1 => exact absurd h0 h1
      · right; right
        obtain ⟨t, ht⟩ := step_suffix hr' hs
        refine ⟨fun x hx' => ?_, t ++ l, bf, by rw [← ht, h1]; simp, h2⟩
        rcases List.mem_append.mp hx' with hx' | hx'
        · rcases hp mc (by simp) with rfl | rfl | ⟨c, rfl⟩ <;> (generalize hw3 : s''.w = w3 at hx; cases hx) <;> simp at hx'
          · simp [hx']
          · obtain ⟨c, -, rfl⟩ := hx'; simp
        · exact hp x (by simp [hx']))
    as s2 hrun
  refine ⟨fun hx => ?_, fun s3 hs => ?_⟩
  · rcases (key.2 _ hx).2.2 with h1 | ⟨-, h1⟩ | ⟨-, h1⟩
    · simp at h1
    · simp at h1
    · exact h1
  · have hx2 : s2.th[s.th.length]? = some s2.th[s.th.length] := List.getElem?_eq_getElem key.1
    obtain ⟨mc, rest, w', ms, he, hx', hw3, hth3⟩ := step_ofThread hs hx2
    obtain ⟨-, hd, hp⟩ := key.2 _ hx2
    rw [he] at hp
    rw [hw3]
    rcases hp with hp | ⟨h0, hp⟩ | ⟨hp, -⟩
    · simp only [List.cons.injEq] at hp
      obtain ⟨rfl, rfl⟩ := hp
      cases hx' <;> simp [World.kill, World.setObj, World.ev]
    · simp only [List.cons.injEq] at hp
      obtain ⟨rfl, rfl⟩ := hp
      cases hx' <;> simp [World.kill, World.setObj, World.ev]
    · rcases hp mc (by simp) with rfl | rfl | ⟨c, rfl⟩ <;> cases hx' <;> simp
      intro c' m' x hx
      unfold notifyCell at hx
      split at hx
      · rcases set_cases hx with ⟨-, h1⟩ | ⟨-, h1⟩
        · simp at h1
        · exact h1
      · exact hx

/-- A send through a weak address after the only strong one is gone, while the mailbox is dropped. Meets the hypotheses of
`C10_disconnected_concurrent`. -/
example : ∃ s s1 s2, Reachable none s ∧ s.w.objs[3]? = some (.send .ret 0 (.new ⟨0, .valued 0⟩ .weak)) ∧ s.w.sc = 0 ∧ s.w.rcv ≠ 0 ∧
    s.step (.call (.pollSend 3 0)) = some s1 ∧
    s1.run [.exec 3, .call (.dropMailbox 1), .exec 4, .exec 3, .exec 3] = some s2 ∧ s2.th[s.th.length]? = some [] :=
  ⟨_, _, _, Reachable.run .init (as := [.call (.downgrade 0), .call (.send 2), .call (.dropAddr 0), .exec 2, .exec 2]) rfl, rfl, rfl,
    by decide, rfl, rfl, rfl⟩

end Xtra
