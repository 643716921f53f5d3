import Verif.SeqInv
/-! # C03: no unicast message is lost; rest of C11 -/

set_option linter.unusedSimpArgs false

namespace Xtra

theorem notifyCell_full {cells : List RxCell} {c d : Nat} {k x : Ctrl} {wk : Option Nat}
    (h : cells[c]? = some (.full x wk)) : (notifyCell cells d k)[c]? = some (.full x wk) := by
  unfold notifyCell
  split
  · rename_i wk' h'
    have hne : d ≠ c := by rintro rfl; rw [h] at h'; simp at h'
    rw [List.getElem?_set_ne hne]; exact h
  · exact h

theorem notifyAll_full (l : List Nat) (k : Ctrl) : ∀ {cells : List RxCell} {c : Nat} {x : Ctrl} {wk : Option Nat},
    cells[c]? = some (.full x wk) → (l.foldl (fun cs c => notifyCell cs c k) cells)[c]? = some (.full x wk) := by
  induction l with
  | nil => intro cells c x wk h; exact h
  | cons a l ih => intro cells c x wk h; exact ih (notifyCell_full h)

theorem popBroadcast_full {w w' : World} {b : Nat} {m : Msg} (r : RegWs w.ws w.wOne w.wAll)
    (hp : w.popBroadcast b = some (m, w')) {c : Nat} {x : Ctrl} {wk : Option Nat} (h : w.cells[c]? = some (.full x wk)) :
    w'.cells[c]? = some (.full x wk) := by
  have hap : ∀ q, (w.afterPop b q).cells = w.cells := by
    intro q; unfold World.afterPop; split <;> rfl
  obtain ⟨q, -, ⟨-, rfl⟩ | ⟨-, -, rfl⟩ | ⟨-, h', wk', m', q', t, rfl⟩⟩ := popBroadcast_cases r.all hp
  · rw [hap]; exact h
  · simp only; rw [hap]; exact h
  · simp only [World.sendBroadcast]; exact notifyAll_full _ _ (by rw [hap]; exact h)

/-- What may happen to a message handed to a receive future. -/
theorem execR_full {w w' : World} {mc : Micro} {ms : List Micro} (h : ExecR w mc w' ms) (hwf : WF w mc)
    (hreg : RegWs w.ws w.wOne w.wAll) {c : Nat} {m : Msg} {wk : Option Nat}
    (hc : w.cells[c]? = some (.full (.newMessage m) wk)) :
    w'.cells[c]? = some (.full (.newMessage m) wk) ∨
    (∃ r b wk', mc = .recvPoll r b c wk' ∧ w'.log = .recv r b (.one m) :: w.log) ∨
    (∃ b, mc = .cancel b c ∧ .requeue m ∈ ms) ∨ mc = .dropCell c := by
  have hs : ∀ {d : Nat} {y : RxCell}, d ≠ c → (w.cells.set d y)[c]? = some (.full (.newMessage m) wk) := by
    intro d y hd; rw [List.getElem?_set_ne hd]; exact hc
  cases h
  case recv_all hp _ _ => left; exact popBroadcast_full hreg hp hc
  case recv_one hp _ _ => left; simp [World.popUnicast_cells hp, hc]
  case recvBcast_some hp =>
    rename_i r b d wk' m' w1
    left
    have hne : d ≠ c := by rintro rfl; have := hwf.2; rw [hc] at this; simp at this
    simp; rw [List.getElem?_set_ne hne]; exact popBroadcast_full hreg hp hc
  case recvBcast_none hp =>
    left
    refine hs ?_
    rintro rfl; have := hwf.2; rw [hc] at this; simp at this
  case critAll_sent => left; exact notifyAll_full _ _ hc
  case bcastShutdown => left; exact notifyAll_full _ _ hc
  case critOne_hand h3 => left; refine hs ?_; rintro rfl; rw [hc] at h3; simp at h3
  case requeue_hand h3 => left; refine hs ?_; rintro rfl; rw [hc] at h3; simp at h3
  case notifyShut => left; exact notifyCell_full hc
  case recv_wait => left; simp [List.getElem?_append_left (List.getElem?_eq_some_iff.mp hc).1, hc]
  case recvPoll_empty h3 => left; refine hs ?_; rintro rfl; rw [hc] at h3; simp at h3
  case recvPoll_shutdown h3 => left; refine hs ?_; rintro rfl; rw [hc] at h3; simp at h3
  case recvPoll_bcast h3 => left; refine hs ?_; rintro rfl; rw [hc] at h3; simp at h3
  case recvPoll_one r b d wk' m' wk'' h3 =>
    by_cases hd : d = c
    · subst hd; rw [hc] at h3; simp at h3; obtain ⟨rfl, rfl⟩ := h3
      exact .inr (.inl ⟨_, _, _, rfl, rfl⟩)
    · left; exact hs hd
  case cancel_msg b d m' wk' h3 =>
    by_cases hd : d = c
    · subst hd; rw [hc] at h3; simp at h3; obtain ⟨rfl, rfl⟩ := h3
      exact .inr (.inr (.inl ⟨_, rfl, by simp⟩))
    · left; exact hs hd
  case cancel_full b d k wk' h3 h4 =>
    left; refine hs ?_; rintro rfl; rw [hc] at h3; simp at h3; exact h4 m h3.1.symm
  case dropCell_lost d m' wk' h3 =>
    by_cases hd : d = c
    · exact .inr (.inr (.inr (by rw [hd])))
    · left; exact hs hd
  case dropCell_other d h3 =>
    by_cases hd : d = c
    · exact .inr (.inr (.inr (by rw [hd])))
    · left; exact hs hd
  all_goals (left; first | exact hc | (simp; exact hc))

/-- What may happen to a queued message. -/
theorem execR_uqMem {w w' : World} {mc : Micro} {ms : List Micro} (h : ExecR w mc w' ms)
    (hreg : RegWs w.ws w.wOne w.wAll) {m : Msg} (hm : m ∈ w.uq) :
    m ∈ w'.uq ∨ (∃ r b, w'.log = .recv r b (.one m) :: w.log) ∨ (mc = .shutTx ∧ .dropped m.id ∈ w'.log) := by
  have hpush : ∀ {l : List Msg} {x : Msg}, m ∈ l → m ∈ Heap.push Msg.le l x := by
    intro l x h; exact (Heap.push_perm Msg.le l x).mem_iff.mpr (by simp [h])
  cases h
  case recv_all hp _ _ => left; simp [World.popBroadcast_uq hp]; exact hm
  case recvBcast_some hp => left; simp [World.popBroadcast_uq hp]; exact hm
  case recv_one r b wk m' w1 hp h1 h2 =>
    obtain ⟨q, hq, hcs⟩ := popUnicast_cases hreg.one hp
    by_cases he : m = m'
    · subst he; right; left; exact ⟨r, b, by simp [World.yieldMsg, World.ev, World.popUnicast_log hp]⟩
    · left
      have hmq : m ∈ q := by
        have := (Heap.pop_perm hq).mem_iff.mp hm
        simpa [he] using this
      obtain ⟨-, rfl⟩ | ⟨-, -, rfl⟩ | ⟨-, h, wk, m1, q', t, rfl⟩ := hcs
      · exact hmq
      · exact hmq
      · exact hpush hmq
  case critOne_queue => exact .inl (hpush hm)
  case requeue_queue => exact .inl (hpush hm)
  case shutTx => right; right; exact ⟨rfl, shutTx_uq_dropped hm⟩
  all_goals (left; first | exact hm | (simp; exact hm))

theorem execR_dropCell {w w' : World} {mc : Micro} {ms : List Micro} (h : ExecR w mc w' ms) {c : Nat}
    (hc : Micro.dropCell c ∈ ms) : ∃ b, mc = .cancel b c ∧ notFull w' c := by
  cases h <;> simp at hc
  case cancel_msg h => subst hc; have hl := (List.getElem?_eq_some_iff.mp h).1; exact ⟨_, rfl, fun m wk => by simp [hl]⟩
  case cancel_full h _ => subst hc; have hl := (List.getElem?_eq_some_iff.mp h).1; exact ⟨_, rfl, fun m wk => by simp [hl]⟩
  case cancel_none h => subst hc; exact ⟨_, rfl, fun m wk => h _ _⟩

theorem callR_dropCell {w w' : World} {cl : Call} {ms : List Micro} (h : CallR w cl w' ms) (c : Nat) :
    Micro.dropCell c ∉ ms := by
  cases h <;> simp

theorem callR_cells {w w' : World} {cl : Call} {ms : List Micro} (h : CallR w cl w' ms) : w'.cells = w.cells := by
  cases h <;> simp

theorem handed_or_doomed {s : Sys} {c : Nat} {m : Msg} {wk : Option Nat}
    (h : s.w.cells[c]? = some (.full (.newMessage m) wk)) : s.handed m ∨ s.doomed m := by
  by_cases hx : ∃ x ∈ s.th, .dropCell c ∈ x
  · exact .inr ⟨c, wk, h, hx⟩
  · exact .inl ⟨c, wk, h, fun x hx' hc => hx ⟨x, hx', hc⟩⟩

/-- **C03**, one step of anything, anywhere, in any interleaving: an available message stays available, or is yielded to
an actor by this step, or is destroyed because the last mailbox is gone; the only exception is that a cancelled receive
future puts it back into the hands of another receive future which at this very moment is itself being destroyed. Missing,
and false of the code (`C03_refuted`): the same without the exception. -/
theorem C03_stays_available_partial {cap : Option Nat} {s s' : Sys} {a : Act} {m : Msg} (h : Reachable cap s)
    (hm : s.available m) (hs : s.step a = some s') :
    s'.available m ∨ (∃ r b, s'.w.log = .recv r b (.one m) :: s.w.log) ∨ (s'.w.rcv = 0 ∧ .dropped m.id ∈ s'.w.log) ∨
    s'.doomed m := by
  have hreg := regWs_reachable h
  rcases step_rel hs with ⟨c, w', ms, rfl, hc, rfl⟩ | ⟨t, mc, rest, w', ms, rfl, ht, he, rfl⟩
  · left
    rcases hm with hm | ⟨k, wk, h1, h2⟩ | ⟨x, hx, h1⟩
    · left; rw [callR_uq hc]; exact hm
    · right; left
      refine ⟨k, wk, by rw [callR_cells hc]; exact h1, ?_⟩
      intro x hx
      rcases List.mem_append.mp hx with hx | hx
      · exact h2 x hx
      · rw [List.mem_singleton.mp hx]; exact callR_dropCell hc k
    · right; right; exact ⟨x, List.mem_append_left _ hx, h1⟩
  · have hlt := (List.getElem?_eq_some_iff.mp ht).1
    have hnew : ms ++ rest ∈ s.th.set t (ms ++ rest) := List.mem_iff_getElem?.mpr ⟨t, by simp [hlt]⟩
    rcases hm with hm | ⟨k, wk, h1, h2⟩ | ⟨x, hx, h1⟩
    · rcases execR_uqMem he hreg hm with h3 | h3 | ⟨rfl, h3⟩
      · exact .inl (.inl h3)
      · exact .inr (.inl h3)
      · refine .inr (.inr (.inl ⟨?_, h3⟩))
        have := shutTx_now h ht
        cases he; simpa using this
    · rcases execR_full he (wf_reachable h ht) hreg h1 with h3 | ⟨r, b, wk', rfl, h3⟩ | ⟨b, rfl, h3⟩ | rfl
      · refine .inl (.inr (.inl ⟨k, wk, h3, fun x hx hd => ?_⟩))
        rcases mem_set_cases hx with hx | rfl
        · exact h2 x hx hd
        · rcases List.mem_append.mp hd with h4 | h4
          · obtain ⟨b, rfl, h5⟩ := execR_dropCell he h4; exact h5 _ _ h3
          · exact h2 _ (List.mem_of_getElem? ht) (by simp [h4])
      · exact .inr (.inl ⟨r, b, h3⟩)
      · exact .inl (.inr (.inr ⟨_, hnew, List.mem_append_left _ h3⟩))
      · exact absurd (by simp) (h2 _ (List.mem_of_getElem? ht))
    · by_cases hx2 : Micro.requeue m ∈ ms ++ rest
      · exact .inl (.inr (.inr ⟨_, hnew, hx2⟩))
      by_cases hmc : mc = .requeue m
      · subst hmc
        cases he with
        | requeue_hand e1 e2 e3 =>
          rename_i pre c rs wk'
          have hl := (List.getElem?_eq_some_iff.mp e3).1
          rcases handed_or_doomed (s := ⟨{ s.w with cells := s.w.cells.set c (.full (.newMessage m) wk'), wRx := rs, log := .requeued m.id :: s.w.log },
            s.th.set t ([] ++ rest)⟩) (c := c) (m := m) (wk := wk') (by simp [hl]) with h3 | h3
          · exact .inl (.inr (.inl h3))
          · exact .inr (.inr (.inr h3))
        | requeue_queue e1 =>
          left; left; exact (Heap.push_perm Msg.le _ _).mem_iff.mpr (by simp)
      · left; right; right
        obtain ⟨i, hi⟩ := List.mem_iff_getElem?.mp hx
        by_cases hti : t = i
        · subst hti; rw [ht] at hi; simp at hi; subst hi
          rcases List.mem_cons.mp h1 with h1 | h1
          · exact absurd h1.symm hmc
          · exact absurd (List.mem_append_right _ h1) hx2
        · exact ⟨x, List.mem_iff_getElem?.mpr ⟨i, by simp [List.getElem?_set_ne hti]; exact hi⟩, h1⟩

/-- The step in which the send of `m` is decided, in any interleaving: the message becomes available, or its sender is
parked and registered with it, or it is put into a receive future that is being destroyed at this very moment. -/
theorem C03_accepted_partial {s s' : Sys} {t f wk : Nat} {md : Mode} {m : Msg} {rc : Rc} {rest : List Micro}
    (hmd : md ≠ .bcast) (ht : s.th[t]? = some (.sendCrit f md m rc wk :: rest)) (hs : s.step (.exec t) = some s') :
    s'.available m ∨ (∃ h ∈ s'.w.wOne, ∃ x, s'.w.ws[h]? = some (.active x m)) ∨ s'.doomed m := by
  have he := exec_rel s.w (.sendCrit f md m rc wk)
  simp only [Sys.step, ht] at hs
  simp at hs; subst hs
  generalize (exec s.w (.sendCrit f md m rc wk)).1 = w' at *
  generalize (exec s.w (.sendCrit f md m rc wk)).2 = ms at *
  cases he with
  | critAll_park => simp at hmd
  | critAll_sent => simp at hmd
  | critOne_hand hmd' h1 h2 h3 =>
    rename_i pre c rs wk'
    have hl := (List.getElem?_eq_some_iff.mp h3).1
    rcases handed_or_doomed (s := ⟨{ s.w with cells := s.w.cells.set c (.full (.newMessage m) wk'), wRx := rs, log := s.w.lateLog m },
        s.th.set t ([.dropTx rc, .sendFin f md m.id wk] ++ rest)⟩) (c := c) (m := m) (wk := wk') (by simp [hl]) with h | h
    · exact .inl (.inr (.inl h))
    · exact .inr (.inr h)
  | critOne_park hmd' h1 h2 => exact .inr (.inl ⟨s.w.ws.length, by simp, none, by simp⟩)
  | critOne_queue hmd' h1 h2 => exact .inl (.inl ((Heap.push_perm Msg.le _ _).mem_iff.mpr (by simp)))

theorem Shape.notDoomed {st : Bool} {w : World} {x : List Micro} (h : Shape st w x) {c : Nat} (hc : Micro.dropCell c ∈ x) : notFull w c := by
  cases h with
  | other h => have := h _ hc; simp [Micro.special] at this
  | req h => simp at hc; subst hc; intro m wk; rw [h]; simp
  | _ => first | (simp at hc; done) | (simp at hc; subst hc; assumption)

/-- **C03**, executions in which API calls do not overlap: nothing is ever put into a receive future that is being
destroyed. With `C03_stays_available_partial` and `C03_accepted_partial`: once accepted, a message stays available until it is
yielded or the last mailbox is gone. -/
theorem C03_sequential {cap : Option Nat} {s : Sys} (h : SeqReachable cap s) (m : Msg) :
    ¬ s.doomed m ∧ .lost m.id ∉ s.w.log := by
  have hi := seqInv_reachable h
  refine ⟨fun ⟨c, wk, h1, x, hx, h2⟩ => (hi.shape x hx).notDoomed h2 _ _ h1, fun hl => ?_⟩
  have := hi.ll _ hl
  simp [notLL] at this

/-- In a quiet state: message `m` is queued, or was handed to a receive future that exists. -/
def World.queuedOrHanded (w : World) (m : Msg) : Prop :=
  m ∈ w.uq ∨ ∃ (r b c : Nat) (wk : Option Nat), w.objs[r]? = some (.recv b (.waiting c)) ∧ w.cells[c]? = some (.full (.newMessage m) wk)

theorem runs_available {st : Bool} {cap : Option Nat} {w w' : World} {ms : List Micro} {m : Msg} (h : Runs w ms w') :
    ∀ {th : List (List Micro)}, Reachable cap ⟨w, th ++ [ms]⟩ → (∀ x ∈ th, x = []) → Shape st w ms →
      (Sys.available ⟨w, th ++ [ms]⟩ m ∨ (∃ r b, .recv r b (.one m) ∈ w.log) ∨ (w.rcv = 0 ∧ .dropped m.id ∈ w.log)) →
      (Sys.available ⟨w', th ++ [[]]⟩ m ∨ (∃ r b, .recv r b (.one m) ∈ w'.log) ∨ (w'.rcv = 0 ∧ .dropped m.id ∈ w'.log)) := by
  induction h with
  | nil => intro th _ _ _ h; exact h
  | cons hr ih =>
    rename_i w w' mc ms
    intro th hre hth hsh hp
    have hst : Sys.step ⟨w, th ++ [mc :: ms]⟩ (.exec th.length) = some ⟨(exec w mc).1, th ++ [(exec w mc).2 ++ ms]⟩ := by
      simp [Sys.step]
    have he := exec_rel w mc
    have hsh' := execR_shape he hsh
    have hreg : RegWs w.ws w.wOne w.wAll := regWs_reachable hre
    refine ih (.step hre hst) hth hsh' ?_
    rcases hp with hp | ⟨r, b, hp⟩ | ⟨h1, h2⟩
    · rcases C03_stays_available_partial hre hp hst with h1 | ⟨r, b, h1⟩ | h1 | ⟨c, wk, h1, x, hx, h2⟩
      · exact .inl h1
      · exact .inr (.inl ⟨r, b, by simp only at h1; rw [h1]; simp⟩)
      · exact .inr (.inr h1)
      · exfalso
        rcases List.mem_append.mp hx with hx | hx
        · rw [hth x hx] at h2; simp at h2
        · rw [List.mem_singleton.mp hx] at h2
          exact hsh'.notDoomed h2 _ _ h1
    · exact .inr (.inl ⟨r, b, (execR_suffix he hreg).mem hp⟩)
    · exact .inr (.inr ⟨execR_rcv_zero he h1, (execR_suffix he hreg).mem h2⟩)

/-- **C03**, whole calls: any API call whatsoever (in particular dropping any receive future, at any stage) made while no
other call is in progress, in a state reached by any interleaving. A message that was queued or handed over still is,
unless this call yielded it, or destroyed it because no mailbox is left. -/
theorem C03_call_keeps {cap : Option Nat} {w w' : World} {c : Call} {m : Msg} (hq : Quiet cap w)
    (hm : w.queuedOrHanded m) (hd : Does w c w') :
    w'.queuedOrHanded m ∨ (∃ r b, .recv r b (.one m) ∈ w'.log) ∨ (w'.mailboxRefs = 0 ∧ .dropped m.id ∈ w'.log) := by
  have hq' := hq.does hd
  obtain ⟨w1, ms, hc, hm1⟩ := hd
  obtain ⟨th, hr, he⟩ := hq
  have hst : Sys.step ⟨w, th⟩ (.call c) = some ⟨w1, th ++ [ms]⟩ := by simp [Sys.step, hc]
  have hre := Reachable.step hr hst
  have hcr := call_rel hc
  have hav : Sys.available ⟨w1, th ++ [ms]⟩ m := by
    rcases hm with hm | ⟨r, b, k, wk, h1, h2⟩
    · left; simp only; rw [callR_uq hcr]; exact hm
    · right; left
      refine ⟨k, wk, by simp only; rw [callR_cells hcr]; exact h2, fun x hx => ?_⟩
      rcases List.mem_append.mp hx with hx | hx
      · rw [he x hx]; simp
      · rw [List.mem_singleton.mp hx]; exact callR_dropCell hcr k
  rcases runs_available hm1 hre he (callR_shape hcr) (.inl hav) with h1 | h1 | ⟨h1, h2⟩
  · left
    rcases h1 with h1 | ⟨k, wk, h1, -⟩ | ⟨x, hx, h1⟩
    · exact .inl h1
    · obtain ⟨r, b, h3⟩ := hq'.owner (c := k) (by simp only at h1; simp [cellLive, h1])
      exact .inr ⟨r, b, k, wk, h3, h1⟩
    · exfalso
      rcases List.mem_append.mp hx with hx | hx
      · rw [he x hx] at h1; simp at h1
      · rw [List.mem_singleton.mp hx] at h1; simp at h1
  · exact .inr (.inl h1)
  · exact .inr (.inr ⟨by have := (C14_counts_exact_quiet hq').2; omega, h2⟩)

/-- Dropping a receive future that was handed a message: it is back in the queue. -/
def exHandSched : List Act :=
  [.call (.next 1), .call (.pollRecv 2 0), .exec 1, .exec 1, .call (.send 0), .call (.pollSend 3 7),
   .exec 3, .exec 3, .exec 3, .exec 3, .exec 3]

/-- Meets the hypotheses of `C03_call_keeps`. -/
example : ∃ w w', Quiet none w ∧ w.queuedOrHanded ⟨0, .valued 0⟩ ∧ w.uq = [] ∧ Does w (.dropRecv 2) w' ∧
    w'.uq = [⟨0, .valued 0⟩] :=
  ⟨_, _, ⟨_, Reachable.run .init (as := exHandSched) rfl, by decide⟩, .inr ⟨2, 0, 0, some 0, rfl, rfl⟩, rfl,
    ⟨_, _, rfl, .cons (.cons (.cons (.cons (.cons .nil))))⟩, rfl⟩
/-- The same as single steps. Meets the hypotheses of `C03_stays_available_partial`. -/
example : ∃ s s', Reachable none s ∧ s.handed ⟨0, .valued 0⟩ ∧ s.step (.exec 4) = some s' ∧ s'.beingPutBack ⟨0, .valued 0⟩ :=
  ⟨_, _, Reachable.run .init (as := exHandSched ++ [.call (.dropRecv 2)]) rfl, ⟨0, some 0, rfl, by decide⟩, rfl,
    ⟨[.requeue ⟨0, .valued 0⟩, .dropRx, .dropBq 0, .dropCell 0], by decide, by decide⟩⟩
/-- Meets the hypotheses of `C03_accepted_partial`. -/
example : ∃ s s', Reachable none s ∧ s.th[3]? = some [.sendCrit 3 .ret ⟨0, .valued 0⟩ .strong 7] ∧ s.step (.exec 3) = some s' ∧
    s'.handed ⟨0, .valued 0⟩ :=
  ⟨_, _, Reachable.run .init (as := exHandSched.take 8) rfl, rfl, rfl, ⟨0, some 0, rfl, by decide⟩⟩
/-- A sequential execution in which a message waits in the queue. Meets the hypotheses of `C03_sequential`. -/
example : ∃ s, SeqReachable none s ∧ s.idle = true ∧ s.available ⟨0, .valued 0⟩ :=
  ⟨_, .exec (.exec (.exec (.exec (.exec (.call (.call .init rfl (c := .send 0) rfl rfl) rfl (c := .pollSend 2 0) rfl rfl) (t := 1) rfl) (t := 1) rfl)
    (t := 1) rfl) (t := 1) rfl) (t := 1) rfl, rfl, .inl (by decide)⟩

/-- The schedule that loses a message: the receive future is dropped; after it looked for a handed message and before
its oneshot is dropped, a send hands it one. -/
def lostSched : List Act :=
  [.call (.next 1), .call (.pollRecv 2 0), .exec 1, .exec 1, .call (.send 0), .call (.dropRecv 2), .exec 3,
   .call (.pollSend 3 7), .exec 4, .exec 4, .exec 4, .exec 4, .exec 4, .exec 3, .exec 3, .exec 3]

theorem gone_not_full (c : Nat) (k : Ctrl) (wk : Option Nat) : ([RxCell.gone] : List RxCell)[c]? ≠ some (.full k wk) := by
  cases c <;> simp

/-- **C03 is false of the code** in this interleaving: the send was accepted, the mailbox and a strong address are
alive, and yet the message is gone, destroyed inside the dropped receive future, without ever having been yielded. -/
theorem C03_refuted : ∃ w, Quiet none w ∧ 0 < w.mailboxRefs ∧ 0 < w.strongRefs ∧ .lost 0 ∈ w.log ∧
    w.objs[3]? = some (.send .ret 0 .done) ∧ .dropped 0 ∉ w.log ∧ w.log.countP (Ev.yieldsUni 0) = 0 ∧
    ¬ w.queuedOrHanded ⟨0, .valued 0⟩ := by
  refine ⟨_, ⟨_, Reachable.run .init (as := lostSched) rfl, by decide⟩, by decide, by decide, by decide, rfl, by decide, by decide, ?_⟩
  rintro (h | ⟨r, b, c, wk, -, h⟩)
  · exact absurd h (by decide)
  · exact gone_not_full c _ wk h

/-! ### C11, continued -/

/-- **C11**, executions in which API calls do not overlap: once no mailbox reference is left (and the call that dropped it
has returned), nothing is queued and nothing is parked. -/
theorem C11_nothing_left_sequential {cap : Option Nat} {s : Sys} (h : SeqReachable cap s) (hi : s.idle = true)
    (h0 : s.w.mailboxRefs = 0) : s.w.uq = [] ∧ ∀ f md m, ¬ s.w.parkedSend f md m := by
  have hem : ∀ x ∈ s.th, x = [] := by simpa [Sys.idle, List.isEmpty_iff] using hi
  have hrc := (C14_counts_exact_quiet (cap := cap) (w := s.w) ⟨s.th, h.reachable, hem⟩).2
  refine C11_nothing_left_partial h.reachable (by omega) (fun x hx => by rw [hem x hx]; simp) (fun i hl => ?_)
  have := (seqInv_reachable h).ll _ hl
  simp [notLL] at this

/-- A message left behind stays behind, whatever happens. -/
theorem stuck_step {cap : Option Nat} {s s' : Sys} {a : Act} {m : Msg} (h : Reachable cap s) (h0 : s.w.rcv = 0)
    (ht0 : tot mShutTx s.th = 0) (hm : m ∈ s.w.uq) (hs : s.step a = some s') :
    s'.w.rcv = 0 ∧ tot mShutTx s'.th = 0 ∧ m ∈ s'.w.uq := by
  have hreg := regWs_reachable h
  rcases step_rel hs with ⟨c, w', ms, rfl, hc, rfl⟩ | ⟨t, mc, rest, w', ms, rfl, ht, he, rfl⟩
  · have := (callR_noShut hc).1
    exact ⟨rcv_zero_call h hc h0, by rw [tot_append]; omega, by rw [callR_uq hc]; exact hm⟩
  · have h1 := tot_exec mShutTx ms ht
    have h2 := tot_head mShutTx ht
    refine ⟨execR_rcv_zero he h0, ?_, ?_⟩
    · show tot mShutTx (s.th.set t (ms ++ rest)) = 0
      rcases execR_shutTx he with h3 | h3
      · omega
      · omega
    · rcases execR_uqMem he hreg hm with h3 | ⟨r, b, h3⟩ | ⟨rfl, h3⟩
      · exact h3
      · exfalso
        have hn := noRx_steps h h0 ht
        obtain ⟨i, hi⟩ := List.mem_iff_getElem?.mp hm
        have := he
        cases he
        case recv_one => simp [mRcv] at hn
        case recvPoll_one => simp [mRcv] at hn
        case recv_all => simp [mRcv] at hn
        case recv_shutdown => simp [mRcv] at hn
        case recvPoll_shutdown => simp [mRcv] at hn
        case recvBcast_some => simp [mRcv] at hn
        case shutTx => simp [mShutTx] at h2; omega
        all_goals (simp [World.ev, World.kill, World.lateLog, World.sendBroadcast] at h3; try (split at h3 <;> simp at h3))
      · simp [mShutTx] at h2; omega

theorem stuck_run {cap : Option Nat} {m : Msg} (as : List Act) : ∀ (s0 s1 : Sys), Reachable cap s0 → s0.w.rcv = 0 →
    tot mShutTx s0.th = 0 → m ∈ s0.w.uq → s0.run as = some s1 → m ∈ s1.w.uq ∧ Reachable cap s1 := by
  induction as with
  | nil => intro s0 s1 h1 _ _ h hr; simp [Sys.run] at hr; subst hr; exact ⟨h, h1⟩
  | cons a as ih =>
    intro s0 s1 hr h1 h2 h3 hrun
    simp only [Sys.run] at hrun
    split at hrun
    · rename_i s2 hs2
      obtain ⟨a1, a2, a3⟩ := stuck_step hr h1 h2 h3 hs2
      exact ih _ _ (.step hr hs2) a1 a2 a3 hrun
    · simp at hrun

/-- A send that finds the actor connected, then the last mailbox is dropped, then the send enters the channel. -/
def lateSched : List Act :=
  [.call (.send 0), .call (.pollSend 2 7), .exec 1, .exec 1, .call (.dropMailbox 1), .exec 2, .exec 2, .exec 2,
   .exec 1, .exec 1, .exec 1]

/-- **C11 is false of the code** in this interleaving: all calls have returned, no mailbox is left, and a message is
queued. In every continuation it stays queued, and its sender's future, which waits for the reply, gets none (until the last address
is dropped and the channel with it, which the model of a continuation leaves out: see `C47_nobody_left_waiting`). -/
theorem C11_refuted : ∃ s, Reachable none s ∧ s.idle = true ∧ s.w.mailboxRefs = 0 ∧
    s.w.objs[2]? = some (.send .ret 0 .done) ∧ ⟨0, .valued 0⟩ ∈ s.w.uq ∧
    ∀ as s', s.run as = some s' → ⟨0, .valued 0⟩ ∈ s'.w.uq ∧ (∀ r, .replyOk 2 0 r ∉ s'.w.log) ∧ .replyInt 2 0 ∉ s'.w.log := by
  refine ⟨_, Reachable.run .init (as := lateSched) rfl, rfl, by decide, rfl, by decide, fun as s' hrun => ?_⟩
  obtain ⟨h1, h2⟩ := stuck_run (cap := none) (m := ⟨0, .valued 0⟩) as _ _ (Reachable.run .init (as := lateSched) rfl) rfl rfl
    (by decide) hrun
  have h3 := held_reachable h2 0
  have h4 := created_le 0 s'.w
  obtain ⟨i, hi⟩ := List.mem_iff_getElem?.mp h1
  have h5 := le_sumBy (mid1 0) hi
  simp [mid1] at h5
  simp only [World.held] at h3
  obtain ⟨h6, h7⟩ := notDestroyed_of (i := 0) (log := s'.w.log) (by simp only [mid1] at *; omega)
  exact ⟨h1, fun r hr => h7 r (rpl_reachable h2 _ hr), fun hr => h6 (rpl_reachable h2 _ hr)⟩

/-- One message queued, one parked, then the last mailbox goes away. -/
def exEndSched : List Act :=
  exParkSched ++ [.call (.pollSend 3 7), .exec 3, .exec 3, .exec 3, .exec 3, .exec 3]

/-- Meets the hypotheses of `C11_release`. -/
example : ∃ s s', Reachable (some 1) s ∧ s.th[4]? = some (.shutTx :: [.dropBq 0]) ∧ s.step (.exec 4) = some s' ∧
    ⟨0, .valued 0⟩ ∈ s.w.uq ∧ s.w.parkedSend 3 .ret ⟨1, .valued 0⟩ :=
  ⟨_, _, Reachable.run .init (as := exEndSched ++ [.call (.dropMailbox 1), .exec 4]) rfl, rfl, rfl, by decide, ⟨0, some 7, rfl, rfl⟩⟩
/-- Meets the hypotheses of `C11_drop_last_mailbox`. -/
example : ∃ w w', Quiet (some 1) w ∧ w.objs[1]? = some (.mailbox 0) ∧ w.mailboxRefs = 1 ∧ Does w (.dropMailbox 1) w' ∧
    ⟨0, .valued 0⟩ ∈ w.uq ∧ w.parkedSend 3 .ret ⟨1, .valued 0⟩ :=
  ⟨_, _, ⟨_, Reachable.run .init (as := exEndSched) rfl, by decide⟩, rfl, by decide, ⟨_, _, rfl, .cons (.cons (.cons .nil))⟩,
    by decide, ⟨0, some 7, rfl, rfl⟩⟩
/-- Meets the hypotheses of `C11_failed_resolves`. -/
example : ∃ w w', Quiet (some 1) w ∧ w.failedSend 3 .ret 1 ∧ Does w (.pollSend 3 9) w' :=
  ⟨_, _, ⟨_, Reachable.run .init (as := exEndSched ++ [.call (.dropMailbox 1), .exec 4, .exec 4, .exec 4]) rfl, by decide⟩,
    ⟨0, some 7, rfl, rfl⟩, ⟨_, _, rfl, .cons .nil⟩⟩
/-- Meets the hypotheses of `C11_nothing_left_partial`, `C11_only_late_partial`. -/
example : ∃ s, Reachable (some 1) s ∧ s.w.rcv = 0 ∧ (∀ x ∈ s.th, .shutTx ∉ x) ∧ (∀ e ∈ s.w.log, e ≠ .late 0 ∧ e ≠ .late 1) ∧
    .dropped 0 ∈ s.w.log ∧ .dropped 1 ∈ s.w.log :=
  ⟨_, Reachable.run .init (as := exEndSched ++ [.call (.dropMailbox 1), .exec 4, .exec 4, .exec 4]) rfl, rfl, by decide, by decide,
    by decide, by decide⟩
/-- Meets the hypotheses of `C11_nothing_left_sequential`. -/
example : ∃ s, SeqReachable none s ∧ s.idle = true ∧ s.w.mailboxRefs = 0 ∧ s.w.resp.length = 1 :=
  ⟨_, .exec (.exec (.exec (.call (.call .init rfl (c := .send 0) rfl rfl) rfl (c := .dropMailbox 1) rfl rfl) (t := 1) rfl) (t := 1) rfl)
    (t := 1) rfl, rfl, by decide, rfl⟩

end Xtra
