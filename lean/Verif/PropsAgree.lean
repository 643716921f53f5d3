import Verif.Why
import Verif.Idle
import Verif.Join
import Verif.PropsLen
import Verif.PropsCancel
import Verif.PropsJoin
/-!
# C67: everybody agrees about disconnection

`is_connected`, failed sends, failed upgrades, shutdown notices and resolved join handles are observations made at
different places and without a common lock. They never contradict each other: what one caller has seen, every caller who
begins later sees too; and who is told that the actor is connected, or gets a message accepted, was connected at some
moment between the beginning and the end of that call.
-/

set_option linter.unusedSimpArgs false

namespace Xtra

/-- Specification: the actor is out of reach: no mailbox or no strong reference is left. -/
def World.ended (w : World) : Prop := w.rcv = 0 ∨ w.sc = 0

/-- Specification: the ways in which a program learns that the actor is out of reach. -/
def Ev.tellsEnd : Ev → Bool
  | .connected _ false => true
  | .upgraded _ false => true
  | .sendErr _ _ => true
  | .joined _ => true
  | .recv _ _ .shutdown => true
  | _ => false

/-- Of these, the ones not covered by `C10_err_means_disconnected` and `C23_resolves_only_disconnected`. -/
def Ev.tells3 : Ev → Bool
  | .connected _ false => true
  | .upgraded _ false => true
  | .recv _ _ .shutdown => true
  | _ => false

theorem execR_tells3 {cap : Option Nat} {s : Sys} {w' : World} {mc : Micro} {ms : List Micro} (hr : Reachable cap s)
    (h : ExecR s.w mc w' ms) {e : Ev} (he : e ∈ w'.log) (ht : e.tells3 = true) :
    e ∈ s.w.log ∨ (s.w.sc = 0 ∨ s.w.rcv = 0 ∧ ∃ i, e = .connected i false) := by
  have rg := regWs_reachable hr
  cases h
  case shutTx =>
    rcases shutTx_mem he with h | ⟨j, h⟩
    · exact .inl h
    · subst h; simp [Ev.tells3] at ht
  case recv_all hp _ _ =>
    simp at he
    rcases popBroadcast_log rg hp with h' | ⟨m', ts, h'⟩ <;> rw [show _ = _ from h'] at he
    · rcases he with rfl | he; simp [Ev.tells3] at ht; exact .inl he
    · simp at he; rcases he with rfl | rfl | he; simp [Ev.tells3] at ht; simp [Ev.tells3] at ht; exact .inl he
  case recvBcast_some hp =>
    simp at he
    rcases popBroadcast_log rg hp with h' | ⟨m', ts, h'⟩ <;> rw [show _ = _ from h'] at he
    · rcases he with rfl | he; simp [Ev.tells3] at ht; exact .inl he
    · simp at he; rcases he with rfl | rfl | he; simp [Ev.tells3] at ht; simp [Ev.tells3] at ht; exact .inl he
  case recv_one hp _ _ => simp [World.popUnicast_log hp] at he; rcases he with rfl | he; simp [Ev.tells3] at ht; exact .inl he
  case recv_shutdown h0 => exact .inr (.inl h0)
  case recvPoll_shutdown h0 => exact .inr (.inl ((iInv_reachable hr).sh _ _ h0))
  case conn1_no h0 =>
    simp at he; rcases he with rfl | he
    · exact .inr (.inr ⟨h0, _, rfl⟩)
    · exact .inl he
  case conn2 =>
    simp at he; rcases he with rfl | he
    · right; left
      by_cases h0 : s.w.sc = 0
      · exact h0
      · simp [Ev.tells3, show 0 < s.w.sc by omega] at ht
    · exact .inl he
  all_goals first
    | exact .inl he
    | (rw [World.decBq_log] at he; exact .inl he)
    | (rcases lateLog_mem he with he | rfl; exact .inl he; simp [Ev.tells3] at ht; done)
    | (simp at he; rcases lateLog_mem he with he | rfl; exact .inl he; simp [Ev.tells3] at ht; done)
    | (simp [World.sendBroadcast] at he; rcases he with rfl | he; simp [Ev.tells3] at ht; exact .inl he; done)
    | (simp [World.sendBroadcast] at he; rcases he with rfl | he; simp [Ev.tells3] at ht; rcases lateLog_mem he with he | rfl; exact .inl he; simp [Ev.tells3] at ht; done)
    | (simp at he; rcases he with rfl | he; simp [Ev.tells3] at ht; exact .inl he; done)
    | (simp at he; rcases he with rfl | rfl | he; simp [Ev.tells3] at ht; simp [Ev.tells3] at ht; exact .inl he; done)

theorem callR_tells3 {w w' : World} {c : Call} {ms : List Micro} (h : CallR w c w' ms) {e : Ev} (he : e ∈ w'.log)
    (ht : e.tells3 = true) : e ∈ w.log ∨ w.sc = 0 := by
  cases h
  case upgrade_no h0 => exact .inr h0
  all_goals first
    | exact .inl he
    | (simp at he; exact .inl he)
    | (simp at he; rcases he with rfl | he; simp [Ev.tells3] at ht; exact .inl he; done)

theorem tells3_ended {cap : Option Nat} {s : Sys} (h : Reachable cap s) {e : Ev} (he : e ∈ s.w.log) (ht : e.tells3 = true) :
    s.w.sc = 0 ∨ s.w.rcv = 0 ∧ ∃ i, e = .connected i false := by
  induction h with
  | init => simp [init] at he
  | @step s s' a hr hs ih =>
    have hz := C15_zero_forever hr hs
    have old : (s.w.sc = 0 ∨ s.w.rcv = 0 ∧ ∃ i, e = .connected i false) →
        s'.w.sc = 0 ∨ s'.w.rcv = 0 ∧ ∃ i, e = .connected i false :=
      fun h => h.imp hz.1 (fun h => ⟨hz.2 h.1, h.2⟩)
    rcases step_rel hs with ⟨c, w', ms, rfl, hc, rfl⟩ | ⟨t, m1, rest, w', ms, rfl, ht', hx, rfl⟩
    · rcases callR_tells3 hc he ht with h | h
      · exact old (ih h)
      · exact .inl (hz.1 h)
    · rcases execR_tells3 hr hx he ht with h | h
      · exact old (ih h)
      · exact old h

/-- **C67.** Whoever is told that the actor is out of reach, in whatever way (`is_connected` is false, a send fails with
`Disconnected`, an upgrade fails, a join handle resolves, an actor receives the shutdown notice), is told the truth: no mailbox or no
strong reference is left. If it was a failed upgrade or a shutdown notice, no strong reference is left. -/
theorem C67_observations_are_true {cap : Option Nat} {s : Sys} (h : Reachable cap s) {e : Ev} (he : e ∈ s.w.log)
    (ht : e.tellsEnd = true) :
    s.w.ended ∧ ((∃ i, e = .upgraded i false) ∨ (∃ r b, e = .recv r b .shutdown) → s.w.sc = 0) := by
  by_cases h3 : e.tells3 = true
  · rcases tells3_ended h he h3 with h0 | ⟨h0, i, rfl⟩
    · exact ⟨.inr h0, fun _ => h0⟩
    · exact ⟨.inl h0, fun hx => by simp at hx⟩
  · cases e <;> simp [Ev.tellsEnd] at ht <;> simp [Ev.tells3] at h3
    case sendErr f i => exact ⟨C10_err_means_disconnected h he, fun hx => by simp at hx⟩
    case joined j => exact ⟨C23_resolves_only_disconnected h he, fun hx => by simp at hx⟩
    case recv r b am => cases am <;> simp_all
    case connected i b => cases b <;> simp_all
    case upgraded i b => cases b <;> simp_all

theorem ended_step {cap : Option Nat} {s s' : Sys} {a : Act} (h : Reachable cap s) (hs : s.step a = some s')
    (he : s.w.ended) : s'.w.ended := he.imp (C15_zero_forever h hs).2 (C15_zero_forever h hs).1

/-- Induction along a run. -/
theorem run_ind {s1 : Sys} {P : List Act → Sys → Prop} (h0 : P [] s1)
    (hstep : ∀ as s2 a s3, s1.run as = some s2 → P as s2 → s2.step a = some s3 → P (as ++ [a]) s3) :
    ∀ as s2, s1.run as = some s2 → P as s2 := by
  have key : ∀ (bs as : List Act) (sa s2 : Sys), s1.run as = some sa → P as sa → sa.run bs = some s2 → P (as ++ bs) s2 := by
    intro bs
    induction bs with
    | nil => intro as sa s2 _ hp h2; simp [Sys.run] at h2; subst h2; simpa using hp
    | cons b bs ih =>
      intro as sa s2 h1 hp h2
      simp only [Sys.run] at h2
      split at h2
      · rename_i sb hb
        have := ih (as ++ [b]) sb s2 (run_snoc h1 hb) (hstep as sa b sb h1 hp hb) h2
        simpa using this
      · simp at h2
  intro as s2 h
  simpa using key as [] s1 s2 rfl h0 h

/-- A step of another thread, or a new call, leaves a thread alone. -/
theorem step_thread {s s' : Sys} {a : Act} {t : Nat} (hs : s.step a = some s') (ht : t < s.th.length) :
    a = .exec t ∨ s'.th[t]? = s.th[t]? := by
  cases a with
  | call c =>
    right
    simp only [Sys.step] at hs
    split at hs
    · simp at hs; subst hs; simp [List.getElem?_append, ht]
    · simp at hs
  | exec u =>
    by_cases hu : u = t
    · exact .inl (by rw [hu])
    · right
      simp only [Sys.step] at hs
      split at hs
      · simp at hs; subst hs; simp [List.getElem?_set, hu]
      · simp at hs

theorem step_len {s s' : Sys} {a : Act} (hs : s.step a = some s') : s.th.length ≤ s'.th.length := by
  rcases step_rel hs with ⟨c, w', ms, rfl, hc, rfl⟩ | ⟨t, m1, rest, w', ms, rfl, ht', hx, rfl⟩ <;> simp

/-- A step of thread `t`. -/
theorem step_ofThread {s s' : Sys} {t : Nat} (hs : s.step (.exec t) = some s') {x : List Micro} (hx : s.th[t]? = some x) :
    ∃ m rest w' ms, x = m :: rest ∧ ExecR s.w m w' ms ∧ s'.w = w' ∧ s'.th[t]? = some (ms ++ rest) := by
  rcases step_rel hs with ⟨c, w', ms, h, hc, rfl⟩ | ⟨u, m1, rest, w', ms, h, ht', hx', rfl⟩
  · simp at h
  · simp at h; subst h
    rw [hx] at ht'; simp at ht'; subst ht'
    refine ⟨m1, rest, w', ms, rfl, hx', rfl, ?_⟩
    have : t < s.th.length := by
      rcases Nat.lt_or_ge t s.th.length with h | h
      · exact h
      · rw [List.getElem?_eq_none h] at hx; simp at hx
    simp [List.getElem?_set, this]

/-- A new call gets the next thread. -/
theorem step_newThread {s s' : Sys} {c : Call} (hs : s.step (.call c) = some s') :
    ∃ w' ms, CallR s.w c w' ms ∧ s'.w = w' ∧ s'.th = s.th ++ [ms] := by
  rcases step_rel hs with ⟨c', w', ms, h, hc, rfl⟩ | ⟨u, m1, rest, w', ms, h, ht', hx', rfl⟩
  · simp at h; subst h; exact ⟨w', ms, hc, rfl, rfl⟩
  · simp at h

/-- Following one thread through a run: `P as x s2` is what is known when, after the steps `as`, the thread has still to do `x`. -/
theorem thread_ind {cap : Option Nat} {s1 : Sys} {t : Nat} (hr : Reachable cap s1) (hlt : t < s1.th.length)
    {P : List Act → List Micro → Sys → Prop} (h0 : ∀ x, s1.th[t]? = some x → P [] x s1)
    (other : ∀ as x s2 a s3, s1.run as = some s2 → Reachable cap s2 → P as x s2 → s2.step a = some s3 → P (as ++ [a]) x s3)
    (own : ∀ as m rest s2 s3 ms, s1.run as = some s2 → Reachable cap s2 → P as (m :: rest) s2 → ExecR s2.w m s3.w ms →
      s2.step (.exec t) = some s3 → P (as ++ [.exec t]) (ms ++ rest) s3) :
    ∀ as s2, s1.run as = some s2 → t < s2.th.length ∧ ∀ x, s2.th[t]? = some x → P as x s2 := by
  refine run_ind ⟨hlt, h0⟩ ?_
  intro as s2 a s3 hrun ⟨hl, hp⟩ hs
  have hr2 : Reachable cap s2 := Reachable.run hr hrun
  refine ⟨Nat.lt_of_lt_of_le hl (step_len hs), fun x hx => ?_⟩
  rcases step_thread hs hl with rfl | heq
  · have hx2 : s2.th[t]? = some s2.th[t] := List.getElem?_eq_getElem hl
    obtain ⟨m, rest, w', ms, he, hx', rfl, hth⟩ := step_ofThread hs hx2
    rw [hx] at hth; simp at hth; subst hth
    have := hp _ hx2
    rw [he] at this
    exact own as m rest s2 s3 ms hrun hr2 this hx' hs
  · rw [heq] at hx
    exact other as x s2 a s3 hrun hr2 (hp x hx) hs

/-- A step of the tail of a send that failed: giving the address back and, if it was the last strong one, telling waiting receivers. -/
def Micro.giveBack : Micro → Bool
  | .dropTx _ => true
  | .shutRx => true
  | .notifyShut _ => true
  | _ => false

theorem execR_giveBack {w w' : World} {m : Micro} {ms : List Micro} (h : ExecR w m w' ms) (hg : m.giveBack = true) :
    w'.log = w.log ∧ ∀ x ∈ ms, x.giveBack = true := by
  cases h <;> simp [Micro.giveBack] at hg <;> simp [Micro.giveBack]

/-- **C67.** `is_connected` called (from any handle, in any thread, whatever else is going on) when the actor is out of reach answers
`false`: the call's steps show the caller nothing else, and when it has returned it has answered. -/
theorem C67_later_is_connected {cap : Option Nat} {s s1 s2 : Sys} {i : Nat} {as : List Act} (h : Reachable cap s)
    (hend : s.w.ended) (hc : s.step (.call (.isConnected i)) = some s1) (hrun : s1.run as = some s2) :
    (∀ s3, s2.step (.exec s.th.length) = some s3 → s3.w.log = s2.w.log ∨ s3.w.log = .connected i false :: s2.w.log) ∧
    (s2.th[s.th.length]? = some [] → .connected i false ∈ s2.w.log) := by
  have hr1 : Reachable cap s1 := .step h hc
  obtain ⟨w', ms, hcr, hw, hth⟩ := step_newThread hc
  have hms : ms = [.conn1 i] ∧ w' = s.w := by cases hcr; exact ⟨rfl, rfl⟩
  obtain ⟨rfl, rfl⟩ := hms
  have hlt : s.th.length < s1.th.length := by rw [hth]; simp
  have key := thread_ind (t := s.th.length) hr1 hlt
    (P := fun _ x s2 => s2.w.ended ∧ (x = [.conn1 i] ∨ (x = [.conn2 i] ∧ s2.w.sc = 0) ∨ (x = [] ∧ .connected i false ∈ s2.w.log)))
    (fun x hx => by
      rw [hth] at hx; simp at hx; subst hx
      exact ⟨by rw [hw]; exact hend, .inl rfl⟩)
    (fun as x s2 a s3 _ hr2 hp hs => ⟨ended_step hr2 hs hp.1, hp.2.imp id (Or.imp (And.imp id (C15_zero_forever hr2 hs).1)
      (And.imp id fun hm => (step_suffix hr2 hs).subset hm))⟩)
    (fun as m rest s2 s3 ms _ hr2 hp hx hs => by
      refine ⟨ended_step hr2 hs hp.1, ?_⟩
      rcases hp.2 with he | ⟨he, h0⟩ | ⟨he, -⟩
      · simp only [List.cons.injEq] at he
        obtain ⟨rfl, rfl⟩ := he
        generalize hw3 : s3.w = w3 at hx
        cases hx with
        | conn1_no h1 => right; right; exact ⟨rfl, by simp⟩
        | conn1_yes h1 => right; left; exact ⟨rfl, hp.1.resolve_left h1⟩
      · simp only [List.cons.injEq] at he
        obtain ⟨rfl, rfl⟩ := he
        generalize hw3 : s3.w = w3 at hx
        cases hx with
        | conn2 => right; right; exact ⟨rfl, by simp [h0]⟩
      · simp at he)
    as s2 hrun
  have hr2 : Reachable cap s2 := Reachable.run hr1 hrun
  refine ⟨fun s3 hs => ?_, fun hx => ?_⟩
  · have hx2 : s2.th[s.th.length]? = some s2.th[s.th.length] := List.getElem?_eq_getElem key.1
    obtain ⟨m, rest, w', ms, he, hx', hw3, -⟩ := step_ofThread hs hx2
    obtain ⟨hend2, hp⟩ := key.2 _ hx2
    rw [he] at hp
    rcases hp with hp | ⟨hp, h0⟩ | ⟨hp, -⟩
    · simp only [List.cons.injEq] at hp
      obtain ⟨rfl, -⟩ := hp
      rw [hw3]
      cases hx' with
      | conn1_no h1 => right; rfl
      | conn1_yes h1 => left; rfl
    · simp only [List.cons.injEq] at hp
      obtain ⟨rfl, -⟩ := hp
      rw [hw3]
      cases hx' with
      | conn2 => right; simp [h0]
    · simp at hp
  · obtain ⟨-, hp⟩ := key.2 _ hx
    rcases hp with hp | ⟨hp, -⟩ | ⟨-, hp⟩
    · simp at hp
    · simp at hp
    · exact hp

/-- **C67.** A send or broadcast polled for the first time when the actor is out of reach, whatever else is going on: all its poll does is
to destroy the message and resolve to `Disconnected`. -/
theorem C67_later_sends_fail {cap : Option Nat} {s s1 s2 : Sys} {f mid wk : Nat} {md : Mode} {m : Msg} {rc : Rc} {as : List Act}
    (h : Reachable cap s) (hend : s.w.ended) (ho : s.w.objs[f]? = some (.send md mid (.new m rc)))
    (hc : s.step (.call (.pollSend f wk)) = some s1) (hrun : s1.run as = some s2) :
    (∀ s3, s2.step (.exec s.th.length) = some s3 →
      s3.w.log = s2.w.log ∨ s3.w.log = .sendErr f m.id :: .dropped m.id :: s2.w.log) ∧
    (s2.th[s.th.length]? = some [] → .sendErr f m.id ∈ s2.w.log) := by
  have hr1 : Reachable cap s1 := .step h hc
  obtain ⟨w', ms, hcr, hw, hth⟩ := step_newThread hc
  have hms : ms = [.sendLd1 f md m rc wk] ∧ w'.rcv = s.w.rcv ∧ w'.sc = s.w.sc := by
    cases hcr with
    | pollSend_new ho' => rw [ho] at ho'; simp at ho'; obtain ⟨rfl, rfl, rfl, rfl⟩ := ho'; exact ⟨rfl, rfl, rfl⟩
    | pollSend_waiting ho' => rw [ho] at ho'; simp at ho'
    | pollSend_done ho' => rw [ho] at ho'; simp at ho'
  obtain ⟨rfl, hw1, hw2⟩ := hms
  have hlt : s.th.length < s1.th.length := by rw [hth]; simp
  have key := thread_ind (t := s.th.length) hr1 hlt
    (P := fun _ x s2 => s2.w.ended ∧ (x = [.sendLd1 f md m rc wk] ∨ (x = [.sendLd2 f md m rc wk] ∧ s2.w.sc = 0) ∨
      ((∀ y ∈ x, y.giveBack = true) ∧ .sendErr f m.id ∈ s2.w.log)))
    (fun x hx => by
      rw [hth] at hx; simp at hx; subst hx
      exact ⟨by rw [hw]; unfold World.ended; rw [hw1, hw2]; exact hend, .inl rfl⟩)
    (fun as x s2 a s3 _ hr2 hp hs => ⟨ended_step hr2 hs hp.1, hp.2.imp id (Or.imp (And.imp id (C15_zero_forever hr2 hs).1)
      (And.imp id fun hm => (step_suffix hr2 hs).subset hm))⟩)
    (fun as mc rest s2 s3 ms _ hr2 hp hx hs => by
      refine ⟨ended_step hr2 hs hp.1, ?_⟩
      rcases hp.2 with he | ⟨he, h0⟩ | ⟨hg, hm⟩
      · simp only [List.cons.injEq] at he
        obtain ⟨rfl, rfl⟩ := he
        generalize hw3 : s3.w = w3 at hx
        cases hx with
        | sendLd1_err h1 => right; right; exact ⟨by simp [Micro.giveBack], by simp⟩
        | sendLd1_ok h1 => right; left; exact ⟨rfl, hp.1.resolve_left h1⟩
      · simp only [List.cons.injEq] at he
        obtain ⟨rfl, rfl⟩ := he
        generalize hw3 : s3.w = w3 at hx
        cases hx with
        | sendLd2_err h1 => right; right; exact ⟨by simp [Micro.giveBack], by simp⟩
        | sendLd2_ok h1 => exact absurd h0 h1
      · right; right
        have hb := execR_giveBack hx (hg mc (by simp))
        refine ⟨fun y hy => ?_, by rw [hb.1]; exact hm⟩
        rcases List.mem_append.mp hy with hy | hy
        · exact hb.2 y hy
        · exact hg y (by simp [hy]))
    as s2 hrun
  refine ⟨fun s3 hs => ?_, fun hx => ?_⟩
  · have hx2 : s2.th[s.th.length]? = some s2.th[s.th.length] := List.getElem?_eq_getElem key.1
    obtain ⟨mc, rest, w', ms, he, hx', hw3, -⟩ := step_ofThread hs hx2
    obtain ⟨hend2, hp⟩ := key.2 _ hx2
    rw [he] at hp
    rcases hp with hp | ⟨hp, h0⟩ | ⟨hp, -⟩
    · simp only [List.cons.injEq] at hp
      obtain ⟨rfl, -⟩ := hp
      rw [hw3]
      cases hx' with
      | sendLd1_err h1 => right; simp
      | sendLd1_ok h1 => left; rfl
    · simp only [List.cons.injEq] at hp
      obtain ⟨rfl, -⟩ := hp
      rw [hw3]
      cases hx' with
      | sendLd2_err h1 => right; simp
      | sendLd2_ok h1 => exact absurd h0 h1
    · left; rw [hw3]; exact (execR_giveBack hx' (hp mc (by simp))).1
  · obtain ⟨-, hp⟩ := key.2 _ hx
    rcases hp with hp | ⟨hp, -⟩ | ⟨-, hp⟩
    · simp at hp
    · simp at hp
    · exact hp

/-- **C67.** `join` called when the actor is out of reach gives a handle that is ready: the only thing its steps put into the new handle's
place is a handle that has resolved. -/
theorem C67_later_join {cap : Option Nat} {s s1 s2 : Sys} {i : Nat} {as : List Act}
    (h : Reachable cap s) (hend : s.w.ended) (hc : s.step (.call (.join i)) = some s1) (hrun : s1.run as = some s2) :
    ∀ s3, s2.step (.exec s.th.length) = some s3 →
      s3.w.objs = s2.w.objs ∨ s3.w.objs = s2.w.objs.set s.w.objs.length (.join none) := by
  have hr1 : Reachable cap s1 := .step h hc
  obtain ⟨w', ms, hcr, hw, hth⟩ := step_newThread hc
  have hms : ms = [.join1 s.w.objs.length s.w.lst.length] ∧ w'.rcv = s.w.rcv ∧ w'.sc = s.w.sc := by
    cases hcr; exact ⟨rfl, rfl, rfl⟩
  obtain ⟨rfl, hw1, hw2⟩ := hms
  have hlt : s.th.length < s1.th.length := by rw [hth]; simp
  have key := thread_ind (t := s.th.length) hr1 hlt
    (P := fun _ x s2 => s2.w.ended ∧ (x = [.join1 s.w.objs.length s.w.lst.length] ∨
      (x = [.join2 s.w.objs.length s.w.lst.length] ∧ s2.w.sc = 0) ∨ x = []))
    (fun x hx => by
      rw [hth] at hx; simp at hx; subst hx
      exact ⟨by rw [hw]; unfold World.ended; rw [hw1, hw2]; exact hend, .inl rfl⟩)
    (fun as x s2 a s3 _ hr2 hp hs => ⟨ended_step hr2 hs hp.1, hp.2.imp id (Or.imp (And.imp id (C15_zero_forever hr2 hs).1) id)⟩)
    (fun as mc rest s2 s3 ms _ hr2 hp hx hs => by
      refine ⟨ended_step hr2 hs hp.1, ?_⟩
      rcases hp.2 with he | ⟨he, h0⟩ | he
      · simp only [List.cons.injEq] at he
        obtain ⟨rfl, rfl⟩ := he
        generalize hw3 : s3.w = w3 at hx
        cases hx with
        | join1_no h1 => right; right; rfl
        | join1_yes h1 => right; left; exact ⟨rfl, hp.1.resolve_left h1⟩
      · simp only [List.cons.injEq] at he
        obtain ⟨rfl, rfl⟩ := he
        generalize hw3 : s3.w = w3 at hx
        cases hx with
        | join2_no h1 => right; right; rfl
        | join2_yes h1 => exact absurd h0 h1
      · simp at he)
    as s2 hrun
  intro s3 hs
  have hx2 : s2.th[s.th.length]? = some s2.th[s.th.length] := List.getElem?_eq_getElem key.1
  obtain ⟨mc, rest, w', ms, he, hx', hw3, -⟩ := step_ofThread hs hx2
  obtain ⟨hend2, hp⟩ := key.2 _ hx2
  rw [he] at hp
  rcases hp with hp | ⟨hp, h0⟩ | hp
  · simp only [List.cons.injEq] at hp
    obtain ⟨rfl, -⟩ := hp
    rw [hw3]
    cases hx' with
    | join1_no h1 => right; rfl
    | join1_yes h1 => left; rfl
  · simp only [List.cons.injEq] at hp
    obtain ⟨rfl, -⟩ := hp
    rw [hw3]
    cases hx' with
    | join2_no h1 => right; rfl
    | join2_yes h1 => exact absurd h0 h1
  · simp at hp

/-- Specification: at some moment of the run `as` from `s1` the actor was within reach. -/
def ConnectedDuring (s1 : Sys) (as : List Act) : Prop :=
  ∃ as1 as2 s', as = as1 ++ as2 ∧ s1.run as1 = some s' ∧ s'.w.rcv ≠ 0 ∧ s'.w.sc ≠ 0

/-- What is known once the first of the two loads has found a mailbox: a moment at which there was one, and if there was no strong
reference at that moment there is none now. -/
def SawMailbox (s1 : Sys) (as : List Act) (s2 : Sys) : Prop :=
  ∃ as1 as2 s', as = as1 ++ as2 ∧ s1.run as1 = some s' ∧ s'.w.rcv ≠ 0 ∧ (s'.w.sc = 0 → s2.w.sc = 0)

theorem SawMailbox.step {cap : Option Nat} {s1 s2 s3 : Sys} {as : List Act} {a : Act} (h : SawMailbox s1 as s2)
    (hr : Reachable cap s2) (hs : s2.step a = some s3) : SawMailbox s1 (as ++ [a]) s3 := by
  obtain ⟨as1, as2, s', rfl, h1, h2, h3⟩ := h
  exact ⟨as1, as2 ++ [a], s', by simp, h1, h2, fun h0 => (C15_zero_forever hr hs).1 (h3 h0)⟩

theorem ConnectedDuring.snoc {s1 : Sys} {as : List Act} {a : Act} (h : ConnectedDuring s1 as) : ConnectedDuring s1 (as ++ [a]) := by
  obtain ⟨as1, as2, s', rfl, h1⟩ := h
  exact ⟨as1, as2 ++ [a], s', by simp, h1⟩

/-- **C67.** When `is_connected` answers `true` there was a moment between the call and the answer at which both a mailbox and a strong
reference existed, although the two counters are read at different times and without the lock. -/
theorem C67_true_was_true {cap : Option Nat} {s s1 s2 s3 : Sys} {i : Nat} {as : List Act} (h : Reachable cap s)
    (hc : s.step (.call (.isConnected i)) = some s1) (hrun : s1.run as = some s2)
    (hs : s2.step (.exec s.th.length) = some s3) (ha : s3.w.log = .connected i true :: s2.w.log) : ConnectedDuring s1 as := by
  have hr1 : Reachable cap s1 := .step h hc
  obtain ⟨w', ms, hcr, hw, hth⟩ := step_newThread hc
  have hms : ms = [.conn1 i] ∧ w' = s.w := by cases hcr; exact ⟨rfl, rfl⟩
  obtain ⟨rfl, rfl⟩ := hms
  have hlt : s.th.length < s1.th.length := by rw [hth]; simp
  have key := thread_ind (t := s.th.length) hr1 hlt
    (P := fun as x s2 => x = [.conn1 i] ∨ (x = [.conn2 i] ∧ SawMailbox s1 as s2) ∨ x = [])
    (fun x hx => by rw [hth] at hx; simp at hx; subst hx; exact .inl rfl)
    (fun as x s2 a s3 _ hr2 hp hs => hp.imp id (Or.imp (And.imp id fun hm => hm.step hr2 hs) id))
    (fun as m rest s2 s3 ms hrun hr2 hp hx hs => by
      rcases hp with he | ⟨he, h0⟩ | he
      · simp only [List.cons.injEq] at he
        obtain ⟨rfl, rfl⟩ := he
        generalize hw3 : s3.w = w3 at hx
        cases hx with
        | conn1_no h1 => right; right; rfl
        | conn1_yes h1 =>
          right; left
          exact ⟨rfl, as, [.exec s.th.length], s2, rfl, hrun, h1, fun h0 => (C15_zero_forever hr2 hs).1 h0⟩
      · simp only [List.cons.injEq] at he
        obtain ⟨rfl, rfl⟩ := he
        generalize hw3 : s3.w = w3 at hx
        cases hx with
        | conn2 => right; right; rfl
      · simp at he)
    as s2 hrun
  have hx2 : s2.th[s.th.length]? = some s2.th[s.th.length] := List.getElem?_eq_getElem key.1
  obtain ⟨mc, rest, w', ms, he, hx', hw3, -⟩ := step_ofThread hs hx2
  have hp := key.2 _ hx2
  rw [he] at hp
  rw [hw3] at ha
  rcases hp with hp | ⟨hp, as1, as2, s', rfl, h1, h2, h3⟩ | hp
  · simp only [List.cons.injEq] at hp
    obtain ⟨rfl, -⟩ := hp
    cases hx' with
    | conn1_no h1 => simp at ha
    | conn1_yes h1 => simp at ha
  · simp only [List.cons.injEq] at hp
    obtain ⟨rfl, -⟩ := hp
    cases hx' with
    | conn2 =>
      simp at ha
      exact ⟨as1, as2, s', rfl, h1, h2, fun h0 => by have := h3 h0; omega⟩
  · simp at hp

/-- Specification: between `w` and `w'` no message entered the channel: no queue, no mailbox, no list of parked senders, and no waiting
receiver was handed one. -/
def World.tookNothing (w w' : World) : Prop :=
  w'.uq = w.uq ∧ w'.bq = w.bq ∧ w'.ws = w.ws ∧
    ∀ (c : Nat) m wk, w'.cells[c]? = some (RxCell.full (.newMessage m) wk) → w.cells[c]? = some (RxCell.full (.newMessage m) wk)

theorem execR_giveBack_took {w w' : World} {m : Micro} {ms : List Micro} (h : ExecR w m w' ms) (hg : m.giveBack = true) :
    w.tookNothing w' := by
  cases h <;> simp [Micro.giveBack] at hg <;> refine ⟨rfl, rfl, rfl, fun c m wk hc => ?_⟩ <;> try exact hc
  case notifyShut d =>
    simp only [notifyCell] at hc
    split at hc
    · rename_i wk' hd
      simp only [List.getElem?_set] at hc
      split at hc
      · split at hc <;> simp at hc
      · exact hc
    · exact hc

/-- **C67.** A poll of a send or broadcast. Whatever a step of it does apart from failing with `Disconnected` (and destroying the message)
and giving the address back -- putting the message into the channel, parking it, reporting success or `Pending` -- there was a moment since
the beginning of that poll at which both a mailbox and a strong reference existed. -/
theorem C67_accepted_was_connected {cap : Option Nat} {s s1 s2 s3 : Sys} {f mid wk : Nat} {md : Mode} {m : Msg} {rc : Rc} {as : List Act}
    (h : Reachable cap s) (ho : s.w.objs[f]? = some (.send md mid (.new m rc)))
    (hc : s.step (.call (.pollSend f wk)) = some s1) (hrun : s1.run as = some s2)
    (hs : s2.step (.exec s.th.length) = some s3) :
    ((s3.w.log = s2.w.log ∨ s3.w.log = .sendErr f m.id :: .dropped m.id :: s2.w.log) ∧ s2.w.tookNothing s3.w) ∨
    ConnectedDuring s1 as := by
  have hr1 : Reachable cap s1 := .step h hc
  obtain ⟨w', ms, hcr, hw, hth⟩ := step_newThread hc
  have hms : ms = [.sendLd1 f md m rc wk] := by
    cases hcr with
    | pollSend_new ho' => rw [ho] at ho'; simp at ho'; obtain ⟨rfl, rfl, rfl, rfl⟩ := ho'; rfl
    | pollSend_waiting ho' => rw [ho] at ho'; simp at ho'
    | pollSend_done ho' => rw [ho] at ho'; simp at ho'
  subst hms
  have hlt : s.th.length < s1.th.length := by rw [hth]; simp
  have key := thread_ind (t := s.th.length) hr1 hlt
    (P := fun as x s2 => x = [.sendLd1 f md m rc wk] ∨ (x = [.sendLd2 f md m rc wk] ∧ SawMailbox s1 as s2) ∨ ConnectedDuring s1 as ∨
      ∀ y ∈ x, y.giveBack = true)
    (fun x hx => by rw [hth] at hx; simp at hx; subst hx; exact .inl rfl)
    (fun as x s2 a s3 _ hr2 hp hs => hp.imp id (Or.imp (And.imp id fun hm => hm.step hr2 hs) (Or.imp (·.snoc) id)))
    (fun as mc rest s2 s3 ms hrun hr2 hp hx hs => by
      rcases hp with he | ⟨he, as1, as2, s', rfl, h1, h2, h3⟩ | hd | hg
      · simp only [List.cons.injEq] at he
        obtain ⟨rfl, rfl⟩ := he
        generalize hw3 : s3.w = w3 at hx
        cases hx with
        | sendLd1_err h1 => right; right; right; simp [Micro.giveBack]
        | sendLd1_ok h1 =>
          right; left
          exact ⟨rfl, as, [.exec s.th.length], s2, rfl, hrun, h1, fun h0 => (C15_zero_forever hr2 hs).1 h0⟩
      · simp only [List.cons.injEq] at he
        obtain ⟨rfl, rfl⟩ := he
        generalize hw3 : s3.w = w3 at hx
        cases hx with
        | sendLd2_err h1 => right; right; right; simp [Micro.giveBack]
        | sendLd2_ok h4 =>
          right; right; left
          exact ⟨as1, as2 ++ [.exec s.th.length], s', by simp, h1, h2, fun h0 => h4 (h3 h0)⟩
      · right; right; left; exact hd.snoc
      · right; right; right
        have hb := execR_giveBack hx (hg mc (by simp))
        intro y hy
        rcases List.mem_append.mp hy with hy | hy
        · exact hb.2 y hy
        · exact hg y (by simp [hy]))
    as s2 hrun
  have hx2 : s2.th[s.th.length]? = some s2.th[s.th.length] := List.getElem?_eq_getElem key.1
  obtain ⟨mc, rest, w', ms, he, hx', hw3, -⟩ := step_ofThread hs hx2
  have hp := key.2 _ hx2
  rw [he] at hp
  rw [hw3]
  rcases hp with hp | ⟨hp, -⟩ | hp | hp
  · left
    simp only [List.cons.injEq] at hp
    obtain ⟨rfl, -⟩ := hp
    cases hx' with
    | sendLd1_err h1 => exact ⟨.inr (by simp), rfl, rfl, rfl, fun _ _ _ h => h⟩
    | sendLd1_ok h1 => exact ⟨.inl rfl, rfl, rfl, rfl, fun _ _ _ h => h⟩
  · left
    simp only [List.cons.injEq] at hp
    obtain ⟨rfl, -⟩ := hp
    cases hx' with
    | sendLd2_err h1 => exact ⟨.inr (by simp), rfl, rfl, rfl, fun _ _ _ h => h⟩
    | sendLd2_ok h1 => exact ⟨.inl rfl, rfl, rfl, rfl, fun _ _ _ h => h⟩
  · exact .inr hp
  · left
    have hg := hp mc (by simp)
    exact ⟨.inl (execR_giveBack hx' hg).1, execR_giveBack_took hx' hg⟩

/-! ## Cases that meet the hypotheses -/

/-- A strong address `0`, a clone of it in `2`, and a send future `3`; then the last mailbox is dropped, with its notification still to come. -/
def exAgree : List Act := [.call (.cloneAddr 0), .call (.send 2), .call (.dropMailbox 1), .exec 2]

/-- Meets the hypotheses of `C67_later_is_connected`: the answer is `false`, although the waiting senders have not been told yet. -/
example : ∃ s s1 s2, Reachable none s ∧ s.w.ended ∧ (∃ ms ∈ s.th, .shutTx ∈ ms) ∧ s.step (.call (.isConnected 0)) = some s1 ∧
    s1.run [.exec 3] = some s2 ∧ s2.th[s.th.length]? = some [] :=
  ⟨_, _, _, Reachable.run .init (as := exAgree) rfl, .inl rfl, by decide, rfl, rfl, rfl⟩
/-- Meets the hypotheses of `C67_later_sends_fail`. -/
example : ∃ s s1 s2, Reachable none s ∧ s.w.ended ∧ s.w.objs[3]? = some (.send .ret 0 (.new ⟨0, .valued 0⟩ .strong)) ∧
    s.step (.call (.pollSend 3 7)) = some s1 ∧ s1.run [.exec 3, .exec 3] = some s2 ∧ s2.th[s.th.length]? = some [] :=
  ⟨_, _, _, Reachable.run .init (as := exAgree) rfl, .inl rfl, by decide, rfl, rfl, rfl⟩
/-- Meets the hypotheses of `C67_later_join`. -/
example : ∃ s s1 s2 s3, Reachable none s ∧ s.w.ended ∧ s.step (.call (.join 0)) = some s1 ∧ s1.run [] = some s2 ∧
    s2.step (.exec s.th.length) = some s3 ∧ s3.w.objs = s2.w.objs.set s.w.objs.length (.join none) :=
  ⟨_, _, _, _, Reachable.run .init (as := exAgree) rfl, .inl rfl, rfl, rfl, rfl, rfl⟩
/-- Meets the hypotheses of `C67_true_was_true`: the mailbox goes away between the two loads, the answer is `true` and was true when the
call began. -/
example : ∃ s s1 s2 s3, Reachable none s ∧ s.step (.call (.isConnected 0)) = some s1 ∧
    s1.run [.exec 0, .call (.dropMailbox 1), .exec 1] = some s2 ∧ s2.w.ended ∧ s2.step (.exec s.th.length) = some s3 ∧
    s3.w.log = .connected 0 true :: s2.w.log :=
  ⟨_, _, _, _, .init, rfl, rfl, .inl rfl, rfl, rfl⟩
/-- Meets the hypotheses of `C67_accepted_was_connected`, and its first case does not hold: the message enters the queue. -/
example : ∃ s s1 s2 s3, Reachable none s ∧ s.w.objs[3]? = some (.send .ret 0 (.new ⟨0, .valued 0⟩ .strong)) ∧
    s.step (.call (.pollSend 3 7)) = some s1 ∧ s1.run [.exec 2, .exec 2, .call (.dropMailbox 1), .exec 3] = some s2 ∧ s2.w.ended ∧
    s2.step (.exec s.th.length) = some s3 ∧ s3.w.uq = [⟨0, .valued 0⟩] ∧ s2.w.uq = [] :=
  ⟨_, _, _, _, Reachable.run .init (as := exAgree.take 2) rfl, by decide, rfl, rfl, .inl rfl, rfl, rfl, rfl⟩
/-- Meets the hypotheses of `C67_observations_are_true`: a failed upgrade, and a mailbox that is still there. -/
example : ∃ s, Reachable none s ∧ Ev.upgraded 2 false ∈ s.w.log ∧ s.w.rcv ≠ 0 :=
  ⟨_, Reachable.run .init (as := [.call (.downgrade 0), .call (.dropAddr 0), .exec 1, .call (.upgrade 2)]) rfl, by decide, by decide⟩
/-- Why `C67_true_was_true` and `C67_accepted_was_connected` are about calls whose own loads are up to date: with loads that are not
(`Call.stale`: the loads are `SeqCst`, but the updates are not), `is_connected` answers `true` and a send enters the channel although all was over before the call.
The other theorems hold with these calls around. -/
example : ∃ s, Reachable none s ∧ s.idle = true ∧ s.w.rcv = 0 ∧ .connected 0 true ∈ s.w.log ∧ ⟨0, .valued 0⟩ ∈ s.w.uq ∧ .late 0 ∈ s.w.log :=
  ⟨_, Reachable.run .init (as := exAgree ++ [.exec 2, .exec 2, .call (.isConnectedStale 0), .call (.pollSendStale 3 7), .exec 4, .exec 4, .exec 4]) rfl,
    by decide⟩

end Xtra
