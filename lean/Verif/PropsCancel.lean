import Verif.PropsSend2
/-! # Setting priorities (C19), cancelled sends (C37), interrupted dispatch (C38), priority inversion (C34) -/

namespace Xtra

theorem step_suffix {cap : Option Nat} {s s' : Sys} {a : Act} (h : Reachable cap s) (hs : s.step a = some s') :
    s.w.log <:+ s'.w.log := by
  rcases step_rel hs with ⟨c, w', ms, -, hc, rfl⟩ | ⟨t, m, rest, w', ms, -, ht, he, rfl⟩
  · exact callR_suffix hc
  · exact execR_suffix he (regWs_reachable h)

theorem run_suffix {cap : Option Nat} {as : List Act} {s s' : Sys} (h : Reachable cap s) (hs : s.run as = some s') :
    s.w.log <:+ s'.w.log ∧ Reachable cap s' := by
  induction as generalizing s with
  | nil => simp [Sys.run] at hs; subst hs; exact ⟨List.suffix_refl _, h⟩
  | cons a as ih =>
    simp only [Sys.run] at hs
    split at hs
    · rename_i s1 hs1
      obtain ⟨h1, h2⟩ := ih (.step h hs1) hs
      exact ⟨(step_suffix h hs1).trans h1, h2⟩
    · simp at hs

theorem Future.suffix {cap : Option Nat} {w : World} {s : Sys} (h : Future cap w s) :
    w.log <:+ s.w.log ∧ Reachable cap s := by
  obtain ⟨th, as, hr, hs⟩ := h
  exact run_suffix hr hs

theorem Quiet.future {cap : Option Nat} {w : World} (h : Quiet cap w) : ∃ s, Future cap w s ∧ s.w = w := by
  obtain ⟨th, hr, -⟩ := h
  exact ⟨⟨w, th⟩, ⟨th, [], hr, rfl⟩, rfl⟩

/-! ## C19 -/

/-- **C19.** A message is made with priority 0. -/
theorem C19_default {w w' : World} {i : Nat} (hd : Does w (.send i) w' ∨ Does w (.broadcast i) w') :
    ∃ md rc, w'.objs = w.objs ++ [.send md w.resp.length (.new ⟨w.resp.length, .valued 0⟩ rc)] := by
  rcases hd with ⟨w1, ms, hc, hm⟩ | ⟨w1, ms, hc, hm⟩
  · have hc := call_rel hc
    cases hc
    have := runs_nil hm; subst this; exact ⟨_, _, rfl⟩
  · have hc := call_rel hc
    cases hc
    have := runs_nil hm; subst this; exact ⟨_, _, rfl⟩

/-- **C19.** Setting the priority of a send future that has not been polled, and only this, changes the
priority its message will be queued with; a second call overwrites the first. -/
theorem C19_set_before_poll {w w' : World} {f mid p : Nat} {md : Mode} {m : Msg} {rc : Rc}
    (ho : w.objs[f]? = some (.send md mid (.new m rc))) (hd : Does w (.setPrio f p) w') :
    w'.objs = w.objs.set f (.send md mid (.new ⟨m.id, .valued p⟩ rc)) ∧ w'.log = .prioSet mid p :: w.log ∧
    w'.uq = w.uq ∧ w'.bq = w.bq ∧ w'.ws = w.ws ∧ w'.cells = w.cells := by
  obtain ⟨w1, ms, hc, hm⟩ := hd
  simp only [Xtra.call, ho] at hc
  simp at hc; obtain ⟨rfl, rfl⟩ := hc
  have := runs_nil hm; subst this
  exact ⟨rfl, rfl, rfl, rfl, rfl, rfl⟩

/-- **C19.** Detaching keeps message and priority. -/
theorem C19_detach {w w' : World} {f mid : Nat} {s : Sending} (ho : w.objs[f]? = some (.send .ret mid s))
    (hd : Does w (.detach f) w') : w' = w.setObj f (.send .detached mid s) := by
  obtain ⟨w1, ms, hc, hm⟩ := hd
  simp only [Xtra.call, ho] at hc
  simp at hc; obtain ⟨rfl, rfl⟩ := hc
  exact runs_nil hm

/-- **C19.** Setting the priority of a send future that has been polled panics (and the future, moved into
the call, is gone). That a polled send future is in one of these two states, in every interleaving, is part of
`C19_polled_is_frozen`. -/
theorem C19_set_after_poll {w w' : World} {f mid p : Nat} {md : Mode} {s : Sending}
    (ho : w.objs[f]? = some (.send md mid s)) (hs : s = .done ∨ ∃ h, s = .waiting h) (hd : Does w (.setPrio f p) w') :
    w'.objs = w.objs.set f .gone ∧ .prioPanic f mid ∈ w'.log ∧ .prioSet mid p ∉ w'.log.take (w'.log.length - w.log.length) := by
  obtain ⟨w1, ms, hc, hm⟩ := hd
  rcases hs with rfl | ⟨h, rfl⟩
  · simp only [Xtra.call, ho] at hc
    simp at hc; obtain ⟨rfl, rfl⟩ := hc
    have := runs_nil hm; subst this
    refine ⟨rfl, by simp [World.ev], by simp [World.ev]⟩
  · simp only [Xtra.call, ho] at hc
    simp at hc; obtain ⟨rfl, rfl⟩ := hc
    obtain ⟨w2, ns, he, hr⟩ := runs_cons hm
    cases he with
    | dropWs_active h1 =>
      have := runs_nil hr; subst this
      refine ⟨rfl, by simp [World.ev, World.kill], ?_⟩
      simp [World.ev, World.kill]
      rw [show w.log.length + 1 + 1 - w.log.length = 2 by omega]; simp
    | dropWs_other h1 =>
      have := runs_nil hr; subst this
      exact ⟨rfl, by simp [World.ev], by simp [World.ev]⟩

/-- A send is parked (capacity 0), then its priority is set: panic. Meets the hypotheses of `C19_set_after_poll`. -/
example : ∃ w w', Quiet (some 0) w ∧ w.objs[2]? = some (.send .ret 0 (.waiting 0)) ∧ Does w (.setPrio 2 9) w' ∧
    w'.log = [.dropped 0, .prioPanic 2 0, .sendPending 2 0 0, .made 2 0 false] := by
  refine ⟨_, _, ⟨_, Reachable.run .init (as := [.call (.send 0), .call (.pollSend 2 0), .exec 1, .exec 1, .exec 1,
    .exec 1, .exec 1]) rfl, by decide⟩, rfl, ⟨_, _, rfl, .cons .nil⟩, rfl⟩

/-! ## C37 -/

/-- The cell of a parked send belongs to this send alone and holds its message. -/
theorem Quiet.dropSend_log {cap : Option Nat} {w w' : World} {f mid : Nat} {md : Mode} {s : Sending} (hq : Quiet cap w)
    (ho : w.objs[f]? = some (.send md mid s))
    (hs : (∃ m rc, s = .new m rc) ∨ (∃ m, m.id = mid ∧ w.parkedSend f md m)) (hd : Does w (.dropSend f) w') :
    w'.log = .dropped mid :: w.log ∧ w'.uq = w.uq ∧ w'.bq = w.bq ∧
    (∀ (c : Nat) (m : Msg) (x : Option Nat), w.cells[c]? = some (.full (.newMessage m) x) →
      w'.cells[c]? = some (.full (.newMessage m) x)) := by
  obtain ⟨th0, hre, hth⟩ := id hq
  obtain ⟨w1, ms, hc, hm⟩ := hd
  have hc0 := hc
  rcases hs with ⟨m, rc, rfl⟩ | ⟨m, hid, h, wk, h1, h2⟩
  · obtain ⟨hid, -, -⟩ := held_unsent hre ho
    subst hid
    simp only [Xtra.call, ho] at hc
    simp at hc; obtain ⟨rfl, rfl⟩ := hc
    obtain ⟨w2, ns, he, hs2, hr⟩ := (hq.call hc0).exec hm
    cases he
    obtain ⟨w3, a1, a2, a3, a4⟩ := runs_dropTx hs2 hr
    have := runs_nil a4; subst this
    refine ⟨by rw [a1.log]; rfl, by rw [a1.uq]; rfl, by rw [a1.bq]; rfl, fun c m' x hc => ?_⟩
    rcases a1.cells c _ hc with h | ⟨z, h, -⟩
    · exact h
    · simp at h
  · rw [ho] at h1; simp at h1; obtain ⟨hid', rfl⟩ := h1
    simp only [Xtra.call, ho] at hc
    simp at hc; obtain ⟨rfl, rfl⟩ := hc
    obtain ⟨w2, ns, he, hs2, hr⟩ := (hq.call hc0).exec hm
    cases he with
    | dropWs_active h3 =>
      have := runs_nil hr; subst this
      have h3' : w.ws[h]? = _ := h3
      rw [h2] at h3'; simp at h3'; obtain ⟨rfl, rfl⟩ := h3'
      rw [← hid]
      exact ⟨rfl, rfl, rfl, fun c m' x hc => hc⟩
    | dropWs_other h3 => exact absurd h2 (h3 wk m)

/-- **C37.** Dropping a send future that was never polled, or is parked, retracts its message: it is in no
queue, never yielded, never handled, never accepted as a broadcast, in any continuation whatsoever; the
queues and the messages already handed over are unaffected. -/
theorem C37_retracted {cap : Option Nat} {w w' : World} {f mid : Nat} {md : Mode} {s : Sending} (hq : Quiet cap w)
    (ho : w.objs[f]? = some (.send md mid s))
    (hs : (∃ m rc, s = .new m rc) ∨ (∃ m, m.id = mid ∧ w.parkedSend f md m)) (hd : Does w (.dropSend f) w') :
    (w'.uq = w.uq ∧ w'.bq = w.bq ∧ (∀ (c : Nat) (m : Msg) (x : Option Nat),
      w.cells[c]? = some (.full (.newMessage m) x) → w'.cells[c]? = some (.full (.newMessage m) x))) ∧
    ∀ s', Future cap w' s' → (∀ m ∈ s'.w.uq, m.id ≠ mid) ∧ s'.w.log.countP (Ev.yieldsUni mid) = 0 ∧
      s'.w.log.countP (Ev.completes mid) = 0 ∧ s'.w.log.countP (Ev.acceptsBc mid) = 0 := by
  obtain ⟨h1, h2, h3, h4⟩ := hq.dropSend_log ho hs hd
  refine ⟨⟨h2, h3, h4⟩, fun s' hf => ?_⟩
  obtain ⟨h5, h6⟩ := hf.suffix
  exact C10_never_handled h6 (h5.mem (by rw [h1]; simp))

/-- **C37.** Dropping a send future after its message was admitted (it waits for the reply, or it was parked
and has been admitted since) does not touch the message: only the future disappears. -/
theorem C37_not_retracted {cap : Option Nat} {w w' : World} {f mid : Nat} {md : Mode} {s : Sending} (hq : Quiet cap w)
    (ho : w.objs[f]? = some (.send md mid s))
    (hs : s = .done ∨ ∃ (h : Nat) (wk : Option Nat), s = .waiting h ∧ w.ws[h]? = some (.delivered wk))
    (hd : Does w (.dropSend f) w') :
    w' = { w with objs := w.objs.set f .gone, ws := w'.ws } := by
  obtain ⟨w1, ms, hc, hm⟩ := hd
  have hc0 := hc
  rcases hs with rfl | ⟨h, wk, rfl, h2⟩
  · simp only [Xtra.call, ho] at hc
    simp at hc; obtain ⟨rfl, rfl⟩ := hc
    have := runs_nil hm; subst this; rfl
  · simp only [Xtra.call, ho] at hc
    simp at hc; obtain ⟨rfl, rfl⟩ := hc
    obtain ⟨w2, ns, he, hs2, hr⟩ := (hq.call hc0).exec hm
    cases he with
    | dropWs_active h3 =>
      have h3' : w.ws[h]? = _ := h3
      rw [h2] at h3'; simp at h3'
    | dropWs_other h3 => have := runs_nil hr; subst this; rfl

/-- Capacity 1: the first send is queued, the second parked; dropping the second retracts it, dropping the
first does not. -/
def exDropSendSched : List Act :=
  [.call (.send 0), .call (.send 0), .call (.pollSend 2 0), .exec 2, .exec 2, .exec 2, .exec 2, .exec 2,
   .call (.pollSend 3 0), .exec 3, .exec 3, .exec 3, .exec 3, .exec 3]

/-- Meets the hypotheses of `C37_retracted`, `C37_not_retracted`. -/
example : ∃ w w' w'', Quiet (some 1) w ∧ w.objs[3]? = some (.send .ret 1 (.waiting 0)) ∧
    w.parkedSend 3 .ret ⟨1, .valued 0⟩ ∧ Does w (.dropSend 3) w' ∧ w'.uq = [⟨0, .valued 0⟩] ∧
    w.objs[2]? = some (.send .ret 0 .done) ∧ Does w (.dropSend 2) w'' ∧ w''.uq = [⟨0, .valued 0⟩] := by
  refine ⟨_, _, _, ⟨_, Reachable.run .init (as := exDropSendSched) rfl, by decide⟩, rfl, ⟨0, some 0, rfl, rfl⟩,
    ⟨_, _, rfl, .cons .nil⟩, rfl, rfl, ⟨_, _, rfl, .nil⟩, rfl⟩

/-! ## C38 -/

theorem runs_dropRx {cap : Option Nat} {w w' : World} {ms : List Micro} (h : Solo cap w (.dropRx :: ms))
    (hr : Runs w (.dropRx :: ms) w') :
    (w.rcv = 1 ∧ Solo cap ({ w with rcv := 0 } : World).shutTx ms ∧ Runs ({ w with rcv := 0 } : World).shutTx ms w') ∨
    (w.rcv ≠ 1 ∧ Solo cap { w with rcv := w.rcv - 1 } ms ∧ Runs { w with rcv := w.rcv - 1 } ms w') := by
  obtain ⟨w1, ns, he, hs, hr1⟩ := h.exec hr
  cases he with
  | dropRx_last h1 =>
    obtain ⟨w2, ns2, he2, hs2, hr2⟩ := hs.exec hr1
    cases he2
    left
    rw [show w.rcv - 1 = 0 by omega] at hs2 hr2
    exact ⟨h1, hs2, hr2⟩
  | dropRx_more h1 => exact .inr ⟨h1, hs, hr1⟩

theorem decBq_eq (w : World) (b : Nat) : w.decBq b = { w with bq := (w.decBq b).bq } := by
  unfold World.decBq; split
  · split <;> rfl
  · rfl

/-- A message whose handler is running was yielded exactly once and has not been finished. -/
theorem running_post {cap : Option Nat} {s : Sys} (h : Reachable cap s) {o b : Nat} {m : Msg} {run : Bool}
    (ho : s.w.objs[o]? = some (.dispatch b (.one m) run)) :
    s.w.log.countP (Ev.yieldsUni m.id) = 1 ∧ (∀ x ∈ s.w.uq, x.id ≠ m.id) := by
  have h1 := held_reachable h m.id
  have h2 := created_le m.id s.w
  have h3 := post_reachable h m.id
  have h4 := sumBy_le (oPost_le m.id) s.w.objs
  have h5 := sumBy_le (ePost_le m.id) s.w.log
  have h6 := tot_le (mPost_le m.id) s.th
  have h7 := le_sumBy (oPost m.id) ho
  simp only [World.held] at h1
  simp only [World.post] at h3
  rw [eRecv_count] at h3
  simp [oPost, amW, mid1] at h7
  refine ⟨by omega, fun x hx hi => ?_⟩
  obtain ⟨k, hk⟩ := List.getElem?_of_mem hx
  have := le_sumBy (mid1 m.id) hk
  simp [mid1, hi] at this; omega

theorem discarded_gone {cap : Option Nat} {s : Sys} (h : Reachable cap s) {i : Nat} (hd : Ev.discarded i ∈ s.w.log) :
    ∀ m ∈ s.w.uq, m.id ≠ i := by
  have h1 := held_reachable h i
  have h2 := created_le i s.w
  obtain ⟨k, hk⟩ := List.getElem?_of_mem hd
  have h3 := le_sumBy (eAll i) hk
  simp [eAll, n1] at h3
  simp only [World.held] at h1
  intro m hm hi
  obtain ⟨k, hk⟩ := List.getElem?_of_mem hm
  have := le_sumBy (mid1 i) hk
  simp [mid1, hi] at this; omega

/-- **C38.** Dropping a dispatch future while the handler of unicast message `m` is running: the message is
destroyed, so its reply becomes `Interrupted` (C18); in no continuation is it queued or yielded again, nor
does its handler complete; and, if another mailbox reference exists, the unicast queue, the parked senders,
the messages handed to other receive futures and all other mailboxes are unaffected. -/
theorem C38_interrupted {cap : Option Nat} {w w' : World} {o b : Nat} {m : Msg} {run : Bool} (hq : Quiet cap w)
    (ho : w.objs[o]? = some (.dispatch b (.one m) run)) (hd : Does w (.dropDispatch o) w') :
    Destroyed w'.log m.id ∧
    (∀ s', Future cap w' s' → (∀ x ∈ s'.w.uq, x.id ≠ m.id) ∧ s'.w.log.countP (Ev.yieldsUni m.id) = 1 ∧
      s'.w.log.countP (Ev.completes m.id) = 0) ∧
    (1 < w.mailboxRefs → w'.uq = w.uq ∧ w'.cells = w.cells ∧ w'.ws = w.ws ∧ w'.wOne = w.wOne ∧ w'.wAll = w.wAll ∧
      w'.log = .discarded m.id :: w.log ∧ ∀ b', b' ≠ b ∨ 1 < w.objs.countP (Obj.holdsMailbox b) → w'.items b' = w.items b') := by
  obtain ⟨th0, hre, hth⟩ := id hq
  have hpost := running_post hre ho
  obtain ⟨w1, ms, hc, hm⟩ := hd
  have hc0 := hc
  have hd : Does w (.dropDispatch o) w' := ⟨w1, ms, hc, hm⟩
  simp only [Xtra.call, ho] at hc
  simp at hc; obtain ⟨rfl, rfl⟩ := hc
  have key : ∃ v : World, Runs v [.dropBq b, .discard (.one m)] w' ∧ w.log <:+ v.log ∧
      (w.rcv ≠ 1 → v = { w with objs := w.objs.set o .gone, rcv := w.rcv - 1 }) := by
    rcases runs_dropRx (hq.call hc0) hm with ⟨h1, h2, h3⟩ | ⟨h1, h2, h3⟩
    · exact ⟨_, h3, shutTx_suffix ({ (w.setObj o .gone) with rcv := 0 } : World), fun h => absurd h1 h⟩
    · exact ⟨_, h3, List.suffix_refl _, fun _ => rfl⟩
  obtain ⟨v, hv, hsuf, hne⟩ := key
  obtain ⟨v1, ns, he, hv1⟩ := runs_cons hv
  cases he
  obtain ⟨v2, ns, he, hv2⟩ := runs_cons hv1
  cases he with
  | discard_other h => exact absurd rfl (h m)
  | discard_one =>
  have := runs_nil hv2; subst this
  have hdis : Ev.discarded m.id ∈ (v.decBq b).log.cons (Ev.discarded m.id) := by simp
  refine ⟨.inr (.inr hdis), fun s' hf => ?_, fun hrefs => ?_⟩
  · obtain ⟨h5, h6⟩ := hf.suffix
    have h7 : Ev.discarded m.id ∈ s'.w.log := h5.mem (by simp)
    refine ⟨discarded_gone h6 h7, ?_, ?_⟩
    · have h8 : w.log <:+ s'.w.log := by
        refine hsuf.trans (List.IsSuffix.trans ?_ h5)
        simp [World.decBq_log]
      have := C02_at_most_once h6 m.id
      have h9 : w.log.countP (Ev.yieldsUni m.id) ≤ s'.w.log.countP (Ev.yieldsUni m.id) := h8.sublist.countP_le
      have := hpost.1
      simp only at this
      omega
    · rw [List.countP_eq_zero]
      intro e he hcomp
      cases e <;> simp [Ev.completes] at hcomp
      subst hcomp
      exact (fin_excl h6 he).1 (.inr (.inr h7))
  · have hcnt := (C14_counts_exact_quiet hq).2
    have hv' := hne (by omega)
    refine ⟨by simp [hv'], by simp [hv'], by simp [hv'], by simp [hv'], by simp [hv'], by simp [hv'], fun b' hb' => ?_⟩
    have e0 : ∀ x : World, ({ x with resp := x.resp.modify m.id Resp.interrupt, log := .discarded m.id :: x.log } : World).items b'
      = x.items b' := fun _ => rfl
    rw [e0, decBq_items, hv']
    have e1 : ({ w with objs := w.objs.set o .gone, rcv := w.rcv - 1 } : World).items b' = w.items b' := rfl
    have e2 : ({ w with objs := w.objs.set o .gone, rcv := w.rcv - 1 } : World).refs b = w.refs b := rfl
    rw [e1, e2]
    obtain ⟨th1, hr1, ht1⟩ := hq.tot0
    have h8 := refs_reachable hr1 b
    rw [ht1] at h8
    have h9 : sumBy (oBq b) w.objs = w.objs.countP (Obj.holdsMailbox b) := by
      apply sumBy_countP; intro x; cases x <;> simp [oBq, Obj.holdsMailbox, is1]
    simp only at h8
    split
    · rename_i hx; exfalso
      rcases hb' with h | h
      · exact h hx.1
      · omega
    · rfl

/-- Two sends are queued, the first is being handled by object 4; a second mailbox reference (object 1) exists. -/
def exDropDispatchSched : List Act :=
  [.call (.send 0), .call (.send 0), .call (.pollSend 2 0), .exec 2, .exec 2, .exec 2, .exec 2, .exec 2,
   .call (.pollSend 3 0), .exec 3, .exec 3, .exec 3, .exec 3, .exec 3, .call (.next 1), .call (.pollRecv 4 0),
   .exec 5, .call (.dispatch 4)]

/-- Meets the hypotheses of `C38_interrupted`. -/
example : ∃ w w', Quiet (some 5) w ∧ w.objs[4]? = some (.dispatch 0 (.one ⟨0, .valued 0⟩) true) ∧ 1 < w.mailboxRefs ∧
    Does w (.dropDispatch 4) w' ∧ w'.uq = [⟨1, .valued 0⟩] ∧ w'.resp[0]? = some (.interrupted (some 0)) := by
  refine ⟨_, _, ⟨_, Reachable.run .init (as := exDropDispatchSched) rfl, by decide⟩, rfl, by decide,
    ⟨_, _, rfl, .cons (.cons (.cons .nil))⟩, rfl, rfl⟩

/-! ## C34 -/

theorem yielded_inj {w : World} {r b : Nat} {a a' : AMsg} (h : w.yielded r b a) (h' : w.yielded r b a') : a = a' := by
  have := h.1; rw [h'.1] at this; simp at this; exact this.symm

/-- **C34.** If a receive future (polled while no other call is in progress) yields something of lower
priority than a message `x` queued for its mailbox, then it had been waiting and was handed a message, or
notified, while idle. -/
theorem C34_inversion_only_when_notified {cap : Option Nat} {w w' : World} {r b wk : Nat} {st : Recv} {am : AMsg}
    {x : Msg} (hq : Quiet cap w) (hr : w.objs[r]? = some (.recv b st)) (hd : Does w (.pollRecv r wk) w')
    (hy : w'.yielded r b am) (hx : x ∈ w.uq ∨ x ∈ w.items b) (hlt : am.prio < x.prio) :
    ∃ (c : Nat) (k : Ctrl) (wk' : Option Nat), st = .waiting c ∧ w.cells[c]? = some (.full k wk') := by
  cases st with
  | new =>
    exfalso
    rcases C01_highest_priority_first hq hr hd with ⟨m, h1, h2, h3, h4⟩ | ⟨m, h1, h2, h3, h4⟩ | ⟨h1, h2, h3, h4⟩ | ⟨h1, h2, h3, h4⟩
    · have := yielded_inj hy h4; subst this
      rcases hx with hx | hx
      · exact hlt (h2 x hx)
      · exact hlt (h3 x hx)
    · have := yielded_inj hy h4; subst this
      rcases hx with hx | hx
      · exact h3 x hx (Classical.byContradiction fun hn => hlt (by
          show x.prio ≤ m.prio
          have := h3 x hx
          have h5 : ¬ m.prio ≤ x.prio := this
          rcases Prio.ble_total x.prio m.prio with h6 | h6
          · exact h6
          · exact absurd h6 h5))
      · exact hlt (h2 x hx)
    · rw [h1, h2] at hx; simp at hx
    · rw [h1, h2] at hx; simp at hx
  | waiting c =>
    obtain ⟨w1, ms, hc, hm⟩ := hd
    have hc0 := hc
    simp only [Xtra.call, hr] at hc
    simp at hc; obtain ⟨rfl, rfl⟩ := hc
    rcases runs_recvPoll (hq.call hc0) hm with ⟨x, h1, h2⟩ | ⟨m, x, h1, h2⟩ | ⟨x, h1, h2⟩ | ⟨x, h1, h2⟩
    · obtain ⟨⟨c', h3⟩, -⟩ := h2
      have := hy.1; rw [h3] at this; simp at this
    · exact ⟨c, _, x, rfl, h1⟩
    · exact ⟨c, _, x, rfl, h1⟩
    · exact ⟨c, _, x, rfl, h1⟩

/-- **C34.** The receive after that takes a maximal message: after any receive on mailbox `b`, the next
receive future made from a mailbox handle `i` of `b` and polled yields a message at least as important as
everything then queued for `b` (in particular as everything that was jumped over). -/
theorem C34_next_is_maximal {cap : Option Nat} {w w1 w2 : World} {i b wk : Nat} (hq : Quiet cap w)
    (hi : (w.objs[i]?).bind Obj.mbox = some b) (hn : Does w (.next i) w1) (hd : Does w1 (.pollRecv w.objs.length wk) w2)
    (hne : w.uq ≠ [] ∨ w.items b ≠ []) :
    ∃ am, w2.yielded w.objs.length b am ∧ (∀ x ∈ w.uq, x.prio ≤ am.prio) ∧ (∀ x ∈ w.items b, x.prio ≤ am.prio) := by
  have hq1 := hq.does hn
  obtain ⟨v, ms, hc, hm⟩ := hn
  simp only [Xtra.call, hi] at hc
  simp at hc; obtain ⟨rfl, rfl⟩ := hc
  have := runs_nil hm; subst this
  have hitem : ((({ w with rcv := w.rcv + 1 } : World).incBq b).addObj (.recv b .new)).items b = w.items b := by
    have : ∀ x : World, (x.addObj (.recv b .new)).items b = x.items b := fun _ => rfl
    rw [this, incBq_items]; rfl
  have huq : ((({ w with rcv := w.rcv + 1 } : World).incBq b).addObj (.recv b .new)).uq = w.uq := by
    simp
  have ho : ((({ w with rcv := w.rcv + 1 } : World).incBq b).addObj (.recv b .new)).objs[w.objs.length]? = some (.recv b .new) := by
    simp
  rcases C01_highest_priority_first hq1 ho hd with ⟨m, h1, h2, h3, h4⟩ | ⟨m, h1, h2, h3, h4⟩ | ⟨h1, h2, h3, h4⟩ | ⟨h1, h2, h3, h4⟩
  · rw [huq] at h2; rw [hitem] at h3
    exact ⟨_, h4, h2, h3⟩
  · rw [hitem] at h2; rw [huq] at h3
    refine ⟨_, h4, fun x hx => ?_, h2⟩
    have h5 : ¬ m.prio ≤ x.prio := h3 x hx
    rcases Prio.ble_total x.prio m.prio with h6 | h6
    · exact h6
    · exact absurd h6 h5
  · rw [huq] at h1; rw [hitem] at h2; simp [h1, h2] at hne
  · rw [huq] at h1; rw [hitem] at h2; simp [h1, h2] at hne

/-- An inversion does happen: a waiting receive future is handed a message of priority 0, then one of
priority 9 is queued; polling the waiting one yields the former. -/
def exInversionSched : List Act :=
  [.call (.next 1), .call (.pollRecv 2 0), .exec 1, .exec 1,
   .call (.send 0), .call (.pollSend 3 0), .exec 3, .exec 3, .exec 3, .exec 3, .exec 3,
   .call (.send 0), .call (.setPrio 4 9), .call (.pollSend 4 0), .exec 6, .exec 6, .exec 6, .exec 6, .exec 6]

/-- Meets the hypotheses of `C34_inversion_only_when_notified`. -/
example : ∃ w w', Quiet (some 5) w ∧ w.objs[2]? = some (.recv 0 (.waiting 0)) ∧ w.uq = [⟨1, .valued 9⟩] ∧
    Does w (.pollRecv 2 0) w' ∧ w'.yielded 2 0 (.one ⟨0, .valued 0⟩) := by
  refine ⟨_, _, ⟨_, Reachable.run .init (as := exInversionSched) rfl, by decide⟩, rfl, rfl,
    ⟨_, _, rfl, .cons .nil⟩, rfl, rfl⟩

/-- C20's hypotheses with work (a handed-over message) and without. Meets the hypotheses of `C20_one_poll_iff_work`. -/
example : ∃ w w', Quiet (some 5) w ∧ w.objs[2]? = some (.recv 0 (.waiting 0)) ∧
    w.cells[0]? = some (.full (.newMessage ⟨0, .valued 0⟩) (some 0)) ∧ Does w (.pollRecv 2 0) w' := by
  exact ⟨_, _, ⟨_, Reachable.run .init (as := exInversionSched) rfl, by decide⟩, rfl, rfl, ⟨_, _, rfl, .cons .nil⟩⟩

/-- A send is created, its priority is set, and it is detached. Meets the hypotheses of `C19_default`, `C19_set_before_poll`, `C19_detach`. -/
example : ∃ w w1 w2 w3, Quiet (some 1) w ∧ Does w (.send 0) w1 ∧
    w1.objs[2]? = some (.send .ret 0 (.new ⟨0, .valued 0⟩ .strong)) ∧ Does w1 (.setPrio 2 9) w2 ∧
    w2.objs[2]? = some (.send .ret 0 (.new ⟨0, .valued 9⟩ .strong)) ∧ Does w2 (.detach 2) w3 ∧
    w3.objs[2]? = some (.send .detached 0 (.new ⟨0, .valued 9⟩ .strong)) :=
  ⟨_, _, _, _, ⟨_, Reachable.run .init (as := []) rfl, by decide⟩, ⟨_, _, rfl, .nil⟩, rfl, ⟨_, _, rfl, .nil⟩, rfl,
    ⟨_, _, rfl, .nil⟩, rfl⟩

end Xtra
