import Verif.PropsSend
/-! # C07 (acceptance), C10, C19, C37, C38 -/

namespace Xtra

theorem eAll_two {cap : Option Nat} {s : Sys} (h : Reachable cap s) (i : Nat) : sumBy (eAll i) s.w.log ≤ 1 := by
  have h1 := held_reachable h i
  have h2 := created_le i s.w
  simp only [World.held] at h1; omega

/-- **C10 / C37.** A message that was destroyed before being received (its send failed with `Disconnected`,
or its send future was dropped while unpolled or parked) is in no queue, is never yielded to anyone, is
never handled, and (if a broadcast) never accepted: not in this state nor in any state reachable from it,
as the history only grows. -/
theorem C10_never_handled {cap : Option Nat} {s : Sys} (h : Reachable cap s) {i : Nat} (hd : Ev.dropped i ∈ s.w.log) :
    (∀ m ∈ s.w.uq, m.id ≠ i) ∧ s.w.log.countP (Ev.yieldsUni i) = 0 ∧ s.w.log.countP (Ev.completes i) = 0 ∧
    s.w.log.countP (Ev.acceptsBc i) = 0 := by
  have h1 := held_reachable h i
  have h2 := created_le i s.w
  have h3 := post_reachable h i
  have h4 := sumBy_le (oPost_le i) s.w.objs
  have h6 := tot_le (mPost_le i) s.th
  have hc := C02_at_most_once h i
  -- split off the `dropped` event
  obtain ⟨l1, l2, hl⟩ := List.append_of_mem hd
  have h7 : sumBy (eAll i) s.w.log = sumBy (eAll i) l1 + (1 + sumBy (eAll i) l2) := by
    rw [hl]; simp [eAll, n1]
  have h8 : sumBy (ePost i) s.w.log = sumBy (ePost i) l1 + sumBy (ePost i) l2 := by
    rw [hl]; simp [ePost]
  have h9 := sumBy_le (ePost_le i) l1
  have h10 := sumBy_le (ePost_le i) l2
  simp only [World.held] at h1
  simp only [World.post] at h3
  rw [eRecv_count] at h3
  have h11 : s.w.log.countP (Ev.acceptsBc i) = 0 := by
    have e1 : ∀ l : List Ev, l.countP (Ev.acceptsBc i) ≤ sumBy (eAll i) l := by
      intro l
      rw [← sumBy_countP (f := fun e => if e.acceptsBc i then 1 else 0) (fun _ => rfl)]
      apply sumBy_le; intro e
      cases e <;> simp [Ev.acceptsBc, eAll, mid1]
    have a1 := e1 l1
    have a2 := e1 l2
    have a3 := eAll_two h i
    have a4 : s.w.log.countP (Ev.acceptsBc i) = l1.countP (Ev.acceptsBc i) + l2.countP (Ev.acceptsBc i) := by
      rw [hl]; simp [List.countP_append, Ev.acceptsBc]
    omega
  refine ⟨fun m hm hi => ?_, by omega, by omega, h11⟩
  obtain ⟨k, hk⟩ := List.getElem?_of_mem hm
  have := le_sumBy (mid1 i) hk
  simp [mid1, hi] at this; omega

/-- **C10.** First poll of a send or broadcast when no mailbox or no strong address is left (no other call in
progress): it resolves to `Disconnected`, its message is destroyed, and all queues are as before. -/
theorem C10_disconnected {cap : Option Nat} {w w' : World} {f mid wk : Nat} {md : Mode} {m : Msg} {rc : Rc}
    (hq : Quiet cap w) (ho : w.objs[f]? = some (.send md mid (.new m rc))) (hdis : w.rcv = 0 ∨ w.sc = 0)
    (hd : Does w (.pollSend f wk) w') :
    w'.log = .sendErr f mid :: .dropped mid :: w.log ∧ w'.objs = w.objs.set f .gone ∧ w'.uq = w.uq ∧ w'.bq = w.bq ∧
    (∀ (c : Nat) (x : Option Nat), w'.cells[c]? = some (.full (.newMessage m) x) → w.cells[c]? = some (.full (.newMessage m) x)) := by
  obtain ⟨th0, hre, hth⟩ := id hq
  obtain ⟨hid, -, -⟩ := held_unsent hre ho
  subst hid
  obtain ⟨w1, ms, hc, hm⟩ := hd
  have hc0 := hc
  simp only [Xtra.call, ho] at hc
  simp at hc; obtain ⟨rfl, rfl⟩ := hc
  rcases runs_sendNew (hq.call hc0) hm with ⟨-, h2⟩ | ⟨h1, h2, -⟩
  · exact ⟨by rw [h2.log]; rfl, by rw [h2.objs]; simp, by rw [h2.uq]; rfl, by rw [h2.bq]; rfl, fun c x hx => h2.back hx⟩
  · rcases hdis with h | h
    · exact absurd h h1
    · exact absurd h h2


/-- A send after the last mailbox was dropped. -/
def exDisconnectedSched : List Act := [.call (.send 0), .call (.dropMailbox 1), .exec 1, .exec 1, .exec 1]

/-- Meets the hypotheses of `C10_disconnected`, `C10_never_handled`. -/
example : ∃ w w', Quiet (some 1) w ∧ w.objs[2]? = some (.send .ret 0 (.new ⟨0, .valued 0⟩ .strong)) ∧ w.rcv = 0 ∧
    Does w (.pollSend 2 7) w' ∧ w'.log = [.sendErr 2 0, .dropped 0, .made 2 0 false] := by
  refine ⟨_, _, ⟨_, Reachable.run .init (as := exDisconnectedSched) rfl, by decide⟩, rfl, rfl,
    ⟨_, _, rfl, .cons (.cons .nil)⟩, rfl⟩

/-- **C10.** `is_connected` (no other call in progress) answers exactly whether both a strong address (or
other strong reference) and a mailbox reference exist. -/
theorem C10_is_connected {cap : Option Nat} {w w' : World} {i : Nat} (hq : Quiet cap w)
    (hd : Does w (.isConnected i) w') :
    w' = w.ev (.connected i (decide (0 < w.mailboxRefs ∧ 0 < w.strongRefs))) := by
  have hcnt := C14_counts_exact_quiet hq
  obtain ⟨w1, ms, hc, hm⟩ := hd
  have hc0 := call_rel hc
  cases hc0
  obtain ⟨w1, ns, he, hm1⟩ := runs_cons hm
  cases he with
  | conn1_no h0 =>
    have := runs_nil hm1; subst this
    rw [← hcnt.2]; simp [h0]
  | conn1_yes h0 =>
    obtain ⟨w2, ns, he, hm2⟩ := runs_cons hm1
    cases he
    have := runs_nil hm2; subst this
    rw [← hcnt.1, ← hcnt.2]
    have : 0 < w.rcv := by omega
    simp [this]

/-- **C07.** First poll of a broadcast on a connected address (no other call in progress): it is accepted
in that poll exactly if the channel's broadcast length is below the capacity, otherwise parked. -/
theorem C07_accepted_iff {cap : Option Nat} {w w' : World} {f mid wk : Nat} {m : Msg} {rc : Rc}
    (hq : Quiet cap w) (ho : w.objs[f]? = some (.send .bcast mid (.new m rc)))
    (hrcv : w.rcv ≠ 0) (hsc : w.sc ≠ 0) (hd : Does w (.pollSend f wk) w') :
    (w.hasBcRoom → (∃ ts, w'.log = .sendOk f mid :: .bsent m ts :: w.log) ∧
      (∀ b, w.mailboxLive b → (w'.items b).Perm (m :: w.items b))) ∧
    (¬ w.hasBcRoom → w'.parkedSend f .bcast m ∧ w'.bq = w.bq ∧ w'.log = .sendPending f mid wk :: w.log) := by
  obtain ⟨th0, hre, hth⟩ := id hq
  obtain ⟨hid, -, -⟩ := held_unsent hre ho
  subst hid
  have hlf : f < w.objs.length := (List.getElem?_eq_some_iff.mp ho).1
  obtain ⟨w1, ms, hc, hm⟩ := hd
  have hc0 := hc
  simp only [Xtra.call, ho] at hc
  simp at hc; obtain ⟨rfl, rfl⟩ := hc
  rcases runs_sendNew (hq.call hc0) hm with ⟨h1, -⟩ | ⟨-, -, hs, hr⟩
  · rcases h1 with h1 | h1
    · exact absurd h1 hrcv
    · exact absurd h1 hsc
  rw [← bcFull_iff]
  obtain ⟨w2, ns, he, hs2, hr2⟩ := hs.exec hr
  have hll : (w.setObj f .busy).lateLog m = w.log := by unfold World.lateLog; simp [hrcv]
  cases he with
  | critAll_sent h1 =>
    have h1' : w.bcFull = false := h1
    refine ⟨fun _ => ?_, fun h => absurd h1' h⟩
    obtain ⟨w3, a1, a2, a3, a4⟩ := runs_dropTx hs2 hr2
    obtain ⟨w4, ns4, he4, hs4, hr4⟩ := a3.exec a4
    cases he4 with
    | sendFin_bcast =>
      have := runs_nil hr4; subst this
      refine ⟨⟨w.bqs.filter w.alive, ?_⟩, fun b hb => ?_⟩
      · simp [a1.log, World.sendBroadcast, hll]
        rfl
      · have hit := sendBroadcast_items ({ (w.setObj f .busy) with log := (w.setObj f .busy).lateLog m } : World) m
          (bqsOk_reachable hre).nodup b
        have ha := mailboxLive_alive hre hb
        have hb' : b ∈ w.bqs.filter w.alive := by
          rcases bAll_reachable hre b ha with h1 | h1
          · exact List.mem_filter.mpr ⟨h1, ha⟩
          · exact absurd h1 hrcv
        have e : ∀ x : World, (x.setObj f Obj.gone).items b = x.items b := fun _ => rfl
        show (World.items _ b).Perm _
        have e1 : ((w3.setObj f .gone).ev (.sendOk f m.id)).items b = w3.items b := rfl
        rw [e1, items_congr a1.bq, hit]
        have e2 : ({ (w.setObj f .busy) with log := (w.setObj f .busy).lateLog m } : World).items b = w.items b := rfl
        rw [e2]
        split
        · exact Heap.push_perm Msg.le _ _
        · rename_i hn; exact absurd (List.mem_filter.mp hb') hn
  | critOne_hand hmd' h1 h2 h3 => exact absurd rfl hmd'
  | critOne_park hmd' h1 h2 => exact absurd rfl hmd'
  | critOne_queue hmd' h1 h2 => exact absurd rfl hmd'
  | critAll_park h1 =>
    have h1' : w.bcFull = true := h1
    refine ⟨fun h => by simp [h1'] at h, fun _ => ?_⟩
    obtain ⟨w3, a1, a2, a3, a4⟩ := runs_dropTx hs2 hr2
    obtain ⟨w4, ns4, he4, hs4, hr4⟩ := a3.exec a4
    have hws : w3.ws[w.ws.length]? = some (.active none m) := by
      rw [a1.ws]; simp
    cases he4 with
    | pollWs_active h5 =>
      have := runs_nil hr4; subst this
      have hws' : w3.ws[w.ws.length]? = _ := h5
      rw [hws] at hws'; simp at hws'
      obtain ⟨rfl, rfl⟩ := hws'
      have hlen : w.ws.length < w3.ws.length := (List.getElem?_eq_some_iff.mp hws).1
      refine ⟨⟨w.ws.length, some wk, ?_, ?_⟩, ?_, ?_⟩
      · simp [a1.objs, hlf]
      · simp [hlen]
      · simp [a1.bq]
      · simp [a1.log, hll]
    | pollWs_delivered h5 => have h5' : w3.ws[w.ws.length]? = _ := h5; rw [hws] at h5'; simp at h5'
    | pollWs_closed h5 => have h5' : w3.ws[w.ws.length]? = _ := h5; rw [hws] at h5'; simp at h5'
    | pollWs_panic h5 =>
      have h5' : wsActive w3.ws w.ws.length = false := h5
      simp [wsActive, hws] at h5'

/-- Both outcomes of C07 occur: the first broadcast is accepted, the second one parked (capacity 1). -/
def exBcParkSched : List Act :=
  [.call (.broadcast 0), .call (.broadcast 0), .call (.pollSend 2 0), .exec 2, .exec 2, .exec 2, .exec 2, .exec 2]

/-- Meets the hypotheses of `C07_accepted_iff`. -/
example : ∃ w w', Quiet (some 1) w ∧ w.objs[3]? = some (.send .bcast 1 (.new ⟨1, .valued 0⟩ .strong)) ∧ w.rcv ≠ 0 ∧
    w.sc ≠ 0 ∧ (w.items 0).length = 1 ∧ Does w (.pollSend 3 7) w' ∧ w'.parkedSend 3 .bcast ⟨1, .valued 0⟩ := by
  refine ⟨_, _, ⟨_, Reachable.run .init (as := exBcParkSched) rfl, by decide⟩, rfl, by decide, by decide, rfl,
    ⟨_, _, rfl, .cons (.cons (.cons (.cons (.cons .nil))))⟩, ⟨0, some 7, rfl, rfl⟩⟩

/-! ## Priorities -/

theorem prioOf_eq (i : Nat) (log : List Ev) : prioOf i log = lastPrio i log := by
  induction log with
  | nil => rfl
  | cons e l ih =>
    unfold prioOf at ih ⊢
    cases e with
    | prioSet j p =>
      by_cases hj : j = i
      · simp [lastPrio, hj]
      · simp [lastPrio, hj, ← ih]
    | _ => simp [lastPrio, ← ih]

/-- **C19.** In every reachable state, every unicast message that is queued, parked, handed over or yielded
carries the priority last set on it (0 if none was set); likewise every broadcast made with `broadcast`,
whether waiting, accepted, in a mailbox or yielded. -/
theorem C19_priority_as_set {cap : Option Nat} {s : Sys} (h : Reachable cap s) :
    (∀ m ∈ s.w.uq, m.prio = .valued (prioOf m.id s.w.log)) ∧
    (∀ (c : Nat) (m : Msg) wk, s.w.cells[c]? = some (.full (.newMessage m) wk) → m.prio = .valued (prioOf m.id s.w.log)) ∧
    (∀ (f : Nat) md mid m rc, s.w.objs[f]? = some (.send md mid (.new m rc)) → m.prio = .valued (prioOf mid s.w.log)) ∧
    (∀ r b m, Ev.recv r b (.one m) ∈ s.w.log → m.prio = .valued (prioOf m.id s.w.log)) ∧
    (∀ (k : Nat) wk (m : Msg), s.w.ws[k]? = some (.active wk m) → m.prio = .valued (prioOf m.id s.w.log)) ∧
    (∀ m ts f, Ev.bsent m ts ∈ s.w.log → Ev.made f m.id true ∈ s.w.log → m.prio = .valued (prioOf m.id s.w.log)) ∧
    (∀ b m f, m ∈ s.w.items b → Ev.made f m.id true ∈ s.w.log → m.prio = .valued (prioOf m.id s.w.log)) := by
  have k := kInv_reachable h
  have hb : ∀ m ts f, Ev.bsent m ts ∈ s.w.log → Ev.made f m.id true ∈ s.w.log →
      m.prio = .valued (prioOf m.id s.w.log) := by
    intro m ts f h1 h2
    have : bcMsg s.w.log m := k.evs _ h1
    rcases this with ⟨-, h3⟩ | ⟨-, h3⟩
    · rw [prioOf_eq]; exact h3
    · exact absurd h2 (h3 f true)
  refine ⟨fun m hm => ?_, fun c m wk hc => ?_, fun f md mid m rc ho => ?_, fun r b m he => ?_, fun x wk m hx => ?_, hb,
    fun b m f hm hf => ?_⟩
  · rw [prioOf_eq]; exact (k.kw.uq m hm).2
  · rw [prioOf_eq]; exact (k.kw.cells c m wk hc).2
  · rw [prioOf_eq]; have : okO s.w.log f _ := k.kw.objs _ _ ho; exact this.2.2
  · rw [prioOf_eq]; have : uniMsg s.w.log m := k.evs _ he; exact this.2
  · rw [prioOf_eq]
    rcases (regWs_reachable h).reg hx with h1 | h1
    · exact (k.kw.one x h1 wk m hx).2
    · exact (k.kw.all x h1 wk m hx).2
  · obtain ⟨ts, h1⟩ := k.kw.bq b m hm
    exact hb m ts f h1 hf

/-- `is_connected` while both sides exist, and after the mailbox was dropped. Meets the hypotheses of `C10_is_connected`. -/
example : ∃ w w' v v', Quiet (some 1) w ∧ Does w (.isConnected 0) w' ∧ w'.log.head? = some (.connected 0 true) ∧
    Quiet (some 1) v ∧ Does v (.isConnected 0) v' ∧ v'.log.head? = some (.connected 0 false) :=
  ⟨_, _, _, _, ⟨_, Reachable.run .init (as := exParkSched) rfl, by decide⟩, ⟨_, _, rfl, .cons (.cons .nil)⟩, rfl,
    ⟨_, Reachable.run .init (as := exDisconnectedSched) rfl, by decide⟩, ⟨_, _, rfl, .cons .nil⟩, rfl⟩

/-- A message whose priority was set is queued and received with it, and one whose priority was not has priority 0. Meets the
hypotheses of `C19_priority_as_set`. -/
example : ∃ s, Reachable none s ∧ s.w.uq = [⟨1, .valued 0⟩] ∧ prioOf 1 s.w.log = 0 ∧
    Ev.recv 4 0 (.one ⟨0, .valued 9⟩) ∈ s.w.log ∧ prioOf 0 s.w.log = 9 :=
  ⟨_, Reachable.run .init (as := [.call (.send 0), .call (.setPrio 2 9), .call (.send 0), .call (.pollSend 2 0), .exec 3, .exec 3,
    .exec 3, .exec 3, .exec 3, .call (.pollSend 3 0), .exec 4, .exec 4, .exec 4, .exec 4, .exec 4, .call (.next 1),
    .call (.pollRecv 4 0), .exec 6]) rfl, rfl, by decide, by decide, by decide⟩

end Xtra
