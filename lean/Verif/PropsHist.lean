import Verif.PropsRecv
/-! # History properties: C02, C04, C06, C07, C36 (counting events) -/

namespace Xtra

theorem sumBy_countP {α : Type _} {f : α → Nat} {p : α → Bool} (h : ∀ x, f x = if p x then 1 else 0) (l : List α) :
    sumBy f l = l.countP p := by
  induction l with
  | nil => rfl
  | cons a l ih => simp [List.countP_cons, ih, h]; omega

theorem eRecv_count (i : Nat) (l : List Ev) : sumBy (eRecv i) l = l.countP (Ev.yieldsUni i) := by
  apply sumBy_countP; intro e
  cases e <;> simp [eRecv, Ev.yieldsUni]
  rename_i am; cases am <;> simp [amW, mid1, Ev.yieldsUni]

theorem evReq_count (l : List Ev) : sumBy evReq l = l.countP Ev.isRequeue := by
  apply sumBy_countP; intro e; cases e <;> simp [evReq, Ev.isRequeue]

theorem evStop_count (l : List Ev) : sumBy evStop l = l.countP Ev.isStopAll := by
  apply sumBy_countP; intro e; cases e <;> simp [evStop, Ev.isStopAll]

theorem eBs_count (b i : Nat) (l : List Ev) : sumBy (eBs b i) l = l.countP (Ev.putsBc b i) := by
  apply sumBy_countP; intro e; cases e <;> simp [eBs, Ev.putsBc]

theorem eBr_count (b i : Nat) (l : List Ev) : sumBy (eBr b i) l = l.countP (Ev.yieldsBc b i) := by
  apply sumBy_countP; intro e
  cases e <;> simp [eBr, Ev.yieldsBc]
  rename_i am; cases am <;> simp [eBr, Ev.yieldsBc, and_comm]

theorem mid1_count (i : Nat) (l : List Msg) : sumBy (mid1 i) l = l.countP (fun m => m.id == i) := by
  apply sumBy_countP; intro e; simp [mid1]

theorem oPost_le (i : Nat) (o : Obj) : oPost i o ≤ oAll i o := by cases o <;> simp [oPost, oAll]
theorem mPost_le (i : Nat) (o : Micro) : mPost i o ≤ mAll i o := by cases o <;> simp [mPost, mAll]
theorem ePost_le (i : Nat) (o : Ev) : ePost i o ≤ eAll i o := by cases o <;> simp [ePost, eAll]

theorem created_le (i : Nat) (w : World) : created i w ≤ 1 := by unfold created; split <;> omega

/-- **C02.** In every reachable state of every interleaving: each unicast message `i` has been yielded by
receive futures at most once in total, and its handler has completed at most once, and only after it
was yielded. -/
theorem C02_at_most_once {cap : Option Nat} {s : Sys} (h : Reachable cap s) (i : Nat) :
    s.w.log.countP (Ev.yieldsUni i) ≤ 1 ∧
    s.w.log.countP (Ev.completes i) ≤ s.w.log.countP (Ev.yieldsUni i) := by
  have h1 := held_reachable h i
  have h2 := post_reachable h i
  have h3 := created_le i s.w
  have h4 := sumBy_le (oPost_le i) s.w.objs
  have h5 := sumBy_le (ePost_le i) s.w.log
  have h6 := tot_le (mPost_le i) s.th
  have h7 : s.w.log.countP (Ev.completes i) ≤ sumBy (ePost i) s.w.log := by
    rw [← sumBy_countP (f := fun e => if e.completes i then 1 else 0) (fun _ => rfl)]
    apply sumBy_le; intro e
    cases e <;> simp [Ev.completes, ePost, n1]
  rw [eRecv_count] at h2
  simp only [World.held, World.post] at h1 h2
  omega

/-- Non-vacuity of C02: a message is yielded and its handler completes. -/
def exHandledSched : List Act :=
  [.call (.send 0), .call (.pollSend 2 0), .exec 1, .exec 1, .exec 1, .exec 1, .exec 1, .call (.next 1),
   .call (.pollRecv 3 0), .exec 3, .call (.dispatch 3), .call (.finish 3 42), .exec 5, .exec 5, .exec 5,
   .call (.pollSend 2 0), .exec 6]

/-- Meets the hypotheses of `C02_at_most_once`. -/
example : ∃ s, Reachable (some 1) s ∧ s.w.log.countP (Ev.yieldsUni 0) = 1 ∧ s.w.log.countP (Ev.completes 0) = 1 ∧
    Ev.replyOk 2 0 42 ∈ s.w.log := by
  refine ⟨_, Reachable.run .init (as := exHandledSched) rfl, ?_, ?_, ?_⟩ <;> decide

theorem cap_reachable {cap : Option Nat} {s : Sys} (h : Reachable cap s) : s.w.cap = cap := by
  refine Reachable.inv (P := fun s => s.w.cap = cap) ?_ ?_ ?_ h
  · rfl
  · intro s c w' ms hr ih hc
    cases hc <;> simpa using ih
  · intro s t m rest w' ms hr ih ht he
    cases he
    case recv_all hp _ _ => simpa [World.popBroadcast_cap hp] using ih
    case recv_one hp _ _ => simpa [World.popUnicast_cap hp] using ih
    case recvBcast_some hp => simpa [World.popBroadcast_cap hp] using ih
    all_goals simpa using ih

/-- **C06.** The unicast queue never holds more messages than the capacity plus the number of messages put
back by cancelled receive futures. -/
theorem C06_capacity {c : Nat} {s : Sys} (h : Reachable (some c) s) :
    s.w.uq.length ≤ c + s.w.log.countP Ev.isRequeue := by
  rw [← evReq_count]; exact (uInv_reachable h).bound (cap_reachable h)

/-- **C06.** Without such cancellations it never exceeds the capacity at all. -/
theorem C06_capacity_strict {c : Nat} {s : Sys} (h : Reachable (some c) s)
    (hn : ∀ e ∈ s.w.log, e.isRequeue = false) : s.w.uq.length ≤ c := by
  have h1 := C06_capacity h
  have : s.w.log.countP Ev.isRequeue = 0 := by
    rw [List.countP_eq_zero]; intro e he; simp [hn e he]
  omega

/-- The excess of C06 is real: capacity 1, a message handed to an idle receiver, another one queued, then
the receiver is dropped and puts its message back: two messages are queued. -/
def exRequeueSched : List Act :=
  [.call (.next 1), .call (.pollRecv 2 0), .exec 1, .exec 1, .call (.send 0), .call (.send 0),
   .call (.pollSend 3 0), .exec 4, .exec 4, .exec 4, .exec 4, .exec 4,
   .call (.pollSend 4 0), .exec 5, .exec 5, .exec 5, .exec 5, .exec 5,
   .call (.dropRecv 2), .exec 6, .exec 6]

/-- Meets the hypotheses of `C06_capacity`. -/
example : ∃ s, Reachable (some 1) s ∧ s.w.uq.length = 2 ∧ s.w.log.countP Ev.isRequeue = 1 := by
  refine ⟨_, Reachable.run .init (as := exRequeueSched) rfl, rfl, ?_⟩; decide

/-- Non-vacuity of the strict form: a full queue without cancellations. Meets the hypotheses of `C06_capacity_strict`. -/
example : ∃ s, Reachable (some 2) s ∧ s.w.uq.length = 2 ∧ ∀ e ∈ s.w.log, e.isRequeue = false := by
  refine ⟨_, Reachable.run .init (as := exRecvSched) rfl, rfl, ?_⟩; decide


/-! ## Broadcasts -/

theorem acceptsBc_le {cap : Option Nat} {s : Sys} (h : Reachable cap s) (i : Nat) :
    s.w.log.countP (Ev.acceptsBc i) ≤ sumBy (eAll i) s.w.log := by
  rw [← sumBy_countP (f := fun e => if e.acceptsBc i then 1 else 0) (fun _ => rfl)]
  apply sumBy_le; intro e
  cases e <;> simp [Ev.acceptsBc, eAll, mid1]

theorem mailboxLive_alive {cap : Option Nat} {s : Sys} (h : Reachable cap s) {b : Nat} (hl : s.w.mailboxLive b) :
    s.w.alive b = true := by
  obtain ⟨o, ho, hb⟩ := hl
  obtain ⟨f, hf⟩ := List.getElem?_of_mem ho
  have h1 := le_sumBy (oBq b) hf
  have h2 := refs_reachable h b
  have h3 : oBq b o = 1 := by cases o <;> simp_all [oBq, Obj.holdsMailbox, is1]
  rw [alive_iff]; omega

theorem mailboxLive_rcv {cap : Option Nat} {s : Sys} (h : Reachable cap s) {b : Nat} (hl : s.w.mailboxLive b) :
    s.w.rcv ≠ 0 := by
  obtain ⟨o, ho, hb⟩ := hl
  obtain ⟨f, hf⟩ := List.getElem?_of_mem ho
  have h1 := le_sumBy oRcv hf
  have h2 := rcv_reachable h
  have h3 : oRcv o = 1 := by cases o <;> simp_all [oRcv, Obj.holdsMailbox]
  omega

/-- **C04.** A broadcast is accepted at most once; a mailbox yields it at most as often as it was put there
(at most once); and as long as the mailbox lives, a broadcast put there is either still in it or has been
yielded there, exactly once. -/
theorem C04_broadcast_exactly_once {cap : Option Nat} {s : Sys} (h : Reachable cap s) (b i : Nat) :
    s.w.log.countP (Ev.acceptsBc i) ≤ 1 ∧
    s.w.log.countP (Ev.putsBc b i) ≤ 1 ∧
    s.w.log.countP (Ev.yieldsBc b i) ≤ s.w.log.countP (Ev.putsBc b i) ∧
    (s.w.mailboxLive b → (s.w.items b).countP (fun m => m.id == i) + s.w.log.countP (Ev.yieldsBc b i) =
      s.w.log.countP (Ev.putsBc b i)) := by
  have h1 := held_reachable h i
  have h2 := created_le i s.w
  have h3 := acceptsBc_le h i
  have h4 : s.w.log.countP (Ev.acceptsBc i) ≤ 1 := by simp only [World.held] at h1; omega
  have h5 : s.w.log.countP (Ev.putsBc b i) ≤ s.w.log.countP (Ev.acceptsBc i) := by
    apply List.countP_mono_left; intro e he hp
    cases e <;> simp_all [Ev.putsBc, Ev.acceptsBc]
  have hb := bc_reachable h b i
  have h6 := hb.le
  rw [eBs_count, eBr_count] at h6
  refine ⟨h4, by omega, by omega, fun hl => ?_⟩
  have h7 := hb.eq (mailboxLive_alive h hl)
  rw [eBs_count, eBr_count, mid1_count] at h7
  exact h7

theorem shutTx_log_mem {w : World} {e : Ev} (h : e ∈ w.shutTx.log) : e ∈ w.log ∨ ∃ i, e = .dropped i := by
  by_cases hd : ∃ i, e = .dropped i
  · exact .inr hd
  · left
    have h1 := shutTx_drops (fun x => if x = e then 1 else 0)
      (fun j => by simp; intro he; exact hd ⟨j, he.symm⟩) w
    have h2 : 0 < sumBy (fun x => if x = e then 1 else 0) w.shutTx.log := (sumBy_pos _).mpr ⟨e, h, by simp⟩
    rw [h1] at h2
    obtain ⟨x, hx, h3⟩ := (sumBy_pos _).mp h2
    have : x = e := by
      by_cases hxe : x = e
      · exact hxe
      · simp [hxe] at h3
    subst this; exact hx

theorem lateLog_mem {w : World} {m : Msg} {e : Ev} (h : e ∈ w.lateLog m) : e ∈ w.log ∨ e = .late m.id := by
  unfold World.lateLog at h; split at h
  · rcases List.mem_cons.mp h with h | h
    · exact .inr h
    · exact .inl h
  · exact .inl h

/-- Events of one step that accept a broadcast. -/
theorem execR_bsent {w w' : World} {m : Micro} {ms : List Micro} (h : ExecR w m w' ms)
    (r : RegWs w.ws w.wOne w.wAll) {x : Msg} {ts : List Nat} (hn : Ev.bsent x ts ∈ w'.log)
    (ho : Ev.bsent x ts ∉ w.log) : ts = w.bqs.filter w.alive := by
  have hpop : ∀ {b m1 w1}, w.popBroadcast b = some (m1, w1) → Ev.bsent x ts ∈ w1.log → ts = w.bqs.filter w.alive := by
    intro b m1 w1 hp hm
    have hal : ∀ q c, (w.afterPop b q).alive c = w.alive c := fun q c => alive_congr (afterPop_refs w b q c)
    obtain ⟨q, hq, ⟨-, rfl⟩ | ⟨-, hg, rfl⟩ | ⟨-, h', wk, m', q', t, rfl⟩⟩ := popBroadcast_cases r.all hp
    · simp at hm; exact absurd hm ho
    · simp at hm; exact absurd hm ho
    · simp [World.sendBroadcast] at hm
      rcases hm with ⟨-, rfl⟩ | hm
      · apply List.filter_congr; intro c _; exact hal q c
      · exact absurd hm ho
  cases h
  case recv_all hp _ _ => exact hpop hp (by simpa using hn)
  case recvBcast_some hp => exact hpop hp (by simpa using hn)
  case recv_one hp _ _ => simp [World.popUnicast_log hp] at hn; exact absurd hn ho
  case shutTx =>
    rcases shutTx_log_mem hn with h1 | ⟨i, h1⟩
    · exact absurd h1 ho
    · simp at h1
  case critAll_sent =>
    simp [World.sendBroadcast] at hn
    rcases hn with ⟨-, rfl⟩ | hn
    · rfl
    · rcases lateLog_mem hn with h1 | h1
      · exact absurd h1 ho
      · simp at h1
  case bcastShutdown =>
    simp [World.sendBroadcast] at hn
    rcases hn with ⟨-, rfl⟩ | hn
    · rfl
    · exact absurd hn ho
  all_goals first
    | (rcases lateLog_mem hn with h1 | h1
       · exact absurd h1 ho
       · simp at h1)
    | exact absurd hn ho
    | (simp at hn; exact absurd hn ho)

/-- **C04.** When a broadcast is accepted (by whichever step, including one admitted from the parked
broadcasts), the set of mailboxes it is put into contains every mailbox that has an owner at that moment,
contains no mailbox twice, and contains only mailboxes that exist at that moment (so none created later). -/
theorem C04_broadcast_targets {cap : Option Nat} {s s' : Sys} {a : Act} (h : Reachable cap s)
    (hs : s.step a = some s') {m : Msg} {ts : List Nat} (hnew : Ev.bsent m ts ∈ s'.w.log)
    (hold : Ev.bsent m ts ∉ s.w.log) :
    (∀ b, s.w.mailboxLive b → b ∈ ts) ∧ ts.Nodup ∧ (∀ b ∈ ts, b < s.w.bq.length) := by
  have hts : ts = s.w.bqs.filter s.w.alive := by
    rcases step_rel hs with ⟨c, w', ms, rfl, hc, rfl⟩ | ⟨t, m1, rest, w', ms, rfl, ht, he, rfl⟩
    · exfalso
      have hn' : Ev.bsent m ts ∈ w'.log := hnew
      cases hc <;> simp_all
    · exact execR_bsent he (regWs_reachable h) hnew hold
  subst hts
  refine ⟨fun b hb => ?_, ?_, fun b hb => ?_⟩
  · have ha := mailboxLive_alive h hb
    rcases bAll_reachable h b ha with h1 | h1
    · exact List.mem_filter.mpr ⟨h1, ha⟩
    · exact absurd h1 (mailboxLive_rcv h hb)
  · exact (bqsOk_reachable h).nodup.filter _
  · exact alive_lt (List.mem_filter.mp hb).2

/-- **C36.** Each mailbox has its own copy of a broadcast: whatever other mailboxes have taken, a mailbox
that is owned, into which the broadcast was put and which has not yielded it itself still contains it. The
unicast message, by contrast, is yielded once over all mailboxes together (C02). -/
theorem C36_broadcast_per_mailbox {cap : Option Nat} {s : Sys} (h : Reachable cap s) {b i : Nat} {m : Msg}
    {ts : List Nat} (hl : s.w.mailboxLive b) (hp : Ev.bsent m ts ∈ s.w.log) (hi : m.id = i) (hb : b ∈ ts)
    (hy : ∀ r m', Ev.recv r b (.all m') ∈ s.w.log → m'.id ≠ i) : ∃ x ∈ s.w.items b, x.id = i := by
  obtain ⟨-, -, -, h4⟩ := C04_broadcast_exactly_once h b i
  have h5 := h4 hl
  have h6 : s.w.log.countP (Ev.yieldsBc b i) = 0 := by
    rw [List.countP_eq_zero]; intro e he
    cases e <;> simp [Ev.yieldsBc]
    rename_i r b' am
    cases am <;> simp [Ev.yieldsBc]
    rintro rfl; exact hy _ _ he
  have h7 : 0 < s.w.log.countP (Ev.putsBc b i) := by
    rw [List.countP_pos_iff]; exact ⟨_, hp, by simp [Ev.putsBc, hi, hb]⟩
  have h8 : 0 < (s.w.items b).countP (fun m => m.id == i) := by omega
  obtain ⟨x, hx, he⟩ := List.countP_pos_iff.mp h8
  exact ⟨x, hx, by simpa using he⟩

/-- Two mailboxes, a broadcast; the clone takes its copy, the original still has one. -/
def exBcastSched : List Act :=
  [.call (.cloneMailbox 1), .exec 0, .call (.broadcast 0), .call (.pollSend 3 0), .exec 2, .exec 2, .exec 2, .exec 2,
   .exec 2, .call (.next 2), .call (.pollRecv 4 0), .exec 4]

/-- Meets the hypotheses of `C04_broadcast_exactly_once`, `C36_broadcast_per_mailbox`. -/
example : ∃ s, Reachable (some 1) s ∧ s.w.mailboxLive 0 ∧ s.w.mailboxLive 1 ∧
    s.w.log.countP (Ev.putsBc 0 0) = 1 ∧ s.w.log.countP (Ev.putsBc 1 0) = 1 ∧
    s.w.log.countP (Ev.yieldsBc 1 0) = 1 ∧ (s.w.items 0).length = 1 ∧ s.w.items 1 = [] := by
  refine ⟨_, Reachable.run .init (as := exBcastSched) rfl, ⟨.mailbox 0, ?_, rfl⟩, ⟨.mailbox 1, ?_, rfl⟩, ?_, ?_, ?_, ?_, ?_⟩
    <;> decide

/-- Length of the longest live broadcast mailbox is at most `n`. -/
def World.allBcAtMost (w : World) (n : Nat) : Prop := ∀ b, w.mailboxLive b → (w.items b).length ≤ n

/-- **C07.** No mailbox ever holds more broadcasts than the capacity plus the number of accepted `stop_all`
notices, and the channel's broadcast length is never below the longest live mailbox. -/
theorem C07_broadcast_capacity {c : Nat} {s : Sys} (h : Reachable (some c) s) :
    (∀ b, (s.w.items b).length ≤ c + s.w.log.countP Ev.isStopAll) ∧ s.w.allBcAtMost s.w.tail := by
  have hb := bInv_reachable h
  refine ⟨fun b => ?_, fun b hl => ?_⟩
  · rw [← evStop_count]; exact hb.bound (cap_reachable h) b
  · have ha := mailboxLive_alive h hl
    rcases bAll_reachable h b ha with h1 | h1
    · exact hb.tail h1 ha
    · exact absurd h1 (mailboxLive_rcv h hl)

/-- Meets the hypotheses of `C07_broadcast_capacity`. -/
example : ∃ s, Reachable (some 1) s ∧ s.w.mailboxLive 0 ∧ (s.w.items 0).length = 1 ∧ s.w.tail = 1 := by
  refine ⟨_, Reachable.run .init (as := exBcastSched) rfl, ⟨.mailbox 0, ?_, rfl⟩, ?_, ?_⟩ <;> decide

/-- The step that accepts the broadcast of `exBcastSched`, with two live mailboxes. Meets the hypotheses of `C04_broadcast_targets`. -/
example : ∃ s s', Reachable (some 1) s ∧ s.step (.exec 2) = some s' ∧ Ev.bsent ⟨0, .valued 0⟩ [0, 1] ∈ s'.w.log ∧
    Ev.bsent ⟨0, .valued 0⟩ [0, 1] ∉ s.w.log ∧ s.w.bq.length = 2 :=
  ⟨_, _, Reachable.run .init (as := exBcastSched.take 6) rfl, rfl, by decide, by decide, rfl⟩

end Xtra
