import Verif.PropsTerm
/-! # C43: bookkeeping for futures and mailboxes that are gone -/

set_option linter.unusedSimpArgs false

namespace Xtra

/-! ## Vocabulary -/

/-- The object still exists (it was not dropped, consumed or completed). -/
def Obj.exists : Obj → Bool
  | .gone => false
  | _ => true

/-- Number of objects (addresses, mailboxes, futures, messages, ...) user code still holds. -/
def World.liveObjs (w : World) : Nat := w.objs.countP Obj.exists

/-- Number of entries the channel keeps: handles of waiting receives, handles of parked sends, pointers to broadcast mailboxes. -/
def World.entries (w : World) : Nat := w.wRx.length + w.wOne.length + w.wAll.length + w.bqs.length

/-! ## The three ways to leak -/

/-- State after `n` rounds of "receive, wait, give up" on an otherwise unused channel. -/
def leakRx (cap : Option Nat) (n : Nat) (log : List Ev) : Sys where
  w := { cap := cap, wOne := [], wAll := [], wRx := List.range n, uq := [], bqs := [0], tail := 0, sc := 1, rcv := 1, lag := .fresh, rang := false, ws := [],
         cells := List.replicate n .gone, bq := [⟨1, []⟩], resp := [], lst := [],
         objs := .addr .strong :: .mailbox 0 :: List.replicate n .gone, log := log }
  th := List.replicate (3 * n) []

/-- State after `n` rounds of "clone the mailbox, drop the clone" on an otherwise unused channel. -/
def leakBq (cap : Option Nat) (n : Nat) : Sys where
  w := { cap := cap, wOne := [], wAll := [], wRx := [], uq := [], bqs := List.range (n + 1), tail := 0, sc := 1, rcv := 1, lag := .fresh, rang := false, ws := [],
         cells := [], bq := ⟨1, []⟩ :: List.replicate n ⟨0, []⟩, resp := [], lst := [],
         objs := .addr .strong :: .mailbox 0 :: List.replicate n .gone, log := [] }
  th := List.replicate (2 * n) []

/-- State after `n` rounds of "send, be parked, give up" on a mailbox of capacity 1 with one message queued. -/
def leakTx (n : Nat) (log : List Ev) : Sys where
  w := { cap := some 1, wOne := List.range n, wAll := [], wRx := [], uq := [⟨0, .valued 0⟩], bqs := [0], tail := 0, sc := 1, rcv := 1, lag := .fresh, rang := false,
         ws := List.replicate n .gone, cells := [], bq := [⟨1, []⟩],
         resp := .waiting (some 0) :: List.replicate n (.interrupted none), lst := [],
         objs := .addr .strong :: .mailbox 0 :: .send .ret 0 .done :: List.replicate n .gone, log := log }
  th := List.replicate (3 * n + 2) []

theorem get_snoc {α : Type} (l : List α) (x : α) (n : Nat) (h : l.length = n) : (l ++ [x])[n]? = some x := by subst h; simp

theorem set_snoc {α : Type} (l : List α) (x y : α) (n : Nat) (h : l.length = n) : (l ++ [x]).set n y = l ++ [y] := by
  subst h; simp [List.set_append]

theorem modify_snoc {α : Type} (l : List α) (x : α) (f : α → α) (n : Nat) (h : l.length = n) : (l ++ [x]).modify n f = l ++ [f x] := by
  subst h; induction l with
  | nil => rfl
  | cons a l ih => simpa using ih

theorem leakRx_round (cap : Option Nat) (n : Nat) (log : List Ev) : ∃ log',
    (leakRx cap n log).run [.call (.next 1), .call (.pollRecv (n + 2) 0), .exec (3 * n + 1), .exec (3 * n + 1),
      .call (.dropRecv (n + 2)), .exec (3 * n + 2), .exec (3 * n + 2), .exec (3 * n + 2), .exec (3 * n + 2)]
    = some (leakRx cap (n + 1) log') := by
  refine ⟨.recvPending (n + 2) 0 :: log, ?_⟩
  have e3 : 3 * (n + 1) = 3 * n + 1 + 1 + 1 := by omega
  simp [leakRx, Sys.run, Sys.step, call, exec, Obj.mbox, World.incBq, World.addObj, World.setObj, World.ev, World.tryRecv,
    World.items, Heap.peek, Prio.cmpOpt, World.decBq, List.range_succ, List.replicate_succ', e3, get_snoc, set_snoc]

theorem leakBq_round (cap : Option Nat) (n : Nat) :
    (leakBq cap n).run [.call (.cloneMailbox 1), .exec (2 * n), .call (.dropMailbox (n + 2)), .exec (2 * n + 1), .exec (2 * n + 1)]
    = some (leakBq cap (n + 1)) := by
  have e3 : 2 * (n + 1) = 2 * n + 1 + 1 := by omega
  simp [leakBq, Sys.run, Sys.step, call, exec, Obj.mbox, World.incBq, World.addObj, World.setObj, World.ev, World.decBq,
    List.range_succ, List.replicate_succ', e3, get_snoc, set_snoc]

theorem leakTx_round (n : Nat) (log : List Ev) : ∃ log',
    (leakTx n log).run [.call (.send 0), .call (.pollSend (n + 3) 0), .exec (3 * n + 3), .exec (3 * n + 3), .exec (3 * n + 3),
      .exec (3 * n + 3), .exec (3 * n + 3), .call (.dropSend (n + 3)), .exec (3 * n + 4)]
    = some (leakTx (n + 1) log') := by
  refine ⟨.dropped (n + 1) :: .sendPending (n + 3) (n + 1) 0 :: .made (n + 3) (n + 1) false :: log, ?_⟩
  have e3 : 3 * (n + 1) + 2 = 3 * n + 2 + 1 + 1 + 1 := by omega
  simp [leakTx, Sys.run, Sys.step, call, exec, World.addObj, World.setObj, World.ev, World.addTx, Rc.isStrong, World.noteLate,
    World.lateLog, World.sendOne, fulfil, World.uniFull, afterSend, World.kill, Resp.interrupt,
    List.range_succ, List.replicate_succ', e3, get_snoc, set_snoc, modify_snoc]

theorem run_append' {s s1 s2 : Sys} {as bs : List Act} (h1 : s.run as = some s1) (h2 : s1.run bs = some s2) :
    s.run (as ++ bs) = some s2 := by
  induction as generalizing s with
  | nil => simp [Sys.run] at h1; subst h1; exact h2
  | cons a as ih =>
    simp only [Sys.run, List.cons_append] at h1 ⊢
    split at h1
    · exact ih h1
    · simp at h1

/-! ## Refutation of the general claim -/

theorem leakRx_reach (cap : Option Nat) (n : Nat) : ∃ log, Reachable cap (leakRx cap n log) := by
  induction n with
  | zero => exact ⟨[], .init⟩
  | succ n ih =>
    obtain ⟨log, h⟩ := ih
    obtain ⟨log', h'⟩ := leakRx_round cap n log
    exact ⟨log', h.run h'⟩

theorem leakBq_reach (cap : Option Nat) (n : Nat) : Reachable cap (leakBq cap n) := by
  induction n with
  | zero => exact .init
  | succ n ih => exact ih.run (leakBq_round cap n)

theorem leakTx_reach (n : Nat) : ∃ log, Reachable (some 1) (leakTx n log) := by
  induction n with
  | zero =>
    exact ⟨_, Reachable.run .init (as := [.call (.send 0), .call (.pollSend 2 0), .exec 1, .exec 1, .exec 1, .exec 1, .exec 1]) rfl⟩
  | succ n ih =>
    obtain ⟨log, h⟩ := ih
    obtain ⟨log', h'⟩ := leakTx_round n log
    exact ⟨log', h.run h'⟩

/-- **C43 (refuted in general).** The channel's bookkeeping is not bounded by what exists: for every `n` there is a reachable state
with no call in progress in which the user holds one address, one mailbox and nothing else, and the channel holds `n` handles of
receives that were given up — and another with `n` pointers to mailboxes that were dropped; and one (capacity 1) with the user
holding one more object, a send future whose message is queued, and the channel holding `n` handles of abandoned sends. -/
theorem C43_refuted (n : Nat) :
    (∀ cap, ∃ w, Quiet cap w ∧ w.liveObjs = 2 ∧ w.wRx.length = n ∧ ∀ c ∈ w.wRx, w.cells[c]? = some .gone) ∧
    (∀ cap, ∃ w, Quiet cap w ∧ w.liveObjs = 2 ∧ w.bqs.length = n + 1 ∧ w.bqs.countP w.alive = 1) ∧
    (∃ w, Quiet (some 1) w ∧ w.liveObjs = 3 ∧ w.wOne.length = n ∧ ∀ h ∈ w.wOne, w.ws[h]? = some .gone) := by
  refine ⟨fun cap => ?_, fun cap => ?_, ?_⟩
  · obtain ⟨log, h⟩ := leakRx_reach cap n
    refine ⟨(leakRx cap n log).w, ⟨_, h, by simp [leakRx]⟩, ?_, by simp [leakRx], ?_⟩
    · simp [World.liveObjs, leakRx, List.countP_cons, Obj.exists, List.countP_replicate]
    · simp +contextual [leakRx, List.getElem?_replicate]
  · refine ⟨(leakBq cap n).w, ⟨_, leakBq_reach cap n, by simp [leakBq]⟩, ?_, by simp [leakBq], ?_⟩
    · simp [World.liveObjs, leakBq, List.countP_cons, Obj.exists, List.countP_replicate]
    · simp only [leakBq, List.range_succ_eq_map, List.countP_cons, List.countP_map]
      rw [List.countP_eq_zero.2]
      · simp [World.alive]
      · intro a ha
        simp only [List.mem_range] at ha
        simp [World.alive, ha]
  · obtain ⟨log, h⟩ := leakTx_reach n
    refine ⟨(leakTx n log).w, ⟨_, h, by simp [leakTx]⟩, ?_, by simp [leakTx], ?_⟩
    · simp [World.liveObjs, leakTx, List.countP_cons, Obj.exists, List.countP_replicate]
    · simp +contextual [leakTx, List.getElem?_replicate]

/-! ## What holds: when the stale entries go -/

theorem sendBroadcast_clean (w : World) (o : BqsOk w) (m : Msg) :
    (w.sendBroadcast m).wRx = [] ∧ ∀ b ∈ (w.sendBroadcast m).bqs, (w.sendBroadcast m).alive b = true := by
  refine ⟨rfl, fun b hb => ?_⟩
  rw [alive_congr (sendBroadcast_refs w m o.nodup b)]
  rw [sendBroadcast_bqs] at hb
  exact (List.mem_filter.1 hb).2

theorem popBroadcast_clean {b : Nat} {w w' : World} {m : Msg} (r : RegWs w.ws w.wOne w.wAll) (o : BqsOk w)
    (hp : w.popBroadcast b = some (m, w')) (hb : w.bcasts < w'.bcasts) : w'.wRx = [] ∧ ∀ b ∈ w'.bqs, w'.alive b = true := by
  have h0 : ∀ q, BqsOk (w.afterPop b q) := fun q => o.congr (by simp) (afterPop_bqlen w b q)
  obtain ⟨q, hq, ⟨-, rfl⟩ | ⟨-, hg, rfl⟩ | ⟨-, h', wk, m', q', t, rfl⟩⟩ := popBroadcast_cases r.all hp
  · simp [World.bcasts] at hb
  · simp [World.bcasts] at hb
  · exact sendBroadcast_clean _ ((h0 q).congr rfl rfl) m'

theorem execR_clean {w w' : World} {m : Micro} {ms : List Micro} (h : ExecR w m w' ms) (r : RegWs w.ws w.wOne w.wAll) (o : BqsOk w)
    (hb : w.bcasts < w'.bcasts) : w'.wRx = [] ∧ ∀ b ∈ w'.bqs, w'.alive b = true := by
  have late := fun m => lateLog_sum Ev.isBsent (fun _ => rfl) w m
  cases h
  case critAll_sent => exact sendBroadcast_clean _ (o.congr rfl rfl) _
  case bcastShutdown => exact sendBroadcast_clean _ (o.congr rfl rfl) _
  case recv_all hp _ _ =>
    obtain ⟨h1, h2⟩ := popBroadcast_clean r o hp (by simpa [World.bcasts, World.yieldMsg, World.ev, Ev.isBsent] using hb)
    exact ⟨by simpa using h1, fun b hb => (alive_congr' (by simp) b).trans (h2 b (by simpa using hb))⟩
  case recvBcast_some hp =>
    obtain ⟨h1, h2⟩ := popBroadcast_clean r o hp (by simpa [World.bcasts, World.yieldMsg, World.ev, Ev.isBsent] using hb)
    exact ⟨by simpa using h1, fun b hb => (alive_congr' (by simp) b).trans (h2 b (by simpa using hb))⟩
  case recv_one hp _ _ =>
    exfalso
    simp [World.bcasts, World.yieldMsg, World.ev, Ev.isBsent, World.popUnicast_log hp] at hb
  case shutTx =>
    exfalso
    have := shutTx_drops Ev.isBsent (fun _ => rfl) w
    simp only [World.bcasts] at hb; omega
  all_goals
    exfalso
    simp [World.bcasts, Ev.isBsent, late, World.kill, World.setObj, World.ev, World.yieldMsg] at hb

/-- **C43 (partial).** The moment a broadcast is accepted (by a send, by a parked broadcast being let in, or by `stop_all`), the
channel keeps no handle of a waiting receive at all and points only to mailboxes that still exist. -/
theorem C43_broadcast_cleans_partial {cap : Option Nat} {s s' : Sys} {a : Act} (h : Reachable cap s) (hs : s.step a = some s')
    (hb : s.w.bcasts < s'.w.bcasts) : s'.w.wRx = [] ∧ ∀ b ∈ s'.w.bqs, s'.w.alive b = true := by
  rcases step_rel hs with ⟨c', w', js, ha, hcr, rfl⟩ | ⟨u, m, rest, w', js, ha, ht, he, rfl⟩
  · exfalso
    have := callR_grow hcr
    cases hcr <;> simp [World.bcasts, Ev.isBsent, World.addObj, World.setObj, World.ev] at hb
  · exact execR_clean he (regWs_reachable h) (bqsOk_reachable h) hb

/-- **C43 (partial).** A unicast send that enters the channel removes from the front every handle of a waiting receive up to and
including the one it serves; serving none, it removes all. -/
theorem C43_send_cleans_partial {s s' : Sys} {t f wk : Nat} {md : Mode} {m : Msg} {rc : Rc} {rest : List Micro}
    (ht : s.th[t]? = some (.sendCrit f md m rc wk :: rest)) (hmd : md ≠ .bcast) (hs : s.step (.exec t) = some s') :
    s'.w.wRx = [] ∨ ∃ pre c wk', s.w.wRx = pre ++ c :: s'.w.wRx ∧ s'.w.cells[c]? = some (.full (.newMessage m) wk') := by
  rcases step_rel hs with ⟨c', w', js, ha, hcr, rfl⟩ | ⟨u, m', rest', w', js, ha, ht', he, rfl⟩
  · simp at ha
  · simp at ha; subst ha
    rw [ht] at ht'; simp at ht'; obtain ⟨rfl, rfl⟩ := ht'
    cases he
    case critOne_hand pre c rest wk' h3 h0 h2 h1 =>
      right
      refine ⟨pre, c, wk', h3, ?_⟩
      obtain ⟨hl, -⟩ := List.getElem?_eq_some_iff.1 h2
      simp [List.getElem?_set, hl]
    all_goals first
      | (left; rfl)
      | exact absurd rfl hmd

/-- A receive yielded something. -/
def Ev.isYield : Ev → Nat
  | .recv .. => 1
  | _ => 0

/-- **C43 (partial).** A receive that takes a queued unicast message out of a mailbox not filled beyond its capacity removes the
handles of all abandoned sends. -/
theorem C43_receive_cleans_partial {cap : Option Nat} {s s' : Sys} {t r b : Nat} {m : Msg} (h : Reachable cap s)
    (hs : s.step (.exec t) = some s') (hl : s'.w.log = .recv r b (.one m) :: s.w.log) (hm : s'.w.uq ≠ s.w.uq)
    (hf : ∀ c, s.w.cap = some c → s.w.uq.length ≤ c) : ∀ x ∈ s'.w.wOne, wsActive s'.w.ws x = true := by
  have hreg := regWs_reachable h
  rcases step_rel hs with ⟨c', w', js, ha, hcr, rfl⟩ | ⟨u, m', rest', w', js, ha, ht', he, rfl⟩
  · simp at ha
  · have late := fun m => lateLog_suffix s.w m
    cases he
    case recv_one hp h1 h2 =>
      simp only [World.yieldMsg, World.ev]
      obtain ⟨q, hq, ⟨hfull, rfl⟩ | ⟨-, hg, rfl⟩ | ⟨-, h', wk, m', q', t, rfl⟩⟩ := popUnicast_cases hreg.one hp
      · exfalso
        have hlen := (Heap.pop_perm hq).length_eq
        simp only [World.uniFull] at hfull
        split at hfull
        · simp at hfull
        · rename_i c hc
          have := hf c hc
          simp at hfull hlen
          omega
      · simp
      · intro x hx
        obtain ⟨p, hp1, hp2⟩ := t.pos
        simp only at hx
        rw [hp2] at hx
        have := (List.mem_filter.1 (List.mem_of_mem_eraseIdx hx)).2
        simp only
        by_cases e : h' = x
        · subst e
          obtain ⟨hl, -⟩ := List.getElem?_eq_some_iff.1 t.cell
          simp [wsActive, List.getElem?_set, hl]
        · simpa [wsActive, List.getElem?_set, e] using this
    case critOne_queue =>
      simp only [World.lateLog] at hl
      split at hl <;> simp at hl
    case shutTx =>
      have := shutTx_drops Ev.isYield (fun _ => rfl) s.w
      rw [hl] at this
      simp [Ev.isYield] at this
    all_goals
      exfalso
      simp [World.yieldMsg, World.ev, World.kill, World.setObj] at hm hl

/-! ## Non-vacuity -/

/-- A cloned and dropped mailbox and a given-up receive are both forgotten when a broadcast is accepted.
Meets the hypotheses of `C43_broadcast_cleans_partial`. -/
example : ∃ s s', Reachable (some 1) s ∧ s.step (.exec 6) = some s' ∧ s.w.bcasts < s'.w.bcasts ∧ s.w.wRx.length = 1 ∧
    s.w.bqs.length = 2 := by
  refine ⟨_, _, Reachable.run .init (as := [.call (.cloneMailbox 1), .exec 0, .call (.dropMailbox 2), .exec 1, .exec 1,
    .call (.next 1), .call (.pollRecv 3 0), .exec 3, .exec 3, .call (.dropRecv 3), .exec 4, .exec 4, .exec 4, .exec 4,
    .call (.broadcast 0), .call (.pollSend 4 0), .exec 6, .exec 6]) rfl, rfl, ?_, ?_, ?_⟩ <;> decide

/-- A unicast send passes over the handle of a given-up receive. Meets the hypotheses of `C43_send_cleans_partial`. -/
example : ∃ (s s' : Sys) (f wk : Nat) (m : Msg) (rc : Rc) (rest : List Micro), Reachable (some 1) s ∧ s.step (.exec 4) = some s' ∧
    s.th[4]? = some (.sendCrit f .ret m rc wk :: rest) ∧ s.w.wRx.length = 1 := by
  refine ⟨_, _, _, _, _, _, _, Reachable.run .init (as := [.call (.next 1), .call (.pollRecv 2 0), .exec 1, .exec 1,
    .call (.dropRecv 2), .exec 2, .exec 2, .exec 2, .exec 2, .call (.send 0), .call (.pollSend 3 0), .exec 4, .exec 4]) rfl,
    rfl, rfl, ?_⟩; decide

/-- A receive that finds a queued message while an abandoned send is still recorded.
Meets the hypotheses of `C43_receive_cleans_partial`. -/
example : ∃ (s s' : Sys) (r b : Nat) (m : Msg), Reachable (some 1) s ∧ s.step (.exec 6) = some s' ∧
    s'.w.log = .recv r b (.one m) :: s.w.log ∧ s'.w.uq ≠ s.w.uq ∧ s.w.uq.length ≤ 1 ∧ s.w.wOne.length = 1 := by
  refine ⟨_, _, _, _, _, Reachable.run .init (as := [.call (.send 0), .call (.pollSend 2 0), .exec 1, .exec 1, .exec 1, .exec 1, .exec 1,
    .call (.send 0), .call (.pollSend 3 0), .exec 3, .exec 3, .exec 3, .exec 3, .exec 3, .call (.dropSend 3), .exec 4,
    .call (.next 1), .call (.pollRecv 4 0)]) rfl, rfl, rfl, ?_, ?_, ?_⟩ <;> decide

end Xtra
