import Verif.PropsFifo
/-! # C42: every API call finishes after finitely many steps of its own -/

set_option linter.unusedSimpArgs false

namespace Xtra

/-! ## Vocabulary -/

/-- Number of broadcasts accepted so far. -/
def Ev.isBsent : Ev → Nat
  | .bsent _ _ => 1
  | _ => 0

/-- Number of broadcasts accepted so far. -/
def World.bcasts (w : World) : Nat := sumBy Ev.isBsent w.log

/-- Number of times a receive began to wait so far (every wait creates a cell). -/
def World.waits (w : World) : Nat := w.cells.length

/-! ## Proof -/

/-- Steps a micro-step may still lead to, not counting repetitions. -/
def Micro.base : Micro → Nat
  | .sendLd1 .. => 7
  | .sendLd2 .. => 6
  | .sendCrit .. => 5
  | .pollWs .. => 2
  | .dropTx _ => 2
  | .dropRx => 2
  | .recvTry .. => 2
  | .recvBcast .. => 3
  | .cancel .. => 6
  | .conn1 _ => 2
  | .join1 _ _ => 2
  | _ => 1

/-- The micro-step belongs to a receive or may send a broadcast. -/
def Micro.isRecv : Micro → Nat
  | .sendLd1 .. => 1
  | .sendLd2 .. => 1
  | .sendCrit .. => 1
  | .bcastShutdown => 1
  | .recvTry .. => 1
  | .recvPoll .. => 1
  | .recvBcast .. => 1
  | _ => 0

/-- The micro-step may lead to `shutRx`. -/
def Micro.isShut : Micro → Nat
  | .sendLd1 .. => 1
  | .sendLd2 .. => 1
  | .sendCrit .. => 1
  | .dropTx _ => 1
  | .shutRx => 1
  | _ => 0

/-- The receive is about to find a broadcast notice. -/
def notified (cells : List RxCell) : Micro → Nat
  | .recvPoll _ _ c _ => match cells[c]? with
    | some (.full .newBroadcast _) => 1
    | _ => 0
  | _ => 0

/-- Steps left for a thread, apart from what others add. -/
def pot (w : World) (ms : List Micro) : Nat :=
  sumBy Micro.base ms + 3 * sumBy (notified w.cells) ms + w.wRx.length * sumBy Micro.isShut ms

/-- How a step changes what matters for `pot`. -/
structure Grow (w w' : World) : Prop where
  b : w.bcasts ≤ w'.bcasts
  c : w.cells.length ≤ w'.cells.length
  r : w'.wRx.length + w.cells.length ≤ w.wRx.length + w'.cells.length
  n : w'.bcasts = w.bcasts → ∀ (c : Nat) wk, w'.cells[c]? = some (.full .newBroadcast wk) → w.cells[c]? = some (.full .newBroadcast wk)

theorem Grow.same {w w' : World} (h1 : sumBy Ev.isBsent w'.log = sumBy Ev.isBsent w.log) (h2 : w'.cells = w.cells) (h3 : w'.wRx = w.wRx) :
    Grow w w' :=
  ⟨by simp [World.bcasts, h1], by simp [h2], by simp [h2, h3], fun _ c wk h => by rwa [h2] at h⟩

theorem callR_grow {w w' : World} {c : Call} {ms : List Micro} (h : CallR w c w' ms) : Grow w w' := by
  cases h <;> exact .same (by simp [Ev.isBsent]) (by simp) (by simp)

theorem grow_set {w w' : World} {d : Nat} {x : RxCell} (h1 : sumBy Ev.isBsent w'.log = sumBy Ev.isBsent w.log)
    (h2 : w'.cells = w.cells.set d x) (h3 : w'.wRx.length ≤ w.wRx.length) (hx : ∀ wk, x ≠ .full .newBroadcast wk) : Grow w w' := by
  refine ⟨by simp [World.bcasts, h1], by simp [h2], by simp [h2]; omega, fun _ c wk h => ?_⟩
  rw [h2, List.getElem?_set] at h
  split at h
  · split at h
    · simp at h; exact (hx wk h).elim
    · simp at h
  · exact h

theorem popBroadcast_grow {w w' : World} {b : Nat} {m : Msg} (r : RegWs w.ws w.wOne w.wAll)
    (hp : w.popBroadcast b = some (m, w')) : Grow w w' := by
  obtain ⟨q, -, ⟨-, rfl⟩ | ⟨-, hg, rfl⟩ | ⟨-, h, wk, m', q', t, rfl⟩⟩ := popBroadcast_cases r.all hp
  · exact .same (by simp) (by simp) (by simp)
  · exact .same (by simp) (by simp) (by simp)
  · refine ⟨?_, ?_, ?_, ?_⟩ <;> simp [World.sendBroadcast, notifyAll_len, World.bcasts, Ev.isBsent]

theorem execR_grow {w w' : World} {mc : Micro} {ms : List Micro} (h : ExecR w mc w' ms)
    (r : RegWs w.ws w.wOne w.wAll) : Grow w w' := by
  have late : ∀ m, sumBy Ev.isBsent (w.lateLog m) = sumBy Ev.isBsent w.log := lateLog_sum Ev.isBsent (fun _ => rfl) w
  cases h
  case critAll_park => exact .same (late _) rfl rfl
  case critAll_sent => refine ⟨?_, ?_, ?_, ?_⟩ <;> simp [World.sendBroadcast, notifyAll_len, World.bcasts, Ev.isBsent, late]
  case bcastShutdown => refine ⟨?_, ?_, ?_, ?_⟩ <;> simp [World.sendBroadcast, notifyAll_len, World.bcasts, Ev.isBsent]
  case critOne_hand h1 h2 h3 h4 => exact grow_set (late _) rfl (by simp [h2]; omega) (by simp)
  case requeue_hand h2 h3 h4 => exact grow_set (by simp [Ev.isBsent]) rfl (by simp [h2]; omega) (by simp)
  case critOne_park => exact ⟨by simp [World.bcasts, late], by simp, by simp, fun _ _ _ h => h⟩
  case critOne_queue => exact ⟨by simp [World.bcasts, late], by simp, by simp, fun _ _ _ h => h⟩
  case requeue_queue => exact ⟨by simp [World.bcasts, Ev.isBsent], by simp, by simp, fun _ _ _ h => h⟩
  case shutRx => exact ⟨Nat.le_refl _, by simp, by simp, fun _ _ _ h => h⟩
  case shutTx => exact .same (shutTx_drops Ev.isBsent (fun _ => rfl) w) (by simp) (by simp)
  case recv_all hp _ _ =>
    have := popBroadcast_grow r hp
    exact ⟨by simpa [World.bcasts, Ev.isBsent] using this.b, by simpa using this.c, by simpa using this.r,
      fun h c wk h' => this.n (by simpa [World.bcasts, Ev.isBsent] using h) c wk (by simpa using h')⟩
  case recvBcast_some hp =>
    have := popBroadcast_grow r hp
    refine ⟨by simpa [World.bcasts, Ev.isBsent] using this.b, by simpa using this.c, by simpa using this.r, ?_⟩
    intro h c wk h'
    simp only [World.yieldMsg_cells] at h'
    rw [List.getElem?_set] at h'
    split at h'
    · split at h' <;> simp at h'
    · exact this.n (by simpa [World.bcasts, Ev.isBsent] using h) c wk h'
  case recv_one hp _ _ =>
    exact .same (by simp [Ev.isBsent, World.popUnicast_log hp]) (by simp [World.popUnicast_cells hp]) (by simp [World.popUnicast_wRx hp])
  case recv_wait =>
    refine ⟨by simp [World.bcasts], by simp, by simp; omega, fun _ c wk h => ?_⟩
    rw [List.getElem?_append] at h
    split at h
    · exact h
    · rename_i h1
      rw [List.getElem?_cons] at h
      split at h <;> simp at h
  case notifyShut c =>
    simp only [notifyCell]
    split
    · exact grow_set (by simp) rfl (by simp) (by simp)
    · exact .same rfl rfl rfl
  case recvPoll_empty => exact grow_set (by simp [Ev.isBsent]) rfl (by simp) (by simp)
  case recvPoll_one => exact grow_set (by simp [Ev.isBsent]) rfl (by simp) (by simp)
  case recvPoll_shutdown => exact grow_set (by simp [Ev.isBsent]) rfl (by simp) (by simp)
  case recvPoll_bcast => exact grow_set (by simp [Ev.isBsent]) rfl (by simp) (by simp)
  case recvBcast_none => exact grow_set (by simp [Ev.isBsent]) rfl (by simp) (by simp)
  case cancel_msg => exact grow_set (by simp [Ev.isBsent]) rfl (by simp) (by simp)
  case cancel_full => exact grow_set (by simp [Ev.isBsent]) rfl (by simp) (by simp)
  case dropCell_lost => exact grow_set (by simp [Ev.isBsent]) rfl (by simp) (by simp)
  case dropCell_other => exact grow_set (by simp [Ev.isBsent]) rfl (by simp) (by simp)
  all_goals exact .same (by simp [Ev.isBsent]) (by simp) (by simp)

theorem notified_le (cells : List RxCell) (ms : List Micro) : sumBy (notified cells) ms ≤ sumBy Micro.isRecv ms := by
  induction ms with
  | nil => simp
  | cons m ms ih =>
    have : notified cells m ≤ m.isRecv := by
      cases m <;> simp [notified, Micro.isRecv]
      split <;> simp
    simp only [sumBy_cons]; omega

theorem notified_mono {w w' : World} (g : Grow w w') (hb : w'.bcasts = w.bcasts) (ms : List Micro) :
    sumBy (notified w'.cells) ms ≤ sumBy (notified w.cells) ms := by
  induction ms with
  | nil => simp
  | cons m ms ih =>
    have : notified w'.cells m ≤ notified w.cells m := by
      cases m <;> simp only [notified] <;> try exact Nat.le_refl _
      rename_i r b c wk
      split
      · rename_i wk' h
        rw [g.n hb c wk' h]; simp
      · exact Nat.zero_le _
    simp only [sumBy_cons]; omega

/-- What the others do to `pot`. -/
theorem pot_keep {w w' : World} (g : Grow w w') {ms : List Micro} (h1 : sumBy Micro.isRecv ms ≤ 1) (h2 : sumBy Micro.isShut ms ≤ 1) :
    pot w' ms + 3 * w.bcasts + w.waits ≤ pot w ms + 3 * w'.bcasts + w'.waits := by
  have hb := g.b
  have hc := g.c
  have hr := g.r
  have hn := notified_le w'.cells ms
  have hN : sumBy (notified w'.cells) ms + w.bcasts ≤ sumBy (notified w.cells) ms + w'.bcasts := by
    by_cases he : w'.bcasts = w.bcasts
    · have := notified_mono g he ms; omega
    · omega
  simp only [pot, World.waits]
  have hs : sumBy Micro.isShut ms = 0 ∨ sumBy Micro.isShut ms = 1 := by omega
  rcases hs with hs | hs <;> rw [hs] <;> simp <;> omega

/-- What a micro-step is followed by. -/
theorem own_facts {w w' : World} {m : Micro} {js : List Micro} (h : ExecR w m w' js) :
    sumBy Micro.isRecv js ≤ m.isRecv ∧ sumBy Micro.isShut js ≤ m.isShut ∧ sumBy (notified w'.cells) js = 0 ∧
    (m ≠ .shutRx → sumBy Micro.base js + 1 ≤ m.base + 3 * notified w.cells m) ∧
    (m = .shutRx → sumBy Micro.base js = w.wRx.length ∧ sumBy Micro.isShut js = 0 ∧ w'.wRx = []) := by
  cases h
  case shutRx =>
    have h1 : ∀ q : List Nat, sumBy Micro.base (q.map .notifyShut) = q.length := by
      intro q; induction q with
      | nil => rfl
      | cons c q ih => simp [ih, Micro.base]; omega
    have h2 : ∀ q : List Nat, sumBy Micro.isRecv (q.map .notifyShut) = 0 := by
      intro q; induction q with
      | nil => rfl
      | cons c q ih => simp [ih, Micro.isRecv]
    have h3 : ∀ q : List Nat, sumBy Micro.isShut (q.map .notifyShut) = 0 := by
      intro q; induction q with
      | nil => rfl
      | cons c q ih => simp [ih, Micro.isShut]
    have h4 : ∀ q : List Nat, sumBy (notified w.cells) (q.map .notifyShut) = 0 := by
      intro q; induction q with
      | nil => rfl
      | cons c q ih => simp [ih, notified]
    simp [h1, h2, h3, h4]
  case recvPoll_bcast hc => simp [Micro.isRecv, Micro.isShut, Micro.base, notified, hc]
  all_goals simp [Micro.isRecv, Micro.isShut, Micro.base, notified]

/-- Only those steps send broadcasts. -/
theorem execR_sends {w w' : World} {m : Micro} {js : List Micro} (h : ExecR w m w' js) (hb : w'.bcasts ≠ w.bcasts) : m.isRecv = 1 := by
  have late : ∀ m, sumBy Ev.isBsent (w.lateLog m) = sumBy Ev.isBsent w.log := lateLog_sum Ev.isBsent (fun _ => rfl) w
  have hst := shutTx_drops Ev.isBsent (fun _ => rfl) w
  cases h
  case shutTx => exact (hb hst).elim
  all_goals first
    | rfl
    | (exfalso; apply hb; simp [World.bcasts, Ev.isBsent, late])

/-- A step of the thread itself. -/
theorem pot_own {w w' : World} {m : Micro} {js rest : List Micro} (h : ExecR w m w' js) (g : Grow w w')
    (h1 : sumBy Micro.isRecv (m :: rest) ≤ 1) (h2 : sumBy Micro.isShut (m :: rest) ≤ 1) :
    sumBy Micro.isRecv (js ++ rest) ≤ 1 ∧ sumBy Micro.isShut (js ++ rest) ≤ 1 ∧
    pot w' (js ++ rest) + 1 + w.waits ≤ pot w (m :: rest) + w'.waits := by
  obtain ⟨a1, a2, a3, a4, a5⟩ := own_facts h
  simp only [sumBy_cons] at h1 h2
  refine ⟨by simp; omega, by simp; omega, ?_⟩
  have hN : sumBy (notified w'.cells) rest ≤ sumBy (notified w.cells) rest := by
    by_cases hb : w'.bcasts = w.bcasts
    · exact notified_mono g hb rest
    · have hm : m.isRecv = 1 := execR_sends h hb
      have := notified_le w'.cells rest
      omega
  have hr := g.r
  have hc := g.c
  simp only [pot, sumBy_append, sumBy_cons, a3, World.waits]
  by_cases hm : m = .shutRx
  · obtain ⟨e1, e2, e3⟩ := a5 hm
    subst hm
    simp only [e1, e2, e3, Micro.base, Micro.isShut, notified] at *
    have : sumBy Micro.isShut rest = 0 := by omega
    simp [this]; omega
  · have e := a4 hm
    have hs : sumBy Micro.isShut js + sumBy Micro.isShut rest = 0 ∨
        (sumBy Micro.isShut js + sumBy Micro.isShut rest = 1 ∧ m.isShut + sumBy Micro.isShut rest = 1) := by omega
    rcases hs with hs | ⟨hs, hs'⟩
    · rw [hs]; simp; omega
    · rw [hs, hs']; simp; omega

/-- How a call starts. -/
theorem call_start {w w' : World} {c : Call} {ms : List Micro} (h : CallR w c w' ms) :
    sumBy Micro.isRecv ms ≤ 1 ∧ sumBy Micro.isShut ms ≤ 1 ∧ sumBy Micro.base ms + 3 * sumBy (notified w'.cells) ms ≤ 7 := by
  cases h <;> simp [Micro.isRecv, Micro.isShut, Micro.base, notified]
  split <;> simp

theorem wRx_le {w : World} (h : RxSorted w) : w.wRx.length ≤ w.cells.length := by
  have key : ∀ (l : List Nat) (n k : Nat), l.Pairwise (· < ·) → (∀ x ∈ l, k ≤ x ∧ x < n) → k ≤ n → l.length + k ≤ n := by
    intro l
    induction l with
    | nil => intro n k _ _ h; simpa using h
    | cons a l ih =>
      intro n k hp hl hk
      rw [List.pairwise_cons] at hp
      have := ih n (a + 1) hp.2 (fun x hx => ⟨hp.1 x hx, (hl x (by simp [hx])).2⟩) (hl a (by simp)).2
      have := (hl a (by simp)).1
      simp; omega
  have := key w.wRx w.cells.length 0 h.sorted (fun x hx => ⟨Nat.zero_le _, h.lt x hx⟩) (Nat.zero_le _)
  omega

/-- Steps of thread `t` in a schedule. -/
def ownSteps (t : Nat) (as : List Act) : Nat := as.countP (· == .exec t)

theorem run_pot {cap : Option Nat} {t : Nat} {as : List Act} : ∀ {s s' : Sys} {ms : List Micro}, Reachable cap s → s.th[t]? = some ms →
    sumBy Micro.isRecv ms ≤ 1 → sumBy Micro.isShut ms ≤ 1 → s.run as = some s' →
    ∃ ms', s'.th[t]? = some ms' ∧
      pot s'.w ms' + ownSteps t as + 3 * s.w.bcasts + s.w.waits ≤ pot s.w ms + 3 * s'.w.bcasts + s'.w.waits := by
  induction as with
  | nil =>
    intro s s' ms _ ht _ _ hr
    simp [Sys.run] at hr; subst hr
    exact ⟨ms, ht, by simp [ownSteps]⟩
  | cons a as ih =>
    intro s s' ms hre ht h1 h2 hr
    simp only [Sys.run] at hr
    split at hr
    rotate_left
    · simp at hr
    rename_i s1 hs
    have hre1 := Reachable.step hre hs
    have htl : t < s.th.length := (List.getElem?_eq_some_iff.mp ht).1
    rcases step_rel hs with ⟨c, w', js, rfl, hc, rfl⟩ | ⟨u, m, rest, w', js, rfl, hu, he, rfl⟩
    · obtain ⟨ms', e1, e2⟩ := ih hre1 (ms := ms) (by simpa [List.getElem?_append, htl] using ht) h1 h2 hr
      have := pot_keep (callR_grow hc) h1 h2
      refine ⟨ms', e1, ?_⟩
      simp [ownSteps, List.countP_cons] at e2 ⊢; omega
    · have g := execR_grow he (regWs_reachable hre)
      by_cases hut : u = t
      · subst hut
        rw [ht] at hu; simp at hu; subst hu
        obtain ⟨b1, b2, b3⟩ := pot_own he g h1 h2
        obtain ⟨ms', e1, e2⟩ := ih hre1 (ms := js ++ rest) (by simp [htl]) b1 b2 hr
        refine ⟨ms', e1, ?_⟩
        have := g.b
        simp [ownSteps, List.countP_cons] at e2 ⊢; omega
      · obtain ⟨ms', e1, e2⟩ := ih hre1 (ms := ms) (by simpa [List.getElem?_set, hut] using ht) h1 h2 hr
        have := pot_keep g h1 h2
        refine ⟨ms', e1, ?_⟩
        have : (Act.exec u == Act.exec t) = false := by simp [hut]
        simp [ownSteps, List.countP_cons, this] at e2 ⊢; omega

/-! ## Results -/

/-- **C42.** Wherever an API call is made and whatever the other threads do, the call takes at most seven steps of its own, plus three
for every broadcast accepted while it is running, plus one for every wait of a receive so far (the notices the last strong address sends
when dropped); so it can only go on forever if others keep broadcasting or receiving forever. -/
theorem C42_bounded {cap : Option Nat} {s s1 s' : Sys} {c : Call} {as : List Act} (h : Reachable cap s)
    (hc : s.step (.call c) = some s1) (hr : s1.run as = some s') :
    ownSteps s.th.length as + 3 * s1.w.bcasts ≤ 7 + s'.w.waits + 3 * s'.w.bcasts := by
  have hre := Reachable.step h hc
  have hx := rxSorted_reachable hre
  rcases step_rel hc with ⟨c', w', js, ha, hcr, rfl⟩ | ⟨u, m, rest, w', js, ha, -, -, -⟩
  rotate_left
  · simp at ha
  simp at ha; subst ha
  obtain ⟨a1, a2, a3⟩ := call_start hcr
  obtain ⟨ms', -, e⟩ := run_pot hre (t := s.th.length) (ms := js) (by simp) a1 a2 hr
  have := wRx_le hx
  have hm : w'.wRx.length * sumBy Micro.isShut js ≤ w'.wRx.length * 1 := Nat.mul_le_mul_left _ a2
  simp only [pot, World.waits] at e this ⊢
  omega

/-- The bound is met with a loop actually taken: a receive future waits, a broadcast is sent, the other receive future of the same
mailbox takes it; polling the first again goes through the notice, an empty mailbox, and a new wait (four steps of its own).
Meets the hypotheses of `C42_bounded`, `C42_returns`, `C42_can_finish`. -/
example : ∃ s s1 s', Reachable none s ∧ s.step (.call (.pollRecv 2 9)) = some s1 ∧
    s1.run (List.replicate 4 (.exec s.th.length)) = some s' ∧ s'.w.waits = 2 ∧ s'.w.objs[2]? = some (.recv 0 (.waiting 1)) := by
  refine ⟨_, _, _, Reachable.run .init (as := [.call (.next 1), .call (.pollRecv 2 0), .exec 1, .exec 1, .call (.next 1),
    .call (.broadcast 0), .call (.pollSend 4 0), .exec 4, .exec 4, .exec 4, .exec 4, .exec 4, .call (.pollRecv 3 0), .exec 5]) rfl,
    rfl, rfl, rfl, rfl⟩

/-- The micro-step belongs to a receive. -/
def Micro.isRx : Micro → Nat
  | .recvTry .. => 1
  | .recvPoll .. => 1
  | .recvBcast .. => 1
  | _ => 0

theorem own_rx {w w' : World} {m : Micro} {js : List Micro} (h : ExecR w m w' js) (r : RegWs w.ws w.wOne w.wAll) :
    sumBy Micro.isRx js ≤ m.isRx ∧ (m.isRx = 0 → w'.wRx.length ≤ w.wRx.length) := by
  cases h
  case shutRx =>
    have h2 : ∀ q : List Nat, sumBy Micro.isRx (q.map .notifyShut) = 0 := by
      intro q; induction q with
      | nil => rfl
      | cons c q ih => simp [ih, Micro.isRx]
    simp [h2]
  case critOne_hand h1 h2 h3 h4 => simp [Micro.isRx, h2]; omega
  case requeue_hand h2 h3 h4 => simp [Micro.isRx, h2]; omega
  case critAll_sent => simp [Micro.isRx, World.sendBroadcast]
  case bcastShutdown => simp [Micro.isRx, World.sendBroadcast]
  all_goals simp [Micro.isRx]

/-- What a thread that runs alone carries along. -/
structure TShape (ms : List Micro) : Prop where
  recv : sumBy Micro.isRecv ms ≤ 1
  shut : sumBy Micro.isRx ms + sumBy Micro.isShut ms ≤ 1

theorem pot_solo {w w' : World} {m : Micro} {js rest : List Micro} (h : ExecR w m w' js) (r : RegWs w.ws w.wOne w.wAll)
    (hs : TShape (m :: rest)) : TShape (js ++ rest) ∧ pot w' (js ++ rest) < pot w (m :: rest) := by
  obtain ⟨h1, h2⟩ := hs
  have g := execR_grow h r
  obtain ⟨a1, a2, a3, a4, a5⟩ := own_facts h
  obtain ⟨x1, x2⟩ := own_rx h r
  simp only [sumBy_cons] at h1 h2
  refine ⟨⟨by simp; omega, by simp; omega⟩, ?_⟩
  have hN : sumBy (notified w'.cells) rest ≤ sumBy (notified w.cells) rest := by
    by_cases hb : w'.bcasts = w.bcasts
    · exact notified_mono g hb rest
    · have hm : m.isRecv = 1 := execR_sends h hb
      have := notified_le w'.cells rest
      omega
  simp only [pot, sumBy_append, sumBy_cons, a3]
  by_cases hm : m = .shutRx
  · obtain ⟨e1, e2, e3⟩ := a5 hm
    subst hm
    simp only [e1, e2, e3, Micro.base, Micro.isShut, notified] at *
    have : sumBy Micro.isShut rest = 0 := by omega
    simp [this]; omega
  · have e := a4 hm
    by_cases hz : sumBy Micro.isShut js + sumBy Micro.isShut rest = 0
    · rw [hz]; simp; omega
    · have hx := x2 (by omega)
      have e1 : sumBy Micro.isShut js + sumBy Micro.isShut rest = 1 := by omega
      have e2 : m.isShut + sumBy Micro.isShut rest = 1 := by omega
      rw [e1, e2]; simp; omega

theorem solo_done {cap : Option Nat} {t : Nat} : ∀ (k : Nat) {s : Sys} {ms : List Micro}, pot s.w ms ≤ k → Reachable cap s →
    s.th[t]? = some ms → TShape ms →
    ∃ n s', n ≤ k ∧ s.run (List.replicate n (.exec t)) = some s' ∧ s'.th[t]? = some [] := by
  intro k
  induction k with
  | zero =>
    intro s ms hp hre ht hs
    cases ms with
    | nil => exact ⟨0, s, Nat.le_refl _, rfl, ht⟩
    | cons m rest =>
      have := (pot_solo (exec_rel s.w m) (regWs_reachable hre) hs).2
      omega
  | succ k ih =>
    intro s ms hp hre ht hs
    cases ms with
    | nil => exact ⟨0, s, Nat.zero_le _, rfl, ht⟩
    | cons m rest =>
      obtain ⟨b1, b2⟩ := pot_solo (exec_rel s.w m) (regWs_reachable hre) hs
      have htl : t < s.th.length := (List.getElem?_eq_some_iff.mp ht).1
      have hst : s.step (.exec t) = some ⟨(exec s.w m).1, s.th.set t ((exec s.w m).2 ++ rest)⟩ := by simp only [Sys.step, ht]
      obtain ⟨n, s', h1, h2, h3⟩ := ih (s := ⟨(exec s.w m).1, s.th.set t ((exec s.w m).2 ++ rest)⟩) (by simp only []; omega)
        (.step hre hst) (by simp [htl]) b1
      refine ⟨n + 1, s', by omega, ?_, h3⟩
      simp only [List.replicate_succ, Sys.run, hst]; exact h2

/-- **C42.** Every call returns when its thread is left to run, whatever the state it is made in (other calls may be stopped anywhere,
even forever): after at most seven steps, plus one for every wait of a receive so far. -/
theorem C42_returns {cap : Option Nat} {s s1 : Sys} {c : Call} (h : Reachable cap s) (hc : s.step (.call c) = some s1) :
    ∃ n s', n ≤ 7 + s1.w.waits ∧ s1.run (List.replicate n (.exec s.th.length)) = some s' ∧ s'.th[s.th.length]? = some [] := by
  have hre := Reachable.step h hc
  have hx := rxSorted_reachable hre
  rcases step_rel hc with ⟨c', w', js, ha, hcr, rfl⟩ | ⟨u, m, rest, w', js, ha, -, -, -⟩
  rotate_left
  · simp at ha
  simp at ha; subst ha
  obtain ⟨a1, a2, a3⟩ := call_start hcr
  have hsh : TShape js := ⟨a1, by cases hcr <;> simp [Micro.isRx, Micro.isShut]⟩
  have hw := wRx_le hx
  have hm : w'.wRx.length * sumBy Micro.isShut js ≤ w'.wRx.length * 1 := Nat.mul_le_mul_left _ a2
  exact solo_done (7 + w'.waits) (by simp only [pot, World.waits] at hw ⊢; omega) hre (by simp) hsh

/-- **C42.** In particular, in whatever state the other calls are: a call that is under way can be completed by its own steps. -/
theorem C42_can_finish {cap : Option Nat} {s s1 s2 : Sys} {c : Call} {as : List Act} (h : Reachable cap s)
    (hc : s.step (.call c) = some s1) (hr : s1.run as = some s2) :
    ∃ n s', s2.run (List.replicate n (.exec s.th.length)) = some s' ∧ s'.th[s.th.length]? = some [] := by
  have key : ∀ {t : Nat} {as : List Act} {s s' : Sys} {ms : List Micro}, Reachable cap s → s.th[t]? = some ms → TShape ms →
      s.run as = some s' → ∃ ms', s'.th[t]? = some ms' ∧ TShape ms' := by
    intro t as
    induction as with
    | nil => intro s s' ms _ ht hs hr; simp [Sys.run] at hr; subst hr; exact ⟨ms, ht, hs⟩
    | cons a as ih =>
      intro s s' ms hre ht hsh hr
      simp only [Sys.run] at hr
      split at hr
      rotate_left
      · simp at hr
      rename_i s1 hs
      have hre1 := Reachable.step hre hs
      have htl : t < s.th.length := (List.getElem?_eq_some_iff.mp ht).1
      rcases step_rel hs with ⟨c, w', js, rfl, hc, rfl⟩ | ⟨u, m, rest, w', js, rfl, hu, he, rfl⟩
      · exact ih hre1 (by simpa [List.getElem?_append, htl] using ht) hsh hr
      · by_cases hut : u = t
        · subst hut
          rw [ht] at hu; simp at hu; subst hu
          exact ih hre1 (ms := js ++ rest) (by simp [htl]) (pot_solo he (regWs_reachable hre) hsh).1 hr
        · exact ih hre1 (ms := ms) (by simpa [List.getElem?_set, hut] using ht) hsh hr
  have hre := Reachable.step h hc
  rcases step_rel hc with ⟨c', w', js, ha, hcr, rfl⟩ | ⟨u, m, rest, w', js, ha, -, -, -⟩
  rotate_left
  · simp at ha
  simp at ha; subst ha
  have hsh : TShape js := ⟨(call_start hcr).1, by cases hcr <;> simp [Micro.isRx, Micro.isShut]⟩
  obtain ⟨ms', e1, e2⟩ := key hre (t := s.th.length) (ms := js) (by simp) hsh hr
  obtain ⟨n, s', -, e3, e4⟩ := solo_done _ (Nat.le_refl _) (hre.run hr) e1 e2
  exact ⟨n, s', e3, e4⟩

end Xtra
