import Verif.Spec
import Verif.Own2
/-! Whole API calls: they terminate, are deterministic, and lead from quiet states to quiet states. -/

namespace Xtra

theorem Runs.append {w w1 w2 : World} {ms ns : List Micro} (h : Runs w ms w1) (h2 : Runs w1 ns w2) :
    Runs w (ms ++ ns) w2 := by
  induction h with
  | nil => exact h2
  | cons _ ih => refine .cons ?_; simpa using ih h2

theorem Runs.det {w w1 w2 : World} {ms : List Micro} (h : Runs w ms w1) (h2 : Runs w ms w2) : w1 = w2 := by
  induction h with
  | nil => cases h2; rfl
  | cons _ ih => cases h2 with | cons h3 => exact ih h3

/-- Every undisturbed step terminates. -/
theorem runs_one (w : World) (m : Micro) : ∃ w', Runs w [m] w' := by
  have fin : ∀ (w : World) (m : Micro), (exec w m).2 = [] → ∃ w', Runs w [m] w' := by
    intro w m h; exact ⟨_, .cons (by rw [h]; exact .nil)⟩
  have one : ∀ (w : World) (m n : Micro), (exec w m).2 = [n] → (∃ w', Runs (exec w m).1 [n] w') → ∃ w', Runs w [m] w' := by
    intro w m n h ⟨w', h2⟩; exact ⟨w', .cons (by rw [h]; exact h2)⟩
  have two : ∀ (w : World) (m n k : Micro), (exec w m).2 = [n, k] → (∀ w, ∃ w', Runs w [n] w') → (∀ w, ∃ w', Runs w [k] w') →
      ∃ w', Runs w [m] w' := by
    intro w m n k h h1 h2
    obtain ⟨a, ha⟩ := h1 (exec w m).1
    obtain ⟨b, hb⟩ := h2 a
    exact ⟨b, .cons (by rw [h]; exact ha.append hb)⟩
  have ns : ∀ (l : List Nat) (w : World), ∃ w', Runs w (l.map .notifyShut) w' := by
    intro l
    induction l with
    | nil => intro w; exact ⟨w, .nil⟩
    | cons c l ih =>
      intro w
      obtain ⟨w', h'⟩ := ih (exec w (.notifyShut c)).1
      exact ⟨w', .cons (by simpa [exec] using h')⟩
  have hshutRx : ∀ w, ∃ w', Runs w [.shutRx] w' := by
    intro w
    obtain ⟨w', h'⟩ := ns w.wRx { w with wRx := [], lag := .swept }
    exact ⟨w', .cons (by simpa [exec] using h')⟩
  have hshutTx : ∀ w, ∃ w', Runs w [.shutTx] w' := fun w => fin w _ rfl
  have hdropTx : ∀ rc w, ∃ w', Runs w [.dropTx rc] w' := by
    intro rc w
    by_cases hr : rc.isStrong = true
    · by_cases h1 : w.sc = 1
      · exact one w _ .shutRx (by simp [exec, hr, h1]) (hshutRx _)
      · exact fin w _ (by simp [exec, hr, h1])
    · exact fin w _ (by simp [exec, hr])
  have hdropRx : ∀ w, ∃ w', Runs w [.dropRx] w' := by
    intro w
    by_cases h1 : w.rcv = 1
    · exact one w _ .shutTx (by simp [exec, h1]) (hshutTx _)
    · exact fin w _ (by simp [exec, h1])
  have hdropBq : ∀ b w, ∃ w', Runs w [.dropBq b] w' := fun b w => fin w _ rfl
  have hdropCell : ∀ c w, ∃ w', Runs w [.dropCell c] w' := by
    intro c w; refine fin w _ ?_; simp only [exec]; split <;> rfl
  have hrequeue : ∀ m w, ∃ w', Runs w [.requeue m] w' := fun m w => fin w _ rfl
  have hsendFin : ∀ f md mid wk w, ∃ w', Runs w [.sendFin f md mid wk] w' := by
    intro f md mid wk w
    refine fin w _ ?_
    cases md <;> simp only [exec]
    split <;> rfl
  have hpollWs : ∀ f md mid h wk w, ∃ w', Runs w [.pollWs f md mid h wk] w' := by
    intro f md mid h wk w
    cases hc : w.ws[h]? with
    | none => exact fin w _ (by simp [exec, hc])
    | some x =>
      cases x with
      | delivered => exact one w _ (.sendFin f md mid wk) (by simp [exec, hc]) (hsendFin ..)
      | _ => exact fin w _ (by simp [exec, hc])
  have hcrit : ∀ f md m rc wk w, ∃ w', Runs w [.sendCrit f md m rc wk] w' := by
    intro f md m rc wk w
    have hx := exec_rel w (.sendCrit f md m rc wk)
    generalize hw : (exec w (.sendCrit f md m rc wk)).1 = w1 at hx
    generalize hms : (exec w (.sendCrit f md m rc wk)).2 = ms at hx
    cases hx with
    | critAll_park => exact two w _ _ _ hms (hdropTx _) (hpollWs _ _ _ _ _)
    | critAll_sent => exact two w _ _ _ hms (hdropTx _) (hsendFin _ _ _ _)
    | critOne_hand => exact two w _ _ _ hms (hdropTx _) (hsendFin _ _ _ _)
    | critOne_park => exact two w _ _ _ hms (hdropTx _) (hpollWs _ _ _ _ _)
    | critOne_queue => exact two w _ _ _ hms (hdropTx _) (hsendFin _ _ _ _)
  have hld2 : ∀ f md m rc wk w, ∃ w', Runs w [.sendLd2 f md m rc wk] w' := by
    intro f md m rc wk w
    by_cases h : w.sc = 0
    · exact one w _ (.dropTx rc) (by simp [exec, h]) (hdropTx ..)
    · exact one w _ (.sendCrit f md m rc wk) (by simp [exec, h]) (hcrit ..)
  have hrecvPollE : ∀ r b c wk (w : World) x, w.cells[c]? = some (.empty x) → ∃ w', Runs w [.recvPoll r b c wk] w' := by
    intro r b c wk w x h
    exact fin w _ (by simp [exec, h])
  have hrecvTry : ∀ r b wk w, ∃ w', Runs w [.recvTry r b wk] w' := by
    intro r b wk w
    have hx := exec_rel w (.recvTry r b wk)
    generalize hw : (exec w (.recvTry r b wk)).1 = w1 at hx
    generalize hms : (exec w (.recvTry r b wk)).2 = ms at hx
    cases hx with
    | recv_all => exact fin w _ hms
    | recv_one => exact fin w _ hms
    | recv_shutdown => exact fin w _ hms
    | recv_wait =>
      refine one w _ _ hms ?_
      rw [hw]
      exact hrecvPollE _ _ _ _ _ none (by simp)
  have hrecvBcast : ∀ r b c wk w, ∃ w', Runs w [.recvBcast r b c wk] w' := by
    intro r b c wk w
    cases hp : w.popBroadcast b with
    | none => exact one w _ (.recvTry r b wk) (by simp [exec, hp]) (hrecvTry ..)
    | some x => exact fin w _ (by simp [exec, hp])
  have hconn2 : ∀ i w, ∃ w', Runs w [.conn2 i] w' := fun i w => fin w _ rfl
  have hjoin2 : ∀ o l w, ∃ w', Runs w [.join2 o l] w' := by
    intro o l w; refine fin w _ ?_; simp only [exec]; split <;> rfl
  have three : ∀ b c w, ∃ w', Runs w [.dropRx, .dropBq b, .dropCell c] w' := by
    intro b c w
    obtain ⟨w1, h1⟩ := hdropRx w
    obtain ⟨w2, h2⟩ := hdropBq b w1
    obtain ⟨w3, h3⟩ := hdropCell c w2
    exact ⟨w3, h1.append (h2.append h3)⟩
  cases m with
  | sendLd1 f md m rc wk =>
    by_cases h : w.rcv = 0
    · exact one w _ (.dropTx rc) (by simp [exec, h]) (hdropTx ..)
    · exact one w _ (.sendLd2 f md m rc wk) (by simp [exec, h]) (hld2 ..)
  | sendLd2 => exact hld2 ..
  | sendCrit => exact hcrit ..
  | pollWs => exact hpollWs ..
  | sendFin => exact hsendFin ..
  | dropWs h => refine fin w _ ?_; simp only [exec]; split <;> rfl
  | dropTx => exact hdropTx ..
  | shutRx => exact hshutRx ..
  | notifyShut => exact fin w _ rfl
  | dropRx => exact hdropRx ..
  | shutTx => exact hshutTx ..
  | dropBq => exact hdropBq ..
  | recvTry => exact hrecvTry ..
  | recvPoll r b c wk =>
    cases hc : w.cells[c]? with
    | none => exact fin w _ (by simp [exec, hc])
    | some x =>
      cases x with
      | full k wk' =>
        cases k with
        | newBroadcast => exact one w _ (.recvBcast r b c wk) (by simp [exec, hc]) (hrecvBcast ..)
        | _ => exact fin w _ (by simp [exec, hc])
      | _ => exact fin w _ (by simp [exec, hc])
  | recvBcast => exact hrecvBcast ..
  | cancel b c =>
    have hx := exec_rel w (.cancel b c)
    generalize hw : (exec w (.cancel b c)).1 = w1 at hx
    generalize hms : (exec w (.cancel b c)).2 = ms at hx
    cases hx with
    | @cancel_msg _ _ m wk _ =>
      obtain ⟨w1, h1⟩ := hrequeue m (exec w (.cancel b c)).1
      obtain ⟨w2, h2⟩ := three b c w1
      exact ⟨w2, .cons (by rw [hms]; exact h1.append h2)⟩
    | cancel_full =>
      obtain ⟨w2, h2⟩ := three b c (exec w (.cancel b c)).1
      exact ⟨w2, .cons (by rw [hms]; exact h2)⟩
    | cancel_none =>
      obtain ⟨w2, h2⟩ := three b c (exec w (.cancel b c)).1
      exact ⟨w2, .cons (by rw [hms]; exact h2)⟩
  | requeue => exact hrequeue ..
  | dropCell => exact hdropCell ..
  | dropMsg => exact fin w _ rfl
  | discard am => refine fin w _ ?_; cases am <;> rfl
  | respond b am r brk => refine fin w _ ?_; cases am <;> rfl
  | newBq => exact fin w _ rfl
  | bcastShutdown => exact fin w _ rfl
  | conn1 i =>
    by_cases h : w.rcv = 0
    · exact fin w _ (by simp [exec, h])
    · exact one w _ (.conn2 i) (by simp [exec, h]) (hconn2 ..)
  | conn2 => exact hconn2 ..
  | join1 o l =>
    by_cases h : w.rcv = 0
    · exact fin w _ (by simp [exec, h])
    · exact one w _ (.join2 o l) (by simp [exec, h]) (hjoin2 ..)
  | join2 => exact hjoin2 ..

theorem runs_total (w : World) (ms : List Micro) : ∃ w', Runs w ms w' := by
  induction ms generalizing w with
  | nil => exact ⟨w, .nil⟩
  | cons m ms ih =>
    obtain ⟨w1, h1⟩ := runs_one w m
    obtain ⟨w2, h2⟩ := ih w1
    exact ⟨w2, h1.append h2⟩

/-- A thread may run to its end from any reachable state. -/
theorem Runs.reachable {cap : Option Nat} {w w' : World} {ms : List Micro} (h : Runs w ms w') :
    ∀ {th : List (List Micro)} {t : Nat}, Reachable cap ⟨w, th⟩ → th[t]? = some ms →
      Reachable cap ⟨w', th.set t []⟩ := by
  induction h with
  | nil =>
    intro th t hr ht
    have : th.set t [] = th := by
      apply List.ext_getElem?
      intro k
      by_cases hk : t = k
      · subst hk; simp [List.getElem?_set, ht]; exact (List.getElem?_eq_some_iff.mp ht).1
      · simp [List.getElem?_set, hk]
    rw [this]; exact hr
  | cons _ ih =>
    rename_i w w' m ms _
    intro th t hr ht
    have hs : Sys.step ⟨w, th⟩ (.exec t) = some ⟨(exec w m).1, th.set t ((exec w m).2 ++ ms)⟩ := by
      simp [Sys.step, ht]
    have := ih (.step hr hs) (t := t) (by simp [List.getElem?_set]; exact (List.getElem?_eq_some_iff.mp ht).1)
    simpa using this

theorem Quiet.does {cap : Option Nat} {w w' : World} {c : Call} (hq : Quiet cap w) (hd : Does w c w') :
    Quiet cap w' := by
  obtain ⟨th, hr, he⟩ := hq
  obtain ⟨w1, ms, hc, hm⟩ := hd
  have hs : Sys.step ⟨w, th⟩ (.call c) = some ⟨w1, th ++ [ms]⟩ := by simp [Sys.step, hc]
  have := hm.reachable (t := th.length) (.step hr hs) (by simp)
  refine ⟨_, this, ?_⟩
  intro x hx
  simp at hx
  rcases hx with h | h
  · exact he x h
  · exact h

theorem Does.det {w w1 w2 : World} {c : Call} (h1 : Does w c w1) (h2 : Does w c w2) : w1 = w2 := by
  obtain ⟨a, ms, hc, hm⟩ := h1
  obtain ⟨b, ns, hd, hn⟩ := h2
  rw [hc] at hd; simp at hd; obtain ⟨rfl, rfl⟩ := hd
  exact hm.det hn

theorem quiet_init (cap : Option Nat) : Quiet cap (init cap).w := ⟨[], .init, by simp⟩

theorem Quiet.tot0 {cap : Option Nat} {w : World} (h : Quiet cap w) :
    ∃ th, Reachable cap ⟨w, th⟩ ∧ ∀ g : Micro → Nat, tot g th = 0 := by
  obtain ⟨th, hr, he⟩ := h
  refine ⟨th, hr, fun g => ?_⟩
  simp only [tot]
  rw [sumBy_eq_zero]
  intro x hx; rw [he x hx]; rfl

end Xtra
