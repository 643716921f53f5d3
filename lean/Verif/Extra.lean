import Verif.Local
import Verif.Join
/-! One more strong address. (`xtra/src/chan/ptr.rs`, `xtra/src/chan.rs`: the code asks only whether the number of strong addresses is 0.)

As long as that number is not 0, a world with one more strong reference makes the same steps. -/

set_option linter.unusedSimpArgs false

namespace Xtra

/-- The same world with one more strong reference. -/
def World.bump (w : World) : World := { w with sc := w.sc + 1 }

theorem items_bump (w : World) (b : Nat) : (w.bump).items b = w.items b := rfl

theorem kill_bump (w : World) (m : Msg) : (w.bump).kill m = (w.kill m).bump := rfl

theorem killAll_bump (ms : List Msg) (w : World) :
    (w.bump).killAll ms = (w.killAll ms).bump := by
  induction ms generalizing w with
  | nil => rfl
  | cons m ms ih => simp only [World.killAll, kill_bump, ih]

theorem closeHandle_bump (w : World) (h : Nat) :
    (w.bump).closeHandle h = (w.closeHandle h).bump := by
  simp only [World.closeHandle, World.bump]
  split <;> rfl

theorem closeHandles_bump (hs : List Nat) (w : World) :
    (w.bump).closeHandles hs = (w.closeHandles hs).bump := by
  induction hs generalizing w with
  | nil => rfl
  | cons h hs ih => simp only [World.closeHandles, closeHandle_bump, ih]

theorem shutTx_bump (w : World) : (w.bump).shutTx = w.shutTx.bump := by
  simp only [World.shutTx]
  have h1 := killAll_bump w.uq { w with lst := w.lst.map LCell.notify, rang := true, uq := [], bqs := [] }
  generalize hw2 : World.killAll { w with lst := w.lst.map LCell.notify, rang := true, uq := [], bqs := [] } w.uq = w2 at h1
  have h1' : World.killAll { (w.bump) with
      lst := (w.bump).lst.map LCell.notify, rang := true, uq := [], bqs := [] } (w.bump).uq = w2.bump := h1
  rw [h1']
  have h2 := closeHandles_bump w2.wOne { w2 with wOne := [] }
  generalize hw3 : World.closeHandles { w2 with wOne := [] } w2.wOne = w3 at h2
  have h2' : World.closeHandles { (w2.bump) with wOne := [] } (w2.bump).wOne = w3.bump := h2
  rw [h2']
  exact closeHandles_bump w3.wAll { w3 with wAll := [] }

theorem sendOne_bump (w : World) (m : Msg) :
    (w.bump).sendOne m = ((w.sendOne m).1.bump, (w.sendOne m).2) := by
  unfold World.sendOne
  rw [show (w.bump).cells = w.cells from rfl, show (w.bump).wRx = w.wRx from rfl]
  obtain ⟨cells, rest, b⟩ := fulfil w.cells w.wRx m
  cases b
  · simp only
    rw [show ({ (w.bump) with cells := cells, wRx := rest } : World) =
      ({ w with cells := cells, wRx := rest } : World).bump from rfl]
    generalize ({ w with cells := cells, wRx := rest } : World) = w1
    rw [show (w1.bump).uniFull = w1.uniFull from rfl]
    split <;> rfl
  · rfl

theorem sendAll_bump (w : World) (m : Msg) :
    (w.bump).sendAll m = ((w.sendAll m).1.bump, (w.sendAll m).2) := by
  simp only [World.sendAll]
  rw [show (w.bump).bcFull = w.bcFull from rfl]
  split <;> rfl

theorem requeue_bump (w : World) (m : Msg) :
    (w.bump).requeue m = (w.requeue m).bump := by
  simp only [World.requeue, World.bump]
  split <;> rfl

theorem decBq_bump (w : World) (b : Nat) :
    (w.bump).decBq b = (w.decBq b).bump := by
  simp only [World.decBq, World.bump]
  split
  · split <;> rfl
  · rfl

theorem incBq_bump (w : World) (b : Nat) :
    (w.bump).incBq b = (w.incBq b).bump := by
  simp only [World.incBq, World.bump]
  split <;> rfl

theorem popUnicast_bump (w : World) :
    (w.bump).popUnicast = w.popUnicast.map fun p => (p.1, p.2.bump) := by
  unfold World.popUnicast
  rw [show (w.bump).uq = w.uq from rfl]
  cases Heap.pop Msg.le w.uq with
  | none => rfl
  | some p =>
    obtain ⟨m, q⟩ := p
    simp only
    rw [show ({ (w.bump) with uq := q } : World) = ({ w with uq := q } : World).bump from rfl]
    generalize ({ w with uq := q } : World) = w1
    rw [show (w1.bump).uniFull = w1.uniFull from rfl]
    split
    · rfl
    · rw [show (w.bump).wOne = w.wOne from rfl, show (w.bump).ws = w.ws from rfl]
      split <;> rfl

theorem popBroadcast_bump (w : World) (b : Nat) :
    (w.bump).popBroadcast b = (w.popBroadcast b).map fun p => (p.1, p.2.bump) := by
  unfold World.popBroadcast
  rw [show (w.bump).bq = w.bq from rfl]
  split
  · rfl
  · rename_i q hq
    cases hp : Heap.pop Msg.le q.items with
    | none => simp [hp]
    | some p =>
      obtain ⟨m, items⟩ := p
      simp only [hp]
      rw [show (World.longest { (w.bump) with bq := w.bq.set b { q with items := items } }) =
        World.longest { w with bq := w.bq.set b { q with items := items } } from rfl]
      generalize (World.longest { w with bq := w.bq.set b { q with items := items } }) = n
      rw [show (World.bcFull { (w.bump) with bq := w.bq.set b { q with items := items }, tail := n }) =
        World.bcFull { w with bq := w.bq.set b { q with items := items }, tail := n } from rfl]
      split
      · rfl
      · rw [show (w.bump).wAll = w.wAll from rfl, show (w.bump).ws = w.ws from rfl]
        split <;> rfl

theorem tryRecv_bump (w : World) (h0 : w.sc ≠ 0) (b : Nat) :
    (w.bump).tryRecv b = ((w.tryRecv b).1.bump, (w.tryRecv b).2) := by
  have h1 : w.bump.sc ≠ 0 := Nat.succ_ne_zero _
  simp only [World.tryRecv, popBroadcast_bump, popUnicast_bump, items_bump, h0, h1, false_and, if_false]
  rw [show (w.bump).uq = w.uq from rfl]
  split
  · cases w.popBroadcast b <;> rfl
  · cases w.popUnicast <;> rfl
  · rfl

theorem bump_cells (w : World) : w.bump.cells = w.cells := rfl
theorem bump_ws (w : World) : w.bump.ws = w.ws := rfl
theorem bump_resp (w : World) : w.bump.resp = w.resp := rfl
theorem bump_lst (w : World) : w.bump.lst = w.lst := rfl
theorem bump_rcv (w : World) : w.bump.rcv = w.rcv := rfl
theorem bump_wRx (w : World) : w.bump.wRx = w.wRx := rfl
theorem bump_bq (w : World) : w.bump.bq = w.bq := rfl
theorem bump_rang (w : World) : w.bump.rang = w.rang := rfl
theorem bump_objs (w : World) : w.bump.objs = w.objs := rfl
theorem bump_sc (w : World) : w.bump.sc = w.sc + 1 := rfl

/-- A step of a call with one more strong reference. -/
theorem exec_bump (w : World) (m : Micro) (h0 : w.sc ≠ 0) (h1 : (exec w m).1.sc ≠ 0) :
    exec w.bump m = ((exec w m).1.bump, (exec w m).2) := by
  have hs : w.bump.sc ≠ 0 := Nat.succ_ne_zero _
  cases m with
  | sendLd1 f md m rc wk => simp only [exec, bump_rcv]; by_cases hr : w.rcv = 0 <;> simp only [hr, if_true, if_false] <;> rfl
  | sendLd2 f md m rc wk => simp only [exec, if_neg h0, if_neg hs]
  | sendCrit f md m rc wk =>
    have hn : (w.bump).noteLate m = (w.noteLate m).bump := rfl
    cases md <;> simp only [exec, hn, sendOne_bump, sendAll_bump]
  | pollWs f md mid h wk => simp only [exec, bump_ws]; cases w.ws[h]? with
    | none => rfl
    | some c => cases c <;> rfl
  | sendFin f md mid wk =>
    cases md with
    | bcast => rfl
    | detached => rfl
    | ret =>
      simp only [exec, bump_resp]
      cases w.resp[mid]? with
      | none => rfl
      | some c => cases c <;> rfl
  | dropWs h => simp only [exec, bump_ws]; cases w.ws[h]? with
    | none => rfl
    | some c => cases c <;> rfl
  | dropTx rc =>
    cases hs : rc.isStrong with
    | true =>
      simp only [exec, hs, if_true] at h1 ⊢
      have h2 : ¬ w.sc = 1 := by omega
      have h3 : ¬ w.bump.sc = 1 := by rw [bump_sc]; omega
      simp only [if_neg h2, if_neg h3]
      simp only [World.bump, Prod.mk.injEq, World.mk.injEq, true_and, and_true]
      omega
    | false => simp [exec, hs]
  | shutRx => rfl
  | notifyShut c => rfl
  | dropRx => rfl
  | shutTx => simp only [exec, shutTx_bump]
  | dropBq b => simp only [exec, decBq_bump]
  | recvTry r b wk =>
    simp only [exec, tryRecv_bump w h0]
    cases (w.tryRecv b).2 <;> rfl
  | recvPoll r b c wk => simp only [exec, bump_cells]; cases w.cells[c]? with
    | none => rfl
    | some d => cases d with
      | full k j => cases k <;> rfl
      | _ => rfl
  | recvBcast r b c wk =>
    simp only [exec, popBroadcast_bump]
    cases w.popBroadcast b <;> rfl
  | cancel b c => simp only [exec, bump_cells]; cases w.cells[c]? with
    | none => rfl
    | some d => cases d with
      | full k j => cases k <;> rfl
      | _ => rfl
  | requeue m => simp only [exec, requeue_bump]
  | dropCell c => simp only [exec, bump_cells]; cases w.cells[c]? with
    | none => rfl
    | some d => cases d with
      | full k j => cases k <;> rfl
      | _ => rfl
  | dropMsg m => rfl
  | discard am => cases am <;> rfl
  | respond b am r brk => cases am <;> rfl
  | newBq o => rfl
  | bcastShutdown => rfl
  | conn1 i => simp only [exec, bump_rcv]; by_cases hr : w.rcv = 0 <;> simp only [hr, if_true, if_false] <;> rfl
  | conn2 i =>
    have : 0 < w.sc := Nat.pos_of_ne_zero h0
    simp only [exec, bump_sc, this, Nat.succ_pos]
    rfl
  | join1 o l => simp only [exec, bump_rcv]; by_cases hr : w.rcv = 0 <;> simp only [hr, if_true, if_false] <;> rfl
  | join2 o l => simp only [exec, if_neg h0, if_neg hs]; rfl

theorem addTx_bump (w : World) (rc : Rc) : w.bump.addTx rc = (w.addTx rc).bump := by
  cases rc <;> rfl

/-- A call with one more strong reference. -/
theorem call_bump (w : World) (c : Call) (h0 : w.sc ≠ 0) : call w.bump c = (call w c).map fun p => (p.1.bump, p.2) := by
  have hs : w.bump.sc ≠ 0 := Nat.succ_ne_zero _
  cases c <;> simp only [call, bump_objs, addTx_bump, if_neg h0, if_neg hs, bump_rang, bump_lst, bump_resp]
  all_goals repeat' split
  all_goals first
    | rfl
    | (simp_all; done)
    | (rename_i hb; exact (if_neg hb).trans rfl)
    | (rename_i hb; exact (if_pos hb).trans rfl)
    | (rename_i b hb
       have h := incBq_bump { w with rcv := w.rcv + 1 } b
       exact congrArg (fun v => some (World.addObj v (.recv b .new), ([] : List Micro))) h)

/-! ## Two runs -/

theorem sc_zero_step {cap : Option Nat} {s s' : Sys} (hr : Reachable cap s) {a : Act} (hs : s.step a = some s') (h0 : s.w.sc = 0) : s'.w.sc = 0 := by
  cases a with
  | call c =>
    simp only [Sys.step] at hs
    split at hs
    · rename_i w' ms hc
      simp only [Option.some.injEq] at hs
      subst hs
      exact sc_zero_call hr (call_rel hc) h0
    · cases hs
  | exec t =>
    simp only [Sys.step] at hs
    split at hs
    · rename_i m rest ht
      simp only [Option.some.injEq] at hs
      subst hs
      exact execR_sc_zero (exec_rel _ _) h0
    · cases hs

/-- The same system with one more strong reference. -/
def Sys.bump (s : Sys) : Sys := { s with w := s.w.bump }

theorem step_bump {s s' : Sys} {a : Act} (h0 : s.w.sc ≠ 0) (hs : s.step a = some s') (h1 : s'.w.sc ≠ 0) : s.bump.step a = some s'.bump := by
  cases a with
  | call c =>
    simp only [Sys.step] at hs
    split at hs
    · rename_i w' ms hc
      simp only [Option.some.injEq] at hs
      subst hs
      have h2 : call s.bump.w c = some (w'.bump, ms) := by
        show call s.w.bump c = _
        rw [call_bump _ _ h0, hc]; rfl
      simp only [Sys.step, h2]; rfl
    · cases hs
  | exec t =>
    simp only [Sys.step] at hs
    split at hs
    · rename_i m rest ht
      simp only [Option.some.injEq] at hs
      subst hs
      have h2 : exec s.bump.w m = ((exec s.w m).1.bump, (exec s.w m).2) := exec_bump _ _ h0 h1
      have ht' : s.bump.th[t]? = some (m :: rest) := ht
      simp only [Sys.step, ht', h2]; rfl
    · cases hs

theorem execR_sc_eq {w w' : World} {m : Micro} {ms : List Micro} (h : ExecR w m w' ms) (hm : ∀ rc, m = .dropTx rc → rc.isStrong = false) :
    w'.sc = w.sc := by
  cases h
  case recv_all hp _ _ => simp [World.popBroadcast_sc hp]
  case recv_one hp _ _ => simp [World.popUnicast_sc hp]
  case recvBcast_some hp => simp [World.popBroadcast_sc hp]
  case dropTx_last h _ => simp [hm _ rfl] at h
  case dropTx_more h _ => simp [hm _ rfl] at h
  all_goals simp

theorem exec_sc_one {w : World} {m : Micro} (h : (exec w.bump m).1.sc ≠ 1) (h0 : w.sc ≠ 0) : (exec w m).1.sc ≠ 0 := by
  by_cases hm : ∀ rc, m = .dropTx rc → rc.isStrong = false
  · rw [execR_sc_eq (exec_rel w m) hm]; exact h0
  · simp only [Classical.not_forall, Bool.not_eq_false] at hm
    obtain ⟨rc, rfl, hs⟩ := hm
    simp only [exec, hs, if_true, bump_sc] at h ⊢
    omega

theorem step_bump_conv {s t : Sys} {a : Act} (h0 : s.w.sc ≠ 0) (hs : s.bump.step a = some t) (h1 : t.w.sc ≠ 1) :
    ∃ s', s.step a = some s' ∧ t = s'.bump := by
  cases a with
  | call c =>
    simp only [Sys.step] at hs
    split at hs
    · rename_i w' ms hc
      simp only [Option.some.injEq] at hs
      subst hs
      have hc' : call s.w.bump c = some (w', ms) := hc
      rw [call_bump _ _ h0] at hc'
      cases h2 : call s.w c with
      | none => rw [h2] at hc'; simp at hc'
      | some p =>
        rw [h2] at hc'
        simp only [Option.map_some, Option.some.injEq, Prod.mk.injEq] at hc'
        obtain ⟨rfl, rfl⟩ := hc'
        exact ⟨⟨p.1, s.th ++ [p.2]⟩, by simp only [Sys.step, h2], rfl⟩
    · cases hs
  | exec t =>
    simp only [Sys.step] at hs
    split at hs
    · rename_i m rest ht
      simp only [Option.some.injEq] at hs
      subst hs
      have ht' : s.th[t]? = some (m :: rest) := ht
      have h2 : exec s.bump.w m = ((exec s.w m).1.bump, (exec s.w m).2) := exec_bump _ _ h0 (exec_sc_one h1 h0)
      refine ⟨⟨(exec s.w m).1, s.th.set t ((exec s.w m).2 ++ rest)⟩, by simp only [Sys.step, ht'], ?_⟩
      rw [h2]; rfl
    · cases hs

/-- Thread `k` does nothing more. -/
def Sys.cut (s : Sys) (k : Nat) : Sys := { s with th := s.th.set k [] }

theorem step_cut {s s' : Sys} {k : Nat} {a : Act} (hk : k < s.th.length) (ha : a ≠ .exec k) (hs : s.step a = some s') :
    (s.cut k).step a = some (s'.cut k) ∧ s'.th[k]? = s.th[k]? := by
  cases a with
  | call c =>
    simp only [Sys.step] at hs
    split at hs
    · rename_i w' ms hc
      simp only [Option.some.injEq] at hs
      subst hs
      have hc' : call (s.cut k).w c = some (w', ms) := hc
      simp only [Sys.step, hc', hc, Sys.cut]
      exact ⟨by rw [List.set_append_left _ _ hk], List.getElem?_append_left hk⟩
    · cases hs
  | exec t =>
    have hne : t ≠ k := fun e => ha (by rw [e])
    simp only [Sys.step] at hs
    split at hs
    · rename_i m rest ht
      simp only [Option.some.injEq] at hs
      subst hs
      have ht' : (s.cut k).th[t]? = some (m :: rest) := by
        simp only [Sys.cut]; rw [List.getElem?_set_ne (Ne.symm hne)]; exact ht
      simp only [Sys.step, ht']
      refine ⟨?_, List.getElem?_set_ne hne⟩
      simp only [Sys.cut]
      rw [List.set_comm _ _ hne]
    · cases hs

theorem step_cut_conv {s t : Sys} {k : Nat} {a : Act} (hk : k < s.th.length) (ha : a ≠ .exec k) (hs : (s.cut k).step a = some t) :
    ∃ s', s.step a = some s' ∧ t = s'.cut k ∧ s'.th[k]? = s.th[k]? := by
  have key : ∃ s', s.step a = some s' := by
    cases a with
    | call c =>
      simp only [Sys.step] at hs ⊢
      split at hs
      · rename_i w' ms hc
        have hc' : call s.w c = some (w', ms) := hc
        rw [hc']; exact ⟨_, rfl⟩
      · cases hs
    | exec t =>
      have hne : t ≠ k := fun e => ha (by rw [e])
      simp only [Sys.step] at hs ⊢
      split at hs
      · rename_i m rest ht
        simp only [Sys.cut] at ht
        rw [List.getElem?_set_ne (Ne.symm hne)] at ht
        rw [ht]; exact ⟨_, rfl⟩
      · cases hs
  obtain ⟨s', h1⟩ := key
  obtain ⟨h2, h3⟩ := step_cut hk ha h1
  rw [h2] at hs
  exact ⟨s', h1, (Option.some.inj hs).symm, h3⟩

/-- In the first system the drop of an address (slot `f`, thread `k`) has begun; in the second nobody drops it. -/
def Gave (f k : Nat) (rc : Rc) (s1 s2 : Sys) : Prop :=
  (s1.th[k]? = some [.dropTx rc] ∧ SimBut f k (s1.cut k) s2) ∨
  (∃ s', SimBut f k s1 s' ∧ s2 = if rc.isStrong then s'.bump else s')

theorem simBut_sc {f k : Nat} {s1 s2 : Sys} (h : SimBut f k s1 s2) : s1.w.sc = s2.w.sc := by
  obtain ⟨⟨x, hx, -⟩, -⟩ := h
  rw [hx]; rfl

theorem simBut_idle {f k : Nat} {s1 s2 : Sys} (h : SimBut f k s1 s2) : s1.th[k]? = some [] := by
  obtain ⟨-, a, b, -, h1, h2⟩ := h
  rw [h2, ← h1]; simp

theorem gave_len {f k : Nat} {rc : Rc} {s1 s2 : Sys} (h : Gave f k rc s1 s2) : k < s1.th.length := by
  rcases h with ⟨h, -⟩ | ⟨s', h, -⟩
  · exact (List.getElem?_eq_some_iff.mp h).1
  · exact (List.getElem?_eq_some_iff.mp (simBut_idle h)).1

/-- The step of the drop. -/
theorem gave_drop {f k : Nat} {rc : Rc} {s1 s2 s1' : Sys} (h : Gave f k rc s1 s2) (hs : s1.step (.exec k) = some s1')
    (hsc : rc.isStrong = true → s1'.w.sc ≠ 0) : Gave f k rc s1' s2 := by
  rcases h with ⟨ht, h⟩ | ⟨s', h, -⟩
  · right
    simp only [Sys.step, ht, Option.some.injEq, List.append_nil] at hs
    cases hrc : rc.isStrong with
    | false =>
      refine ⟨s2, ?_, by simp⟩
      subst hs
      simp only [exec, hrc]
      exact h
    | true =>
      have h1 := simBut_sc h
      have h2 : (s1.cut k).w.sc = s1.w.sc := rfl
      subst hs
      have h3 := hsc hrc
      simp only [exec, hrc, if_true] at h3 ⊢
      have h4 : ¬ s1.w.sc = 1 := by omega
      refine ⟨{ s2 with w := { s2.w with sc := s2.w.sc - 1 } }, ?_, ?_⟩
      · simp only [if_neg h4]
        obtain ⟨⟨x, hx, hl, he, hg⟩, hth⟩ := h
        refine ⟨⟨x, ?_, hl, he, hg⟩, hth⟩
        have h5 : s1.w = s2.w.withObjs x := hx
        rw [h5]; rfl
      · have h5 : s2.w.sc - 1 + 1 = s2.w.sc := by omega
        simp only [Sys.bump, World.bump, h5]
  · simp [Sys.step, simBut_idle h] at hs

/-- Any other step. -/
theorem gave_step {cap : Option Nat} {f k : Nat} {rc : Rc} {s1 s2 s1' : Sys} (hr : Reachable cap s1) (h : Gave f k rc s1 s2) {a : Act} (ha : a ≠ .exec k)
    (hs : s1.step a = some s1') (hsc : rc.isStrong = true → s1'.w.sc ≠ 0) : ∃ s2', s2.step (a.skip k) = some s2' ∧ Gave f k rc s1' s2' := by
  have hk := gave_len h
  rcases h with ⟨ht, h⟩ | ⟨s', h, rfl⟩
  · obtain ⟨h1, h2⟩ := step_cut hk ha hs
    obtain ⟨s2', h3, h4⟩ := step_simBut h h1
    exact ⟨s2', h3, .inl ⟨by rw [h2, ht], h4⟩⟩
  · obtain ⟨s2', h3, h4⟩ := step_simBut h hs
    cases hrc : rc.isStrong with
    | false => exact ⟨s2', by simpa using h3, .inr ⟨s2', h4, by simp [hrc]⟩⟩
    | true =>
      refine ⟨s2'.bump, ?_, .inr ⟨s2', h4, by simp [hrc]⟩⟩
      simp only [if_true]
      have h5 := hsc hrc
      refine step_bump ?_ h3 (by rw [← simBut_sc h4]; exact h5)
      rw [← simBut_sc h]
      intro h0
      exact h5 (sc_zero_step hr hs h0)

/-- Another step of the second system, conversely. -/
theorem gave_step_conv {f k : Nat} {rc : Rc} {s1 s2 s2' : Sys} (h : Gave f k rc s1 s2) {a : Act} (ha : a.avoids f)
    (hs : s2.step a = some s2') (hsc : rc.isStrong = true → s1.th[k]? = some [] → 1 < s2.w.sc ∧ 1 < s2'.w.sc) :
    ∃ s1', s1.step (a.shift k) = some s1' ∧ Gave f k rc s1' s2' ∧ s1'.th[k]? = s1.th[k]? := by
  have hk := gave_len h
  have hne : a.shift k ≠ .exec k := by
    cases a with
    | call c => simp [Act.shift]
    | exec t => simp only [Act.shift, ne_eq, Act.exec.injEq]; split <;> omega
  rcases h with ⟨ht, h⟩ | ⟨s', h, rfl⟩
  · obtain ⟨t, h1, h2⟩ := step_simBut_conv h ha hs
    obtain ⟨s1', h3, rfl, h4⟩ := step_cut_conv hk hne h1
    exact ⟨s1', h3, .inl ⟨by rw [h4, ht], h2⟩, h4⟩
  · have hid := simBut_idle h
    cases hrc : rc.isStrong with
    | false =>
      simp only [hrc] at hs
      obtain ⟨s1', h1, h2⟩ := step_simBut_conv h ha hs
      exact ⟨s1', h1, .inr ⟨s2', h2, by simp [hrc]⟩, by rw [simBut_idle h2, hid]⟩
    | true =>
      obtain ⟨h5, h6⟩ := hsc hrc hid
      simp only [hrc, if_true] at hs h5
      have h7 : s'.bump.w.sc = s'.w.sc + 1 := rfl
      obtain ⟨s3, h3, rfl⟩ := step_bump_conv (by omega) hs (by omega)
      obtain ⟨s1', h1, h2⟩ := step_simBut_conv h ha h3
      exact ⟨s1', h1, .inr ⟨s3, h2, by simp [hrc]⟩, by rw [simBut_idle h2, hid]⟩

/-- The drop begins. -/
theorem gave_begin {f : Nat} {rc : Rc} {s s1 : Sys} (ho : s.w.objs[f]? = some (.addr rc)) (hs : s.step (.call (.dropAddr f)) = some s1) :
    Gave f s.th.length rc s1 s := by
  have hl := (List.getElem?_eq_some_iff.mp ho).1
  simp only [Sys.step, call, ho, Option.some.injEq] at hs
  subst hs
  refine .inl ⟨by simp, ⟨s.w.objs.set f .gone, rfl, by simp, fun i hi => ?_, .inl ?_⟩, s.th, [], by simp, rfl, by simp [Sys.cut]⟩
  · rw [List.getElem?_set_ne (Ne.symm hi)]
  · rw [List.getElem?_set_self hl]

end Xtra
