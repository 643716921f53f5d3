import Verif.PropsLen
/-! # C09: order of messages of equal priority -/

set_option linter.unusedSimpArgs false

namespace Xtra

/-! ### Vocabulary -/

/-- The message handed over through a waiting receiver's cell and not yet collected. -/
def RxCell.handed? : RxCell → Option Msg
  | .full (.newMessage m) _ => some m
  | _ => none

/-- The unicast messages accepted and not yet yielded: those handed to a waiting receive future, then the queue. -/
def World.inbox (w : World) : List Msg := w.cells.filterMap RxCell.handed? ++ w.uq

/-- The object is a receive future. -/
def Obj.isRecvFut : Obj → Bool
  | .recv _ _ => true
  | _ => false

/-- The step belongs to a poll of a receive future. -/
def Micro.isRecvPoll : Micro → Bool
  | .recvTry _ _ _ => true
  | .recvPoll _ _ _ _ => true
  | .recvBcast _ _ _ _ => true
  | _ => false

/-- Receive futures in existence, including the ones being polled. -/
def Sys.recvFuts (s : Sys) : Nat := s.w.objs.countP Obj.isRecvFut + s.th.flatten.countP Micro.isRecvPoll

/-- At most three messages are queued, all of priority `p`, and there is at most one receive future (one actor). -/
def Sys.calm (p : Prio) (s : Sys) : Prop :=
  s.w.uq.length ≤ 3 ∧ (∀ m ∈ s.w.uq, m.prio = p) ∧ s.recvFuts ≤ 1

/-- `s0` runs to `s` by any interleaving of any calls by any number of threads, except that no receive future is dropped,
a mailbox exists, and every state is calm. -/
inductive CalmRun (p : Prio) (s0 : Sys) : Sys → Prop where
  | refl : s0.calm p → CalmRun p s0 s0
  | step {s s' : Sys} {a : Act} : CalmRun p s0 s → s.step a = some s' → (∀ r, a ≠ .call (.dropRecv r)) → s'.w.rcv ≠ 0 →
      s'.calm p → CalmRun p s0 s'

/-- The unicast message yielded in event `e`. -/
def Ev.uniYield : Ev → Option Msg
  | .recv _ _ (.one m) => some m
  | _ => none

/-- Unicast messages yielded so far, oldest first. -/
def World.yields (w : World) : List Msg := (w.log.filterMap Ev.uniYield).reverse

/-! ### The heap on at most three equal elements -/

theorem push_equal {q : List Msg} {m : Msg} {p : Prio} (h : ∀ x ∈ q, x.prio = p) (hm : m.prio = p) :
    Heap.push Msg.le q m = q ++ [m] := by
  unfold Heap.push
  simp only [Heap.siftUp]
  split
  · rfl
  · split
    · rename_i x y hx hy
      have e1 : x = m := by simpa using hx.symm
      have e2 : y.prio = p := by
        rw [List.getElem?_append_left (by omega)] at hy
        exact h y (List.mem_of_getElem? hy)
      subst e1
      have : Msg.le x y = true := by simp [Msg.le, hm, e2, Prio.ble_refl]
      simp [this]
    · rfl

theorem pop_small {q q' : List Msg} {m : Msg} {p : Prio} (h : ∀ x ∈ q, x.prio = p) (hl : q.length ≤ 3)
    (hp : Heap.pop Msg.le q = some (m, q')) : q = m :: q' := by
  match q, hl with
  | [], _ => simp [Heap.pop] at hp
  | [a], _ => simp [Heap.pop] at hp; simp [hp]
  | [a, b], _ =>
    simp [Heap.pop, Heap.siftDownToBottom, Heap.descend, Heap.siftUp] at hp
    obtain ⟨rfl, rfl⟩ := hp; rfl
  | [a, b, c], _ =>
    have h1 : Msg.le c b = true := by simp [Msg.le, h c (by simp), h b (by simp), Prio.ble_refl]
    simp [Heap.pop, Heap.siftDownToBottom, Heap.descend, Heap.siftUp, Heap.swap, h1] at hp
    obtain ⟨rfl, rfl⟩ := hp; rfl

/-! ### Cells -/

theorem filterMap_set_eq {α β : Type} {f : α → Option β} {l : List α} {c : Nat} {x y : α} (h : l[c]? = some y)
    (he : f x = f y) : (l.set c x).filterMap f = l.filterMap f := by
  induction l generalizing c with
  | nil => simp at h
  | cons a l ih =>
    cases c with
    | zero => simp at h; subst h; simp [List.filterMap_cons, he]
    | succ c => simp at h; simp [List.filterMap_cons, ih h]

theorem filterMap_none {α β : Type} {f : α → Option β} {l : List α} (h : ∀ (k : Nat) x, l[k]? = some x → f x = none) :
    l.filterMap f = [] := by
  rw [List.filterMap_eq_nil_iff]
  intro a ha
  obtain ⟨k, hk⟩ := List.getElem?_of_mem ha
  exact h k a hk

theorem filterMap_only {α β : Type} {f : α → Option β} {l : List α} {c : Nat} {y : α} (h : l[c]? = some y)
    (hn : ∀ (k : Nat) x, l[k]? = some x → k ≠ c → f x = none) : l.filterMap f = (f y).toList := by
  induction l generalizing c with
  | nil => simp at h
  | cons a l ih =>
    cases c with
    | zero =>
      simp at h; subst h
      have : l.filterMap f = [] := filterMap_none (fun k x hk => hn (k + 1) x (by simpa using hk) (by simp))
      simp [List.filterMap_cons, this]; split <;> simp_all
    | succ c =>
      have h1 := hn 0 a (by simp) (by simp)
      simp at h
      simp [List.filterMap_cons, h1]
      exact ih h (fun k x hk hne => hn (k + 1) x (by simpa using hk) (by omega))

theorem notifyCell_handed (cells : List RxCell) (c : Nat) {k : Ctrl} (hk : ∀ m, k ≠ .newMessage m) :
    (notifyCell cells c k).filterMap RxCell.handed? = cells.filterMap RxCell.handed? := by
  unfold notifyCell
  split
  · rename_i wk h
    refine filterMap_set_eq h ?_
    cases k with
    | newMessage m => exact absurd rfl (hk m)
    | _ => rfl
  · rfl

theorem notifyAll_handed (q : List Nat) : ∀ (cells : List RxCell),
    (q.foldl (fun cs c => notifyCell cs c .newBroadcast) cells).filterMap RxCell.handed? = cells.filterMap RxCell.handed? := by
  induction q with
  | nil => intro _; rfl
  | cons c q ih => intro cells; simp only [List.foldl_cons]; rw [ih, notifyCell_handed _ _ (by simp)]

theorem sendBroadcast_handed (w : World) (m : Msg) :
    (w.sendBroadcast m).cells.filterMap RxCell.handed? = w.cells.filterMap RxCell.handed? := notifyAll_handed _ _

theorem popBroadcast_handed {w w' : World} {b : Nat} {m : Msg} (r : RegWs w.ws w.wOne w.wAll)
    (hp : w.popBroadcast b = some (m, w')) : w'.cells.filterMap RxCell.handed? = w.cells.filterMap RxCell.handed? ∧
      w'.yields = w.yields := by
  have hc : ∀ q, (w.afterPop b q).cells = w.cells := fun q => by unfold World.afterPop; split <;> rfl
  have hl : ∀ q, (w.afterPop b q).log = w.log := fun q => by unfold World.afterPop; split <;> rfl
  obtain ⟨q, -, ⟨-, rfl⟩ | ⟨-, hg, rfl⟩ | ⟨-, h', wk, m', q', t, rfl⟩⟩ := popBroadcast_cases r.all hp
  · simp [hc, hl, World.yields]
  · simp [hc, hl, World.yields]
  · refine ⟨(sendBroadcast_handed _ _).trans (by simp [hc]), ?_⟩
    simp [World.yields, World.sendBroadcast, hl, List.filterMap_cons, Ev.uniYield]

theorem popBroadcast_usedCell {w w' : World} {b c : Nat} {m : Msg} (r : RegWs w.ws w.wOne w.wAll)
    (hp : w.popBroadcast b = some (m, w')) (h : w.cells[c]? = some .used) : w'.cells[c]? = some .used := by
  have hc : ∀ q, (w.afterPop b q).cells = w.cells := fun q => by unfold World.afterPop; split <;> rfl
  obtain ⟨q, -, ⟨-, rfl⟩ | ⟨-, hg, rfl⟩ | ⟨-, h', wk, m', q', t, rfl⟩⟩ := popBroadcast_cases r.all hp
  · rw [hc]; exact h
  · simp only [hc]; exact h
  · rw [sendBroadcast_used]; simp only [hc]; exact h

/-! ### One receive future -/

def wRF (o : Obj) : Nat := if o.isRecvFut then 1 else 0
def wRM (m : Micro) : Nat := if m.isRecvPoll then 1 else 0
/-- Steps of the drop of a receive future. -/
def mCan : Micro → Nat
  | .cancel _ _ => 1
  | .requeue _ => 1
  | .dropCell _ => 1
  | _ => 0
def mTry : Micro → Nat
  | .recvTry _ _ _ => 1
  | _ => 0

theorem recvFuts_eq (s : Sys) : s.recvFuts = sumBy wRF s.w.objs + tot wRM s.th := by
  unfold Sys.recvFuts
  rw [tot_countP (f := wRM) (fun _ => rfl), sumBy_countP (f := wRF) (fun _ => rfl)]

theorem one_live {cap : Option Nat} {s : Sys} (h : Reachable cap s) (hc : tot mCan s.th = 0) (hr : s.recvFuts ≤ 1) {k k' : Nat}
    (h1 : cellLive s.w.cells k = true) (h2 : cellLive s.w.cells k' = true) : k = k' := by
  apply Classical.byContradiction
  intro hne
  have ho := own_reachable h
  have a1 := ho.cell k
  have a2 := ho.cell k'
  simp only [cellL, h1, h2, if_true] at a1 a2
  rw [recvFuts_eq] at hr
  have b1 : sumBy (fun x => oCell k x + oCell k' x) s.w.objs ≤ sumBy wRF s.w.objs := by
    apply sumBy_le; intro o
    cases o with
    | recv b st => cases st <;> simp [oCell, rCell, wRF, Obj.isRecvFut, is1] <;> grind
    | _ => simp [oCell, wRF]
  have b2 : tot (fun x => mCell k x + mCell k' x) s.th ≤ tot (fun x => wRM x + mCan x) s.th := by
    apply tot_le; intro m
    cases m <;> simp [mCell, wRM, mCan, Micro.isRecvPoll, is1] <;> grind
  rw [sumBy_add] at b1
  rw [tot_add, tot_add] at b2
  omega

theorem no_live {cap : Option Nat} {s : Sys} (h : Reachable cap s) (hc : tot mCan s.th = 0) (hr : s.recvFuts ≤ 1)
    (ht : 0 < tot mTry s.th) (k : Nat) : cellLive s.w.cells k = false := by
  apply Classical.byContradiction
  intro h1
  simp at h1
  have ho := own_reachable h
  have a1 := ho.cell k
  simp only [cellL, h1, if_true] at a1
  rw [recvFuts_eq] at hr
  have b1 : sumBy (oCell k) s.w.objs ≤ sumBy wRF s.w.objs := by
    apply sumBy_le; intro o
    cases o with
    | recv b st => cases st <;> simp [oCell, rCell, wRF, Obj.isRecvFut, is1] <;> grind
    | _ => simp [oCell, wRF]
  have b2 : tot (fun x => mCell k x + mTry x) s.th ≤ tot (fun x => wRM x + mCan x) s.th := by
    apply tot_le; intro m
    cases m <;> simp [mCell, wRM, mCan, mTry, Micro.isRecvPoll, is1] <;> grind
  rw [tot_add, tot_add] at b2
  omega

theorem execR_mCan {w w' : World} {m : Micro} {ms : List Micro} (h : ExecR w m w' ms) (h0 : mCan m = 0) :
    sumBy mCan ms = 0 := by
  cases h <;> simp [mCan] at h0 ⊢
  case shutRx => rw [sumBy_eq_zero]; simp [mCan]

theorem callR_mCan {w w' : World} {c : Call} {ms : List Micro} (h : CallR w c w' ms) (h0 : ∀ r, c ≠ .dropRecv r) :
    sumBy mCan ms = 0 := by
  cases h <;> simp [mCan] at h0 ⊢

theorem callR_uni {w w' : World} {c : Call} {ms : List Micro} (h : CallR w c w' ms) : w'.yields = w.yields := by
  unfold World.yields
  cases h <;> simp [World.setObj, World.ev, World.addObj, World.addTx, World.incBq, List.filterMap_cons, Ev.uniYield] <;>
    (try split) <;> simp [List.filterMap_cons, Ev.uniYield]

theorem lateLog_yields (w : World) (m : Msg) : (w.lateLog m).filterMap Ev.uniYield = w.log.filterMap Ev.uniYield := by
  unfold World.lateLog; split <;> simp [List.filterMap_cons, Ev.uniYield]

theorem exec_fifo {cap : Option Nat} {p : Prio} {s : Sys} {t : Nat} {mc : Micro} {rest : List Micro} {w' : World} {ms : List Micro}
    (h : Reachable cap s) (hx : ExecR s.w mc w' ms) (ht : s.th[t]? = some (mc :: rest)) (hc : tot mCan s.th = 0) (hr : w'.rcv ≠ 0)
    (h1 : s.calm p) (h2 : ∀ m ∈ w'.uq, m.prio = p) :
    ∃ acc ys, s.w.inbox ++ acc = ys ++ w'.inbox ∧ w'.yields = s.w.yields ++ ys := by
  have hreg := regWs_reachable h
  have hui := uInv_reachable h
  have hwf := wf_reachable h ht
  have hone := @one_live cap s h hc h1.2.2
  have hno := @no_live cap s h hc h1.2.2
  have hcan : mCan mc = 0 := by have := tot_head mCan ht; omega
  have htry := tot_head mTry ht
  have same : w'.cells.filterMap RxCell.handed? = s.w.cells.filterMap RxCell.handed? → w'.uq = s.w.uq → w'.yields = s.w.yields →
      ∃ acc ys, s.w.inbox ++ acc = ys ++ w'.inbox ∧ w'.yields = s.w.yields ++ ys :=
    fun a b c => ⟨[], [], by simp [World.inbox, a, b], by simp [c]⟩
  have dead : ∀ {k : Nat} {x : RxCell}, s.w.cells[k]? = some x → cellLive s.w.cells k = false → x.handed? = none := by
    intro k x hk hl
    unfold cellLive at hl; rw [hk] at hl
    cases x <;> simp at hl; rfl
  have livE : ∀ {k : Nat} {wk : Option Nat}, s.w.cells[k]? = some (.empty wk) → cellLive s.w.cells k = true := by
    intro k wk hk; unfold cellLive; rw [hk]
  have livF : ∀ {k : Nat} {x : Ctrl} {wk : Option Nat}, s.w.cells[k]? = some (.full x wk) → cellLive s.w.cells k = true := by
    intro k x wk hk; unfold cellLive; rw [hk]
  have others : ∀ {c : Nat}, cellLive s.w.cells c = true → ∀ (k : Nat) (x : RxCell), s.w.cells[k]? = some x → k ≠ c →
      x.handed? = none := by
    intro c hl k x hk hne
    apply dead hk
    cases hlk : cellLive s.w.cells k with
    | false => rfl
    | true => exact absurd (hone hlk hl) hne
  cases hx
  case recv_all =>
    rename_i hp _ _
    have := popBroadcast_handed hreg hp
    refine same (by simpa using this.1) (by simp [World.popBroadcast_uq hp]) ?_
    rw [← this.2]; simp [World.yields, List.filterMap_cons, Ev.uniYield]
  case recvBcast_some =>
    rename_i hp
    have := popBroadcast_handed hreg hp
    have hu := hwf.2
    refine same ?_ (by simp [World.popBroadcast_uq hp]) ?_
    · rw [← this.1]
      simp
      exact filterMap_set_eq (popBroadcast_usedCell hreg hp hu) rfl
    · rw [← this.2]; simp [World.yields, List.filterMap_cons, Ev.uniYield]
  case recv_one =>
    rename_i r b wk m w1 hp hh hle
    have hn : s.w.cells.filterMap RxCell.handed? = [] :=
      filterMap_none (fun k x hk => dead hk (hno (by simp [mTry] at htry; omega) k))
    obtain ⟨q, hq, hcs⟩ := popUnicast_cases hreg.one hp
    have hqq := pop_small h1.2.1 h1.1 hq
    have hl : (w1.yieldMsg r b (.one m)).yields = s.w.yields ++ [m] := by
      simp [World.yields, World.popUnicast_log hp, List.filterMap_cons, Ev.uniYield]
    have hcl : (w1.yieldMsg r b (.one m)).cells = s.w.cells := by
      simp; obtain ⟨-, rfl⟩ | ⟨-, -, rfl⟩ | ⟨-, h, wk, m1, q', t, rfl⟩ := hcs <;> rfl
    have huq : (w1.yieldMsg r b (.one m)).uq = w1.uq := by simp
    have hacc : ∃ acc, q ++ acc = w1.uq := by
      obtain ⟨-, rfl⟩ | ⟨-, -, rfl⟩ | ⟨-, h, wk, m1, q', t, rfl⟩ := hcs
      · exact ⟨[], by simp⟩
      · exact ⟨[], by simp⟩
      · refine ⟨[m1], (push_equal (p := p) (fun x hx => h1.2.1 x (by rw [hqq]; simp [hx])) ?_).symm⟩
        apply h2; rw [huq]; exact (Heap.push_perm Msg.le q m1).mem_iff.mpr (by simp)
    obtain ⟨acc, hacc⟩ := hacc
    exact ⟨acc, [m], by simp only [World.inbox, hcl, hn, huq, ← hacc, hqq]; simp, hl⟩
  case critOne_hand =>
    rename_i m rc wk pre c rst wk' _ hw hne hce
    have hn := filterMap_only hce (others (livE hce))
    have huq : s.w.uq = [] := by
      apply Classical.byContradiction
      intro hu
      have := hui.idle hu; rw [hw] at this; simp at this
    have hlc := (List.getElem?_eq_some_iff.mp hce).1
    have hn' : (s.w.cells.set c (RxCell.full (.newMessage m) wk')).filterMap RxCell.handed? = [m] :=
      filterMap_only (c := c) (y := RxCell.full (.newMessage m) wk') (by simp [hlc]) (fun k x hk hne => by
        rw [List.getElem?_set_ne (Ne.symm hne)] at hk; exact others (livE hce) k x hk hne)
    refine ⟨[m], [], ?_, ?_⟩
    · simp only [World.inbox, hn, hn', huq]; simp [RxCell.handed?]
    · simp [World.yields, lateLog_yields]
  case critOne_queue =>
    rename_i f md m rc wk _ _ _
    have hm : m.prio = p := h2 m ((Heap.push_perm Msg.le s.w.uq m).mem_iff.mpr (by simp))
    refine ⟨[m], [], ?_, ?_⟩
    · simp [World.inbox, push_equal h1.2.1 hm]
    · simp [World.yields, lateLog_yields]
  case recvPoll_one =>
    rename_i r b c wk wk' m hce
    have hn := filterMap_only hce (others (livF hce))
    have hlc := (List.getElem?_eq_some_iff.mp hce).1
    have hn' : (s.w.cells.set c .gone).filterMap RxCell.handed? = [] := by
      apply filterMap_none
      intro k x hk
      by_cases hkc : k = c
      · subst hkc; simp [hlc] at hk; subst hk; rfl
      · rw [List.getElem?_set_ne (Ne.symm hkc)] at hk; exact others (livF hce) k x hk hkc
    refine ⟨[], [m], ?_, ?_⟩
    · simp [World.inbox, hn, hn', RxCell.handed?]
    · simp [World.yields, List.filterMap_cons, Ev.uniYield]
  case shutTx => exact absurd (shutTx_pending h (by have := tot_head mShutTx ht; simp [mShutTx] at this; omega)) (by simpa using hr)
  case critAll_sent =>
    exact same (sendBroadcast_handed _ _) (by simp) (by simp [World.yields, World.sendBroadcast, List.filterMap_cons, Ev.uniYield, lateLog_yields])
  case bcastShutdown =>
    exact same (sendBroadcast_handed _ _) (by simp) (by simp [World.yields, World.sendBroadcast, List.filterMap_cons, Ev.uniYield])
  case notifyShut => exact same (notifyCell_handed _ _ (by simp)) rfl rfl
  case recv_wait => exact same (by simp [RxCell.handed?]) rfl rfl
  case recvPoll_empty => rename_i hce; exact same (filterMap_set_eq hce rfl) rfl (by simp [World.yields, List.filterMap_cons, Ev.uniYield])
  case recvPoll_shutdown => rename_i hce; exact same (filterMap_set_eq hce rfl) rfl (by simp [World.yields, List.filterMap_cons, Ev.uniYield])
  case recvPoll_bcast => rename_i hce; exact same (filterMap_set_eq hce rfl) rfl (by simp [World.yields, List.filterMap_cons, Ev.uniYield])
  case recvBcast_none => exact same (filterMap_set_eq hwf.2 rfl) rfl rfl
  all_goals first
    | (simp [mCan] at hcan; done)
    | (refine same (by simp) (by simp) ?_; simp [World.yields, List.filterMap_cons, Ev.uniYield, lateLog_yields]; done)
    | skip

/-! ### The property -/

theorem calmRun_reachable {cap : Option Nat} {p : Prio} {s0 s : Sys} (h0 : Reachable cap s0) (hr : CalmRun p s0 s) : Reachable cap s := by
  induction hr with
  | refl => exact h0
  | step _ hs _ _ _ ih => exact .step ih hs

theorem calmRun_calm {p : Prio} {s0 s : Sys} (hr : CalmRun p s0 s) : s.calm p := by
  cases hr <;> assumption

/-- **C09 (partial).** While at most three messages are queued, all of one priority, in an actor with one receive future that
is not dropped: messages are yielded in exactly the order in which they entered the mailbox, whatever the interleaving of any
number of senders. `acc` are the messages that entered since `s0`, `ys` the ones yielded since. Missing: see `C09_refuted`
(four or more queued messages) and `C09_parked_refuted` (the order in which waiting sends enter). -/
theorem C09_fifo_partial {cap : Option Nat} {p : Prio} {s0 s : Sys} (h0 : Reachable cap s0) (hth : ∀ x ∈ s0.th, x = [])
    (hr : CalmRun p s0 s) : ∃ acc ys, s0.w.inbox ++ acc = ys ++ s.w.inbox ∧ s.w.yields = s0.w.yields ++ ys := by
  suffices h : tot mCan s.th = 0 ∧ ∃ acc ys, s0.w.inbox ++ acc = ys ++ s.w.inbox ∧ s.w.yields = s0.w.yields ++ ys from h.2
  induction hr with
  | refl _ =>
    refine ⟨?_, [], [], by simp, by simp⟩
    apply Classical.byContradiction
    intro hne
    obtain ⟨x, hx, m, hm, -⟩ := tot_pos_mem (g := mCan) (th := s0.th) (by omega)
    rw [hth x hx] at hm; simp at hm
  | @step s s' a hr hs hnd hrc hcalm ih =>
    obtain ⟨hcan, acc, ys, e1, e2⟩ := ih
    have hre := calmRun_reachable h0 hr
    rcases step_rel hs with ⟨c, w', ms, rfl, hc, rfl⟩ | ⟨t, mc, rest, w', ms, rfl, ht, he, rfl⟩
    · have hq := callR_regWs hc
      refine ⟨?_, acc, ys, ?_, ?_⟩
      · have := callR_mCan hc (fun r hcr => hnd r (by rw [hcr]))
        simp; omega
      · rw [e1]; simp [World.inbox, hq]
      · rw [← e2]; exact callR_uni hc
    · obtain ⟨acc', ys', f1, f2⟩ := exec_fifo hre he ht hcan hrc (calmRun_calm hr) hcalm.2.1
      refine ⟨?_, acc ++ acc', ys ++ ys', ?_, ?_⟩
      · have h1 := tot_head mCan ht
        have h2 := execR_mCan he (by omega)
        have h3 := tot_exec mCan ms ht
        simp at h3 ⊢; omega
      · rw [← List.append_assoc, e1, List.append_assoc, f1, List.append_assoc]
      · simp only at f2 ⊢; rw [f2, e2, List.append_assoc]

/-- **C09 (partial).** No overtaking: under the same conditions, a message that entered the mailbox after `s0` is yielded only
after everything that was in the mailbox at `s0`, in order. -/
theorem C09_no_overtaking_partial {cap : Option Nat} {p : Prio} {s0 s : Sys} (h0 : Reachable cap s0) (hth : ∀ x ∈ s0.th, x = [])
    (hr : CalmRun p s0 s) {new : List Msg} (hn : s.w.yields = s0.w.yields ++ new) {y : Msg} (hy : y ∈ new)
    (hy0 : y ∉ s0.w.inbox) : ∃ rest, new = s0.w.inbox ++ rest ∧ y ∈ rest := by
  obtain ⟨acc, ys, e1, e2⟩ := C09_fifo_partial h0 hth hr
  rw [hn] at e2
  have e3 := List.append_cancel_left e2
  subst e3
  rw [List.append_eq_append_iff] at e1
  rcases e1 with ⟨as, rfl, -⟩ | ⟨bs, e, -⟩
  · exact ⟨as, rfl, by simp [hy0] at hy; exact hy⟩
  · exact absurd (by rw [e]; simp [hy]) hy0

/-- The send with message id `mid` reported success in this event. -/
def Ev.okId : Ev → Option Nat
  | .sendOk _ mid => some mid
  | _ => none

/-- The successful sends so far, oldest first. -/
def World.accepts (w : World) : List Nat := (w.log.filterMap Ev.okId).reverse

/-- Three sends, one after the other, each polled to completion; the actor waits in a receive from the start, so that the first
message is handed to it and two are queued. -/
def exFifoSched : List Act :=
  [.call (.next 1), .call (.pollRecv 2 0), .exec 1, .exec 1,
   .call (.send 0), .call (.pollSend 3 0), .exec 3, .exec 3, .exec 3, .exec 3, .exec 3,
   .call (.send 0), .call (.pollSend 4 0), .exec 5, .exec 5, .exec 5, .exec 5, .exec 5,
   .call (.send 0), .call (.pollSend 5 0), .exec 7, .exec 7, .exec 7, .exec 7, .exec 7,
   .call (.pollRecv 2 0), .exec 8]
/-- One receive after the other. -/
def exFifoTail : List Act := [.call (.next 1), .call (.pollRecv 6 0), .exec 10, .call (.next 1), .call (.pollRecv 7 0), .exec 12]

instance (p : Prio) (s : Sys) : Decidable (s.calm p) := inferInstanceAs (Decidable (_ ∧ _ ∧ _))

/-- `CalmRun` along a schedule, decidably. -/
def calmAlong (p : Prio) (s : Sys) : List Act → Option Sys
  | [] => some s
  | a :: as =>
    match s.step a with
    | none => none
    | some s' =>
      if (match a with | .call (.dropRecv _) => false | _ => true) && s'.w.rcv != 0 && decide (s'.calm p) then calmAlong p s' as
      else none

theorem calmAlong_run {p : Prio} {s0 : Sys} {as : List Act} : ∀ {s s' : Sys}, CalmRun p s0 s → calmAlong p s as = some s' →
    CalmRun p s0 s' := by
  induction as with
  | nil => intro s s' h hc; simp [calmAlong] at hc; subst hc; exact h
  | cons a as ih =>
    intro s s' h hc
    simp only [calmAlong] at hc
    split at hc
    · simp at hc
    · rename_i s1 hs
      by_cases hd : ∃ r, a = .call (.dropRecv r)
      · obtain ⟨r, rfl⟩ := hd
        simp at hc
      · split at hc
        · simp at hc
        · simp at hc
          exact ih (.step h hs (fun r hr => hd ⟨r, hr⟩) hc.1.1 hc.1.2) hc.2

/-- A run with a waiting receive, three sends and three receives meets the hypotheses.
Meets the hypotheses of `C09_fifo_partial`, `C09_no_overtaking_partial`. -/
example : ∃ s0 s, Reachable none s0 ∧ (∀ x ∈ s0.th, x = []) ∧ CalmRun (.valued 0) s0 s ∧ s.w.yields.map (·.id) = [0, 1, 2] :=
  ⟨init none, _, .init, by decide, calmAlong_run (as := exFifoSched ++ exFifoTail) (.refl (by decide)) rfl, rfl⟩

/-- Four detached sends, one after the other, each accepted before the next one starts, then four receives. -/
def exLifoSched : List Act :=
  [.call (.send 0), .call (.detach 2), .call (.pollSend 2 0), .exec 2, .exec 2, .exec 2, .exec 2, .exec 2,
   .call (.send 0), .call (.detach 3), .call (.pollSend 3 0), .exec 5, .exec 5, .exec 5, .exec 5, .exec 5,
   .call (.send 0), .call (.detach 4), .call (.pollSend 4 0), .exec 8, .exec 8, .exec 8, .exec 8, .exec 8,
   .call (.send 0), .call (.detach 5), .call (.pollSend 5 0), .exec 11, .exec 11, .exec 11, .exec 11, .exec 11,
   .call (.next 1), .call (.pollRecv 6 0), .exec 13,
   .call (.next 1), .call (.pollRecv 7 0), .exec 15,
   .call (.next 1), .call (.pollRecv 8 0), .exec 17,
   .call (.next 1), .call (.pollRecv 9 0), .exec 19]

/-- **C09 is false of the code** on an unbounded mailbox: four messages of default priority, sent one after the other by one
task (each accepted before the next is sent), are received by the single actor in the order 0, 2, 1, 3. -/
theorem C09_refuted : ∃ s, Reachable none s ∧ s.w.accepts = [0, 1, 2, 3] ∧
    s.w.yields = [⟨0, .valued 0⟩, ⟨2, .valued 0⟩, ⟨1, .valued 0⟩, ⟨3, .valued 0⟩] :=
  ⟨_, Reachable.run .init (as := exLifoSched) rfl, rfl, rfl⟩

/-- Capacity 1: three sends are polled one after the other, the last two park; then three receives. -/
def exParkLifoSched : List Act :=
  [.call (.send 0), .call (.pollSend 2 0), .exec 1, .exec 1, .exec 1, .exec 1, .exec 1,
   .call (.send 0), .call (.pollSend 3 1), .exec 3, .exec 3, .exec 3, .exec 3, .exec 3,
   .call (.send 0), .call (.pollSend 4 2), .exec 5, .exec 5, .exec 5, .exec 5, .exec 5]
def exParkLifoTail : List Act :=
  [.call (.next 1), .call (.pollRecv 5 0), .exec 7, .call (.next 1), .call (.pollRecv 6 0), .exec 9,
   .call (.next 1), .call (.pollRecv 7 0), .exec 11]

/-- **C09 is false of the code** on a bounded mailbox: sends 1 and 2 wait for room, in this order, and are received in the
order 2, 1. -/
theorem C09_parked_refuted : ∃ s s', Reachable (some 1) s ∧ s.run exParkLifoTail = some s' ∧
    s.w.wOne.length = 2 ∧ s.w.parkedSend 3 .ret ⟨1, .valued 0⟩ ∧ s.w.parkedSend 4 .ret ⟨2, .valued 0⟩ ∧
    s'.w.yields = [⟨0, .valued 0⟩, ⟨2, .valued 0⟩, ⟨1, .valued 0⟩] :=
  ⟨_, _, Reachable.run .init (as := exParkLifoSched) rfl, rfl, rfl, ⟨0, some 1, rfl, rfl⟩, ⟨1, some 2, rfl, rfl⟩, rfl⟩

end Xtra
