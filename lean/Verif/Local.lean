import Verif.Frame

/-!
# What the user holds does not influence the channel

The critical sections and the atomic steps read the channel, never the slots of the user's objects. Hence two
worlds that differ in one slot make the same steps until that slot is used.
-/

set_option linter.unusedSimpArgs false

namespace Xtra

/-- The same channel, other objects in the user's hands. -/
def World.withObjs (w : World) (x : List Obj) : World := { w with objs := x }

theorem withObjs_self (w : World) : w.withObjs w.objs = w := rfl

theorem items_withObjs (w : World) (x : List Obj) (b : Nat) : (w.withObjs x).items b = w.items b := rfl

theorem kill_withObjs (w : World) (x : List Obj) (m : Msg) : (w.withObjs x).kill m = (w.kill m).withObjs x := rfl

theorem killAll_withObjs (ms : List Msg) (w : World) (x : List Obj) :
    (w.withObjs x).killAll ms = (w.killAll ms).withObjs x := by
  induction ms generalizing w with
  | nil => rfl
  | cons m ms ih => simp only [World.killAll, kill_withObjs, ih]

theorem closeHandle_withObjs (w : World) (x : List Obj) (h : Nat) :
    (w.withObjs x).closeHandle h = (w.closeHandle h).withObjs x := by
  simp only [World.closeHandle, World.withObjs]
  split <;> rfl

theorem closeHandles_withObjs (hs : List Nat) (w : World) (x : List Obj) :
    (w.withObjs x).closeHandles hs = (w.closeHandles hs).withObjs x := by
  induction hs generalizing w with
  | nil => rfl
  | cons h hs ih => simp only [World.closeHandles, closeHandle_withObjs, ih]

theorem shutTx_withObjs (w : World) (x : List Obj) : (w.withObjs x).shutTx = w.shutTx.withObjs x := by
  simp only [World.shutTx]
  have h1 := killAll_withObjs w.uq { w with lst := w.lst.map LCell.notify, rang := true, uq := [], bqs := [] } x
  generalize hw2 : World.killAll { w with lst := w.lst.map LCell.notify, rang := true, uq := [], bqs := [] } w.uq = w2 at h1
  have h1' : World.killAll { (w.withObjs x) with
      lst := (w.withObjs x).lst.map LCell.notify, rang := true, uq := [], bqs := [] } (w.withObjs x).uq = w2.withObjs x := h1
  rw [h1']
  have h2 := closeHandles_withObjs w2.wOne { w2 with wOne := [] } x
  generalize hw3 : World.closeHandles { w2 with wOne := [] } w2.wOne = w3 at h2
  have h2' : World.closeHandles { (w2.withObjs x) with wOne := [] } (w2.withObjs x).wOne = w3.withObjs x := h2
  rw [h2']
  exact closeHandles_withObjs w3.wAll { w3 with wAll := [] } x

theorem sendOne_withObjs (w : World) (x : List Obj) (m : Msg) :
    (w.withObjs x).sendOne m = ((w.sendOne m).1.withObjs x, (w.sendOne m).2) := by
  unfold World.sendOne
  rw [show (w.withObjs x).cells = w.cells from rfl, show (w.withObjs x).wRx = w.wRx from rfl]
  obtain ⟨cells, rest, b⟩ := fulfil w.cells w.wRx m
  cases b
  · simp only
    rw [show ({ (w.withObjs x) with cells := cells, wRx := rest } : World) =
      ({ w with cells := cells, wRx := rest } : World).withObjs x from rfl]
    generalize ({ w with cells := cells, wRx := rest } : World) = w1
    rw [show (w1.withObjs x).uniFull = w1.uniFull from rfl]
    split <;> rfl
  · rfl

theorem sendAll_withObjs (w : World) (x : List Obj) (m : Msg) :
    (w.withObjs x).sendAll m = ((w.sendAll m).1.withObjs x, (w.sendAll m).2) := by
  simp only [World.sendAll]
  rw [show (w.withObjs x).bcFull = w.bcFull from rfl]
  split <;> rfl

theorem requeue_withObjs (w : World) (x : List Obj) (m : Msg) :
    (w.withObjs x).requeue m = (w.requeue m).withObjs x := by
  simp only [World.requeue, World.withObjs]
  split <;> rfl

theorem decBq_withObjs (w : World) (x : List Obj) (b : Nat) :
    (w.withObjs x).decBq b = (w.decBq b).withObjs x := by
  simp only [World.decBq, World.withObjs]
  split
  · split <;> rfl
  · rfl

theorem incBq_withObjs (w : World) (x : List Obj) (b : Nat) :
    (w.withObjs x).incBq b = (w.incBq b).withObjs x := by
  simp only [World.incBq, World.withObjs]
  split <;> rfl

theorem popUnicast_withObjs (w : World) (x : List Obj) :
    (w.withObjs x).popUnicast = w.popUnicast.map fun p => (p.1, p.2.withObjs x) := by
  unfold World.popUnicast
  rw [show (w.withObjs x).uq = w.uq from rfl]
  cases Heap.pop Msg.le w.uq with
  | none => rfl
  | some p =>
    obtain ⟨m, q⟩ := p
    simp only
    rw [show ({ (w.withObjs x) with uq := q } : World) = ({ w with uq := q } : World).withObjs x from rfl]
    generalize ({ w with uq := q } : World) = w1
    rw [show (w1.withObjs x).uniFull = w1.uniFull from rfl]
    split
    · rfl
    · rw [show (w.withObjs x).wOne = w.wOne from rfl, show (w.withObjs x).ws = w.ws from rfl]
      split <;> rfl

theorem popBroadcast_withObjs (w : World) (x : List Obj) (b : Nat) :
    (w.withObjs x).popBroadcast b = (w.popBroadcast b).map fun p => (p.1, p.2.withObjs x) := by
  unfold World.popBroadcast
  rw [show (w.withObjs x).bq = w.bq from rfl]
  split
  · rfl
  · rename_i q hq
    cases hp : Heap.pop Msg.le q.items with
    | none => simp [hp]
    | some p =>
      obtain ⟨m, items⟩ := p
      simp only [hp]
      rw [show (World.longest { (w.withObjs x) with bq := w.bq.set b { q with items := items } }) =
        World.longest { w with bq := w.bq.set b { q with items := items } } from rfl]
      generalize (World.longest { w with bq := w.bq.set b { q with items := items } }) = n
      rw [show (World.bcFull { (w.withObjs x) with bq := w.bq.set b { q with items := items }, tail := n }) =
        World.bcFull { w with bq := w.bq.set b { q with items := items }, tail := n } from rfl]
      split
      · rfl
      · rw [show (w.withObjs x).wAll = w.wAll from rfl, show (w.withObjs x).ws = w.ws from rfl]
        split <;> rfl

theorem tryRecv_withObjs (w : World) (x : List Obj) (b : Nat) :
    (w.withObjs x).tryRecv b = ((w.tryRecv b).1.withObjs x, (w.tryRecv b).2) := by
  simp only [World.tryRecv, popBroadcast_withObjs, popUnicast_withObjs, items_withObjs]
  rw [show (w.withObjs x).uq = w.uq from rfl, show (w.withObjs x).sc = w.sc from rfl, show (w.withObjs x).lag = w.lag from rfl]
  split
  · cases w.popBroadcast b <;> rfl
  · cases w.popUnicast <;> rfl
  · split <;> rfl

/-- Two worlds that agree on everything but slot `o` of the user's objects, where the first has nothing. -/
def SameBut (o : Nat) (w1 w2 : World) : Prop :=
  ∃ x, w1 = w2.withObjs x ∧ x.length = w2.objs.length ∧ (∀ i, i ≠ o → x[i]? = w2.objs[i]?) ∧
    (x[o]? = some .gone ∨ x = w2.objs)

theorem setObj_sameBut {o : Nat} {w1 w2 : World} (h : SameBut o w1 w2) (i : Nat) (ob : Obj) :
    SameBut o (w1.setObj i ob) (w2.setObj i ob) := by
  obtain ⟨x, rfl, hl, he, hg⟩ := h
  refine ⟨x.set i ob, rfl, by simp [World.setObj, hl], ?_, ?_⟩
  · intro j hj
    simp only [World.setObj, List.getElem?_set, hl, he j hj]
  · by_cases hio : i = o
    · subst hio
      right
      simp only [World.setObj]
      apply List.ext_getElem?
      intro j
      by_cases hj : i = j
      · subst hj; simp [List.getElem?_set, hl]
      · rw [List.getElem?_set_ne hj, List.getElem?_set_ne hj]; exact he j (Ne.symm hj)
    · rcases hg with hg | hg
      · left; rw [List.getElem?_set_ne hio]; exact hg
      · right; rw [hg]; rfl

/-- What a step does to the slots: nothing, or it overwrites one. -/
def SlotUpd (u : List Obj → List Obj) : Prop := (∀ x, u x = x) ∨ ∃ i ob, ∀ x, u x = x.set i ob

theorem withObjs_cap (w : World) (x : List Obj) : (w.withObjs x).cap = w.cap := rfl
theorem withObjs_wOne (w : World) (x : List Obj) : (w.withObjs x).wOne = w.wOne := rfl
theorem withObjs_wAll (w : World) (x : List Obj) : (w.withObjs x).wAll = w.wAll := rfl
theorem withObjs_wRx (w : World) (x : List Obj) : (w.withObjs x).wRx = w.wRx := rfl
theorem withObjs_uq (w : World) (x : List Obj) : (w.withObjs x).uq = w.uq := rfl
theorem withObjs_bqs (w : World) (x : List Obj) : (w.withObjs x).bqs = w.bqs := rfl
theorem withObjs_tail (w : World) (x : List Obj) : (w.withObjs x).tail = w.tail := rfl
theorem withObjs_sc (w : World) (x : List Obj) : (w.withObjs x).sc = w.sc := rfl
theorem withObjs_rcv (w : World) (x : List Obj) : (w.withObjs x).rcv = w.rcv := rfl
theorem withObjs_ws (w : World) (x : List Obj) : (w.withObjs x).ws = w.ws := rfl
theorem withObjs_cells (w : World) (x : List Obj) : (w.withObjs x).cells = w.cells := rfl
theorem withObjs_bq (w : World) (x : List Obj) : (w.withObjs x).bq = w.bq := rfl
theorem withObjs_resp (w : World) (x : List Obj) : (w.withObjs x).resp = w.resp := rfl
theorem withObjs_rang (w : World) (x : List Obj) : (w.withObjs x).rang = w.rang := rfl
theorem withObjs_lst (w : World) (x : List Obj) : (w.withObjs x).lst = w.lst := rfl
theorem withObjs_log (w : World) (x : List Obj) : (w.withObjs x).log = w.log := rfl

/-- A step of a running call does not look at the objects: it overwrites at most one slot. -/
theorem exec_withObjs (w : World) (m : Micro) : ∃ u, SlotUpd u ∧ (exec w m).1.objs = u w.objs ∧
    ∀ x, exec (w.withObjs x) m = ((exec w m).1.withObjs (u x), (exec w m).2) := by
  have idu : SlotUpd (fun x : List Obj => x) := .inl fun _ => rfl
  have setu : ∀ i ob, SlotUpd (fun x : List Obj => x.set i ob) := fun i ob => .inr ⟨i, ob, fun _ => rfl⟩
  cases m with
  | sendLd1 f md m rc wk =>
    by_cases hr : w.rcv = 0
    · exact ⟨_, setu f .gone, by simp only [exec, hr, if_true]; rfl, fun x => by
        simp only [exec, withObjs_ws, withObjs_cells, withObjs_sc, withObjs_rcv, withObjs_resp, withObjs_lst, withObjs_wRx, withObjs_bq, hr, if_true]; rfl⟩
    · exact ⟨_, idu, by simp only [exec, hr, if_false], fun x => by simp only [exec, withObjs_ws, withObjs_cells, withObjs_sc, withObjs_rcv, withObjs_resp, withObjs_lst, withObjs_wRx, withObjs_bq, hr, if_false]⟩
  | sendLd2 f md m rc wk =>
    by_cases hr : w.sc = 0
    · exact ⟨_, setu f .gone, by simp only [exec, hr, if_true]; rfl, fun x => by
        simp only [exec, withObjs_ws, withObjs_cells, withObjs_sc, withObjs_rcv, withObjs_resp, withObjs_lst, withObjs_wRx, withObjs_bq, hr, if_true]; rfl⟩
    · exact ⟨_, idu, by simp only [exec, hr, if_false], fun x => by simp only [exec, withObjs_ws, withObjs_cells, withObjs_sc, withObjs_rcv, withObjs_resp, withObjs_lst, withObjs_wRx, withObjs_bq, hr, if_false]⟩
  | sendCrit f md m rc wk =>
    have h1 : ∀ x, (w.withObjs x).noteLate m = (w.noteLate m).withObjs x := fun _ => rfl
    cases md
    · exact ⟨_, idu, by simp [exec], fun x => by simp only [exec, h1, sendOne_withObjs]⟩
    · exact ⟨_, idu, by simp [exec], fun x => by simp only [exec, h1, sendOne_withObjs]⟩
    · exact ⟨_, idu, by simp [exec], fun x => by simp only [exec, h1, sendAll_withObjs]⟩
  | pollWs f md mid h wk =>
    cases hw : w.ws[h]? with
    | none => exact ⟨_, setu f .gone, by simp [exec, hw], fun x => by simp only [exec, withObjs_ws, withObjs_cells, withObjs_sc, withObjs_rcv, withObjs_resp, withObjs_lst, withObjs_wRx, withObjs_bq, hw]; rfl⟩
    | some c =>
      cases c with
      | active k m => exact ⟨_, setu f _, by simp only [exec, hw]; rfl, fun x => by simp only [exec, withObjs_ws, withObjs_cells, withObjs_sc, withObjs_rcv, withObjs_resp, withObjs_lst, withObjs_wRx, withObjs_bq, hw]; rfl⟩
      | delivered k => exact ⟨_, idu, by simp only [exec, hw], fun x => by simp only [exec, withObjs_ws, withObjs_cells, withObjs_sc, withObjs_rcv, withObjs_resp, withObjs_lst, withObjs_wRx, withObjs_bq, hw]; rfl⟩
      | closed k => exact ⟨_, setu f .gone, by simp only [exec, hw]; rfl, fun x => by simp only [exec, withObjs_ws, withObjs_cells, withObjs_sc, withObjs_rcv, withObjs_resp, withObjs_lst, withObjs_wRx, withObjs_bq, hw]; rfl⟩
      | gone => exact ⟨_, setu f .gone, by simp only [exec, hw]; rfl, fun x => by simp only [exec, withObjs_ws, withObjs_cells, withObjs_sc, withObjs_rcv, withObjs_resp, withObjs_lst, withObjs_wRx, withObjs_bq, hw]; rfl⟩
  | sendFin f md mid wk =>
    cases md with
    | bcast => exact ⟨_, setu f .gone, by simp only [exec]; rfl, fun x => rfl⟩
    | detached => exact ⟨_, setu f _, by simp only [exec]; rfl, fun x => rfl⟩
    | ret =>
      cases hw : w.resp[mid]? with
      | none => exact ⟨_, setu f .gone, by simp only [exec, hw]; rfl, fun x => by simp only [exec, withObjs_ws, withObjs_cells, withObjs_sc, withObjs_rcv, withObjs_resp, withObjs_lst, withObjs_wRx, withObjs_bq, hw]; rfl⟩
      | some c =>
        cases c with
        | waiting k => exact ⟨_, setu f _, by simp only [exec, hw]; rfl, fun x => by simp only [exec, withObjs_ws, withObjs_cells, withObjs_sc, withObjs_rcv, withObjs_resp, withObjs_lst, withObjs_wRx, withObjs_bq, hw]; rfl⟩
        | value k j => exact ⟨_, setu f .gone, by simp only [exec, hw]; rfl, fun x => by simp only [exec, withObjs_ws, withObjs_cells, withObjs_sc, withObjs_rcv, withObjs_resp, withObjs_lst, withObjs_wRx, withObjs_bq, hw]; rfl⟩
        | interrupted k => exact ⟨_, setu f .gone, by simp only [exec, hw]; rfl, fun x => by simp only [exec, withObjs_ws, withObjs_cells, withObjs_sc, withObjs_rcv, withObjs_resp, withObjs_lst, withObjs_wRx, withObjs_bq, hw]; rfl⟩
        | none => exact ⟨_, setu f .gone, by simp only [exec, hw]; rfl, fun x => by simp only [exec, withObjs_ws, withObjs_cells, withObjs_sc, withObjs_rcv, withObjs_resp, withObjs_lst, withObjs_wRx, withObjs_bq, hw]; rfl⟩
  | dropWs h =>
    cases hw : w.ws[h]? with
    | none => exact ⟨_, idu, by simp only [exec, hw], fun x => by simp only [exec, withObjs_ws, withObjs_cells, withObjs_sc, withObjs_rcv, withObjs_resp, withObjs_lst, withObjs_wRx, withObjs_bq, hw]; rfl⟩
    | some c =>
      cases c <;> exact ⟨_, idu, by first | (simp only [exec, hw]; done) | (simp only [exec, hw]; rfl), fun x => by simp only [exec, withObjs_ws, withObjs_cells, withObjs_sc, withObjs_rcv, withObjs_resp, withObjs_lst, withObjs_wRx, withObjs_bq, hw]; rfl⟩
  | dropTx rc =>
    cases hs : rc.isStrong with
    | true => exact ⟨_, idu, by simp only [exec, hs, if_true], fun x => by simp only [exec, withObjs_ws, withObjs_cells, withObjs_sc, withObjs_rcv, withObjs_resp, withObjs_lst, withObjs_wRx, withObjs_bq, hs, if_true]; rfl⟩
    | false =>
      exact ⟨_, idu, by simp [exec, hs], fun x => by simp [exec, hs]⟩
  | shutRx => exact ⟨_, idu, rfl, fun x => rfl⟩
  | notifyShut c => exact ⟨_, idu, rfl, fun x => rfl⟩
  | dropRx => exact ⟨_, idu, rfl, fun x => rfl⟩
  | shutTx =>
    exact ⟨_, idu, by simp [exec], fun x => by simp only [exec, shutTx_withObjs]⟩
  | dropBq b => exact ⟨_, idu, by simp [exec], fun x => by simp only [exec, decBq_withObjs]⟩
  | recvTry r b wk =>
    cases hr : (w.tryRecv b).2 with
    | ready am =>
      exact ⟨_, setu r _, by simp only [exec, hr, World.yieldMsg, World.ev]; simp; rfl,
        fun x => by simp only [exec, tryRecv_withObjs, hr]; rfl⟩
    | wait c =>
      exact ⟨_, idu, by simp [exec, hr], fun x => by simp only [exec, tryRecv_withObjs, hr]⟩
    | panic =>
      exact ⟨_, setu r .gone, by simp [exec, hr], fun x => by simp only [exec, tryRecv_withObjs, hr]; rfl⟩
  | recvPoll r b c wk =>
    cases hw : w.cells[c]? with
    | none => exact ⟨_, setu r .gone, by simp only [exec, hw]; rfl, fun x => by simp only [exec, withObjs_ws, withObjs_cells, withObjs_sc, withObjs_rcv, withObjs_resp, withObjs_lst, withObjs_wRx, withObjs_bq, hw]; rfl⟩
    | some d =>
      cases d with
      | empty k => exact ⟨_, setu r _, by simp only [exec, hw]; rfl, fun x => by simp only [exec, withObjs_ws, withObjs_cells, withObjs_sc, withObjs_rcv, withObjs_resp, withObjs_lst, withObjs_wRx, withObjs_bq, hw]; rfl⟩
      | full k j =>
        cases k with
        | newMessage m => exact ⟨_, setu r _, by simp only [exec, hw]; rfl, fun x => by simp only [exec, withObjs_ws, withObjs_cells, withObjs_sc, withObjs_rcv, withObjs_resp, withObjs_lst, withObjs_wRx, withObjs_bq, hw]; rfl⟩
        | shutdown => exact ⟨_, setu r _, by simp only [exec, hw]; rfl, fun x => by simp only [exec, withObjs_ws, withObjs_cells, withObjs_sc, withObjs_rcv, withObjs_resp, withObjs_lst, withObjs_wRx, withObjs_bq, hw]; rfl⟩
        | newBroadcast => exact ⟨_, idu, by simp only [exec, hw], fun x => by simp only [exec, withObjs_ws, withObjs_cells, withObjs_sc, withObjs_rcv, withObjs_resp, withObjs_lst, withObjs_wRx, withObjs_bq, hw]; rfl⟩
      | used => exact ⟨_, setu r .gone, by simp only [exec, hw]; rfl, fun x => by simp only [exec, withObjs_ws, withObjs_cells, withObjs_sc, withObjs_rcv, withObjs_resp, withObjs_lst, withObjs_wRx, withObjs_bq, hw]; rfl⟩
      | gone => exact ⟨_, setu r .gone, by simp only [exec, hw]; rfl, fun x => by simp only [exec, withObjs_ws, withObjs_cells, withObjs_sc, withObjs_rcv, withObjs_resp, withObjs_lst, withObjs_wRx, withObjs_bq, hw]; rfl⟩
  | recvBcast r b c wk =>
    cases hp : w.popBroadcast b with
    | none =>
      exact ⟨_, idu, by simp only [exec, hp],
        fun x => by simp only [exec, popBroadcast_withObjs, hp, Option.map]; rfl⟩
    | some p =>
      obtain ⟨m, w'⟩ := p
      exact ⟨_, setu r (.message b (.all m)),
        by simp only [exec, hp, World.yieldMsg, World.ev]; rw [World.popBroadcast_objs hp],
        fun x => by simp only [exec, popBroadcast_withObjs, hp, Option.map]; rfl⟩
  | cancel b c =>
    cases hw : w.cells[c]? with
    | none => exact ⟨_, idu, by simp only [exec, hw], fun x => by simp only [exec, withObjs_ws, withObjs_cells, withObjs_sc, withObjs_rcv, withObjs_resp, withObjs_lst, withObjs_wRx, withObjs_bq, hw]⟩
    | some d =>
      cases d with
      | full k j =>
        cases k <;> exact ⟨_, idu, by simp only [exec, hw], fun x => by simp only [exec, withObjs_ws, withObjs_cells, withObjs_sc, withObjs_rcv, withObjs_resp, withObjs_lst, withObjs_wRx, withObjs_bq, hw]; rfl⟩
      | _ => exact ⟨_, idu, by simp only [exec, hw], fun x => by simp only [exec, withObjs_ws, withObjs_cells, withObjs_sc, withObjs_rcv, withObjs_resp, withObjs_lst, withObjs_wRx, withObjs_bq, hw]⟩
  | requeue m => exact ⟨_, idu, by simp [exec], fun x => by simp only [exec, requeue_withObjs]⟩
  | dropCell c =>
    cases hw : w.cells[c]? with
    | none => exact ⟨_, idu, by simp only [exec, hw], fun x => by simp only [exec, withObjs_ws, withObjs_cells, withObjs_sc, withObjs_rcv, withObjs_resp, withObjs_lst, withObjs_wRx, withObjs_bq, hw]; rfl⟩
    | some d =>
      cases d with
      | full k j =>
        cases k <;> exact ⟨_, idu, by simp only [exec, hw], fun x => by simp only [exec, withObjs_ws, withObjs_cells, withObjs_sc, withObjs_rcv, withObjs_resp, withObjs_lst, withObjs_wRx, withObjs_bq, hw]; rfl⟩
      | _ => exact ⟨_, idu, by simp only [exec, hw], fun x => by simp only [exec, withObjs_ws, withObjs_cells, withObjs_sc, withObjs_rcv, withObjs_resp, withObjs_lst, withObjs_wRx, withObjs_bq, hw]; rfl⟩
  | dropMsg m => exact ⟨_, idu, rfl, fun x => rfl⟩
  | discard am => cases am <;> exact ⟨_, idu, rfl, fun x => rfl⟩
  | respond b am r brk => cases am <;> exact ⟨_, idu, rfl, fun x => rfl⟩
  | newBq o => exact ⟨_, setu o _, rfl, fun x => rfl⟩
  | bcastShutdown => exact ⟨_, idu, rfl, fun x => rfl⟩
  | conn1 i =>
    by_cases hr : w.rcv = 0
    · exact ⟨_, idu, by simp only [exec, hr, if_true]; rfl, fun x => by simp only [exec, withObjs_ws, withObjs_cells, withObjs_sc, withObjs_rcv, withObjs_resp, withObjs_lst, withObjs_wRx, withObjs_bq, hr, if_true]; rfl⟩
    · exact ⟨_, idu, by simp only [exec, hr, if_false], fun x => by simp only [exec, withObjs_ws, withObjs_cells, withObjs_sc, withObjs_rcv, withObjs_resp, withObjs_lst, withObjs_wRx, withObjs_bq, hr, if_false]⟩
  | conn2 i => exact ⟨_, idu, rfl, fun x => rfl⟩
  | join1 o l =>
    by_cases hr : w.rcv = 0
    · exact ⟨_, setu o _, by simp only [exec, hr, if_true]; rfl, fun x => by simp only [exec, withObjs_ws, withObjs_cells, withObjs_sc, withObjs_rcv, withObjs_resp, withObjs_lst, withObjs_wRx, withObjs_bq, hr, if_true]; rfl⟩
    · exact ⟨_, idu, by simp only [exec, hr, if_false], fun x => by simp only [exec, withObjs_ws, withObjs_cells, withObjs_sc, withObjs_rcv, withObjs_resp, withObjs_lst, withObjs_wRx, withObjs_bq, hr, if_false]⟩
  | join2 o l =>
    by_cases hr : w.sc = 0
    · exact ⟨_, setu o _, by simp only [exec, hr, if_true]; rfl, fun x => by simp only [exec, withObjs_ws, withObjs_cells, withObjs_sc, withObjs_rcv, withObjs_resp, withObjs_lst, withObjs_wRx, withObjs_bq, hr, if_true]; rfl⟩
    · exact ⟨_, setu o _, by simp only [exec, hr, if_false]; rfl, fun x => by simp only [exec, withObjs_ws, withObjs_cells, withObjs_sc, withObjs_rcv, withObjs_resp, withObjs_lst, withObjs_wRx, withObjs_bq, hr, if_false]; rfl⟩

theorem exec_sameBut {o : Nat} {w1 w2 : World} (h : SameBut o w1 w2) (m : Micro) :
    SameBut o (exec w1 m).1 (exec w2 m).1 ∧ (exec w1 m).2 = (exec w2 m).2 := by
  obtain ⟨u, hu, ho, hx⟩ := exec_withObjs w2 m
  obtain ⟨x, rfl, hl, he, hg⟩ := h
  rw [hx x]
  refine ⟨⟨u x, rfl, ?_⟩, rfl⟩
  rcases hu with hu | ⟨i, ob, hu⟩
  · rw [ho, hu, hu]; exact ⟨hl, he, hg⟩
  · have h2 := setObj_sameBut (o := o) (w1 := w2.withObjs x) (w2 := w2) ⟨x, rfl, hl, he, hg⟩ i ob
    obtain ⟨y, hy, h3⟩ := h2
    have hyx : y = x.set i ob := by
      have := congrArg World.objs hy
      exact this.symm
    rw [ho, hu, hu, ← hyx]
    exact h3

/-- The object a call is made on. -/
def Call.subject : Call → Option Nat
  | .flipLag => none
  | .cloneAddr i | .downgrade i | .asEither i | .upgrade i | .dropAddr i | .isConnected i | .isConnectedStale i | .len i | .send i
  | .broadcast i | .setPrio i _ | .detach i | .pollSend i _ | .pollSendStale i _ | .dropSend i | .pollReply i _ | .dropReply i
  | .cloneMailbox i | .address i | .next i | .dropMailbox i | .pollRecv i _ | .dropRecv i | .dropMessage i
  | .dispatch i | .stopSelf i | .stopAll i | .finish i _ | .dropDispatch i | .join i | .joinStale i | .pollJoin i _
  | .dropJoin i => some i

/-- A call on nothing is not possible. -/
theorem call_gone {w : World} {c : Call} {i : Nat} (hi : c.subject = some i) (h : w.objs[i]? = some .gone) : call w c = none := by
  cases c <;> simp only [Call.subject, Option.some.injEq, reduceCtorEq] at hi <;> subst hi <;> simp [call, h, Obj.mbox]

/-- What a call does to the slots: it overwrites one, adds one, or nothing. -/
def CallUpd (u : List Obj → List Obj) : Prop :=
  (∀ x, u x = x) ∨ (∃ i ob, ∀ x, u x = x.set i ob) ∨ (∃ ob, ∀ x, u x = x ++ [ob])

/-- A call looks at the object it is made on, at no other. -/
theorem call_withObjs (w : World) (c : Call) (w' : World) (ms : List Micro) (hc : call w c = some (w', ms)) :
    ∃ u, CallUpd u ∧ w'.objs = u w.objs ∧
    ∀ x : List Obj, x.length = w.objs.length → (∀ i, c.subject = some i → x[i]? = w.objs[i]?) →
      call (w.withObjs x) c = some (w'.withObjs (u x), ms) := by
  have idu : CallUpd (fun x : List Obj => x) := .inl fun _ => rfl
  have setu : ∀ i ob, CallUpd (fun x : List Obj => x.set i ob) := fun i ob => .inr (.inl ⟨i, ob, fun _ => rfl⟩)
  have addu : ∀ ob, CallUpd (fun x : List Obj => x ++ [ob]) := fun ob => .inr (.inr ⟨ob, fun _ => rfl⟩)
  have hobjs : ∀ x : List Obj, (w.withObjs x).objs = x := fun _ => rfl
  cases c
  case flipLag =>
    simp only [call, Option.some.injEq, Prod.mk.injEq] at hc
    obtain ⟨rfl, rfl⟩ := hc
    exact ⟨_, idu, rfl, fun x _ _ => rfl⟩
  all_goals simp only [Call.subject, Option.some.injEq, forall_eq']
  all_goals simp only [call] at hc
  all_goals repeat' split at hc
  all_goals simp only [Option.some.injEq, Prod.mk.injEq, reduceCtorEq] at hc
  all_goals obtain ⟨rfl, rfl⟩ := hc
  all_goals first
    | exact ⟨_, idu, rfl, fun x hl hx => by
        simp only [call, hobjs, hx, withObjs_ws, withObjs_cells, withObjs_sc, withObjs_rcv, withObjs_resp, withObjs_lst, withObjs_wRx, withObjs_bq, withObjs_rang, *]; first | done | rfl⟩
    | exact ⟨_, addu _, rfl, fun x hl hx => by
        simp only [call, hobjs, hx, withObjs_ws, withObjs_cells, withObjs_sc, withObjs_rcv, withObjs_resp, withObjs_lst, withObjs_wRx, withObjs_bq, withObjs_rang, *]; first | done | rfl⟩
    | exact ⟨_, setu _ _, rfl, fun x hl hx => by
        simp only [call, hobjs, hx, withObjs_ws, withObjs_cells, withObjs_sc, withObjs_rcv, withObjs_resp, withObjs_lst, withObjs_wRx, withObjs_bq, withObjs_rang, *]; first | done | rfl⟩
    | (rename_i i _ b hb
       exact ⟨_, addu (.recv b .new), by simp, fun x hl hx => by
         have h1 := incBq_withObjs { w with rcv := w.rcv + 1 } x b
         have h2 : call (w.withObjs x) (.next i) =
           some ((World.incBq (({ w with rcv := w.rcv + 1 } : World).withObjs x) b).addObj (.recv b .new), []) := by
           simp only [call, hobjs, hx, hb]; rfl
         rw [h2, h1]; rfl⟩)

theorem call_sameBut {o : Nat} {w1 w2 w1' : World} {ms : List Micro} (h : SameBut o w1 w2) {c : Call}
    (hc : call w1 c = some (w1', ms)) : ∃ w2', call w2 c = some (w2', ms) ∧ SameBut o w1' w2' := by
  obtain ⟨x, rfl, hl, he, hg⟩ := h
  by_cases hx : x = w2.objs
  · subst hx
    exact ⟨w1', hc, w1'.objs, rfl, rfl, fun _ _ => rfl, .inr rfl⟩
  · have hg : x[o]? = some .gone := hg.resolve_right hx
    have ht : c.subject ≠ some o := by
      intro ht
      have : call (w2.withObjs x) c = none := call_gone ht hg
      rw [this] at hc; cases hc
    obtain ⟨u, hu, ho, hw⟩ := call_withObjs _ _ _ _ hc
    have h1 := hw w2.objs hl.symm (fun i hi => (he _ (fun e => ht (e ▸ hi))).symm)
    refine ⟨w1'.withObjs (u w2.objs), h1, u x, ?_, ?_⟩
    · have ho' : w1'.objs = u x := ho
      rw [← ho']; rfl
    · have hobjs : (w1'.withObjs (u w2.objs)).objs = u w2.objs := rfl
      rw [hobjs]
      rcases hu with hu | ⟨i, ob, hu⟩ | ⟨ob, hu⟩
      · rw [hu, hu]; exact ⟨hl, he, .inl hg⟩
      · obtain ⟨y, hy, h3⟩ := setObj_sameBut (o := o) (w1 := w2.withObjs x) (w2 := w2)
          ⟨x, rfl, hl, he, .inl hg⟩ i ob
        have hyx : y = x.set i ob := (congrArg World.objs hy).symm
        rw [hu, hu, ← hyx]
        exact h3
      · rw [hu, hu]
        refine ⟨by simp [hl], fun i hi => ?_, .inl ?_⟩
        · simp only [List.getElem?_append, hl, he i hi]
        · have : o < x.length := by
            rcases Nat.lt_or_ge o x.length with h | h
            · exact h
            · rw [List.getElem?_eq_none h] at hg; cases hg
          rw [List.getElem?_append_left this]; exact hg

/-- The same schedule with the idle thread `k` left out. -/
def Act.skip (k : Nat) : Act → Act
  | .call c => .call c
  | .exec t => .exec (if k < t then t - 1 else t)

/-- The first system is the second with an idle thread `k` and with nothing in slot `o`. -/
def SimBut (o k : Nat) (s1 s2 : Sys) : Prop :=
  SameBut o s1.w s2.w ∧ ∃ a b, s2.th = a ++ b ∧ a.length = k ∧ s1.th = a ++ [] :: b

theorem step_simBut {o k : Nat} {s1 s2 s1' : Sys} (h : SimBut o k s1 s2) {a : Act}
    (hs : s1.step a = some s1') : ∃ s2', s2.step (a.skip k) = some s2' ∧ SimBut o k s1' s2' := by
  obtain ⟨hw, ta, tb, ht2, hk, ht1⟩ := h
  cases a with
  | call c =>
    simp only [Sys.step] at hs
    split at hs
    · rename_i w' ms hc
      simp only [Option.some.injEq] at hs
      subst hs
      obtain ⟨w2', hc2, hw'⟩ := call_sameBut hw hc
      refine ⟨⟨w2', s2.th ++ [ms]⟩, by simp only [Act.skip, Sys.step, hc2], hw', ta, tb ++ [ms], ?_, hk, ?_⟩
      · simp [ht2]
      · simp [ht1]
    · cases hs
  | exec t =>
    simp only [Sys.step] at hs
    split at hs
    · rename_i m rest htm
      simp only [Option.some.injEq] at hs
      subst hs
      obtain ⟨hw', hms⟩ := exec_sameBut hw m
      rw [ht1] at htm
      rcases Nat.lt_trichotomy t k with htk | htk | htk
      · have h1 : s2.th[t]? = some (m :: rest) := by
          rw [ht2, List.getElem?_append_left (by omega)]
          rwa [List.getElem?_append_left (by omega)] at htm
        have hnk : ¬ k < t := by omega
        refine ⟨⟨(exec s2.w m).1, s2.th.set t ((exec s2.w m).2 ++ rest)⟩, ?_, hw',
          ta.set t ((exec s2.w m).2 ++ rest), tb, ?_, by simpa using hk, ?_⟩
        · simp only [Act.skip, if_neg hnk, Sys.step, h1]
        · simp only [ht2]; rw [List.set_append_left _ _ (by omega)]
        · simp only [ht1, hms]; rw [List.set_append_left _ _ (by omega)]
      · subst htk
        rw [List.getElem?_append_right (by omega)] at htm
        simp [hk] at htm
      · have h1 : s2.th[t - 1]? = some (m :: rest) := by
          rw [ht2, List.getElem?_append_right (by omega)]
          rw [List.getElem?_append_right (by omega)] at htm
          have : t - ta.length = (t - 1 - ta.length) + 1 := by omega
          rw [this] at htm
          simpa using htm
        refine ⟨⟨(exec s2.w m).1, s2.th.set (t - 1) ((exec s2.w m).2 ++ rest)⟩, ?_, hw',
          ta, tb.set (t - 1 - ta.length) ((exec s2.w m).2 ++ rest), ?_, hk, ?_⟩
        · simp only [Act.skip, if_pos htk, Sys.step, h1]
        · simp only [ht2]; rw [List.set_append_right _ _ (by omega)]
        · simp only [ht1, hms]; rw [List.set_append_right _ _ (by omega)]
          have : t - ta.length = (t - 1 - ta.length) + 1 := by omega
          rw [this]; simp
    · cases hs

theorem run_simBut {o k : Nat} {s1 s2 s1' : Sys} (h : SimBut o k s1 s2) {as : List Act}
    (hs : s1.run as = some s1') : ∃ s2', s2.run (as.map (Act.skip k)) = some s2' ∧ SimBut o k s1' s2' := by
  induction as generalizing s1 s2 with
  | nil => simp only [Sys.run, Option.some.injEq] at hs; subst hs; exact ⟨s2, rfl, h⟩
  | cons a as ih =>
    simp only [Sys.run] at hs
    split at hs
    · rename_i s3 h3
      obtain ⟨s4, h4, hsim⟩ := step_simBut h h3
      obtain ⟨s5, h5, hfin⟩ := ih hsim hs
      exact ⟨s5, by simp only [List.map_cons, Sys.run, h4]; exact h5, hfin⟩
    · cases hs

/-- The other direction: what is possible without the drop, and does not use the slot, is possible after it. -/
theorem call_sameBut_conv {o : Nat} {w1 w2 w2' : World} {ms : List Micro} (h : SameBut o w1 w2) {c : Call}
    (ht : c.subject ≠ some o) (hc : call w2 c = some (w2', ms)) :
    ∃ w1', call w1 c = some (w1', ms) ∧ SameBut o w1' w2' := by
  obtain ⟨x, rfl, hl, he, hg⟩ := h
  obtain ⟨u, hu, ho, hw⟩ := call_withObjs _ _ _ _ hc
  have h1 := hw x hl (fun i hi => he _ (fun e => ht (e ▸ hi)))
  obtain ⟨w3, h3, hs⟩ := call_sameBut ⟨x, rfl, hl, he, hg⟩ h1
  rw [hc] at h3
  simp only [Option.some.injEq, Prod.mk.injEq, and_true] at h3
  subst h3
  exact ⟨_, h1, hs⟩

/-- The same schedule with room for one more (idle) thread `k`. -/
def Act.shift (k : Nat) : Act → Act
  | .call c => .call c
  | .exec t => .exec (if t < k then t else t + 1)

/-- The action does not use slot `o`. -/
def Act.avoids (o : Nat) : Act → Prop
  | .call c => c.subject ≠ some o
  | .exec _ => True

theorem step_simBut_conv {o k : Nat} {s1 s2 s2' : Sys} (h : SimBut o k s1 s2) {a : Act} (ha : a.avoids o)
    (hs : s2.step a = some s2') : ∃ s1', s1.step (a.shift k) = some s1' ∧ SimBut o k s1' s2' := by
  obtain ⟨hw, ta, tb, ht2, hk, ht1⟩ := h
  cases a with
  | call c =>
    simp only [Sys.step] at hs
    split at hs
    · rename_i w' ms hc
      simp only [Option.some.injEq] at hs
      subst hs
      obtain ⟨w1', hc1, hw'⟩ := call_sameBut_conv hw ha hc
      refine ⟨⟨w1', s1.th ++ [ms]⟩, by simp only [Act.shift, Sys.step, hc1], hw', ta, tb ++ [ms], ?_, hk, ?_⟩
      · simp [ht2]
      · simp [ht1]
    · cases hs
  | exec t =>
    simp only [Sys.step] at hs
    split at hs
    · rename_i m rest htm
      simp only [Option.some.injEq] at hs
      subst hs
      obtain ⟨hw', hms⟩ := exec_sameBut hw m
      rw [ht2] at htm
      by_cases htk : t < k
      · have h1 : s1.th[t]? = some (m :: rest) := by
          rw [ht1, List.getElem?_append_left (by omega)]
          rwa [List.getElem?_append_left (by omega)] at htm
        refine ⟨⟨(exec s1.w m).1, s1.th.set t ((exec s1.w m).2 ++ rest)⟩, ?_, hw',
          ta.set t ((exec s2.w m).2 ++ rest), tb, ?_, by simpa using hk, ?_⟩
        · simp only [Act.shift, if_pos htk, Sys.step, h1]
        · simp only [ht2]; rw [List.set_append_left _ _ (by omega)]
        · simp only [ht1, hms]; rw [List.set_append_left _ _ (by omega)]
      · have h1 : s1.th[t + 1]? = some (m :: rest) := by
          rw [ht1, List.getElem?_append_right (by omega)]
          rw [List.getElem?_append_right (by omega)] at htm
          have : t + 1 - ta.length = (t - ta.length) + 1 := by omega
          rw [this]
          simpa using htm
        refine ⟨⟨(exec s1.w m).1, s1.th.set (t + 1) ((exec s1.w m).2 ++ rest)⟩, ?_, hw',
          ta, tb.set (t - ta.length) ((exec s2.w m).2 ++ rest), ?_, hk, ?_⟩
        · simp only [Act.shift, if_neg htk, Sys.step, h1]
        · simp only [ht2]; rw [List.set_append_right _ _ (by omega)]
        · simp only [ht1, hms]; rw [List.set_append_right _ _ (by omega)]
          have : t + 1 - ta.length = (t - ta.length) + 1 := by omega
          rw [this]; simp
    · cases hs

theorem run_simBut_conv {o k : Nat} {s1 s2 s2' : Sys} (h : SimBut o k s1 s2) {as : List Act}
    (ha : ∀ a ∈ as, a.avoids o) (hs : s2.run as = some s2') :
    ∃ s1', s1.run (as.map (Act.shift k)) = some s1' ∧ SimBut o k s1' s2' := by
  induction as generalizing s1 s2 with
  | nil => simp only [Sys.run, Option.some.injEq] at hs; subst hs; exact ⟨s1, rfl, h⟩
  | cons a as ih =>
    simp only [Sys.run] at hs
    split at hs
    · rename_i s3 h3
      obtain ⟨s4, h4, hsim⟩ := step_simBut_conv h (ha a (List.mem_cons_self ..)) h3
      obtain ⟨s5, h5, hfin⟩ := ih hsim (fun b hb => ha b (List.mem_cons_of_mem _ hb)) hs
      exact ⟨s5, by simp only [List.map_cons, Sys.run, h4]; exact h5, hfin⟩
    · cases hs

end Xtra
