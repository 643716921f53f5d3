import Verif.Local
/-! # The channel does not look at wakers

Wakers are stored and woken, never compared or counted. Hence two worlds that differ in the wakers registered, and in the `Pending` answers
given so far, make the same steps. -/

set_option linter.unusedSimpArgs false

namespace Xtra

/-! ## Specification -/

/-- A poll returned `Pending`. -/
def Ev.isPending : Ev → Bool
  | .sendPending .. | .recvPending .. | .joinPending .. => true
  | _ => false

def WsCell.hush : WsCell → WsCell
  | .active _ m => .active none m
  | .delivered _ => .delivered none
  | .closed _ => .closed none
  | .gone => .gone

def RxCell.hush : RxCell → RxCell
  | .empty _ => .empty none
  | .full k _ => .full k none
  | .used => .used
  | .gone => .gone

def Resp.hush : Resp → Resp
  | .none => .none
  | .waiting _ => .waiting Option.none
  | .value v _ => .value v Option.none
  | .interrupted _ => .interrupted Option.none

def LCell.hush : LCell → LCell
  | .waiting _ => .waiting none
  | .notified _ => .notified none

/-- The world without wakers, its history without `Pending` answers. -/
def World.hush (w : World) : World :=
  { w with ws := w.ws.map .hush, cells := w.cells.map .hush, resp := w.resp.map .hush, lst := w.lst.map .hush,
           log := w.log.filter fun e => !e.isPending }

/-- The step without its waker. -/
def Micro.hush : Micro → Micro
  | .sendLd1 f md m rc _ => .sendLd1 f md m rc 0
  | .sendLd2 f md m rc _ => .sendLd2 f md m rc 0
  | .sendCrit f md m rc _ => .sendCrit f md m rc 0
  | .pollWs f md mid h _ => .pollWs f md mid h 0
  | .sendFin f md mid _ => .sendFin f md mid 0
  | .recvTry r b _ => .recvTry r b 0
  | .recvPoll r b c _ => .recvPoll r b c 0
  | .recvBcast r b c _ => .recvBcast r b c 0
  | m => m

/-- The call without its waker. -/
def Call.hush : Call → Call
  | .pollSend f _ => .pollSend f 0
  | .pollSendStale f _ => .pollSendStale f 0
  | .pollReply o _ => .pollReply o 0
  | .pollRecv r _ => .pollRecv r 0
  | .pollJoin j _ => .pollJoin j 0
  | c => c

/-- The schedule without wakers. -/
def Act.hush : Act → Act
  | .call c => .call c.hush
  | .exec t => .exec t

/-! ## Proofs -/

theorem WsCell.hush_hush (x : WsCell) : x.hush.hush = x.hush := by cases x <;> rfl
theorem RxCell.hush_hush (x : RxCell) : x.hush.hush = x.hush := by cases x <;> rfl
theorem Resp.hush_hush (x : Resp) : x.hush.hush = x.hush := by cases x <;> rfl
theorem LCell.hush_hush (x : LCell) : x.hush.hush = x.hush := by cases x <;> rfl

theorem WsCell.hush_active (wk m) : (WsCell.active wk m).hush = .active none m := rfl
theorem Resp.hush_waiting (wk) : (Resp.waiting wk).hush = .waiting Option.none := rfl
theorem RxCell.hush_empty (wk) : (RxCell.empty wk).hush = .empty none := rfl
theorem LCell.hush_waiting (wk) : (LCell.waiting wk).hush = .waiting none := rfl

theorem World.hush_hush (w : World) : w.hush.hush = w.hush := by
  simp [World.hush, Function.comp_def, WsCell.hush_hush, RxCell.hush_hush, Resp.hush_hush, LCell.hush_hush]

theorem ws_hush (w : World) (i : Nat) : w.hush.ws[i]? = (w.ws[i]?).map .hush := by simp [World.hush]
theorem cells_hush (w : World) (i : Nat) : w.hush.cells[i]? = (w.cells[i]?).map .hush := by simp [World.hush]
theorem resp_hush (w : World) (i : Nat) : w.hush.resp[i]? = (w.resp[i]?).map .hush := by simp [World.hush]
theorem lst_hush (w : World) (i : Nat) : w.hush.lst[i]? = (w.lst[i]?).map .hush := by simp [World.hush]

theorem modify_map {α : Type _} {f g : α → α} (hfg : ∀ x, g (f x) = f (g x)) (l : List α) (i : Nat) :
    (l.map f).modify i g = (l.modify i g).map f := by
  apply List.ext_getElem?
  intro j
  simp only [List.getElem?_modify, List.getElem?_map]
  cases l[j]? with
  | none => rfl
  | some x => by_cases h : i = j <;> simp [h, hfg]

theorem kill_hush (w : World) (m : Msg) : w.hush.kill m = (w.kill m).hush := by
  simp only [World.kill, World.hush]
  rw [modify_map (fun x => by cases x <;> rfl)]
  rfl

theorem killAll_hush (ms : List Msg) (w : World) : w.hush.killAll ms = (w.killAll ms).hush := by
  induction ms generalizing w with
  | nil => rfl
  | cons m ms ih => simp only [World.killAll, kill_hush, ih]

theorem set_hush (w : World) (h : Nat) (x : WsCell) :
    ({ w.hush with ws := w.hush.ws.set h x.hush } : World) = World.hush { w with ws := w.ws.set h x } := by
  simp [World.hush, List.map_set]

theorem closeHandle_hush (w : World) (h : Nat) : w.hush.closeHandle h = (w.closeHandle h).hush := by
  simp only [World.closeHandle, ws_hush]
  cases hx : w.ws[h]? with
  | none => rfl
  | some x =>
    cases x with
    | active wk m =>
      simp only [Option.map_some, WsCell.hush]
      rw [show WsCell.closed none = (WsCell.closed wk).hush from rfl, set_hush, kill_hush]
    | _ => rfl

theorem closeHandles_hush (hs : List Nat) (w : World) : w.hush.closeHandles hs = (w.closeHandles hs).hush := by
  induction hs generalizing w with
  | nil => rfl
  | cons h hs ih => simp only [World.closeHandles, closeHandle_hush, ih]

theorem shutTx_hush (w : World) : w.hush.shutTx = w.shutTx.hush := by
  simp only [World.shutTx]
  have h0 : ({ w.hush with lst := w.hush.lst.map LCell.notify, rang := true, uq := [], bqs := [] } : World) =
      World.hush { w with lst := w.lst.map LCell.notify, rang := true, uq := [], bqs := [] } := by
    simp only [World.hush, List.map_map, World.mk.injEq, true_and, and_true]
    congr 1
    funext x; cases x <;> rfl
  have h1 := (congrArg (fun x => x.killAll w.uq) h0).trans (killAll_hush w.uq _)
  generalize hw2 : World.killAll { w with lst := w.lst.map LCell.notify, rang := true, uq := [], bqs := [] } w.uq = w2 at h1
  have h1' : World.killAll { w.hush with lst := w.hush.lst.map LCell.notify, rang := true, uq := [], bqs := [] } w.hush.uq = w2.hush := h1
  rw [h1']
  have h2 := closeHandles_hush w2.wOne { w2 with wOne := [] }
  generalize hw3 : World.closeHandles { w2 with wOne := [] } w2.wOne = w3 at h2
  have h2' : World.closeHandles { w2.hush with wOne := [] } w2.hush.wOne = w3.hush := h2
  rw [h2']
  exact closeHandles_hush w3.wAll { w3 with wAll := [] }

theorem fulfil_hush (cells : List RxCell) (q : List Nat) (m : Msg) :
    fulfil (cells.map .hush) q m = ((fulfil cells q m).1.map .hush, (fulfil cells q m).2.1, (fulfil cells q m).2.2) := by
  induction q with
  | nil => rfl
  | cons c q ih =>
    simp only [fulfil, List.getElem?_map]
    cases cells[c]? with
    | none => exact ih
    | some x =>
      cases x with
      | empty wk => simp [RxCell.hush, List.map_set]
      | _ => exact ih

theorem notifyCell_hush (cells : List RxCell) (c : Nat) (k : Ctrl) : notifyCell (cells.map .hush) c k = (notifyCell cells c k).map .hush := by
  simp only [notifyCell, List.getElem?_map]
  cases cells[c]? with
  | none => rfl
  | some x =>
    cases x with
    | empty wk => simp [RxCell.hush, List.map_set]
    | _ => rfl

theorem notifyAll_hush (q : List Nat) (cells : List RxCell) (k : Ctrl) :
    q.foldl (fun cs c => notifyCell cs c k) (cells.map .hush) = (q.foldl (fun cs c => notifyCell cs c k) cells).map .hush := by
  induction q generalizing cells with
  | nil => rfl
  | cons c q ih => simp only [List.foldl_cons, notifyCell_hush, ih]

theorem wsActive_hush (ws : List WsCell) (h : Nat) : wsActive (ws.map .hush) h = wsActive ws h := by
  simp only [wsActive, List.getElem?_map]
  cases ws[h]? with
  | none => rfl
  | some x => cases x <;> rfl

theorem wsPrio_hush (ws : List WsCell) (h : Nat) : wsPrio (ws.map .hush) h = wsPrio ws h := by
  simp only [wsPrio, List.getElem?_map]
  cases ws[h]? with
  | none => rfl
  | some x => cases x <;> rfl

theorem takeWaiting_hush (n : Nat) (ws : List WsCell) (q : List Nat) :
    takeWaiting n (ws.map .hush) q = ((takeWaiting n ws q).1.map .hush, (takeWaiting n ws q).2.1, (takeWaiting n ws q).2.2) := by
  induction n generalizing ws q with
  | zero => rfl
  | succ n ih =>
    have h1 : wsActive (ws.map WsCell.hush) = wsActive ws := funext (wsActive_hush ws)
    have h2 : wsPrio (ws.map WsCell.hush) = wsPrio ws := funext (wsPrio_hush ws)
    simp only [takeWaiting, h1, h2]
    split
    · rfl
    · split
      · rfl
      · rename_i h _
        have h3 : (ws.map WsCell.hush)[h]? = (ws[h]?).map .hush := by simp
        rw [h3]
        have h4 : (ws.map WsCell.hush).set h (.delivered none) = (ws.set h (.delivered none)).map .hush := by simp [List.map_set, WsCell.hush]
        rw [h4, ih]
        cases ws[h]? with
        | none => rfl
        | some x =>
          cases x with
          | active wk m => simp [WsCell.hush, List.map_set]
          | _ => rfl

theorem sendBroadcast_hush (w : World) (m : Msg) : w.hush.sendBroadcast m = (w.sendBroadcast m).hush := by
  simp only [World.sendBroadcast]
  rw [show w.hush.alive = w.alive from rfl]
  simp only [World.hush]
  rw [notifyAll_hush]
  simp [Ev.isPending]

theorem sendOne_hush (w : World) (m : Msg) : w.hush.sendOne m = ((w.sendOne m).1.hush, (w.sendOne m).2) := by
  have hf := fulfil_hush w.cells w.wRx m
  unfold World.sendOne
  rw [show w.hush.cells = w.cells.map .hush from rfl, show w.hush.wRx = w.wRx from rfl, hf]
  obtain ⟨cells, rest, b⟩ := fulfil w.cells w.wRx m
  cases b
  · simp only
    rw [show ({ w.hush with cells := cells.map RxCell.hush, wRx := rest } : World) =
      World.hush { w with cells := cells, wRx := rest } from rfl]
    generalize ({ w with cells := cells, wRx := rest } : World) = w1
    rw [show w1.hush.uniFull = w1.uniFull from rfl]
    split
    · simp [World.hush, WsCell.hush]
    · rfl
  · rfl

theorem sendAll_hush (w : World) (m : Msg) : w.hush.sendAll m = ((w.sendAll m).1.hush, (w.sendAll m).2) := by
  simp only [World.sendAll]
  rw [show w.hush.bcFull = w.bcFull from rfl]
  split
  · simp [World.hush, WsCell.hush]
  · rw [sendBroadcast_hush]

theorem requeue_hush (w : World) (m : Msg) : w.hush.requeue m = (w.requeue m).hush := by
  have hf := fulfil_hush w.cells w.wRx m
  unfold World.requeue
  rw [show w.hush.cells = w.cells.map .hush from rfl, show w.hush.wRx = w.wRx from rfl, hf]
  obtain ⟨cells, rest, b⟩ := fulfil w.cells w.wRx m
  cases b <;> simp [World.hush, Ev.isPending]

theorem decBq_hush (w : World) (b : Nat) : w.hush.decBq b = (w.decBq b).hush := by
  simp only [World.decBq]
  rw [show w.hush.bq = w.bq from rfl]
  split
  · split <;> rfl
  · rfl

theorem incBq_hush (w : World) (b : Nat) : w.hush.incBq b = (w.incBq b).hush := by
  simp only [World.incBq]
  rw [show w.hush.bq = w.bq from rfl]
  split <;> rfl

theorem popUnicast_hush (w : World) : w.hush.popUnicast = w.popUnicast.map fun p => (p.1, p.2.hush) := by
  unfold World.popUnicast
  rw [show w.hush.uq = w.uq from rfl]
  cases Heap.pop Msg.le w.uq with
  | none => rfl
  | some p =>
    obtain ⟨m, q⟩ := p
    simp only
    rw [show World.uniFull { w.hush with uq := q } = World.uniFull { w with uq := q } from rfl]
    split
    · rfl
    · rw [show w.hush.ws = w.ws.map .hush from rfl, show w.hush.wOne = w.wOne from rfl, takeWaiting_hush]
      obtain ⟨ws, q', o⟩ := takeWaiting (w.wOne.length + 1) w.ws w.wOne
      cases o <;> rfl

theorem popBroadcast_hush (w : World) (b : Nat) : w.hush.popBroadcast b = (w.popBroadcast b).map fun p => (p.1, p.2.hush) := by
  unfold World.popBroadcast
  rw [show w.hush.bq = w.bq from rfl]
  split
  · rfl
  · rename_i q hq
    cases hp : Heap.pop Msg.le q.items with
    | none => simp [hp]
    | some p =>
      obtain ⟨m, items⟩ := p
      simp only [hp]
      rw [show (World.longest { w.hush with bq := w.bq.set b { q with items := items } }) =
        World.longest { w with bq := w.bq.set b { q with items := items } } from rfl]
      generalize (World.longest { w with bq := w.bq.set b { q with items := items } }) = n
      rw [show World.bcFull { w.hush with bq := w.bq.set b { q with items := items }, tail := n } =
        World.bcFull { w with bq := w.bq.set b { q with items := items }, tail := n } from rfl]
      split
      · rfl
      · rw [show w.hush.ws = w.ws.map .hush from rfl, show w.hush.wAll = w.wAll from rfl, takeWaiting_hush]
        obtain ⟨ws, q', o⟩ := takeWaiting (w.wAll.length + 1) w.ws w.wAll
        cases o with
        | none => rfl
        | some m' =>
          have := sendBroadcast_hush { w with bq := w.bq.set b { q with items := items }, tail := n, ws := ws, wAll := q' } m'
          simp only [Option.map_some, ← this]
          rfl

theorem tryRecv_hush (w : World) (b : Nat) : w.hush.tryRecv b = ((w.tryRecv b).1.hush, (w.tryRecv b).2) := by
  simp only [World.tryRecv, popBroadcast_hush, popUnicast_hush]
  rw [show w.hush.items b = w.items b from rfl, show w.hush.uq = w.uq from rfl, show w.hush.sc = w.sc from rfl, show w.hush.lag = w.lag from rfl]
  split
  · cases w.popBroadcast b <;> rfl
  · cases w.popUnicast <;> rfl
  · split
    · rfl
    · simp [World.hush, RxCell.hush]

/-- What a step does up to wakers depends on the world up to wakers. -/
theorem exec_hush (w : World) (m : Micro) : (exec w.hush m.hush).1.hush = (exec w m).1.hush ∧
    (exec w.hush m.hush).2.map Micro.hush = (exec w m).2.map Micro.hush := by
  have hh := World.hush_hush
  have ok : ∀ {p q : World × List Micro}, p.1 = q.1.hush → p.2.map Micro.hush = q.2.map Micro.hush →
      p.1.hush = q.1.hush ∧ p.2.map Micro.hush = q.2.map Micro.hush := fun h1 h2 => ⟨by rw [h1, hh], h2⟩
  have hset : ∀ (c : Nat) (x : RxCell), (w.cells.map RxCell.hush).set c x.hush = (w.cells.set c x).map .hush := fun c x => by simp [List.map_set]
  cases m with
  | sendLd1 f md m rc wk =>
    simp only [exec, Micro.hush]
    rw [show w.hush.rcv = w.rcv from rfl, kill_hush]
    split
    · exact ok rfl rfl
    · exact ok rfl rfl
  | sendLd2 f md m rc wk =>
    simp only [exec, Micro.hush]
    rw [show w.hush.sc = w.sc from rfl, kill_hush]
    split
    · exact ok rfl rfl
    · exact ok rfl rfl
  | sendCrit f md m rc wk =>
    have h1 : w.hush.noteLate m = (w.noteLate m).hush := by
      simp only [World.noteLate, World.lateLog]
      rw [show w.hush.rcv = w.rcv from rfl]
      split <;> rfl
    have h2 : ∀ (o : SendOut), (afterSend f md m.id rc 0 o).map Micro.hush = (afterSend f md m.id rc wk o).map Micro.hush := by
      intro o; cases o <;> rfl
    cases md <;> simp only [exec, Micro.hush, h1, sendOne_hush, sendAll_hush] <;> exact ok (p := (_, _)) (q := (_, _)) rfl (h2 _)
  | pollWs f md mid h wk =>
    simp only [exec, Micro.hush, ws_hush]
    cases hx : w.ws[h]? with
    | none => exact ok rfl rfl
    | some x =>
      cases x with
      | active wk' m =>
        refine ⟨?_, rfl⟩
        simp [World.hush, World.setObj, World.ev, List.map_set, WsCell.hush_active, WsCell.hush_hush, RxCell.hush_hush, Resp.hush_hush,
          LCell.hush_hush, Ev.isPending, Function.comp_def]
      | delivered wk' => exact ok (set_hush w h .gone) rfl
      | closed wk' =>
        refine ok (p := (_, _)) (q := (_, _)) ?_ rfl
        have := set_hush w h .gone
        exact congrArg (fun x : World => (x.setObj f .gone).ev (.sendErr f mid)) this
      | gone => exact ok rfl rfl
  | sendFin f md mid wk =>
    cases md with
    | bcast => exact ok rfl rfl
    | detached => exact ok rfl rfl
    | ret =>
      simp only [exec, Micro.hush, resp_hush]
      cases hx : w.resp[mid]? with
      | none => exact ok rfl rfl
      | some x =>
        cases x with
        | waiting wk' =>
          refine ⟨?_, rfl⟩
          simp [World.hush, World.setObj, World.ev, List.map_set, Resp.hush_waiting, WsCell.hush_hush, RxCell.hush_hush, Resp.hush_hush,
            LCell.hush_hush, Ev.isPending, Function.comp_def]
        | _ => exact ok rfl rfl
  | dropWs h =>
    simp only [exec, Micro.hush, ws_hush]
    have h1 := set_hush w h .gone
    cases hx : w.ws[h]? with
    | none => exact ok h1 rfl
    | some x =>
      cases x with
      | active wk' m => exact ok ((congrArg (fun x : World => x.kill m) h1).trans (kill_hush _ m)) rfl
      | _ => exact ok h1 rfl
  | dropTx rc =>
    simp only [exec, Micro.hush]
    split
    · exact ok rfl rfl
    · exact ok rfl rfl
  | shutRx => exact ok rfl rfl
  | notifyShut c =>
    refine ok (p := (_, _)) (q := (_, _)) ?_ rfl
    simp only [exec, Micro.hush, World.hush, notifyCell_hush]
  | dropRx => exact ok rfl rfl
  | shutTx => exact ok (shutTx_hush w) rfl
  | dropBq b => exact ok (decBq_hush w b) rfl
  | recvTry r b wk =>
    simp only [exec, Micro.hush, tryRecv_hush]
    cases hr : (w.tryRecv b).2 with
    | ready am => exact ok rfl rfl
    | wait c => exact ok rfl rfl
    | panic => exact ok rfl rfl
  | recvPoll r b c wk =>
    simp only [exec, Micro.hush, cells_hush]
    cases hx : w.cells[c]? with
    | none => exact ok rfl rfl
    | some x =>
      cases x with
      | empty wk' =>
        refine ⟨?_, rfl⟩
        simp [World.hush, World.setObj, World.ev, List.map_set, RxCell.hush_empty, WsCell.hush_hush, RxCell.hush_hush, Resp.hush_hush,
          LCell.hush_hush, Ev.isPending, Function.comp_def]
      | full k wk' =>
        cases k <;> refine ok (p := (_, _)) (q := (_, _)) ?_ rfl <;>
          simp [World.hush, World.yieldMsg, World.ev, List.map_set, RxCell.hush, Ev.isPending]
      | used => exact ok rfl rfl
      | gone => exact ok rfl rfl
  | recvBcast r b c wk =>
    simp only [exec, Micro.hush, popBroadcast_hush]
    cases hp : w.popBroadcast b with
    | none =>
      refine ok (p := (_, _)) (q := (_, _)) ?_ rfl
      simp [World.hush, List.map_set, RxCell.hush]
    | some p =>
      obtain ⟨m, w'⟩ := p
      refine ok (p := (_, _)) (q := (_, _)) ?_ rfl
      simp [World.hush, World.yieldMsg, World.ev, List.map_set, RxCell.hush, Ev.isPending]
  | cancel b c =>
    simp only [exec, Micro.hush, cells_hush]
    cases hx : w.cells[c]? with
    | none => exact ok rfl rfl
    | some x =>
      cases x with
      | full k wk' =>
        cases k <;> refine ok (p := (_, _)) (q := (_, _)) ?_ rfl <;> simp [World.hush, List.map_set, RxCell.hush]
      | _ => exact ok rfl rfl
  | requeue m => exact ok (requeue_hush w m) rfl
  | dropCell c =>
    simp only [exec, Micro.hush, cells_hush]
    have hm : ∀ i, (w.resp.map Resp.hush).modify i Resp.interrupt = (w.resp.modify i Resp.interrupt).map .hush := fun i =>
      modify_map (fun x => by cases x <;> rfl) _ _
    cases hx : w.cells[c]? with
    | none => refine ok (p := (_, _)) (q := (_, _)) ?_ rfl; simp [World.hush, List.map_set, RxCell.hush]
    | some x =>
      cases x with
      | full k wk' =>
        cases k <;> refine ok (p := (_, _)) (q := (_, _)) ?_ rfl <;>
          simp [World.hush, List.map_set, RxCell.hush, hm, Ev.isPending]
      | _ => refine ok (p := (_, _)) (q := (_, _)) ?_ rfl; simp [World.hush, List.map_set, RxCell.hush]
  | dropMsg m => exact ok (kill_hush w m) rfl
  | discard am =>
    cases am with
    | one m =>
      refine ok (p := (_, _)) (q := (_, _)) ?_ rfl
      simp only [exec, Micro.hush, World.hush]
      rw [modify_map (fun x => by cases x <;> rfl)]
      rfl
    | _ => exact ok rfl rfl
  | respond b am r brk =>
    cases am with
    | one m =>
      refine ok (p := (_, _)) (q := (_, _)) ?_ rfl
      simp only [exec, Micro.hush, World.hush]
      rw [modify_map (fun x => by cases x <;> rfl)]
      rfl
    | _ => exact ok rfl rfl
  | newBq o => exact ok rfl rfl
  | bcastShutdown =>
    refine ok (p := (_, _)) (q := (_, _)) ?_ rfl
    have := sendBroadcast_hush { w with resp := w.resp ++ [Resp.none] } ⟨w.resp.length, .shutdown⟩
    simp only [exec, Micro.hush]
    rw [← this]
    simp [World.hush, Resp.hush]
  | conn1 i =>
    simp only [exec, Micro.hush]
    rw [show w.hush.rcv = w.rcv from rfl]
    split <;> exact ok rfl rfl
  | conn2 i => exact ok rfl rfl
  | join1 o l =>
    simp only [exec, Micro.hush]
    rw [show w.hush.rcv = w.rcv from rfl]
    split <;> exact ok rfl rfl
  | join2 o l =>
    simp only [exec, Micro.hush]
    rw [show w.hush.sc = w.sc from rfl]
    split <;> exact ok rfl rfl

/-- The result of a step without wakers. -/
def hush2 (p : World × List Micro) : World × List Micro := (p.1.hush, p.2.map Micro.hush)

/-- What a call does up to wakers depends on the world up to wakers. -/
theorem call_hush (w : World) (c : Call) : (call w.hush c.hush).map hush2 = (call w c).map hush2 := by
  have hh := World.hush_hush
  have ok : ∀ {p q : World × List Micro}, p.1 = q.1.hush → p.2.map Micro.hush = q.2.map Micro.hush →
      Option.map hush2 (some p) = Option.map hush2 (some q) := fun h1 h2 => by simp [hush2, h1, hh, h2]
  have hlen : w.hush.resp.length = w.resp.length := by simp [World.hush]
  have hlen2 : w.hush.lst.length = w.lst.length := by simp [World.hush]
  cases c
  case pollReply o wk =>
    simp only [call, Call.hush, resp_hush]
    rw [show w.hush.objs = w.objs from rfl]
    split
    · rename_i mid _
      cases hx : w.resp[mid]? with
      | none => exact ok rfl rfl
      | some x =>
        cases x with
        | waiting wk' =>
          simp [hush2, World.hush, World.setObj, World.ev, List.map_set, Resp.hush_waiting, WsCell.hush_hush, RxCell.hush_hush, Resp.hush_hush,
            LCell.hush_hush, Ev.isPending, Function.comp_def]
        | _ => exact ok rfl rfl
    · rfl
  case pollJoin j wk =>
    simp only [call, Call.hush, lst_hush]
    rw [show w.hush.objs = w.objs from rfl]
    split
    · exact ok rfl rfl
    · rename_i l _
      cases hx : w.lst[l]? with
      | none => exact ok rfl rfl
      | some x =>
        cases x with
        | waiting wk' =>
          simp [hush2, World.hush, World.setObj, World.ev, List.map_set, LCell.hush_waiting, WsCell.hush_hush, RxCell.hush_hush, Resp.hush_hush,
            LCell.hush_hush, Ev.isPending, Function.comp_def]
        | notified wk' => exact ok rfl rfl
    · rfl
  case next i =>
    simp only [call, Call.hush]
    rw [show w.hush.objs = w.objs from rfl]
    split
    · rename_i b _
      exact ok (p := (_, _)) (q := (_, _)) (congrArg (fun x : World => x.addObj (.recv b .new)) (incBq_hush { w with rcv := w.rcv + 1 } b)) rfl
    · rfl
  case send i =>
    simp only [call, Call.hush, hlen]
    rw [show w.hush.objs = w.objs from rfl]
    split
    · refine ok (p := (_, _)) (q := (_, _)) ?_ rfl
      simp [World.hush, World.addTx, World.addObj, World.ev, Resp.hush, Ev.isPending]
    · rfl
  case broadcast i =>
    simp only [call, Call.hush, hlen]
    rw [show w.hush.objs = w.objs from rfl]
    split
    · refine ok (p := (_, _)) (q := (_, _)) ?_ rfl
      simp [World.hush, World.addTx, World.addObj, World.ev, Resp.hush, Ev.isPending]
    · rfl
  case join i =>
    simp only [call, Call.hush, hlen2]
    rw [show w.hush.objs = w.objs from rfl]
    split
    · refine ok (p := (_, _)) (q := (_, _)) ?_ rfl
      simp [World.hush, World.addObj, LCell.hush]
    · rfl
  case joinStale i =>
    simp only [call, Call.hush, hlen2]
    rw [show w.hush.objs = w.objs from rfl, show w.hush.rang = w.rang from rfl]
    split
    · split
      · rfl
      · refine ok (p := (_, _)) (q := (_, _)) ?_ rfl
        simp [World.hush, World.addObj, LCell.hush]
    · rfl
  all_goals
    simp only [call, Call.hush]
    try rw [show w.hush.objs = w.objs from rfl]
    try rw [show w.hush.sc = w.sc from rfl]
    repeat' split
    all_goals first | rfl | exact ok rfl rfl

/-- The system without wakers. -/
def Sys.hush (s : Sys) : Sys := ⟨s.w.hush, s.th.map fun ms => ms.map Micro.hush⟩

theorem step_hush (s : Sys) (a : Act) : (s.hush.step a.hush).map Sys.hush = (s.step a).map Sys.hush := by
  have hm : ∀ m : Micro, m.hush.hush = m.hush := fun m => by cases m <;> rfl
  have hms : ∀ ms : List Micro, (ms.map Micro.hush).map Micro.hush = ms.map Micro.hush := fun ms => by simp [Function.comp_def, hm]
  cases a with
  | call c =>
    have := call_hush s.w c
    simp only [Sys.step, Act.hush]
    rw [show s.hush.w = s.w.hush from rfl]
    cases h1 : call s.w c with
    | none => cases h2 : call s.w.hush c.hush with
      | none => rfl
      | some p => rw [h1, h2] at this; simp at this
    | some q => cases h2 : call s.w.hush c.hush with
      | none => rw [h1, h2] at this; simp at this
      | some p =>
        rw [h1, h2] at this
        simp [hush2] at this
        simp [Sys.hush, this.1, this.2, Function.comp_def, hm]
  | exec t =>
    simp only [Sys.step, Act.hush]
    have h0 : s.hush.th[t]? = (s.th[t]?).map (fun ms => ms.map Micro.hush) := by simp [Sys.hush]
    rw [h0]
    cases h1 : s.th[t]? with
    | none => rfl
    | some ms =>
      cases ms with
      | nil => rfl
      | cons m rest =>
        obtain ⟨h2, h3⟩ := exec_hush s.w m
        simp only [Option.map_some, List.map_cons, Option.some.injEq]
        rw [show s.hush.w = s.w.hush from rfl]
        simp [Sys.hush, h2, List.map_set, h3, Function.comp_def, hm]

theorem step_alike {s s' : Sys} {a a' : Act} (h : s.hush = s'.hush) (ha : a.hush = a'.hush) :
    (s.step a).map Sys.hush = (s'.step a').map Sys.hush := by rw [← step_hush, h, ha, step_hush]

theorem run_alike {as as' : List Act} {s s' : Sys} (h : s.hush = s'.hush) (ha : as.map Act.hush = as'.map Act.hush) :
    (s.run as).map Sys.hush = (s'.run as').map Sys.hush := by
  induction as generalizing s s' as' with
  | nil =>
    cases as' with
    | nil => simp [Sys.run, h]
    | cons a' as' => simp at ha
  | cons a as ih =>
    cases as' with
    | nil => simp at ha
    | cons a' as' =>
      simp only [List.map_cons, List.cons.injEq] at ha
      have h1 := step_alike h ha.1
      simp only [Sys.run]
      cases h2 : s.step a with
      | none => cases h3 : s'.step a' with
        | none => rfl
        | some p => rw [h2, h3] at h1; simp at h1
      | some q => cases h3 : s'.step a' with
        | none => rw [h2, h3] at h1; simp at h1
        | some p =>
          rw [h2, h3] at h1
          simp only [Option.map_some, Option.some.injEq] at h1
          exact ih h1 ha.2

/-! ## An idle thread more or less -/

/-- The first system is the second with an idle thread `k`. -/
def Gap (k : Nat) (s1 s2 : Sys) : Prop := s1.w = s2.w ∧ ∃ a b, s2.th = a ++ b ∧ a.length = k ∧ s1.th = a ++ [] :: b

theorem step_gap {k : Nat} {s1 s2 s1' : Sys} (h : Gap k s1 s2) {a : Act} (hs : s1.step a = some s1') :
    ∃ s2', s2.step (a.skip k) = some s2' ∧ Gap k s1' s2' := by
  obtain ⟨hw, ta, tb, ht2, hk, ht1⟩ := h
  cases a with
  | call c =>
    simp only [Sys.step] at hs
    split at hs
    · rename_i w' ms hc
      simp only [Option.some.injEq] at hs
      subst hs
      rw [hw] at hc
      refine ⟨⟨w', s2.th ++ [ms]⟩, by simp only [Act.skip, Sys.step, hc], rfl, ta, tb ++ [ms], ?_, hk, ?_⟩
      · simp [ht2]
      · simp [ht1]
    · cases hs
  | exec t =>
    simp only [Sys.step] at hs
    split at hs
    · rename_i m rest htm
      simp only [Option.some.injEq] at hs
      subst hs
      rw [ht1] at htm
      rcases Nat.lt_trichotomy t k with htk | htk | htk
      · have h1 : s2.th[t]? = some (m :: rest) := by
          rw [ht2, List.getElem?_append_left (by omega)]
          rwa [List.getElem?_append_left (by omega)] at htm
        have hnk : ¬ k < t := by omega
        refine ⟨⟨(exec s2.w m).1, s2.th.set t ((exec s2.w m).2 ++ rest)⟩, ?_, by rw [hw],
          ta.set t ((exec s2.w m).2 ++ rest), tb, ?_, by simpa using hk, ?_⟩
        · simp only [Act.skip, if_neg hnk, Sys.step, h1]
        · simp only [ht2]; rw [List.set_append_left _ _ (by omega)]
        · simp only [ht1, hw]; rw [List.set_append_left _ _ (by omega)]
      · subst htk
        rw [List.getElem?_append_right (by omega)] at htm
        simp [hk] at htm
      · have h1 : s2.th[t - 1]? = some (m :: rest) := by
          rw [ht2, List.getElem?_append_right (by omega)]
          rw [List.getElem?_append_right (by omega)] at htm
          have : t - ta.length = (t - 1 - ta.length) + 1 := by omega
          rw [this] at htm
          simpa using htm
        refine ⟨⟨(exec s2.w m).1, s2.th.set (t - 1) ((exec s2.w m).2 ++ rest)⟩, ?_, by rw [hw],
          ta, tb.set (t - 1 - ta.length) ((exec s2.w m).2 ++ rest), ?_, hk, ?_⟩
        · simp only [Act.skip, if_pos htk, Sys.step, h1]
        · simp only [ht2]; rw [List.set_append_right _ _ (by omega)]
        · simp only [ht1, hw]; rw [List.set_append_right _ _ (by omega)]
          have : t - ta.length = (t - 1 - ta.length) + 1 := by omega
          rw [this]; simp
    · cases hs

theorem run_gap {k : Nat} {s1 s2 s1' : Sys} (h : Gap k s1 s2) {as : List Act} (hs : s1.run as = some s1') :
    ∃ s2', s2.run (as.map (Act.skip k)) = some s2' ∧ Gap k s1' s2' := by
  induction as generalizing s1 s2 with
  | nil => simp only [Sys.run, Option.some.injEq] at hs; subst hs; exact ⟨s2, rfl, h⟩
  | cons a as ih =>
    simp only [Sys.run] at hs
    split at hs
    · rename_i s3 h3
      obtain ⟨s4, h4, hsim⟩ := step_gap h h3
      obtain ⟨s5, h5, hfin⟩ := ih hsim hs
      exact ⟨s5, by simp only [List.map_cons, Sys.run, h4]; exact h5, hfin⟩
    · cases hs

theorem step_gap_conv {k : Nat} {s1 s2 s2' : Sys} (h : Gap k s1 s2) {a : Act} (hs : s2.step a = some s2') :
    ∃ s1', s1.step (a.shift k) = some s1' ∧ Gap k s1' s2' := by
  obtain ⟨hw, ta, tb, ht2, hk, ht1⟩ := h
  cases a with
  | call c =>
    simp only [Sys.step] at hs
    split at hs
    · rename_i w' ms hc
      simp only [Option.some.injEq] at hs
      subst hs
      rw [← hw] at hc
      refine ⟨⟨w', s1.th ++ [ms]⟩, by simp only [Act.shift, Sys.step, hc], rfl, ta, tb ++ [ms], ?_, hk, ?_⟩
      · simp [ht2]
      · simp [ht1]
    · cases hs
  | exec t =>
    simp only [Sys.step] at hs
    split at hs
    · rename_i m rest htm
      simp only [Option.some.injEq] at hs
      subst hs
      rw [ht2] at htm
      by_cases htk : t < k
      · have h1 : s1.th[t]? = some (m :: rest) := by
          rw [ht1, List.getElem?_append_left (by omega)]
          rwa [List.getElem?_append_left (by omega)] at htm
        refine ⟨⟨(exec s1.w m).1, s1.th.set t ((exec s1.w m).2 ++ rest)⟩, ?_, by rw [hw],
          ta.set t ((exec s2.w m).2 ++ rest), tb, ?_, by simpa using hk, ?_⟩
        · simp only [Act.shift, if_pos htk, Sys.step, h1]
        · simp only [ht2]; rw [List.set_append_left _ _ (by omega)]
        · simp only [ht1, hw]; rw [List.set_append_left _ _ (by omega)]
      · have h1 : s1.th[t + 1]? = some (m :: rest) := by
          rw [ht1, List.getElem?_append_right (by omega)]
          rw [List.getElem?_append_right (by omega)] at htm
          have : t + 1 - ta.length = (t - ta.length) + 1 := by omega
          rw [this]
          simpa using htm
        refine ⟨⟨(exec s1.w m).1, s1.th.set (t + 1) ((exec s1.w m).2 ++ rest)⟩, ?_, by rw [hw],
          ta, tb.set (t - ta.length) ((exec s2.w m).2 ++ rest), ?_, hk, ?_⟩
        · simp only [Act.shift, if_neg htk, Sys.step, h1]
        · simp only [ht2]; rw [List.set_append_right _ _ (by omega)]
        · simp only [ht1, hw]; rw [List.set_append_right _ _ (by omega)]
          have : t + 1 - ta.length = (t - ta.length) + 1 := by omega
          rw [this]; simp
    · cases hs

theorem run_gap_conv {k : Nat} {s1 s2 s2' : Sys} (h : Gap k s1 s2) {as : List Act} (hs : s2.run as = some s2') :
    ∃ s1', s1.run (as.map (Act.shift k)) = some s1' ∧ Gap k s1' s2' := by
  induction as generalizing s1 s2 with
  | nil => simp only [Sys.run, Option.some.injEq] at hs; subst hs; exact ⟨s1, rfl, h⟩
  | cons a as ih =>
    simp only [Sys.run] at hs
    split at hs
    · rename_i s3 h3
      obtain ⟨s4, h4, hsim⟩ := step_gap_conv h h3
      obtain ⟨s5, h5, hfin⟩ := ih hsim hs
      exact ⟨s5, by simp only [List.map_cons, Sys.run, h4]; exact h5, hfin⟩
    · cases hs

end Xtra
