import Verif.Model
/-! Generated by tools/gen_frame.py: for every critical section, the fields it does not change. -/

set_option linter.unusedSimpArgs false

namespace Xtra

@[simp] theorem World.setObj_cap (w : World) (i : Nat) (o : Obj) : (w.setObj i o).cap = w.cap := by
  rfl
@[simp] theorem World.setObj_wOne (w : World) (i : Nat) (o : Obj) : (w.setObj i o).wOne = w.wOne := by
  rfl
@[simp] theorem World.setObj_wAll (w : World) (i : Nat) (o : Obj) : (w.setObj i o).wAll = w.wAll := by
  rfl
@[simp] theorem World.setObj_wRx (w : World) (i : Nat) (o : Obj) : (w.setObj i o).wRx = w.wRx := by
  rfl
@[simp] theorem World.setObj_uq (w : World) (i : Nat) (o : Obj) : (w.setObj i o).uq = w.uq := by
  rfl
@[simp] theorem World.setObj_bqs (w : World) (i : Nat) (o : Obj) : (w.setObj i o).bqs = w.bqs := by
  rfl
@[simp] theorem World.setObj_tail (w : World) (i : Nat) (o : Obj) : (w.setObj i o).tail = w.tail := by
  rfl
@[simp] theorem World.setObj_sc (w : World) (i : Nat) (o : Obj) : (w.setObj i o).sc = w.sc := by
  rfl
@[simp] theorem World.setObj_rcv (w : World) (i : Nat) (o : Obj) : (w.setObj i o).rcv = w.rcv := by
  rfl
@[simp] theorem World.setObj_lag (w : World) (i : Nat) (o : Obj) : (w.setObj i o).lag = w.lag := by
  rfl
@[simp] theorem World.setObj_rang (w : World) (i : Nat) (o : Obj) : (w.setObj i o).rang = w.rang := by
  rfl
@[simp] theorem World.setObj_ws (w : World) (i : Nat) (o : Obj) : (w.setObj i o).ws = w.ws := by
  rfl
@[simp] theorem World.setObj_cells (w : World) (i : Nat) (o : Obj) : (w.setObj i o).cells = w.cells := by
  rfl
@[simp] theorem World.setObj_bq (w : World) (i : Nat) (o : Obj) : (w.setObj i o).bq = w.bq := by
  rfl
@[simp] theorem World.setObj_resp (w : World) (i : Nat) (o : Obj) : (w.setObj i o).resp = w.resp := by
  rfl
@[simp] theorem World.setObj_lst (w : World) (i : Nat) (o : Obj) : (w.setObj i o).lst = w.lst := by
  rfl
@[simp] theorem World.setObj_log (w : World) (i : Nat) (o : Obj) : (w.setObj i o).log = w.log := by
  rfl
@[simp] theorem World.setObj_objs (w : World) (i : Nat) (o : Obj) : (w.setObj i o).objs = w.objs.set i o := rfl
@[simp] theorem World.addObj_cap (w : World) (o : Obj) : (w.addObj o).cap = w.cap := by
  rfl
@[simp] theorem World.addObj_wOne (w : World) (o : Obj) : (w.addObj o).wOne = w.wOne := by
  rfl
@[simp] theorem World.addObj_wAll (w : World) (o : Obj) : (w.addObj o).wAll = w.wAll := by
  rfl
@[simp] theorem World.addObj_wRx (w : World) (o : Obj) : (w.addObj o).wRx = w.wRx := by
  rfl
@[simp] theorem World.addObj_uq (w : World) (o : Obj) : (w.addObj o).uq = w.uq := by
  rfl
@[simp] theorem World.addObj_bqs (w : World) (o : Obj) : (w.addObj o).bqs = w.bqs := by
  rfl
@[simp] theorem World.addObj_tail (w : World) (o : Obj) : (w.addObj o).tail = w.tail := by
  rfl
@[simp] theorem World.addObj_sc (w : World) (o : Obj) : (w.addObj o).sc = w.sc := by
  rfl
@[simp] theorem World.addObj_rcv (w : World) (o : Obj) : (w.addObj o).rcv = w.rcv := by
  rfl
@[simp] theorem World.addObj_lag (w : World) (o : Obj) : (w.addObj o).lag = w.lag := by
  rfl
@[simp] theorem World.addObj_rang (w : World) (o : Obj) : (w.addObj o).rang = w.rang := by
  rfl
@[simp] theorem World.addObj_ws (w : World) (o : Obj) : (w.addObj o).ws = w.ws := by
  rfl
@[simp] theorem World.addObj_cells (w : World) (o : Obj) : (w.addObj o).cells = w.cells := by
  rfl
@[simp] theorem World.addObj_bq (w : World) (o : Obj) : (w.addObj o).bq = w.bq := by
  rfl
@[simp] theorem World.addObj_resp (w : World) (o : Obj) : (w.addObj o).resp = w.resp := by
  rfl
@[simp] theorem World.addObj_lst (w : World) (o : Obj) : (w.addObj o).lst = w.lst := by
  rfl
@[simp] theorem World.addObj_log (w : World) (o : Obj) : (w.addObj o).log = w.log := by
  rfl
@[simp] theorem World.addObj_objs (w : World) (o : Obj) : (w.addObj o).objs = w.objs ++ [o] := rfl
@[simp] theorem World.ev_cap (w : World) (e : Ev) : (w.ev e).cap = w.cap := by
  rfl
@[simp] theorem World.ev_wOne (w : World) (e : Ev) : (w.ev e).wOne = w.wOne := by
  rfl
@[simp] theorem World.ev_wAll (w : World) (e : Ev) : (w.ev e).wAll = w.wAll := by
  rfl
@[simp] theorem World.ev_wRx (w : World) (e : Ev) : (w.ev e).wRx = w.wRx := by
  rfl
@[simp] theorem World.ev_uq (w : World) (e : Ev) : (w.ev e).uq = w.uq := by
  rfl
@[simp] theorem World.ev_bqs (w : World) (e : Ev) : (w.ev e).bqs = w.bqs := by
  rfl
@[simp] theorem World.ev_tail (w : World) (e : Ev) : (w.ev e).tail = w.tail := by
  rfl
@[simp] theorem World.ev_sc (w : World) (e : Ev) : (w.ev e).sc = w.sc := by
  rfl
@[simp] theorem World.ev_rcv (w : World) (e : Ev) : (w.ev e).rcv = w.rcv := by
  rfl
@[simp] theorem World.ev_lag (w : World) (e : Ev) : (w.ev e).lag = w.lag := by
  rfl
@[simp] theorem World.ev_rang (w : World) (e : Ev) : (w.ev e).rang = w.rang := by
  rfl
@[simp] theorem World.ev_ws (w : World) (e : Ev) : (w.ev e).ws = w.ws := by
  rfl
@[simp] theorem World.ev_cells (w : World) (e : Ev) : (w.ev e).cells = w.cells := by
  rfl
@[simp] theorem World.ev_bq (w : World) (e : Ev) : (w.ev e).bq = w.bq := by
  rfl
@[simp] theorem World.ev_resp (w : World) (e : Ev) : (w.ev e).resp = w.resp := by
  rfl
@[simp] theorem World.ev_lst (w : World) (e : Ev) : (w.ev e).lst = w.lst := by
  rfl
@[simp] theorem World.ev_objs (w : World) (e : Ev) : (w.ev e).objs = w.objs := by
  rfl
@[simp] theorem World.ev_log (w : World) (e : Ev) : (w.ev e).log = e :: w.log := rfl
@[simp] theorem World.kill_cap (w : World) (m : Msg) : (w.kill m).cap = w.cap := by
  rfl
@[simp] theorem World.kill_wOne (w : World) (m : Msg) : (w.kill m).wOne = w.wOne := by
  rfl
@[simp] theorem World.kill_wAll (w : World) (m : Msg) : (w.kill m).wAll = w.wAll := by
  rfl
@[simp] theorem World.kill_wRx (w : World) (m : Msg) : (w.kill m).wRx = w.wRx := by
  rfl
@[simp] theorem World.kill_uq (w : World) (m : Msg) : (w.kill m).uq = w.uq := by
  rfl
@[simp] theorem World.kill_bqs (w : World) (m : Msg) : (w.kill m).bqs = w.bqs := by
  rfl
@[simp] theorem World.kill_tail (w : World) (m : Msg) : (w.kill m).tail = w.tail := by
  rfl
@[simp] theorem World.kill_sc (w : World) (m : Msg) : (w.kill m).sc = w.sc := by
  rfl
@[simp] theorem World.kill_rcv (w : World) (m : Msg) : (w.kill m).rcv = w.rcv := by
  rfl
@[simp] theorem World.kill_lag (w : World) (m : Msg) : (w.kill m).lag = w.lag := by
  rfl
@[simp] theorem World.kill_rang (w : World) (m : Msg) : (w.kill m).rang = w.rang := by
  rfl
@[simp] theorem World.kill_ws (w : World) (m : Msg) : (w.kill m).ws = w.ws := by
  rfl
@[simp] theorem World.kill_cells (w : World) (m : Msg) : (w.kill m).cells = w.cells := by
  rfl
@[simp] theorem World.kill_bq (w : World) (m : Msg) : (w.kill m).bq = w.bq := by
  rfl
@[simp] theorem World.kill_lst (w : World) (m : Msg) : (w.kill m).lst = w.lst := by
  rfl
@[simp] theorem World.kill_objs (w : World) (m : Msg) : (w.kill m).objs = w.objs := by
  rfl
@[simp] theorem World.kill_resp (w : World) (m : Msg) : (w.kill m).resp = w.resp.modify m.id Resp.interrupt := rfl
@[simp] theorem World.kill_log (w : World) (m : Msg) : (w.kill m).log = .dropped m.id :: w.log := rfl
@[simp] theorem World.yieldMsg_cap (w : World) (r b : Nat) (am : AMsg) : (w.yieldMsg r b am).cap = w.cap := by
  rfl
@[simp] theorem World.yieldMsg_wOne (w : World) (r b : Nat) (am : AMsg) : (w.yieldMsg r b am).wOne = w.wOne := by
  rfl
@[simp] theorem World.yieldMsg_wAll (w : World) (r b : Nat) (am : AMsg) : (w.yieldMsg r b am).wAll = w.wAll := by
  rfl
@[simp] theorem World.yieldMsg_wRx (w : World) (r b : Nat) (am : AMsg) : (w.yieldMsg r b am).wRx = w.wRx := by
  rfl
@[simp] theorem World.yieldMsg_uq (w : World) (r b : Nat) (am : AMsg) : (w.yieldMsg r b am).uq = w.uq := by
  rfl
@[simp] theorem World.yieldMsg_bqs (w : World) (r b : Nat) (am : AMsg) : (w.yieldMsg r b am).bqs = w.bqs := by
  rfl
@[simp] theorem World.yieldMsg_tail (w : World) (r b : Nat) (am : AMsg) : (w.yieldMsg r b am).tail = w.tail := by
  rfl
@[simp] theorem World.yieldMsg_sc (w : World) (r b : Nat) (am : AMsg) : (w.yieldMsg r b am).sc = w.sc := by
  rfl
@[simp] theorem World.yieldMsg_rcv (w : World) (r b : Nat) (am : AMsg) : (w.yieldMsg r b am).rcv = w.rcv := by
  rfl
@[simp] theorem World.yieldMsg_lag (w : World) (r b : Nat) (am : AMsg) : (w.yieldMsg r b am).lag = w.lag := by
  rfl
@[simp] theorem World.yieldMsg_rang (w : World) (r b : Nat) (am : AMsg) : (w.yieldMsg r b am).rang = w.rang := by
  rfl
@[simp] theorem World.yieldMsg_ws (w : World) (r b : Nat) (am : AMsg) : (w.yieldMsg r b am).ws = w.ws := by
  rfl
@[simp] theorem World.yieldMsg_cells (w : World) (r b : Nat) (am : AMsg) : (w.yieldMsg r b am).cells = w.cells := by
  rfl
@[simp] theorem World.yieldMsg_bq (w : World) (r b : Nat) (am : AMsg) : (w.yieldMsg r b am).bq = w.bq := by
  rfl
@[simp] theorem World.yieldMsg_resp (w : World) (r b : Nat) (am : AMsg) : (w.yieldMsg r b am).resp = w.resp := by
  rfl
@[simp] theorem World.yieldMsg_lst (w : World) (r b : Nat) (am : AMsg) : (w.yieldMsg r b am).lst = w.lst := by
  rfl
@[simp] theorem World.yieldMsg_objs (w : World) (r b : Nat) (am : AMsg) : (w.yieldMsg r b am).objs = w.objs.set r (.message b am) := rfl
@[simp] theorem World.yieldMsg_log (w : World) (r b : Nat) (am : AMsg) : (w.yieldMsg r b am).log = .recv r b am :: w.log := rfl
@[simp] theorem World.incBq_cap (w : World) (b : Nat) : (w.incBq b).cap = w.cap := by
  unfold World.incBq; split <;> rfl
@[simp] theorem World.incBq_wOne (w : World) (b : Nat) : (w.incBq b).wOne = w.wOne := by
  unfold World.incBq; split <;> rfl
@[simp] theorem World.incBq_wAll (w : World) (b : Nat) : (w.incBq b).wAll = w.wAll := by
  unfold World.incBq; split <;> rfl
@[simp] theorem World.incBq_wRx (w : World) (b : Nat) : (w.incBq b).wRx = w.wRx := by
  unfold World.incBq; split <;> rfl
@[simp] theorem World.incBq_uq (w : World) (b : Nat) : (w.incBq b).uq = w.uq := by
  unfold World.incBq; split <;> rfl
@[simp] theorem World.incBq_bqs (w : World) (b : Nat) : (w.incBq b).bqs = w.bqs := by
  unfold World.incBq; split <;> rfl
@[simp] theorem World.incBq_tail (w : World) (b : Nat) : (w.incBq b).tail = w.tail := by
  unfold World.incBq; split <;> rfl
@[simp] theorem World.incBq_sc (w : World) (b : Nat) : (w.incBq b).sc = w.sc := by
  unfold World.incBq; split <;> rfl
@[simp] theorem World.incBq_rcv (w : World) (b : Nat) : (w.incBq b).rcv = w.rcv := by
  unfold World.incBq; split <;> rfl
@[simp] theorem World.incBq_lag (w : World) (b : Nat) : (w.incBq b).lag = w.lag := by
  unfold World.incBq; split <;> rfl
@[simp] theorem World.incBq_rang (w : World) (b : Nat) : (w.incBq b).rang = w.rang := by
  unfold World.incBq; split <;> rfl
@[simp] theorem World.incBq_ws (w : World) (b : Nat) : (w.incBq b).ws = w.ws := by
  unfold World.incBq; split <;> rfl
@[simp] theorem World.incBq_cells (w : World) (b : Nat) : (w.incBq b).cells = w.cells := by
  unfold World.incBq; split <;> rfl
@[simp] theorem World.incBq_resp (w : World) (b : Nat) : (w.incBq b).resp = w.resp := by
  unfold World.incBq; split <;> rfl
@[simp] theorem World.incBq_lst (w : World) (b : Nat) : (w.incBq b).lst = w.lst := by
  unfold World.incBq; split <;> rfl
@[simp] theorem World.incBq_objs (w : World) (b : Nat) : (w.incBq b).objs = w.objs := by
  unfold World.incBq; split <;> rfl
@[simp] theorem World.incBq_log (w : World) (b : Nat) : (w.incBq b).log = w.log := by
  unfold World.incBq; split <;> rfl
@[simp] theorem World.decBq_cap (w : World) (b : Nat) : (w.decBq b).cap = w.cap := by
  unfold World.decBq; split
  · split <;> rfl
  · rfl
@[simp] theorem World.decBq_wOne (w : World) (b : Nat) : (w.decBq b).wOne = w.wOne := by
  unfold World.decBq; split
  · split <;> rfl
  · rfl
@[simp] theorem World.decBq_wAll (w : World) (b : Nat) : (w.decBq b).wAll = w.wAll := by
  unfold World.decBq; split
  · split <;> rfl
  · rfl
@[simp] theorem World.decBq_wRx (w : World) (b : Nat) : (w.decBq b).wRx = w.wRx := by
  unfold World.decBq; split
  · split <;> rfl
  · rfl
@[simp] theorem World.decBq_uq (w : World) (b : Nat) : (w.decBq b).uq = w.uq := by
  unfold World.decBq; split
  · split <;> rfl
  · rfl
@[simp] theorem World.decBq_bqs (w : World) (b : Nat) : (w.decBq b).bqs = w.bqs := by
  unfold World.decBq; split
  · split <;> rfl
  · rfl
@[simp] theorem World.decBq_tail (w : World) (b : Nat) : (w.decBq b).tail = w.tail := by
  unfold World.decBq; split
  · split <;> rfl
  · rfl
@[simp] theorem World.decBq_sc (w : World) (b : Nat) : (w.decBq b).sc = w.sc := by
  unfold World.decBq; split
  · split <;> rfl
  · rfl
@[simp] theorem World.decBq_rcv (w : World) (b : Nat) : (w.decBq b).rcv = w.rcv := by
  unfold World.decBq; split
  · split <;> rfl
  · rfl
@[simp] theorem World.decBq_lag (w : World) (b : Nat) : (w.decBq b).lag = w.lag := by
  unfold World.decBq; split
  · split <;> rfl
  · rfl
@[simp] theorem World.decBq_rang (w : World) (b : Nat) : (w.decBq b).rang = w.rang := by
  unfold World.decBq; split
  · split <;> rfl
  · rfl
@[simp] theorem World.decBq_ws (w : World) (b : Nat) : (w.decBq b).ws = w.ws := by
  unfold World.decBq; split
  · split <;> rfl
  · rfl
@[simp] theorem World.decBq_cells (w : World) (b : Nat) : (w.decBq b).cells = w.cells := by
  unfold World.decBq; split
  · split <;> rfl
  · rfl
@[simp] theorem World.decBq_resp (w : World) (b : Nat) : (w.decBq b).resp = w.resp := by
  unfold World.decBq; split
  · split <;> rfl
  · rfl
@[simp] theorem World.decBq_lst (w : World) (b : Nat) : (w.decBq b).lst = w.lst := by
  unfold World.decBq; split
  · split <;> rfl
  · rfl
@[simp] theorem World.decBq_objs (w : World) (b : Nat) : (w.decBq b).objs = w.objs := by
  unfold World.decBq; split
  · split <;> rfl
  · rfl
@[simp] theorem World.decBq_log (w : World) (b : Nat) : (w.decBq b).log = w.log := by
  unfold World.decBq; split
  · split <;> rfl
  · rfl
@[simp] theorem World.addTx_cap (w : World) (rc : Rc) : (w.addTx rc).cap = w.cap := by
  rfl
@[simp] theorem World.addTx_wOne (w : World) (rc : Rc) : (w.addTx rc).wOne = w.wOne := by
  rfl
@[simp] theorem World.addTx_wAll (w : World) (rc : Rc) : (w.addTx rc).wAll = w.wAll := by
  rfl
@[simp] theorem World.addTx_wRx (w : World) (rc : Rc) : (w.addTx rc).wRx = w.wRx := by
  rfl
@[simp] theorem World.addTx_uq (w : World) (rc : Rc) : (w.addTx rc).uq = w.uq := by
  rfl
@[simp] theorem World.addTx_bqs (w : World) (rc : Rc) : (w.addTx rc).bqs = w.bqs := by
  rfl
@[simp] theorem World.addTx_tail (w : World) (rc : Rc) : (w.addTx rc).tail = w.tail := by
  rfl
@[simp] theorem World.addTx_rcv (w : World) (rc : Rc) : (w.addTx rc).rcv = w.rcv := by
  rfl
@[simp] theorem World.addTx_lag (w : World) (rc : Rc) : (w.addTx rc).lag = w.lag := by
  rfl
@[simp] theorem World.addTx_rang (w : World) (rc : Rc) : (w.addTx rc).rang = w.rang := by
  rfl
@[simp] theorem World.addTx_ws (w : World) (rc : Rc) : (w.addTx rc).ws = w.ws := by
  rfl
@[simp] theorem World.addTx_cells (w : World) (rc : Rc) : (w.addTx rc).cells = w.cells := by
  rfl
@[simp] theorem World.addTx_bq (w : World) (rc : Rc) : (w.addTx rc).bq = w.bq := by
  rfl
@[simp] theorem World.addTx_resp (w : World) (rc : Rc) : (w.addTx rc).resp = w.resp := by
  rfl
@[simp] theorem World.addTx_lst (w : World) (rc : Rc) : (w.addTx rc).lst = w.lst := by
  rfl
@[simp] theorem World.addTx_objs (w : World) (rc : Rc) : (w.addTx rc).objs = w.objs := by
  rfl
@[simp] theorem World.addTx_log (w : World) (rc : Rc) : (w.addTx rc).log = w.log := by
  rfl
@[simp] theorem World.addTx_sc (w : World) (rc : Rc) : (w.addTx rc).sc = if rc.isStrong then w.sc + 1 else w.sc := rfl
@[simp] theorem World.noteLate_cap (w : World) (m : Msg) : (w.noteLate m).cap = w.cap := by
  rfl
@[simp] theorem World.noteLate_wOne (w : World) (m : Msg) : (w.noteLate m).wOne = w.wOne := by
  rfl
@[simp] theorem World.noteLate_wAll (w : World) (m : Msg) : (w.noteLate m).wAll = w.wAll := by
  rfl
@[simp] theorem World.noteLate_wRx (w : World) (m : Msg) : (w.noteLate m).wRx = w.wRx := by
  rfl
@[simp] theorem World.noteLate_uq (w : World) (m : Msg) : (w.noteLate m).uq = w.uq := by
  rfl
@[simp] theorem World.noteLate_bqs (w : World) (m : Msg) : (w.noteLate m).bqs = w.bqs := by
  rfl
@[simp] theorem World.noteLate_tail (w : World) (m : Msg) : (w.noteLate m).tail = w.tail := by
  rfl
@[simp] theorem World.noteLate_sc (w : World) (m : Msg) : (w.noteLate m).sc = w.sc := by
  rfl
@[simp] theorem World.noteLate_rcv (w : World) (m : Msg) : (w.noteLate m).rcv = w.rcv := by
  rfl
@[simp] theorem World.noteLate_lag (w : World) (m : Msg) : (w.noteLate m).lag = w.lag := by
  rfl
@[simp] theorem World.noteLate_rang (w : World) (m : Msg) : (w.noteLate m).rang = w.rang := by
  rfl
@[simp] theorem World.noteLate_ws (w : World) (m : Msg) : (w.noteLate m).ws = w.ws := by
  rfl
@[simp] theorem World.noteLate_cells (w : World) (m : Msg) : (w.noteLate m).cells = w.cells := by
  rfl
@[simp] theorem World.noteLate_bq (w : World) (m : Msg) : (w.noteLate m).bq = w.bq := by
  rfl
@[simp] theorem World.noteLate_resp (w : World) (m : Msg) : (w.noteLate m).resp = w.resp := by
  rfl
@[simp] theorem World.noteLate_lst (w : World) (m : Msg) : (w.noteLate m).lst = w.lst := by
  rfl
@[simp] theorem World.noteLate_objs (w : World) (m : Msg) : (w.noteLate m).objs = w.objs := by
  rfl
@[simp] theorem World.killAll_cap (w : World) (ms : List Msg) : (w.killAll ms).cap = w.cap := by
  induction ms generalizing w with
  | nil => rfl
  | cons m ms ih => simp [World.killAll, ih]
@[simp] theorem World.killAll_wOne (w : World) (ms : List Msg) : (w.killAll ms).wOne = w.wOne := by
  induction ms generalizing w with
  | nil => rfl
  | cons m ms ih => simp [World.killAll, ih]
@[simp] theorem World.killAll_wAll (w : World) (ms : List Msg) : (w.killAll ms).wAll = w.wAll := by
  induction ms generalizing w with
  | nil => rfl
  | cons m ms ih => simp [World.killAll, ih]
@[simp] theorem World.killAll_wRx (w : World) (ms : List Msg) : (w.killAll ms).wRx = w.wRx := by
  induction ms generalizing w with
  | nil => rfl
  | cons m ms ih => simp [World.killAll, ih]
@[simp] theorem World.killAll_uq (w : World) (ms : List Msg) : (w.killAll ms).uq = w.uq := by
  induction ms generalizing w with
  | nil => rfl
  | cons m ms ih => simp [World.killAll, ih]
@[simp] theorem World.killAll_bqs (w : World) (ms : List Msg) : (w.killAll ms).bqs = w.bqs := by
  induction ms generalizing w with
  | nil => rfl
  | cons m ms ih => simp [World.killAll, ih]
@[simp] theorem World.killAll_tail (w : World) (ms : List Msg) : (w.killAll ms).tail = w.tail := by
  induction ms generalizing w with
  | nil => rfl
  | cons m ms ih => simp [World.killAll, ih]
@[simp] theorem World.killAll_sc (w : World) (ms : List Msg) : (w.killAll ms).sc = w.sc := by
  induction ms generalizing w with
  | nil => rfl
  | cons m ms ih => simp [World.killAll, ih]
@[simp] theorem World.killAll_rcv (w : World) (ms : List Msg) : (w.killAll ms).rcv = w.rcv := by
  induction ms generalizing w with
  | nil => rfl
  | cons m ms ih => simp [World.killAll, ih]
@[simp] theorem World.killAll_lag (w : World) (ms : List Msg) : (w.killAll ms).lag = w.lag := by
  induction ms generalizing w with
  | nil => rfl
  | cons m ms ih => simp [World.killAll, ih]
@[simp] theorem World.killAll_rang (w : World) (ms : List Msg) : (w.killAll ms).rang = w.rang := by
  induction ms generalizing w with
  | nil => rfl
  | cons m ms ih => simp [World.killAll, ih]
@[simp] theorem World.killAll_ws (w : World) (ms : List Msg) : (w.killAll ms).ws = w.ws := by
  induction ms generalizing w with
  | nil => rfl
  | cons m ms ih => simp [World.killAll, ih]
@[simp] theorem World.killAll_cells (w : World) (ms : List Msg) : (w.killAll ms).cells = w.cells := by
  induction ms generalizing w with
  | nil => rfl
  | cons m ms ih => simp [World.killAll, ih]
@[simp] theorem World.killAll_bq (w : World) (ms : List Msg) : (w.killAll ms).bq = w.bq := by
  induction ms generalizing w with
  | nil => rfl
  | cons m ms ih => simp [World.killAll, ih]
@[simp] theorem World.killAll_lst (w : World) (ms : List Msg) : (w.killAll ms).lst = w.lst := by
  induction ms generalizing w with
  | nil => rfl
  | cons m ms ih => simp [World.killAll, ih]
@[simp] theorem World.killAll_objs (w : World) (ms : List Msg) : (w.killAll ms).objs = w.objs := by
  induction ms generalizing w with
  | nil => rfl
  | cons m ms ih => simp [World.killAll, ih]
@[simp] theorem World.closeHandle_cap (w : World) (h : Nat) : (w.closeHandle h).cap = w.cap := by
  unfold World.closeHandle; split <;> rfl
@[simp] theorem World.closeHandle_wOne (w : World) (h : Nat) : (w.closeHandle h).wOne = w.wOne := by
  unfold World.closeHandle; split <;> rfl
@[simp] theorem World.closeHandle_wAll (w : World) (h : Nat) : (w.closeHandle h).wAll = w.wAll := by
  unfold World.closeHandle; split <;> rfl
@[simp] theorem World.closeHandle_wRx (w : World) (h : Nat) : (w.closeHandle h).wRx = w.wRx := by
  unfold World.closeHandle; split <;> rfl
@[simp] theorem World.closeHandle_uq (w : World) (h : Nat) : (w.closeHandle h).uq = w.uq := by
  unfold World.closeHandle; split <;> rfl
@[simp] theorem World.closeHandle_bqs (w : World) (h : Nat) : (w.closeHandle h).bqs = w.bqs := by
  unfold World.closeHandle; split <;> rfl
@[simp] theorem World.closeHandle_tail (w : World) (h : Nat) : (w.closeHandle h).tail = w.tail := by
  unfold World.closeHandle; split <;> rfl
@[simp] theorem World.closeHandle_sc (w : World) (h : Nat) : (w.closeHandle h).sc = w.sc := by
  unfold World.closeHandle; split <;> rfl
@[simp] theorem World.closeHandle_rcv (w : World) (h : Nat) : (w.closeHandle h).rcv = w.rcv := by
  unfold World.closeHandle; split <;> rfl
@[simp] theorem World.closeHandle_lag (w : World) (h : Nat) : (w.closeHandle h).lag = w.lag := by
  unfold World.closeHandle; split <;> rfl
@[simp] theorem World.closeHandle_rang (w : World) (h : Nat) : (w.closeHandle h).rang = w.rang := by
  unfold World.closeHandle; split <;> rfl
@[simp] theorem World.closeHandle_cells (w : World) (h : Nat) : (w.closeHandle h).cells = w.cells := by
  unfold World.closeHandle; split <;> rfl
@[simp] theorem World.closeHandle_bq (w : World) (h : Nat) : (w.closeHandle h).bq = w.bq := by
  unfold World.closeHandle; split <;> rfl
@[simp] theorem World.closeHandle_lst (w : World) (h : Nat) : (w.closeHandle h).lst = w.lst := by
  unfold World.closeHandle; split <;> rfl
@[simp] theorem World.closeHandle_objs (w : World) (h : Nat) : (w.closeHandle h).objs = w.objs := by
  unfold World.closeHandle; split <;> rfl
@[simp] theorem World.closeHandles_cap (w : World) (hs : List Nat) : (w.closeHandles hs).cap = w.cap := by
  induction hs generalizing w with
  | nil => rfl
  | cons m ms ih => simp [World.closeHandles, ih]
@[simp] theorem World.closeHandles_wOne (w : World) (hs : List Nat) : (w.closeHandles hs).wOne = w.wOne := by
  induction hs generalizing w with
  | nil => rfl
  | cons m ms ih => simp [World.closeHandles, ih]
@[simp] theorem World.closeHandles_wAll (w : World) (hs : List Nat) : (w.closeHandles hs).wAll = w.wAll := by
  induction hs generalizing w with
  | nil => rfl
  | cons m ms ih => simp [World.closeHandles, ih]
@[simp] theorem World.closeHandles_wRx (w : World) (hs : List Nat) : (w.closeHandles hs).wRx = w.wRx := by
  induction hs generalizing w with
  | nil => rfl
  | cons m ms ih => simp [World.closeHandles, ih]
@[simp] theorem World.closeHandles_uq (w : World) (hs : List Nat) : (w.closeHandles hs).uq = w.uq := by
  induction hs generalizing w with
  | nil => rfl
  | cons m ms ih => simp [World.closeHandles, ih]
@[simp] theorem World.closeHandles_bqs (w : World) (hs : List Nat) : (w.closeHandles hs).bqs = w.bqs := by
  induction hs generalizing w with
  | nil => rfl
  | cons m ms ih => simp [World.closeHandles, ih]
@[simp] theorem World.closeHandles_tail (w : World) (hs : List Nat) : (w.closeHandles hs).tail = w.tail := by
  induction hs generalizing w with
  | nil => rfl
  | cons m ms ih => simp [World.closeHandles, ih]
@[simp] theorem World.closeHandles_sc (w : World) (hs : List Nat) : (w.closeHandles hs).sc = w.sc := by
  induction hs generalizing w with
  | nil => rfl
  | cons m ms ih => simp [World.closeHandles, ih]
@[simp] theorem World.closeHandles_rcv (w : World) (hs : List Nat) : (w.closeHandles hs).rcv = w.rcv := by
  induction hs generalizing w with
  | nil => rfl
  | cons m ms ih => simp [World.closeHandles, ih]
@[simp] theorem World.closeHandles_lag (w : World) (hs : List Nat) : (w.closeHandles hs).lag = w.lag := by
  induction hs generalizing w with
  | nil => rfl
  | cons m ms ih => simp [World.closeHandles, ih]
@[simp] theorem World.closeHandles_rang (w : World) (hs : List Nat) : (w.closeHandles hs).rang = w.rang := by
  induction hs generalizing w with
  | nil => rfl
  | cons m ms ih => simp [World.closeHandles, ih]
@[simp] theorem World.closeHandles_cells (w : World) (hs : List Nat) : (w.closeHandles hs).cells = w.cells := by
  induction hs generalizing w with
  | nil => rfl
  | cons m ms ih => simp [World.closeHandles, ih]
@[simp] theorem World.closeHandles_bq (w : World) (hs : List Nat) : (w.closeHandles hs).bq = w.bq := by
  induction hs generalizing w with
  | nil => rfl
  | cons m ms ih => simp [World.closeHandles, ih]
@[simp] theorem World.closeHandles_lst (w : World) (hs : List Nat) : (w.closeHandles hs).lst = w.lst := by
  induction hs generalizing w with
  | nil => rfl
  | cons m ms ih => simp [World.closeHandles, ih]
@[simp] theorem World.closeHandles_objs (w : World) (hs : List Nat) : (w.closeHandles hs).objs = w.objs := by
  induction hs generalizing w with
  | nil => rfl
  | cons m ms ih => simp [World.closeHandles, ih]
@[simp] theorem World.shutTx_cap (w : World)  : (w.shutTx).cap = w.cap := by
  simp [World.shutTx]
@[simp] theorem World.shutTx_wRx (w : World)  : (w.shutTx).wRx = w.wRx := by
  simp [World.shutTx]
@[simp] theorem World.shutTx_tail (w : World)  : (w.shutTx).tail = w.tail := by
  simp [World.shutTx]
@[simp] theorem World.shutTx_sc (w : World)  : (w.shutTx).sc = w.sc := by
  simp [World.shutTx]
@[simp] theorem World.shutTx_rcv (w : World)  : (w.shutTx).rcv = w.rcv := by
  simp [World.shutTx]
@[simp] theorem World.shutTx_lag (w : World)  : (w.shutTx).lag = w.lag := by
  simp [World.shutTx]
@[simp] theorem World.shutTx_cells (w : World)  : (w.shutTx).cells = w.cells := by
  simp [World.shutTx]
@[simp] theorem World.shutTx_bq (w : World)  : (w.shutTx).bq = w.bq := by
  simp [World.shutTx]
@[simp] theorem World.shutTx_objs (w : World)  : (w.shutTx).objs = w.objs := by
  simp [World.shutTx]
@[simp] theorem World.sendBroadcast_cap (w : World) (m : Msg) : (w.sendBroadcast m).cap = w.cap := by
  rfl
@[simp] theorem World.sendBroadcast_wOne (w : World) (m : Msg) : (w.sendBroadcast m).wOne = w.wOne := by
  rfl
@[simp] theorem World.sendBroadcast_wAll (w : World) (m : Msg) : (w.sendBroadcast m).wAll = w.wAll := by
  rfl
@[simp] theorem World.sendBroadcast_uq (w : World) (m : Msg) : (w.sendBroadcast m).uq = w.uq := by
  rfl
@[simp] theorem World.sendBroadcast_sc (w : World) (m : Msg) : (w.sendBroadcast m).sc = w.sc := by
  rfl
@[simp] theorem World.sendBroadcast_rcv (w : World) (m : Msg) : (w.sendBroadcast m).rcv = w.rcv := by
  rfl
@[simp] theorem World.sendBroadcast_lag (w : World) (m : Msg) : (w.sendBroadcast m).lag = w.lag := by
  rfl
@[simp] theorem World.sendBroadcast_rang (w : World) (m : Msg) : (w.sendBroadcast m).rang = w.rang := by
  rfl
@[simp] theorem World.sendBroadcast_ws (w : World) (m : Msg) : (w.sendBroadcast m).ws = w.ws := by
  rfl
@[simp] theorem World.sendBroadcast_resp (w : World) (m : Msg) : (w.sendBroadcast m).resp = w.resp := by
  rfl
@[simp] theorem World.sendBroadcast_lst (w : World) (m : Msg) : (w.sendBroadcast m).lst = w.lst := by
  rfl
@[simp] theorem World.sendBroadcast_objs (w : World) (m : Msg) : (w.sendBroadcast m).objs = w.objs := by
  rfl
theorem World.popUnicast_cap {w : World}  {m : Msg} {w' : World} (h : w.popUnicast = some (m, w')) : w'.cap = w.cap := by
  unfold World.popUnicast at h
  split at h
  · simp at h
  · simp only [] at h
    split at h
    · simp at h; obtain ⟨-, rfl⟩ := h; rfl
    · split at h <;> (simp at h; obtain ⟨-, rfl⟩ := h; rfl)
theorem World.popUnicast_wAll {w : World}  {m : Msg} {w' : World} (h : w.popUnicast = some (m, w')) : w'.wAll = w.wAll := by
  unfold World.popUnicast at h
  split at h
  · simp at h
  · simp only [] at h
    split at h
    · simp at h; obtain ⟨-, rfl⟩ := h; rfl
    · split at h <;> (simp at h; obtain ⟨-, rfl⟩ := h; rfl)
theorem World.popUnicast_wRx {w : World}  {m : Msg} {w' : World} (h : w.popUnicast = some (m, w')) : w'.wRx = w.wRx := by
  unfold World.popUnicast at h
  split at h
  · simp at h
  · simp only [] at h
    split at h
    · simp at h; obtain ⟨-, rfl⟩ := h; rfl
    · split at h <;> (simp at h; obtain ⟨-, rfl⟩ := h; rfl)
theorem World.popUnicast_bqs {w : World}  {m : Msg} {w' : World} (h : w.popUnicast = some (m, w')) : w'.bqs = w.bqs := by
  unfold World.popUnicast at h
  split at h
  · simp at h
  · simp only [] at h
    split at h
    · simp at h; obtain ⟨-, rfl⟩ := h; rfl
    · split at h <;> (simp at h; obtain ⟨-, rfl⟩ := h; rfl)
theorem World.popUnicast_tail {w : World}  {m : Msg} {w' : World} (h : w.popUnicast = some (m, w')) : w'.tail = w.tail := by
  unfold World.popUnicast at h
  split at h
  · simp at h
  · simp only [] at h
    split at h
    · simp at h; obtain ⟨-, rfl⟩ := h; rfl
    · split at h <;> (simp at h; obtain ⟨-, rfl⟩ := h; rfl)
theorem World.popUnicast_sc {w : World}  {m : Msg} {w' : World} (h : w.popUnicast = some (m, w')) : w'.sc = w.sc := by
  unfold World.popUnicast at h
  split at h
  · simp at h
  · simp only [] at h
    split at h
    · simp at h; obtain ⟨-, rfl⟩ := h; rfl
    · split at h <;> (simp at h; obtain ⟨-, rfl⟩ := h; rfl)
theorem World.popUnicast_rcv {w : World}  {m : Msg} {w' : World} (h : w.popUnicast = some (m, w')) : w'.rcv = w.rcv := by
  unfold World.popUnicast at h
  split at h
  · simp at h
  · simp only [] at h
    split at h
    · simp at h; obtain ⟨-, rfl⟩ := h; rfl
    · split at h <;> (simp at h; obtain ⟨-, rfl⟩ := h; rfl)
theorem World.popUnicast_lag {w : World}  {m : Msg} {w' : World} (h : w.popUnicast = some (m, w')) : w'.lag = w.lag := by
  unfold World.popUnicast at h
  split at h
  · simp at h
  · simp only [] at h
    split at h
    · simp at h; obtain ⟨-, rfl⟩ := h; rfl
    · split at h <;> (simp at h; obtain ⟨-, rfl⟩ := h; rfl)
theorem World.popUnicast_rang {w : World}  {m : Msg} {w' : World} (h : w.popUnicast = some (m, w')) : w'.rang = w.rang := by
  unfold World.popUnicast at h
  split at h
  · simp at h
  · simp only [] at h
    split at h
    · simp at h; obtain ⟨-, rfl⟩ := h; rfl
    · split at h <;> (simp at h; obtain ⟨-, rfl⟩ := h; rfl)
theorem World.popUnicast_cells {w : World}  {m : Msg} {w' : World} (h : w.popUnicast = some (m, w')) : w'.cells = w.cells := by
  unfold World.popUnicast at h
  split at h
  · simp at h
  · simp only [] at h
    split at h
    · simp at h; obtain ⟨-, rfl⟩ := h; rfl
    · split at h <;> (simp at h; obtain ⟨-, rfl⟩ := h; rfl)
theorem World.popUnicast_bq {w : World}  {m : Msg} {w' : World} (h : w.popUnicast = some (m, w')) : w'.bq = w.bq := by
  unfold World.popUnicast at h
  split at h
  · simp at h
  · simp only [] at h
    split at h
    · simp at h; obtain ⟨-, rfl⟩ := h; rfl
    · split at h <;> (simp at h; obtain ⟨-, rfl⟩ := h; rfl)
theorem World.popUnicast_resp {w : World}  {m : Msg} {w' : World} (h : w.popUnicast = some (m, w')) : w'.resp = w.resp := by
  unfold World.popUnicast at h
  split at h
  · simp at h
  · simp only [] at h
    split at h
    · simp at h; obtain ⟨-, rfl⟩ := h; rfl
    · split at h <;> (simp at h; obtain ⟨-, rfl⟩ := h; rfl)
theorem World.popUnicast_lst {w : World}  {m : Msg} {w' : World} (h : w.popUnicast = some (m, w')) : w'.lst = w.lst := by
  unfold World.popUnicast at h
  split at h
  · simp at h
  · simp only [] at h
    split at h
    · simp at h; obtain ⟨-, rfl⟩ := h; rfl
    · split at h <;> (simp at h; obtain ⟨-, rfl⟩ := h; rfl)
theorem World.popUnicast_objs {w : World}  {m : Msg} {w' : World} (h : w.popUnicast = some (m, w')) : w'.objs = w.objs := by
  unfold World.popUnicast at h
  split at h
  · simp at h
  · simp only [] at h
    split at h
    · simp at h; obtain ⟨-, rfl⟩ := h; rfl
    · split at h <;> (simp at h; obtain ⟨-, rfl⟩ := h; rfl)
theorem World.popUnicast_log {w : World}  {m : Msg} {w' : World} (h : w.popUnicast = some (m, w')) : w'.log = w.log := by
  unfold World.popUnicast at h
  split at h
  · simp at h
  · simp only [] at h
    split at h
    · simp at h; obtain ⟨-, rfl⟩ := h; rfl
    · split at h <;> (simp at h; obtain ⟨-, rfl⟩ := h; rfl)
theorem World.popBroadcast_cap {w : World} {b : Nat} {m : Msg} {w' : World} (h : w.popBroadcast b = some (m, w')) : w'.cap = w.cap := by
  unfold World.popBroadcast at h
  split at h
  · simp at h
  · split at h
    · simp at h
    · simp only [] at h
      split at h
      · simp at h; obtain ⟨-, rfl⟩ := h; rfl
      · split at h <;> (simp at h; obtain ⟨-, rfl⟩ := h; rfl)
theorem World.popBroadcast_wOne {w : World} {b : Nat} {m : Msg} {w' : World} (h : w.popBroadcast b = some (m, w')) : w'.wOne = w.wOne := by
  unfold World.popBroadcast at h
  split at h
  · simp at h
  · split at h
    · simp at h
    · simp only [] at h
      split at h
      · simp at h; obtain ⟨-, rfl⟩ := h; rfl
      · split at h <;> (simp at h; obtain ⟨-, rfl⟩ := h; rfl)
theorem World.popBroadcast_uq {w : World} {b : Nat} {m : Msg} {w' : World} (h : w.popBroadcast b = some (m, w')) : w'.uq = w.uq := by
  unfold World.popBroadcast at h
  split at h
  · simp at h
  · split at h
    · simp at h
    · simp only [] at h
      split at h
      · simp at h; obtain ⟨-, rfl⟩ := h; rfl
      · split at h <;> (simp at h; obtain ⟨-, rfl⟩ := h; rfl)
theorem World.popBroadcast_sc {w : World} {b : Nat} {m : Msg} {w' : World} (h : w.popBroadcast b = some (m, w')) : w'.sc = w.sc := by
  unfold World.popBroadcast at h
  split at h
  · simp at h
  · split at h
    · simp at h
    · simp only [] at h
      split at h
      · simp at h; obtain ⟨-, rfl⟩ := h; rfl
      · split at h <;> (simp at h; obtain ⟨-, rfl⟩ := h; rfl)
theorem World.popBroadcast_rcv {w : World} {b : Nat} {m : Msg} {w' : World} (h : w.popBroadcast b = some (m, w')) : w'.rcv = w.rcv := by
  unfold World.popBroadcast at h
  split at h
  · simp at h
  · split at h
    · simp at h
    · simp only [] at h
      split at h
      · simp at h; obtain ⟨-, rfl⟩ := h; rfl
      · split at h <;> (simp at h; obtain ⟨-, rfl⟩ := h; rfl)
theorem World.popBroadcast_lag {w : World} {b : Nat} {m : Msg} {w' : World} (h : w.popBroadcast b = some (m, w')) : w'.lag = w.lag := by
  unfold World.popBroadcast at h
  split at h
  · simp at h
  · split at h
    · simp at h
    · simp only [] at h
      split at h
      · simp at h; obtain ⟨-, rfl⟩ := h; rfl
      · split at h <;> (simp at h; obtain ⟨-, rfl⟩ := h; rfl)
theorem World.popBroadcast_rang {w : World} {b : Nat} {m : Msg} {w' : World} (h : w.popBroadcast b = some (m, w')) : w'.rang = w.rang := by
  unfold World.popBroadcast at h
  split at h
  · simp at h
  · split at h
    · simp at h
    · simp only [] at h
      split at h
      · simp at h; obtain ⟨-, rfl⟩ := h; rfl
      · split at h <;> (simp at h; obtain ⟨-, rfl⟩ := h; rfl)
theorem World.popBroadcast_resp {w : World} {b : Nat} {m : Msg} {w' : World} (h : w.popBroadcast b = some (m, w')) : w'.resp = w.resp := by
  unfold World.popBroadcast at h
  split at h
  · simp at h
  · split at h
    · simp at h
    · simp only [] at h
      split at h
      · simp at h; obtain ⟨-, rfl⟩ := h; rfl
      · split at h <;> (simp at h; obtain ⟨-, rfl⟩ := h; rfl)
theorem World.popBroadcast_lst {w : World} {b : Nat} {m : Msg} {w' : World} (h : w.popBroadcast b = some (m, w')) : w'.lst = w.lst := by
  unfold World.popBroadcast at h
  split at h
  · simp at h
  · split at h
    · simp at h
    · simp only [] at h
      split at h
      · simp at h; obtain ⟨-, rfl⟩ := h; rfl
      · split at h <;> (simp at h; obtain ⟨-, rfl⟩ := h; rfl)
theorem World.popBroadcast_objs {w : World} {b : Nat} {m : Msg} {w' : World} (h : w.popBroadcast b = some (m, w')) : w'.objs = w.objs := by
  unfold World.popBroadcast at h
  split at h
  · simp at h
  · split at h
    · simp at h
    · simp only [] at h
      split at h
      · simp at h; obtain ⟨-, rfl⟩ := h; rfl
      · split at h <;> (simp at h; obtain ⟨-, rfl⟩ := h; rfl)
@[simp] theorem World.tryRecv_cap (w : World) (b : Nat) : (w.tryRecv b).1.cap = w.cap := by
  simp only [World.tryRecv]
  split
  · split
    · rename_i h; exact World.popBroadcast_cap h
    · rfl
  · split
    · rename_i h; exact World.popUnicast_cap h
    · rfl
  · split <;> rfl
@[simp] theorem World.tryRecv_sc (w : World) (b : Nat) : (w.tryRecv b).1.sc = w.sc := by
  simp only [World.tryRecv]
  split
  · split
    · rename_i h; exact World.popBroadcast_sc h
    · rfl
  · split
    · rename_i h; exact World.popUnicast_sc h
    · rfl
  · split <;> rfl
@[simp] theorem World.tryRecv_rcv (w : World) (b : Nat) : (w.tryRecv b).1.rcv = w.rcv := by
  simp only [World.tryRecv]
  split
  · split
    · rename_i h; exact World.popBroadcast_rcv h
    · rfl
  · split
    · rename_i h; exact World.popUnicast_rcv h
    · rfl
  · split <;> rfl
@[simp] theorem World.tryRecv_lag (w : World) (b : Nat) : (w.tryRecv b).1.lag = w.lag := by
  simp only [World.tryRecv]
  split
  · split
    · rename_i h; exact World.popBroadcast_lag h
    · rfl
  · split
    · rename_i h; exact World.popUnicast_lag h
    · rfl
  · split <;> rfl
@[simp] theorem World.tryRecv_rang (w : World) (b : Nat) : (w.tryRecv b).1.rang = w.rang := by
  simp only [World.tryRecv]
  split
  · split
    · rename_i h; exact World.popBroadcast_rang h
    · rfl
  · split
    · rename_i h; exact World.popUnicast_rang h
    · rfl
  · split <;> rfl
@[simp] theorem World.tryRecv_resp (w : World) (b : Nat) : (w.tryRecv b).1.resp = w.resp := by
  simp only [World.tryRecv]
  split
  · split
    · rename_i h; exact World.popBroadcast_resp h
    · rfl
  · split
    · rename_i h; exact World.popUnicast_resp h
    · rfl
  · split <;> rfl
@[simp] theorem World.tryRecv_lst (w : World) (b : Nat) : (w.tryRecv b).1.lst = w.lst := by
  simp only [World.tryRecv]
  split
  · split
    · rename_i h; exact World.popBroadcast_lst h
    · rfl
  · split
    · rename_i h; exact World.popUnicast_lst h
    · rfl
  · split <;> rfl
@[simp] theorem World.tryRecv_objs (w : World) (b : Nat) : (w.tryRecv b).1.objs = w.objs := by
  simp only [World.tryRecv]
  split
  · split
    · rename_i h; exact World.popBroadcast_objs h
    · rfl
  · split
    · rename_i h; exact World.popUnicast_objs h
    · rfl
  · split <;> rfl
@[simp] theorem World.sendOne_cap (w : World) (m : Msg) : ((w.sendOne m).1).cap = w.cap := by
  simp only [World.sendOne]
  split
  · rfl
  · split <;> rfl
@[simp] theorem World.sendOne_wAll (w : World) (m : Msg) : ((w.sendOne m).1).wAll = w.wAll := by
  simp only [World.sendOne]
  split
  · rfl
  · split <;> rfl
@[simp] theorem World.sendOne_bqs (w : World) (m : Msg) : ((w.sendOne m).1).bqs = w.bqs := by
  simp only [World.sendOne]
  split
  · rfl
  · split <;> rfl
@[simp] theorem World.sendOne_tail (w : World) (m : Msg) : ((w.sendOne m).1).tail = w.tail := by
  simp only [World.sendOne]
  split
  · rfl
  · split <;> rfl
@[simp] theorem World.sendOne_sc (w : World) (m : Msg) : ((w.sendOne m).1).sc = w.sc := by
  simp only [World.sendOne]
  split
  · rfl
  · split <;> rfl
@[simp] theorem World.sendOne_rcv (w : World) (m : Msg) : ((w.sendOne m).1).rcv = w.rcv := by
  simp only [World.sendOne]
  split
  · rfl
  · split <;> rfl
@[simp] theorem World.sendOne_lag (w : World) (m : Msg) : ((w.sendOne m).1).lag = w.lag := by
  simp only [World.sendOne]
  split
  · rfl
  · split <;> rfl
@[simp] theorem World.sendOne_rang (w : World) (m : Msg) : ((w.sendOne m).1).rang = w.rang := by
  simp only [World.sendOne]
  split
  · rfl
  · split <;> rfl
@[simp] theorem World.sendOne_bq (w : World) (m : Msg) : ((w.sendOne m).1).bq = w.bq := by
  simp only [World.sendOne]
  split
  · rfl
  · split <;> rfl
@[simp] theorem World.sendOne_resp (w : World) (m : Msg) : ((w.sendOne m).1).resp = w.resp := by
  simp only [World.sendOne]
  split
  · rfl
  · split <;> rfl
@[simp] theorem World.sendOne_lst (w : World) (m : Msg) : ((w.sendOne m).1).lst = w.lst := by
  simp only [World.sendOne]
  split
  · rfl
  · split <;> rfl
@[simp] theorem World.sendOne_objs (w : World) (m : Msg) : ((w.sendOne m).1).objs = w.objs := by
  simp only [World.sendOne]
  split
  · rfl
  · split <;> rfl
@[simp] theorem World.sendOne_log (w : World) (m : Msg) : ((w.sendOne m).1).log = w.log := by
  simp only [World.sendOne]
  split
  · rfl
  · split <;> rfl
@[simp] theorem World.sendAll_cap (w : World) (m : Msg) : ((w.sendAll m).1).cap = w.cap := by
  simp only [World.sendAll]
  split <;> rfl
@[simp] theorem World.sendAll_wOne (w : World) (m : Msg) : ((w.sendAll m).1).wOne = w.wOne := by
  simp only [World.sendAll]
  split <;> rfl
@[simp] theorem World.sendAll_uq (w : World) (m : Msg) : ((w.sendAll m).1).uq = w.uq := by
  simp only [World.sendAll]
  split <;> rfl
@[simp] theorem World.sendAll_sc (w : World) (m : Msg) : ((w.sendAll m).1).sc = w.sc := by
  simp only [World.sendAll]
  split <;> rfl
@[simp] theorem World.sendAll_rcv (w : World) (m : Msg) : ((w.sendAll m).1).rcv = w.rcv := by
  simp only [World.sendAll]
  split <;> rfl
@[simp] theorem World.sendAll_lag (w : World) (m : Msg) : ((w.sendAll m).1).lag = w.lag := by
  simp only [World.sendAll]
  split <;> rfl
@[simp] theorem World.sendAll_rang (w : World) (m : Msg) : ((w.sendAll m).1).rang = w.rang := by
  simp only [World.sendAll]
  split <;> rfl
@[simp] theorem World.sendAll_resp (w : World) (m : Msg) : ((w.sendAll m).1).resp = w.resp := by
  simp only [World.sendAll]
  split <;> rfl
@[simp] theorem World.sendAll_lst (w : World) (m : Msg) : ((w.sendAll m).1).lst = w.lst := by
  simp only [World.sendAll]
  split <;> rfl
@[simp] theorem World.sendAll_objs (w : World) (m : Msg) : ((w.sendAll m).1).objs = w.objs := by
  simp only [World.sendAll]
  split <;> rfl
@[simp] theorem World.requeue_cap (w : World) (m : Msg) : (w.requeue m).cap = w.cap := by
  simp only [World.requeue]
  split <;> rfl
@[simp] theorem World.requeue_wOne (w : World) (m : Msg) : (w.requeue m).wOne = w.wOne := by
  simp only [World.requeue]
  split <;> rfl
@[simp] theorem World.requeue_wAll (w : World) (m : Msg) : (w.requeue m).wAll = w.wAll := by
  simp only [World.requeue]
  split <;> rfl
@[simp] theorem World.requeue_bqs (w : World) (m : Msg) : (w.requeue m).bqs = w.bqs := by
  simp only [World.requeue]
  split <;> rfl
@[simp] theorem World.requeue_tail (w : World) (m : Msg) : (w.requeue m).tail = w.tail := by
  simp only [World.requeue]
  split <;> rfl
@[simp] theorem World.requeue_sc (w : World) (m : Msg) : (w.requeue m).sc = w.sc := by
  simp only [World.requeue]
  split <;> rfl
@[simp] theorem World.requeue_rcv (w : World) (m : Msg) : (w.requeue m).rcv = w.rcv := by
  simp only [World.requeue]
  split <;> rfl
@[simp] theorem World.requeue_lag (w : World) (m : Msg) : (w.requeue m).lag = w.lag := by
  simp only [World.requeue]
  split <;> rfl
@[simp] theorem World.requeue_rang (w : World) (m : Msg) : (w.requeue m).rang = w.rang := by
  simp only [World.requeue]
  split <;> rfl
@[simp] theorem World.requeue_ws (w : World) (m : Msg) : (w.requeue m).ws = w.ws := by
  simp only [World.requeue]
  split <;> rfl
@[simp] theorem World.requeue_bq (w : World) (m : Msg) : (w.requeue m).bq = w.bq := by
  simp only [World.requeue]
  split <;> rfl
@[simp] theorem World.requeue_resp (w : World) (m : Msg) : (w.requeue m).resp = w.resp := by
  simp only [World.requeue]
  split <;> rfl
@[simp] theorem World.requeue_lst (w : World) (m : Msg) : (w.requeue m).lst = w.lst := by
  simp only [World.requeue]
  split <;> rfl
@[simp] theorem World.requeue_objs (w : World) (m : Msg) : (w.requeue m).objs = w.objs := by
  simp only [World.requeue]
  split <;> rfl

end Xtra
