import Verif.Hush
import Verif.More
/-! # What has been logged does not matter

The log is a record of the observable results; the code does not read it (there is none in the code). -/

set_option linter.unusedSimpArgs false
set_option linter.unusedVariables false

namespace Xtra

/-- The same world with a longer past. -/
def World.base (w : World) (l : List Ev) : World := { w with log := w.log ++ l }

variable (w : World) (l : List Ev)

theorem base_cells : (w.base l).cells = w.cells := rfl
theorem base_ws : (w.base l).ws = w.ws := rfl
theorem base_resp : (w.base l).resp = w.resp := rfl
theorem base_lst : (w.base l).lst = w.lst := rfl
theorem base_wRx : (w.base l).wRx = w.wRx := rfl
theorem base_rang : (w.base l).rang = w.rang := rfl
theorem base_objs : (w.base l).objs = w.objs := rfl
theorem base_sc : (w.base l).sc = w.sc := rfl
theorem base_rcv : (w.base l).rcv = w.rcv := rfl
theorem base_bq : (w.base l).bq = w.bq := rfl
theorem base_tail : (w.base l).tail = w.tail := rfl
theorem base_uq : (w.base l).uq = w.uq := rfl

theorem kill_base (m : Msg) : (w.base l).kill m = (w.kill m).base l := rfl

theorem killAll_base (ms : List Msg) : (w.base l).killAll ms = (w.killAll ms).base l := by
  induction ms generalizing w with
  | nil => rfl
  | cons m ms ih => simp only [World.killAll, kill_base, ih]

theorem closeHandle_base (h : Nat) : (w.base l).closeHandle h = (w.closeHandle h).base l := by
  simp only [World.closeHandle, World.base]
  split <;> rfl

theorem closeHandles_base (hs : List Nat) : (w.base l).closeHandles hs = (w.closeHandles hs).base l := by
  induction hs generalizing w with
  | nil => rfl
  | cons h hs ih => simp only [World.closeHandles, closeHandle_base, ih]

theorem shutTx_base : (w.base l).shutTx = w.shutTx.base l := by
  simp only [World.shutTx]
  have h1 := killAll_base { w with lst := w.lst.map LCell.notify, rang := true, uq := [], bqs := [] } l w.uq
  generalize hw2 : World.killAll { w with lst := w.lst.map LCell.notify, rang := true, uq := [], bqs := [] } w.uq = w2 at h1
  have h1' : World.killAll { (w.base l) with
      lst := (w.base l).lst.map LCell.notify, rang := true, uq := [], bqs := [] } (w.base l).uq = w2.base l := h1
  rw [h1']
  have h2 := closeHandles_base { w2 with wOne := [] } l w2.wOne
  generalize hw3 : World.closeHandles { w2 with wOne := [] } w2.wOne = w3 at h2
  have h2' : World.closeHandles { (w2.base l) with wOne := [] } (w2.base l).wOne = w3.base l := h2
  rw [h2']
  exact closeHandles_base { w3 with wAll := [] } l w3.wAll

theorem sendOne_base (m : Msg) : (w.base l).sendOne m = ((w.sendOne m).1.base l, (w.sendOne m).2) := by
  unfold World.sendOne
  rw [show (w.base l).cells = w.cells from rfl, show (w.base l).wRx = w.wRx from rfl]
  obtain ⟨cells, rest, b⟩ := fulfil w.cells w.wRx m
  cases b
  · simp only
    rw [show ({ (w.base l) with cells := cells, wRx := rest } : World) =
      ({ w with cells := cells, wRx := rest } : World).base l from rfl]
    generalize ({ w with cells := cells, wRx := rest } : World) = w1
    rw [show (w1.base l).uniFull = w1.uniFull from rfl]
    split <;> rfl
  · rfl

theorem requeue_base (m : Msg) : (w.base l).requeue m = (w.requeue m).base l := by
  simp only [World.requeue, World.base]
  split <;> rfl

theorem popUnicast_base : (w.base l).popUnicast = w.popUnicast.map fun p => (p.1, p.2.base l) := by
  unfold World.popUnicast
  rw [show (w.base l).uq = w.uq from rfl]
  cases Heap.pop Msg.le w.uq with
  | none => rfl
  | some p =>
    obtain ⟨m, uq⟩ := p
    simp only
    rw [show ({ (w.base l) with uq := uq } : World) = ({ w with uq := uq } : World).base l from rfl]
    generalize ({ w with uq := uq } : World) = w1
    rw [show (w1.base l).uniFull = w1.uniFull from rfl]
    split
    · rfl
    · rw [show (w.base l).wOne = w.wOne from rfl, show (w.base l).ws = w.ws from rfl]
      split <;> rfl

theorem sendAll_base (m : Msg) : (w.base l).sendAll m = ((w.sendAll m).1.base l, (w.sendAll m).2) := by
  simp only [World.sendAll]
  rw [show (w.base l).bcFull = w.bcFull from rfl]
  by_cases h : w.bcFull = true <;> simp only [h, if_true, Bool.false_eq_true, if_false] <;> rfl

theorem incBq_base (i : Nat) : (w.base l).incBq i = (w.incBq i).base l := by
  unfold World.incBq
  rw [show (w.base l).bq = w.bq from rfl]
  cases w.bq[i]? <;> rfl

theorem decBq_base (i : Nat) : (w.base l).decBq i = (w.decBq i).base l := by
  unfold World.decBq
  rw [show (w.base l).bq = w.bq from rfl]
  cases w.bq[i]? with
  | none => rfl
  | some x => simp only; split <;> rfl

theorem popTail_base (m : Msg) (w1 : World) (l : List Ev) : popTail m (w1.base l) = (popTail m w1).map fun p => (p.1, p.2.base l) := by
  unfold popTail
  rw [show (w1.base l).longest = w1.longest from rfl]
  have h3 : ({ (w1.base l) with tail := w1.longest } : World) = ({ w1 with tail := w1.longest } : World).base l := rfl
  simp only at h3 ⊢
  rw [h3]
  rw [show (({ w1 with tail := w1.longest } : World).base l).bcFull = ({ w1 with tail := w1.longest } : World).bcFull from rfl]
  by_cases hf : ({ w1 with tail := w1.longest } : World).bcFull = true
  · simp [hf]
  · simp only [hf, Bool.false_eq_true, if_false]
    rw [show (w1.base l).wAll = w1.wAll from rfl, show (w1.base l).ws = w1.ws from rfl]
    rcases takeWaiting (w1.wAll.length + 1) w1.ws w1.wAll with ⟨ws, q', _ | m'⟩ <;> rfl

theorem popBroadcast_base (i : Nat) : (w.base l).popBroadcast i = (w.popBroadcast i).map fun p => (p.1, p.2.base l) := by
  cases hx : w.bq[i]? with
  | none =>
    have hx' : (w.base l).bq[i]? = none := hx
    unfold World.popBroadcast; rw [hx', hx]; rfl
  | some x =>
    have hx' : (w.base l).bq[i]? = some x := hx
    cases hp : Heap.pop Msg.le x.items with
    | none =>
      unfold World.popBroadcast
      rw [hx', hx]
      simp only [hp]; rfl
    | some p =>
      obtain ⟨m, items⟩ := p
      rw [popBroadcast_tail hx hp, popBroadcast_tail hx' hp]
      exact popTail_base m { w with bq := w.bq.set i { x with items := items } } l

theorem tryRecv_base (i : Nat) : (w.base l).tryRecv i = ((w.tryRecv i).1.base l, (w.tryRecv i).2) := by
  simp only [World.tryRecv, popBroadcast_base, popUnicast_base]
  rw [show (w.base l).items i = w.items i from rfl]
  rw [show (w.base l).uq = w.uq from rfl, show (w.base l).sc = w.sc from rfl, show (w.base l).lag = w.lag from rfl]
  split
  · cases w.popBroadcast i <;> rfl
  · cases w.popUnicast <;> rfl
  · split <;> rfl

theorem noteLate_base (m : Msg) : (w.base l).noteLate m = (w.noteLate m).base l := by
  simp only [World.noteLate, World.lateLog, base_rcv]
  by_cases h : w.rcv = 0 <;> simp only [h, if_true, if_false] <;> rfl

/-- A step of a call with a longer past. -/
theorem exec_base (m : Micro) : exec (w.base l) m = ((exec w m).1.base l, (exec w m).2) := by
  cases m with
  | sendLd1 f md m rc wk => simp only [exec, base_rcv]; by_cases hr : w.rcv = 0 <;> simp only [hr, if_true, if_false] <;> rfl
  | sendLd2 f md m rc wk => simp only [exec, base_sc]; by_cases hr : w.sc = 0 <;> simp only [hr, if_true, if_false] <;> rfl
  | sendCrit f md m rc wk =>
    cases md <;> simp only [exec, noteLate_base, sendOne_base, sendAll_base] <;>
      first
      | (cases ((w.noteLate m).sendOne m).2 <;> rfl)
      | (cases ((w.noteLate m).sendAll m).2 <;> rfl)
  | pollWs f md mid h wk => simp only [exec, base_ws]; cases w.ws[h]? with
    | none => rfl
    | some c => cases c <;> rfl
  | sendFin f md mid wk =>
    cases md with
    | bcast => rfl
    | detached => rfl
    | ret =>
      simp only [exec, base_resp]
      cases w.resp[mid]? with
      | none => rfl
      | some c => cases c <;> rfl
  | dropWs h => simp only [exec, base_ws]; cases w.ws[h]? with
    | none => rfl
    | some c => cases c <;> rfl
  | dropTx rc =>
    cases hs : rc.isStrong with
    | true => simp only [exec, hs, if_true]; rfl
    | false => simp [exec, hs]
  | shutRx => rfl
  | notifyShut c => rfl
  | dropRx => rfl
  | shutTx => simp only [exec, shutTx_base]
  | dropBq i => simp only [exec, decBq_base]
  | recvTry r i wk =>
    simp only [exec, tryRecv_base]
    cases (w.tryRecv i).2 <;> rfl
  | recvPoll r i c wk => simp only [exec, base_cells]; cases w.cells[c]? with
    | none => rfl
    | some d => cases d with
      | full k j => cases k <;> rfl
      | _ => rfl
  | recvBcast r i c wk =>
    simp only [exec, popBroadcast_base]
    cases w.popBroadcast i <;> rfl
  | cancel i c => simp only [exec, base_cells]; cases w.cells[c]? with
    | none => rfl
    | some d => cases d with
      | full k j => cases k <;> rfl
      | _ => rfl
  | requeue m => simp only [exec, requeue_base]
  | dropCell c => simp only [exec, base_cells]; cases w.cells[c]? with
    | none => rfl
    | some d => cases d with
      | full k j => cases k <;> rfl
      | _ => rfl
  | dropMsg m => rfl
  | discard am => cases am <;> rfl
  | respond i am r brk => cases am <;> rfl
  | newBq o => rfl
  | bcastShutdown => rfl
  | conn1 i => simp only [exec, base_rcv]; by_cases hr : w.rcv = 0 <;> simp only [hr, if_true, if_false] <;> rfl
  | conn2 i => rfl
  | join1 o l => simp only [exec, base_rcv]; by_cases hr : w.rcv = 0 <;> simp only [hr, if_true, if_false] <;> rfl
  | join2 o l => simp only [exec, base_sc]; by_cases hr : w.sc = 0 <;> simp only [hr, if_true, if_false] <;> rfl

/-- A call with a longer past. -/
theorem call_base (c : Call) : call (w.base l) c = (call w c).map fun p => (p.1.base l, p.2) := by
  cases c <;> simp only [call, base_objs, base_sc, base_rang, base_lst, base_resp, base_rcv]
  all_goals repeat' split
  all_goals first
    | rfl
    | (simp_all; done)
    | (rename_i hb; exact (if_neg hb).trans rfl)
    | (rename_i hb; exact (if_pos hb).trans rfl)
    | (rename_i i hb; exact congrArg (fun v => some (World.addObj v (.recv i .new), ([] : List Micro))) (incBq_base { w with rcv := w.rcv + 1 } l i))
    | skip

/-! ## Two runs -/

def Sys.base (s : Sys) (l : List Ev) : Sys := { s with w := s.w.base l }

theorem step_base (s : Sys) (a : Act) (l : List Ev) : (s.base l).step a = (s.step a).map fun s' => s'.base l := by
  cases a with
  | call c =>
    have h2 : call (s.base l).w c = (call s.w c).map fun p => (p.1.base l, p.2) := call_base s.w l c
    simp only [Sys.step, h2]
    cases call s.w c <;> rfl
  | exec t =>
    have ht : (s.base l).th = s.th := rfl
    simp only [Sys.step, ht]
    rcases s.th[t]? with _ | _ | ⟨m, rest⟩
    · rfl
    · rfl
    · have h2 : exec (s.base l).w m = ((exec s.w m).1.base l, (exec s.w m).2) := exec_base s.w l m
      simp only [h2]; rfl

theorem run_base (s : Sys) (as : List Act) (l : List Ev) : (s.base l).run as = (s.run as).map fun s' => s'.base l := by
  induction as generalizing s with
  | nil => rfl
  | cons a as ih =>
    simp only [Sys.run, step_base]
    cases s.step a with
    | none => rfl
    | some s' => exact ih s'

/-- The past removed. -/
theorem unbase (s : Sys) : s = ({ s with w := { s.w with log := [] } } : Sys).base s.w.log := rfl

end Xtra
