import Verif.Extra
import Verif.BqRef
/-! One more holder of a mailbox. (`xtra/src/chan/ptr.rs`, `xtra/src/chan.rs`, `xtra/src/mailbox.rs`: a `Mailbox`, a receive future, a `Message` and a
handler in progress each hold a reference to the channel as receiver and one to the broadcast queue of their mailbox; the code asks only whether the
counts are 0.) As long as they are not 0, a world with more of these references makes the same steps. -/

set_option linter.unusedSimpArgs false
set_option linter.unusedVariables false

namespace Xtra

/-- `q` more references to a broadcast queue. -/
def BQ.more (q : Nat) (x : BQ) : BQ := { x with refs := x.refs + q }

/-- The same world with `n` more receivers and `q` more references to broadcast queue `b`. -/
def World.more (w : World) (n q b : Nat) : World := { w with rcv := w.rcv + n, bq := w.bq.modify b (BQ.more q) }

theorem BQ.more_zero (x : BQ) : x.more 0 = x := rfl

theorem more_none {w : World} {n q b i : Nat} (h : w.bq[i]? = none) : (w.more n q b).bq[i]? = none := by
  simp [World.more, List.getElem?_modify, h]

theorem more_some {w : World} {n q b i : Nat} {x : BQ} (h : w.bq[i]? = some x) :
    (w.more n q b).bq[i]? = some (x.more (if b = i then q else 0)) := by
  by_cases hb : b = i <;> simp [World.more, List.getElem?_modify, h, hb, BQ.more_zero]

theorem items_more (w : World) (n q b i : Nat) : (w.more n q b).items i = w.items i := by
  unfold World.items
  cases h : w.bq[i]? with
  | none => rw [more_none h]
  | some x => rw [more_some h]; rfl

theorem refs_more (w : World) (n q b i : Nat) (hb : b < w.bq.length) : (w.more n q b).refs i = w.refs i + if b = i then q else 0 := by
  unfold World.refs
  cases h : w.bq[i]? with
  | none =>
    rw [more_none h]
    have : b ≠ i := fun e => by subst e; rw [List.getElem?_eq_getElem hb] at h; cases h
    simp [this]
  | some x => rw [more_some h]; rfl

theorem refs_lt {w : World} {b : Nat} (h : w.refs b ≠ 0) : b < w.bq.length := by
  unfold World.refs at h
  split at h
  · rename_i x hx; exact (List.getElem?_eq_some_iff.mp hx).1
  · exact absurd rfl h

theorem alive_more (w : World) (n q b i : Nat) (hb : w.refs b ≠ 0) : (w.more n q b).alive i = w.alive i := by
  rw [Bool.eq_iff_iff, alive_iff, alive_iff, refs_more _ _ _ _ _ (refs_lt hb)]
  split
  · subst_vars; omega
  · omega

theorem modify_set {l : List BQ} {q b i : Nat} {x : BQ} :
    (l.set i x).modify b (BQ.more q) = (l.modify b (BQ.more q)).set i (x.more (if b = i then q else 0)) := by
  apply List.ext_getElem?
  intro j
  simp only [List.getElem?_modify, List.getElem?_set, List.length_modify]
  by_cases h1 : i = j <;> by_cases h2 : b = j <;> by_cases h3 : j < l.length <;> simp [h1, h2, h3, BQ.more_zero] <;> grind [BQ.more_zero]

theorem pushBq_more (m : Msg) (bq : List BQ) (q b i : Nat) : pushBq m (bq.modify b (BQ.more q)) i = (pushBq m bq i).modify b (BQ.more q) := by
  unfold pushBq
  cases h : bq[i]? with
  | none =>
    have : (bq.modify b (BQ.more q))[i]? = none := by simp [List.getElem?_modify, h]
    rw [this]
  | some x =>
    have : (bq.modify b (BQ.more q))[i]? = some (x.more (if b = i then q else 0)) := by
      by_cases hb : b = i <;> simp [List.getElem?_modify, h, hb, BQ.more_zero]
    rw [this]
    simp only
    rw [modify_set]; rfl

theorem pushAll_more (m : Msg) (l : List Nat) (bq : List BQ) (q b : Nat) :
    l.foldl (pushBq m) (bq.modify b (BQ.more q)) = (l.foldl (pushBq m) bq).modify b (BQ.more q) := by
  induction l generalizing bq with
  | nil => rfl
  | cons a l ih => simp only [List.foldl_cons, pushBq_more, ih]

theorem sendBroadcast_more (w : World) (n q b : Nat) (m : Msg) (hb : w.refs b ≠ 0) : (w.more n q b).sendBroadcast m = (w.sendBroadcast m).more n q b := by
  have h1 : (w.more n q b).alive = w.alive := funext fun i => alive_more w n q b i hb
  simp only [World.sendBroadcast, h1]
  simp only [World.more, pushAll_more]

theorem longest_more (w : World) (n q b : Nat) (hb : w.refs b ≠ 0) : (w.more n q b).longest = w.longest := by
  unfold World.longest
  have h1 : (w.more n q b).alive = w.alive := funext fun i => alive_more w n q b i hb
  have h2 : (w.more n q b).items = w.items := funext fun i => items_more w n q b i
  rw [h1, h2]; rfl

theorem kill_more (w : World) (n q b : Nat) (m : Msg) : (w.more n q b).kill m = (w.kill m).more n q b := rfl

theorem killAll_more (ms : List Msg) (w : World) (n q b : Nat) :
    (w.more n q b).killAll ms = (w.killAll ms).more n q b := by
  induction ms generalizing w with
  | nil => rfl
  | cons m ms ih => simp only [World.killAll, kill_more, ih]

theorem closeHandle_more (w : World) (n q b : Nat) (h : Nat) :
    (w.more n q b).closeHandle h = (w.closeHandle h).more n q b := by
  simp only [World.closeHandle, World.more]
  split <;> rfl

theorem closeHandles_more (hs : List Nat) (w : World) (n q b : Nat) :
    (w.more n q b).closeHandles hs = (w.closeHandles hs).more n q b := by
  induction hs generalizing w with
  | nil => rfl
  | cons h hs ih => simp only [World.closeHandles, closeHandle_more, ih]

theorem shutTx_more (w : World) (n q b : Nat) : (w.more n q b).shutTx = w.shutTx.more n q b := by
  simp only [World.shutTx]
  have h1 := killAll_more w.uq { w with lst := w.lst.map LCell.notify, rang := true, uq := [], bqs := [] } n q b
  generalize hw2 : World.killAll { w with lst := w.lst.map LCell.notify, rang := true, uq := [], bqs := [] } w.uq = w2 at h1
  have h1' : World.killAll { (w.more n q b) with
      lst := (w.more n q b).lst.map LCell.notify, rang := true, uq := [], bqs := [] } (w.more n q b).uq = w2.more n q b := h1
  rw [h1']
  have h2 := closeHandles_more w2.wOne { w2 with wOne := [] } n q b
  generalize hw3 : World.closeHandles { w2 with wOne := [] } w2.wOne = w3 at h2
  have h2' : World.closeHandles { (w2.more n q b) with wOne := [] } (w2.more n q b).wOne = w3.more n q b := h2
  rw [h2']
  exact closeHandles_more w3.wAll { w3 with wAll := [] } n q b

theorem sendOne_more (w : World) (n q b : Nat) (m : Msg) :
    (w.more n q b).sendOne m = ((w.sendOne m).1.more n q b, (w.sendOne m).2) := by
  unfold World.sendOne
  rw [show (w.more n q b).cells = w.cells from rfl, show (w.more n q b).wRx = w.wRx from rfl]
  obtain ⟨cells, rest, b⟩ := fulfil w.cells w.wRx m
  cases b
  · simp only
    rw [show ({ (w.more n q b) with cells := cells, wRx := rest } : World) =
      ({ w with cells := cells, wRx := rest } : World).more n q b from rfl]
    generalize ({ w with cells := cells, wRx := rest } : World) = w1
    rw [show (w1.more n q b).uniFull = w1.uniFull from rfl]
    split <;> rfl
  · rfl

theorem requeue_more (w : World) (n q b : Nat) (m : Msg) :
    (w.more n q b).requeue m = (w.requeue m).more n q b := by
  simp only [World.requeue, World.more]
  split <;> rfl

theorem popUnicast_more (w : World) (n q b : Nat) :
    (w.more n q b).popUnicast = w.popUnicast.map fun p => (p.1, p.2.more n q b) := by
  unfold World.popUnicast
  rw [show (w.more n q b).uq = w.uq from rfl]
  cases Heap.pop Msg.le w.uq with
  | none => rfl
  | some p =>
    obtain ⟨m, uq⟩ := p
    simp only
    rw [show ({ (w.more n q b) with uq := uq } : World) = ({ w with uq := uq } : World).more n q b from rfl]
    generalize ({ w with uq := uq } : World) = w1
    rw [show (w1.more n q b).uniFull = w1.uniFull from rfl]
    split
    · rfl
    · rw [show (w.more n q b).wOne = w.wOne from rfl, show (w.more n q b).ws = w.ws from rfl]
      split <;> rfl

theorem sendAll_more (w : World) (n q b : Nat) (hb : w.refs b ≠ 0) (m : Msg) :
    (w.more n q b).sendAll m = ((w.sendAll m).1.more n q b, (w.sendAll m).2) := by
  simp only [World.sendAll]
  rw [show (w.more n q b).bcFull = w.bcFull from rfl]
  by_cases h : w.bcFull = true <;> simp only [h, if_true, Bool.false_eq_true, if_false]
  · rfl
  · rw [sendBroadcast_more _ _ _ _ _ hb]

theorem incBq_more (w : World) (n q b i : Nat) : (w.more n q b).incBq i = (w.incBq i).more n q b := by
  unfold World.incBq
  cases h : w.bq[i]? with
  | none => rw [more_none h]
  | some x =>
    rw [more_some h]
    simp only [World.more, modify_set, BQ.more]
    congr 3
    omega

theorem decBq_more (w : World) (n q b i : Nat) (hb : (w.decBq i).refs b ≠ 0) : (w.more n q b).decBq i = (w.decBq i).more n q b := by
  unfold World.decBq at hb ⊢
  cases h : w.bq[i]? with
  | none => rw [more_none h]
  | some x =>
    rw [h] at hb
    rw [more_some h]
    simp only at hb ⊢
    by_cases hbi : b = i
    · subst hbi
      have hl := (List.getElem?_eq_some_iff.mp h).1
      by_cases h2 : x.refs ≤ 1
      · simp [h2, World.refs, hl] at hb
      · have h3 : ¬ (x.more (if b = b then q else 0)).refs ≤ 1 := by simp [BQ.more]; omega
        simp only [if_neg h2, if_neg h3]
        have h4 : x.refs + q - 1 = x.refs - 1 + q := by omega
        have h5 : ¬ x.refs + q ≤ 1 := by omega
        simp [World.more, modify_set, BQ.more, h4, h5]
    · simp only [hbi, if_false, BQ.more_zero]
      split <;> simp [World.more, modify_set, hbi, BQ.more_zero]

/-- What a receive does after it has taken a broadcast out. -/
def popTail (m : Msg) (w1 : World) : Option (Msg × World) :=
  let w2 := { w1 with tail := w1.longest }
  if w2.bcFull then some (m, w2)
  else
    match takeWaiting (w2.wAll.length + 1) w2.ws w2.wAll with
    | (ws, q', some m') => some (m, ({ w2 with ws := ws, wAll := q' }).sendBroadcast m')
    | (ws, q', none) => some (m, { w2 with ws := ws, wAll := q' })

theorem popBroadcast_tail {w : World} {i : Nat} {x : BQ} (hx : w.bq[i]? = some x) {m : Msg} {items : List Msg}
    (hp : Heap.pop Msg.le x.items = some (m, items)) :
    w.popBroadcast i = popTail m { w with bq := w.bq.set i { x with items := items } } := by
  unfold World.popBroadcast
  rw [hx]
  simp only [hp]
  rfl

theorem popTail_more (m : Msg) (w1 : World) (n q b : Nat) (h : w1.refs b ≠ 0) :
    popTail m (w1.more n q b) = (popTail m w1).map fun p => (p.1, p.2.more n q b) := by
  unfold popTail
  rw [longest_more _ _ _ _ h]
  have h4 : ({ w1 with tail := w1.longest } : World).refs b ≠ 0 := h
  have h3 : ({ (w1.more n q b) with tail := w1.longest } : World) = ({ w1 with tail := w1.longest } : World).more n q b := rfl
  simp only at h3 ⊢
  rw [h3]
  rw [show (({ w1 with tail := w1.longest } : World).more n q b).bcFull = ({ w1 with tail := w1.longest } : World).bcFull from rfl]
  by_cases hf : ({ w1 with tail := w1.longest } : World).bcFull = true
  · simp [hf]
  · simp only [hf, Bool.false_eq_true, if_false]
    rw [show (w1.more n q b).wAll = w1.wAll from rfl, show (w1.more n q b).ws = w1.ws from rfl]
    rcases takeWaiting (w1.wAll.length + 1) w1.ws w1.wAll with ⟨ws, q', _ | m'⟩
    · rfl
    · have h5 := sendBroadcast_more { w1 with tail := w1.longest, ws := ws, wAll := q' } n q b m' h4
      exact congrArg (fun v => some (m, v)) h5

theorem popBroadcast_more (w : World) (n q b : Nat) (hb : w.refs b ≠ 0) (i : Nat) :
    (w.more n q b).popBroadcast i = (w.popBroadcast i).map fun p => (p.1, p.2.more n q b) := by
  cases hx : w.bq[i]? with
  | none => unfold World.popBroadcast; rw [more_none hx, hx]; rfl
  | some x =>
    cases hp : Heap.pop Msg.le x.items with
    | none =>
      unfold World.popBroadcast
      rw [more_some hx, hx]
      simp only [BQ.more, hp]; rfl
    | some p =>
      obtain ⟨m, items⟩ := p
      rw [popBroadcast_tail hx hp, popBroadcast_tail (more_some hx) (m := m) (items := items) hp]
      have h2 : ({ w with bq := w.bq.set i { x with items := items } } : World).refs b ≠ 0 := by
        have : ({ w with bq := w.bq.set i { x with items := items } } : World).refs b = w.refs b := by
          simp only [World.refs, List.getElem?_set]
          by_cases hbi : i = b
          · subst hbi
            obtain ⟨h5, h6⟩ := List.getElem?_eq_some_iff.mp hx
            simp [h5, h6]
          · simp [hbi]
        rw [this]; exact hb
      rw [← popTail_more m _ n q b h2]
      simp only [World.more, modify_set]
      rfl

theorem tryRecv_more (w : World) (n q b : Nat) (hb : w.refs b ≠ 0) (i : Nat) :
    (w.more n q b).tryRecv i = ((w.tryRecv i).1.more n q b, (w.tryRecv i).2) := by
  simp only [World.tryRecv, popBroadcast_more _ _ _ _ hb, popUnicast_more, items_more]
  rw [show (w.more n q b).uq = w.uq from rfl, show (w.more n q b).sc = w.sc from rfl, show (w.more n q b).lag = w.lag from rfl]
  split
  · cases w.popBroadcast i <;> rfl
  · cases w.popUnicast <;> rfl
  · split <;> rfl

theorem more_cells (w : World) (n q b : Nat) : (w.more n q b).cells = w.cells := rfl
theorem more_ws (w : World) (n q b : Nat) : (w.more n q b).ws = w.ws := rfl
theorem more_resp (w : World) (n q b : Nat) : (w.more n q b).resp = w.resp := rfl
theorem more_lst (w : World) (n q b : Nat) : (w.more n q b).lst = w.lst := rfl
theorem more_wRx (w : World) (n q b : Nat) : (w.more n q b).wRx = w.wRx := rfl
theorem more_rang (w : World) (n q b : Nat) : (w.more n q b).rang = w.rang := rfl
theorem more_objs (w : World) (n q b : Nat) : (w.more n q b).objs = w.objs := rfl
theorem more_sc (w : World) (n q b : Nat) : (w.more n q b).sc = w.sc := rfl
theorem more_rcv (w : World) (n q b : Nat) : (w.more n q b).rcv = w.rcv + n := rfl
theorem more_bqlen (w : World) (n q b : Nat) : (w.more n q b).bq.length = w.bq.length := by simp [World.more]

theorem addTx_more (w : World) (n q b : Nat) (rc : Rc) : (w.more n q b).addTx rc = (w.addTx rc).more n q b := rfl

theorem noteLate_more (w : World) (n q b : Nat) (h : w.rcv ≠ 0) (m : Msg) : (w.more n q b).noteLate m = (w.noteLate m).more n q b := by
  have h1 : (w.more n q b).rcv ≠ 0 := by rw [more_rcv]; omega
  simp only [World.noteLate, World.lateLog, if_neg h, if_neg h1]
  first | done | rfl

theorem refs_of_bq {w w' : World} {b : Nat} (h : w'.bq = w.bq) (hb : w.refs b ≠ 0) : w'.refs b ≠ 0 := by
  rw [refs_congr h]; exact hb

/-- A step of a call with more references. -/
theorem exec_more (w : World) (m : Micro) (n q b : Nat) (h0 : w.rcv ≠ 0) (h1 : (exec w m).1.rcv ≠ 0) (hb : w.refs b ≠ 0)
    (hb1 : (exec w m).1.refs b ≠ 0) : exec (w.more n q b) m = ((exec w m).1.more n q b, (exec w m).2) := by
  have hs : (w.more n q b).rcv ≠ 0 := by rw [more_rcv]; omega
  cases m with
  | sendLd1 f md m rc wk => simp only [exec, if_neg h0, if_neg hs]
  | sendLd2 f md m rc wk => simp only [exec, more_sc]; by_cases hr : w.sc = 0 <;> simp only [hr, if_true, if_false] <;> rfl
  | sendCrit f md m rc wk =>
    have hn := noteLate_more w n q b h0 m
    have hb2 : (w.noteLate m).refs b ≠ 0 := hb
    cases md <;> simp only [exec, hn, sendOne_more, sendAll_more _ _ _ _ hb2]
  | pollWs f md mid h wk => simp only [exec, more_ws]; cases w.ws[h]? with
    | none => rfl
    | some c => cases c <;> rfl
  | sendFin f md mid wk =>
    cases md with
    | bcast => rfl
    | detached => rfl
    | ret =>
      simp only [exec, more_resp]
      cases w.resp[mid]? with
      | none => rfl
      | some c => cases c <;> rfl
  | dropWs h => simp only [exec, more_ws]; cases w.ws[h]? with
    | none => rfl
    | some c => cases c <;> rfl
  | dropTx rc =>
    cases hs : rc.isStrong with
    | true => simp only [exec, hs, if_true]; rfl
    | false => simp [exec, hs]
  | shutRx => rfl
  | notifyShut c => rfl
  | dropRx =>
    simp only [exec] at h1 ⊢
    have h2 : ¬ w.rcv = 1 := by omega
    have h3 : ¬ (w.more n q b).rcv = 1 := by rw [more_rcv]; omega
    simp only [if_neg h2, if_neg h3]
    simp only [World.more, Prod.mk.injEq, World.mk.injEq, true_and, and_true]
    omega
  | shutTx => simp only [exec, shutTx_more]
  | dropBq i => simp only [exec] at hb1 ⊢; rw [decBq_more _ _ _ _ _ hb1]
  | recvTry r i wk =>
    simp only [exec, tryRecv_more w n q b hb]
    cases (w.tryRecv i).2 <;> rfl
  | recvPoll r i c wk => simp only [exec, more_cells]; cases w.cells[c]? with
    | none => rfl
    | some d => cases d with
      | full k j => cases k <;> rfl
      | _ => rfl
  | recvBcast r i c wk =>
    simp only [exec, popBroadcast_more _ _ _ _ hb]
    cases w.popBroadcast i <;> rfl
  | cancel i c => simp only [exec, more_cells]; cases w.cells[c]? with
    | none => rfl
    | some d => cases d with
      | full k j => cases k <;> rfl
      | _ => rfl
  | requeue m => simp only [exec, requeue_more]
  | dropCell c => simp only [exec, more_cells]; cases w.cells[c]? with
    | none => rfl
    | some d => cases d with
      | full k j => cases k <;> rfl
      | _ => rfl
  | dropMsg m => rfl
  | discard am => cases am <;> rfl
  | respond i am r brk => cases am <;> rfl
  | newBq o =>
    have hl := refs_lt hb
    have h2 : w.bq.modify b (BQ.more q) ++ [⟨1, []⟩] = (w.bq ++ [(⟨1, []⟩ : BQ)]).modify b (BQ.more q) := by
      apply List.ext_getElem?
      intro j
      simp only [List.getElem?_append, List.getElem?_modify, List.length_modify]
      by_cases hj : j < w.bq.length
      · simp [hj]
      · have : b ≠ j := by omega
        simp [hj, this]
    simp only [exec, more_bqlen]
    simp only [World.more, h2]
  | bcastShutdown =>
    simp only [exec, more_resp]
    have h2 := sendBroadcast_more { w with resp := w.resp ++ [Resp.none] } n q b ⟨w.resp.length, .shutdown⟩ hb
    exact congrArg (fun v => (v, ([] : List Micro))) h2
  | conn1 i => simp only [exec, if_neg h0, if_neg hs]
  | conn2 i => rfl
  | join1 o l => simp only [exec, if_neg h0, if_neg hs]
  | join2 o l => simp only [exec, more_sc]; by_cases hr : w.sc = 0 <;> simp only [hr, if_true, if_false] <;> rfl

/-- A call with more references. -/
theorem call_more (w : World) (c : Call) (n q b : Nat) : call (w.more n q b) c = (call w c).map fun p => (p.1.more n q b, p.2) := by
  cases c <;> simp only [call, more_objs, addTx_more, more_sc, more_rang, more_lst, more_resp]
  all_goals repeat' split
  all_goals first
    | rfl
    | (simp_all; done)
    | (rename_i hb; exact (if_neg hb).trans rfl)
    | (rename_i hb; exact (if_pos hb).trans rfl)
    | (have h2 : ({ (w.more n q b) with rcv := (w.more n q b).rcv + 1 } : World) = ({ w with rcv := w.rcv + 1 } : World).more n q b := by
         simp only [World.more, World.mk.injEq, true_and, and_true]
         omega
       exact congrArg (fun v => some (World.addObj v .busy, [Micro.newBq w.objs.length])) h2)
    | (rename_i i hb
       have h := incBq_more { w with rcv := w.rcv + 1 } n q b i
       have h2 : ({ (w.more n q b) with rcv := (w.more n q b).rcv + 1 } : World) = ({ w with rcv := w.rcv + 1 } : World).more n q b := by
         simp only [World.more, World.mk.injEq, true_and, and_true]
         omega
       rw [← h2] at h
       exact congrArg (fun v => some (World.addObj v (.recv i .new), ([] : List Micro))) h)
    | skip

/-! ## Two runs -/

/-- The same system with more references. -/
def Sys.more (s : Sys) (n q b : Nat) : Sys := { s with w := s.w.more n q b }

theorem step_more {s s' : Sys} {a : Act} {n q b : Nat} (h0 : s.w.rcv ≠ 0) (hb : s.w.refs b ≠ 0) (hs : s.step a = some s') (h1 : s'.w.rcv ≠ 0)
    (hb1 : s'.w.refs b ≠ 0) : (s.more n q b).step a = some (s'.more n q b) := by
  cases a with
  | call c =>
    simp only [Sys.step] at hs
    split at hs
    · rename_i w' ms hc
      simp only [Option.some.injEq] at hs
      subst hs
      have h2 : call (s.more n q b).w c = some (w'.more n q b, ms) := by
        show call (s.w.more n q b) c = _
        rw [call_more, hc]; rfl
      simp only [Sys.step, h2]; rfl
    · cases hs
  | exec t =>
    simp only [Sys.step] at hs
    split at hs
    · rename_i m rest ht
      simp only [Option.some.injEq] at hs
      subst hs
      have h2 : exec (s.more n q b).w m = ((exec s.w m).1.more n q b, (exec s.w m).2) := exec_more _ _ n q b h0 h1 hb hb1
      have ht' : (s.more n q b).th[t]? = some (m :: rest) := ht
      simp only [Sys.step, ht', h2]; rfl
    · cases hs

theorem pushBq_refs (m : Msg) (bq : List BQ) (a i : Nat) : ((pushBq m bq a)[i]?).map BQ.refs = (bq[i]?).map BQ.refs := by
  rw [pushBq_get]
  split
  · cases bq[i]? <;> rfl
  · rfl

theorem pushAll_refs (m : Msg) (l : List Nat) (bq : List BQ) (i : Nat) : ((l.foldl (pushBq m) bq)[i]?).map BQ.refs = (bq[i]?).map BQ.refs := by
  induction l generalizing bq with
  | nil => rfl
  | cons a l ih => rw [List.foldl_cons, ih, pushBq_refs]

theorem refs_of_map {w w' : World} {b : Nat} (h : (w'.bq[b]?).map BQ.refs = (w.bq[b]?).map BQ.refs) : w'.refs b = w.refs b := by
  unfold World.refs
  cases h1 : w'.bq[b]? <;> cases h2 : w.bq[b]? <;> simp_all

theorem sendBroadcast_refs' (w : World) (m : Msg) (b : Nat) : (w.sendBroadcast m).refs b = w.refs b :=
  refs_of_map (pushAll_refs m _ w.bq b)

theorem popBroadcast_refs' {w w' : World} {i : Nat} {m : Msg} (h : w.popBroadcast i = some (m, w')) (b : Nat) : w'.refs b = w.refs b := by
  cases hx : w.bq[i]? with
  | none => unfold World.popBroadcast at h; rw [hx] at h; cases h
  | some x =>
    cases hp : Heap.pop Msg.le x.items with
    | none => unfold World.popBroadcast at h; rw [hx] at h; simp [hp] at h
    | some p =>
      obtain ⟨m1, items⟩ := p
      rw [popBroadcast_tail hx hp] at h
      have h2 : ({ w with bq := w.bq.set i { x with items := items } } : World).refs b = w.refs b := by
        refine refs_of_map ?_
        simp only [List.getElem?_set]
        by_cases hbi : i = b
        · subst hbi
          obtain ⟨h5, h6⟩ := List.getElem?_eq_some_iff.mp hx
          simp [h5, h6]
        · simp [hbi]
      rw [← h2]
      generalize ({ w with bq := w.bq.set i { x with items := items } } : World) = w1 at h
      unfold popTail at h
      simp only at h
      split at h
      · simp only [Option.some.injEq, Prod.mk.injEq] at h
        obtain ⟨rfl, rfl⟩ := h
        rfl
      · split at h
        · simp only [Option.some.injEq, Prod.mk.injEq] at h
          obtain ⟨rfl, rfl⟩ := h
          rw [sendBroadcast_refs']; rfl
        · simp only [Option.some.injEq, Prod.mk.injEq] at h
          obtain ⟨rfl, rfl⟩ := h
          rfl

theorem execR_refs_keep {w w' : World} {m : Micro} {ms : List Micro} (h : ExecR w m w' ms) {b : Nat} (hm : m ≠ .dropBq b) (hb : w.refs b ≠ 0) :
    w'.refs b ≠ 0 := by
  have hl := refs_lt hb
  cases h
  case recv_all hp _ _ => exact fun e => hb (by rw [← popBroadcast_refs' hp b]; exact e)
  case recv_one hp _ _ => exact refs_of_bq (by simp [World.popUnicast_bq hp]) hb
  case recvBcast_some hp => exact fun e => hb (by rw [← popBroadcast_refs' hp b]; exact e)
  case dropBq i =>
    have : b ≠ i := fun e => hm (by rw [e])
    rw [decBq_refs]; simp [this]; exact hb
  case newBq =>
    intro e
    apply hb
    rw [← e]
    refine (refs_of_map ?_).symm
    simp only [List.getElem?_append_left hl]
  all_goals first
    | exact refs_of_bq (by simp) hb
    | (rw [show World.refs _ b = _ from sendBroadcast_refs' _ _ b]; exact hb)
    | (have h3 := sendBroadcast_refs' w; simp_all; done)
    | skip

/-- No step makes a broadcast queue vanish from the table, or a freed one come back. -/
theorem exec_refs_len (w : World) (m : Micro) {b : Nat} (hl : b < w.bq.length) :
    b < (exec w m).1.bq.length ∧ (w.refs b = 0 → (exec w m).1.refs b = 0) := by
  have h := exec_rel w m
  generalize exec w m = p at h
  obtain ⟨w', ms⟩ := p
  simp only
  have key : ∀ w' : World, (w'.bq[b]?).map BQ.refs = (w.bq[b]?).map BQ.refs → b < w'.bq.length ∧ (w.refs b = 0 → w'.refs b = 0) := by
    intro w' hk
    refine ⟨?_, fun h0 => by rw [refs_of_map hk]; exact h0⟩
    rcases Nat.lt_or_ge b w'.bq.length with h | h
    · exact h
    · rw [List.getElem?_eq_none h, List.getElem?_eq_getElem hl] at hk; simp at hk
  have key2 : ∀ w' : World, w'.bq = w.bq → b < w'.bq.length ∧ (w.refs b = 0 → w'.refs b = 0) := fun w' e => key w' (by rw [e])
  have hpop : ∀ {i : Nat} {m : Msg} {w1 : World}, w.popBroadcast i = some (m, w1) → b < w1.bq.length ∧ (w.refs b = 0 → w1.refs b = 0) := by
    intro i m w1 hp
    refine ⟨?_, fun h0 => by rw [popBroadcast_refs' hp]; exact h0⟩
    by_cases h0 : w.refs b = 0
    · cases hx : w.bq[i]? with
      | none => unfold World.popBroadcast at hp; rw [hx] at hp; cases hp
      | some x =>
        cases hq : Heap.pop Msg.le x.items with
        | none => unfold World.popBroadcast at hp; rw [hx] at hp; simp [hq] at hp
        | some p =>
          obtain ⟨m1, items⟩ := p
          rw [popBroadcast_tail hx hq] at hp
          unfold popTail at hp
          simp only at hp
          split at hp
          · simp only [Option.some.injEq, Prod.mk.injEq] at hp
            obtain ⟨rfl, rfl⟩ := hp
            simpa using hl
          · split at hp
            · simp only [Option.some.injEq, Prod.mk.injEq] at hp
              obtain ⟨rfl, rfl⟩ := hp
              rw [sendBroadcast_bqlen]; simpa using hl
            · simp only [Option.some.injEq, Prod.mk.injEq] at hp
              obtain ⟨rfl, rfl⟩ := hp
              simpa using hl
    · have h1 : w1.refs b ≠ 0 := by rw [popBroadcast_refs' hp]; exact h0
      exact refs_lt h1
  cases h
  case recv_all hp _ _ =>
    have h := hpop hp
    exact ⟨h.1, h.2⟩
  case recvBcast_some hp =>
    have h := hpop hp
    exact ⟨h.1, h.2⟩
  case recv_one hp _ _ => exact key2 _ (by simp [World.popUnicast_bq hp])
  case dropBq i =>
    have h1 := decBq_refs w i b
    have h2 : (w.decBq i).refs b = 0 ∨ w.refs b ≠ 0 := by
      rw [h1]
      split
      · rename_i e; subst e; omega
      · omega
    show b < (w.decBq i).bq.length ∧ (w.refs b = 0 → (w.decBq i).refs b = 0)
    exact ⟨by rw [decBq_len]; exact hl, fun h0 => h2.resolve_right (fun e => e h0)⟩
  case newBq => exact key _ (by simp only [List.getElem?_append_left hl])
  all_goals first
    | exact key2 _ rfl
    | exact key _ (pushAll_refs _ _ w.bq b)
    | (refine key2 _ ?_; simp; done)
    | (refine key _ ?_; simp; done)
    | skip

theorem execR_rcv_eq {w w' : World} {m : Micro} {ms : List Micro} (h : ExecR w m w' ms) (hm : m ≠ .dropRx) : w'.rcv = w.rcv := by
  cases h
  case recv_all hp _ _ => simp [World.popBroadcast_rcv hp]
  case recv_one hp _ _ => simp [World.popUnicast_rcv hp]
  case recvBcast_some hp => simp [World.popBroadcast_rcv hp]
  case dropRx_last => exact absurd rfl hm
  case dropRx_more => exact absurd rfl hm
  all_goals simp

theorem exec_more_post {w : World} {m : Micro} {n q b : Nat} (h0 : w.rcv ≠ 0) (hb : w.refs b ≠ 0) (h1 : n < (exec (w.more n q b) m).1.rcv)
    (h2 : q < (exec (w.more n q b) m).1.refs b) : (exec w m).1.rcv ≠ 0 ∧ (exec w m).1.refs b ≠ 0 := by
  have hl := refs_lt hb
  constructor
  · by_cases hm : m = .dropRx
    · subst hm
      simp only [exec, more_rcv] at h1 ⊢
      omega
    · rw [execR_rcv_eq (exec_rel w m) hm]; exact h0
  · by_cases hm : m = .dropBq b
    · subst hm
      simp only [exec, decBq_refs, if_true] at h2 ⊢
      rw [refs_more _ _ _ _ _ hl] at h2
      simp at h2 ⊢
      omega
    · exact execR_refs_keep (exec_rel w m) hm hb

theorem step_more_conv {s t : Sys} {a : Act} {n q b : Nat} (h0 : s.w.rcv ≠ 0) (hb : s.w.refs b ≠ 0) (hs : (s.more n q b).step a = some t)
    (h1 : n < t.w.rcv) (h2 : q < t.w.refs b) : ∃ s', s.step a = some s' ∧ t = s'.more n q b := by
  cases a with
  | call c =>
    simp only [Sys.step] at hs
    split at hs
    · rename_i w' ms hc
      simp only [Option.some.injEq] at hs
      subst hs
      have hc' : call (s.w.more n q b) c = some (w', ms) := hc
      rw [call_more] at hc'
      cases h3 : call s.w c with
      | none => rw [h3] at hc'; simp at hc'
      | some p =>
        rw [h3] at hc'
        simp only [Option.map_some, Option.some.injEq, Prod.mk.injEq] at hc'
        obtain ⟨rfl, rfl⟩ := hc'
        exact ⟨⟨p.1, s.th ++ [p.2]⟩, by simp only [Sys.step, h3], rfl⟩
    · cases hs
  | exec t =>
    simp only [Sys.step] at hs
    split at hs
    · rename_i m rest ht
      simp only [Option.some.injEq] at hs
      subst hs
      have ht' : s.th[t]? = some (m :: rest) := ht
      obtain ⟨h3, h4⟩ := exec_more_post (w := s.w) (m := m) h0 hb h1 h2
      have h5 : exec (s.more n q b).w m = ((exec s.w m).1.more n q b, (exec s.w m).2) := exec_more _ _ n q b h0 h3 hb h4
      refine ⟨⟨(exec s.w m).1, s.th.set t ((exec s.w m).2 ++ rest)⟩, by simp only [Sys.step, ht'], ?_⟩
      rw [h5]; rfl
    · cases hs

/-- How far the drop has got: what it still has to do, and the references it has given back. -/
def LeftAt (b : Nat) (x : List Micro) (n q : Nat) : Prop :=
  (x = [.dropRx, .dropBq b] ∧ n = 0 ∧ q = 0) ∨ (x = [.dropBq b] ∧ n = 1 ∧ q = 0) ∨ (x = [] ∧ n = 1 ∧ q = 1)

/-- In the first system the drop of a holder of mailbox `b` (slot `f`, thread `k`) has begun; in the second nobody drops it. -/
def GaveMb (f k b : Nat) (s1 s2 : Sys) : Prop :=
  ∃ s' x n q, s1.th[k]? = some x ∧ LeftAt b x n q ∧ SimBut f k (s1.cut k) s' ∧ s2 = s'.more n q b

theorem more_zero (w : World) (b : Nat) : w.more 0 0 b = w := by
  have : w.bq.modify b (BQ.more 0) = w.bq := by
    apply List.ext_getElem?
    intro j
    rw [List.getElem?_modify]
    cases w.bq[j]? <;> simp [BQ.more_zero]
  simp only [World.more, this]
  rfl

theorem decBq_restore (w : World) (n b : Nat) (h : (w.decBq b).refs b ≠ 0) : (w.decBq b).more n 1 b = w.more n 0 b := by
  have hd : w.decBq b = w.decBq b := rfl
  rw [decBq_refs] at h
  simp at h
  unfold World.decBq
  cases hx : w.bq[b]? with
  | none => simp [World.refs, hx] at h
  | some x =>
    obtain ⟨h5, h6⟩ := List.getElem?_eq_some_iff.mp hx
    have h7 : w.refs b = x.refs := by simp [World.refs, hx]
    have h8 : ¬ x.refs ≤ 1 := by omega
    have h9 : x.refs - 1 + 1 = x.refs := by omega
    simp only [if_neg h8]
    have : (w.bq.set b { x with refs := x.refs - 1 }).modify b (BQ.more 1) = w.bq.modify b (BQ.more 0) := by
      apply List.ext_getElem?
      intro j
      rw [List.getElem?_modify, List.getElem?_modify, List.getElem?_set]
      by_cases hj : b = j
      · subst hj; simp [h5, h6, BQ.more, h9]
      · simp [hj]
    simp only [World.more, this]

theorem simBut_rcv {f k : Nat} {s1 s2 : Sys} (h : SimBut f k s1 s2) : s1.w.rcv = s2.w.rcv := by
  obtain ⟨⟨x, hx, -⟩, -⟩ := h
  rw [hx]; rfl

theorem simBut_refs {f k b : Nat} {s1 s2 : Sys} (h : SimBut f k s1 s2) : s1.w.refs b = s2.w.refs b := by
  obtain ⟨⟨x, hx, -⟩, -⟩ := h
  rw [hx]; rfl

theorem gaveMb_len {f k b : Nat} {s1 s2 : Sys} (h : GaveMb f k b s1 s2) : k < s1.th.length := by
  obtain ⟨s', x, n, q, h, -⟩ := h
  exact (List.getElem?_eq_some_iff.mp h).1

/-- The steps of the drop. -/
theorem gaveMb_drop {f k b : Nat} {s1 s2 s1' : Sys} (h : GaveMb f k b s1 s2) (hs : s1.step (.exec k) = some s1')
    (h0 : s1'.w.rcv ≠ 0) (hb : s1'.w.refs b ≠ 0) : GaveMb f k b s1' s2 := by
  have hk := gaveMb_len h
  obtain ⟨s', x, n, q, ht, hx, hsim, rfl⟩ := h
  have hr := simBut_rcv hsim
  have hr' : (s1.cut k).w.rcv = s1.w.rcv := rfl
  rcases hx with ⟨rfl, rfl, rfl⟩ | ⟨rfl, rfl, rfl⟩ | ⟨rfl, rfl, rfl⟩
  · simp only [Sys.step, ht, Option.some.injEq] at hs
    subst hs
    simp only [exec] at h0 ⊢
    have h1 : ¬ s1.w.rcv = 1 := by omega
    simp only [if_neg h1, List.nil_append]
    refine ⟨{ s' with w := { s'.w with rcv := s'.w.rcv - 1 } }, [.dropBq b], 1, 0, by simp [hk], .inr (.inl ⟨rfl, rfl, rfl⟩), ?_, ?_⟩
    · obtain ⟨⟨y, hy, hl, he, hg⟩, hth⟩ := hsim
      refine ⟨⟨y, ?_, hl, he, hg⟩, by simpa [Sys.cut] using hth⟩
      have h5 : s1.w = s'.w.withObjs y := hy
      show ({ s1.w with rcv := s1.w.rcv - 1 } : World) = _
      rw [h5]; rfl
    · have h5 : s'.w.rcv - 1 + 1 = s'.w.rcv + 0 := by omega
      simp only [Sys.more, World.more, h5]
  · simp only [Sys.step, ht, Option.some.injEq] at hs
    subst hs
    simp only [exec] at hb ⊢
    refine ⟨{ s' with w := s'.w.decBq b }, [], 1, 1, by simp [hk], .inr (.inr ⟨rfl, rfl, rfl⟩), ?_, ?_⟩
    · obtain ⟨⟨y, hy, hl, he, hg⟩, hth⟩ := hsim
      have h5 : s1.w = s'.w.withObjs y := hy
      refine ⟨⟨y, ?_, ?_, ?_, ?_⟩, by simpa [Sys.cut] using hth⟩
      · show s1.w.decBq b = _
        rw [h5, decBq_withObjs]
      · simpa using hl
      · simpa using he
      · simpa using hg
    · have h6 : (s'.w.decBq b).refs b ≠ 0 := by
        obtain ⟨⟨y, hy, -⟩, -⟩ := hsim
        have h5 : s1.w = s'.w.withObjs y := hy
        rw [h5, decBq_withObjs] at hb
        exact hb
      simp only [Sys.more, decBq_restore _ _ _ h6]
  · simp [Sys.step, ht] at hs

/-- Any other step. -/
theorem gaveMb_step {f k b : Nat} {s1 s2 s1' : Sys} (h : GaveMb f k b s1 s2) {a : Act} (ha : a ≠ .exec k) (hs : s1.step a = some s1')
    (h0 : s1.w.rcv ≠ 0) (hb : s1.w.refs b ≠ 0) (h1 : s1'.w.rcv ≠ 0) (hb1 : s1'.w.refs b ≠ 0) :
    ∃ s2', s2.step (a.skip k) = some s2' ∧ GaveMb f k b s1' s2' := by
  have hk := gaveMb_len h
  obtain ⟨s', x, n, q, ht, hx, hsim, rfl⟩ := h
  obtain ⟨h2, h3⟩ := step_cut hk ha hs
  obtain ⟨s2', h4, h5⟩ := step_simBut hsim h2
  refine ⟨s2'.more n q b, step_more ?_ ?_ h4 ?_ ?_, s2', x, n, q, by rw [h3, ht], hx, h5, rfl⟩
  · rw [← simBut_rcv hsim]; exact h0
  · rw [← simBut_refs hsim]; exact hb
  · rw [← simBut_rcv h5]; exact h1
  · rw [← simBut_refs h5]; exact hb1

/-- Another step of the second system, conversely. -/
theorem gaveMb_step_conv {f k b : Nat} {s1 s2 s2' : Sys} (h : GaveMb f k b s1 s2) {a : Act} (ha : a.avoids f)
    (hs : s2.step a = some s2') (h0 : 0 < s2.w.rcv ∧ 0 < s2.w.refs b) (h1 : 0 < s2'.w.rcv ∧ 0 < s2'.w.refs b)
    (h2 : s1.th[k]? ≠ some [.dropRx, .dropBq b] → (1 < s2.w.rcv ∧ 1 < s2.w.refs b) ∧ 1 < s2'.w.rcv ∧ 1 < s2'.w.refs b) :
    ∃ s1', s1.step (a.shift k) = some s1' ∧ GaveMb f k b s1' s2' ∧ s1'.th[k]? = s1.th[k]? := by
  have hk := gaveMb_len h
  have hne : a.shift k ≠ .exec k := by
    cases a with
    | call c => simp [Act.shift]
    | exec t => simp only [Act.shift, ne_eq, Act.exec.injEq]; split <;> omega
  obtain ⟨s', x, n, q, ht, hx, hsim, rfl⟩ := h
  have hn : n < (s'.more n q b).w.rcv ∧ q < (s'.more n q b).w.refs b ∧ n < s2'.w.rcv ∧ q < s2'.w.refs b := by
    rcases hx with ⟨rfl, rfl, rfl⟩ | ⟨rfl, rfl, rfl⟩ | ⟨rfl, rfl, rfl⟩
    · exact ⟨h0.1, h0.2, h1.1, h1.2⟩
    · have h3 := h2 (by rw [ht]; simp)
      exact ⟨h3.1.1, h0.2, h3.2.1, h1.2⟩
    · have h3 := h2 (by rw [ht]; simp)
      exact ⟨h3.1.1, h3.1.2, h3.2.1, h3.2.2⟩
  obtain ⟨hn1, hn2, hn3, hn4⟩ := hn
  have hl : b < s'.w.bq.length := by
    have h5 : (s'.more n q b).w.refs b ≠ 0 := by omega
    have := refs_lt h5
    have h6 : (s'.more n q b).w.bq.length = s'.w.bq.length := more_bqlen ..
    omega
  have h7 : (s'.more n q b).w.rcv = s'.w.rcv + n := rfl
  have h8 : (s'.more n q b).w.refs b = s'.w.refs b + q := by
    have := refs_more s'.w n q b b hl
    rw [if_pos rfl] at this
    exact this
  obtain ⟨s3, h9, rfl⟩ := step_more_conv (by omega) (by omega) hs hn3 hn4
  obtain ⟨t, h3, h4⟩ := step_simBut_conv hsim ha h9
  obtain ⟨s1', h5, rfl, h6⟩ := step_cut_conv hk hne h3
  exact ⟨s1', h5, ⟨s3, x, n, q, by rw [h6, ht], hx, h4, rfl⟩, h6⟩

/-- The counts of a mailbox nobody holds any more stay 0. -/
theorem refs_zero_step {cap : Option Nat} {s s' : Sys} (hr : Reachable cap s) {a : Act} (hs : s.step a = some s') {b : Nat}
    (hl : b < s.w.bq.length) (h0 : s.w.refs b = 0) : b < s'.w.bq.length ∧ s'.w.refs b = 0 := by
  have hrf := refs_reachable hr b
  cases a with
  | call c =>
    simp only [Sys.step] at hs
    split at hs
    · rename_i w' ms hc
      simp only [Option.some.injEq] at hs
      subst hs
      have hcr := call_rel hc
      generalize hms : ms = ms' at hcr
      cases hcr
      case next i o b' ho hi =>
        have hne : b' ≠ b := by
          intro e
          have := le_sumBy (oBq b) ho
          have h9 : oBq b o = 1 := by
            subst e
            cases o <;> simp [Obj.mbox] at hi <;> subst hi <;> simp [oBq, is1]
          omega
        refine ⟨by simp [incBq_len]; exact hl, ?_⟩
        have h1 := incBq_refs { s.w with rcv := s.w.rcv + 1 } b' b
        rw [if_neg (fun e => hne e.1.symm)] at h1
        simpa [World.refs, World.addObj] using h1.trans h0
      all_goals
        refine ⟨by simp; exact hl, ?_⟩
        rw [refs_congr (w := s.w) (by simp)]
        exact h0
    · cases hs
  | exec t =>
    simp only [Sys.step] at hs
    split at hs
    · rename_i m rest ht
      simp only [Option.some.injEq] at hs
      subst hs
      have h1 := exec_refs_len s.w m hl
      exact ⟨h1.1, h1.2 h0⟩
    · cases hs

end Xtra
