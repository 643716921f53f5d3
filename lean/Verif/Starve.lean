import Verif.PropsDrain
import Verif.PropsLeak
/-! # C46: starvation -/

set_option linter.unusedSimpArgs false

namespace Xtra

/-! ## Vocabulary -/

/-- An actor under load. `Serves i b ok w ams w'`: the owner of mailbox object `i` (broadcast queue `b`) makes successive receives, each a
fresh future polled once and each completing at once, that yield exactly `ams` in this order; in between, received messages are handled or
dropped, and messages are sent: a send (or broadcast) future is made from some address and polled for the first time, with the default
priority or one set before, whose priority satisfies `ok`. Calls do not overlap. -/
inductive Serves (i b : Nat) (ok : Prio → Prop) : World → List AMsg → World → Prop where
  | nil {w : World} : Serves i b ok w [] w
  | recv {w w1 w2 w' : World} {wk : Nat} {am : AMsg} {ams : List AMsg} :
      Does w (.next i) w1 → Does w1 (.pollRecv w.objs.length wk) w2 → w2.yielded w.objs.length b am →
      Serves i b ok w2 ams w' → Serves i b ok w (am :: ams) w'
  | handle {w w1 w' : World} {c : Call} {ams : List AMsg} :
      c.handles = true → Does w c w1 → Serves i b ok w1 ams w' → Serves i b ok w ams w'
  | send {w w1 w2 w' : World} {c : Call} {a wk : Nat} {ams : List AMsg} :
      c = .send a ∨ c = .broadcast a → Does w c w1 → ok (.valued 0) → Does w1 (.pollSend w.objs.length wk) w2 →
      Serves i b ok w2 ams w' → Serves i b ok w ams w'
  | sendPrio {w w1 w2 w3 w' : World} {c : Call} {a p wk : Nat} {ams : List AMsg} :
      c = .send a ∨ c = .broadcast a → Does w c w1 → Does w1 (.setPrio w.objs.length p) w2 → ok (.valued p) →
      Does w2 (.pollSend w.objs.length wk) w3 → Serves i b ok w3 ams w' → Serves i b ok w ams w'

/-- Number of messages mailbox `b` may have to receive, of priority `p` or above: queued ones and those of parked sends. -/
def World.urgent (w : World) (b : Nat) (p : Prio) : Nat :=
  w.uq.countP (fun x => p.ble x.prio) + (w.items b).countP (fun x => p.ble x.prio) +
    w.ws.countP (fun x => match x with
      | .active _ m => p.ble m.prio
      | _ => false)

/-! ## Refutations -/

theorem serves_append {i b : Nat} {ok : Prio → Prop} {w w1 w2 : World} {l1 l2 : List AMsg} (h1 : Serves i b ok w l1 w1)
    (h2 : Serves i b ok w1 l2 w2) : Serves i b ok w (l1 ++ l2) w2 := by
  induction h1 with
  | nil => exact h2
  | recv a b c _ ih => exact .recv a b c (ih h2)
  | handle a b _ ih => exact .handle a b (ih h2)
  | send a b c d _ ih => exact .send a b c d (ih h2)
  | sendPrio a b c d e _ ih => exact .sendPrio a b c d e (ih h2)

/-- The situation in which a message of an unbounded mailbox starves: it is the second of four queued ones. -/
structure Starving (m : Msg) (w : World) : Prop where
  quiet : Quiet none w
  cap : w.cap = none
  wOne : w.wOne = []
  wRx : w.wRx = []
  bq : w.bq = [⟨1, []⟩]
  rcv : w.rcv = 1
  sc : w.sc = 1
  uq : ∃ x y z : Msg, w.uq = [x, m, y, z] ∧ x.prio = .valued 0 ∧ y.prio = .valued 0 ∧ z.prio = .valued 0
  addr : w.objs[0]? = some (.addr .strong)
  mbox : w.objs[1]? = some (.mailbox 0)

theorem pop4 {x m y z : Msg} (hx : x.prio = .valued 0) (hm : m.prio = .valued 0) (hy : y.prio = .valued 0) (hz : z.prio = .valued 0) :
    Heap.pop Msg.le [x, m, y, z] = some (x, [y, m, z]) := by
  simp [Heap.pop, Heap.siftDownToBottom, Heap.descend, Heap.swap, Heap.siftUp, Msg.le, hx, hm, hy, hz, Prio.ble]

theorem push4 {d m y z : Msg} (hd : d.prio = .valued 0) (hm : m.prio = .valued 0) :
    Heap.push Msg.le [y, m, z] d = [y, m, z, d] := by
  simp [Heap.push, Heap.siftUp, Msg.le, hd, hm, Prio.ble]

theorem runs_step {w w' w1 : World} {m : Micro} {ms ns : List Micro} (he : exec w m = (w1, ns)) (h : Runs w1 (ns ++ ms) w') :
    Runs w (m :: ms) w' := .cons (by rw [he]; exact h)

theorem Starving.round {m : Msg} {w : World} (h : Starving m w) (hm : m.prio = .valued 0) :
    ∃ w' am, Serves 1 0 (fun p => p = .valued 0) w [am] w' ∧ am ≠ .one m ∧ am.prio = .valued 0 ∧ Starving m w' := by
  obtain ⟨hq, cap, wOne, wRx, bq, rcv, sc, ⟨x, y, z, uq, hx, hy, hz⟩, addr, mbox⟩ := h
  have l0 := (List.getElem?_eq_some_iff.1 addr).1
  have l1 := (List.getElem?_eq_some_iff.1 mbox).1
  have hne : x ≠ m := by
    intro e; subst e
    have := hq.pU_count (m := x) (by simp [World.pU, uq])
    simp [World.pU, uq, List.count_cons] at this
  let w1 : World := { w with rcv := 2, bq := [⟨2, []⟩], objs := w.objs ++ [.recv 0 .new] }
  let w2 : World := { w with rcv := 2, bq := [⟨2, []⟩], uq := [y, m, z], objs := w.objs ++ [.message 0 (.one x)],
                             log := .recv w.objs.length 0 (.one x) :: w.log }
  let w3 : World := { w2 with objs := w.objs ++ [.dispatch 0 (.one x) true] }
  let w4 : World := { w2 with rcv := 1, bq := [⟨1, []⟩], objs := w.objs ++ [.gone], resp := w.resp.modify x.id (Resp.fulfil 7),
                              log := .flow 0 (.one x) false :: .handled x.id 7 :: w2.log }
  let d : Msg := ⟨w.resp.length, .valued 0⟩
  let w5 : World := { w4 with sc := 2, resp := w4.resp ++ [.waiting none],
                              objs := w.objs ++ [.gone] ++ [.send .ret w.resp.length (.new d .strong)],
                              log := .made (w.objs.length + 1) w.resp.length false :: w4.log }
  let w6 : World := { w4 with uq := [y, m, z, d], resp := w4.resp ++ [.waiting (some 0)],
                              objs := w.objs ++ [.gone] ++ [.send .ret w.resp.length .done],
                              log := .sendPending (w.objs.length + 1) w.resp.length 0 :: w5.log }
  have h1 : Does w (.next 1) w1 := ⟨w1, [], by simp [call, mbox, Obj.mbox, World.incBq, World.addObj, bq, rcv, w1], .nil⟩
  have h2 : Does w1 (.pollRecv w.objs.length 0) w2 := by
    refine ⟨{ w1 with objs := w.objs ++ [.busy] }, [.recvTry w.objs.length 0 0], ?_, ?_⟩
    · simp [call, World.setObj, set_snoc, w1]
    · refine runs_step (w1 := w2) (ns := []) ?_ .nil
      have := pop4 hx hm hy hz
      simp [exec, w1, w2, World.tryRecv, World.items, Heap.peek, uq, Prio.cmpOpt, World.popUnicast, this, World.uniFull, cap, wOne,
        takeWaiting, lastMax, World.yieldMsg, World.setObj, World.ev]
  have h3 : Does w2 (.dispatch w.objs.length) w3 := ⟨w3, [], by simp [call, World.setObj, set_snoc, w2, w3], .nil⟩
  have h4 : Does w3 (.finish w.objs.length 7) w4 := by
    refine ⟨{ w3 with objs := w.objs ++ [.gone] }, [.dropRx, .dropBq 0, .respond 0 (.one x) 7 false], ?_, ?_⟩
    · simp [call, World.setObj, set_snoc, w3]
    · refine runs_step (w1 := { w2 with objs := w.objs ++ [.gone], rcv := 1 }) (ns := []) (by simp [exec, w2, w3]) ?_
      refine runs_step (w1 := { w2 with objs := w.objs ++ [.gone], rcv := 1, bq := [⟨1, []⟩] }) (ns := [])
        (by simp [exec, World.decBq, w2]) ?_
      exact runs_step (w1 := w4) (ns := []) (by simp [exec, w2, w4]) .nil
  have e6 : w4.objs.length = w.objs.length + 1 := by simp [w4]
  have hrl : w4.resp.length = w.resp.length := by simp [w4]
  have h5 : Does w4 (.send 0) w5 := by
    refine ⟨w5, [], ?_, .nil⟩
    have : w4.objs[0]? = some (.addr .strong) := by simp only [w4]; rw [List.getElem?_append_left l0]; exact addr
    simp only [call, this]
    simp [w5, World.addTx, World.addObj, World.ev, Rc.isStrong, hrl, e6, d]
    simp [w4, w2, sc]
  have h6 : Does w5 (.pollSend w4.objs.length 0) w6 := by
    rw [e6]
    refine ⟨{ w5 with objs := w.objs ++ [.gone] ++ [.busy] }, [.sendLd1 (w.objs.length + 1) .ret d .strong 0], ?_, ?_⟩
    · simp only [call, w5, get_snoc (w.objs ++ [Obj.gone]) _ (w.objs.length + 1) (by simp), World.setObj,
        set_snoc (w.objs ++ [Obj.gone]) _ _ (w.objs.length + 1) (by simp)]
    · refine runs_step (ns := [.sendLd2 (w.objs.length + 1) .ret d .strong 0]) (by simp [exec, w5, w4]; rfl) ?_
      refine runs_step (ns := [.sendCrit (w.objs.length + 1) .ret d .strong 0]) (by simp [exec, w5, w4]; rfl) ?_
      have hp := push4 (d := d) (y := y) (z := z) rfl hm
      refine runs_step (ns := [.dropTx .strong, .sendFin (w.objs.length + 1) .ret w.resp.length 0])
        (w1 := { w5 with uq := [y, m, z, d], objs := w.objs ++ [.gone] ++ [.busy] }) ?_ ?_
      · simp [exec, w5, w4, w2, World.sendOne, World.noteLate, World.lateLog, wRx, fulfil, World.uniFull, cap, hp, afterSend, d]
      refine runs_step (ns := []) (w1 := { w5 with sc := 1, uq := [y, m, z, d], objs := w.objs ++ [.gone] ++ [.busy] })
        (by simp [exec, w5, Rc.isStrong]) ?_
      refine runs_step (ns := []) (w1 := w6) ?_ .nil
      have hg : w5.resp[w.resp.length]? = some (.waiting none) := get_snoc _ _ _ hrl
      have hset : w5.resp.set w.resp.length (.waiting (some 0)) = w4.resp ++ [.waiting (some 0)] := set_snoc _ _ _ _ hrl
      simp only [exec, hg, World.setObj, World.ev, hset, set_snoc (w.objs ++ [Obj.gone]) _ _ (w.objs.length + 1) (by simp)]
      simp [w6, w5, w4, w2, sc]
  refine ⟨w6, .one x, .recv h1 h2 ?_ (.handle rfl h3 (.handle rfl h4 (.send (.inl rfl) h5 rfl h6 .nil))), by simp [hne], hx, ?_⟩
  · exact ⟨by simp [w2], by simp [w2]⟩
  · refine ⟨(((((hq.does h1).does h2).does h3).does h4).does h5).does h6, cap, wOne, wRx, rfl, rfl, sc, ⟨y, z, d, rfl, hy, hz, rfl⟩, ?_, ?_⟩
    · simp only [w6]; rw [List.append_assoc, List.getElem?_append_left l0]; exact addr
    · simp only [w6]; rw [List.append_assoc, List.getElem?_append_left l1]; exact mbox

theorem Starving.rounds {m : Msg} {w : World} (h : Starving m w) (hm : m.prio = .valued 0) (n : Nat) :
    ∃ w' ams, Serves 1 0 (fun p => p = .valued 0) w ams w' ∧ ams.length = n ∧ .one m ∉ ams ∧ (∀ am ∈ ams, am.prio = .valued 0) ∧
      Starving m w' := by
  induction n with
  | zero => exact ⟨w, [], .nil, rfl, by simp, by simp, h⟩
  | succ n ih =>
    obtain ⟨w1, ams, h1, h2, h3, h4, h5⟩ := ih
    obtain ⟨w2, am, h6, h7, h8, h9⟩ := h5.round hm
    refine ⟨w2, ams ++ [am], serves_append h1 h6, by simp [h2], by simp [h3, Ne.symm h7], ?_, h9⟩
    intro a ha
    simp at ha
    rcases ha with ha | rfl
    · exact h4 a ha
    · exact h8

/-- Four sends. -/
def starveSched : List Act := [.call (.send 0), .call (.pollSend 2 0), .exec 1, .exec 1, .exec 1, .exec 1, .exec 1,
      .call (.send 0), .call (.pollSend 3 0), .exec 3, .exec 3, .exec 3, .exec 3, .exec 3,
      .call (.send 0), .call (.pollSend 4 0), .exec 5, .exec 5, .exec 5, .exec 5, .exec 5,
      .call (.send 0), .call (.pollSend 5 0), .exec 7, .exec 7, .exec 7, .exec 7, .exec 7]

/-- **C46 (refuted).** On an unbounded mailbox with one actor and a steady load of one send per receive, all of the same (default) priority
and with never more than four messages queued, a queued message may be passed over for ever: for every `n` the actor receives and
handles `n` messages, the message in question not among them and still queued. (The executions for different `n` extend each other.) -/
theorem C46_refuted : ∃ (w : World) (m : Msg), Quiet none w ∧ w.objs[1]? = some (.mailbox 0) ∧ m ∈ w.uq ∧ m.prio = .valued 0 ∧
    ∀ n, ∃ w' ams, Serves 1 0 (fun p => p = .valued 0) w ams w' ∧ ams.length = n ∧ .one m ∉ ams ∧ (∀ am ∈ ams, am.prio = .valued 0) ∧
      m ∈ w'.uq ∧ w'.uq.length = 4 := by
  have hr : ∃ s, (init none).run starveSched = some s ∧ Starving ⟨1, .valued 0⟩ s.w := by
    refine ⟨_, rfl, ⟨⟨_, Reachable.run .init (as := starveSched) rfl, ?_⟩, rfl, rfl, rfl, rfl, rfl, rfl, ⟨_, _, _, rfl, rfl, rfl, rfl⟩, rfl, rfl⟩⟩
    decide
  obtain ⟨s, -, h⟩ := hr
  refine ⟨s.w, ⟨1, .valued 0⟩, h.quiet, h.mbox, ?_, rfl, fun n => ?_⟩
  · obtain ⟨x, y, z, hu, -⟩ := h.uq; simp [hu]
  · obtain ⟨w', ams, h1, h2, h3, h4, h5⟩ := h.rounds rfl n
    obtain ⟨x, y, z, hu, -⟩ := h5.uq
    exact ⟨w', ams, h1, h2, h3, h4, by simp [hu], by simp [hu]⟩

/-- The situation in which a parked send starves: capacity 1, one message queued, and one more send parked after it. -/
structure Starving1 (f : Nat) (m : Msg) (w : World) : Prop where
  quiet : Quiet (some 1) w
  cap : w.cap = some 1
  wRx : w.wRx = []
  bq : w.bq = [⟨1, []⟩]
  rcv : w.rcv = 1
  sc : w.sc = 1
  uq : ∃ x : Msg, w.uq = [x] ∧ x.prio = .valued 0
  park : ∃ h h' : Nat, ∃ wk wk', ∃ y : Msg, w.wOne = [h, h'] ∧ h ≠ h' ∧ w.ws[h]? = some (.active wk m) ∧ w.ws[h']? = some (.active wk' y) ∧
    y.prio = .valued 0 ∧ w.objs[f]? = some (.send .ret m.id (.waiting h))
  addr : w.objs[0]? = some (.addr .strong)
  mbox : w.objs[1]? = some (.mailbox 0)

theorem Starving1.round {f : Nat} {m : Msg} {w : World} (h : Starving1 f m w) (hm : m.prio = .valued 0) :
    ∃ w' am, Serves 1 0 (fun p => p = .valued 0) w [am] w' ∧ am ≠ .one m ∧ am.prio = .valued 0 ∧ Starving1 f m w' := by
  obtain ⟨hq, cap, wRx, bq, rcv, sc, ⟨x, uq, hx⟩, ⟨h, h', wk, wk', y, wOne, hhn, wsh, wsh', hy, fut⟩, addr, mbox⟩ := h
  have l0 := (List.getElem?_eq_some_iff.1 addr).1
  have l1 := (List.getElem?_eq_some_iff.1 mbox).1
  have lf := (List.getElem?_eq_some_iff.1 fut).1
  have lh := (List.getElem?_eq_some_iff.1 wsh).1
  have lh' := (List.getElem?_eq_some_iff.1 wsh').1
  have hne : x ≠ m := by
    intro e; subst e
    have := hq.pU_count (m := x) (by simp [World.pU, uq])
    simp [World.pU, uq, List.count_cons, parkedMsgs, wOne, wsh, wsh', WsCell.msg?] at this
  let w1 : World := { w with rcv := 2, bq := [⟨2, []⟩], objs := w.objs ++ [.recv 0 .new] }
  let w2 : World := { w with rcv := 2, bq := [⟨2, []⟩], uq := [y], ws := w.ws.set h' (.delivered wk'), wOne := [h],
                             objs := w.objs ++ [.message 0 (.one x)], log := .recv w.objs.length 0 (.one x) :: w.log }
  let w3 : World := { w2 with objs := w.objs ++ [.dispatch 0 (.one x) true] }
  let w4 : World := { w2 with rcv := 1, bq := [⟨1, []⟩], objs := w.objs ++ [.gone], resp := w.resp.modify x.id (Resp.fulfil 7),
                              log := .flow 0 (.one x) false :: .handled x.id 7 :: w2.log }
  let d : Msg := ⟨w.resp.length, .valued 0⟩
  let w5 : World := { w4 with sc := 2, resp := w4.resp ++ [.waiting none],
                              objs := w.objs ++ [.gone] ++ [.send .ret w.resp.length (.new d .strong)],
                              log := .made (w.objs.length + 1) w.resp.length false :: w4.log }
  let w6 : World := { w4 with resp := w4.resp ++ [.waiting none], ws := w4.ws ++ [.active (some 0) d], wOne := [h, w.ws.length],
                              objs := w.objs ++ [.gone] ++ [.send .ret w.resp.length (.waiting w.ws.length)],
                              log := .sendPending (w.objs.length + 1) w.resp.length 0 :: w5.log }
  have h1 : Does w (.next 1) w1 := ⟨w1, [], by simp [call, mbox, Obj.mbox, World.incBq, World.addObj, bq, rcv, w1], .nil⟩
  have h2 : Does w1 (.pollRecv w.objs.length 0) w2 := by
    refine ⟨{ w1 with objs := w.objs ++ [.busy] }, [.recvTry w.objs.length 0 0], ?_, ?_⟩
    · simp [call, World.setObj, set_snoc, w1]
    · refine runs_step (w1 := w2) (ns := []) ?_ .nil
      have hl : lastMax [some m.prio, some y.prio] = some (1, some y.prio) := by rw [hm, hy]; rfl
      simp [exec, w1, w2, World.tryRecv, World.items, Heap.peek, uq, Prio.cmpOpt, World.popUnicast, Heap.pop, World.uniFull, cap, wOne,
        takeWaiting, wsActive, wsPrio, wsh, wsh', hl, Heap.push, Heap.siftUp, World.yieldMsg, World.setObj, World.ev, set_snoc]
  have h3 : Does w2 (.dispatch w.objs.length) w3 := ⟨w3, [], by simp [call, World.setObj, set_snoc, w2, w3], .nil⟩
  have h4 : Does w3 (.finish w.objs.length 7) w4 := by
    refine ⟨{ w3 with objs := w.objs ++ [.gone] }, [.dropRx, .dropBq 0, .respond 0 (.one x) 7 false], ?_, ?_⟩
    · simp [call, World.setObj, set_snoc, w3]
    · refine runs_step (w1 := { w2 with objs := w.objs ++ [.gone], rcv := 1 }) (ns := []) (by simp [exec, w2, w3]) ?_
      refine runs_step (w1 := { w2 with objs := w.objs ++ [.gone], rcv := 1, bq := [⟨1, []⟩] }) (ns := [])
        (by simp [exec, World.decBq, w2]) ?_
      exact runs_step (w1 := w4) (ns := []) (by simp [exec, w2, w4]) .nil
  have e6 : w4.objs.length = w.objs.length + 1 := by simp [w4]
  have hrl : w4.resp.length = w.resp.length := by simp [w4]
  have hwl : w4.ws.length = w.ws.length := by simp [w4, w2]
  have h5 : Does w4 (.send 0) w5 := by
    refine ⟨w5, [], ?_, .nil⟩
    have : w4.objs[0]? = some (.addr .strong) := by simp only [w4]; rw [List.getElem?_append_left l0]; exact addr
    simp only [call, this]
    simp [w5, World.addTx, World.addObj, World.ev, Rc.isStrong, hrl, e6, d]
    simp [w4, w2, sc]
  have h6 : Does w5 (.pollSend w4.objs.length 0) w6 := by
    rw [e6]
    refine ⟨{ w5 with objs := w.objs ++ [.gone] ++ [.busy] }, [.sendLd1 (w.objs.length + 1) .ret d .strong 0], ?_, ?_⟩
    · simp only [call, w5, get_snoc (w.objs ++ [Obj.gone]) _ (w.objs.length + 1) (by simp), World.setObj,
        set_snoc (w.objs ++ [Obj.gone]) _ _ (w.objs.length + 1) (by simp)]
    · refine runs_step (ns := [.sendLd2 (w.objs.length + 1) .ret d .strong 0]) (by simp [exec, w5, w4]; rfl) ?_
      refine runs_step (ns := [.sendCrit (w.objs.length + 1) .ret d .strong 0]) (by simp [exec, w5, w4]; rfl) ?_
      refine runs_step (ns := [.dropTx .strong, .pollWs (w.objs.length + 1) .ret w.resp.length w.ws.length 0])
        (w1 := { w5 with ws := w4.ws ++ [.active none d], wOne := [h, w.ws.length], objs := w.objs ++ [.gone] ++ [.busy] }) ?_ ?_
      · simp [exec, w5, w4, w2, World.sendOne, World.noteLate, World.lateLog, wRx, fulfil, World.uniFull, cap, afterSend, d]
      refine runs_step (ns := [])
        (w1 := { w5 with sc := 1, ws := w4.ws ++ [.active none d], wOne := [h, w.ws.length], objs := w.objs ++ [.gone] ++ [.busy] })
        (by simp [exec, w5, Rc.isStrong]) ?_
      refine runs_step (ns := []) (w1 := w6) ?_ .nil
      have hg : (w4.ws ++ [WsCell.active none d])[w.ws.length]? = some (.active none d) := get_snoc _ _ _ hwl
      have hset : (w4.ws ++ [WsCell.active none d]).set w.ws.length (.active (some 0) d) = w4.ws ++ [.active (some 0) d] :=
        set_snoc _ _ _ _ hwl
      simp only [exec, hg, World.setObj, World.ev, hset, set_snoc (w.objs ++ [Obj.gone]) _ _ (w.objs.length + 1) (by simp)]
      simp [w6, w5, w4, w2, sc]
  refine ⟨w6, .one x, .recv h1 h2 ?_ (.handle rfl h3 (.handle rfl h4 (.send (.inl rfl) h5 rfl h6 .nil))), by simp [hne], hx, ?_⟩
  · exact ⟨by simp [w2], by simp [w2]⟩
  · refine ⟨(((((hq.does h1).does h2).does h3).does h4).does h5).does h6, cap, wRx, rfl, rfl, sc, ⟨y, rfl, hy⟩,
      ⟨h, w.ws.length, wk, some 0, d, rfl, by omega, ?_, ?_, rfl, ?_⟩, ?_, ?_⟩
    · simp only [w6]; rw [List.getElem?_append_left (by omega)]; simp [w4, w2, List.getElem?_set, Ne.symm hhn, wsh]
    · simp only [w6]; exact get_snoc _ _ _ hwl
    · simp only [w6]; rw [List.append_assoc, List.getElem?_append_left lf]; exact fut
    · simp only [w6]; rw [List.append_assoc, List.getElem?_append_left l0]; exact addr
    · simp only [w6]; rw [List.append_assoc, List.getElem?_append_left l1]; exact mbox

/-- Three sends. -/
def starveSched1 : List Act := [.call (.send 0), .call (.pollSend 2 0), .exec 1, .exec 1, .exec 1, .exec 1, .exec 1,
      .call (.send 0), .call (.pollSend 3 0), .exec 3, .exec 3, .exec 3, .exec 3, .exec 3,
      .call (.send 0), .call (.pollSend 4 0), .exec 5, .exec 5, .exec 5, .exec 5, .exec 5]

/-- **C46 (refuted for parked sends).** On a mailbox of capacity 1 with one actor and a steady load of one send per receive, all of the same
(default) priority, a parked send may be passed over for ever by sends that are parked after it: for every `n` the actor receives and
handles `n` messages, and the send is still parked. (The executions for different `n` extend each other.) -/
theorem C46_parked_refuted : ∃ (w : World) (f : Nat) (m : Msg), Quiet (some 1) w ∧ w.objs[1]? = some (.mailbox 0) ∧
    w.parkedSend f .ret m ∧ m.prio = .valued 0 ∧
    ∀ n, ∃ w' ams, Serves 1 0 (fun p => p = .valued 0) w ams w' ∧ ams.length = n ∧ .one m ∉ ams ∧ (∀ am ∈ ams, am.prio = .valued 0) ∧
      w'.parkedSend f .ret m := by
  have hr : ∃ s, (init (some 1)).run starveSched1 = some s ∧ Starving1 3 ⟨1, .valued 0⟩ s.w := by
    refine ⟨_, rfl, ⟨⟨_, Reachable.run .init (as := starveSched1) rfl, ?_⟩, rfl, rfl, rfl, rfl, rfl, ⟨_, rfl, rfl⟩,
      ⟨_, _, _, _, _, rfl, ?_, rfl, rfl, rfl, rfl⟩, rfl, rfl⟩⟩ <;> decide
  obtain ⟨s, -, h⟩ := hr
  have hp : ∀ {w}, Starving1 3 ⟨1, .valued 0⟩ w → w.parkedSend 3 .ret ⟨1, .valued 0⟩ := by
    rintro w h
    obtain ⟨h, h', wk, wk', y, -, -, h1, -, -, h2⟩ := h.park
    exact ⟨h, wk, h2, h1⟩
  refine ⟨s.w, 3, ⟨1, .valued 0⟩, h.quiet, h.mbox, hp h, rfl, fun n => ?_⟩
  suffices hh : ∃ w' ams, Serves 1 0 (fun p => p = .valued 0) s.w ams w' ∧ ams.length = n ∧ .one ⟨1, .valued 0⟩ ∉ ams ∧
      (∀ am ∈ ams, am.prio = .valued 0) ∧ Starving1 3 ⟨1, .valued 0⟩ w' by
    obtain ⟨w', ams, h1, h2, h3, h4, h5⟩ := hh
    exact ⟨w', ams, h1, h2, h3, h4, hp h5⟩
  induction n with
  | zero => exact ⟨s.w, [], .nil, rfl, by simp, by simp, h⟩
  | succ n ih =>
    obtain ⟨w1, ams, h1, h2, h3, h4, h5⟩ := ih
    obtain ⟨w2, am, h6, h7, h8, h9⟩ := h5.round rfl
    refine ⟨w2, ams ++ [am], serves_append h1 h6, by simp [h2], by simp [h3, Ne.symm h7], ?_, h9⟩
    intro a ha
    simp at ha
    rcases ha with ha | rfl
    · exact h4 a ha
    · exact h8

/-! ## The bound -/

theorem parkedMsgs_set_same {ws : List WsCell} {h : Nat} {x y : WsCell} (hx : ws[h]? = some x) (he : y.msg? = x.msg?) (q : List Nat) :
    parkedMsgs (ws.set h y) q = parkedMsgs ws q := by
  have hl := (List.getElem?_eq_some_iff.1 hx).1
  unfold parkedMsgs
  congr 1
  funext k
  by_cases hk : h = k
  · subst hk; rw [List.getElem?_set_self hl, hx]; simpa using he
  · rw [List.getElem?_set_ne hk]

theorem parkedMsgs_snoc {ws : List WsCell} {q : List Nat} (x : WsCell) (hq : ∀ h ∈ q, h < ws.length) :
    parkedMsgs (ws ++ [x]) q = parkedMsgs ws q := by
  induction q with
  | nil => rfl
  | cons k q ih =>
    have h1 := hq k (by simp)
    have h2 := ih (fun h hh => hq h (by simp [hh]))
    unfold parkedMsgs at *
    rw [List.filterMap_cons, List.filterMap_cons, h2, List.getElem?_append_left h1]

theorem parkedMsgs_park {ws : List WsCell} {q : List Nat} (m : Msg) (hq : ∀ h ∈ q, h < ws.length) :
    parkedMsgs (ws ++ [.active none m]) (q ++ [ws.length]) = parkedMsgs ws q ++ [m] := by
  have := parkedMsgs_snoc (.active none m) hq
  unfold parkedMsgs at *
  rw [List.filterMap_append, this]
  simp [WsCell.msg?]

/-- Number of messages of priority `p` or above that mailbox `b` may have to receive. -/
def World.ahead (w : World) (b : Nat) (p : Prio) : Nat :=
  w.pU.countP (fun x => p.ble x.prio) + (w.pB b).countP (fun x => p.ble x.prio)

/-- Nothing of priority `p` or above came or went; mailbox object `i` is untouched. -/
structure Same (i b : Nat) (p : Prio) (w w' : World) : Prop where
  ahead : w'.ahead b p = w.ahead b p
  uq : ∀ x ∈ w.uq, x ∈ w'.uq
  obj : w'.objs[i]? = w.objs[i]?

theorem Same.trans {i b : Nat} {p : Prio} {w w1 w2 : World} (h1 : Same i b p w w1) (h2 : Same i b p w1 w2) : Same i b p w w2 :=
  ⟨h2.ahead.trans h1.ahead, fun x hx => h2.uq x (h1.uq x hx), h2.obj.trans h1.obj⟩

theorem Keeps.same {i b : Nat} {p : Prio} {w w' : World} (h : Keeps i b w w') : Same i b p w w' :=
  ⟨by simp only [World.ahead, h.pU, h.pB], fun x hx => by rw [h.uq]; exact hx, h.obj⟩

/-- Steps of a send of a message of priority below `p`. -/
def Micro.sendsBelow (i : Nat) (p : Prio) : Micro → Prop
  | .sendLd1 f _ m _ _ => f ≠ i ∧ p.ble m.prio = false
  | .sendLd2 f _ m _ _ => f ≠ i ∧ p.ble m.prio = false
  | .sendCrit f _ m _ _ => f ≠ i ∧ p.ble m.prio = false
  | .pollWs f _ _ _ _ => f ≠ i
  | .sendFin f _ _ _ => f ≠ i
  | .dropTx _ => True
  | .shutRx => True
  | .notifyShut _ => True
  | _ => False

theorem exec_same {cap : Option Nat} {i b : Nat} {p : Prio} {w w' : World} {m : Micro} {ms ns : List Micro} (hs : Solo cap w (m :: ms))
    (he : ExecR w m w' ns) (hb : m.sendsBelow i p) : Same i b p w w' ∧ ∀ x ∈ ns, x.sendsBelow i p := by
  have hreg := hs.regWs
  obtain ⟨th, t, hrch, -⟩ := hs.reach
  have hbo : BqsOk w := bqsOk_reachable hrch
  have h1 : ∀ h ∈ w.wOne, h < w.ws.length := fun h hh => by
    rcases hreg.one h hh with ⟨_, _, e⟩ | e <;> exact (List.getElem?_eq_some_iff.1 e).1
  have h2 : ∀ h ∈ w.wAll, h < w.ws.length := fun h hh => by
    rcases hreg.all h hh with ⟨_, _, e⟩ | e <;> exact (List.getElem?_eq_some_iff.1 e).1
  have of : ∀ {w' : World}, w'.uq = w.uq → w'.wOne = w.wOne → w'.wAll = w.wAll → w'.ws = w.ws → w'.bq = w.bq →
      w'.objs[i]? = w.objs[i]? → Same i b p w w' := fun a1 a2 a3 a4 a5 a6 =>
    ⟨by simp only [World.ahead, World.pU, World.pB, a1, a2, a3, a4, items_congr a5], fun x hx => by rw [a1]; exact hx, a6⟩
  have ofW : ∀ {w' : World} {h : Nat} {x y : WsCell}, w.ws[h]? = some x → y.msg? = x.msg? → w'.uq = w.uq → w'.wOne = w.wOne →
      w'.wAll = w.wAll → w'.ws = w.ws.set h y → w'.bq = w.bq → w'.objs[i]? = w.objs[i]? → Same i b p w w' :=
    fun e1 e2 a1 a2 a3 a4 a5 a6 =>
    ⟨by simp only [World.ahead, World.pU, World.pB, a1, a2, a3, a4, items_congr a5, parkedMsgs_set_same e1 e2],
      fun x hx => by rw [a1]; exact hx, a6⟩
  cases he <;> simp [Micro.sendsBelow] at hb
  case critAll_park =>
    refine ⟨⟨?_, fun x hx => hx, rfl⟩, by simp [Micro.sendsBelow, hb]⟩
    simp [World.ahead, World.pU, World.pB, parkedMsgs_park _ h2, parkedMsgs_snoc _ h1, items_congr, hb.2]
    rfl
  case critAll_sent f m rc wk hf =>
    refine ⟨⟨?_, fun x hx => hx, rfl⟩, by simp [Micro.sendsBelow, hb]⟩
    have hit := sendBroadcast_items ({ w with log := w.lateLog m } : World) m hbo.nodup b
    simp only [World.ahead, World.pU, World.pB, hit]
    split
    · simp only [List.countP_append, (Heap.push_perm Msg.le _ m).countP_eq, List.countP_cons, hb.2]
      simp [World.sendBroadcast]; rfl
    · rfl
  case critOne_hand => exact ⟨of rfl rfl rfl rfl rfl rfl, by simp [Micro.sendsBelow, hb]⟩
  case critOne_park =>
    refine ⟨⟨?_, fun x hx => hx, rfl⟩, by simp [Micro.sendsBelow, hb]⟩
    simp [World.ahead, World.pU, World.pB, parkedMsgs_park _ h1, parkedMsgs_snoc _ h2, items_congr, hb.2]
    rfl
  case critOne_queue f md m rc wk _ _ _ =>
    refine ⟨⟨?_, fun x hx => ?_, rfl⟩, by simp [Micro.sendsBelow, hb]⟩
    · simp only [World.ahead, World.pU, World.pB, List.countP_append, (Heap.push_perm Msg.le _ m).countP_eq, List.countP_cons, hb.2]
      simp; rfl
    · simp [(Heap.push_perm Msg.le w.uq m).mem_iff, hx]
  case pollWs_active hx =>
    exact ⟨ofW (y := .active (some _) _) hx rfl rfl rfl rfl rfl rfl (by simp [World.setObj, World.ev, List.getElem?_set_ne hb]), by simp⟩
  case pollWs_delivered hx => exact ⟨ofW (y := .gone) hx rfl rfl rfl rfl rfl rfl rfl, by simp [Micro.sendsBelow, hb]⟩
  case pollWs_closed hx =>
    exact ⟨ofW (y := .gone) hx rfl rfl rfl rfl rfl rfl (by simp [World.setObj, World.ev, List.getElem?_set_ne hb]), by simp⟩
  all_goals
    exact ⟨of rfl rfl rfl rfl rfl (by first | rfl | simp [World.setObj, World.ev, World.kill, List.getElem?_set_ne hb] |
      simp [World.setObj, World.ev, World.kill, List.getElem?_set_ne hb.1]), by simp [Micro.sendsBelow]; try exact hb⟩

theorem runs_same {cap : Option Nat} {i b : Nat} {p : Prio} {w w' : World} {ms : List Micro} (hr : Runs w ms w') :
    Solo cap w ms → (∀ m ∈ ms, m.sendsBelow i p) → Same i b p w w' := by
  induction hr with
  | nil => intro _ _; exact ⟨rfl, fun x h => h, rfl⟩
  | cons hr ih =>
    rename_i w w' m ms
    intro hs hb
    obtain ⟨w1, ns, he, hs1, -⟩ := hs.exec (.cons hr)
    have hs2 : Solo cap (exec w m).1 ((exec w m).2 ++ ms) := by
      obtain ⟨th, hre, hth⟩ := hs
      refine ⟨th, .step hre (a := .exec th.length) ?_, hth⟩
      simp [Sys.step]
    obtain ⟨h1, h2⟩ := exec_same (b := b) hs (exec_rel w m) (hb m (by simp))
    exact h1.trans (ih hs2 (fun x hx => by
      rcases List.mem_append.mp hx with hx | hx
      · exact h2 x hx
      · exact hb x (by simp [hx])))

/-- All-in-one for a first poll of a send future of priority below `p`. -/
theorem pollSend_same {cap : Option Nat} {i b f wk : Nat} {p : Prio} {w w' : World} {md : Mode} {mid : Nat} {m : Msg} {rc : Rc}
    (hq : Quiet cap w) (ho : w.objs[f]? = some (.send md mid (.new m rc))) (hp : p.ble m.prio = false) (hi : f ≠ i)
    (hd : Does w (.pollSend f wk) w') : Same i b p w w' := by
  obtain ⟨w1, ms, hc, hm⟩ := hd
  have hs := hq.call hc
  simp only [call, ho] at hc
  simp at hc; obtain ⟨rfl, rfl⟩ := hc
  have h1 : Same i b p w (w.setObj f .busy) := ⟨rfl, fun x h => h, by simp [World.setObj, List.getElem?_set_ne hi]⟩
  exact h1.trans (runs_same hm hs (by simp [Micro.sendsBelow, hi, hp]))

theorem makeSend_same {i b a : Nat} {p : Prio} {w w' : World} {c : Call} (hc : c = .send a ∨ c = .broadcast a)
    (hi : i < w.objs.length) (hd : Does w c w') :
    Same i b p w w' ∧ ∃ md mid rc, w'.objs[w.objs.length]? = some (.send md mid (.new ⟨mid, .valued 0⟩ rc)) := by
  obtain ⟨w1, ms, hc1, hm⟩ := hd
  have hcr := call_rel hc1
  rcases hc with rfl | rfl <;> cases hcr <;> (have := runs_nil hm; subst this) <;>
    exact ⟨⟨rfl, fun x h => h, by simp [World.addObj, World.ev, List.getElem?_append_left hi]⟩, _, _, _,
      by simp only [World.addObj, World.ev]; exact get_snoc _ _ _ rfl⟩

theorem setPrio_same {i b f q : Nat} {p : Prio} {w w' : World} {md : Mode} {mid : Nat} {m : Msg} {rc : Rc}
    (ho : w.objs[f]? = some (.send md mid (.new m rc))) (hi : f ≠ i) (hd : Does w (.setPrio f q) w') :
    Same i b p w w' ∧ w'.objs[f]? = some (.send md mid (.new ⟨m.id, .valued q⟩ rc)) := by
  obtain ⟨w1, ms, hc, hm⟩ := hd
  have hl := (List.getElem?_eq_some_iff.1 ho).1
  simp only [call, ho] at hc
  simp at hc; obtain ⟨rfl, rfl⟩ := hc
  have := runs_nil hm; subst this
  exact ⟨⟨rfl, fun x h => h, by simp [World.setObj, World.ev, List.getElem?_set_ne hi]⟩, by
    simp [World.setObj, World.ev, hl]⟩

theorem serves_bound {cap : Option Nat} {i b : Nat} {m : Msg} {w w' : World} {ams : List AMsg}
    (hs : Serves i b (fun p => p < m.prio) w ams w') :
    Quiet cap w → w.objs[i]? = some (.mailbox b) → m ∈ w.uq → .one m ∉ ams →
      ams.length < w.ahead b m.prio ∧ Quiet cap w' ∧ w'.objs[i]? = some (.mailbox b) ∧ m ∈ w'.uq := by
  have hself : m.prio.ble m.prio = true := Prio.ble_refl _
  have hlow : ∀ {p : Prio}, p < m.prio → m.prio.ble p = false := fun h => by simpa using show ¬ m.prio.ble _ = true from h
  induction hs with
  | nil =>
    intro hq hi hm _
    refine ⟨?_, hq, hi, hm⟩
    have : 0 < List.countP (fun x : Msg => m.prio.ble x.prio) _ := List.countP_pos_iff.mpr ⟨m, hm, hself⟩
    simp only [World.ahead, World.pU, List.countP_append, List.length_nil]; omega
  | recv h1 h2 hy hr ih =>
    rename_i w w1 w2 w' wk am ams
    intro hq hi hm hn
    simp at hn
    have st := receive_step hq hi h1 h2 hy
    have hq2 := (hq.does h1).does h2
    have hi2 : w2.objs[i]? = some (.mailbox b) := by rw [st.obj]; exact hi
    have hmp : m ∈ w.pU := List.mem_append.mpr (.inl hm)
    rcases st.out with ⟨n, rfl, a1, -, a3, a4, -⟩ | ⟨n, rfl, a1, -, a3, a4, -⟩ | ⟨-, a1, -⟩
    · have hne : n ≠ m := by rintro rfl; simp at hn
      have hm2 : m ∈ w2.uq := by
        have : m ∈ w2.pU := by
          have := a3.mem_iff.mpr hmp
          simpa [Ne.symm hne] using this
        rcases List.mem_append.mp this with h | h
        · exact h
        · exfalso
          have h3 := st.one m h
          have h4 := hq.pU_count hmp
          have h5 := List.count_pos_iff.mpr hm
          have h6 := List.count_pos_iff.mpr h3
          simp only [World.pU, List.count_append] at h4; omega
      obtain ⟨this, hrest⟩ := ih hq2 hi2 hm2 (by simpa using hn.2)
      have hn1 : m.prio.ble n.prio = true := a1 m hm
      have hcnt := a3.countP_eq (fun x => m.prio.ble x.prio)
      simp only [List.countP_cons, hn1, if_true] at hcnt
      refine ⟨?_, hrest⟩
      simp only [World.ahead, a4] at this ⊢
      simp; omega
    · have hm2 : m ∈ w2.uq := by
        have : m ∈ w2.pU := by rw [a4]; exact hmp
        rcases List.mem_append.mp this with h | h
        · exact h
        · exfalso
          have h3 := st.one m h
          have h4 := hq.pU_count hmp
          have h5 := List.count_pos_iff.mpr hm
          have h6 := List.count_pos_iff.mpr h3
          simp only [World.pU, List.count_append] at h4; omega
      obtain ⟨this, hrest⟩ := ih hq2 hi2 hm2 (by simpa using hn)
      have hn1 : m.prio.ble n.prio = true := a1 m hm
      have hcnt := a3.countP_eq (fun x => m.prio.ble x.prio)
      simp only [List.countP_cons, hn1, if_true] at hcnt
      refine ⟨?_, hrest⟩
      simp only [World.ahead, a4] at this ⊢
      simp; omega
    · rw [a1] at hm; simp at hm
  | handle hc hd hr ih =>
    intro hq hi hm hn
    have k := (handles_keeps hq hc hi hd).same (p := m.prio)
    have := ih (hq.does hd) (by rw [k.obj]; exact hi) (k.uq m hm) hn
    rwa [k.ahead] at this
  | send hc hd hp hd2 hr ih =>
    intro hq hi hm hn
    have hil := (List.getElem?_eq_some_iff.1 hi).1
    obtain ⟨k1, md, mid, rc, ho⟩ := makeSend_same (b := b) (p := m.prio) hc hil hd
    have k2 := k1.trans (pollSend_same (i := i) (b := b) (hq.does hd) ho (hlow hp) (by omega) hd2)
    have := ih ((hq.does hd).does hd2) (by rw [k2.obj]; exact hi) (k2.uq m hm) hn
    rwa [k2.ahead] at this
  | sendPrio hc hd hd1 hp hd2 hr ih =>
    intro hq hi hm hn
    have hil := (List.getElem?_eq_some_iff.1 hi).1
    obtain ⟨k1, md, mid, rc, ho⟩ := makeSend_same (b := b) (p := m.prio) hc hil hd
    obtain ⟨k2, ho2⟩ := setPrio_same (b := b) (p := m.prio) (i := i) ho (by omega) hd1
    have hq2 := (hq.does hd).does hd1
    have k3 := (k1.trans k2).trans (pollSend_same (i := i) (b := b) hq2 ho2 (hlow hp) (by omega) hd2)
    have := ih (hq2.does hd2) (by rw [k3.obj]; exact hi) (k3.uq m hm) hn
    rwa [k3.ahead] at this

theorem parked_countP (f : Msg → Bool) (q : List Nat) : ∀ (ws : List WsCell), q.Nodup →
    (parkedMsgs ws q).countP f ≤ ws.countP (fun x => match x with
      | .active _ m => f m
      | _ => false) := by
  induction q with
  | nil => intro ws _; simp [parkedMsgs]
  | cons h q ih =>
    intro ws hn
    simp at hn
    cases hx : ws[h]? with
    | none =>
      have := ih ws hn.2
      simp [parkedMsgs, List.filterMap_cons, hx] at this ⊢; exact this
    | some x =>
      have h1 := ih (ws.set h .gone) hn.2
      rw [parkedMsgs_set hn.1] at h1
      have hf : ∀ x : WsCell, (if (match x with | .active _ m => f m | _ => false) then 1 else 0) =
        if (match x with | .active _ m => f m | _ => false) then 1 else 0 := fun _ => rfl
      have h2 := sumBy_set (fun x : WsCell => if (match x with | .active _ m => f m | _ => false) then 1 else 0) .gone hx
      rw [sumBy_countP hf, sumBy_countP hf] at h2
      cases x with
      | active wk m =>
        simp [parkedMsgs, List.filterMap_cons, hx, WsCell.msg?, List.countP_cons] at h1 ⊢
        simp at h2; omega
      | _ =>
        simp [parkedMsgs, List.filterMap_cons, hx, WsCell.msg?] at h1 ⊢
        simp at h2; omega

theorem Quiet.ahead_le {cap : Option Nat} {w : World} (hq : Quiet cap w) (b : Nat) (p : Prio) : w.ahead b p ≤ w.urgent b p := by
  have h := parked_countP (fun x => p.ble x.prio) (w.wOne ++ w.wAll) w.ws hq.regWs.nodup
  simp only [parkedMsgs, List.filterMap_append, List.countP_append] at h
  simp only [World.ahead, World.pU, World.pB, World.urgent, parkedMsgs, List.countP_append]
  omega

/-- **C46** (what does hold). A queued message is handed out after at most as many receives as there are messages of its priority or
above queued or parked now, however many messages of lower priority arrive meanwhile. (Missing: arrivals of the same priority, for which
the claim is false, see `C46_refuted`.) -/
theorem C46_bounded_wait_partial {cap : Option Nat} {i b : Nat} {m : Msg} {w w' : World} {ams : List AMsg} (hq : Quiet cap w)
    (hi : w.objs[i]? = some (.mailbox b)) (hm : m ∈ w.uq) (hs : Serves i b (fun p => p < m.prio) w ams w')
    (hl : w.urgent b m.prio ≤ ams.length) : .one m ∈ ams := by
  by_cases h : .one m ∈ ams
  · exact h
  · have h1 := (serves_bound hs hq hi hm h).1
    have h2 := hq.ahead_le b m.prio
    omega

/-- **C46.** And the actor does get that far: as long as the message has not been handed out, the next receive completes at once. -/
theorem C46_keeps_receiving {cap : Option Nat} {i b : Nat} {m : Msg} {w w' : World} {ams : List AMsg} (hq : Quiet cap w)
    (hi : w.objs[i]? = some (.mailbox b)) (hm : m ∈ w.uq) (hs : Serves i b (fun p => p < m.prio) w ams w') (hn : .one m ∉ ams) :
    ∃ am w'', Serves i b (fun p => p < m.prio) w (ams ++ [am]) w'' ∧ m.prio ≤ am.prio := by
  obtain ⟨-, h1, h2, h3⟩ := serves_bound hs hq hi hm hn
  obtain ⟨w1, w2, am, d1, d2, hy⟩ := receive_exists 0 h1 h2 (.inl (by intro h; rw [h] at h3; simp at h3))
  refine ⟨am, w2, serves_append hs (.recv d1 d2 hy .nil), ?_⟩
  rcases (receive_step h1 h2 d1 d2 hy).out with ⟨n, rfl, a, -⟩ | ⟨n, rfl, a, -⟩ | ⟨rfl, a, -⟩
  · exact a m h3
  · exact a m h3
  · exact Prio.ble_shutdown _

/-- A message of priority 5 behind one of priority 5, both queued; a broadcast and a parked send of the default priority (capacity 2). -/
def boundSched : List Act := [.call (.send 0), .call (.setPrio 2 5), .call (.pollSend 2 0), .exec 2, .exec 2, .exec 2, .exec 2, .exec 2,
      .call (.send 0), .call (.setPrio 3 5), .call (.pollSend 3 0), .exec 5, .exec 5, .exec 5, .exec 5, .exec 5,
      .call (.send 0), .call (.pollSend 4 0), .exec 7, .exec 7, .exec 7, .exec 7, .exec 7]

/-- The hypotheses of `C46_bounded_wait_partial`: two receives while a broadcast of priority 1 and a default send arrive. -/
example : ∃ w w', Quiet (some 2) w ∧ w.objs[1]? = some (.mailbox 0) ∧ ⟨1, .valued 5⟩ ∈ w.uq ∧ w.urgent 0 (.valued 5) = 2 ∧
    Serves 1 0 (fun p => p < .valued 5) w [.one ⟨0, .valued 5⟩, .one ⟨1, .valued 5⟩] w' :=
  ⟨_, _, ⟨_, Reachable.run .init (as := boundSched) rfl, by decide⟩, rfl, by decide, by decide,
    .recv (wk := 0) ⟨_, _, rfl, .nil⟩ ⟨_, _, rfl, .cons .nil⟩ ⟨rfl, rfl⟩
    (.sendPrio (a := 0) (p := 1) (wk := 0) (.inr rfl) ⟨_, _, rfl, .nil⟩ ⟨_, _, rfl, .nil⟩ (show ¬ Prio.ble _ _ = true by decide)
      ⟨_, _, rfl, .cons (.cons (.cons (.cons (.cons .nil))))⟩
    (.send (a := 0) (wk := 0) (.inl rfl) ⟨_, _, rfl, .nil⟩ (show ¬ Prio.ble _ _ = true by decide) ⟨_, _, rfl, .cons (.cons (.cons (.cons (.cons .nil))))⟩
    (.recv (wk := 0) ⟨_, _, rfl, .nil⟩ ⟨_, _, rfl, .cons .nil⟩ ⟨rfl, rfl⟩ .nil)))⟩

end Xtra
