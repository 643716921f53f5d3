import Verif.Crit
/-! The step function flattened into a relation with one constructor per branch (a proof device;
`exec_rel` and `call_rel` show that it covers the functions of `Verif/Model.lean`). -/

namespace Xtra

inductive ExecR (w : World) : Micro → World → List Micro → Prop
  | sendLd1_err {f md m rc wk} : w.rcv = 0 →
      ExecR w (.sendLd1 f md m rc wk) (((w.kill m).setObj f .gone).ev (.sendErr f m.id)) [.dropTx rc]
  | sendLd1_ok {f md m rc wk} : w.rcv ≠ 0 →
      ExecR w (.sendLd1 f md m rc wk) w [.sendLd2 f md m rc wk]
  | sendLd2_err {f md m rc wk} : w.sc = 0 →
      ExecR w (.sendLd2 f md m rc wk) (((w.kill m).setObj f .gone).ev (.sendErr f m.id)) [.dropTx rc]
  | sendLd2_ok {f md m rc wk} : w.sc ≠ 0 →
      ExecR w (.sendLd2 f md m rc wk) w [.sendCrit f md m rc wk]
  | critAll_park {f m rc wk} : w.bcFull = true →
      ExecR w (.sendCrit f .bcast m rc wk)
        { w with ws := w.ws ++ [.active none m], wAll := w.wAll ++ [w.ws.length],
                 log := w.lateLog m }
        [.dropTx rc, .pollWs f .bcast m.id w.ws.length wk]
  | critAll_sent {f m rc wk} : w.bcFull = false →
      ExecR w (.sendCrit f .bcast m rc wk) (({ w with log := w.lateLog m } : World).sendBroadcast m)
        [.dropTx rc, .sendFin f .bcast m.id wk]
  | critOne_hand {f md m rc wk pre c rest wk'} : md ≠ .bcast → w.wRx = pre ++ c :: rest →
      noneEmpty w.cells pre → w.cells[c]? = some (.empty wk') →
      ExecR w (.sendCrit f md m rc wk)
        { w with cells := w.cells.set c (.full (.newMessage m) wk'), wRx := rest, log := w.lateLog m }
        [.dropTx rc, .sendFin f md m.id wk]
  | critOne_park {f md m rc wk} : md ≠ .bcast → noneEmpty w.cells w.wRx → w.uniFull = true →
      ExecR w (.sendCrit f md m rc wk)
        { w with wRx := [], ws := w.ws ++ [.active none m], wOne := w.wOne ++ [w.ws.length],
                 log := w.lateLog m }
        [.dropTx rc, .pollWs f md m.id w.ws.length wk]
  | critOne_queue {f md m rc wk} : md ≠ .bcast → noneEmpty w.cells w.wRx → w.uniFull = false →
      ExecR w (.sendCrit f md m rc wk)
        { w with wRx := [], uq := Heap.push Msg.le w.uq m, log := w.lateLog m }
        [.dropTx rc, .sendFin f md m.id wk]
  | pollWs_active {f md mid h wk wk' m} : w.ws[h]? = some (.active wk' m) →
      ExecR w (.pollWs f md mid h wk)
        ((({ w with ws := w.ws.set h (.active (some wk) m) } : World).setObj f
          (.send md mid (.waiting h))).ev (.sendPending f mid wk)) []
  | pollWs_delivered {f md mid h wk wk'} : w.ws[h]? = some (.delivered wk') →
      ExecR w (.pollWs f md mid h wk) { w with ws := w.ws.set h .gone } [.sendFin f md mid wk]
  | pollWs_closed {f md mid h wk wk'} : w.ws[h]? = some (.closed wk') →
      ExecR w (.pollWs f md mid h wk)
        ((({ w with ws := w.ws.set h .gone } : World).setObj f .gone).ev (.sendErr f mid)) []
  | pollWs_panic {f md mid h wk} : wsActive w.ws h = false →
      ExecR w (.pollWs f md mid h wk) ((w.setObj f .gone).ev .panic) []
  | sendFin_bcast {f mid wk} :
      ExecR w (.sendFin f .bcast mid wk) ((w.setObj f .gone).ev (.sendOk f mid)) []
  | sendFin_detached {f mid wk} :
      ExecR w (.sendFin f .detached mid wk) ((w.setObj f (.reply mid)).ev (.sendOk f mid)) []
  | sendFin_waiting {f mid wk wk'} : w.resp[mid]? = some (.waiting wk') →
      ExecR w (.sendFin f .ret mid wk)
        ((({ w with resp := w.resp.set mid (.waiting (some wk)) } : World).setObj f
          (.send .ret mid .done)).ev (.sendPending f mid wk)) []
  | sendFin_value {f mid wk wk' r} : w.resp[mid]? = some (.value r wk') →
      ExecR w (.sendFin f .ret mid wk) ((w.setObj f .gone).ev (.replyOk f mid r)) []
  | sendFin_interrupted {f mid wk wk'} : w.resp[mid]? = some (.interrupted wk') →
      ExecR w (.sendFin f .ret mid wk) ((w.setObj f .gone).ev (.replyInt f mid)) []
  | sendFin_panic {f mid wk} : (w.resp[mid]? = none ∨ w.resp[mid]? = some .none) →
      ExecR w (.sendFin f .ret mid wk) ((w.setObj f .gone).ev .panic) []
  | dropWs_active {h wk m} : w.ws[h]? = some (.active wk m) →
      ExecR w (.dropWs h) (({ w with ws := w.ws.set h .gone } : World).kill m) []
  | dropWs_other {h} : (∀ wk m, w.ws[h]? ≠ some (.active wk m)) →
      ExecR w (.dropWs h) { w with ws := w.ws.set h .gone } []
  | dropTx_last {rc} : rc.isStrong = true → w.sc = 1 →
      ExecR w (.dropTx rc) { w with sc := w.sc - 1 } [.shutRx]
  | dropTx_more {rc} : rc.isStrong = true → w.sc ≠ 1 →
      ExecR w (.dropTx rc) { w with sc := w.sc - 1 } []
  | dropTx_weak {rc} : rc.isStrong = false → ExecR w (.dropTx rc) w []
  | shutRx : ExecR w .shutRx { w with wRx := [], lag := .swept } (w.wRx.map .notifyShut)
  | notifyShut {c} : ExecR w (.notifyShut c) { w with cells := notifyCell w.cells c .shutdown } []
  | dropRx_last : w.rcv = 1 → ExecR w .dropRx { w with rcv := w.rcv - 1 } [.shutTx]
  | dropRx_more : w.rcv ≠ 1 → ExecR w .dropRx { w with rcv := w.rcv - 1 } []
  | shutTx : ExecR w .shutTx w.shutTx []
  | dropBq {b} : ExecR w (.dropBq b) (w.decBq b) []
  | recv_all {r b wk m w'} : w.popBroadcast b = some (m, w') → (w.items b).head? = some m →
      (∀ u ∈ w.uq.head?, u.prio.blt m.prio = true) →
      ExecR w (.recvTry r b wk) (w'.yieldMsg r b (.all m)) []
  | recv_one {r b wk m w'} : w.popUnicast = some (m, w') → w.uq.head? = some m →
      (∀ u ∈ (w.items b).head?, u.prio.ble m.prio = true) →
      ExecR w (.recvTry r b wk) (w'.yieldMsg r b (.one m)) []
  | recv_shutdown {r b wk} : w.uq = [] → w.items b = [] → w.sc = 0 →
      ExecR w (.recvTry r b wk) (w.yieldMsg r b .shutdown) []
  | recv_wait {r b wk} : w.uq = [] → w.items b = [] → (w.sc ≠ 0 ∨ w.lag = .late) →
      ExecR w (.recvTry r b wk)
        { w with cells := w.cells ++ [.empty none], wRx := w.wRx ++ [w.cells.length] }
        [.recvPoll r b w.cells.length wk]
  | recvPoll_empty {r b c wk wk'} : w.cells[c]? = some (.empty wk') →
      ExecR w (.recvPoll r b c wk)
        ((({ w with cells := w.cells.set c (.empty (some wk)) } : World).setObj r
          (.recv b (.waiting c))).ev (.recvPending r wk)) []
  | recvPoll_one {r b c wk wk' m} : w.cells[c]? = some (.full (.newMessage m) wk') →
      ExecR w (.recvPoll r b c wk)
        (({ w with cells := w.cells.set c .gone } : World).yieldMsg r b (.one m)) []
  | recvPoll_shutdown {r b c wk wk'} : w.cells[c]? = some (.full .shutdown wk') →
      ExecR w (.recvPoll r b c wk)
        (({ w with cells := w.cells.set c .gone } : World).yieldMsg r b .shutdown) []
  | recvPoll_bcast {r b c wk wk'} : w.cells[c]? = some (.full .newBroadcast wk') →
      ExecR w (.recvPoll r b c wk) { w with cells := w.cells.set c .used } [.recvBcast r b c wk]
  | recvPoll_panic {r b c wk} : (w.cells[c]? = none ∨ w.cells[c]? = some .used ∨ w.cells[c]? = some .gone) →
      ExecR w (.recvPoll r b c wk) ((w.setObj r .gone).ev .panic) []
  | recvBcast_some {r b c wk m w'} : w.popBroadcast b = some (m, w') →
      ExecR w (.recvBcast r b c wk)
        (({ w' with cells := w'.cells.set c .gone } : World).yieldMsg r b (.all m)) []
  | recvBcast_none {r b c wk} : w.popBroadcast b = none →
      ExecR w (.recvBcast r b c wk) { w with cells := w.cells.set c .gone } [.recvTry r b wk]
  | cancel_msg {b c m wk} : w.cells[c]? = some (.full (.newMessage m) wk) →
      ExecR w (.cancel b c) { w with cells := w.cells.set c .used }
        [.requeue m, .dropRx, .dropBq b, .dropCell c]
  | cancel_full {b c k wk} : w.cells[c]? = some (.full k wk) → (∀ m, k ≠ .newMessage m) →
      ExecR w (.cancel b c) { w with cells := w.cells.set c .used } [.dropRx, .dropBq b, .dropCell c]
  | cancel_none {b c} : (∀ k wk, w.cells[c]? ≠ some (.full k wk)) →
      ExecR w (.cancel b c) w [.dropRx, .dropBq b, .dropCell c]
  | requeue_hand {m pre c rest wk'} : w.wRx = pre ++ c :: rest →
      noneEmpty w.cells pre → w.cells[c]? = some (.empty wk') →
      ExecR w (.requeue m)
        { w with cells := w.cells.set c (.full (.newMessage m) wk'), wRx := rest,
                 log := .requeued m.id :: w.log } []
  | requeue_queue {m} : noneEmpty w.cells w.wRx →
      ExecR w (.requeue m)
        { w with wRx := [], uq := Heap.push Msg.le w.uq m, log := .requeued m.id :: w.log } []
  | dropCell_lost {c m wk} : w.cells[c]? = some (.full (.newMessage m) wk) →
      ExecR w (.dropCell c)
        { w with cells := w.cells.set c .gone, resp := w.resp.modify m.id Resp.interrupt,
                 log := .lost m.id :: w.log } []
  | dropCell_other {c} : (∀ m wk, w.cells[c]? ≠ some (.full (.newMessage m) wk)) →
      ExecR w (.dropCell c) { w with cells := w.cells.set c .gone } []
  | dropMsg {m} : ExecR w (.dropMsg m) (w.kill m) []
  | discard_one {m} :
      ExecR w (.discard (.one m))
        { w with resp := w.resp.modify m.id Resp.interrupt, log := .discarded m.id :: w.log } []
  | discard_other {am} : (∀ m, am ≠ .one m) → ExecR w (.discard am) w []
  | respond_one {b m r brk} :
      ExecR w (.respond b (.one m) r brk)
        { w with resp := w.resp.modify m.id (Resp.fulfil r),
                 log := .flow b (.one m) brk :: .handled m.id r :: w.log } []
  | respond_other {b am r brk} : (∀ m, am ≠ .one m) →
      ExecR w (.respond b am r brk) (w.ev (.flow b am brk)) []
  | newBq {o} :
      ExecR w (.newBq o)
        { w with bq := w.bq ++ [⟨1, []⟩], bqs := w.bqs ++ [w.bq.length],
                 objs := w.objs.set o (.mailbox w.bq.length) } []
  | bcastShutdown :
      ExecR w .bcastShutdown
        (({ w with resp := w.resp ++ [Resp.none] } : World).sendBroadcast ⟨w.resp.length, .shutdown⟩) []
  | conn1_no {i} : w.rcv = 0 → ExecR w (.conn1 i) (w.ev (.connected i false)) []
  | conn1_yes {i} : w.rcv ≠ 0 → ExecR w (.conn1 i) w [.conn2 i]
  | conn2 {i} : ExecR w (.conn2 i) (w.ev (.connected i (decide (0 < w.sc)))) []
  | join1_no {o l} : w.rcv = 0 → ExecR w (.join1 o l) (w.setObj o (.join none)) []
  | join1_yes {o l} : w.rcv ≠ 0 → ExecR w (.join1 o l) w [.join2 o l]
  | join2_no {o l} : w.sc = 0 → ExecR w (.join2 o l) (w.setObj o (.join none)) []
  | join2_yes {o l} : w.sc ≠ 0 → ExecR w (.join2 o l) (w.setObj o (.join (some l))) []

theorem exec_rel (w : World) (m : Micro) : ExecR w m (exec w m).1 (exec w m).2 := by
  cases m with
  | sendLd1 f md m rc wk =>
    by_cases h : w.rcv = 0
    · simp only [exec, h, if_true]; exact .sendLd1_err h
    · simp only [exec, h, if_false]; exact .sendLd1_ok h
  | sendLd2 f md m rc wk =>
    by_cases h : w.sc = 0
    · simp only [exec, h, if_true]; exact .sendLd2_err h
    · simp only [exec, h, if_false]; exact .sendLd2_ok h
  | sendCrit f md m rc wk =>
    have key : md = .bcast ∨ (md ≠ .bcast ∧ exec w (.sendCrit f md m rc wk) =
      (((w.noteLate m).sendOne m).1, afterSend f md m.id rc wk ((w.noteLate m).sendOne m).2)) := by
      cases md
      · right; exact ⟨by simp, rfl⟩
      · right; exact ⟨by simp, rfl⟩
      · left; rfl
    rcases key with rfl | ⟨hmd, he⟩
    · have he : exec w (.sendCrit f .bcast m rc wk) =
        (((w.noteLate m).sendAll m).1, afterSend f .bcast m.id rc wk ((w.noteLate m).sendAll m).2) := rfl
      rw [he]
      rcases sendAll_cases (w.noteLate m) m with ⟨h1, h2⟩ | ⟨h1, h2⟩
      · rw [h2]; exact .critAll_park h1
      · rw [h2]; exact .critAll_sent h1
    · rw [he]
      rcases sendOne_cases (w.noteLate m) m with ⟨pre, c, rest, wk', h1, h2, h3, h4⟩ | ⟨h1, h2, h4⟩ | ⟨h1, h2, h4⟩
      · rw [h4]; exact .critOne_hand hmd h1 h2 h3
      · rw [h4]; exact .critOne_park hmd h1 h2
      · rw [h4]; exact .critOne_queue hmd h1 h2
  | pollWs f md mid h wk =>
    cases hc : w.ws[h]? with
    | none => simp only [exec, hc]; exact .pollWs_panic (by simp [wsActive, hc])
    | some x =>
      cases x with
      | active wk' m => simp only [exec, hc]; exact .pollWs_active hc
      | delivered wk' => simp only [exec, hc]; exact .pollWs_delivered hc
      | closed wk' => simp only [exec, hc]; exact .pollWs_closed hc
      | gone => simp only [exec, hc]; exact .pollWs_panic (by simp [wsActive, hc])
  | sendFin f md mid wk =>
    cases md with
    | bcast => exact .sendFin_bcast
    | detached => exact .sendFin_detached
    | ret =>
      cases hc : w.resp[mid]? with
      | none => simp only [exec, hc]; exact .sendFin_panic (.inl hc)
      | some x =>
        cases x with
        | none => simp only [exec, hc]; exact .sendFin_panic (.inr hc)
        | waiting wk' => simp only [exec, hc]; exact .sendFin_waiting hc
        | value r wk' => simp only [exec, hc]; exact .sendFin_value hc
        | interrupted wk' => simp only [exec, hc]; exact .sendFin_interrupted hc
  | dropWs h =>
    cases hc : w.ws[h]? with
    | none => simp only [exec, hc]; exact .dropWs_other (by simp [hc])
    | some x =>
      cases x with
      | active wk' m => simp only [exec, hc]; exact .dropWs_active hc
      | delivered wk' => simp only [exec, hc]; exact .dropWs_other (by simp [hc])
      | closed wk' => simp only [exec, hc]; exact .dropWs_other (by simp [hc])
      | gone => simp only [exec, hc]; exact .dropWs_other (by simp [hc])
  | dropTx rc =>
    by_cases hr : rc.isStrong = true
    · by_cases h1 : w.sc = 1
      · simp only [exec, hr, if_true, h1]
        have := ExecR.dropTx_last (w := w) hr h1
        simpa [h1] using this
      · simp only [exec, hr, if_true, h1, if_false]; exact .dropTx_more hr h1
    · simp only [exec, hr]; exact .dropTx_weak (by simpa using hr)
  | shutRx => exact .shutRx
  | notifyShut c => exact .notifyShut
  | dropRx =>
    by_cases h1 : w.rcv = 1
    · simp only [exec, h1, if_true]
      have := ExecR.dropRx_last (w := w) h1
      simpa [h1] using this
    · simp only [exec, h1, if_false]; exact .dropRx_more h1
  | shutTx => exact .shutTx
  | dropBq b => exact .dropBq
  | recvTry r b wk =>
    rcases tryRecv_cases w b with ⟨m, w', hp, h, h1, h2⟩ | ⟨m, w', hp, h, h1, h2⟩ | ⟨h1, h2, h3, h⟩ | ⟨h1, h2, h3, h⟩
    · simp only [exec, h]; exact .recv_all hp h1 h2
    · simp only [exec, h]; exact .recv_one hp h1 h2
    · simp only [exec, h]; exact .recv_shutdown h1 h2 h3
    · simp only [exec, h]; exact .recv_wait h1 h2 h3
  | recvPoll r b c wk =>
    cases hc : w.cells[c]? with
    | none => simp only [exec, hc]; exact .recvPoll_panic (.inl hc)
    | some x =>
      cases x with
      | empty wk' => simp only [exec, hc]; exact .recvPoll_empty hc
      | full k wk' =>
        cases k with
        | newMessage m => simp only [exec, hc]; exact .recvPoll_one hc
        | newBroadcast => simp only [exec, hc]; exact .recvPoll_bcast hc
        | shutdown => simp only [exec, hc]; exact .recvPoll_shutdown hc
      | used => simp only [exec, hc]; exact .recvPoll_panic (.inr (.inl hc))
      | gone => simp only [exec, hc]; exact .recvPoll_panic (.inr (.inr hc))
  | recvBcast r b c wk =>
    cases hc : w.popBroadcast b with
    | none => simp only [exec, hc]; exact .recvBcast_none hc
    | some x => obtain ⟨m, w'⟩ := x; simp only [exec, hc]; exact .recvBcast_some hc
  | cancel b c =>
    cases hc : w.cells[c]? with
    | none => simp only [exec, hc]; exact .cancel_none (by simp [hc])
    | some x =>
      cases x with
      | empty wk' => simp only [exec, hc]; exact .cancel_none (by simp [hc])
      | full k wk' =>
        cases k with
        | newMessage m => simp only [exec, hc]; exact .cancel_msg hc
        | newBroadcast => simp only [exec, hc]; exact .cancel_full hc (by simp)
        | shutdown => simp only [exec, hc]; exact .cancel_full hc (by simp)
      | used => simp only [exec, hc]; exact .cancel_none (by simp [hc])
      | gone => simp only [exec, hc]; exact .cancel_none (by simp [hc])
  | requeue m =>
    simp only [exec]
    rcases requeue_cases w m with ⟨pre, c, rest, wk, h1, h2, h3, h4⟩ | ⟨h1, h4⟩
    · rw [h4]; exact .requeue_hand h1 h2 h3
    · rw [h4]; exact .requeue_queue h1
  | dropCell c =>
    cases hc : w.cells[c]? with
    | none => simp only [exec, hc]; exact .dropCell_other (by simp [hc])
    | some x =>
      cases x with
      | empty wk' => simp only [exec, hc]; exact .dropCell_other (by simp [hc])
      | full k wk' =>
        cases k with
        | newMessage m => simp only [exec, hc]; exact .dropCell_lost hc
        | newBroadcast => simp only [exec, hc]; exact .dropCell_other (by simp [hc])
        | shutdown => simp only [exec, hc]; exact .dropCell_other (by simp [hc])
      | used => simp only [exec, hc]; exact .dropCell_other (by simp [hc])
      | gone => simp only [exec, hc]; exact .dropCell_other (by simp [hc])
  | dropMsg m => exact .dropMsg
  | discard am =>
    cases am with
    | one m => exact .discard_one
    | all m => exact .discard_other (by simp)
    | shutdown => exact .discard_other (by simp)
  | respond b am r brk =>
    cases am with
    | one m => exact .respond_one
    | all m => exact .respond_other (by simp)
    | shutdown => exact .respond_other (by simp)
  | newBq o => exact .newBq
  | bcastShutdown => exact .bcastShutdown
  | conn1 i =>
    by_cases h : w.rcv = 0
    · simp only [exec, h, if_true]; exact .conn1_no h
    · simp only [exec, h, if_false]; exact .conn1_yes h
  | conn2 i => exact .conn2
  | join1 o l =>
    by_cases h : w.rcv = 0
    · simp only [exec, h, if_true]; exact .join1_no h
    · simp only [exec, h, if_false]; exact .join1_yes h
  | join2 o l =>
    by_cases h : w.sc = 0
    · simp only [exec, h, if_true]; exact .join2_no h
    · simp only [exec, h, if_false]; exact .join2_yes h

inductive CallR (w : World) : Call → World → List Micro → Prop
  | cloneAddr {i rc} : w.objs[i]? = some (.addr rc) →
      CallR w (.cloneAddr i) ((w.addTx rc).addObj (.addr rc)) []
  | downgrade {i rc} : w.objs[i]? = some (.addr rc) →
      CallR w (.downgrade i) (w.addObj (.addr .weak)) []
  | asEither {i rc} : w.objs[i]? = some (.addr rc) →
      CallR w (.asEither i) ((w.addTx rc).addObj (.addr rc.toEither)) []
  | upgrade_no {i} : w.objs[i]? = some (.addr .weak) → w.sc = 0 →
      CallR w (.upgrade i) (w.ev (.upgraded i false)) []
  | upgrade_yes {i} : w.objs[i]? = some (.addr .weak) → w.sc ≠ 0 →
      CallR w (.upgrade i)
        ((({ w with sc := w.sc + 1 } : World).addObj (.addr .strong)).ev (.upgraded i true)) []
  | dropAddr {i rc} : w.objs[i]? = some (.addr rc) →
      CallR w (.dropAddr i) (w.setObj i .gone) [.dropTx rc]
  | isConnected {i rc} : w.objs[i]? = some (.addr rc) → CallR w (.isConnected i) w [.conn1 i]
  | flipLag : CallR w .flipLag { w with lag := w.lag.flip } []
  | isConnectedStale {i rc} : w.objs[i]? = some (.addr rc) → CallR w (.isConnectedStale i) (w.ev (.connected i true)) []
  | len {i rc} : w.objs[i]? = some (.addr rc) →
      CallR w (.len i) (w.ev (.len i (w.tail + w.uq.length))) []
  | send {i rc} : w.objs[i]? = some (.addr rc) →
      CallR w (.send i)
        ((({ w with sc := if rc.isStrong then w.sc + 1 else w.sc, resp := w.resp ++ [Resp.waiting none] } : World).addObj
          (.send .ret w.resp.length (.new ⟨w.resp.length, .valued 0⟩ rc))).ev
          (.made w.objs.length w.resp.length false)) []
  | broadcast {i rc} : w.objs[i]? = some (.addr rc) →
      CallR w (.broadcast i)
        ((({ w with sc := if rc.isStrong then w.sc + 1 else w.sc, resp := w.resp ++ [Resp.none] } : World).addObj
          (.send .bcast w.resp.length (.new ⟨w.resp.length, .valued 0⟩ rc))).ev
          (.made w.objs.length w.resp.length true)) []
  | setPrio {f p md mid m rc} : w.objs[f]? = some (.send md mid (.new m rc)) →
      CallR w (.setPrio f p)
        ((w.setObj f (.send md mid (.new { m with prio := .valued p } rc))).ev (.prioSet mid p)) []
  | setPrio_waiting {f p md mid h} : w.objs[f]? = some (.send md mid (.waiting h)) →
      CallR w (.setPrio f p) ((w.setObj f .gone).ev (.prioPanic f mid)) [.dropWs h]
  | setPrio_done {f p md mid} : w.objs[f]? = some (.send md mid .done) →
      CallR w (.setPrio f p) ((w.setObj f .gone).ev (.prioPanic f mid)) []
  | detach {f mid s} : w.objs[f]? = some (.send .ret mid s) →
      CallR w (.detach f) (w.setObj f (.send .detached mid s)) []
  | pollSend_new {f wk md mid m rc} : w.objs[f]? = some (.send md mid (.new m rc)) →
      CallR w (.pollSend f wk) (w.setObj f .busy) [.sendLd1 f md m rc wk]
  | pollSend_waiting {f wk md mid h} : w.objs[f]? = some (.send md mid (.waiting h)) →
      CallR w (.pollSend f wk) (w.setObj f .busy) [.pollWs f md mid h wk]
  | pollSend_done {f wk md mid} : w.objs[f]? = some (.send md mid .done) →
      CallR w (.pollSend f wk) (w.setObj f .busy) [.sendFin f md mid wk]
  | pollSendStale {f wk md mid m rc} : w.objs[f]? = some (.send md mid (.new m rc)) →
      CallR w (.pollSendStale f wk) (w.setObj f .busy) [.sendCrit f md m rc wk]
  | dropSend_new {f md mid m rc} : w.objs[f]? = some (.send md mid (.new m rc)) →
      CallR w (.dropSend f) (w.setObj f .gone) [.dropMsg m, .dropTx rc]
  | dropSend_waiting {f md mid h} : w.objs[f]? = some (.send md mid (.waiting h)) →
      CallR w (.dropSend f) (w.setObj f .gone) [.dropWs h]
  | dropSend_done {f md mid} : w.objs[f]? = some (.send md mid .done) →
      CallR w (.dropSend f) (w.setObj f .gone) []
  | pollReply_waiting {o wk mid wk'} : w.objs[o]? = some (.reply mid) →
      w.resp[mid]? = some (.waiting wk') →
      CallR w (.pollReply o wk)
        (({ w with resp := w.resp.set mid (.waiting (some wk)) } : World).ev (.sendPending o mid wk)) []
  | pollReply_value {o wk mid wk' r} : w.objs[o]? = some (.reply mid) →
      w.resp[mid]? = some (.value r wk') →
      CallR w (.pollReply o wk) ((w.setObj o .gone).ev (.replyOk o mid r)) []
  | pollReply_interrupted {o wk mid wk'} : w.objs[o]? = some (.reply mid) →
      w.resp[mid]? = some (.interrupted wk') →
      CallR w (.pollReply o wk) ((w.setObj o .gone).ev (.replyInt o mid)) []
  | pollReply_panic {o wk mid} : w.objs[o]? = some (.reply mid) →
      (w.resp[mid]? = none ∨ w.resp[mid]? = some .none) →
      CallR w (.pollReply o wk) (w.ev .panic) []
  | dropReply {o mid} : w.objs[o]? = some (.reply mid) →
      CallR w (.dropReply o) (w.setObj o .gone) []
  | cloneMailbox {i o b} : w.objs[i]? = some o → o.mbox = some b →
      CallR w (.cloneMailbox i) (({ w with rcv := w.rcv + 1 } : World).addObj .busy) [.newBq w.objs.length]
  | address {i o b} : w.objs[i]? = some o → o.mbox = some b →
      CallR w (.address i) (w.addObj (.addr .weak)) []
  | next {i o b} : w.objs[i]? = some o → o.mbox = some b →
      CallR w (.next i) ((({ w with rcv := w.rcv + 1 } : World).incBq b).addObj (.recv b .new)) []
  | dropMailbox {i b} : w.objs[i]? = some (.mailbox b) →
      CallR w (.dropMailbox i) (w.setObj i .gone) [.dropRx, .dropBq b]
  | pollRecv_new {r wk b} : w.objs[r]? = some (.recv b .new) →
      CallR w (.pollRecv r wk) (w.setObj r .busy) [.recvTry r b wk]
  | pollRecv_waiting {r wk b c} : w.objs[r]? = some (.recv b (.waiting c)) →
      CallR w (.pollRecv r wk) (w.setObj r .busy) [.recvPoll r b c wk]
  | dropRecv_new {r b} : w.objs[r]? = some (.recv b .new) →
      CallR w (.dropRecv r) (w.setObj r .gone) [.dropRx, .dropBq b]
  | dropRecv_waiting {r b c} : w.objs[r]? = some (.recv b (.waiting c)) →
      CallR w (.dropRecv r) (w.setObj r .gone) [.cancel b c]
  | dropMessage {o b am} : w.objs[o]? = some (.message b am) →
      CallR w (.dropMessage o) (w.setObj o .gone) [.discard am, .dropRx, .dropBq b]
  | dispatch_stop {o b am} : w.objs[o]? = some (.message b am) →
      (am = .shutdown ∨ ∃ m, am = .all m ∧ m.prio = .shutdown) →
      CallR w (.dispatch o) ((w.setObj o .gone).ev (.flow b am true)) [.dropRx, .dropBq b]
  | dispatch_run {o b am} : w.objs[o]? = some (.message b am) →
      am ≠ .shutdown → (∀ m, am = .all m → m.prio ≠ .shutdown) →
      CallR w (.dispatch o) (w.setObj o (.dispatch b am true)) []
  | stopSelf {o b am rn} : w.objs[o]? = some (.dispatch b am rn) →
      CallR w (.stopSelf o) (w.setObj o (.dispatch b am false)) []
  | stopAll_no {o b am rn} : w.objs[o]? = some (.dispatch b am rn) → w.sc = 0 →
      CallR w (.stopAll o) w []
  | stopAll_yes {o b am rn} : w.objs[o]? = some (.dispatch b am rn) → w.sc ≠ 0 →
      CallR w (.stopAll o) { w with sc := w.sc + 1 } [.bcastShutdown, .dropTx .strong]
  | finish {o r b am rn} : w.objs[o]? = some (.dispatch b am rn) →
      CallR w (.finish o r) (w.setObj o .gone) [.dropRx, .dropBq b, .respond b am r (!rn)]
  | dropDispatch {o b am rn} : w.objs[o]? = some (.dispatch b am rn) →
      CallR w (.dropDispatch o) (w.setObj o .gone) [.dropRx, .dropBq b, .discard am]
  | join {i rc} : w.objs[i]? = some (.addr rc) →
      CallR w (.join i) (({ w with lst := w.lst ++ [LCell.waiting none] } : World).addObj .busy)
        [.join1 w.objs.length w.lst.length]
  | joinStale {i rc} : w.objs[i]? = some (.addr rc) → w.rang = false →
      CallR w (.joinStale i) (({ w with lst := w.lst ++ [LCell.waiting none] } : World).addObj (.join (some w.lst.length))) []
  | pollJoin_none {j wk} : w.objs[j]? = some (.join none) →
      CallR w (.pollJoin j wk) (w.ev (.joined j)) []
  | pollJoin_waiting {j wk l wk'} : w.objs[j]? = some (.join (some l)) →
      w.lst[l]? = some (.waiting wk') →
      CallR w (.pollJoin j wk)
        (({ w with lst := w.lst.set l (.waiting (some wk)) } : World).ev (.joinPending j wk)) []
  | pollJoin_notified {j wk l wk'} : w.objs[j]? = some (.join (some l)) →
      w.lst[l]? = some (.notified wk') →
      CallR w (.pollJoin j wk) ((w.setObj j (.join none)).ev (.joined j)) []
  | pollJoin_panic {j wk l} : w.objs[j]? = some (.join (some l)) → w.lst[l]? = none →
      CallR w (.pollJoin j wk) (w.ev .panic) []
  | dropJoin {j l} : w.objs[j]? = some (.join l) →
      CallR w (.dropJoin j) (w.setObj j .gone) []

theorem call_rel {w : World} {c : Call} {w' : World} {ms : List Micro}
    (h : call w c = some (w', ms)) : CallR w c w' ms := by
  have bind_mbox : ∀ {i b : Nat}, (w.objs[i]?).bind Obj.mbox = some b →
      ∃ o : Obj, w.objs[i]? = some o ∧ o.mbox = some b := by
    intro i b hb
    cases ho : w.objs[i]? with
    | none => rw [ho] at hb; simp at hb
    | some o => rw [ho] at hb; exact ⟨o, rfl, hb⟩
  cases c with
  | cloneMailbox i =>
    simp only [call] at h
    split at h
    · rename_i hb
      obtain ⟨o, ho, hm⟩ := bind_mbox hb
      simp at h; obtain ⟨rfl, rfl⟩ := h; exact .cloneMailbox ho hm
    · simp at h
  | address i =>
    simp only [call] at h
    split at h
    · rename_i hb
      obtain ⟨o, ho, hm⟩ := bind_mbox hb
      simp at h; obtain ⟨rfl, rfl⟩ := h; exact .address ho hm
    · simp at h
  | next i =>
    simp only [call] at h
    split at h
    · rename_i hb
      obtain ⟨o, ho, hm⟩ := bind_mbox hb
      simp at h; obtain ⟨rfl, rfl⟩ := h; exact .next ho hm
    · simp at h
  | cloneAddr i =>
    simp only [call] at h; split at h
    · rename_i ho; simp at h; obtain ⟨rfl, rfl⟩ := h; exact .cloneAddr ho
    · simp at h
  | downgrade i =>
    simp only [call] at h; split at h
    · rename_i ho; simp at h; obtain ⟨rfl, rfl⟩ := h; exact .downgrade ho
    · simp at h
  | asEither i =>
    simp only [call] at h; split at h
    · rename_i ho; simp at h; obtain ⟨rfl, rfl⟩ := h; exact .asEither ho
    · simp at h
  | upgrade i =>
    simp only [call] at h; split at h
    · rename_i ho
      split at h
      · rename_i hs; simp at h; obtain ⟨rfl, rfl⟩ := h; exact .upgrade_no ho hs
      · rename_i hs; simp at h; obtain ⟨rfl, rfl⟩ := h; exact .upgrade_yes ho hs
    · simp at h
  | dropAddr i =>
    simp only [call] at h; split at h
    · rename_i ho; simp at h; obtain ⟨rfl, rfl⟩ := h; exact .dropAddr ho
    · simp at h
  | isConnected i =>
    simp only [call] at h; split at h
    · rename_i ho; simp at h; obtain ⟨rfl, rfl⟩ := h; exact .isConnected ho
    · simp at h
  | flipLag => simp only [call] at h; simp at h; obtain ⟨rfl, rfl⟩ := h; exact .flipLag
  | isConnectedStale i =>
    simp only [call] at h; split at h
    · rename_i ho; simp at h; obtain ⟨rfl, rfl⟩ := h; exact .isConnectedStale ho
    · simp at h
  | len i =>
    simp only [call] at h; split at h
    · rename_i ho; simp at h; obtain ⟨rfl, rfl⟩ := h; exact .len ho
    · simp at h
  | send i =>
    simp only [call] at h; split at h
    · rename_i ho; simp only [Option.some.injEq, Prod.mk.injEq] at h; obtain ⟨rfl, rfl⟩ := h; exact .send ho
    · simp at h
  | broadcast i =>
    simp only [call] at h; split at h
    · rename_i ho; simp only [Option.some.injEq, Prod.mk.injEq] at h; obtain ⟨rfl, rfl⟩ := h; exact .broadcast ho
    · simp at h
  | setPrio f p =>
    simp only [call] at h; split at h
    · rename_i ho; simp at h; obtain ⟨rfl, rfl⟩ := h; exact .setPrio ho
    · rename_i ho; simp at h; obtain ⟨rfl, rfl⟩ := h; exact .setPrio_waiting ho
    · rename_i ho; simp at h; obtain ⟨rfl, rfl⟩ := h; exact .setPrio_done ho
    · simp at h
  | detach f =>
    simp only [call] at h; split at h
    · rename_i ho; simp at h; obtain ⟨rfl, rfl⟩ := h; exact .detach ho
    · simp at h
  | pollSend f wk =>
    simp only [call] at h; split at h
    · rename_i ho; simp at h; obtain ⟨rfl, rfl⟩ := h; exact .pollSend_new ho
    · rename_i ho; simp at h; obtain ⟨rfl, rfl⟩ := h; exact .pollSend_waiting ho
    · rename_i ho; simp at h; obtain ⟨rfl, rfl⟩ := h; exact .pollSend_done ho
    · simp at h
  | pollSendStale f wk =>
    simp only [call] at h; split at h
    · rename_i ho; simp at h; obtain ⟨rfl, rfl⟩ := h; exact .pollSendStale ho
    · simp at h
  | dropSend f =>
    simp only [call] at h; split at h
    · rename_i ho; simp at h; obtain ⟨rfl, rfl⟩ := h; exact .dropSend_new ho
    · rename_i ho; simp at h; obtain ⟨rfl, rfl⟩ := h; exact .dropSend_waiting ho
    · rename_i ho; simp at h; obtain ⟨rfl, rfl⟩ := h; exact .dropSend_done ho
    · simp at h
  | pollReply o wk =>
    simp only [call] at h; split at h
    · rename_i mid ho
      cases hc : w.resp[mid]? with
      | none =>
        simp only [hc] at h; simp at h; obtain ⟨rfl, rfl⟩ := h; exact .pollReply_panic ho (.inl hc)
      | some x =>
        cases x with
        | none =>
          simp only [hc] at h; simp at h; obtain ⟨rfl, rfl⟩ := h; exact .pollReply_panic ho (.inr hc)
        | waiting wk' =>
          simp only [hc] at h; simp at h; obtain ⟨rfl, rfl⟩ := h; exact .pollReply_waiting ho hc
        | value r wk' =>
          simp only [hc] at h; simp at h; obtain ⟨rfl, rfl⟩ := h; exact .pollReply_value ho hc
        | interrupted wk' =>
          simp only [hc] at h; simp at h; obtain ⟨rfl, rfl⟩ := h; exact .pollReply_interrupted ho hc
    · simp at h
  | dropReply o =>
    simp only [call] at h; split at h
    · rename_i ho; simp at h; obtain ⟨rfl, rfl⟩ := h; exact .dropReply ho
    · simp at h
  | dropJoin o =>
    simp only [call] at h; split at h
    · rename_i ho; simp at h; obtain ⟨rfl, rfl⟩ := h; exact .dropJoin ho
    · simp at h
  | dropMailbox i =>
    simp only [call] at h; split at h
    · rename_i ho; simp at h; obtain ⟨rfl, rfl⟩ := h; exact .dropMailbox ho
    · simp at h
  | pollRecv r wk =>
    simp only [call] at h; split at h
    · rename_i ho; simp at h; obtain ⟨rfl, rfl⟩ := h; exact .pollRecv_new ho
    · rename_i ho; simp at h; obtain ⟨rfl, rfl⟩ := h; exact .pollRecv_waiting ho
    · simp at h
  | dropRecv r =>
    simp only [call] at h; split at h
    · rename_i ho; simp at h; obtain ⟨rfl, rfl⟩ := h; exact .dropRecv_new ho
    · rename_i ho; simp at h; obtain ⟨rfl, rfl⟩ := h; exact .dropRecv_waiting ho
    · simp at h
  | dropMessage o =>
    simp only [call] at h; split at h
    · rename_i ho; simp at h; obtain ⟨rfl, rfl⟩ := h; exact .dropMessage ho
    · simp at h
  | dispatch o =>
    simp only [call] at h; split at h
    · rename_i b am ho
      cases am with
      | shutdown => simp at h; obtain ⟨rfl, rfl⟩ := h; exact .dispatch_stop ho (.inl rfl)
      | all m =>
        simp only [] at h
        split at h
        · rename_i hp; simp at h; obtain ⟨rfl, rfl⟩ := h; exact .dispatch_stop ho (.inr ⟨m, rfl, hp⟩)
        · rename_i hp; simp at h; obtain ⟨rfl, rfl⟩ := h
          exact .dispatch_run ho (by simp) (by intro m' hm; cases hm; exact hp)
      | one m => simp at h; obtain ⟨rfl, rfl⟩ := h; exact .dispatch_run ho (by simp) (by simp)
    · simp at h
  | stopSelf o =>
    simp only [call] at h; split at h
    · rename_i ho; simp at h; obtain ⟨rfl, rfl⟩ := h; exact .stopSelf ho
    · simp at h
  | stopAll o =>
    simp only [call] at h; split at h
    · rename_i ho
      split at h
      · rename_i hs; simp at h; obtain ⟨rfl, rfl⟩ := h; exact .stopAll_no ho hs
      · rename_i hs; simp at h; obtain ⟨rfl, rfl⟩ := h; exact .stopAll_yes ho hs
    · simp at h
  | finish o r =>
    simp only [call] at h; split at h
    · rename_i ho; simp at h; obtain ⟨rfl, rfl⟩ := h; exact .finish ho
    · simp at h
  | dropDispatch o =>
    simp only [call] at h; split at h
    · rename_i ho; simp at h; obtain ⟨rfl, rfl⟩ := h; exact .dropDispatch ho
    · simp at h
  | join i =>
    simp only [call] at h; split at h
    · rename_i ho; simp at h; obtain ⟨rfl, rfl⟩ := h; exact .join ho
    · simp at h
  | joinStale i =>
    simp only [call] at h; split at h
    · split at h
      · simp at h
      · rename_i ho ht; simp at h ht; obtain ⟨rfl, rfl⟩ := h; exact .joinStale ho ht
    · simp at h
  | pollJoin j wk =>
    simp only [call] at h; split at h
    · rename_i ho; simp at h; obtain ⟨rfl, rfl⟩ := h; exact .pollJoin_none ho
    · rename_i l ho
      cases hc : w.lst[l]? with
      | none => simp only [hc] at h; simp at h; obtain ⟨rfl, rfl⟩ := h; exact .pollJoin_panic ho hc
      | some x =>
        cases x with
        | waiting wk' =>
          simp only [hc] at h; simp at h; obtain ⟨rfl, rfl⟩ := h; exact .pollJoin_waiting ho hc
        | notified wk' =>
          simp only [hc] at h; simp at h; obtain ⟨rfl, rfl⟩ := h; exact .pollJoin_notified ho hc
    · simp at h

/-- A scheduler step is a call or an executed pending step. -/
theorem step_rel {s s' : Sys} {a : Act} (h : s.step a = some s') :
    (∃ c w' ms, a = .call c ∧ CallR s.w c w' ms ∧ s' = ⟨w', s.th ++ [ms]⟩) ∨
    (∃ t m rest w' ms, a = .exec t ∧ s.th[t]? = some (m :: rest) ∧ ExecR s.w m w' ms ∧
      s' = ⟨w', s.th.set t (ms ++ rest)⟩) := by
  cases a with
  | call c =>
    simp only [Sys.step] at h
    split at h
    · rename_i w' ms hc
      simp at h; exact .inl ⟨c, w', ms, rfl, call_rel hc, h.symm⟩
    · simp at h
  | exec t =>
    simp only [Sys.step] at h
    split at h
    · rename_i m rest ht
      simp at h
      exact .inr ⟨t, m, rest, _, _, rfl, ht, exec_rel s.w m, h.symm⟩
    · simp at h

/-- Induction over reachable states with the flattened relation. -/
theorem Reachable.inv {cap : Option Nat} {P : Sys → Prop} (h0 : P (Xtra.init cap))
    (hcall : ∀ s c w' ms, Reachable cap s → P s → CallR s.w c w' ms → P ⟨w', s.th ++ [ms]⟩)
    (hexec : ∀ s t m rest w' ms, Reachable cap s → P s → s.th[t]? = some (m :: rest) →
      ExecR s.w m w' ms → P ⟨w', s.th.set t (ms ++ rest)⟩) :
    ∀ {s}, Reachable cap s → P s := by
  intro s h
  induction h with
  | init => exact h0
  | step hr hs ih =>
    rcases step_rel hs with ⟨c, w', ms, -, hc, rfl⟩ | ⟨t, m, rest, w', ms, -, ht, he, rfl⟩
    · exact hcall _ _ _ _ hr ih hc
    · exact hexec _ _ _ _ _ _ hr ih ht he

end Xtra
