import Verif.PropsCount
/-! # Sending: C05, C08, C10, C22, C37 -/

namespace Xtra

/-- `w1` differs from `w` only in the strong count and in receivers having been told to shut down. -/
structure RxOnly (w w1 : World) : Prop where
  eq : w1 = { w with sc := w1.sc, lag := w1.lag, wRx := w1.wRx, cells := w1.cells }
  cells : ∀ (c : Nat) (x : RxCell), w.cells[c]? = some x →
    w1.cells[c]? = some x ∨ ∃ wk, x = .empty wk ∧ w1.cells[c]? = some (.full .shutdown wk)
  len : w1.cells.length = w.cells.length

theorem RxOnly.refl (w : World) : RxOnly w w := ⟨rfl, fun _ _ h => .inl h, rfl⟩
theorem RxOnly.back {w w1 : World} (h : RxOnly w w1) {c : Nat} {m : Msg} {x : Option Nat}
    (hc : w1.cells[c]? = some (.full (.newMessage m) x)) : w.cells[c]? = some (.full (.newMessage m) x) := by
  have hl := (List.getElem?_eq_some_iff.mp hc).1
  rw [h.len] at hl
  rcases h.cells c _ (List.getElem?_eq_getElem hl) with h1 | ⟨z, -, h1⟩
  · rw [hc] at h1; rw [List.getElem?_eq_getElem hl]; exact h1.symm
  · rw [h1] at hc; simp at hc
theorem notifyCell_len (cells : List RxCell) (k : Nat) (x : Ctrl) : (notifyCell cells k x).length = cells.length := by
  unfold notifyCell; split <;> simp
theorem RxOnly.trans {a b c : World} (h1 : RxOnly a b) (h2 : RxOnly b c) : RxOnly a c := by
  refine ⟨?_, fun k x hx => ?_, by rw [h2.len, h1.len]⟩
  · have e1 := h1.eq; have e2 := h2.eq
    rw [e2, e1]
  · rcases h1.cells k x hx with h | ⟨wk, rfl, h⟩
    · exact h2.cells k x h
    · rcases h2.cells k _ h with h' | ⟨wk', h', _⟩
      · exact .inr ⟨wk, rfl, h'⟩
      · simp at h'

theorem RxOnly.uq {w w1 : World} (h : RxOnly w w1) : w1.uq = w.uq := by rw [h.eq]
theorem RxOnly.ws {w w1 : World} (h : RxOnly w w1) : w1.ws = w.ws := by rw [h.eq]
theorem RxOnly.objs {w w1 : World} (h : RxOnly w w1) : w1.objs = w.objs := by rw [h.eq]
theorem RxOnly.log {w w1 : World} (h : RxOnly w w1) : w1.log = w.log := by rw [h.eq]
theorem RxOnly.resp {w w1 : World} (h : RxOnly w w1) : w1.resp = w.resp := by rw [h.eq]
theorem RxOnly.bq {w w1 : World} (h : RxOnly w w1) : w1.bq = w.bq := by rw [h.eq]
theorem RxOnly.bqs {w w1 : World} (h : RxOnly w w1) : w1.bqs = w.bqs := by rw [h.eq]
theorem RxOnly.tail {w w1 : World} (h : RxOnly w w1) : w1.tail = w.tail := by rw [h.eq]
theorem RxOnly.wOne {w w1 : World} (h : RxOnly w w1) : w1.wOne = w.wOne := by rw [h.eq]
theorem RxOnly.wAll {w w1 : World} (h : RxOnly w w1) : w1.wAll = w.wAll := by rw [h.eq]
theorem RxOnly.cap {w w1 : World} (h : RxOnly w w1) : w1.cap = w.cap := by rw [h.eq]
theorem RxOnly.rcv {w w1 : World} (h : RxOnly w w1) : w1.rcv = w.rcv := by rw [h.eq]
theorem RxOnly.lst {w w1 : World} (h : RxOnly w w1) : w1.lst = w.lst := by rw [h.eq]

theorem notifyCell_keeps (cells : List RxCell) (k c : Nat) (x : RxCell) (h : cells[c]? = some x) :
    (notifyCell cells k .shutdown)[c]? = some x ∨
    ∃ wk, x = .empty wk ∧ (notifyCell cells k .shutdown)[c]? = some (.full .shutdown wk) := by
  unfold notifyCell
  split
  · rename_i wk hk
    by_cases hc : k = c
    · subst hc
      right; rw [h] at hk; simp at hk
      exact ⟨wk, hk, List.getElem?_set_self (List.getElem?_eq_some_iff.mp h).1⟩
    · left; rw [List.getElem?_set_ne hc]; exact h
  · exact .inl h

theorem runs_notify {cap : Option Nat} (q : List Nat) {w w' : World} {ms : List Micro}
    (h : Solo cap w (q.map .notifyShut ++ ms)) (hr : Runs w (q.map .notifyShut ++ ms) w') :
    ∃ w1, RxOnly w w1 ∧ w1.sc = w.sc ∧ w1.wRx = w.wRx ∧ Solo cap w1 ms ∧ Runs w1 ms w' := by
  induction q generalizing w with
  | nil => exact ⟨w, .refl w, rfl, rfl, h, hr⟩
  | cons c q ih =>
    obtain ⟨w1, ns, he, hs, hr1⟩ := h.exec hr
    cases he with
    | notifyShut =>
      obtain ⟨w2, a1, a2, a3, a4⟩ := ih hs hr1
      exact ⟨w2, RxOnly.trans ⟨rfl, fun k x hx => notifyCell_keeps _ _ _ _ hx, notifyCell_len _ _ _⟩ a1, a2, a3, a4⟩

/-- Dropping an address pointer, undisturbed. -/
theorem runs_dropTx {cap : Option Nat} {w w' : World} {rc : Rc} {ms : List Micro} (h : Solo cap w (.dropTx rc :: ms))
    (hr : Runs w (.dropTx rc :: ms) w') :
    ∃ w1, RxOnly w w1 ∧ w1.sc = w.sc - rc.cnt ∧ Solo cap w1 ms ∧ Runs w1 ms w' := by
  obtain ⟨w1, ns, he, hs, hr1⟩ := h.exec hr
  cases he with
  | dropTx_last h1 h2 =>
    obtain ⟨w2, ns2, he2, hs2, hr2⟩ := hs.exec hr1
    cases he2 with
    | shutRx =>
      obtain ⟨w3, a1, a2, a3, a4, a5⟩ := runs_notify _ hs2 hr2
      exact ⟨w3, RxOnly.trans (b := { w with sc := w.sc - 1, wRx := [], lag := .swept }) ⟨rfl, fun _ _ h => .inl h, rfl⟩ a1, by rw [a2, Rc.cnt_strong h1], a4, a5⟩
  | dropTx_more h1 h2 =>
    exact ⟨{ w with sc := w.sc - 1 }, ⟨rfl, fun _ _ h => .inl h, rfl⟩, by rw [Rc.cnt_strong h1], hs, hr1⟩
  | dropTx_weak h1 => exact ⟨_, .refl _, by rw [Rc.cnt_weak h1]; rfl, hs, hr1⟩

/-- A first poll of a send future, undisturbed, up to the critical section. -/
theorem runs_sendNew {cap : Option Nat} {w w' : World} {f : Nat} {md : Mode} {m : Msg} {rc : Rc} {wk : Nat}
    (h : Solo cap w [.sendLd1 f md m rc wk]) (hr : Runs w [.sendLd1 f md m rc wk] w') :
    ((w.rcv = 0 ∨ w.sc = 0) ∧ RxOnly (((w.kill m).setObj f .gone).ev (.sendErr f m.id)) w') ∨
    (w.rcv ≠ 0 ∧ w.sc ≠ 0 ∧ Solo cap w [.sendCrit f md m rc wk] ∧ Runs w [.sendCrit f md m rc wk] w') := by
  obtain ⟨w1, ns, he, hs, hr1⟩ := h.exec hr
  cases he with
  | sendLd1_err h0 =>
    obtain ⟨w2, a1, a2, a3, a4⟩ := runs_dropTx hs hr1
    have := runs_nil a4; subst this
    exact .inl ⟨.inl h0, a1⟩
  | sendLd1_ok h0 =>
    obtain ⟨w2, ns2, he2, hs2, hr2⟩ := hs.exec hr1
    cases he2 with
    | sendLd2_err h1 =>
      obtain ⟨w3, a1, a2, a3, a4⟩ := runs_dropTx hs2 hr2
      have := runs_nil a4; subst this
      exact .inl ⟨.inr h1, a1⟩
    | sendLd2_ok h1 => exact .inr ⟨h0, h1, hs2, hr2⟩

theorem not_noneEmpty {cells : List RxCell} {q : List Nat} :
    ¬ noneEmpty cells q ↔ ∃ c ∈ q, ∃ x, cells[c]? = some (.empty x) := by
  unfold noneEmpty
  constructor
  · intro h
    apply Classical.byContradiction
    intro hn
    exact h (fun c hc wk hw => hn ⟨c, hc, wk, hw⟩)
  · rintro ⟨c, hc, x, hx⟩ h; exact h c hc x hx

/-- Every live cell belongs to a waiting receive future when no call is in progress. -/
theorem Quiet.owner {cap : Option Nat} {w : World} (hq : Quiet cap w) {c : Nat} (hl : cellLive w.cells c = true) :
    ∃ r b : Nat, w.objs[r]? = some (.recv b (.waiting c)) := by
  have h1 := (hq.own c).2.1
  rw [show cellL w.cells c = 1 by simp [cellL, hl]] at h1
  obtain ⟨o, ho, hp⟩ := (sumBy_pos _).mp (by omega : 0 < sumBy (oCell c) w.objs)
  obtain ⟨r, hr⟩ := List.getElem?_of_mem ho
  cases o with
  | recv b s =>
    cases s with
    | new => simp [oCell, rCell] at hp
    | waiting c' =>
      have : c' = c := by
        by_cases hcc : c' = c
        · exact hcc
        · simp [oCell, rCell, is1, hcc] at hp
      subst this
      exact ⟨r, b, hr⟩
  | _ => simp [oCell] at hp

/-- An idle receiver in the sense of the specification is a registered empty cell, and conversely, when no call is in
progress. -/
theorem Quiet.idle_iff {cap : Option Nat} {w : World} (hq : Quiet cap w) :
    (∃ r b, w.idleReceiver r b) ↔ ¬ noneEmpty w.cells w.wRx := by
  constructor
  · rintro ⟨r, b, c, wk, h1, h2⟩ hn
    exact hn c (hq.waiting h1 h2).1 wk h2
  · intro hn
    obtain ⟨c, hc, wk, hw⟩ := not_noneEmpty.mp hn
    obtain ⟨r, b, hr⟩ := hq.owner (c := c) (by simp [cellLive, hw])
    exact ⟨r, b, c, wk, hr, hw⟩

theorem uniFull_iff (w : World) : w.uniFull = false ↔ w.hasRoom := by
  unfold World.uniFull World.hasRoom
  cases w.cap with
  | none => simp
  | some c => simp

theorem bcFull_iff (w : World) : w.bcFull = false ↔ w.hasBcRoom := by
  unfold World.bcFull World.hasBcRoom
  cases w.cap with
  | none => simp
  | some c => simp

/-- What a unicast send future is after its message was queued. -/
def admittedObj (md : Mode) (mid : Nat) : Obj :=
  match md with
  | .ret => .send .ret mid .done
  | _ => .reply mid

theorem held_unsent {cap : Option Nat} {s : Sys} (h : Reachable cap s) {f mid : Nat} {md : Mode} {m : Msg} {rc : Rc}
    (ho : s.w.objs[f]? = some (.send md mid (.new m rc))) :
    m.id = mid ∧ sumBy (eAll mid) s.w.log = 0 ∧ sumBy (mid1 mid) s.w.uq = 0 := by
  have k : okO s.w.log f (.send md mid (.new m rc)) := (kInv_reachable h).kw.objs _ _ ho
  have hm : m.id = mid := k.2.1
  have h1 := held_reachable h mid
  have h2 := created_le mid s.w
  have h3 := le_sumBy (oAll mid) ho
  simp [oAll, sNewW, mid1, hm] at h3
  simp only [World.held] at h1
  exact ⟨hm, by omega, by omega⟩

theorem notDestroyed_of {i : Nat} {log : List Ev} (h : sumBy (eAll i) log = 0) :
    ¬ Destroyed log i ∧ ∀ r, Ev.handled i r ∉ log := by
  rw [sumBy_eq_zero] at h
  refine ⟨?_, fun r hr => ?_⟩
  · rintro (hd | hd | hd) <;> (have := h _ hd; simp [eAll, n1] at this)
  · have := h _ hr; simp [eAll, n1] at this

theorem resp_unsent {cap : Option Nat} {s : Sys} (h : Reachable cap s) {f mid : Nat} {md : Mode} {m : Msg} {rc : Rc}
    (hmd : md ≠ .bcast) (ho : s.w.objs[f]? = some (.send md mid (.new m rc))) :
    ∃ x, s.w.resp[mid]? = some (.waiting x) := by
  have k : okO s.w.log f (.send md mid (.new m rc)) := (kInv_reachable h).kw.objs _ _ ho
  have h0 := (held_unsent h ho).2.1
  have hb : md.isB = false := by cases md <;> simp_all [Mode.isB]
  have k1 : Ev.made f mid false ∈ s.w.log := by have := k.1; rwa [hb] at this
  have hnd := notDestroyed_of h0
  rcases resp_cases h k1 with ⟨wk, h1, -, -⟩ | ⟨r, wk, h1, h2⟩ | ⟨wk, h1, h2⟩
  · exact ⟨wk, h1⟩
  · exact absurd h2 (hnd.2 r)
  · exact absurd h2 hnd.1

theorem runs_sendFin {cap : Option Nat} {w w' : World} {f mid wk : Nat} {md : Mode} (hmd : md ≠ .bcast)
    (h : Solo cap w [.sendFin f md mid wk]) (hr : Runs w [.sendFin f md mid wk] w')
    (hx : md = .ret → ∃ x, w.resp[mid]? = some (.waiting x)) :
    w'.objs = w.objs.set f (admittedObj md mid) ∧ w'.uq = w.uq ∧ w'.cells = w.cells ∧ w'.ws = w.ws ∧
      w'.bq = w.bq := by
  obtain ⟨w1, ns, he, hs, hr1⟩ := h.exec hr
  cases he with
  | sendFin_bcast => simp at hmd
  | sendFin_detached => have := runs_nil hr1; subst this; simp [admittedObj]
  | sendFin_waiting h1 => have := runs_nil hr1; subst this; simp [admittedObj]
  | sendFin_value h1 => obtain ⟨x, hx⟩ := hx rfl; simp [hx] at h1
  | sendFin_interrupted h1 => obtain ⟨x, hx⟩ := hx rfl; simp [hx] at h1
  | sendFin_panic h1 => obtain ⟨x, hx⟩ := hx rfl; simp [hx] at h1

/-- **C05.** First poll of a send on a connected address (no other call in progress). If an idle receiver
waits, the message is handed to a receiver that was idle and the queue is untouched; otherwise, if the
queue is below capacity (always, if unbounded), the message is queued; in both cases the queueing stage
is complete. Otherwise the sender is parked with its message and the queue is untouched. -/
theorem C05_backpressure {cap : Option Nat} {w w' : World} {f mid wk : Nat} {md : Mode} {m : Msg} {rc : Rc}
    (hq : Quiet cap w) (hmd : md ≠ .bcast) (ho : w.objs[f]? = some (.send md mid (.new m rc)))
    (hrcv : w.rcv ≠ 0) (hsc : w.sc ≠ 0) (hd : Does w (.pollSend f wk) w') :
    ((∃ r b, w.idleReceiver r b) → w'.objs[f]? = some (admittedObj md mid) ∧ w'.uq = w.uq ∧
      ∃ r b c x, w.idleReceiver r b ∧ w'.objs[r]? = some (.recv b (.waiting c)) ∧
        w'.cells[c]? = some (.full (.newMessage m) x)) ∧
    ((¬ ∃ r b, w.idleReceiver r b) → w.hasRoom → w'.objs[f]? = some (admittedObj md mid) ∧
      w'.uq.Perm (m :: w.uq)) ∧
    ((¬ ∃ r b, w.idleReceiver r b) → ¬ w.hasRoom → w'.parkedSend f md m ∧ w'.uq = w.uq ∧
      w'.log.head? = some (.sendPending f mid wk)) := by
  obtain ⟨th0, hre, hth⟩ := id hq
  obtain ⟨hid, -, -⟩ := held_unsent hre ho
  subst hid
  have hresp := resp_unsent hre hmd ho
  have hlf : f < w.objs.length := (List.getElem?_eq_some_iff.mp ho).1
  obtain ⟨w1, ms, hc, hm⟩ := hd
  have hc0 := hc
  simp only [Xtra.call, ho] at hc
  simp at hc; obtain ⟨rfl, rfl⟩ := hc
  rcases runs_sendNew (hq.call hc0) hm with ⟨h1, -⟩ | ⟨-, -, hs, hr⟩
  · rcases h1 with h1 | h1
    · exact absurd h1 hrcv
    · exact absurd h1 hsc
  rw [hq.idle_iff, ← uniFull_iff]
  obtain ⟨w2, ns, he, hs2, hr2⟩ := hs.exec hr
  have fin : ∀ {w2 : World}, w2.objs = w.objs.set f .busy → w2.resp = w.resp →
      Solo cap w2 ([.dropTx rc, .sendFin f md m.id wk] ++ []) → Runs w2 ([.dropTx rc, .sendFin f md m.id wk] ++ []) w' →
      ∃ w3, RxOnly w2 w3 ∧ w'.objs = w.objs.set f (admittedObj md m.id) ∧ w'.uq = w2.uq ∧ w'.cells = w3.cells := by
    intro w2 e1 e2 hs hr
    obtain ⟨w3, a1, a2, a3, a4⟩ := runs_dropTx hs hr
    obtain ⟨b1, b2, b3, b4, b5⟩ := runs_sendFin hmd a3 a4 (fun _ => by rw [a1.resp, e2]; exact hresp)
    refine ⟨w3, a1, ?_, by rw [b2, a1.uq], b3⟩
    rw [b1, a1.objs, e1]; simp
  cases he with
  | critAll_park => simp at hmd
  | critAll_sent => simp at hmd
  | critOne_hand hmd' h1 h2 h3 =>
    rename_i pre c rest wk'
    have hidle : ¬ noneEmpty w.cells w.wRx := by
      intro hn
      have h1' : w.wRx = pre ++ c :: rest := h1
      exact hn c (by rw [h1']; simp) wk' h3
    obtain ⟨w3, a1, a2, a3, a4⟩ := fin (by rfl) (by rfl) hs2 hr2
    refine ⟨fun _ => ⟨by rw [a2]; simp [hlf], a3, ?_⟩, fun h => absurd hidle h, fun h => absurd hidle h⟩
    have h3' : w.cells[c]? = some (.empty wk') := h3
    obtain ⟨r, b, hr⟩ := hq.owner (c := c) (by simp [cellLive, h3'])
    refine ⟨r, b, c, wk', ⟨c, wk', hr, h3⟩, ?_, ?_⟩
    · rw [a2]
      have : f ≠ r := by rintro rfl; rw [ho] at hr; simp at hr
      rw [List.getElem?_set_ne this]; exact hr
    · rw [a4]
      have hlen : c < w.cells.length := (List.getElem?_eq_some_iff.mp h3').1
      rcases a1.cells c (.full (.newMessage m) wk') (by simp [hlen]) with h | ⟨x, h, _⟩
      · exact h
      · simp at h
  | critOne_queue _ h1 h2 =>
    have h1' : noneEmpty w.cells w.wRx := h1
    have h2' : w.uniFull = false := h2
    obtain ⟨w3, a1, a2, a3, a4⟩ := fin (by rfl) (by rfl) hs2 hr2
    refine ⟨fun h => absurd h1' h, fun _ _ => ⟨by rw [a2]; simp [hlf], ?_⟩, fun _ h => absurd h2' h⟩
    rw [a3]; exact Heap.push_perm Msg.le _ _
  | critOne_park _ h1 h2 =>
    have h1' : noneEmpty w.cells w.wRx := h1
    have h2' : w.uniFull = true := h2
    refine ⟨fun h => absurd h1' h, fun _ h => by simp [h2'] at h, fun _ _ => ?_⟩
    obtain ⟨w3, a1, a2, a3, a4⟩ := runs_dropTx hs2 hr2
    obtain ⟨w4, ns4, he4, hs4, hr4⟩ := a3.exec a4
    have hws : w3.ws[w.ws.length]? = some (.active none m) := by
      rw [a1.ws]; simp
    cases he4 with
    | pollWs_active h5 =>
      have := runs_nil hr4; subst this
      have hws' : w3.ws[w.ws.length]? = _ := h5
      rw [hws] at hws'; simp at hws'
      obtain ⟨rfl, rfl⟩ := hws'
      have hlen : w.ws.length < w3.ws.length := (List.getElem?_eq_some_iff.mp hws).1
      refine ⟨⟨w.ws.length, some wk, ?_, ?_⟩, ?_, ?_⟩
      · simp [a1.objs, hlf]
      · simp [hlen]
      · simp [a1.uq]
      · simp
    | pollWs_delivered h5 => have h5' : w3.ws[w.ws.length]? = _ := h5; rw [hws] at h5'; simp at h5'
    | pollWs_closed h5 => have h5' : w3.ws[w.ws.length]? = _ := h5; rw [hws] at h5'; simp at h5'
    | pollWs_panic h5 =>
      have h5' : wsActive w3.ws w.ws.length = false := h5
      simp [wsActive, hws] at h5'

/-- **C05**, unbounded mailboxes: queueing never waits. -/
theorem C05_unbounded {w w' : World} {f mid wk : Nat} {md : Mode} {m : Msg} {rc : Rc}
    (hq : Quiet none w) (hmd : md ≠ .bcast) (ho : w.objs[f]? = some (.send md mid (.new m rc)))
    (hrcv : w.rcv ≠ 0) (hsc : w.sc ≠ 0) (hd : Does w (.pollSend f wk) w') :
    w'.objs[f]? = some (admittedObj md mid) := by
  have h := C05_backpressure hq hmd ho hrcv hsc hd
  by_cases hi : ∃ r b, w.idleReceiver r b
  · exact (h.1 hi).1
  · refine (h.2.1 hi ?_).1
    obtain ⟨th, hr, -⟩ := hq
    intro c hc
    have := cap_reachable hr
    simp only at this
    rw [this] at hc; simp at hc

/-- Both outcomes occur: capacity 1, the first send is queued, the second is parked. -/
def exParkSched : List Act :=
  [.call (.send 0), .call (.send 0), .call (.pollSend 2 0), .exec 2, .exec 2, .exec 2, .exec 2, .exec 2]

/-- Meets the hypotheses of `C05_backpressure`. -/
example : ∃ w w', Quiet (some 1) w ∧ w.objs[3]? = some (.send .ret 1 (.new ⟨1, .valued 0⟩ .strong)) ∧ w.rcv ≠ 0 ∧
    w.sc ≠ 0 ∧ w.uq.length = 1 ∧ Does w (.pollSend 3 7) w' ∧ w'.parkedSend 3 .ret ⟨1, .valued 0⟩ := by
  refine ⟨_, _, ⟨_, Reachable.run .init (as := exParkSched) rfl, by decide⟩, rfl, by decide, by decide, rfl,
    ⟨_, _, rfl, .cons (.cons (.cons (.cons (.cons .nil))))⟩, ⟨0, some 7, rfl, rfl⟩⟩

/-- **C05** in the presence of concurrent calls: the atomic step of a send that decides. It completes the
queueing exactly if a registered receiver can take the message or the queue is below capacity. -/
theorem C05_backpressure_concurrent {s s' : Sys} {t f wk : Nat} {md : Mode} {m : Msg} {rc : Rc}
    {rest : List Micro} (hmd : md ≠ .bcast)
    (ht : s.th[t]? = some (.sendCrit f md m rc wk :: rest)) (hs : s.step (.exec t) = some s') :
    ((∃ c ∈ s.w.wRx, ∃ x, s.w.cells[c]? = some (.empty x)) → s'.w.uq = s.w.uq ∧
      s'.th[t]? = some (.dropTx rc :: .sendFin f md m.id wk :: rest) ∧
      ∃ c ∈ s.w.wRx, ∃ x, s.w.cells[c]? = some (.empty x) ∧ s'.w.cells[c]? = some (.full (.newMessage m) x)) ∧
    ((¬ ∃ c ∈ s.w.wRx, ∃ x, s.w.cells[c]? = some (.empty x)) → s.w.hasRoom → s'.w.uq.Perm (m :: s.w.uq) ∧
      s'.th[t]? = some (.dropTx rc :: .sendFin f md m.id wk :: rest)) ∧
    ((¬ ∃ c ∈ s.w.wRx, ∃ x, s.w.cells[c]? = some (.empty x)) → ¬ s.w.hasRoom → s'.w.uq = s.w.uq ∧
      ∃ h, s'.w.ws[h]? = some (.active none m) ∧ h ∈ s'.w.wOne ∧
        s'.th[t]? = some (.dropTx rc :: .pollWs f md m.id h wk :: rest)) := by
  have hlt : t < s.th.length := (List.getElem?_eq_some_iff.mp ht).1
  have hne : (∃ c ∈ s.w.wRx, ∃ x, s.w.cells[c]? = some (.empty x)) ↔ ¬ noneEmpty s.w.cells s.w.wRx := not_noneEmpty.symm
  rw [hne, ← uniFull_iff]
  have he := exec_rel s.w (.sendCrit f md m rc wk)
  simp only [Sys.step, ht] at hs
  simp at hs; subst hs
  generalize (exec s.w (.sendCrit f md m rc wk)).1 = w' at *
  generalize (exec s.w (.sendCrit f md m rc wk)).2 = ms at *
  cases he with
  | critAll_park => simp at hmd
  | critAll_sent => simp at hmd
  | critOne_hand hmd' h1 h2 h3 =>
    rename_i pre c rs wk'
    have hidle : ¬ noneEmpty s.w.cells s.w.wRx := fun hn => hn c (by rw [h1]; simp) wk' h3
    have hlen : c < s.w.cells.length := (List.getElem?_eq_some_iff.mp h3).1
    refine ⟨fun _ => ⟨rfl, by simp [hlt], c, by rw [h1]; simp, wk', h3, by simp [hlen]⟩, fun h => absurd hidle h,
      fun h => absurd hidle h⟩
  | critOne_queue _ h1 h2 =>
    exact ⟨fun h => absurd h1 h, fun _ _ => ⟨Heap.push_perm Msg.le _ _, by simp [hlt]⟩, fun _ h => absurd h2 h⟩
  | critOne_park _ h1 h2 =>
    refine ⟨fun h => absurd h1 h, fun _ h => by simp [h2] at h, fun _ _ => ⟨rfl, s.w.ws.length, by simp, by simp, by simp [hlt]⟩⟩

/-- The critical section of the second send, about to run with a full queue, and of the first, with an empty one. Meets the
hypotheses of `C05_backpressure_concurrent`. -/
example : ∃ s1 s1' s2 s2', Reachable (some 1) s1 ∧
    s1.th[2]? = some [.sendCrit 2 .ret ⟨0, .valued 0⟩ .strong 0] ∧ s1.step (.exec 2) = some s1' ∧ s1'.w.uq = [⟨0, .valued 0⟩] ∧
    Reachable (some 1) s2 ∧ s2.th[3]? = some [.sendCrit 3 .ret ⟨1, .valued 0⟩ .strong 7] ∧ s2.step (.exec 3) = some s2' ∧
    s2'.w.uq = [⟨0, .valued 0⟩] ∧ s2'.w.ws[0]? = some (.active none ⟨1, .valued 0⟩) :=
  ⟨_, _, _, _, Reachable.run .init (as := exParkSched.take 5) rfl, rfl, rfl, rfl,
    Reachable.run .init (as := exParkSched ++ [.call (.pollSend 3 7), .exec 3, .exec 3]) rfl, rfl, rfl, rfl, rfl⟩

end Xtra
