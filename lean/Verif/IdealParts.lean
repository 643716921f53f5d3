import Verif.IdealSim
import Verif.PropsIdle
/-! Lemmas for the simulation: broadcasts, removing messages, closing. -/

set_option linter.unusedSimpArgs false

namespace Xtra.Ideal
open Xtra

/-! ### Tickets -/

theorem tickets_congr {ws : List WsCell} {q q' : List Nat}
    (h : ∀ (k : Nat) (wk : Option Nat) (m : Msg), ws[k]? = some (.active wk m) → (k ∈ q' ↔ k ∈ q)) :
    tickets ws q' = tickets ws q := by
  apply tab_congr
  intro i x hx
  cases x with
  | active wk m => simp only [ofWs]; congr 1; simp [h i wk m hx]
  | _ => rfl

theorem tickets_free (ws : List WsCell) (q : List Nat) : tickets ws q ws.length = .free := tab_none (by simp)
theorem seats_free (cells : List RxCell) : seats cells cells.length = .free := tab_none (by simp)

theorem regOk_lt {ws : List WsCell} {q : List Nat} (h : regOk ws q) {k : Nat} (hk : k ∈ q) : k < ws.length := by
  rcases h k hk with ⟨wk, m, hc⟩ | hc <;> exact (List.getElem?_eq_some_iff.mp hc).1

theorem tickets_parkAll (ws : List WsCell) (q : List Nat) (m : Msg) :
    tickets (ws ++ [.active none m]) (q ++ [ws.length]) = put (tickets ws q) ws.length (.parked true m) := by
  have h1 : tickets (ws ++ [.active none m]) (q ++ [ws.length]) =
      put (tickets ws (q ++ [ws.length])) ws.length (ofWs (q ++ [ws.length]) ws.length (.active none m)) := tab_append
  rw [h1, show ofWs (q ++ [ws.length]) ws.length (.active none m) = .parked true m by simp [ofWs]]
  rw [tickets_congr (q := q)]
  intro k wk m' hk
  have := (List.getElem?_eq_some_iff.mp hk).1
  simp; omega

theorem tickets_parkOne {ws : List WsCell} {q : List Nat} (h : ws.length ∉ q) (m : Msg) :
    tickets (ws ++ [.active none m]) q = put (tickets ws q) ws.length (.parked false m) := by
  have h1 : tickets (ws ++ [.active none m]) q = put (tickets ws q) ws.length (ofWs q ws.length (.active none m)) := tab_append
  rw [h1, show ofWs q ws.length (.active none m) = .parked false m by simp [ofWs, h]]

/-- Which parked messages are unicast and which are broadcasts. -/
theorem parked_iff {ws : List WsCell} {one all : List Nat} (r : RegWs ws one all) {h : Nat} {a : Bool} {m : Msg} :
    tickets ws all h = .parked a m ↔ ∃ wk, ws[h]? = some (.active wk m) ∧ (if a then h ∈ all else h ∈ one) := by
  unfold tickets tab
  cases hc : ws[h]? with
  | none => simp
  | some x =>
    cases x with
    | active wk m' =>
      have hreg := r.reg hc
      have hd : h ∈ one → h ∉ all := fun h1 h2 => by
        have := r.nodup; rw [List.nodup_append] at this; exact this.2.2 h h1 h h2 rfl
      simp only [ofWs]
      constructor
      · intro he
        injection he with h1 h2
        subst h2
        refine ⟨wk, rfl, ?_⟩
        cases a
        · simp at h1 ⊢; rcases hreg with h | h
          · exact h
          · exact absurd h h1
        · simp at h1 ⊢; exact h1
      · rintro ⟨wk', he, hm⟩
        simp at he; obtain ⟨-, rfl⟩ := he
        congr 1
        cases a
        · simp at hm ⊢; exact hd hm
        · simpa using hm
    | _ => simp [ofWs]

/-! ### Broadcasts -/

section
variable {w : World} {m : Msg}

theorem sendB_alive (o : BqsOk w) (b : Nat) : (w.sendBroadcast m).alive b = w.alive b :=
  alive_congr (sendBroadcast_refs w m o.nodup b)

theorem sendB_live (o : BqsOk w) : (w.sendBroadcast m).bqs.filter (w.sendBroadcast m).alive = w.bqs.filter w.alive := by
  rw [sendBroadcast_bqs, List.filter_filter]
  apply List.filter_congr
  intro b _
  rw [sendB_alive o]; simp

theorem sendB_in (o : BqsOk w) : ∀ b ∈ w.bqs.filter w.alive, ((w.sendBroadcast m).items b).Perm (m :: w.items b) := by
  intro b hb
  rw [sendBroadcast_items w m o.nodup, if_pos (List.mem_filter.mp hb)]
  exact Heap.push_perm _ _ _

theorem sendB_out (o : BqsOk w) : ∀ b, b ∉ w.bqs.filter w.alive → (w.sendBroadcast m).items b = w.items b := by
  intro b hb
  rw [sendBroadcast_items w m o.nodup, if_neg (fun h => hb (List.mem_filter.mpr h))]

theorem seats_notify (cells : List RxCell) (c : Nat) (k : Ctrl) :
    seats (notifyCell cells c k) = if isEmpty cells c then put (seats cells) c (.told k) else seats cells := by
  unfold notifyCell
  cases hc : cells[c]? with
  | none => simp [isEmpty, hc]
  | some x => cases x <;> simp [isEmpty, hc, seats_set hc, ofRx]

theorem isEmpty_notify (cells : List RxCell) (c d : Nat) (k : Ctrl) :
    isEmpty (notifyCell cells c k) d = (isEmpty cells d && decide (d ≠ c)) := by
  unfold notifyCell
  cases hc : cells[c]? with
  | none => by_cases hd : d = c <;> simp [isEmpty, hd, hc]
  | some x =>
    have hl := (List.getElem?_eq_some_iff.mp hc).1
    cases x with
    | empty wk =>
      simp only []
      by_cases hd : d = c
      · subst hd; simp [isEmpty, List.getElem?_set_self hl]
      · rw [isEmpty_set_ne _ hd]; simp [hd]
    | _ => by_cases hd : d = c <;> simp [isEmpty, hd, hc]

theorem seats_notifyAll (k : Ctrl) (q : List Nat) (cells : List RxCell) :
    seats (q.foldl (fun cs c => notifyCell cs c k) cells) =
      fun c => if c ∈ q.filter (isEmpty cells) then .told k else seats cells c := by
  induction q generalizing cells with
  | nil => simp
  | cons a q ih =>
    simp only [List.foldl_cons]
    rw [ih, seats_notify]
    funext c
    simp only [List.mem_filter, isEmpty_notify, List.mem_cons]
    by_cases he : isEmpty cells a = true
    · by_cases hc : c = a
      · subst hc; simp [he, put]
      · simp [he, hc, put]
    · by_cases hc : c = a
      · subst hc; simp [he]
      · simp [he, hc]

theorem sendB_seats : seats (w.sendBroadcast m).cells =
    fun c => if c ∈ w.wRx.filter (isEmpty w.cells) then .told .newBroadcast else seats w.cells c :=
  seats_notifyAll .newBroadcast w.wRx w.cells

/-- A broadcast as the ideal mailbox sees it. -/
theorem deliver_is {s : State} (o : BqsOk w) (h1 : s.live = w.bqs.filter w.alive) (h2 : s.box = w.items)
    (h3 : s.idle = w.wRx.filter (isEmpty w.cells)) (h4 : s.seat = seats w.cells) (h5 : s.level = w.tail) :
    Deliver s m { s with
      box := (w.sendBroadcast m).items, idle := [], seat := seats (w.sendBroadcast m).cells
      live := (w.sendBroadcast m).bqs.filter (w.sendBroadcast m).alive, level := (w.sendBroadcast m).tail
      hist := .bsent m (w.bqs.filter w.alive) :: s.hist } := by
  have := Deliver.mk (s := s) (m := m) (bx := (w.sendBroadcast m).items)
    (by rw [h1, h2]; exact sendB_in o) (by rw [h1, h2]; exact sendB_out o)
  rw [sendB_live o, sendB_seats]
  rw [h1, h3, h4, h5] at this
  exact cast (by congr 1) this
end

/-! ### Removing messages -/

theorem pop_best {l q : List Msg} {m : Msg} (ho : Heap.Ordered Msg.le l) (hp : Heap.pop Msg.le l = some (m, q)) :
    l.Perm (m :: q) ∧ Best m q := by
  have h1 := Heap.pop_perm hp
  refine ⟨h1, fun x hx => ?_⟩
  exact (Heap.pop_max Msg.total ho hp).2 x (h1.mem_iff.mpr (by simp [hx]))

theorem tickets_take {ws : List WsCell} {one all all' : List Nat} {h : Nat} {wk : Option Nat} {m : Msg} (r : RegWs ws one all)
    (t : Takes ws all h wk m all') : tickets (ws.set h (.delivered wk)) all' = put (tickets ws all) h .accepted := by
  refine Eq.trans ?_ (tickets_set t.cell (.delivered wk))
  apply tickets_congr
  intro k wk' m' hk
  have hne : k ≠ h := by
    rintro rfl
    rw [List.getElem?_set_self (List.getElem?_eq_some_iff.mp t.cell).1] at hk; simp at hk
  rw [List.getElem?_set_ne (Ne.symm hne)] at hk
  have hn : all.Nodup := (List.nodup_append.mp r.nodup).2.1
  exact ⟨fun hm => t.sublist.subset hm, fun hm => t.mem_rest hm (by simp [wsActive, hk]) hne⟩

section
variable {cap : Option Nat} {w w' : World} {th : List (List Micro)} {g : Ghost} {m : Msg}

/-- Taking a unicast message out. -/
theorem refillOne_abs (hr : Reachable cap ⟨w, th⟩) (hp : w.popUnicast = some (m, w')) :
    ∃ q, w.uq.Perm (m :: q) ∧ Best m q ∧ RefillOne { abs w th g with store := q } (abs w' th g) := by
  have r : RegWs w.ws w.wOne w.wAll := regWs_reachable hr
  obtain ⟨q, hq, hc⟩ := popUnicast_cases r.one hp
  obtain ⟨h1, h2⟩ := pop_best (uInv_reachable hr).heap hq
  refine ⟨q, h1, h2, ?_⟩
  have hroom := roomOne_iff { w with uq := q } th g
  have hroom : State.roomOne { abs w th g with store := q } ↔ ({ w with uq := q } : World).uniFull = false := hroom
  rcases hc with ⟨hf, rfl⟩ | ⟨hf, hg, rfl⟩ | ⟨hf, h, wk, m', q', t, rfl⟩
  · exact .full (fun h => by rw [hroom.mp h] at hf; simp at hf)
  · refine .none ?_
    intro h m' hh
    obtain ⟨wk, hcl, hin⟩ := (parked_iff r).mp (show tickets w.ws w.wAll h = .parked false m' from hh)
    rw [hg h (by simpa using hin)] at hcl; simp at hcl
  · have hna : h ∉ w.wAll := fun h2 => by
      have := r.nodup; rw [List.nodup_append] at this; exact this.2.2 h t.mem h h2 rfl
    have := RefillOne.move (s := { abs w th g with store := q }) (h := h) (m := m') (hroom.mpr hf)
      ((parked_iff r).mpr ⟨wk, t.cell, by simpa using t.mem⟩)
      (fun h' m'' hh => by
        obtain ⟨wk', hcl, hin⟩ := (parked_iff r).mp (show tickets w.ws w.wAll h' = .parked false m'' from hh)
        exact t.max h' (by simpa using hin) wk' m'' hcl)
      (Heap.push_perm Msg.le q m')
    refine cast ?_ this
    congr 1
    exact abs_is (ticket := (tickets_set t.cell (.delivered wk)).symm)

theorem afterPop_alive (w : World) (b : Nat) (q : List Msg) : (w.afterPop b q).alive = w.alive := by
  funext k; exact alive_congr (afterPop_refs w b q k)

theorem afterPop_box {w : World} {b : Nat} (h : w.items b ≠ []) (q : List Msg) :
    (w.afterPop b q).items = put w.items b q := by
  funext k; rw [afterPop_items h]; rfl

theorem afterPop_sc (w : World) (b : Nat) (q : List Msg) : (w.afterPop b q).sc = w.sc := by
  unfold World.afterPop; split <;> rfl
theorem afterPop_lag (w : World) (b : Nat) (q : List Msg) : (w.afterPop b q).lag = w.lag := by
  unfold World.afterPop; split <;> rfl
theorem afterPop_rcv (w : World) (b : Nat) (q : List Msg) : (w.afterPop b q).rcv = w.rcv := by
  unfold World.afterPop; split <;> rfl

theorem longest_is (w : World) (live : List Nat) (h : live = w.bqs.filter w.alive) : Longest live w.items w.longest := by
  subst h
  refine ⟨fun b hb => ?_, ?_⟩
  · have := List.mem_filter.mp hb; exact longest_ge w this.1 this.2
  · rcases foldl_max_mem w w.bqs 0 with h | ⟨b, hb, ha, h⟩
    · exact .inl h
    · exact .inr ⟨b, List.mem_filter.mpr ⟨hb, ha⟩, h.symm⟩

/-- The ideal mailbox after a broadcast was taken out of `b` and before another one moves up. -/
theorem abs_afterPop {b : Nat} {q : List Msg} (h : w.items b ≠ []) :
    { abs w th g with box := put w.items b q, level := (w.afterPop b q).longest } = abs (w.afterPop b q) th g :=
  abs_is (strong := (afterPop_sc ..).symm) (dismissed := by rw [afterPop_lag]; rfl) (boxes := (afterPop_rcv ..).symm) (box := (afterPop_box h q).symm)
    (live := by rw [afterPop_bqs, afterPop_alive]; rfl) (level := (afterPop_tail h q).symm)
    (draft := by rw [afterPop_objs]; rfl) (limbo := by rw [afterPop_objs]; rfl) (held := by rw [afterPop_objs]; rfl)

/-- Taking a broadcast out. -/
theorem takeAll_abs (hr : Reachable cap ⟨w, th⟩) {b : Nat} (hp : w.popBroadcast b = some (m, w')) :
    TakeAll (abs w th g) b m (abs w' th g) := by
  have r : RegWs w.ws w.wOne w.wAll := regWs_reachable hr
  obtain ⟨q, hq, hc⟩ := popBroadcast_cases r.all hp
  have hne := pop_ne hq
  obtain ⟨h1, h2⟩ := pop_best ((bInv_reachable hr).heap b) hq
  have hl : Longest (abs w th g).live (put (abs w th g).box b q) (w.afterPop b q).longest := by
    have := longest_is (w.afterPop b q) (w.bqs.filter w.alive) (by rw [afterPop_bqs, afterPop_alive])
    rw [afterPop_box hne] at this
    exact this
  refine .mk h1 h2 hl ?_
  have ha := abs_afterPop (w := w) (th := th) (g := g) (q := q) hne
  have hroom := roomAll_iff (w.afterPop b q) th g
  rw [show { abs w th g with box := put (abs w th g).box b q, level := (w.afterPop b q).longest } = abs (w.afterPop b q) th g from ha]
  have ht : (abs (w.afterPop b q) th g).ticket = tickets w.ws w.wAll := by simp [abs]
  rcases hc with ⟨hf, rfl⟩ | ⟨hf, hg, rfl⟩ | ⟨hf, h, wk, m', q', t, rfl⟩
  · exact .full (fun h => by rw [hroom.mp h] at hf; simp at hf)
  · have hcl : ∀ h m', tickets w.ws w.wAll h ≠ .parked true m' := by
      intro h m' hh
      obtain ⟨wk, hcl, hin⟩ := (parked_iff r).mp hh
      rw [hg h (by simpa using hin)] at hcl; simp at hcl
    have := RefillAll.none (s := abs (w.afterPop b q) th g) (by rw [ht]; exact hcl)
    refine cast ?_ this
    congr 1
    refine abs_is (ticket := ?_) (live := by rfl) (box := by rfl)
    simp only [abs, afterPop_ws, afterPop_wAll]
    refine (tickets_congr ?_).symm
    intro k wk m hk
    constructor
    · simp
    · intro hk'; rw [hg k hk'] at hk; simp at hk
  · have ob : BqsOk w := bqsOk_reachable hr
    let w2 : World := { w.afterPop b q with ws := w.ws.set h (.delivered wk), wAll := q' }
    have o2 : BqsOk w2 := ob.congr (by simp [w2]) (by simp [w2, afterPop_bqlen])
    have hd := deliver_is (m := m') (w := w2) (s := { abs (w.afterPop b q) th g with ticket := put (abs (w.afterPop b q) th g).ticket h .accepted })
      o2 rfl rfl rfl rfl rfl
    have := RefillAll.move (s := abs (w.afterPop b q) th g) (h := h) (m := m') (hroom.mpr hf)
      (by rw [ht]; exact (parked_iff r).mpr ⟨wk, t.cell, by simpa using t.mem⟩)
      (fun h' m'' hh => by
        rw [ht] at hh
        obtain ⟨wk', hcl, hin⟩ := (parked_iff r).mp hh
        exact t.max h' (by simpa using hin) wk' m'' hcl) hd
    refine cast ?_ this
    congr 1
    refine abs_is (ticket := ?_) (live := by rfl) (box := by rfl) (idle := by rfl) (seat := by rfl) (level := by rfl)
      (hist := by rfl) (store := by rfl) (draft := by rfl) (limbo := by rfl) (held := by rfl)
    simp only [abs, afterPop_ws, afterPop_wAll]
    exact (tickets_take r t).symm
end

/-! ### Closing -/

/-- Between two states exactly the messages `ds` were destroyed. -/
def Killed (w w' : World) (ds : List Nat) : Prop :=
  w'.log = ds.map .dropped ++ w.log ∧
  ∀ i, answers w'.resp i = if i ∈ ds then (answers w.resp i).interrupt else answers w.resp i

theorem interrupt_twice (a : Answer) : a.interrupt.interrupt = a.interrupt := by cases a <;> rfl

theorem Killed.trans {w w' w'' : World} {ds ds' : List Nat} (h : Killed w w' ds) (h' : Killed w' w'' ds') :
    Killed w w'' (ds' ++ ds) := by
  refine ⟨by rw [h'.1, h.1]; simp, fun i => ?_⟩
  rw [h'.2, h.2]
  by_cases h1 : i ∈ ds <;> by_cases h2 : i ∈ ds' <;> simp [h1, h2, interrupt_twice]

theorem killed_kill (w : World) (m : Msg) : Killed w (w.kill m) [m.id] := by
  refine ⟨rfl, fun i => ?_⟩
  simp only [World.kill, answers_interrupt]
  by_cases h : i = m.id
  · subst h; simp [put]
  · simp [put, h]

theorem killed_all (l : List Msg) (w : World) : ∃ ds, Killed w (w.killAll l) ds ∧ ∀ i, i ∈ ds ↔ ∃ m ∈ l, m.id = i := by
  induction l generalizing w with
  | nil => exact ⟨[], ⟨rfl, by simp [World.killAll]⟩, by simp⟩
  | cons m l ih =>
    obtain ⟨ds, h1, h2⟩ := ih (w.kill m)
    refine ⟨ds ++ [m.id], (killed_kill w m).trans h1, fun i => ?_⟩
    simp only [List.mem_append, h2, List.mem_singleton, List.mem_cons]
    grind

theorem killed_close (hs : List Nat) (w : World) : ∃ ds, Killed w (w.closeHandles hs) ds ∧
    ∀ i, i ∈ ds ↔ ∃ h ∈ hs, ∃ wk m, w.ws[h]? = some (.active wk m) ∧ m.id = i := by
  induction hs generalizing w with
  | nil => exact ⟨[], ⟨rfl, by simp [World.closeHandles]⟩, by simp⟩
  | cons h hs ih =>
    obtain ⟨ds, h1, h2⟩ := ih (w.closeHandle h)
    have key : ∃ d, Killed w (w.closeHandle h) d ∧ ∀ i, i ∈ d ↔ ∃ wk m, w.ws[h]? = some (.active wk m) ∧ m.id = i := by
      unfold World.closeHandle
      split
      · rename_i wk m hc
        refine ⟨[m.id], killed_kill { w with ws := w.ws.set h (.closed wk) } m, fun i => ?_⟩
        rw [hc]; simp
        constructor
        · rintro rfl; exact ⟨wk, m, ⟨rfl, rfl⟩, rfl⟩
        · rintro ⟨_, _, ⟨rfl, rfl⟩, rfl⟩; rfl
      · rename_i hc
        refine ⟨[], ⟨rfl, by simp⟩, fun i => ?_⟩
        simp; intro wk m he; exact absurd he (hc wk m)
    obtain ⟨d, h3, h4⟩ := key
    refine ⟨ds ++ d, h3.trans h1, fun i => ?_⟩
    simp only [List.mem_append, h2, h4, List.mem_cons]
    constructor
    · rintro (⟨k, hk, wk, m, hc, rfl⟩ | ⟨wk, m, hc, rfl⟩)
      · rw [closeHandle_ws] at hc
        split at hc
        · rename_i he; subst he
          cases hx : w.ws[k]? with
          | none => rw [hx] at hc; simp at hc
          | some x => rw [hx] at hc; cases x <;> simp [WsCell.close] at hc
        · exact ⟨k, .inr hk, wk, m, hc, rfl⟩
      · exact ⟨h, .inl rfl, wk, m, hc, rfl⟩
    · rintro ⟨k, hk, wk, m, hc, rfl⟩
      by_cases he : k = h
      · subst he; exact .inr ⟨wk, m, hc, rfl⟩
      · rcases hk with hk | hk
        · exact absurd hk he
        · refine .inl ⟨k, hk, wk, m, ?_, rfl⟩
          rw [closeHandle_ws, if_neg he]; exact hc

theorem killed_shut {w : World} (r : RegWs w.ws w.wOne w.wAll) : ∃ ds, Killed w w.shutTx ds ∧
    ∀ i, i ∈ ds ↔ (∃ m ∈ w.uq, m.id = i) ∨ ∃ h a m, tickets w.ws w.wAll h = .parked a m ∧ m.id = i := by
  obtain ⟨d1, a1, b1⟩ := killed_all w.uq { w with lst := w.lst.map LCell.notify, rang := true, uq := [], bqs := [] }
  let w2 := ({ w with lst := w.lst.map LCell.notify, rang := true, uq := [], bqs := [] } : World).killAll w.uq
  obtain ⟨d2, a2, b2⟩ := killed_close w2.wOne { w2 with wOne := [] }
  let w3 := ({ w2 with wOne := [] } : World).closeHandles w2.wOne
  obtain ⟨d3, a3, b3⟩ := killed_close w3.wAll { w3 with wAll := [] }
  have e1 : w2.ws = w.ws := by simp [w2]
  have e2 : w2.wOne = w.wOne := by simp [w2]
  have e3 : w3.wAll = w.wAll := by simp [w3, w2]
  refine ⟨d3 ++ (d2 ++ d1), (Killed.trans (w' := w2) a1 a2).trans (w' := w3) a3, fun i => ?_⟩
  simp only [List.mem_append, b1, b2, b3]
  have hw3 : ∀ k, w3.ws[k]? = if k ∈ w.wOne then (w.ws[k]?).map WsCell.close else w.ws[k]? := by
    intro k
    have := closeHandles_ws w2.wOne { w2 with wOne := [] } k
    have : w3.ws[k]? = if k ∈ w2.wOne then (w2.ws[k]?).map WsCell.close else w2.ws[k]? := this
    rw [this, e1, e2]
  have hd : ∀ k, k ∈ w.wOne → k ∉ w.wAll := fun k h1 h2 => by
    have := r.nodup; rw [List.nodup_append] at this; exact this.2.2 k h1 k h2 rfl
  constructor
  · rintro (⟨k, hk, wk, m, hc, rfl⟩ | ⟨k, hk, wk, m, hc, rfl⟩ | h)
    · right
      rw [e3] at hk
      refine ⟨k, true, m, (parked_iff r).mpr ⟨wk, ?_, by simpa using hk⟩, rfl⟩
      have hc : w3.ws[k]? = some (.active wk m) := hc
      rw [hw3, if_neg (fun h => hd k h hk)] at hc; exact hc
    · right
      rw [e2] at hk
      have hc : w2.ws[k]? = some (.active wk m) := hc
      rw [e1] at hc
      exact ⟨k, false, m, (parked_iff r).mpr ⟨wk, hc, by simpa using hk⟩, rfl⟩
    · exact .inl h
  · rintro (h | ⟨k, a, m, hp, rfl⟩)
    · exact .inr (.inr h)
    · obtain ⟨wk, hc, hm⟩ := (parked_iff r).mp hp
      cases a
      · refine .inr (.inl ⟨k, by rw [e2]; simpa using hm, wk, m, ?_, rfl⟩)
        show w2.ws[k]? = _
        rw [e1]; exact hc
      · have hm : k ∈ w.wAll := by simpa using hm
        refine .inl ⟨k, by rw [e3]; exact hm, wk, m, ?_, rfl⟩
        show w3.ws[k]? = _
        rw [hw3, if_neg (fun h => hd k h hm)]; exact hc

theorem tickets_shut {w : World} (r : RegWs w.ws w.wOne w.wAll) :
    tickets w.shutTx.ws w.shutTx.wAll = fun h => (tickets w.ws w.wAll h).refuse := by
  funext k
  unfold tickets tab
  rw [shutTx_ws]
  cases hc : w.ws[k]? with
  | none => simp [Ticket.refuse]
  | some x =>
    by_cases hm : k ∈ w.wOne ∨ k ∈ w.wAll
    · rw [if_pos hm]; cases x <;> simp [WsCell.close, ofWs, Ticket.refuse]
    · rw [if_neg hm]
      cases x with
      | active wk m => exact absurd (r.reg hc) hm
      | _ => simp [ofWs, Ticket.refuse]

end Xtra.Ideal
