import Verif.IdealSim2
/-! The simulation, continued: receiving, and the beginning of calls. -/

set_option linter.unusedSimpArgs false

namespace Xtra.Ideal
open Xtra

section
variable {cap : Option Nat} {w w' : World} {th : List (List Micro)} {t : Nat} {mc : Micro}
variable {rest ms : List Micro} {g : Ghost}

theorem popUni_objs {m : Msg} (h : w.popUnicast = some (m, w')) : w'.objs = w.objs := by simp [World.popUnicast_objs h]

theorem popB_objs (r : RegWs w.ws w.wOne w.wAll) {b : Nat} {m : Msg} (hp : w.popBroadcast b = some (m, w')) : w'.objs = w.objs := by
  obtain ⟨q, -, ⟨-, rfl⟩ | ⟨-, hg, rfl⟩ | ⟨-, h, wk, m', q', t, rfl⟩⟩ := popBroadcast_cases r.all hp <;> simp

theorem notifyAll_stays (q : List Nat) (k : Ctrl) (cells : List RxCell) {c : Nat} {x : RxCell} (hx : ∀ wk, x ≠ .empty wk)
    (h : cells[c]? = some x) : (q.foldl (fun cs c => notifyCell cs c k) cells)[c]? = some x := by
  induction q generalizing cells with
  | nil => exact h
  | cons a q ih =>
    apply ih
    show (notifyCell cells a k)[c]? = some x
    unfold notifyCell
    split
    · rename_i wk ha
      by_cases hac : a = c
      · subst hac; rw [h] at ha; simp at ha; exact absurd ha (hx wk)
      · rw [List.getElem?_set_ne hac]; exact h
    · exact h

theorem popB_cell (r : RegWs w.ws w.wOne w.wAll) {b c : Nat} {m : Msg} {x : RxCell} (hp : w.popBroadcast b = some (m, w'))
    (hx : ∀ wk, x ≠ .empty wk) (h : w.cells[c]? = some x) : w'.cells[c]? = some x := by
  obtain ⟨q, -, ⟨-, rfl⟩ | ⟨-, hg, rfl⟩ | ⟨-, h', wk, m', q', t, rfl⟩⟩ := popBroadcast_cases r.all hp
  · simpa using h
  · simpa using h
  · simp only [World.sendBroadcast, afterPop_wRx, afterPop_cells]
    exact notifyAll_stays _ _ _ hx h

theorem best_of_head {l : List Msg} {m : Msg} (ho : Heap.Ordered Msg.le l) (h : ∀ u ∈ l.head?, u.prio.ble m.prio = true) : Best m l := by
  intro x hx
  cases l with
  | nil => simp at hx
  | cons a l =>
    have h1 := (Heap.peek_max Msg.total ho (r := a) rfl).2 x hx
    exact Prio.ble_trans h1 (h a (by simp))

theorem blt_of_head {l : List Msg} {m : Msg} (ho : Heap.Ordered Msg.le l) (h : ∀ u ∈ l.head?, u.prio.blt m.prio = true) :
    ∀ x ∈ l, x.prio.blt m.prio = true := by
  intro x hx
  cases l with
  | nil => simp at hx
  | cons a l =>
    have h1 : x.prio.ble a.prio = true := (Heap.peek_max Msg.total ho (r := a) rfl).2 x hx
    have h2 := h a (by simp)
    rw [Prio.blt_iff] at h2 ⊢
    refine ⟨Prio.ble_trans h1 h2.1, ?_⟩
    cases h3 : m.prio.ble x.prio with
    | false => rfl
    | true => have := Prio.ble_trans h3 h1; rw [h2.2] at this; simp at this

theorem seats_new (cells : List RxCell) : seats (cells ++ [.empty none]) = put (seats cells) cells.length .waiting := tab_append

theorem idle_new {cells : List RxCell} {q : List Nat} (h : ∀ c ∈ q, c < cells.length) :
    (q ++ [cells.length]).filter (isEmpty (cells ++ [.empty none])) = q.filter (isEmpty cells) ++ [cells.length] := by
  rw [List.filter_append]
  congr 1
  · apply List.filter_congr
    intro c hc
    have := h c hc
    unfold isEmpty
    rw [List.getElem?_append_left this]
  · simp [isEmpty]

theorem idle_rise {cells : List RxCell} {q : List Nat} {c : Nat} {x y : RxCell} (hc : cells[c]? = some y) (hx : ∀ wk, x ≠ .empty wk) :
    q.filter (isEmpty (cells.set c x)) = (q.filter (isEmpty cells)).filter (· ≠ c) := by
  rw [List.filter_filter]
  apply List.filter_congr
  intro k _
  by_cases hk : k = c
  · subst hk
    simp [isEmpty_full (List.getElem?_set_self (List.getElem?_eq_some_iff.mp hc).1) hx]
  · simp [isEmpty_set_ne _ hk, hk]

theorem exec_sim_recv (hr : Reachable cap ⟨w, th⟩) (i : GInv w th g) (ht : th[t]? = some (mc :: rest))
    (he : ExecR w mc w' ms) (hm : (∃ r b wk, mc = .recvTry r b wk) ∨ (∃ r b c wk, mc = .recvPoll r b c wk ∨ mc = .recvBcast r b c wk) ∨
      (∃ b c, mc = .cancel b c) ∨ (∃ m, mc = .requeue m) ∨ (∃ c, mc = .dropCell c)) : Sim w th g w' (th.set t (ms ++ rest)) := by
  have hwf := wf_reachable hr ht
  have hmem := List.mem_of_getElem? ht
  have hg := i.head ht
  have rr : RegWs w.ws w.wOne w.wAll := regWs_reachable hr
  have hu : UInv w := uInv_reachable hr
  have hB : BInv w := bInv_reachable hr
  cases he
  case recv_all r b wk m w1 hp hh hlt =>
    have hb : w.objs[r]? = some .busy := hwf
    have hb : w1.objs[r]? = some .busy := by rw [popB_objs rr hp]; exact hb
    refine ⟨g, i.execSet ht (by simp) (f := r) (o := .message b (.all m)) (by simp [World.yieldMsg, World.ev, popB_objs rr hp]) trivial, ?_⟩
    exact .to (.takeAll (r := r) (b := b) (m := m) (blt_of_head hu.heap hlt) (takeAll_abs hr hp)) abs_is
  case recv_one r b wk m w1 hp hh hlt =>
    have hb : w.objs[r]? = some .busy := hwf
    have hb : w1.objs[r]? = some .busy := by rw [popUni_objs hp]; exact hb
    refine ⟨g, i.execSet ht (by simp) (f := r) (o := .message b (.one m)) (by simp [World.yieldMsg, World.ev, popUni_objs hp]) trivial, ?_⟩
    obtain ⟨q, h1, h2, h3⟩ := refillOne_abs (g := g) hr hp
    exact .to (.takeOne (r := r) (b := b) (m := m) h1 h2 (best_of_head (hB.heap b) hlt) h3)
      (abs_is (held := (bag_add ht (fun x => by
        simp only [World.yieldMsg, World.ev]; rw [setBusy _ (by rfl) hb]; simp [heldO, heldM, am1])).symm))
  case recv_shutdown r b wk h1 h2 h3 =>
    have hb : w.objs[r]? = some .busy := hwf
    refine ⟨g, i.execSet ht (by simp) (f := r) (o := .message b .shutdown) rfl trivial, ?_⟩
    exact .to (.takeEnd (r := r) (b := b) h1 h2 h3) abs_is
  case recv_wait r b wk h1 h2 h3 =>
    refine ⟨_, (i.seat hr (r, b)).execSame ht (by simp [okM, put]) rfl, ?_⟩
    exact .to (.sit (r := r) (b := b) (c := w.cells.length) h1 h2 (decide_eq_false (notSwept hr h3)) (seats_free ..))
      (abs_is (seat := (seats_new ..).symm) (idle := (idle_new (fun c hc => (rxSorted_reachable hr).lt c hc)).symm))
  case recvPoll_empty r b c wk wk' hc =>
    have hb : w.objs[r]? = some .busy := hwf.1
    have hg : g.owner c = (r, b) := hg
    refine ⟨g, i.execSet ht (by simp) (f := r) (o := .recv b (.waiting c)) rfl hg, ?_⟩
    exact .to (.stillWaiting (c := c) (wk := wk) (seats_at hc))
      (abs_is (seat := (seats_wk hc).symm) (idle := by simp only [World.ev, World.setObj]; rw [isEmpty_wk hc]; rfl)
        (hist := by simp [abs, hg, World.ev, World.setObj, shown]; rfl))
  case recvPoll_one r b c wk wk' m hc =>
    have hb : w.objs[r]? = some .busy := hwf.1
    have hg : g.owner c = (r, b) := hg
    refine ⟨g, i.execSet ht (by simp) (f := r) (o := .message b (.one m)) rfl trivial, ?_⟩
    exact .to (.pickUp (c := c) (m := m) (seats_at hc))
      (abs_is (seat := (seats_set hc .gone).symm) (idle := (idle_same (isEmpty_full hc (by simp)) (by simp)).symm)
        (held := (bag_add ht (fun x => by
          simp only [World.yieldMsg, World.ev]; rw [setBusy _ (by rfl) hb]; simp [heldO, heldM, am1])).symm)
        (hist := by simp [abs, hg, World.ev, World.yieldMsg, shown]; rfl))
  case recvPoll_shutdown r b c wk wk' hc =>
    have hb : w.objs[r]? = some .busy := hwf.1
    have hg : g.owner c = (r, b) := hg
    refine ⟨g, i.execSet ht (by simp) (f := r) (o := .message b .shutdown) rfl trivial, ?_⟩
    exact .to (.pickEnd (c := c) (seats_at hc))
      (abs_is (seat := (seats_set hc .gone).symm) (idle := (idle_same (isEmpty_full hc (by simp)) (by simp)).symm)
        (hist := by simp [abs, hg, World.ev, World.yieldMsg, shown]; rfl))
  case recvPoll_bcast r b c wk wk' hc =>
    have hg : g.owner c = (r, b) := hg
    refine ⟨g, i.execSame ht (by simpa [okM] using hg) rfl, ?_⟩
    exact .to (.look (c := c) (seats_at hc))
      (abs_is (seat := (seats_set hc .used).symm) (idle := (idle_same (isEmpty_full hc (by simp)) (by simp)).symm))
  case recvPoll_panic r b c wk hc =>
    have hb : w.objs[r]? = some .busy := hwf.1
    exact ⟨g, i.execSet ht (by simp) (f := r) (o := .gone) rfl trivial, .stay abs_is⟩
  case recvBcast_some r b c wk m w1 hp =>
    have hb : w.objs[r]? = some .busy := hwf.1
    have hb : w1.objs[r]? = some .busy := by rw [popB_objs rr hp]; exact hb
    have hc0 : w.cells[c]? = some .used := hwf.2
    have hc := popB_cell rr hp (by simp) hc0
    have hg : g.owner c = (r, b) := hg
    refine ⟨g, i.execSet ht (by simp) (f := r) (o := .message b (.all m)) (by simp [World.yieldMsg, World.ev, popB_objs rr hp]) trivial, ?_⟩
    have hT : TakeAll (abs w th g) ((abs w th g).owner c).2 m (abs w1 th g) := by
      rw [show (abs w th g).owner c = (r, b) from hg]; exact takeAll_abs hr hp
    exact .to (.pickAll (c := c) (m := m) (seats_at hc0) hT)
      (abs_is (seat := (seats_set hc .gone).symm) (idle := (idle_same (isEmpty_full hc (by simp)) (by simp)).symm)
        (hist := by simp [abs, hg, World.ev, World.yieldMsg, shown]; rfl))
  case recvBcast_none r b c wk hp =>
    have hc : w.cells[c]? = some .used := hwf.2
    have hg : g.owner c = (r, b) := hg
    refine ⟨g, i.execSame ht (by simp [okM]) rfl, ?_⟩
    have hi : w.items b = [] := by
      by_cases h : w.items b = []
      · exact h
      · have := popBroadcast_isSome h
        rw [hp] at this; simp at this
    exact .to (.again (c := c) (seats_at hc) (by rw [show (abs w th g).owner c = (r, b) from hg]; exact hi))
      (abs_is (seat := (seats_set hc .gone).symm) (idle := (idle_same (isEmpty_full hc (by simp)) (by simp)).symm))
  case cancel_msg b c m wk hc =>
    refine ⟨g, i.execSame ht (by simp [okM]) rfl, ?_⟩
    exact .to (.giveBack (c := c) (m := m) (seats_at hc))
      (abs_is (seat := (seats_set hc .used).symm) (idle := (idle_same (isEmpty_full hc (by simp)) (by simp)).symm)
        (limbo := (bag_add ht (fun x => by bagsum)).symm))
  case cancel_full b c k wk hc hk =>
    refine ⟨g, i.execSame ht (by simp [okM]) rfl, ?_⟩
    exact .to (.ignore (c := c) (k := k) (seats_at hc) hk)
      (abs_is (seat := (seats_set hc .used).symm) (idle := (idle_same (isEmpty_full hc (by simp)) (by simp)).symm))
  case cancel_none b c hc =>
    exact ⟨g, i.execSame ht (by simp [okM]) rfl, .stay abs_is⟩
  case requeue_hand m pre c rest' wk' hq hp hc =>
    have hn : c ∉ rest' := by
      have := (rxSorted_reachable hr).sorted
      have : List.Pairwise (· < ·) w.wRx := this
      rw [hq, List.pairwise_append, List.pairwise_cons] at this
      intro hm; have := this.2.1.1 c hm; omega
    have hidle := idle_hand (k := .newMessage m) hp hc hn
    rw [← hq] at hidle
    refine ⟨g, i.execSame ht (by simp) rfl, ?_⟩
    exact .to (.reOffer (m := m) (bag_pos ht (by simp [limboM, m1])) (.hand hidle))
      (abs_is (limbo := (bag_del ht (fun x => by bagsum)).symm) (seat := (seats_set hc (.full (.newMessage m) wk')).symm))
  case requeue_queue m hq =>
    have hidle := idle_noneEmpty hq
    refine ⟨g, i.execSame ht (by simp) rfl, ?_⟩
    exact .to (.reOffer (m := m) (bag_pos ht (by simp [limboM, m1])) (.store hidle (Heap.push_perm Msg.le w.uq m)))
      (abs_is (limbo := (bag_del ht (fun x => by bagsum)).symm) (idle := hidle))
  case dropCell_lost c m wk hc =>
    refine ⟨g, i.execSame ht (by simp) rfl, ?_⟩
    exact .to (.lose (c := c) (m := m) (seats_at hc))
      (abs_is (seat := (seats_set hc .gone).symm) (idle := (idle_same (isEmpty_full hc (by simp)) (by simp)).symm)
        (answer := (answers_interrupt w.resp m.id).symm))
  case dropCell_other c hc =>
    have hl : cellLive w.cells c = true := hwf
    refine ⟨g, i.execSame ht (by simp) rfl, ?_⟩
    cases hx : w.cells[c]? with
    | none => simp [cellLive, hx] at hl
    | some x =>
      refine .to (.rise (c := c) ?_) (abs_is (seat := (seats_set hx .gone).symm) (idle := (idle_rise hx (by simp)).symm))
      intro m he
      have he : seats w.cells c = .told (.newMessage m) := he
      rw [seats_at hx] at he
      cases x <;> simp [ofRx] at he
      subst he
      exact hc _ _ hx
  all_goals (exfalso; simp at hm)

/-- Every atomic step of a running call. -/
theorem exec_sim (hr : Reachable cap ⟨w, th⟩) (i : GInv w th g) (ht : th[t]? = some (mc :: rest))
    (he : ExecR w mc w' ms) : Sim w th g w' (th.set t (ms ++ rest)) := by
  cases mc with
  | sendLd1 f md m rc wk => exact exec_sim_send hr i ht he (.inl ⟨_, _, _, _, _, .inl rfl⟩)
  | sendLd2 f md m rc wk => exact exec_sim_send hr i ht he (.inl ⟨_, _, _, _, _, .inr rfl⟩)
  | sendCrit f md m rc wk => exact exec_sim_crit hr i ht he
  | pollWs => exact exec_sim_send hr i ht he (by simp)
  | sendFin => exact exec_sim_send hr i ht he (by simp)
  | dropWs => exact exec_sim_send hr i ht he (by simp)
  | dropMsg => exact exec_sim_send hr i ht he (by simp)
  | recvTry => exact exec_sim_recv hr i ht he (by simp)
  | recvPoll => exact exec_sim_recv hr i ht he (by simp)
  | recvBcast => exact exec_sim_recv hr i ht he (by simp)
  | cancel => exact exec_sim_recv hr i ht he (by simp)
  | requeue => exact exec_sim_recv hr i ht he (by simp)
  | dropCell => exact exec_sim_recv hr i ht he (by simp)
  | _ => exact exec_sim_end hr i ht he (by simp)

end
end Xtra.Ideal
