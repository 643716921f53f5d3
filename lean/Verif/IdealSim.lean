import Verif.IdealAbs
/-! The simulation: every atomic step of the code is matched by steps of the ideal mailbox. -/

set_option linter.unusedSimpArgs false

namespace Xtra.Ideal
open Xtra

theorem Steps.to {a b c : State} (h : Step a b) (e : b = c) : Steps a c := e ▸ .tail .refl h

theorem Steps.trans {a b c : State} (h : Steps a b) (h' : Steps b c) : Steps a c := by
  induction h' with
  | refl => exact h
  | tail _ hs ih => exact .tail ih hs

theorem Steps.stay {a b : State} (e : a = b) : Steps a b := e ▸ .refl

/-! ### The ghost goes along -/

section
variable {cap : Option Nat} {w w' : World} {th : List (List Micro)} {t : Nat} {mc : Micro}
variable {rest ms : List Micro} {g : Ghost}

theorem GInv.know (i : GInv w th g) (k : Nat) : GInv w th { g with known := put g.known k true } := by
  refine ⟨fun x hx m hm => ?_, fun f o ho => ?_⟩
  · have := i.th x hx m hm
    cases m <;> simp_all [okM, put]
  · have := i.obj f o ho
    cases o <;> try simp_all [okO]
    · rename_i s; cases s <;> simp_all [okO, put]
    · rename_i s; cases s <;> simp_all [okO]

theorem own_ws_lt (hr : Reachable cap ⟨w, th⟩) {x : List Micro} {m : Micro} {h : Nat} (hx : x ∈ th) (hm : m ∈ x)
    (hh : 0 < mWs h m) : h < w.ws.length := by
  have h1 := (own_reachable hr).ws h
  obtain ⟨t, ht⟩ := List.getElem?_of_mem hx
  obtain ⟨i, hi⟩ := List.getElem?_of_mem hm
  have h2 := le_sumBy (sumBy (mWs h)) ht
  have h3 := le_sumBy (mWs h) hi
  have h4 : tot (mWs h) th = sumBy (sumBy (mWs h)) th := rfl
  simp only at h1
  by_cases hl : h < w.ws.length
  · exact hl
  · have : w.ws[h]? = none := by simp; omega
    simp [wsL, wsActive, this] at h1; omega

theorem own_ws_obj_lt (hr : Reachable cap ⟨w, th⟩) {f : Nat} {o : Obj} {h : Nat} (ho : w.objs[f]? = some o)
    (hh : 0 < oWs h o) : h < w.ws.length := by
  have h1 := (own_reachable hr).ws h
  have h2 := le_sumBy (oWs h) ho
  simp only at h1
  by_cases hl : h < w.ws.length
  · exact hl
  · have : w.ws[h]? = none := by simp; omega
    simp [wsL, wsActive, this] at h1; omega

theorem own_cell_lt (hr : Reachable cap ⟨w, th⟩) {x : List Micro} {m : Micro} {h : Nat} (hx : x ∈ th) (hm : m ∈ x)
    (hh : 0 < mCell h m) : h < w.cells.length := by
  have h1 := (own_reachable hr).cell h
  obtain ⟨t, ht⟩ := List.getElem?_of_mem hx
  obtain ⟨i, hi⟩ := List.getElem?_of_mem hm
  have h2 := le_sumBy (sumBy (mCell h)) ht
  have h3 := le_sumBy (mCell h) hi
  have h4 : tot (mCell h) th = sumBy (sumBy (mCell h)) th := rfl
  simp only at h1
  by_cases hl : h < w.cells.length
  · exact hl
  · have : w.cells[h]? = none := by simp; omega
    simp [cellL, cellLive, this] at h1; omega

theorem own_cell_obj_lt (hr : Reachable cap ⟨w, th⟩) {f : Nat} {o : Obj} {h : Nat} (ho : w.objs[f]? = some o)
    (hh : 0 < oCell h o) : h < w.cells.length := by
  have h1 := (own_reachable hr).cell h
  have h2 := le_sumBy (oCell h) ho
  simp only at h1
  by_cases hl : h < w.cells.length
  · exact hl
  · have : w.cells[h]? = none := by simp; omega
    simp [cellL, cellLive, this] at h1; omega

theorem GInv.ticket (hr : Reachable cap ⟨w, th⟩) (i : GInv w th g) (k : Nat) :
    GInv w th { g with forMsg := put g.forMsg w.ws.length k } := by
  refine ⟨fun x hx m hm => ?_, fun f o ho => ?_⟩
  · have h1 := i.th x hx m hm
    cases m <;> try exact h1
    rename_i f md mid h wk
    have := own_ws_lt hr hx hm (h := h) (by simp [mWs])
    simp only [okM] at *
    rw [put_ne _ _ (by omega)]; exact h1
  · have h1 := i.obj f o ho
    cases o with
    | send md mid s =>
      cases s with
      | waiting h =>
        have := own_ws_obj_lt hr ho (h := h) (by simp [oWs, sWs])
        simp only [okO] at *
        rw [put_ne _ _ (by omega)]; exact h1
      | _ => exact h1
    | recv b s => cases s <;> exact h1
    | _ => exact h1

theorem GInv.seat (hr : Reachable cap ⟨w, th⟩) (i : GInv w th g) (k : Nat × Nat) :
    GInv w th { g with owner := put g.owner w.cells.length k } := by
  refine ⟨fun x hx m hm => ?_, fun f o ho => ?_⟩
  · have h1 := i.th x hx m hm
    cases m <;> try exact h1
    all_goals
      rename_i h wk
      have := own_cell_lt hr hx hm (h := h) (by simp [mCell])
      simp only [okM] at *
      rw [put_ne _ _ (by omega)]; exact h1
  · have h1 := i.obj f o ho
    cases o with
    | recv b s =>
      cases s with
      | waiting h =>
        have := own_cell_obj_lt hr ho (h := h) (by simp [oCell, rCell])
        simp only [okO] at *
        rw [put_ne _ _ (by omega)]; exact h1
      | _ => exact h1
    | send md mid s => cases s <;> exact h1
    | _ => exact h1

theorem GInv.exec (i : GInv w th g) (ht : th[t]? = some (mc :: rest)) (h1 : ∀ m ∈ ms, okM g m)
    (h2 : ∀ (f : Nat) (o : Obj), w'.objs[f]? = some o → w.objs[f]? = some o ∨ okO g f o) :
    GInv w' (th.set t (ms ++ rest)) g := by
  refine ⟨fun x hx m hm => ?_, fun f o ho => ?_⟩
  · rcases List.mem_or_eq_of_mem_set hx with h | rfl
    · exact i.th x h m hm
    · rcases List.mem_append.mp hm with h | h
      · exact h1 m h
      · exact i.th _ (List.mem_of_getElem? ht) m (by simp [h])
  · rcases h2 f o ho with h | h
    · exact i.obj f o h
    · exact h

theorem GInv.execSet (i : GInv w th g) (ht : th[t]? = some (mc :: rest)) (h1 : ∀ m ∈ ms, okM g m) {f : Nat} {o : Obj}
    (h2 : w'.objs = w.objs.set f o) (h3 : okO g f o) : GInv w' (th.set t (ms ++ rest)) g := by
  refine i.exec ht h1 (fun k x hx => ?_)
  rw [h2] at hx
  rcases set_cases hx with ⟨rfl, h⟩ | h
  · rw [← h] at h3; exact .inr h3
  · exact .inl h.2

theorem GInv.execSame (i : GInv w th g) (ht : th[t]? = some (mc :: rest)) (h1 : ∀ m ∈ ms, okM g m)
    (h2 : w'.objs = w.objs) : GInv w' (th.set t (ms ++ rest)) g :=
  i.exec ht h1 (fun k x hx => by rw [h2] at hx; exact .inl hx)

theorem GInv.head (i : GInv w th g) (ht : th[t]? = some (mc :: rest)) : okM g mc :=
  i.th _ (List.mem_of_getElem? ht) mc (by simp)
end

/-! ### Sums over objects -/

theorem setBusy (fo : Msg → Obj → Nat) {objs : List Obj} {f : Nat} {x : Msg} (h0 : fo x .busy = 0)
    (h : objs[f]? = some .busy) (o : Obj) : sumBy (fo x) (objs.set f o) = sumBy (fo x) objs + fo x o := by
  have := sumBy_set (fo x) o h; omega

theorem mine_of {w : World} {th : List (List Micro)} {g : Ghost} {f i : Nat} {bc : Bool} (h : Ev.made f i bc ∈ w.log) :
    (abs w th g).mine f i := ⟨bc, by simp [abs, h, shown]⟩

section
variable {cap : Option Nat} {w w' : World} {th : List (List Micro)} {t : Nat} {mc : Micro}
variable {rest ms : List Micro} {g : Ghost}

/-- What has to be shown of one step. -/
def Sim (w : World) (th : List (List Micro)) (g : Ghost) (w' : World) (th' : List (List Micro)) : Prop :=
  ∃ g', GInv w' th' g' ∧ Steps (abs w th g) (abs w' th' g')

/-- Close a sum over what a step consumes and produces. -/
macro "bagsum" : tactic => `(tactic| first
  | (simp [draftO, draftM, limboO, limboM, heldO, heldM, am1]; done)
  | (simp [draftO, draftM, limboO, limboM, heldO, heldM, am1]; omega)
  | (simp only [World.ev, World.setObj, World.kill, World.yieldMsg]; rw [setBusy _ (by rfl) (by assumption)]; simp [draftO, draftM, limboO, limboM, heldO, heldM, am1]; done))

/-- A bag that does not change. -/
macro "bagsame" : tactic => `(tactic| first
  | exact (bag_same (by assumption) (fun x => by bagsum)).symm
  | exact (bag_same_call (fun x => by bagsum)).symm)

/-- A part of the state that does not change. -/
macro "part" : tactic => `(tactic| first | rfl | (simp [abs]; done) | bagsame)

theorem abs_is {s : State} {w : World} {th : List (List Micro)} {g : Ghost}
    (cap : s.cap = w.cap := by part) (strong : s.strong = w.sc := by part) (dismissed : s.dismissed = decide (w.lag = .swept) := by part) (boxes : s.boxes = w.rcv := by part)
    (next : s.next = w.resp.length := by part) (draft : s.draft = bagOf draftO draftM w.objs th := by part)
    (store : s.store = w.uq := by part) (box : s.box = w.items := by part)
    (live : s.live = w.bqs.filter w.alive := by part) (level : s.level = w.tail := by part)
    (ticket : s.ticket = tickets w.ws w.wAll := by part) (forMsg : s.forMsg = g.forMsg := by part)
    (seat : s.seat = seats w.cells := by part) (owner : s.owner = g.owner := by part)
    (idle : s.idle = w.wRx.filter (isEmpty w.cells) := by part)
    (limbo : s.limbo = bagOf limboO limboM w.objs th := by part)
    (held : s.held = bagOf heldO heldM w.objs th := by part)
    (answer : s.answer = answers w.resp := by part) (known : s.known = g.known := by part)
    (hist : s.hist = w.log.filter shown := by part) : s = abs w th g :=
  State.ext cap strong dismissed boxes next draft store box live level ticket forMsg seat owner idle limbo held answer known hist

theorem tickets_set {ws : List WsCell} {wAll : List Nat} {h : Nat} {y : WsCell} (hc : ws[h]? = some y) (x : WsCell) :
    tickets (ws.set h x) wAll = put (tickets ws wAll) h (ofWs wAll h x) := tab_set hc

theorem seats_set {cells : List RxCell} {c : Nat} {y : RxCell} (hc : cells[c]? = some y) (x : RxCell) :
    seats (cells.set c x) = put (seats cells) c (ofRx x) := tab_set hc

/-- A waiting entry stays what it is, apart from its waker. -/
theorem tickets_wk {ws : List WsCell} {wAll : List Nat} {h : Nat} {wk wk' : Option Nat} {m : Msg}
    (hc : ws[h]? = some (.active wk m)) : tickets (ws.set h (.active wk' m)) wAll = tickets ws wAll := by
  rw [tickets_set hc]
  have : tickets ws wAll h = ofWs wAll h (.active wk' m) := by rw [tickets_at hc]; rfl
  rw [← this, put_same]

theorem seats_wk {cells : List RxCell} {c : Nat} {wk wk' : Option Nat} (hc : cells[c]? = some (.empty wk)) :
    seats (cells.set c (.empty wk')) = seats cells := by
  rw [seats_set hc]
  have : seats cells c = ofRx (.empty wk') := by rw [seats_at hc]; rfl
  rw [← this, put_same]

theorem isEmpty_wk {cells : List RxCell} {c : Nat} {wk wk' : Option Nat} (hc : cells[c]? = some (.empty wk)) :
    isEmpty (cells.set c (.empty wk')) = isEmpty cells := by
  funext k
  by_cases hk : k = c
  · subst hk
    have := (List.getElem?_eq_some_iff.mp hc).1
    simp [isEmpty, List.getElem?_set_self this, hc]
  · exact isEmpty_set_ne _ hk

/-- A cell that is not empty before or after does not count among the idle. -/
theorem idle_same {cells : List RxCell} {c : Nat} {x : RxCell} {q : List Nat} (h : isEmpty cells c = false)
    (hx : ∀ wk, x ≠ .empty wk) : q.filter (isEmpty (cells.set c x)) = q.filter (isEmpty cells) := by
  apply List.filter_congr
  intro k hk
  by_cases hkc : k = c
  · subst hkc
    rw [h]
    unfold isEmpty
    by_cases hl : k < cells.length
    · rw [List.getElem?_set_self hl]
      cases x <;> simp_all
    · rw [show (cells.set k x)[k]? = none by simp; omega]
  · exact isEmpty_set_ne _ hkc

theorem isEmpty_full {cells : List RxCell} {c : Nat} {x : RxCell} (hc : cells[c]? = some x) (hx : ∀ wk, x ≠ .empty wk) :
    isEmpty cells c = false := by
  unfold isEmpty; rw [hc]; cases x <;> simp_all

theorem made_okM {f i : Nat} {md : Mode} {wk : Nat} {L : List Ev} {mc : Micro}
    (h : Xtra.okM L mc) (e : mc = .sendFin f md i wk ∨ ∃ h, mc = .pollWs f md i h wk) : Ev.made f i md.isB ∈ L := by
  rcases e with rfl | ⟨h, rfl⟩ <;> exact h

theorem exec_sim_send (hr : Reachable cap ⟨w, th⟩) (i : GInv w th g) (ht : th[t]? = some (mc :: rest))
    (he : ExecR w mc w' ms) (hm : (∃ f md m rc wk, mc = .sendLd1 f md m rc wk ∨ mc = .sendLd2 f md m rc wk) ∨
      (∃ f md mid h wk, mc = .pollWs f md mid h wk) ∨ (∃ f md mid wk, mc = .sendFin f md mid wk) ∨
      (∃ h, mc = .dropWs h) ∨ (∃ m, mc = .dropMsg m)) : Sim w th g w' (th.set t (ms ++ rest)) := by
  have hwf := wf_reachable hr ht
  have hk := (kInv_reachable hr).th _ (List.mem_of_getElem? ht) mc (by simp)
  have hg := i.head ht
  cases he
  case sendLd1_err f md m rc wk h =>
    have hb : w.objs[f]? = some .busy := hwf
    refine ⟨g, i.execSet ht (by simp [okM]) (f := f) (o := .gone) rfl trivial, ?_⟩
    exact .to (.reject (m := m) (f := f) (bag_pos ht (by simp [draftM, m1])) (mine_of hk.1) (.inl h))
      (abs_is (draft := (bag_del ht (fun x => by bagsum)).symm) (answer := (answers_interrupt w.resp m.id).symm))
  case sendLd2_err f md m rc wk h =>
    have hb : w.objs[f]? = some .busy := hwf
    refine ⟨g, i.execSet ht (by simp [okM]) (f := f) (o := .gone) rfl trivial, ?_⟩
    exact .to (.reject (m := m) (f := f) (bag_pos ht (by simp [draftM, m1])) (mine_of hk.1) (.inr h))
      (abs_is (draft := (bag_del ht (fun x => by bagsum)).symm) (answer := (answers_interrupt w.resp m.id).symm))
  case sendLd1_ok f md m rc wk h =>
    exact ⟨g, i.execSame ht (by simp [okM]) rfl, .stay abs_is⟩
  case sendLd2_ok f md m rc wk h =>
    exact ⟨g, i.execSame ht (by simp [okM]) rfl, .stay abs_is⟩
  case pollWs_active f md mid h wk wk' m hc =>
    have hb : w.objs[f]? = some .busy := hwf.1
    simp only [okM] at hg
    have hid : m.id = mid := (wsId_reachable hr).th (f := f) (md := md) (wk' := wk) (List.mem_of_getElem? ht) (by simp) hc
    subst hg
    refine ⟨g, i.execSet ht (by simp) (f := f) (o := .send md (g.forMsg h) (.waiting h)) rfl rfl, ?_⟩
    exact .to (.stillParked (f := f) (h := h) (a := decide (h ∈ w.wAll)) (m := m) (wk := wk) (tickets_at hc) hid
      (by rw [hid]; exact mine_of (made_okM hk (.inr ⟨h, rfl⟩)))) (abs_is (ticket := (tickets_wk hc).symm))
  case pollWs_delivered f md mid h wk wk' hc =>
    simp only [okM] at hg
    subst hg
    refine ⟨_, (i.know (g.forMsg h)).execSame ht (by simp [okM, put]) rfl, ?_⟩
    exact .to (.learn (h := h) (tickets_at hc)) (abs_is (ticket := (tickets_set hc .gone).symm))
  case pollWs_closed f md mid h wk wk' hc =>
    have hb : w.objs[f]? = some .busy := hwf.1
    simp only [okM] at hg
    subst hg
    refine ⟨g, i.execSet ht (by simp) (f := f) (o := .gone) rfl trivial, ?_⟩
    exact .to (.refused (f := f) (h := h) (tickets_at hc) (mine_of (made_okM hk (.inr ⟨h, rfl⟩)))) (abs_is (ticket := (tickets_set hc .gone).symm))
  case pollWs_panic f md mid h wk hc =>
    rw [hwf.2] at hc; simp at hc
  case sendFin_bcast f mid wk =>
    have hb : w.objs[f]? = some .busy := hwf
    refine ⟨g, i.execSet ht (by simp) (f := f) (o := .gone) rfl trivial, ?_⟩
    exact .to (.sendOk (f := f) (i := mid) hg (mine_of (made_okM hk (.inl rfl)))) abs_is
  case sendFin_detached f mid wk =>
    have hb : w.objs[f]? = some .busy := hwf
    refine ⟨g, i.execSet ht (by simp) (f := f) (o := .reply mid) rfl trivial, ?_⟩
    exact .to (.sendOk (f := f) (i := mid) hg (mine_of (made_okM hk (.inl rfl)))) abs_is
  case sendFin_waiting f mid wk wk' hc =>
    have hb : w.objs[f]? = some .busy := hwf
    refine ⟨g, i.execSet ht (by simp) (f := f) (o := .send .ret mid .done) rfl hg, ?_⟩
    exact .to (.replyPending (f := f) (i := mid) (wk := wk) (answers_at hc) (mine_of (made_okM hk (.inl rfl))))
      (abs_is (answer := (answers_wk hc).symm))
  case sendFin_value f mid wk wk' r hc =>
    have hb : w.objs[f]? = some .busy := hwf
    refine ⟨g, i.execSet ht (by simp) (f := f) (o := .gone) rfl trivial, ?_⟩
    exact .to (.replyOk (f := f) (i := mid) (r := r) (answers_at hc) (mine_of (made_okM hk (.inl rfl)))) abs_is
  case sendFin_interrupted f mid wk wk' hc =>
    have hb : w.objs[f]? = some .busy := hwf
    refine ⟨g, i.execSet ht (by simp) (f := f) (o := .gone) rfl trivial, ?_⟩
    exact .to (.replyInt (f := f) (i := mid) (answers_at hc) (mine_of (made_okM hk (.inl rfl)))) abs_is
  case sendFin_panic f mid wk hc =>
    have hb : w.objs[f]? = some .busy := hwf
    exact ⟨g, i.execSet ht (by simp) (f := f) (o := .gone) rfl trivial, .stay abs_is⟩
  case dropWs_active h wk m hc =>
    refine ⟨g, i.execSame ht (by simp) rfl, ?_⟩
    exact .to (.cancel (h := h) (a := decide (h ∈ w.wAll)) (m := m) (tickets_at hc))
      (abs_is (ticket := (tickets_set hc .gone).symm) (answer := (answers_interrupt w.resp m.id).symm))
  case dropWs_other h hc =>
    refine ⟨g, i.execSame ht (by simp) rfl, ?_⟩
    have ha : wsActive w.ws h = true := hwf
    cases hx : w.ws[h]? with
    | none => simp [wsActive, hx] at ha
    | some x =>
      refine .to (.tear (h := h) ?_) (abs_is (ticket := (tickets_set hx .gone).symm))
      intro a m he
      have : tickets w.ws w.wAll h = ofWs w.wAll h x := tickets_at hx
      have he : tickets w.ws w.wAll h = .parked a m := he
      rw [this] at he
      cases x <;> simp [ofWs] at he
      rename_i wk m'
      exact hc wk m' hx
  case dropMsg m =>
    refine ⟨g, i.execSame ht (by simp) rfl, ?_⟩
    exact .to (.abandon (m := m) (bag_pos ht (by simp [draftM, m1])))
      (abs_is (draft := (bag_del ht (fun x => by bagsum)).symm) (answer := (answers_interrupt w.resp m.id).symm))
  all_goals (exfalso; simp at hm)

end
end Xtra.Ideal
