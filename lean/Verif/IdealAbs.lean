import Verif.Ideal
import Verif.WsId
import Verif.Kind2
import Verif.Idle
import Verif.Why
/-! The abstraction from the modelled code to the ideal mailbox (`Verif/Ideal.lean`), and how the parts of
the state go along with it. -/

set_option linter.unusedSimpArgs false

namespace Xtra.Ideal
open Xtra

/-! ### Tables -/

/-- A list of cells read as a table. -/
def tab {α β : Type} (d : β) (g : Nat → α → β) (l : List α) (i : Nat) : β :=
  match l[i]? with
  | some x => g i x
  | none => d

section
variable {α β : Type} {d : β} {g g' : Nat → α → β} {l : List α}

theorem tab_some {i : Nat} {x : α} (h : l[i]? = some x) : tab d g l i = g i x := by simp [tab, h]
theorem tab_none {i : Nat} (h : l[i]? = none) : tab d g l i = d := by simp [tab, h]

theorem tab_set {i : Nat} {x y : α} (h : l[i]? = some y) :
    tab d g (l.set i x) = put (tab d g l) i (g i x) := by
  funext j
  have hl := (List.getElem?_eq_some_iff.mp h).1
  by_cases hj : j = i
  · subst hj; simp [tab, put, List.getElem?_set_self hl]
  · simp [tab, put, hj, List.getElem?_set_ne (Ne.symm hj)]

theorem tab_append {x : α} : tab d g (l ++ [x]) = put (tab d g l) l.length (g l.length x) := by
  funext j
  by_cases hj : j = l.length
  · subst hj; simp [tab, put]
  · by_cases hlt : j < l.length
    · simp [tab, put, hj, List.getElem?_append_left hlt]
    · have h1 : (l ++ [x])[j]? = none := by simp; omega
      have h2 : l[j]? = none := by simp; omega
      simp [tab, put, hj, h1, h2]

theorem tab_modify {i : Nat} {f : α → α} (f' : β → β) (hf : ∀ x, l[i]? = some x → g i (f x) = f' (g i x)) (hd : f' d = d) :
    tab d g (l.modify i f) = put (tab d g l) i (f' (tab d g l i)) := by
  funext j
  by_cases hj : j = i
  · subst hj
    simp only [tab, put, List.getElem?_modify, if_true]
    cases h : l[j]? with
    | none => simp [hd]
    | some x => simp [hf x h]
  · simp only [tab, put, List.getElem?_modify, if_neg hj, if_neg (Ne.symm hj)]
    cases l[j]? <;> simp

theorem tab_congr (h : ∀ i x, l[i]? = some x → g i x = g' i x) : tab d g l = tab d g' l := by
  funext i
  unfold tab
  split
  · rename_i x hx; exact h i x hx
  · rfl

theorem put_same (f : Nat → β) (i : Nat) : put f i (f i) = f := by
  funext j; unfold put; split
  · rename_i h; rw [h]
  · rfl

theorem put_at (f : Nat → β) (i : Nat) (x : β) : put f i x i = x := by simp [put]
theorem put_ne (f : Nat → β) {i j : Nat} (x : β) (h : j ≠ i) : put f i x j = f j := by simp [put, h]
end

/-! ### Bags -/

/-- What objects and running calls hold. -/
def bagOf (fo : Msg → Obj → Nat) (fm : Msg → Micro → Nat) (objs : List Obj) (th : List (List Micro)) : Bag :=
  fun x => sumBy (fo x) objs + tot (fm x) th

def m1 (x m : Msg) : Nat := if x = m then 1 else 0

section
variable {fo : Msg → Obj → Nat} {fm : Msg → Micro → Nat} {objs objs' : List Obj} {th : List (List Micro)}
variable {t : Nat} {mc : Micro} {rest ms : List Micro}

theorem bag_same (ht : th[t]? = some (mc :: rest))
    (h : ∀ x, sumBy (fo x) objs' + sumBy (fm x) ms = sumBy (fo x) objs + fm x mc) :
    bagOf fo fm objs' (th.set t (ms ++ rest)) = bagOf fo fm objs th := by
  funext x
  have h1 := tot_exec (fm x) ms ht
  have h2 := h x
  simp only [bagOf]; omega

theorem bag_del {m : Msg} (ht : th[t]? = some (mc :: rest))
    (h : ∀ x, sumBy (fo x) objs' + sumBy (fm x) ms + m1 x m = sumBy (fo x) objs + fm x mc) :
    bagOf fo fm objs' (th.set t (ms ++ rest)) = (bagOf fo fm objs th).del m := by
  funext x
  have h1 := tot_exec (fm x) ms ht
  have h2 := h x
  simp only [bagOf, Bag.del, m1] at *
  by_cases hx : x = m
  · simp only [if_pos hx] at *; omega
  · simp only [if_neg hx] at *; omega

theorem bag_add {m : Msg} (ht : th[t]? = some (mc :: rest))
    (h : ∀ x, sumBy (fo x) objs' + sumBy (fm x) ms = sumBy (fo x) objs + fm x mc + m1 x m) :
    bagOf fo fm objs' (th.set t (ms ++ rest)) = (bagOf fo fm objs th).add m := by
  funext x
  have h1 := tot_exec (fm x) ms ht
  have h2 := h x
  simp only [bagOf, Bag.add, m1] at *
  by_cases hx : x = m
  · simp only [if_pos hx] at *; omega
  · simp only [if_neg hx] at *; omega

theorem bag_same_call (h : ∀ x, sumBy (fo x) objs' + sumBy (fm x) ms = sumBy (fo x) objs) :
    bagOf fo fm objs' (th ++ [ms]) = bagOf fo fm objs th := by
  funext x
  have h2 := h x
  simp only [bagOf, tot_append]; omega

theorem bag_add_call {m : Msg} (h : ∀ x, sumBy (fo x) objs' + sumBy (fm x) ms = sumBy (fo x) objs + m1 x m) :
    bagOf fo fm objs' (th ++ [ms]) = (bagOf fo fm objs th).add m := by
  funext x
  have h2 := h x
  simp only [bagOf, tot_append, Bag.add, m1] at *
  by_cases hx : x = m
  · simp only [if_pos hx] at *; omega
  · simp only [if_neg hx] at *; omega

theorem bag_pos {m : Msg} (ht : th[t]? = some (mc :: rest)) (h : fm m mc ≠ 0) : bagOf fo fm objs th m ≠ 0 := by
  have := tot_head (fm m) ht
  simp only [bagOf]; omega

theorem bag_pos_obj {m : Msg} {f : Nat} {o : Obj} (ho : objs[f]? = some o) (h : fo m o ≠ 0) :
    bagOf fo fm objs th m ≠ 0 := by
  have := le_sumBy (fo m) ho
  simp only [bagOf]; omega
end

/-- Unsubmitted messages. -/
def draftO (x : Msg) : Obj → Nat
  | .send _ _ (.new m _) => m1 x m
  | _ => 0
def draftM (x : Msg) : Micro → Nat
  | .sendLd1 _ _ m _ _ => m1 x m
  | .sendLd2 _ _ m _ _ => m1 x m
  | .sendCrit _ _ m _ _ => m1 x m
  | .dropMsg m => m1 x m
  | _ => 0
/-- Messages on their way back. -/
def limboO (_ : Msg) : Obj → Nat := fun _ => 0
def limboM (x : Msg) : Micro → Nat
  | .requeue m => m1 x m
  | _ => 0
def am1 (x : Msg) : AMsg → Nat
  | .one m => m1 x m
  | _ => 0
/-- Received and unfinished messages. -/
def heldO (x : Msg) : Obj → Nat
  | .message _ am => am1 x am
  | .dispatch _ am _ => am1 x am
  | _ => 0
def heldM (x : Msg) : Micro → Nat
  | .discard am => am1 x am
  | .respond _ am _ _ => am1 x am
  | _ => 0

/-! ### Cells -/

def ofWs (wAll : List Nat) (h : Nat) : WsCell → Ticket
  | .active _ m => .parked (decide (h ∈ wAll)) m
  | .delivered _ => .accepted
  | .closed _ => .refused
  | .gone => .free

def ofRx : RxCell → Seat
  | .empty _ => .waiting
  | .full k _ => .told k
  | .used => .looked
  | .gone => .free

def ofResp : Resp → Answer
  | .none => .none
  | .waiting _ => .owed
  | .value r _ => .value r
  | .interrupted _ => .interrupted

theorem ofResp_interrupt (r : Resp) : ofResp r.interrupt = (ofResp r).interrupt := by cases r <;> rfl
theorem ofResp_fulfil (v : Nat) (r : Resp) : ofResp (r.fulfil v) = (ofResp r).give v := by cases r <;> rfl

def isEmpty (cells : List RxCell) (c : Nat) : Bool :=
  match cells[c]? with
  | some (.empty _) => true
  | _ => false

/-- What the code does not remember. -/
structure Ghost where
  forMsg : Nat → Nat
  owner : Nat → Nat × Nat
  known : Nat → Bool

def tickets (ws : List WsCell) (wAll : List Nat) : Nat → Ticket := tab .free (ofWs wAll) ws
def seats (cells : List RxCell) : Nat → Seat := tab .free (fun _ => ofRx) cells
def answers (resp : List Resp) : Nat → Answer := tab .none (fun _ => ofResp) resp

/-- The ideal mailbox a system state stands for. -/
def abs (w : World) (th : List (List Micro)) (g : Ghost) : State where
  cap := w.cap
  strong := w.sc
  dismissed := decide (w.lag = .swept)
  boxes := w.rcv
  next := w.resp.length
  draft := bagOf draftO draftM w.objs th
  store := w.uq
  box := w.items
  live := w.bqs.filter w.alive
  level := w.tail
  ticket := tickets w.ws w.wAll
  forMsg := g.forMsg
  seat := seats w.cells
  owner := g.owner
  idle := w.wRx.filter (isEmpty w.cells)
  limbo := bagOf limboO limboM w.objs th
  held := bagOf heldO heldM w.objs th
  answer := answers w.resp
  known := g.known
  hist := w.log.filter shown

/-! ### What the ghost has to remember -/

def okM (g : Ghost) : Micro → Prop
  | .sendFin _ _ mid _ => g.known mid = true
  | .pollWs _ _ mid h _ => g.forMsg h = mid
  | .recvPoll r b c _ => g.owner c = (r, b)
  | .recvBcast r b c _ => g.owner c = (r, b)
  | _ => True

def okO (g : Ghost) (f : Nat) : Obj → Prop
  | .send _ mid .done => g.known mid = true
  | .send _ mid (.waiting h) => g.forMsg h = mid
  | .recv b (.waiting c) => g.owner c = (f, b)
  | _ => True

structure GInv (w : World) (th : List (List Micro)) (g : Ghost) : Prop where
  th : ∀ x ∈ th, ∀ m ∈ x, okM g m
  obj : ∀ (f : Nat) (o : Obj), w.objs[f]? = some o → okO g f o

/-! ### Lemmas about parts -/

theorem tickets_at {ws : List WsCell} {wAll : List Nat} {h : Nat} {x : WsCell} (hc : ws[h]? = some x) :
    tickets ws wAll h = ofWs wAll h x := tab_some hc
theorem seats_at {cells : List RxCell} {c : Nat} {x : RxCell} (hc : cells[c]? = some x) : seats cells c = ofRx x := tab_some hc
theorem answers_at {resp : List Resp} {i : Nat} {x : Resp} (hc : resp[i]? = some x) : answers resp i = ofResp x := tab_some hc

theorem answers_interrupt (resp : List Resp) (i : Nat) :
    answers (resp.modify i Resp.interrupt) = put (answers resp) i (answers resp i).interrupt :=
  tab_modify Answer.interrupt (fun x _ => ofResp_interrupt x) rfl

theorem answers_fulfil (resp : List Resp) (i v : Nat) :
    answers (resp.modify i (Resp.fulfil v)) = put (answers resp) i ((answers resp i).give v) :=
  tab_modify (Answer.give v) (fun x _ => ofResp_fulfil v x) rfl

theorem answers_wk {resp : List Resp} {i : Nat} {wk wk' : Option Nat} (h : resp[i]? = some (.waiting wk)) :
    answers (resp.set i (.waiting wk')) = answers resp := by
  have h1 : answers resp i = .owed := tab_some h
  have h2 : answers (resp.set i (.waiting wk')) = put (answers resp) i .owed := tab_set h
  rw [h2, ← h1, put_same]

theorem hist_late (w : World) (m : Msg) : (w.lateLog m).filter shown = w.log.filter shown := by
  unfold World.lateLog; split <;> simp [shown]

theorem isEmpty_iff {cells : List RxCell} {c : Nat} : isEmpty cells c = true ↔ ∃ wk, cells[c]? = some (.empty wk) := by
  unfold isEmpty; split
  · rename_i wk h; exact ⟨fun _ => ⟨wk, h⟩, fun _ => rfl⟩
  · rename_i h; simp; intro wk hh; exact h wk hh

theorem isEmpty_seat {cells : List RxCell} {c : Nat} : isEmpty cells c = true ↔ seats cells c = .waiting := by
  unfold seats tab isEmpty
  cases h : cells[c]? with
  | none => simp
  | some x => cases x <;> simp [ofRx]

theorem isEmpty_set_ne {cells : List RxCell} {c k : Nat} (x : RxCell) (h : k ≠ c) :
    isEmpty (cells.set c x) k = isEmpty cells k := by
  unfold isEmpty; rw [List.getElem?_set_ne (Ne.symm h)]

theorem idle_noneEmpty {cells : List RxCell} {q : List Nat} (h : noneEmpty cells q) : q.filter (isEmpty cells) = [] := by
  rw [List.filter_eq_nil_iff]
  intro c hc he
  obtain ⟨wk, hh⟩ := isEmpty_iff.mp he
  exact h c hc wk hh

/-- Handing something to the first waiting receiver. -/
theorem idle_hand {cells : List RxCell} {pre rest : List Nat} {c : Nat} {wk : Option Nat} {k : Ctrl}
    (hp : noneEmpty cells pre) (hc : cells[c]? = some (.empty wk)) (hn : c ∉ rest) :
    (pre ++ c :: rest).filter (isEmpty cells) = c :: rest.filter (isEmpty (cells.set c (.full k wk))) := by
  have h1 : isEmpty cells c = true := isEmpty_iff.mpr ⟨wk, hc⟩
  rw [List.filter_append, idle_noneEmpty hp, List.nil_append, List.filter_cons_of_pos (by exact h1)]
  congr 1
  apply List.filter_congr
  intro x hx
  rw [isEmpty_set_ne]
  rintro rfl; exact hn hx

theorem roomOne_iff (w : World) (th : List (List Micro)) (g : Ghost) : (abs w th g).roomOne ↔ w.uniFull = false := by
  unfold State.roomOne World.uniFull
  simp only [abs]
  cases h : w.cap with
  | none => simp
  | some c => simp

theorem roomAll_iff (w : World) (th : List (List Micro)) (g : Ghost) : (abs w th g).roomAll ↔ w.bcFull = false := by
  unfold State.roomAll World.bcFull
  simp only [abs]
  cases h : w.cap with
  | none => simp
  | some c => simp

end Xtra.Ideal
