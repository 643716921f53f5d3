import Verif.Frame
/-! Ownership: every object slot, parked-sender cell and receiver cell is used by at most one place. -/

namespace Xtra

/-- The object slot a pending step will write back to. -/
def Micro.slot : Micro → Option Nat
  | .sendLd1 f .. => some f
  | .sendLd2 f .. => some f
  | .sendCrit f .. => some f
  | .pollWs f .. => some f
  | .sendFin f .. => some f
  | .recvTry r .. => some r
  | .recvPoll r .. => some r
  | .recvBcast r .. => some r
  | .newBq o => some o
  | .join1 o _ => some o
  | .join2 o _ => some o
  | _ => none

/-- 1 if equal, else 0. -/
def eq1 (i : Nat) (o : Option Nat) : Nat := if o = some i then 1 else 0

@[simp] theorem eq1_none (i : Nat) : eq1 i none = 0 := rfl
theorem eq1_some (i j : Nat) : eq1 i (some j) = if j = i then 1 else 0 := by simp [eq1]

/-- The parked-sender cell a pending step owns. -/
def Micro.wsId : Micro → Option Nat
  | .pollWs _ _ _ h _ => some h
  | .dropWs h => some h
  | _ => none

def Obj.wsId : Obj → Option Nat
  | .send _ _ (.waiting h) => some h
  | _ => none

/-- The receiver cell a pending step owns. -/
def Micro.cellId : Micro → Option Nat
  | .recvPoll _ _ c _ => some c
  | .recvBcast _ _ c _ => some c
  | .cancel _ c => some c
  | .dropCell c => some c
  | _ => none

def Obj.cellId : Obj → Option Nat
  | .recv _ (.waiting c) => some c
  | _ => none

def Micro.bcastCell : Micro → Option Nat
  | .recvBcast _ _ c _ => some c
  | _ => none

def Micro.deadCell : Micro → Option Nat
  | .dropCell c => some c
  | _ => none

def World.busyAt (w : World) (i : Nat) : Nat := if w.objs[i]? = some .busy then 1 else 0

def World.wsLive (w : World) (h : Nat) : Nat := if wsActive w.ws h then 1 else 0

def cellLive (cells : List RxCell) (c : Nat) : Bool :=
  match cells[c]? with
  | some .gone => false
  | none => false
  | _ => true

def World.cellLv (w : World) (c : Nat) : Nat := if cellLive w.cells c then 1 else 0

def World.usedAt (w : World) (c : Nat) : Nat := if w.cells[c]? = some .used then 1 else 0

/-- Cell still expects or holds a notification. -/
def cellOpen (cells : List RxCell) (c : Nat) : Prop :=
  ∃ x, cells[c]? = some x ∧ x ≠ .used ∧ x ≠ .gone

/-- What a pending step relies on. -/
def WF (w : World) : Micro → Prop
  | .sendLd1 f .. => w.objs[f]? = some .busy
  | .sendLd2 f .. => w.objs[f]? = some .busy
  | .sendCrit f .. => w.objs[f]? = some .busy
  | .pollWs f _ _ h _ => w.objs[f]? = some .busy ∧ wsActive w.ws h = true
  | .sendFin f .. => w.objs[f]? = some .busy
  | .dropWs h => wsActive w.ws h = true
  | .recvTry r .. => w.objs[r]? = some .busy
  | .recvPoll r _ c _ => w.objs[r]? = some .busy ∧ cellOpen w.cells c
  | .recvBcast r _ c _ => w.objs[r]? = some .busy ∧ w.cells[c]? = some .used
  | .cancel _ c => cellOpen w.cells c
  | .dropCell c => cellLive w.cells c = true
  | .newBq o => w.objs[o]? = some .busy
  | .join1 o _ => w.objs[o]? = some .busy
  | .join2 o _ => w.objs[o]? = some .busy
  | _ => True

/-! ### effect of helpers on liveness -/

theorem wsActive_set {ws : List WsCell} {h : Nat} (x : WsCell) (k : Nat)
    (hx : x ≠ .gone) (ha : wsActive ws h = true) : wsActive (ws.set h x) k = wsActive ws k := by
  unfold wsActive at *
  by_cases hk : h = k
  · subst hk
    cases hw : ws[h]? with
    | none => simp [hw] at ha
    | some y =>
      rw [List.getElem?_set_self (by exact (List.getElem?_eq_some_iff.mp hw).1)]
      cases x <;> cases y <;> simp_all
  · rw [List.getElem?_set_ne hk]

theorem mem_of_getElem?_filter {α : Type} {p : α → Bool} {q : List α} {i : Nat} {x : α}
    (h : (q.filter p)[i]? = some x) : p x = true ∧ x ∈ q := by
  have := List.mem_of_getElem? h
  simp at this; exact ⟨this.2, this.1⟩

theorem takeWaiting_wsActive (n : Nat) (ws : List WsCell) (q : List Nat) (k : Nat) :
    wsActive (takeWaiting n ws q).1 k = wsActive ws k := by
  induction n generalizing ws q with
  | zero => rfl
  | succ n ih =>
    unfold takeWaiting
    simp only []
    split
    · rfl
    · split
      · rfl
      · rename_i h hq
        have hact := (mem_of_getElem?_filter hq).1
        split
        · exact wsActive_set _ _ (by simp) hact
        · rw [ih]; exact wsActive_set _ _ (by simp) hact

theorem cellLive_set {cells : List RxCell} {c : Nat} (x : RxCell) (k : Nat)
    (hx : x ≠ .gone) (ha : cellLive cells c = true) : cellLive (cells.set c x) k = cellLive cells k := by
  unfold cellLive at *
  by_cases hk : c = k
  · subst hk
    cases hw : cells[c]? with
    | none => simp [hw] at ha
    | some y =>
      rw [List.getElem?_set_self (by exact (List.getElem?_eq_some_iff.mp hw).1)]
      cases x <;> cases y <;> simp_all
  · rw [List.getElem?_set_ne hk]

theorem fulfil_cellLive (cells : List RxCell) (q : List Nat) (m : Msg) (k : Nat) :
    cellLive (fulfil cells q m).1 k = cellLive cells k := by
  induction q with
  | nil => rfl
  | cons c cs ih =>
    unfold fulfil
    split
    · rename_i h
      exact cellLive_set _ _ (by simp) (by simp [cellLive, h])
    · exact ih

theorem set_used {cells : List RxCell} {c : Nat} {y : RxCell} (x : RxCell) (k : Nat)
    (hc : cells[c]? = some y) (hx : x ≠ .used) (hy : y ≠ .used) :
    ((cells.set c x)[k]? = some .used) = (cells[k]? = some .used) := by
  by_cases hk : c = k
  · subst hk
    rw [List.getElem?_set_self (by exact (List.getElem?_eq_some_iff.mp hc).1), hc]
    simp [hx, hy]
  · rw [List.getElem?_set_ne hk]

theorem fulfil_used (cells : List RxCell) (q : List Nat) (m : Msg) (k : Nat) :
    ((fulfil cells q m).1[k]? = some .used) = (cells[k]? = some .used) := by
  induction q with
  | nil => rfl
  | cons c cs ih =>
    unfold fulfil
    split
    · rename_i h
      exact set_used _ _ h (by simp) (by simp)
    · exact ih

theorem notifyCell_cellLive (cells : List RxCell) (c : Nat) (x : Ctrl) (k : Nat) :
    cellLive (notifyCell cells c x) k = cellLive cells k := by
  unfold notifyCell
  split
  · rename_i h
    exact cellLive_set _ _ (by simp) (by simp [cellLive, h])
  · rfl

theorem notifyCell_used (cells : List RxCell) (c : Nat) (x : Ctrl) (k : Nat) :
    ((notifyCell cells c x)[k]? = some .used) = (cells[k]? = some .used) := by
  unfold notifyCell
  split
  · rename_i h
    exact set_used _ _ h (by simp) (by simp)
  · rfl

theorem notifyAll_cellLive (q : List Nat) (cells : List RxCell) (x : Ctrl) (k : Nat) :
    cellLive (q.foldl (fun cs c => notifyCell cs c x) cells) k = cellLive cells k := by
  induction q generalizing cells with
  | nil => rfl
  | cons c cs ih => simp only [List.foldl_cons]; rw [ih, notifyCell_cellLive]

theorem notifyAll_used (q : List Nat) (cells : List RxCell) (x : Ctrl) (k : Nat) :
    ((q.foldl (fun cs c => notifyCell cs c x) cells)[k]? = some .used) = (cells[k]? = some .used) := by
  induction q generalizing cells with
  | nil => rfl
  | cons c cs ih => simp only [List.foldl_cons]; rw [ih, notifyCell_used]

end Xtra
