import Verif.StepR
/-! The ownership invariant. -/

set_option linter.unusedSimpArgs false

namespace Xtra

theorem popUnicast_wsActive {w : World} {r : Msg × World} (h : w.popUnicast = some r) (k : Nat) :
    wsActive r.2.ws k = wsActive w.ws k := by
  unfold World.popUnicast at h
  split at h
  · simp at h
  · rename_i m q hp
    simp only [] at h
    split at h
    · simp at h; subst h; rfl
    · split at h
      · rename_i ws q' m' ht
        simp at h; subst h
        have := takeWaiting_wsActive (w.wOne.length + 1) w.ws w.wOne k
        rw [ht] at this; exact this
      · rename_i ws q' ht
        simp at h; subst h
        have := takeWaiting_wsActive (w.wOne.length + 1) w.ws w.wOne k
        rw [ht] at this; exact this

theorem sendBroadcast_cellLive (w : World) (m : Msg) (k : Nat) :
    cellLive (w.sendBroadcast m).cells k = cellLive w.cells k := notifyAll_cellLive _ _ _ _

theorem sendBroadcast_used (w : World) (m : Msg) (k : Nat) :
    ((w.sendBroadcast m).cells[k]? = some .used) = (w.cells[k]? = some .used) := notifyAll_used _ _ _ _

theorem popBroadcast_own {w : World} {b : Nat} {r : Msg × World} (h : w.popBroadcast b = some r)
    (k : Nat) : wsActive r.2.ws k = wsActive w.ws k ∧ cellLive r.2.cells k = cellLive w.cells k ∧
      (r.2.cells[k]? = some .used) = (w.cells[k]? = some .used) := by
  unfold World.popBroadcast at h
  split at h
  · simp at h
  · split at h
    · simp at h
    · simp only [] at h
      split at h
      · simp at h; subst h; simp
      · split at h
        · rename_i ws q' m' ht
          simp at h; subst h
          have := takeWaiting_wsActive (w.wAll.length + 1) w.ws w.wAll k
          rw [ht] at this
          exact ⟨this, sendBroadcast_cellLive _ _ _, sendBroadcast_used _ _ _⟩
        · rename_i ws q' ht
          simp at h; subst h
          have := takeWaiting_wsActive (w.wAll.length + 1) w.ws w.wAll k
          rw [ht] at this
          exact ⟨this, rfl, rfl⟩

theorem tryRecv_wsActive (w : World) (b k : Nat) :
    wsActive (w.tryRecv b).1.ws k = wsActive w.ws k := by
  rcases tryRecv_cases w b with ⟨m, w', hp, h, -⟩ | ⟨m, w', hp, h, -⟩ | ⟨-, -, -, h⟩ | ⟨-, -, -, h⟩
  · rw [h]; exact (popBroadcast_own hp k).1
  · rw [h]; exact popUnicast_wsActive hp k
  · rw [h]
  · rw [h]

theorem closeHandle_wsActive (w : World) (h k : Nat) :
    wsActive (w.closeHandle h).ws k = wsActive w.ws k := by
  unfold World.closeHandle
  split
  · rename_i hc
    simp only [World.kill_ws]
    exact wsActive_set _ _ (by simp) (by simp [wsActive, hc])
  · rfl

theorem closeHandles_wsActive (hs : List Nat) (w : World) (k : Nat) :
    wsActive (w.closeHandles hs).ws k = wsActive w.ws k := by
  induction hs generalizing w with
  | nil => rfl
  | cons h hs ih => simp only [World.closeHandles]; rw [ih, closeHandle_wsActive]

theorem shutTx_wsActive (w : World) (k : Nat) : wsActive w.shutTx.ws k = wsActive w.ws k := by
  simp only [World.shutTx]
  rw [closeHandles_wsActive]; simp only []
  rw [closeHandles_wsActive]; simp only [World.killAll_ws]

theorem wsActive_append (ws : List WsCell) (x : WsCell) (hx : x ≠ .gone) (k : Nat) :
    wsActive (ws ++ [x]) k = (wsActive ws k || decide (k = ws.length)) := by
  unfold wsActive
  by_cases hk : k < ws.length
  · rw [List.getElem?_append_left hk]
    have : decide (k = ws.length) = false := by simp; omega
    rw [this, Bool.or_false]
  · rw [List.getElem?_append_right (by omega)]
    have hn : ws[k]? = none := by simp; omega
    by_cases he : k = ws.length
    · subst he; simp; cases x <;> simp_all
    · have : [x][k - ws.length]? = none := by simp; omega
      rw [this, hn]; simp [he]

theorem cellLive_append (cells : List RxCell) (x : RxCell) (hx : x ≠ .gone) (k : Nat) :
    cellLive (cells ++ [x]) k = (cellLive cells k || decide (k = cells.length)) := by
  unfold cellLive
  by_cases hk : k < cells.length
  · rw [List.getElem?_append_left hk]
    have : decide (k = cells.length) = false := by simp; omega
    rw [this, Bool.or_false]
  · rw [List.getElem?_append_right (by omega)]
    have hn : cells[k]? = none := by simp; omega
    by_cases he : k = cells.length
    · subst he; simp; cases x <;> simp_all
    · have : [x][k - cells.length]? = none := by simp; omega
      rw [this, hn]; simp [he]

theorem wsActive_lt {ws : List WsCell} {k : Nat} (h : wsActive ws k = true) : k < ws.length := by
  unfold wsActive at h
  by_cases hk : k < ws.length
  · exact hk
  · have : ws[k]? = none := by simp; omega
    rw [this] at h; simp at h

theorem cellLive_lt {ws : List RxCell} {k : Nat} (h : cellLive ws k = true) : k < ws.length := by
  unfold cellLive at h
  by_cases hk : k < ws.length
  · exact hk
  · have : ws[k]? = none := by simp; omega
    rw [this] at h; simp at h

theorem wsActive_set_gone {ws : List WsCell} {h : Nat} (k : Nat) :
    wsActive (ws.set h .gone) k = (wsActive ws k && !decide (k = h)) := by
  unfold wsActive
  by_cases hk : h = k
  · subst hk
    by_cases hl : h < ws.length
    · rw [List.getElem?_set_self hl]; simp
    · have h1 : ws[h]? = none := by simp; omega
      have h2 : (ws.set h .gone)[h]? = none := by simp; omega
      rw [h1, h2]; rfl
  · rw [List.getElem?_set_ne hk]
    have : decide (k = h) = false := by simp; omega
    simp [this]

theorem cellLive_set_gone {cells : List RxCell} {h : Nat} (k : Nat) :
    cellLive (cells.set h .gone) k = (cellLive cells k && !decide (k = h)) := by
  unfold cellLive
  by_cases hk : h = k
  · subst hk
    by_cases hl : h < cells.length
    · rw [List.getElem?_set_self hl]; simp
    · have h1 : cells[h]? = none := by simp; omega
      have h2 : (cells.set h .gone)[h]? = none := by simp; omega
      rw [h1, h2]; rfl
  · rw [List.getElem?_set_ne hk]
    have : decide (k = h) = false := by simp; omega
    simp [this]

/-- 1 if slot `i` is busy. -/
def busyL (objs : List Obj) (i : Nat) : Nat := if objs[i]? = some .busy then 1 else 0

theorem busyL_set {objs : List Obj} {f : Nat} {x : Obj} (h : objs[f]? = some x) (y : Obj) (i : Nat) :
    busyL (objs.set f y) i = if f = i then (if y = .busy then 1 else 0) else busyL objs i := by
  unfold busyL
  by_cases hk : f = i
  · subst hk
    rw [List.getElem?_set_self (by exact (List.getElem?_eq_some_iff.mp h).1)]
    simp
  · rw [List.getElem?_set_ne hk]; simp [hk]

theorem busyL_at {objs : List Obj} {f : Nat} {x : Obj} (h : objs[f]? = some x) :
    busyL objs f = if x = .busy then 1 else 0 := by
  unfold busyL; rw [h]; simp

theorem busyL_append {objs : List Obj} (y : Obj) (i : Nat) :
    busyL (objs ++ [y]) i = busyL objs i + (if y = .busy ∧ objs.length = i then 1 else 0) := by
  unfold busyL
  by_cases hk : i < objs.length
  · rw [List.getElem?_append_left hk]
    have : objs.length ≠ i := by omega
    simp [this]
  · rw [List.getElem?_append_right (by omega)]
    have hn : objs[i]? = none := by simp; omega
    rw [hn]
    by_cases he : objs.length = i
    · subst he; simp
    · have : [y][i - objs.length]? = none := by simp; omega
      rw [this]; simp [he]

theorem execR_slot {w w' : World} {m : Micro} {ms : List Micro} (h : ExecR w m w' ms) (hwf : WF w m)
    (i : Nat) :
    busyL w'.objs i + eq1 i m.slot = busyL w.objs i + sumBy (fun x => eq1 i x.slot) ms := by
  cases h
  case recv_all hp _ _ =>
    simp only [WF] at hwf
    have := World.popBroadcast_objs hp
    simp only [World.yieldMsg_objs, Micro.slot, eq1_some, this, busyL_set hwf]
    split
    · rename_i h; subst h; simp [busyL_at hwf]
    · simp
  case recv_one hp _ _ =>
    simp only [WF] at hwf
    have := World.popUnicast_objs hp
    simp only [World.yieldMsg_objs, Micro.slot, eq1_some, this, busyL_set hwf]
    split
    · rename_i h; subst h; simp [busyL_at hwf]
    · simp
  case recvBcast_some hp =>
    simp only [WF] at hwf
    have := World.popBroadcast_objs hp
    simp only [World.yieldMsg_objs, Micro.slot, eq1_some, this, busyL_set hwf.1]
    split
    · rename_i h; subst h; simp [busyL_at hwf.1]
    · simp
  case shutRx => simp [Micro.slot, sumBy_map, sumBy_eq_zero]
  all_goals simp only [WF] at hwf
  all_goals first
    | (simp [Micro.slot, eq1_some]; done)
    | (simp [Micro.slot, eq1_some, busyL_set hwf]
       split
       · rename_i h; subst h; simp [busyL_at hwf]
       · simp)
    | (simp [Micro.slot, eq1_some, busyL_set hwf.1]
       split
       · rename_i h; subst h; simp [busyL_at hwf.1]
       · simp)

theorem busyL_set_idle {objs : List Obj} {f : Nat} {y : Obj} (h : objs[f]? ≠ some .busy)
    (hy : y ≠ .busy) (i : Nat) : busyL (objs.set f y) i = busyL objs i := by
  unfold busyL
  by_cases hk : f = i
  · subst hk
    by_cases hl : f < objs.length
    · rw [List.getElem?_set_self hl]; simp [h, hy]
    · rw [List.set_eq_of_length_le (by omega)]
  · rw [List.getElem?_set_ne hk]

theorem busyL_set_busy {objs : List Obj} {f : Nat} (h : objs[f]? ≠ some .busy)
    (hs : (objs[f]?).isSome = true) (i : Nat) :
    busyL (objs.set f .busy) i = busyL objs i + eq1 i (some f) := by
  have hl : f < objs.length := by simpa using hs
  unfold busyL
  by_cases hk : f = i
  · subst hk
    rw [List.getElem?_set_self hl]; simp [h, eq1]
  · rw [List.getElem?_set_ne hk]; simp [eq1, hk]

theorem callR_slot {w w' : World} {c : Call} {ms : List Micro} (h : CallR w c w' ms) (i : Nat) :
    busyL w'.objs i = busyL w.objs i + sumBy (fun x => eq1 i x.slot) ms := by
  cases h <;> simp [*, Micro.slot, eq1_some, busyL_append, busyL_set_idle, busyL_set_busy]

/-- 1 if equal. -/
def is1 (k h : Nat) : Nat := if h = k then 1 else 0

@[simp] theorem is1_self (k : Nat) : is1 k k = 1 := by simp [is1]

def wsL (ws : List WsCell) (h : Nat) : Nat := if wsActive ws h then 1 else 0

def sWs (k : Nat) : Sending → Nat
  | .waiting h => is1 k h
  | _ => 0
/-- Objects referring to parked-sender cell `k`. -/
def oWs (k : Nat) : Obj → Nat
  | .send _ _ s => sWs k s
  | _ => 0
/-- Pending steps referring to parked-sender cell `k`. -/
def mWs (k : Nat) : Micro → Nat
  | .pollWs _ _ _ h _ => is1 k h
  | .dropWs h => is1 k h
  | _ => 0

theorem callR_ws {w w' : World} {c : Call} {ms : List Micro} (h : CallR w c w' ms) (k : Nat) :
    sumBy (oWs k) w'.objs + sumBy (mWs k) ms = sumBy (oWs k) w.objs ∧ w'.ws = w.ws := by
  have key : ∀ f x y, w.objs[f]? = some x →
      sumBy (oWs k) (w.objs.set f y) + oWs k x = sumBy (oWs k) w.objs + oWs k y :=
    fun f x y h => sumBy_set _ y h
  cases h <;> simp [mWs, oWs, sWs] <;> grind [mWs, oWs, sWs]

theorem wsL_congr {ws ws' : List WsCell} {k : Nat} (h : wsActive ws' k = wsActive ws k) :
    wsL ws' k = wsL ws k := by unfold wsL; rw [h]

theorem wsL_gone {ws : List WsCell} {h : Nat} (ha : wsActive ws h = true) (k : Nat) :
    wsL (ws.set h .gone) k + is1 k h = wsL ws k := by
  unfold wsL is1
  rw [wsActive_set_gone]
  by_cases hk : h = k
  · subst hk; simp [ha]
  · have : decide (k = h) = false := by simp; omega
    simp [this, hk]

theorem wsL_append (ws : List WsCell) (x : WsCell) (hx : x ≠ .gone) (k : Nat) :
    wsL (ws ++ [x]) k = wsL ws k + is1 k ws.length := by
  unfold wsL is1
  rw [wsActive_append _ _ hx]
  by_cases hk : k = ws.length
  · subst hk
    have : wsActive ws ws.length = false := by
      cases h : wsActive ws ws.length with
      | false => rfl
      | true => have := wsActive_lt h; omega
    simp [this]
  · have h2 : ¬ ws.length = k := by omega
    simp [hk, h2]

theorem execR_ws {w w' : World} {m : Micro} {ms : List Micro} (h : ExecR w m w' ms) (hwf : WF w m)
    (k : Nat) :
    wsL w'.ws k + sumBy (oWs k) w.objs + mWs k m =
      wsL w.ws k + sumBy (oWs k) w'.objs + sumBy (mWs k) ms := by
  have key : ∀ f x y, w.objs[f]? = some x →
      sumBy (oWs k) (w.objs.set f y) + oWs k x = sumBy (oWs k) w.objs + oWs k y :=
    fun f x y h => sumBy_set _ y h
  cases h
  case recv_all hp _ _ =>
    simp only [WF] at hwf
    have h1 := World.popBroadcast_objs hp
    have h2 := wsL_congr (popBroadcast_own hp k).1
    have h3 := fun a b => key _ _ (.message a b) hwf
    simp [mWs, h1, oWs] at h2 h3 ⊢; rw [h3]; omega
  case recv_one hp _ _ =>
    simp only [WF] at hwf
    have h1 := World.popUnicast_objs hp
    have h2 := wsL_congr (popUnicast_wsActive hp k)
    have h3 := fun a b => key _ _ (.message a b) hwf
    simp [mWs, h1, oWs] at h2 h3 ⊢; rw [h3]; omega
  case recvBcast_some hp =>
    simp only [WF] at hwf
    have h1 := World.popBroadcast_objs hp
    have h2 := wsL_congr (popBroadcast_own hp k).1
    have h3 := fun a b => key _ _ (.message a b) hwf.1
    simp [mWs, h1, oWs] at h2 h3 ⊢; rw [h3]; omega
  case shutRx => simp [mWs, sumBy_map, sumBy_eq_zero]
  case shutTx => simp [mWs, wsL_congr (shutTx_wsActive w k)]
  case pollWs_active h =>
    simp only [WF] at hwf
    have h2 := fun y m => wsL_congr (wsActive_set (.active (some y) m) k (by simp) hwf.2)
    have h3 := fun a b c => key _ _ (.send a b c) hwf.1
    simp [mWs, oWs, sWs] at h2 h3 ⊢; rw [h2, h3]; simp [sWs]; omega
  case pollWs_delivered h =>
    simp only [WF] at hwf
    have := wsL_gone hwf.2 k
    simp [mWs]; omega
  case pollWs_closed h =>
    simp only [WF] at hwf
    have := wsL_gone hwf.2 k
    have h3 := key _ _ .gone hwf.1
    simp [mWs, oWs] at h3 ⊢; omega
  case pollWs_panic h => simp only [WF] at hwf; rw [h] at hwf; simp at hwf
  case dropWs_active h =>
    simp only [WF] at hwf
    have := wsL_gone hwf k
    simp [mWs]; omega
  case dropWs_other h =>
    simp only [WF] at hwf
    have := wsL_gone hwf k
    simp [mWs]; omega
  all_goals simp only [WF] at hwf
  all_goals (simp [mWs, oWs, sWs, wsL_append] <;> grind [mWs, oWs, sWs])

/-! ### receiver cells -/

def cellL (cells : List RxCell) (c : Nat) : Nat := if cellLive cells c then 1 else 0
def usedL (cells : List RxCell) (c : Nat) : Nat := if cells[c]? = some .used then 1 else 0

def rCell (k : Nat) : Recv → Nat
  | .waiting c => is1 k c
  | .new => 0
/-- Objects referring to receiver cell `k`. -/
def oCell (k : Nat) : Obj → Nat
  | .recv _ s => rCell k s
  | _ => 0
/-- Pending steps referring to receiver cell `k`. -/
def mCell (k : Nat) : Micro → Nat
  | .recvPoll _ _ c _ => is1 k c
  | .recvBcast _ _ c _ => is1 k c
  | .cancel _ c => is1 k c
  | .dropCell c => is1 k c
  | _ => 0
/-- Pending second half of a broadcast wake-up. -/
def mBc (k : Nat) : Micro → Nat
  | .recvBcast _ _ c _ => is1 k c
  | _ => 0
/-- Pending drop of a receiver cell. -/
def mDead (k : Nat) : Micro → Nat
  | .dropCell c => is1 k c
  | _ => 0

theorem callR_cell {w w' : World} {c : Call} {ms : List Micro} (h : CallR w c w' ms) (k : Nat) :
    sumBy (oCell k) w'.objs + sumBy (mCell k) ms = sumBy (oCell k) w.objs ∧ w'.cells = w.cells ∧
      sumBy (mBc k) ms = 0 ∧ sumBy (mDead k) ms = 0 := by
  have key : ∀ f x y, w.objs[f]? = some x →
      sumBy (oCell k) (w.objs.set f y) + oCell k x = sumBy (oCell k) w.objs + oCell k y :=
    fun f x y h => sumBy_set _ y h
  cases h <;> simp [mCell, oCell, rCell, mBc, mDead] <;> grind [mCell, oCell, rCell]

theorem cellL_congr {ws ws' : List RxCell} {k : Nat} (h : cellLive ws' k = cellLive ws k) :
    cellL ws' k = cellL ws k := by unfold cellL; rw [h]

theorem usedL_congr {ws ws' : List RxCell} {k : Nat}
    (h : (ws'[k]? = some .used) = (ws[k]? = some .used)) : usedL ws' k = usedL ws k := by
  unfold usedL; simp only [h]

theorem cellL_gone {ws : List RxCell} {h : Nat} (ha : cellLive ws h = true) (k : Nat) :
    cellL (ws.set h .gone) k + is1 k h = cellL ws k := by
  unfold cellL is1
  rw [cellLive_set_gone]
  by_cases hk : h = k
  · subst hk; simp [ha]
  · have : decide (k = h) = false := by simp; omega
    simp [this, hk]

theorem cellL_set {cells : List RxCell} {c : Nat} {x : RxCell} (hx : x ≠ .gone)
    (ha : cellLive cells c = true) (k : Nat) : cellL (cells.set c x) k = cellL cells k :=
  cellL_congr (cellLive_set x k hx ha)

theorem usedL_set {cells : List RxCell} {c : Nat} {x y : RxCell} (hc : cells[c]? = some y)
    (hx : x ≠ .used) (k : Nat) (hy : y ≠ .used) : usedL (cells.set c x) k = usedL cells k :=
  usedL_congr (set_used x k hc hx hy)

theorem usedL_used {cells : List RxCell} {c : Nat} {y : RxCell} (hc : cells[c]? = some y)
    (k : Nat) (hy : y ≠ .used) : usedL (cells.set c .used) k = usedL cells k + is1 k c := by
  unfold usedL is1
  by_cases hk : c = k
  · subst hk
    rw [List.getElem?_set_self (by exact (List.getElem?_eq_some_iff.mp hc).1), hc]
    simp [hy]
  · rw [List.getElem?_set_ne hk]; simp [hk]

theorem usedL_unuse {cells : List RxCell} {c : Nat} {x : RxCell} (hc : cells[c]? = some .used)
    (hx : x ≠ .used) (k : Nat) : usedL (cells.set c x) k + is1 k c = usedL cells k := by
  unfold usedL is1
  by_cases hk : c = k
  · subst hk
    rw [List.getElem?_set_self (by exact (List.getElem?_eq_some_iff.mp hc).1), hc]
    simp [hx]
  · rw [List.getElem?_set_ne hk]; simp [hk]

theorem cellL_append (ws : List RxCell) (x : RxCell) (hx : x ≠ .gone) (k : Nat) :
    cellL (ws ++ [x]) k = cellL ws k + is1 k ws.length := by
  unfold cellL is1
  rw [cellLive_append _ _ hx]
  by_cases hk : k = ws.length
  · subst hk
    have : cellLive ws ws.length = false := by
      cases h : cellLive ws ws.length with
      | false => rfl
      | true => have := cellLive_lt h; omega
    simp [this]
  · have h2 : ¬ ws.length = k := by omega
    simp [hk, h2]

theorem usedL_append (ws : List RxCell) (x : RxCell) (hx : x ≠ .used) (k : Nat) :
    usedL (ws ++ [x]) k = usedL ws k := by
  apply usedL_congr
  by_cases hk : k < ws.length
  · rw [List.getElem?_append_left hk]
  · rw [List.getElem?_append_right (by omega)]
    have hn : ws[k]? = none := by simp; omega
    rw [hn]
    by_cases he : k = ws.length
    · subst he; simp [hx]
    · have : [x][k - ws.length]? = none := by simp; omega
      rw [this]

theorem live_of {cells : List RxCell} {c : Nat} {x : RxCell} (h : cells[c]? = some x)
    (hx : x ≠ .gone) : cellLive cells c = true := by
  unfold cellLive; rw [h]; cases x <;> simp_all

theorem execR_cell {w w' : World} {m : Micro} {ms : List Micro} (h : ExecR w m w' ms) (hwf : WF w m)
    (k : Nat) :
    cellL w'.cells k + sumBy (oCell k) w.objs + mCell k m =
      cellL w.cells k + sumBy (oCell k) w'.objs + sumBy (mCell k) ms := by
  have key : ∀ f x y, w.objs[f]? = some x →
      sumBy (oCell k) (w.objs.set f y) + oCell k x = sumBy (oCell k) w.objs + oCell k y :=
    fun f x y h => sumBy_set _ y h
  cases h
  case recv_all hp _ _ =>
    simp only [WF] at hwf
    have h1 := World.popBroadcast_objs hp
    have h2 := cellL_congr (popBroadcast_own hp k).2.1
    have h3 := fun a b => key _ _ (.message a b) hwf
    simp [mCell, h1, oCell] at h2 h3 ⊢; rw [h3]; omega
  case recv_one hp _ _ =>
    simp only [WF] at hwf
    have h1 := World.popUnicast_objs hp
    have h2 := World.popUnicast_cells hp
    have h3 := fun a b => key _ _ (.message a b) hwf
    simp [mCell, h1, h2, oCell] at h3 ⊢; rw [h3]
  case recvBcast_some hp =>
    simp only [WF] at hwf
    have h1 := World.popBroadcast_objs hp
    have h2 := fun c => cellL_congr (popBroadcast_own hp c).2.1
    have h3 := fun a b => key _ _ (.message a b) hwf.1
    have h4 := cellL_gone (by rw [(popBroadcast_own hp _).2.1]; exact live_of hwf.2 (by simp)) k
    have h5 := h2 k
    simp [mCell, h1, oCell] at h2 h3 h4 h5 ⊢; rw [h3]; omega
  case recvBcast_none hp =>
    simp only [WF] at hwf
    have h4 := cellL_gone (live_of hwf.2 (by simp)) k
    simp [mCell] at h4 ⊢; omega
  case shutRx => simp [mCell, sumBy_map, sumBy_eq_zero]
  case critAll_sent => simp [mCell, cellL_congr (sendBroadcast_cellLive _ _ k)]
  case bcastShutdown => simp [mCell, cellL_congr (sendBroadcast_cellLive _ _ k)]
  case notifyShut => simp [mCell, cellL_congr (notifyCell_cellLive _ _ _ k)]
  case critOne_hand hc =>
    have := fun a b => cellL_set (x := .full a b) (by simp) (live_of hc (by simp)) k
    simp [mCell, this]
  case requeue_hand hc =>
    have := fun a b => cellL_set (x := .full a b) (by simp) (live_of hc (by simp)) k
    simp [mCell, this]
  case recv_wait => simp [mCell, cellL_append]; omega
  case recvPoll_empty hc =>
    simp only [WF] at hwf
    have h3 := fun a b => key _ _ (.recv a b) hwf.1
    have h4 := fun a => cellL_set (x := .empty a) (by simp) (live_of hc (by simp)) k
    simp [mCell, oCell, h4] at h3 ⊢; rw [h3]
    simp [rCell]; omega
  case recvPoll_one hc =>
    simp only [WF] at hwf
    have h3 := fun a b => key _ _ (.message a b) hwf.1
    have h4 := cellL_gone (live_of hc (by simp)) k
    simp [mCell, oCell] at h3 ⊢; rw [h3]; omega
  case recvPoll_shutdown hc =>
    simp only [WF] at hwf
    have h3 := fun a b => key _ _ (.message a b) hwf.1
    have h4 := cellL_gone (live_of hc (by simp)) k
    simp [mCell, oCell] at h3 ⊢; rw [h3]; omega
  case recvPoll_bcast hc => 
    simp [mCell, cellL_set (x := .used) (by simp) (live_of hc (by simp)) k]
  case recvPoll_panic hc =>
    simp only [WF] at hwf
    obtain ⟨x, h1, h2, h3⟩ := hwf.2
    rw [h1] at hc; simp [h2, h3] at hc
  case cancel_msg hc => simp [mCell, cellL_set (x := .used) (by simp) (live_of hc (by simp)) k]
  case cancel_full hc _ => simp [mCell, cellL_set (x := .used) (by simp) (live_of hc (by simp)) k]
  case dropCell_lost hc =>
    have h4 := cellL_gone (live_of hc (by simp)) k
    simp [mCell] at h4 ⊢; omega
  case dropCell_other hc =>
    have h4 := cellL_gone hwf k
    simp [mCell] at h4 ⊢; omega
  all_goals simp only [WF] at hwf
  all_goals (simp [mCell, oCell, rCell] <;> grind [mCell, oCell, rCell])


theorem usedL_gone_self (cells : List RxCell) (c : Nat) : usedL (cells.set c .gone) c = 0 := by
  unfold usedL
  by_cases hl : c < cells.length
  · rw [List.getElem?_set_self hl]; simp
  · have h2 : (cells.set c .gone)[c]? = none := by simp; omega
    rw [h2]; simp

theorem usedL_set_ne {cells : List RxCell} {c k : Nat} (x : RxCell) (h : c ≠ k) :
    usedL (cells.set c x) k = usedL cells k := by
  unfold usedL; rw [List.getElem?_set_ne h]

theorem usedL_set_eq {cells : List RxCell} {c : Nat} {y : RxCell} (hc : cells[c]? = some y)
    (x : RxCell) (k : Nat) :
    usedL (cells.set c x) k = if c = k then (if x = .used then 1 else 0) else usedL cells k := by
  unfold usedL
  by_cases hk : c = k
  · subst hk
    rw [List.getElem?_set_self (by exact (List.getElem?_eq_some_iff.mp hc).1)]; simp
  · rw [List.getElem?_set_ne hk]; simp [hk]

theorem usedL_at {cells : List RxCell} {c : Nat} {y : RxCell} (hc : cells[c]? = some y) :
    usedL cells c = if y = .used then 1 else 0 := by
  unfold usedL; rw [hc]; simp

theorem live_get {cells : List RxCell} {c : Nat} (h : cellLive cells c = true) :
    ∃ y, cells[c]? = some y ∧ y ≠ .gone := by
  unfold cellLive at h
  cases hc : cells[c]? with
  | none => rw [hc] at h; simp at h
  | some y => rw [hc] at h; exact ⟨y, rfl, by rintro rfl; simp at h⟩

theorem execR_used {w w' : World} {m : Micro} {ms : List Micro} (h : ExecR w m w' ms) (hwf : WF w m)
    (k : Nat) :
    (sumBy (mBc k) ms + usedL w.cells k ≤ mBc k m + usedL w'.cells k ∨
      (mDead k m = 1 ∧ sumBy (mBc k) ms = 0)) ∧
    (usedL w'.cells k = 0 ∨ (mBc k m + mDead k m = 0 ∧
      usedL w'.cells k ≤ usedL w.cells k + sumBy (mBc k) ms + sumBy (mDead k) ms)) := by
  have key : ∀ c x y, w.cells[c]? = some y →
      usedL (w.cells.set c x) k = if c = k then (if x = .used then 1 else 0) else usedL w.cells k :=
    fun c x y h => usedL_set_eq h x k
  have kat : ∀ y, w.cells[k]? = some y → usedL w.cells k = if y = .used then 1 else 0 :=
    fun y h => usedL_at h
  cases h
  case recv_all hp _ _ =>
    have h2 := usedL_congr (popBroadcast_own hp k).2.2
    simp [mBc, mDead, h2]
  case recv_one hp _ _ =>
    have h2 := World.popUnicast_cells hp
    simp [mBc, mDead, h2]
  case recvBcast_some c _ _ _ hp =>
    simp only [WF] at hwf
    have h2 := usedL_congr (popBroadcast_own hp k).2.2
    simp [mBc, mDead]
    by_cases hk : c = k
    · subst hk
      simp [usedL_gone_self]; simp [usedL]; split <;> omega
    · simp [usedL_set_ne _ hk, h2, is1, hk]
  case shutRx => simp [mBc, mDead, sumBy_map, sumBy_eq_zero]
  case critAll_sent => simp [mBc, mDead, usedL_congr (sendBroadcast_used _ _ k)]
  case bcastShutdown => simp [mBc, mDead, usedL_congr (sendBroadcast_used _ _ k)]
  case notifyShut => simp [mBc, mDead, usedL_congr (notifyCell_used _ _ _ k)]
  case dropCell_other hc =>
    simp only [WF] at hwf
    obtain ⟨y, h1, h2⟩ := live_get hwf
    simp [mBc, mDead]; grind [is1]
  case recv_wait => simp [mBc, mDead, usedL_append]
  case recvPoll_panic hc =>
    simp only [WF] at hwf
    obtain ⟨x, h1, h2, h3⟩ := hwf.2
    rw [h1] at hc; simp [h2, h3] at hc
  all_goals simp only [WF] at hwf
  all_goals (simp [mBc, mDead] <;> grind [is1])

/-- The ownership invariant. -/
structure Own (s : Sys) : Prop where
  slot : ∀ i, tot (fun x => eq1 i x.slot) s.th = busyL s.w.objs i
  ws : ∀ k, sumBy (oWs k) s.w.objs + tot (mWs k) s.th = wsL s.w.ws k
  cell : ∀ k, sumBy (oCell k) s.w.objs + tot (mCell k) s.th = cellL s.w.cells k
  bc : ∀ k, tot (mBc k) s.th ≤ usedL s.w.cells k
  used : ∀ k, usedL s.w.cells k ≤ tot (mBc k) s.th + tot (mDead k) s.th

theorem tot_le {α : Type _} {f g : α → Nat} (h : ∀ x, f x ≤ g x) (th : List (List α)) :
    tot f th ≤ tot g th := by
  have h1 : ∀ l : List α, sumBy f l ≤ sumBy g l := by
    intro l; induction l with
    | nil => simp
    | cons a l ih => have := h a; simp; omega
  unfold tot
  induction th with
  | nil => simp
  | cons a l ih => have := h1 a; simp; omega

theorem tot_add {α : Type _} (f g : α → Nat) (th : List (List α)) :
    tot (fun x => f x + g x) th = tot f th + tot g th := by
  unfold tot
  induction th with
  | nil => simp
  | cons a l ih => simp only [sumBy_cons, sumBy_add, ih]; omega

theorem Own.wf {s : Sys} (h : Own s) {t : Nat} {m : Micro} {rest : List Micro}
    (ht : s.th[t]? = some (m :: rest)) : WF s.w m := by
  have hslot : ∀ i, m.slot = some i → s.w.objs[i]? = some .busy := by
    intro i hi
    have h1 := h.slot i
    have h2 := tot_head (fun x : Micro => eq1 i x.slot) ht
    simp only [hi, eq1_some, if_true] at h2
    unfold busyL at h1
    split at h1
    · assumption
    · omega
  have hws : ∀ k, mWs k m = 1 → wsActive s.w.ws k = true := by
    intro k hk
    have h1 := h.ws k
    have h2 := tot_head (mWs k) ht
    unfold wsL at h1
    split at h1
    · assumption
    · omega
  have hcell : ∀ k, mCell k m = 1 → cellLive s.w.cells k = true := by
    intro k hk
    have h1 := h.cell k
    have h2 := tot_head (mCell k) ht
    unfold cellL at h1
    split at h1
    · assumption
    · omega
  have hopen : ∀ k, mCell k m = 1 → mBc k m = 0 → mDead k m = 0 → cellOpen s.w.cells k := by
    intro k hk hb hd
    obtain ⟨y, h1, h2⟩ := live_get (hcell k hk)
    refine ⟨y, h1, ?_, h2⟩
    rintro rfl
    have h3 := h.used k
    have h4 := h.cell k
    have h5 := tot_head (fun x => mBc k x + mDead k x + (if mBc k x = 0 ∧ mDead k x = 0 then mCell k x else 0)) ht
    have h6 : tot (fun x => mBc k x + mDead k x +
      (if mBc k x = 0 ∧ mDead k x = 0 then mCell k x else 0)) s.th ≤ tot (mCell k) s.th := by
      apply tot_le
      intro x; cases x <;> simp [mBc, mDead, mCell] <;> split <;> omega
    rw [tot_add, tot_add] at h6
    have h7 := tot_head (fun x => (if mBc k x = 0 ∧ mDead k x = 0 then mCell k x else 0)) ht
    simp [hb, hd, hk] at h7
    simp [cellL, cellLive, h1] at h4
    simp [usedL, h1] at h3
    omega
  cases m <;> simp only [WF]
  case sendLd1 => exact hslot _ rfl
  case sendLd2 => exact hslot _ rfl
  case sendCrit => exact hslot _ rfl
  case pollWs => exact ⟨hslot _ rfl, hws _ (by simp [mWs])⟩
  case sendFin => exact hslot _ rfl
  case dropWs => exact hws _ (by simp [mWs])
  case recvTry => exact hslot _ rfl
  case recvPoll => exact ⟨hslot _ rfl, hopen _ (by simp [mCell]) rfl rfl⟩
  case recvBcast r b c wk =>
    refine ⟨hslot _ rfl, ?_⟩
    have h1 := h.bc c
    have h2 := tot_head (mBc c) ht
    simp only [mBc, is1_self] at h2
    unfold usedL at h1
    split at h1
    · assumption
    · omega
  case cancel => exact hopen _ (by simp [mCell]) rfl rfl
  case dropCell => exact hcell _ (by simp [mCell])
  case newBq => exact hslot _ rfl
  case join1 => exact hslot _ rfl
  case join2 => exact hslot _ rfl

theorem own_reachable {cap : Option Nat} {s : Sys} (h : Reachable cap s) : Own s := by
  refine Reachable.inv (P := Own) ?_ ?_ ?_ h
  · constructor <;> intro k <;> simp [init, busyL, wsL, cellL, usedL, oWs, oCell, wsActive, cellLive]
    match k with
    | 0 => simp
    | 1 => simp
    | k + 2 => simp
  · intro s c w' ms _ ho hc
    constructor
    · intro i; have := callR_slot hc i; have := ho.slot i; simp; omega
    · intro k
      have h1 := callR_ws hc k; have h2 := ho.ws k
      simp [h1.2]; omega
    · intro k
      have h1 := callR_cell hc k; have h2 := ho.cell k
      simp [h1.2.1]; omega
    · intro k
      have h1 := callR_cell hc k; have h2 := ho.bc k
      simp [h1.2.1]; omega
    · intro k
      have h1 := callR_cell hc k; have h2 := ho.used k
      simp [h1.2.1]; omega
  · intro s t m rest w' ms _ ho ht he
    have hwf := ho.wf ht
    constructor
    · intro i; have := execR_slot he hwf i; have := ho.slot i
      have := tot_exec (fun x => eq1 i (Micro.slot x)) ms ht; simp only at *; omega
    · intro k
      have h1 := execR_ws he hwf k; have h2 := ho.ws k
      have h3 := tot_exec (mWs k) ms ht; simp only at *; omega
    · intro k
      have h1 := execR_cell he hwf k; have h2 := ho.cell k
      have h3 := tot_exec (mCell k) ms ht; simp only at *; omega
    · intro k
      have h1 := (execR_used he hwf k).1; have h2 := ho.bc k
      have h3 := tot_exec (mBc k) ms ht
      have h4 := ho.cell k
      have h5 := tot_head (fun x => mBc k x + mDead k x) ht
      rw [tot_add] at h5
      have h6 : tot (fun x => mBc k x + mDead k x) s.th ≤ tot (mCell k) s.th := by
        apply tot_le
        intro x; cases x <;> simp [mBc, mDead, mCell]
      rw [tot_add] at h6
      have h7 := tot_head (mDead k) ht
      have h8 : cellL s.w.cells k ≤ 1 := by unfold cellL; split <;> omega
      simp only at *; omega
    · intro k
      have h1 := (execR_used he hwf k).2; have h2 := ho.used k
      have h3 := tot_exec (mBc k) ms ht
      have h4 := tot_exec (mDead k) ms ht
      simp only at *; omega

theorem wf_reachable {cap : Option Nat} {s : Sys} (h : Reachable cap s) {t : Nat} {m : Micro}
    {rest : List Micro} (ht : s.th[t]? = some (m :: rest)) : WF s.w m := (own_reachable h).wf ht

end Xtra
