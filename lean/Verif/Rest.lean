import Verif.PropsPool
/-! Termination: a rank that every step of a pool decreases unless user code makes a new API call (proof of C50). -/

set_option linter.unusedSimpArgs false

namespace Xtra

/-- Lexicographic order on triples. -/
def L3 (a b c a' b' c' : Nat) : Prop := a' < a ∨ a' = a ∧ (b' < b ∨ b' = b ∧ c' < c)

theorem L3.low {a b c a' b' c' : Nat} (h1 : a' ≤ a) (h2 : b' ≤ b) (h3 : c' < c) : L3 a b c a' b' c' := by
  unfold L3; omega

theorem L3.mid {a b c a' b' c' : Nat} (h1 : a' ≤ a) (h2 : b' < b) : L3 a b c a' b' c' := by
  unfold L3; omega

theorem L3.high {a b c a' b' c' : Nat} (h1 : a' < a) : L3 a b c a' b' c' := .inl h1

theorem L3.add {a b c a' b' c' : Nat} (h : L3 a b c a' b' c') (x y z : Nat) :
    L3 (a + x) (b + y) (c + z) (a' + x) (b' + y) (c' + z) := by
  unfold L3 at *; omega

def Micro.k0 : Micro → Nat
  | .sendLd1 .. => 9
  | .sendLd2 .. => 8
  | .sendCrit .. => 7
  | .dropWs _ => 1
  | .dropTx _ => 2
  | .shutRx => 1
  | .cancel .. => 3
  | .requeue _ => 1
  | .newBq _ => 1
  | .bcastShutdown => 1
  | .conn1 _ => 2
  | .conn2 _ => 1
  | .join1 .. => 2
  | .join2 .. => 1
  | .dropMsg _ => 1
  | .discard _ => 1
  | _ => 0

def Micro.k1 : Micro → Nat
  | .notifyShut _ => 1
  | _ => 0

def Micro.k2 : Micro → Nat
  | .recvTry .. => 2
  | .recvPoll .. => 1
  | .recvBcast .. => 3
  | .dropRx => 2
  | .shutTx => 1
  | .dropBq _ => 1
  | .dropCell _ => 1
  | .respond .. => 1
  | .pollWs .. => 3
  | .sendFin .. => 2
  | _ => 0

def wsAct : WsCell → Nat
  | .active none _ => 2
  | .active (some _) _ => 1
  | _ => 0

def respW : Resp → Nat
  | .waiting none => 2
  | .waiting (some _) => 1
  | _ => 0

/-- A send future that was not polled yet. -/
def objNew : Obj → Nat
  | .send _ _ (.new _ _) => 10
  | _ => 0

def cellK : RxCell → Nat
  | .full (.newMessage _) _ => 21
  | .full .newBroadcast _ => 3
  | _ => 0

def cellFull : RxCell → Bool
  | .full _ _ => true
  | _ => false

def isFullAt (cells : List RxCell) (c : Nat) : Bool := (cells[c]?).any cellFull

/-- Weight of an object: what its owner may do with it without being asked again. -/
def objK (cells : List RxCell) (ws : List WsCell) (resp : List Resp) : Obj → Nat
  | .recv _ .new => 14
  | .recv _ (.waiting c) => if isFullAt cells c then 13 else 0
  | .message _ .shutdown => 0
  | .message _ _ => 21
  | .dispatch .. => 21
  | .send _ _ (.waiting h) => if (ws[h]?).map wsAct = some 1 then 0 else 5
  | .send .ret mid .done => if (resp[mid]?).map respW = some 1 then 0 else 3
  | .send _ _ .done => 3
  | .reply mid => if (resp[mid]?).map respW = some 1 then 0 else 1
  | _ => 0

def bqK (q : BQ) : Nat := 21 * q.items.length

def World.k0 (w : World) : Nat := sumBy wsAct w.ws + sumBy respW w.resp + sumBy objNew w.objs

def World.k2 (w : World) : Nat :=
  21 * w.uq.length + sumBy bqK w.bq + sumBy cellK w.cells + sumBy (objK w.cells w.ws w.resp) w.objs

def Step3 (w w' : World) (ms ms' : List Micro) : Prop :=
  L3 (w.k0 + sumBy Micro.k0 ms) (sumBy Micro.k1 ms) (w.k2 + sumBy Micro.k2 ms)
    (w'.k0 + sumBy Micro.k0 ms') (sumBy Micro.k1 ms') (w'.k2 + sumBy Micro.k2 ms')

/-! ### lists that only go down -/

/-- Same length, and no element weighs more than before. -/
structure Shrink {α : Type _} (f : α → Nat) (xs ys : List α) : Prop where
  len : ys.length = xs.length
  le : ∀ (i : Nat) x y, xs[i]? = some x → ys[i]? = some y → f y ≤ f x

theorem Shrink.refl {α : Type _} {f : α → Nat} {xs : List α} : Shrink f xs xs :=
  ⟨rfl, fun i x y h1 h2 => by rw [h1] at h2; simp at h2; subst h2; exact Nat.le_refl _⟩

theorem Shrink.trans {α : Type _} {f : α → Nat} {xs ys zs : List α} (h1 : Shrink f xs ys) (h2 : Shrink f ys zs) : Shrink f xs zs := by
  refine ⟨h2.len.trans h1.len, fun i x z hx hz => ?_⟩
  have hl := (List.getElem?_eq_some_iff.mp hx).1
  rw [← h1.len] at hl
  exact Nat.le_trans (h2.le i _ z (List.getElem?_eq_getElem hl) hz) (h1.le i x _ hx (List.getElem?_eq_getElem hl))

theorem Shrink.set {α : Type _} {f : α → Nat} {xs : List α} {i : Nat} {y : α} (h : ∀ x, xs[i]? = some x → f y ≤ f x) :
    Shrink f xs (xs.set i y) := by
  refine ⟨by simp, fun j x z hx hz => ?_⟩
  rw [List.getElem?_set] at hz
  split at hz
  · rename_i e; subst e
    split at hz <;> simp at hz
    subst hz; exact h x hx
  · rw [hx] at hz; simp at hz; subst hz; exact Nat.le_refl _

theorem Shrink.modify {α : Type _} {f : α → Nat} {xs : List α} {i : Nat} {g : α → α} (h : ∀ x, f (g x) ≤ f x) :
    Shrink f xs (xs.modify i g) := by
  refine ⟨by simp, fun j x z hx hz => ?_⟩
  rw [List.getElem?_modify] at hz
  rw [hx] at hz
  simp at hz
  subst hz
  split
  · exact h x
  · exact Nat.le_refl _

theorem Shrink.sum {α : Type _} {f : α → Nat} {xs : List α} : ∀ {ys : List α}, Shrink f xs ys →
    sumBy f ys ≤ sumBy f xs ∧ (sumBy f ys = sumBy f xs → ∀ i : Nat, (ys[i]?).map f = (xs[i]?).map f) := by
  induction xs with
  | nil =>
    intro ys h
    have := h.len
    simp at this; subst this
    simp
  | cons x xs ih =>
    intro ys h
    cases ys with
    | nil => have := h.len; simp at this
    | cons y ys =>
      have h0 := h.le 0 x y rfl rfl
      obtain ⟨h1, h2⟩ := ih (ys := ys) ⟨by have := h.len; simpa using this, fun i a b ha hb => h.le (i + 1) a b (by simpa using ha) (by simpa using hb)⟩
      refine ⟨by simp; omega, fun he i => ?_⟩
      simp at he
      cases i with
      | zero => simp; omega
      | succ i => simp; exact h2 (by omega) i

theorem respW_interrupt (x : Resp) : respW x.interrupt ≤ respW x := by cases x <;> simp [Resp.interrupt, respW]
theorem respW_fulfil (v : Nat) (x : Resp) : respW (x.fulfil v) ≤ respW x := by cases x <;> simp [Resp.fulfil, respW]

theorem sumBy_set_le {α : Type _} (f : α → Nat) (xs : List α) (i : Nat) (y : α) : sumBy f (xs.set i y) ≤ sumBy f xs + f y := by
  induction xs generalizing i with
  | nil => simp
  | cons x xs ih =>
    cases i with
    | zero => simp; omega
    | succ i => simp; have := ih i; omega

theorem sumBy_le_of {α : Type _} {f g : α → Nat} {xs : List α} (h : ∀ x ∈ xs, f x ≤ g x) : sumBy f xs ≤ sumBy g xs := by
  induction xs with
  | nil => simp
  | cons x xs ih =>
    simp only [sumBy_cons]
    have := h x (by simp)
    have := ih (fun y hy => h y (by simp [hy]))
    omega

/-- The statuses on which `objK` depends only got less. -/
structure Env (w w' : World) : Prop where
  cells : ∀ c, isFullAt w'.cells c = true → isFullAt w.cells c = true
  ws : ∀ h : Nat, (w'.ws[h]?).map wsAct = (w.ws[h]?).map wsAct
  resp : ∀ i : Nat, (w'.resp[i]?).map respW = (w.resp[i]?).map respW

theorem objK_mono {w w' : World} (h : Env w w') (o : Obj) : objK w'.cells w'.ws w'.resp o ≤ objK w.cells w.ws w.resp o := by
  cases o with
  | recv b st =>
    cases st with
    | new => simp [objK]
    | waiting c =>
      simp only [objK]
      have := h.cells c
      split <;> simp_all
  | message b am => cases am <;> simp [objK]
  | send md mid st => cases st <;> (try cases md) <;> simp [objK, h.ws, h.resp]
  | reply mid => simp [objK, h.resp]
  | _ => simp [objK]

theorem full_set {cs : List RxCell} {d : Nat} {x : RxCell} (hx : cellFull x = false) (c : Nat) (h : isFullAt (cs.set d x) c = true) :
    isFullAt cs c = true := by
  unfold isFullAt at *
  rw [List.getElem?_set] at h
  split at h
  · split at h <;> simp [hx] at h
  · exact h

theorem full_append {cs : List RxCell} (c : Nat) (h : isFullAt (cs ++ [.empty none]) c = true) : isFullAt cs c = true := by
  unfold isFullAt at *
  rw [List.getElem?_append] at h
  split at h
  · exact h
  · rw [List.getElem?_cons] at h
    split at h <;> simp [cellFull] at h

theorem kill_shrink (w : World) (m : Msg) : Shrink respW w.resp (w.kill m).resp := .modify respW_interrupt

theorem closeHandle_shrink (w : World) (h : Nat) :
    Shrink wsAct w.ws (w.closeHandle h).ws ∧ Shrink respW w.resp (w.closeHandle h).resp := by
  unfold World.closeHandle
  split
  · exact ⟨.set fun _ _ => Nat.zero_le _, .modify respW_interrupt⟩
  · exact ⟨.refl, .refl⟩

theorem closeHandles_shrink (hs : List Nat) : ∀ w : World,
    Shrink wsAct w.ws (w.closeHandles hs).ws ∧ Shrink respW w.resp (w.closeHandles hs).resp := by
  induction hs with
  | nil => intro w; exact ⟨.refl, .refl⟩
  | cons h hs ih =>
    intro w
    exact ⟨(closeHandle_shrink w h).1.trans (ih _).1, (closeHandle_shrink w h).2.trans (ih _).2⟩

theorem killAll_shrink (ms : List Msg) : ∀ w : World, (w.killAll ms).ws = w.ws ∧ Shrink respW w.resp (w.killAll ms).resp := by
  induction ms with
  | nil => intro w; exact ⟨rfl, .refl⟩
  | cons m ms ih => intro w; exact ⟨(ih _).1, (kill_shrink w m).trans (ih _).2⟩

theorem shutTx_shrink (w : World) : Shrink wsAct w.ws w.shutTx.ws ∧ Shrink respW w.resp w.shutTx.resp := by
  simp only [World.shutTx]
  have h1 := killAll_shrink w.uq { w with lst := w.lst.map LCell.notify, rang := true, uq := [], bqs := [] }
  generalize ({ w with lst := w.lst.map LCell.notify, rang := true, uq := [], bqs := [] } : World).killAll w.uq = w2 at *
  have h2 := closeHandles_shrink w2.wOne { w2 with wOne := [] }
  generalize ({ w2 with wOne := [] } : World).closeHandles w2.wOne = w3 at *
  have h3 := closeHandles_shrink w3.wAll { w3 with wAll := [] }
  simp at h1 h2 h3
  exact ⟨by rw [← h1.1]; exact h2.1.trans h3.1, h1.2.trans (h2.2.trans h3.2)⟩

theorem pop_len {l q : List Msg} {m : Msg} (h : Heap.pop Msg.le l = some (m, q)) : l.length = q.length + 1 := by
  have := (Heap.pop_perm h).length_eq
  simp at this; omega


theorem pop_k2 {w w' : World} {m : Msg} (r : RegWs w.ws w.wOne w.wAll) (hp : w.popUnicast = some (m, w')) :
    w'.k0 < w.k0 ∨ w'.k0 = w.k0 ∧ w'.k2 + 21 = w.k2 := by
  obtain ⟨q, hq, ⟨-, rfl⟩ | ⟨-, -, rfl⟩ | ⟨-, h, wk, m', q', t, rfl⟩⟩ := popUnicast_cases r.one hp
  · have := pop_len hq
    right; simp [World.k0, World.k2]; omega
  · have := pop_len hq
    right; simp [World.k0, World.k2]; omega
  · left
    have := sumBy_set (f := wsAct) (.delivered wk) t.cell
    cases wk <;> simp [wsAct] at this <;> simp [World.k0] <;> omega

theorem pop_all_k2 {w w' : World} {b : Nat} {m : Msg} (r : RegWs w.ws w.wOne w.wAll) (hp : w.popBroadcast b = some (m, w')) :
    w'.k0 < w.k0 ∨ w'.k0 = w.k0 ∧ w'.k2 + 21 = w.k2 := by
  have key : ∀ q, Heap.pop Msg.le (w.items b) = some (m, q) → sumBy bqK (w.afterPop b q).bq + 21 = sumBy bqK w.bq := by
    intro q hq
    unfold World.afterPop
    cases hb : w.bq[b]? with
    | none => simp [World.items, hb] at hq; simp [Heap.pop] at hq
    | some x =>
      have := sumBy_set (f := bqK) { x with items := q } hb
      have h2 := pop_len hq
      simp [World.items, hb] at h2
      simp [bqK] at this ⊢
      omega
  obtain ⟨q, hq, ⟨-, rfl⟩ | ⟨-, -, rfl⟩ | ⟨-, h, wk, m', q', t, rfl⟩⟩ := popBroadcast_cases r.all hp
  · have := key q hq
    right; simp [World.k0, World.k2]; omega
  · have := key q hq
    right; simp [World.k0, World.k2]; omega
  · left
    have := sumBy_set (f := wsAct) (.delivered wk) t.cell
    cases wk <;> simp [wsAct] at this <;> simp [World.k0] <;> omega

theorem cellK_of_not_full {x : RxCell} (h : cellFull x = false) : cellK x = 0 := by
  cases x <;> simp_all [cellFull, cellK]

/-- Weight of an object in `w`. -/
def World.objK (w : World) (o : Obj) : Nat := Xtra.objK w.cells w.ws w.resp o

theorem k2_env {w w' : World} (h : Env w w') (h2 : w'.uq = w.uq) (h3 : sumBy bqK w'.bq ≤ sumBy bqK w.bq) (h4 : w'.objs = w.objs) :
    w'.k2 + sumBy cellK w.cells ≤ w.k2 + sumBy cellK w'.cells := by
  have b : sumBy (objK w'.cells w'.ws w'.resp) w.objs ≤ sumBy (objK w.cells w.ws w.resp) w.objs :=
    sumBy_le_of fun o _ => objK_mono h o
  simp only [World.k2, h2, h4]
  omega

theorem k2_cells {w w' : World} {d : Nat} {x y : RxCell} (hy : w.cells[d]? = some y) (hx : cellFull x = false)
    (h1 : w'.cells = w.cells.set d x) (h2 : w'.uq = w.uq) (h3 : w'.bq = w.bq) (h4 : w'.objs = w.objs)
    (h5 : w'.ws = w.ws) (h6 : w'.resp = w.resp) : w'.k2 + cellK y ≤ w.k2 := by
  have a := sumBy_set (f := cellK) x hy
  rw [cellK_of_not_full hx] at a
  have b := k2_env (w := w) (w' := w') ⟨fun c h => full_set hx c (by rwa [h1] at h), by simp [h5], by simp [h6]⟩ h2 (by rw [h3]; exact Nat.le_refl _) h4
  rw [h1] at b
  omega

theorem k2_cells' {w w' : World} {d : Nat} {x : RxCell} (hx : cellFull x = false)
    (h1 : w'.cells = w.cells.set d x) (h2 : w'.uq = w.uq) (h3 : w'.bq = w.bq) (h4 : w'.objs = w.objs)
    (h5 : w'.ws = w.ws) (h6 : ∀ i : Nat, (w'.resp[i]?).map respW = (w.resp[i]?).map respW) : w'.k2 ≤ w.k2 := by
  have a := sumBy_set_le cellK w.cells d x
  rw [cellK_of_not_full hx] at a
  have b := k2_env (w := w) (w' := w') ⟨fun c h => full_set hx c (by rwa [h1] at h), by simp [h5], h6⟩ h2 (by rw [h3]; exact Nat.le_refl _) h4
  rw [h1] at b
  omega

theorem k2_obj {w w' : World} {r : Nat} {o : Obj} (h4 : w'.objs = w.objs.set r o)
    (h1 : w'.cells = w.cells) (h2 : w'.uq = w.uq) (h3 : w'.bq = w.bq) (h5 : w'.ws = w.ws) (h6 : w'.resp = w.resp) :
    w'.k2 ≤ w.k2 + w.objK o := by
  have a := sumBy_set_le (objK w.cells w.ws w.resp) w.objs r o
  simp only [World.k2, World.objK, h1, h2, h3, h4, h5, h6]
  omega

theorem k2_yield (w : World) (r b : Nat) (am : AMsg) : (w.yieldMsg r b am).k2 ≤ w.k2 + w.objK (.message b am) :=
  k2_obj rfl rfl rfl rfl rfl rfl

theorem message_le (w : World) (b : Nat) (am : AMsg) : w.objK (.message b am) ≤ 21 := by
  cases am <;> simp [World.objK, objK]

theorem objNew_set (xs : List Obj) (i : Nat) {o : Obj} (h : objNew o = 0) : sumBy objNew (xs.set i o) ≤ sumBy objNew xs := by
  have := sumBy_set_le objNew xs i o
  omega

/-- Decrease by the weights, given that nothing went up. -/
theorem Step3.of {w w' : World} {m : Micro} {ms : List Micro} (hws : Shrink wsAct w.ws w'.ws) (hresp : Shrink respW w.resp w'.resp)
    (ho : sumBy objNew w'.objs ≤ sumBy objNew w.objs) (h0 : sumBy Micro.k0 ms ≤ m.k0)
    (h : sumBy Micro.k0 ms = m.k0 → (∀ h : Nat, (w'.ws[h]?).map wsAct = (w.ws[h]?).map wsAct) →
      (∀ i : Nat, (w'.resp[i]?).map respW = (w.resp[i]?).map respW) →
      sumBy Micro.k1 ms < m.k1 ∨ sumBy Micro.k1 ms = m.k1 ∧ w'.k2 + sumBy Micro.k2 ms < w.k2 + m.k2) :
    Step3 w w' [m] ms := by
  obtain ⟨a1, a2⟩ := hws.sum
  obtain ⟨b1, b2⟩ := hresp.sum
  by_cases he : w'.k0 + sumBy Micro.k0 ms = w.k0 + m.k0
  · simp only [World.k0] at he
    have := h (by omega) (a2 (by omega)) (b2 (by omega))
    refine .inr ⟨by simp [World.k0]; omega, ?_⟩
    simpa using this
  · refine .inl ?_
    simp only [World.k0, sumBy_cons, sumBy_nil] at *
    omega

/-- Every micro-step decreases the rank. -/
theorem execR_down {w w' : World} {m : Micro} {ms : List Micro} (h : ExecR w m w' ms) (r : RegWs w.ws w.wOne w.wAll) :
    Step3 w w' [m] ms := by
  have og : ∀ f o, objNew o = 0 → sumBy objNew (w.objs.set f o) ≤ sumBy objNew w.objs := fun f o h => objNew_set _ _ h
  have k0yield : ∀ (w1 : World) rr b am, (w1.yieldMsg rr b am).k0 ≤ w1.k0 := by
    intro w1 rr b am
    have := objNew_set w1.objs rr (o := .message b am) rfl
    simp [World.k0, World.yieldMsg, World.ev]; exact this
  cases h
  case critAll_park => exact .high (by simp [World.k0, Micro.k0, wsAct]; omega)
  case critOne_park => exact .high (by simp [World.k0, Micro.k0, wsAct]; omega)
  case pollWs_active f md mid h wk wk' m hc =>
    refine .of (.set fun x hx => by rw [hc] at hx; simp at hx; subst hx; cases wk' <;> simp [wsAct]) .refl (og _ _ rfl) (by simp [Micro.k0]) fun _ h1 h2 => .inr ⟨rfl, ?_⟩
    have hl := (List.getElem?_eq_some_iff.mp hc).1
    have a := k2_env (w := w) (w' := { w with ws := w.ws.set h (.active (some wk) m) }) ⟨fun _ h => h, h1, fun _ => rfl⟩ rfl (Nat.le_refl _) rfl
    have b := k2_obj (w := { w with ws := w.ws.set h (.active (some wk) m) }) (r := f) (o := .send md mid (.waiting h))
      (w' := ((({ w with ws := w.ws.set h (.active (some wk) m) } : World).setObj f (.send md mid (.waiting h))).ev (.sendPending f mid wk)))
      rfl rfl rfl rfl rfl rfl
    simp [World.objK, objK, hl, wsAct] at b
    simp [Micro.k2] at *; omega
  case pollWs_delivered f md mid h wk wk' hc =>
    refine .of (.set fun x hx => Nat.zero_le _) .refl (Nat.le_refl _) (by simp [Micro.k0]) fun _ h1 h2 => .inr ⟨rfl, ?_⟩
    have a := k2_env (w := w) (w' := { w with ws := w.ws.set h .gone }) ⟨fun _ h => h, h1, fun _ => rfl⟩ rfl (Nat.le_refl _) rfl
    simp [Micro.k2] at *; omega
  case pollWs_closed f md mid h wk wk' hc =>
    refine .of (.set fun x hx => Nat.zero_le _) .refl (og _ _ rfl) (by simp [Micro.k0]) fun _ h1 h2 => .inr ⟨rfl, ?_⟩
    have a := k2_env (w := w) (w' := { w with ws := w.ws.set h .gone }) ⟨fun _ h => h, h1, fun _ => rfl⟩ rfl (Nat.le_refl _) rfl
    have b := k2_obj (w := { w with ws := w.ws.set h .gone }) (r := f) (o := .gone)
      (w' := ((({ w with ws := w.ws.set h .gone } : World).setObj f .gone).ev (.sendErr f mid))) rfl rfl rfl rfl rfl rfl
    simp [World.objK, objK] at b
    simp [Micro.k2] at *; omega
  case pollWs_panic f md mid h wk hc =>
    refine .of .refl .refl (og _ _ rfl) (by simp [Micro.k0]) fun _ h1 h2 => .inr ⟨rfl, ?_⟩
    have b := k2_obj (w := w) (r := f) (o := .gone) (w' := (w.setObj f .gone).ev .panic) rfl rfl rfl rfl rfl rfl
    simp [World.objK, objK] at b
    simp [Micro.k2] at *; omega
  case sendFin_bcast f mid wk =>
    refine .of .refl .refl (og _ _ rfl) (by simp [Micro.k0]) fun _ h1 h2 => .inr ⟨rfl, ?_⟩
    have b := k2_obj (w := w) (r := f) (o := .gone) (w' := (w.setObj f .gone).ev (.sendOk f mid)) rfl rfl rfl rfl rfl rfl
    simp [World.objK, objK] at b
    simp [Micro.k2] at *; omega
  case sendFin_detached f mid wk =>
    refine .of .refl .refl (og _ _ rfl) (by simp [Micro.k0]) fun _ h1 h2 => .inr ⟨rfl, ?_⟩
    have b := k2_obj (w := w) (r := f) (o := .reply mid) (w' := (w.setObj f (.reply mid)).ev (.sendOk f mid)) rfl rfl rfl rfl rfl rfl
    have c : w.objK (.reply mid) ≤ 1 := by simp [World.objK, objK]; split <;> omega
    simp [Micro.k2] at *; omega
  case sendFin_waiting f mid wk wk' hc =>
    refine .of .refl (.set fun x hx => by rw [hc] at hx; simp at hx; subst hx; cases wk' <;> simp [respW]) (og _ _ rfl) (by simp [Micro.k0])
      fun _ h1 h2 => .inr ⟨rfl, ?_⟩
    have hl := (List.getElem?_eq_some_iff.mp hc).1
    have a := k2_env (w := w) (w' := { w with resp := w.resp.set mid (.waiting (some wk)) }) ⟨fun _ h => h, fun _ => rfl, h2⟩ rfl (Nat.le_refl _) rfl
    have b := k2_obj (w := { w with resp := w.resp.set mid (.waiting (some wk)) }) (r := f) (o := .send .ret mid .done)
      (w' := ((({ w with resp := w.resp.set mid (.waiting (some wk)) } : World).setObj f (.send .ret mid .done)).ev (.sendPending f mid wk)))
      rfl rfl rfl rfl rfl rfl
    simp [World.objK, objK, hl, respW] at b
    simp [Micro.k2] at *; omega
  case sendFin_value f mid wk wk' v hc =>
    refine .of .refl .refl (og _ _ rfl) (by simp [Micro.k0]) fun _ h1 h2 => .inr ⟨rfl, ?_⟩
    have b := k2_obj (w := w) (r := f) (o := .gone) (w' := (w.setObj f .gone).ev (.replyOk f mid v)) rfl rfl rfl rfl rfl rfl
    simp [World.objK, objK] at b
    simp [Micro.k2] at *; omega
  case sendFin_interrupted f mid wk wk' hc =>
    refine .of .refl .refl (og _ _ rfl) (by simp [Micro.k0]) fun _ h1 h2 => .inr ⟨rfl, ?_⟩
    have b := k2_obj (w := w) (r := f) (o := .gone) (w' := (w.setObj f .gone).ev (.replyInt f mid)) rfl rfl rfl rfl rfl rfl
    simp [World.objK, objK] at b
    simp [Micro.k2] at *; omega
  case sendFin_panic f mid wk hc =>
    refine .of .refl .refl (og _ _ rfl) (by simp [Micro.k0]) fun _ h1 h2 => .inr ⟨rfl, ?_⟩
    have b := k2_obj (w := w) (r := f) (o := .gone) (w' := (w.setObj f .gone).ev .panic) rfl rfl rfl rfl rfl rfl
    simp [World.objK, objK] at b
    simp [Micro.k2] at *; omega
  case dropWs_active h wk m hc =>
    exact .of (.set fun x hx => Nat.zero_le _) (.modify respW_interrupt) (Nat.le_refl _) (by simp [Micro.k0]) fun h0 => by simp [Micro.k0] at h0
  case dropWs_other h hc =>
    exact .of (.set fun x hx => Nat.zero_le _) .refl (Nat.le_refl _) (by simp [Micro.k0]) fun h0 => by simp [Micro.k0] at h0
  case shutRx =>
    have h1 : ∀ q : List Nat, sumBy Micro.k0 (q.map .notifyShut) = 0 := by
      intro q; induction q with
      | nil => rfl
      | cons c q ih => simp [ih, Micro.k0]
    exact .high (by simp [World.k0, h1, Micro.k0])
  case notifyShut c => exact .mid (by simp [World.k0, Micro.k0]) (by simp [Micro.k1])
  case dropRx_last => exact .low (by simp [World.k0, Micro.k0]) (by simp [Micro.k1]) (by simp [World.k2, Micro.k2])
  case dropRx_more => exact .low (by simp [World.k0, Micro.k0]) (by simp [Micro.k1]) (by simp [World.k2, Micro.k2])
  case shutTx =>
    obtain ⟨s1, s2⟩ := shutTx_shrink w
    refine .of s1 s2 (by simp) (by simp [Micro.k0]) fun _ h1 h2 => .inr ⟨rfl, ?_⟩
    have a : sumBy (objK w.shutTx.cells w.shutTx.ws w.shutTx.resp) w.objs ≤ sumBy (objK w.cells w.ws w.resp) w.objs :=
      sumBy_le_of fun o _ => objK_mono (w := w) (w' := w.shutTx) ⟨by simp, h1, h2⟩ o
    simp [World.k2, Micro.k2] at *; omega
  case dropBq b =>
    refine .low (by simp [World.k0, Micro.k0]) (by simp [Micro.k1]) ?_
    have : sumBy bqK (w.decBq b).bq ≤ sumBy bqK w.bq := by
      unfold World.decBq
      cases hb : w.bq[b]? with
      | none => exact Nat.le_refl _
      | some x =>
        simp only
        split
        · have := sumBy_set (f := bqK) { refs := 0, items := [] } hb
          simp [bqK] at this ⊢; omega
        · have := sumBy_set (f := bqK) { x with refs := x.refs - 1 } hb
          simp [bqK] at this ⊢; omega
    simp [World.k2, Micro.k2]; omega
  case recv_all rr b wk m w1 hp _ _ =>
    have hy := k2_yield w1 rr b (.all m)
    have hm := message_le w1 b (.all m)
    have e := k0yield w1 rr b (.all m)
    rcases pop_all_k2 r hp with h1 | ⟨h1, h2⟩
    · exact .high (by simp [Micro.k0]; omega)
    · exact .low (by simp [Micro.k0]; omega) (by simp [Micro.k1]) (by simp [Micro.k2]; omega)
  case recv_one rr b wk m w1 hp _ _ =>
    have hy := k2_yield w1 rr b (.one m)
    have hm := message_le w1 b (.one m)
    have e := k0yield w1 rr b (.one m)
    rcases pop_k2 r hp with h1 | ⟨h1, h2⟩
    · exact .high (by simp [Micro.k0]; omega)
    · exact .low (by simp [Micro.k0]; omega) (by simp [Micro.k1]) (by simp [Micro.k2]; omega)
  case recv_shutdown rr b wk _ _ _ =>
    have hy := k2_yield w rr b .shutdown
    simp [World.objK, objK] at hy
    exact .low (by simp [Micro.k0]; exact k0yield _ _ _ _) (by simp [Micro.k1]) (by simp [Micro.k2]; omega)
  case recv_wait rr b wk _ _ _ =>
    refine .low (by simp [World.k0, Micro.k0]) (by simp [Micro.k1]) ?_
    have a := k2_env (w := w) (w' := { w with cells := w.cells ++ [.empty none], wRx := w.wRx ++ [w.cells.length] })
      ⟨fun c h => full_append c h, fun _ => rfl, fun _ => rfl⟩ rfl (Nat.le_refl _) rfl
    simp [Micro.k2, cellK] at *; omega
  case recvPoll_empty rr b c wk wk' hc =>
    have h1 := k2_cells (w := w) (w' := { w with cells := w.cells.set c (.empty (some wk)) }) hc rfl rfl rfl rfl rfl rfl rfl
    have h2 := k2_obj (w := { w with cells := w.cells.set c (.empty (some wk)) })
      (w' := (({ w with cells := w.cells.set c (.empty (some wk)) } : World).setObj rr (.recv b (.waiting c))).ev (.recvPending rr wk))
      (r := rr) (o := .recv b (.waiting c)) rfl rfl rfl rfl rfl rfl
    have hl := (List.getElem?_eq_some_iff.mp hc).1
    simp [World.objK, objK, isFullAt, hl, cellFull] at h2
    exact .low (by simp [World.k0, Micro.k0]; exact og _ _ rfl) (by simp [Micro.k1]) (by simp [Micro.k2]; omega)
  case recvPoll_one rr b c wk wk' m hc =>
    have h1 := k2_cells (w := w) (w' := { w with cells := w.cells.set c .gone }) hc rfl rfl rfl rfl rfl rfl rfl
    have h2 := k2_yield { w with cells := w.cells.set c .gone } rr b (.one m)
    have hm := message_le { w with cells := w.cells.set c .gone } b (.one m)
    simp [cellK] at h1
    exact .low (by simp [Micro.k0]; exact k0yield { w with cells := w.cells.set c .gone } rr b (.one m)) (by simp [Micro.k1]) (by simp [Micro.k2]; omega)
  case recvPoll_shutdown rr b c wk wk' hc =>
    have h1 := k2_cells (w := w) (w' := { w with cells := w.cells.set c .gone }) hc rfl rfl rfl rfl rfl rfl rfl
    have h2 := k2_yield { w with cells := w.cells.set c .gone } rr b .shutdown
    simp [World.objK, objK] at h2
    exact .low (by simp [Micro.k0]; exact k0yield { w with cells := w.cells.set c .gone } rr b .shutdown) (by simp [Micro.k1]) (by simp [Micro.k2]; omega)
  case recvPoll_bcast rr b c wk wk' hc =>
    have h1 := k2_cells (w := w) (w' := { w with cells := w.cells.set c .used }) hc rfl rfl rfl rfl rfl rfl rfl
    simp [cellK] at h1
    exact .low (by simp [World.k0, Micro.k0]) (by simp [Micro.k1]) (by simp [Micro.k2]; omega)
  case recvPoll_panic rr b c wk hc =>
    have h2 := k2_obj (w := w) (w' := (w.setObj rr .gone).ev .panic) (r := rr) (o := .gone) rfl rfl rfl rfl rfl rfl
    simp [World.objK, objK] at h2
    exact .low (by simp [World.k0, Micro.k0]; exact og _ _ rfl) (by simp [Micro.k1]) (by simp [Micro.k2]; omega)
  case recvBcast_some rr b c wk m w1 hp =>
    have h1 := k2_cells' (w := w1) (w' := { w1 with cells := w1.cells.set c .gone }) (d := c) (x := .gone) rfl rfl rfl rfl rfl rfl (fun _ => rfl)
    have hy := k2_yield { w1 with cells := w1.cells.set c .gone } rr b (.all m)
    have hm := message_le { w1 with cells := w1.cells.set c .gone } b (.all m)
    have e := k0yield { w1 with cells := w1.cells.set c .gone } rr b (.all m)
    have e' : ({ w1 with cells := w1.cells.set c .gone } : World).k0 = w1.k0 := rfl
    rcases pop_all_k2 r hp with h1 | ⟨h1, h2⟩
    · exact .high (by simp [Micro.k0]; omega)
    · exact .low (by simp [Micro.k0]; omega) (by simp [Micro.k1]) (by simp [Micro.k2]; omega)
  case recvBcast_none rr b c wk hp =>
    have h1 := k2_cells' (w := w) (w' := { w with cells := w.cells.set c .gone }) (d := c) (x := .gone) rfl rfl rfl rfl rfl rfl (fun _ => rfl)
    exact .low (by simp [World.k0, Micro.k0]) (by simp [Micro.k1]) (by simp [Micro.k2]; omega)
  case dropCell_lost c m wk hc =>
    refine .of .refl (.modify respW_interrupt) (Nat.le_refl _) (by simp [Micro.k0]) fun _ h1 h2 => .inr ⟨rfl, ?_⟩
    have h1 := k2_cells' (w := w) (d := c) (x := .gone)
      (w' := { w with cells := w.cells.set c .gone, resp := w.resp.modify m.id Resp.interrupt, log := .lost m.id :: w.log })
      rfl rfl rfl rfl rfl rfl h2
    simp [Micro.k2] at *; omega
  case dropCell_other c hc =>
    have h1 := k2_cells' (w := w) (w' := { w with cells := w.cells.set c .gone }) (d := c) (x := .gone) rfl rfl rfl rfl rfl rfl (fun _ => rfl)
    exact .low (by simp [World.k0, Micro.k0]) (by simp [Micro.k1]) (by simp [Micro.k2]; omega)
  case respond_one b m v brk =>
    refine .of .refl (.modify (respW_fulfil v)) (Nat.le_refl _) (by simp [Micro.k0]) fun _ h1 h2 => .inr ⟨rfl, ?_⟩
    have a := k2_env (w := w)
      (w' := { w with resp := w.resp.modify m.id (Resp.fulfil v), log := .flow b (.one m) brk :: .handled m.id v :: w.log })
      ⟨fun _ h => h, fun _ => rfl, h2⟩ rfl (Nat.le_refl _) rfl
    simp [Micro.k2] at *; omega
  case respond_other => exact .low (by simp [World.k0, Micro.k0]) (by simp [Micro.k1]) (by simp [World.k2, Micro.k2])
  case sendLd1_err f md m rc wk h =>
    exact .of .refl (.modify respW_interrupt) (og _ _ rfl) (by simp [Micro.k0]) fun h0 => by simp [Micro.k0] at h0
  case sendLd2_err f md m rc wk h =>
    exact .of .refl (.modify respW_interrupt) (og _ _ rfl) (by simp [Micro.k0]) fun h0 => by simp [Micro.k0] at h0
  case dropMsg m => exact .of .refl (.modify respW_interrupt) (Nat.le_refl _) (by simp [Micro.k0]) fun h0 => by simp [Micro.k0] at h0
  case discard_one m => exact .of .refl (.modify respW_interrupt) (Nat.le_refl _) (by simp [Micro.k0]) fun h0 => by simp [Micro.k0] at h0
  case newBq o => exact .of .refl .refl (og _ _ rfl) (by simp [Micro.k0]) fun h0 => by simp [Micro.k0] at h0
  case join1_no => exact .of .refl .refl (og _ _ rfl) (by simp [Micro.k0]) fun h0 => by simp [Micro.k0] at h0
  case join2_no => exact .of .refl .refl (og _ _ rfl) (by simp [Micro.k0]) fun h0 => by simp [Micro.k0] at h0
  case join2_yes => exact .of .refl .refl (og _ _ rfl) (by simp [Micro.k0]) fun h0 => by simp [Micro.k0] at h0
  case bcastShutdown => exact .high (by simp [World.k0, Micro.k0, respW])
  all_goals exact .high (by simp [World.k0, Micro.k0]; try omega)

/-! ## The pool -/

def APh.k0 : APh → Nat
  | .aborting .. => 0
  | .leaving _ => 0
  | .done => 0
  | _ => 5

/-- The future given to a `select` has not completed yet. -/
def Lvl.k0 : Lvl → Nat
  | .sel => 1
  | _ => 0

def APh.k2 : APh → Nat
  | .starting => 16
  | .idle => 15
  | .waiting _ => 0
  | .polling .. => 11
  | .got .. => 10
  | .handling .. => 9
  | .finishing _ _ _ brk _ => if brk then 6 else 16
  | .stopping => 5
  | .aborting .. => 5
  | .leaving _ => 1
  | .done => 0

def Sys.k0 (s : Sys) : Nat := s.w.k0 + tot Micro.k0 s.th
def Sys.k1 (s : Sys) : Nat := tot Micro.k1 s.th
def Sys.k2 (s : Sys) : Nat := s.w.k2 + tot Micro.k2 s.th

/-- `b` comes strictly after `a` in the termination order. -/
def Down (s : Sys) (p : APh) (l : Lvl) (s' : Sys) (p' : APh) (l' : Lvl) : Prop :=
  L3 (s.k0 + (p.k0 + l.k0)) s.k1 (s.k2 + p.k2) (s'.k0 + (p'.k0 + l'.k0)) s'.k1 (s'.k2 + p'.k2)

theorem exec_down {cap : Option Nat} {s s' : Sys} {t : Nat} (h : Reachable cap s) (hs : s.step (.exec t) = some s') :
    L3 s.k0 s.k1 s.k2 s'.k0 s'.k1 s'.k2 := by
  rcases step_rel hs with ⟨c, w', ms, hc, -⟩ | ⟨t', m, rest, w', ms, hc, ht', he, rfl⟩
  · simp at hc
  · have h1 := execR_down he (regWs_reachable h)
    have a := tot_exec Micro.k0 ms ht'
    have b := tot_exec Micro.k1 ms ht'
    have c := tot_exec Micro.k2 ms ht'
    simp only [Step3, sumBy_cons, sumBy_nil] at h1
    unfold L3 at *
    simp only [Sys.k0, Sys.k1, Sys.k2]
    omega

/-- How an API call by a task changes the rank. -/
theorem call_k {s s' : Sys} {cl : Call} (hs : s.step (.call cl) = some s') : ∃ w' ms, CallR s.w cl w' ms ∧ s' = ⟨w', s.th ++ [ms]⟩ ∧
    s'.k0 = w'.k0 + tot Micro.k0 s.th + sumBy Micro.k0 ms ∧ s'.k1 = s.k1 + sumBy Micro.k1 ms ∧
    s'.k2 = w'.k2 + tot Micro.k2 s.th + sumBy Micro.k2 ms := by
  rcases step_rel hs with ⟨c, w', ms, hc, hr, rfl⟩ | ⟨t', m, rest, w', ms, hc, ht', he, rfl⟩
  · simp at hc; subst hc
    exact ⟨w', ms, hr, rfl, by simp [Sys.k0]; omega, by simp [Sys.k1], by simp [Sys.k2]; omega⟩
  · simp at hc

theorem k2_objEq {w w' : World} {r : Nat} {o o' : Obj} (ho : w.objs[r]? = some o) (h4 : w'.objs = w.objs.set r o')
    (h1 : w'.cells = w.cells) (h2 : w'.uq = w.uq) (h3 : w'.bq = w.bq) (h5 : w'.ws = w.ws) (h6 : w'.resp = w.resp) :
    w'.k2 + w.objK o = w.k2 + w.objK o' ∧ w'.k0 + objNew o = w.k0 + objNew o' := by
  have a := sumBy_set (f := objK w.cells w.ws w.resp) o' ho
  have b := sumBy_set (f := objNew) o' ho
  simp only [World.k2, World.k0, World.objK, h1, h2, h3, h4, h5, h6]
  omega

theorem dropMailbox_k {s s' : Sys} {i : Nat} (hs : s.step (.call (.dropMailbox i)) = some s') :
    s'.k0 = s.k0 ∧ s'.k1 = s.k1 ∧ s'.k2 = s.k2 + 3 := by
  obtain ⟨w', ms, hc, rfl, h1, h2, h3⟩ := call_k hs
  cases hc
  rename_i b ho
  have := k2_objEq (w := s.w) (w' := s.w.setObj i .gone) ho rfl rfl rfl rfl rfl rfl
  simp [World.objK, objK, objNew] at this
  rw [h1, h2, h3]
  simp [Sys.k0, Sys.k1, Sys.k2, World.k0, Micro.k0, Micro.k1, Micro.k2] at *
  omega

theorem incBq_k (w : World) (b : Nat) : sumBy bqK (w.incBq b).bq = sumBy bqK w.bq := by
  unfold World.incBq
  cases hb : w.bq[b]? with
  | none => rfl
  | some x =>
    have := sumBy_set (f := bqK) { x with refs := x.refs + 1 } hb
    simp [bqK] at this ⊢; omega

theorem tstep_down {cap : Option Nat} {s s' : Sys} {T T' : Task} (hr : Reachable cap s) (ti : TInv s T) (ht : TStep s T s' T')
    (hz : T.asleep s.w → T'.aborted = true ∨ T'.lvl ≠ T.lvl) (ha : T.aborted = true → T.ph.k0 = 0) : Down s T.ph T.lvl s' T'.ph T'.lvl := by
  have hph := ti.ph
  cases ht with
  | started hp => rw [hp]; exact .low (by simp [APh.k0]) (Nat.le_refl _) (by simp [APh.k2])
  | startFails hp hs =>
    obtain ⟨a, b, c⟩ := dropMailbox_k hs
    rw [hp]; exact .high (by simp [APh.k0]; omega)
  | next hp hs =>
    obtain ⟨w', ms, hc, rfl, h1, h2, h3⟩ := call_k hs
    cases hc
    rename_i o b ho hb
    rw [hp]
    refine .low ?_ ?_ ?_
    · rw [h1]; simp [Sys.k0, World.k0, APh.k0, objNew]
    · rw [h2]; simp
    · rw [h3]; simp [Sys.k2, World.k2, APh.k2, objK, incBq_k]; omega
  | @poll _ _ r wk hp hs =>
    have hr' := Reachable.step hr hs
    obtain ⟨w', ms, hc, rfl, h1, h2, h3⟩ := call_k hs
    rw [hp]
    rw [hp] at hph
    obtain ⟨st, ho⟩ := hph
    have hl : ∀ m rest, ms = m :: rest → WF w' m := by
      intro m rest hm
      exact wf_reachable hr' (t := s.th.length) (rest := rest) (by simp [hm])
    cases hc
    · rename_i b ho'
      have := k2_objEq (w := s.w) (w' := s.w.setObj r .busy) ho' rfl rfl rfl rfl rfl rfl
      simp [World.objK, objK, objNew] at this
      refine .low ?_ ?_ ?_
      · rw [h1]; simp [Sys.k0, APh.k0, Micro.k0]; omega
      · rw [h2]; simp [Micro.k1]
      · rw [h3]; simp [Sys.k2, APh.k2, Micro.k2]; omega
    · rename_i b c ho'
      have := k2_objEq (w := s.w) (w' := s.w.setObj r .busy) ho' rfl rfl rfl rfl rfl rfl
      have hwf := hl _ _ rfl
      rw [ho] at ho'; simp at ho'; obtain ⟨rfl, rfl⟩ := ho'
      have hfull : isFullAt s.w.cells c = true := by
        obtain ⟨-, x, hx, hu, hg⟩ := hwf
        simp at hx
        cases x with
        | empty wk' =>
          exfalso
          have := hz ⟨r, hp, c, wk', ho, hx⟩
          simp at this
          have := ha this
          rw [hp] at this; simp [APh.k0] at this
        | full k wk' => simp [isFullAt, hx, cellFull]
        | used => exact absurd rfl hu
        | gone => exact absurd rfl hg
      simp [World.objK, objK, hfull, objNew] at this
      refine .low ?_ ?_ ?_
      · rw [h1]; simp [Sys.k0, APh.k0, Micro.k0]; omega
      · rw [h2]; simp [Micro.k1]
      · rw [h3]; simp [Sys.k2, APh.k2, Micro.k2]; omega
  | @futReady _ _ r wk hp hlv hs =>
    obtain ⟨w', ms, hc, rfl, h1, h2, h3⟩ := call_k hs
    rw [hp, hlv]
    have og := objNew_set s.w.objs r (o := .busy) rfl
    cases hc <;> exact .high (by rw [h1]; simp [Sys.k0, World.k0, APh.k0, Lvl.k0, Micro.k0, World.setObj]; try omega)
  | @giveUp _ _ r t b st hp ht hlv ho hs =>
    obtain ⟨w', ms, hc, rfl, h1, h2, h3⟩ := call_k hs
    rw [hp, hlv]
    have og := objNew_set s.w.objs r (o := .gone) rfl
    cases hc <;> exact .high (by rw [h1]; simp [Sys.k0, World.k0, APh.k0, Lvl.k0, Micro.k0, World.setObj]; try omega)
  | over hp ht hl => rw [hp]; exact .low (by simp [APh.k0]) (Nat.le_refl _) (by simp [APh.k2])
  | «return» hp ht hl => rw [hp]; exact .high (by simp [APh.k0])
  | pending hp ht hl ho => rw [hp]; exact .low (by simp [APh.k0]) (Nat.le_refl _) (by simp [APh.k2])
  | ready hp ht ho => rw [hp]; exact .low (by simp [APh.k0]) (Nat.le_refl _) (by simp [APh.k2])
  | @dispatch _ _ r am hp hst hs =>
    obtain ⟨w', ms, hc, rfl, h1, h2, h3⟩ := call_k hs
    rw [hp] at hph ⊢
    have ho := hph.1
    cases hc
    · rename_i b am' hx ho'
      rw [ho] at ho'; simp at ho'; obtain ⟨rfl, rfl⟩ := ho'
      rcases hx with rfl | ⟨m, rfl, hm⟩ <;> simp [AMsg.isStop] at hst
      exact absurd hm hst
    · rename_i b am' hx hy ho'
      rw [ho] at ho'; simp at ho'; obtain ⟨rfl, rfl⟩ := ho'
      have := k2_objEq (w := s.w) (w' := s.w.setObj r (.dispatch T.b am true)) ho rfl rfl rfl rfl rfl rfl
      have e : s.w.objK (.message T.b am) = 21 := by cases am <;> simp [World.objK, objK] at hx ⊢
      rw [e] at this
      simp [World.objK, objK, objNew] at this
      refine .low ?_ ?_ ?_
      · rw [h1]; simp [Sys.k0, APh.k0, Micro.k0]; omega
      · rw [h2]; simp [Micro.k1]
      · rw [h3]; simp [Sys.k2, APh.k2, Micro.k2]; omega
  | @notice _ _ r am hp hst hs =>
    obtain ⟨w', ms, hc, rfl, h1, h2, h3⟩ := call_k hs
    rw [hp] at hph ⊢
    have ho := hph.1
    cases hc
    · rename_i b am' hx ho'
      have := k2_objEq (w := s.w) (w' := (s.w.setObj r .gone).ev (.flow b am' true)) ho' rfl rfl rfl rfl rfl rfl
      simp [World.objK, objK, objNew] at this
      refine .low ?_ ?_ ?_
      · rw [h1]; simp [Sys.k0, APh.k0, Micro.k0]; omega
      · rw [h2]; simp [Micro.k1]
      · rw [h3]; simp [Sys.k2, APh.k2, Micro.k2]; omega
    · rename_i b am' hx hy ho'
      rw [ho] at ho'; simp at ho'; obtain ⟨rfl, rfl⟩ := ho'
      cases am <;> simp [AMsg.isStop] at hst hx
      exact absurd hst (hy _ rfl)
  | @finish _ _ r v b am am' running hp ho hs =>
    obtain ⟨w', ms, hc, rfl, h1, h2, h3⟩ := call_k hs
    rw [hp]
    cases hc
    rename_i b' am' rn ho'
    have := k2_objEq (w := s.w) (w' := s.w.setObj r .gone) ho' rfl rfl rfl rfl rfl rfl
    simp [World.objK, objK, objNew] at this
    refine .low ?_ ?_ ?_
    · rw [h1]; simp [Sys.k0, APh.k0, Micro.k0]; omega
    · rw [h2]; simp [Micro.k1]
    · rw [h3]; simp [Sys.k2, APh.k2, Micro.k2]; split <;> omega
  | loop hp ht hl => rw [hp]; exact .low (by simp [APh.k0]) (Nat.le_refl _) (by simp [APh.k2])
  | «break» hp ht hl => rw [hp]; exact .low (by simp [APh.k0]) (Nat.le_refl _) (by simp [APh.k2])
  | stopped hp hs =>
    obtain ⟨a, b, c⟩ := dropMailbox_k hs
    rw [hp]; exact .high (by simp [APh.k0]; omega)
  | left hp ht => rw [hp]; exact .low (by simp [APh.k0]) (Nat.le_refl _) (by simp [APh.k2])
  | abortOuter hp hs =>
    obtain ⟨a, b, c⟩ := dropMailbox_k hs
    rcases hp with hp | hp <;> rw [hp] <;> exact .high (by simp [APh.k0]; omega)
  | @abortWaiting _ _ r hp hs =>
    obtain ⟨w', ms, hc, rfl, h1, h2, h3⟩ := call_k hs
    rw [hp]
    have og := objNew_set s.w.objs r (o := .gone) rfl
    cases hc <;> exact .high (by rw [h1]; simp [Sys.k0, World.k0, APh.k0, Micro.k0, World.setObj]; try omega)
  | @abortHandling _ _ r _ hp hs =>
    obtain ⟨w', ms, hc, rfl, h1, h2, h3⟩ := call_k hs
    rw [hp]
    have og := objNew_set s.w.objs r (o := .gone) rfl
    cases hc <;> exact .high (by rw [h1]; simp [Sys.k0, World.k0, APh.k0, Micro.k0, World.setObj]; try omega)
  | aborted hp ht hl hs =>
    obtain ⟨a, b, c⟩ := dropMailbox_k hs
    rw [hp]; exact .low (by simp [APh.k0]; omega) (by omega) (by simp [APh.k2]; omega)

end Xtra
