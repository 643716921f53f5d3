import Verif.Wake
/-! The waker registered for a future is the one given in its latest poll (C21). -/

set_option linter.unusedSimpArgs false

namespace Xtra

/-- Events of a call about polls of `f`. -/
theorem callR_pw {w w' : World} {c : Call} {ms : List Micro} (h : CallR w c w' ms) (f : Nat) :
    pendingWith f w'.log = pendingWith f w.log ∨
    (∃ wk mid wk', w.objs[f]? = some (.reply mid) ∧ w.resp[mid]? = some (.waiting wk') ∧
      w' = ({ w with resp := w.resp.set mid (.waiting (some wk)) } : World).ev (.sendPending f mid wk)) ∨
    (∃ wk l wk', w.objs[f]? = some (.join (some l)) ∧ w.lst[l]? = some (.waiting wk') ∧
      w' = ({ w with lst := w.lst.set l (.waiting (some wk)) } : World).ev (.joinPending f wk)) ∨
    (w.objs[f]? = some (.join none) ∧ w' = w.ev (.joined f)) ∨
    (∃ l, w.objs[f]? = some (.join (some l)) ∧ w' = (w.setObj f (.join none)).ev (.joined f)) := by
  cases h
  case pollReply_waiting o wk mid wk' h1 h2 =>
    by_cases hf : o = f
    · subst hf; exact .inr (.inl ⟨wk, mid, wk', h1, h2, rfl⟩)
    · left; exact pendingWith_cons _ _ _ (by simp [Ev.poll, hf])
  case pollJoin_waiting o wk l wk' h1 h2 =>
    by_cases hf : o = f
    · subst hf; exact .inr (.inr (.inl ⟨wk, l, wk', h1, h2, rfl⟩))
    · left; exact pendingWith_cons _ _ _ (by simp [Ev.poll, hf])
  case pollJoin_none o wk h1 =>
    by_cases hf : o = f
    · subst hf; exact .inr (.inr (.inr (.inl ⟨h1, rfl⟩)))
    · left; exact pendingWith_cons _ _ _ (by simp [Ev.poll, hf])
  case pollJoin_notified o wk l wk' h1 h2 =>
    by_cases hf : o = f
    · subst hf; exact .inr (.inr (.inr (.inr ⟨l, h1, rfl⟩)))
    · left; exact pendingWith_cons _ _ _ (by simp [Ev.poll, hf])
  case next => left; simp
  all_goals first
    | exact .inl rfl
    | (left; exact pendingWith_cons _ _ _ rfl)

theorem slot_lt {cap : Option Nat} {s : Sys} (h : Reachable cap s) {t : Nat} {mc : Micro} {rest : List Micro}
    (ht : s.th[t]? = some (mc :: rest)) {f : Nat} (hs : mc.slot = some f) : s.w.objs[f]? = some .busy :=
  slot_busy (wf_reachable h ht) hs

/-- A `join` call filling slot `o`. -/
def mJ (o : Nat) : Micro → Nat
  | .join1 o' _ => is1 o o'
  | .join2 o' _ => is1 o o'
  | _ => 0

/-- Another call working on slot `o`. -/
def mNJ (o : Nat) : Micro → Nat
  | .join1 _ _ => 0
  | .join2 _ _ => 0
  | m => eq1 o m.slot

theorem mJ_slot (o : Nat) (m : Micro) : mJ o m + mNJ o m = eq1 o m.slot := by
  cases m <;> simp [mJ, mNJ, Micro.slot, eq1, is1]

theorem mJ_busy {cap : Option Nat} {s : Sys} (h : Reachable cap s) (o : Nat) :
    tot (mJ o) s.th + tot (mNJ o) s.th = busyL s.w.objs o := by
  rw [← tot_add, ← (own_reachable h).slot o]
  congr 1; funext m; exact mJ_slot o m

/-- Slots not yet polled: unused ones, and those a `join` call is filling. -/
structure Fresh (s : Sys) : Prop where
  fr : ∀ f, s.w.objs.length ≤ f → pendingWith f s.w.log = none
  jth : ∀ o, 0 < tot (mJ o) s.th → pendingWith o s.w.log = none

theorem fresh_reachable {cap : Option Nat} {s : Sys} (h : Reachable cap s) : Fresh s := by
  refine Reachable.inv (P := Fresh) ?_ ?_ ?_ h
  · exact ⟨fun f _ => rfl, by simp [init]⟩
  · intro s c w' ms hr ih hc
    have hlen : s.w.objs.length ≤ w'.objs.length := by cases hc <;> simp
    have key : ∀ f, (s.w.objs[f]? = none ∨ s.w.objs[f]? = some .busy) → pendingWith f w'.log = pendingWith f s.w.log := by
      intro f hf
      rcases callR_pw hc f with h | ⟨_, _, _, h, _⟩ | ⟨_, _, _, h, _⟩ | ⟨h, _⟩ | ⟨_, h, _⟩
      · exact h
      all_goals simp [h] at hf
    refine ⟨fun f hf => ?_, fun o ho => ?_⟩
    · rw [key f (.inl (by simp at hf ⊢; omega))]; exact ih.fr f (by simp only at *; omega)
    · rw [tot_append] at ho
      by_cases h1 : 0 < tot (mJ o) s.th
      · have hb := mJ_busy hr o
        rw [key o (.inr (by unfold busyL at hb; split at hb; assumption; omega))]; exact ih.jth o h1
      · have : o = s.w.objs.length := by
          have : 0 < sumBy (mJ o) ms := by omega
          cases hc <;> simp [mJ] at this
          simp only [is1] at this; split at this
          · exact (by assumption : _ = _).symm
          · omega
        subst this
        rw [key _ (.inl (by simp))]; exact ih.fr _ (Nat.le_refl _)
  · intro s t m rest w' ms hr ih ht he
    have hreg := regWs_reachable hr
    have hlen := objslen_exec he
    refine ⟨fun f hf => ?_, fun o ho => ?_⟩
    · rw [execR_pw he hreg]
      · exact ih.fr f (by simp only at *; omega)
      · intro h
        have := (List.getElem?_eq_some_iff.mp (slot_lt hr ht h)).1
        simp only at *; omega
    · have h1 := tot_exec (mJ o) ms ht
      have h2 : sumBy (mJ o) ms ≤ mJ o m := by
        cases he
        case shutRx => simp [mJ, sumBy_map, sumBy_eq_zero]
        all_goals simp [mJ]
      have h3 : pendingWith o w'.log = pendingWith o s.w.log := by
        by_cases hs : m.slot = some o
        · have h4 := mJ_busy hr o
          have h5 := tot_head (mNJ o) ht
          have h6 : busyL s.w.objs o ≤ 1 := by unfold busyL; split <;> omega
          have h7 := mJ_slot o m
          simp [hs, eq1] at h7
          have h8 : 0 < mJ o m := by simp only at *; omega
          cases he <;> simp [mJ] at h8 <;> rfl
        · exact execR_pw he hreg hs
      rw [h3]; exact ih.jth o (by simp only at *; omega)

/-! ### the invariant -/

/-- The waker field of the cell the future waits on. -/
def World.wakerOf (w : World) : Obj → Option (Option Nat)
  | .send _ _ (.waiting h) => (w.ws[h]?).bind fun x => match x with
    | .active wk _ => some wk
    | .delivered wk => some wk
    | .closed wk => some wk
    | .gone => none
  | .send _ mid .done => (w.resp[mid]?).map Resp.wk
  | .reply mid => (w.resp[mid]?).map Resp.wk
  | .recv _ (.waiting c) => (w.cells[c]?).bind fun x => match x with
    | .empty wk => some wk
    | .full _ wk => some wk
    | _ => none
  | .join (some l) => (w.lst[l]?).map LCell.wk
  | _ => none

theorem wakerOf_exec {cap : Option Nat} {s : Sys} (hr : Reachable cap s) {t : Nat} {mc : Micro} {rest : List Micro}
    (ht : s.th[t]? = some (mc :: rest)) {w' : World} {ms : List Micro} (he : ExecR s.w mc w' ms)
    {f : Nat} {o : Obj} (ho : s.w.objs[f]? = some o) (ha : o.awaits = true) {wk : Nat}
    (hk : s.w.wakerOf o = some (some wk)) : w'.wakerOf o = some (some wk) := by
  have hreg := regWs_reachable hr
  have hown := own_reachable hr
  have hkv := kInv_reachable hr
  have hresp : ∀ mid, (∃ bc, Ev.made f mid bc ∈ s.w.log) → (s.w.resp[mid]?).map Resp.wk = some (some wk) →
      (w'.resp[mid]?).map Resp.wk = some (some wk) := by
    intro mid ⟨bc, hmade⟩ h1
    cases hx : s.w.resp[mid]? with
    | none => simp [hx] at h1
    | some x =>
      rcases execR_wk he hx with ⟨y, h2, h3⟩ | ⟨g, wk', rfl⟩
      · rw [h2]; simp [hx] at h1; simp [h3, h1]
      · have h4 : okM s.w.log (.sendFin g .ret mid wk') := hkv.th _ (List.mem_of_getElem? ht) _ (by simp)
        have h5 := ((hkv.uniq _ _ _ _ _ _ h4 hmade).1).mpr rfl
        have h6 := slot_lt hr ht (f := g) rfl
        rw [h5, ho] at h6; simp at h6; subst h6; simp [Obj.awaits] at ha
  cases o with
  | send md mid st =>
    have hm := hkv.kw.objs f _ ho
    cases st with
    | new => simp [Obj.awaits] at ha
    | waiting h =>
      obtain ⟨⟨x, hx, -⟩, hno⟩ := owns_ws hown ho
      have hno := hno ht
      rcases execR_evo he hreg hx with h1 | ⟨a, b, c, d, e, g, -, rfl, -⟩ | ⟨a, m, rfl, h1, -⟩ | ⟨a, m, rfl, h1, -⟩ | ⟨-, ⟨a, b, c, d, rfl, -⟩ | ⟨rfl, -⟩⟩
      · simp only [World.wakerOf, h1]; simp only [World.wakerOf, hx] at hk; exact hk
      · simp [mWs, is1] at hno
      · simp only [World.wakerOf, h1]; simp only [World.wakerOf, hx] at hk; exact hk
      · simp only [World.wakerOf, h1]; simp only [World.wakerOf, hx] at hk; exact hk
      · simp [mWs, is1] at hno
      · simp [mWs, is1] at hno
    | done => exact hresp mid ⟨_, hm.1⟩ hk
  | reply mid => exact hresp mid ⟨_, hkv.kw.objs f _ ho⟩ hk
  | recv b st =>
    cases st with
    | new => simp [Obj.awaits] at ha
    | waiting c =>
      obtain ⟨⟨x, hx, -⟩, hno⟩ := owns_cell hown ho
      have hno := hno ht
      rcases execR_cellEvo he hreg hx with h1 | ⟨a, k, rfl, h1⟩ | h1
      · simp only [World.wakerOf, h1]; simp only [World.wakerOf, hx] at hk; exact hk
      · simp only [World.wakerOf, h1]; simp only [World.wakerOf, hx] at hk; exact hk
      · exact absurd hno h1
  | join l =>
    cases l with
    | none => simp [Obj.awaits] at ha
    | some l =>
      simp only [World.wakerOf] at hk ⊢
      cases hx : s.w.lst[l]? with
      | none => simp [hx] at hk
      | some x =>
        obtain ⟨y, h1, h2⟩ := execR_lwk he hx
        rw [h1]; simp [hx] at hk; simp [h2, hk]
  | _ => simp [Obj.awaits] at ha

/-- Futures that only exist after a poll that returned `Pending`. -/
def Obj.polled : Obj → Bool
  | .send _ _ (.waiting _) => true
  | .send _ _ .done => true
  | .recv _ (.waiting _) => true
  | _ => false

structure WakeInv (s : Sys) : Prop where
  reg : ∀ (f : Nat) (o : Obj) (wk : Nat), s.w.objs[f]? = some o → o.awaits = true →
    pendingWith f s.w.log = some wk → s.w.wakerOf o = some (some wk)
  pol : ∀ (f : Nat) (o : Obj), s.w.objs[f]? = some o → o.polled = true → ∃ wk, pendingWith f s.w.log = some wk

theorem pendingWith_here (f : Nat) (e : Ev) (l : List Ev) {x : Option Nat} (h : e.poll f = some x) :
    pendingWith f (e :: l) = x := by
  simp [pendingWith, List.findSome?_cons, h]

theorem wakeInv_exec {cap : Option Nat} {s : Sys} (hr : Reachable cap s) (k : WakeInv s) {t : Nat} {mc : Micro}
    {rest : List Micro} (ht : s.th[t]? = some (mc :: rest)) {w' : World} {ms : List Micro} (he : ExecR s.w mc w' ms) :
    WakeInv ⟨w', s.th.set t (ms ++ rest)⟩ := by
  have hreg := regWs_reachable hr
  have main : ∀ (f : Nat) (o : Obj), w'.objs[f]? = some o → o.awaits = true →
      (∀ wk, pendingWith f w'.log = some wk → w'.wakerOf o = some (some wk)) ∧
      (o.polled = true → ∃ wk, pendingWith f w'.log = some wk) := by
    intro f o ho ha
    by_cases hs : mc.slot = some f
    · have hb := slot_lt hr ht hs
      rcases execR_objEvo he ho with h1 | ⟨-, h1⟩
      · rw [hb] at h1; simp at h1; subst h1; simp [Obj.awaits] at ha
      · have hfwf := wf_reachable hr ht
        rcases h1 with h1 | ⟨md, mid, h, wk, m, wk', rfl, rfl, hc, rfl⟩ | ⟨mid, wk, rfl, rfl, rfl⟩ |
          ⟨mid, wk, wk', rfl, rfl, hc, rfl⟩ | ⟨b, c, wk, wk', rfl, rfl, hc, rfl⟩ | ⟨l, rfl, rfl, rfl⟩
        · cases o <;> simp [Obj.inert] at h1 <;> simp [Obj.awaits] at ha
          rename_i l; cases l <;> simp [Obj.inert] at h1 ha
        · have hl := (List.getElem?_eq_some_iff.mp hc).1
          have := pendingWith_here f (.sendPending f mid wk) s.w.log (x := some wk) (by simp [Ev.poll])
          refine ⟨fun wk2 h2 => ?_, fun _ => ⟨wk, this⟩⟩
          replace h2 := this.symm.trans h2; simp at h2; subst h2
          simp [World.wakerOf, hl]
        · have := pendingWith_here f (.sendOk f mid) s.w.log (x := none) (by simp [Ev.poll])
          refine ⟨fun wk2 h2 => ?_, by simp [Obj.polled]⟩
          replace h2 := this.symm.trans h2; simp at h2
        · have hl := (List.getElem?_eq_some_iff.mp hc).1
          have := pendingWith_here f (.sendPending f mid wk) s.w.log (x := some wk) (by simp [Ev.poll])
          refine ⟨fun wk2 h2 => ?_, fun _ => ⟨wk, this⟩⟩
          replace h2 := this.symm.trans h2; simp at h2; subst h2
          simp [World.wakerOf, hl, Resp.wk]
        · have hl := (List.getElem?_eq_some_iff.mp hc).1
          have := pendingWith_here f (.recvPending f wk) s.w.log (x := some wk) (by simp [Ev.poll])
          refine ⟨fun wk2 h2 => ?_, fun _ => ⟨wk, this⟩⟩
          replace h2 := this.symm.trans h2; simp at h2; subst h2
          simp [World.wakerOf, hl]
        · have h2 := (fresh_reachable hr).jth f (by
            have := tot_head (mJ f) ht; simp [mJ, is1] at this; omega)
          refine ⟨fun wk2 h3 => ?_, by simp [Obj.polled]⟩
          have h3 : pendingWith f s.w.log = some wk2 := h3
          rw [h2] at h3; simp at h3
    · have hpw := execR_pw he hreg hs
      rcases execR_objEvo he ho with h1 | ⟨h1, -⟩
      · rw [hpw]
        exact ⟨fun wk h2 => wakerOf_exec hr ht he h1 ha (k.reg f o wk h1 ha h2), fun h2 => k.pol f o h1 h2⟩
      · exact absurd h1 hs
  refine ⟨fun f o wk ho ha h => (main f o ho ha).1 wk h, fun f o ho hp => ?_⟩
  have ha : o.awaits = true := by
    cases o <;> simp [Obj.polled] at hp <;> rename_i st <;> cases st <;> simp [Obj.polled] at hp <;> rfl
  exact (main f o ho ha).2 hp

theorem callR_awaits {w w' : World} {c : Call} {ms : List Micro} (h : CallR w c w' ms) {f : Nat} {o : Obj}
    (ho : w'.objs[f]? = some o) (ha : o.awaits = true) :
    (f = w.objs.length ∧ o.polled = false ∧ w'.log = w.log) ∨
    ∃ o0, w.objs[f]? = some o0 ∧ o0.awaits = true ∧ (∀ w1 : World, w1.wakerOf o = w1.wakerOf o0) ∧ o0.polled = o.polled := by
  have same : w.objs[f]? = some o → ∃ o0, w.objs[f]? = some o0 ∧ o0.awaits = true ∧
      (∀ w1 : World, w1.wakerOf o = w1.wakerOf o0) ∧ o0.polled = o.polled := fun h => ⟨o, h, ha, fun _ => rfl, rfl⟩
  by_cases hst : ∃ i, c = .joinStale i
  · obtain ⟨i, rfl⟩ := hst
    cases h
    rcases append_cases ho with h | ⟨hf, rfl⟩
    · exact .inr (same h.2)
    · exact .inl ⟨hf, rfl, rfl⟩
  right
  cases h
  case joinStale => exact absurd ⟨_, rfl⟩ hst
  case detach f' mid st h1 =>
    rcases set_cases ho with ⟨rfl, rfl⟩ | h
    · refine ⟨_, h1, ?_, ?_, ?_⟩
      · cases st <;> simp_all [Obj.awaits]
      · intro w1; cases st <;> rfl
      · cases st <;> rfl
    · exact same h.2
  case next b h1 h2 =>
    simp at ho
    rcases append_cases ho with h | ⟨-, rfl⟩
    · exact same h.2
    · simp [Obj.awaits] at ha
  all_goals first
    | exact same ho
    | (rcases set_cases ho with ⟨rfl, rfl⟩ | h
       · simp [Obj.awaits] at ha
       · exact same h.2)
    | (rcases append_cases ho with h | ⟨-, rfl⟩
       · exact same h.2
       · simp [Obj.awaits] at ha)

theorem two_le {α : Type _} (g : α → Nat) {xs : List α} {i j : Nat} {x y : α} (hij : i ≠ j)
    (hi : xs[i]? = some x) (hj : xs[j]? = some y) : g x + g y ≤ sumBy g xs := by
  induction xs generalizing i j with
  | nil => simp at hi
  | cons a xs ih =>
    cases i with
    | zero =>
      cases j with
      | zero => exact absurd rfl hij
      | succ j => simp at hi hj; subst hi; have := le_sumBy g hj; simp; omega
    | succ i =>
      cases j with
      | zero => simp at hi hj; subst hj; have := le_sumBy g hi; simp; omega
      | succ j => simp at hi hj; have := ih (by omega) hi hj; simp; omega

theorem wakerOf_call {cap : Option Nat} {s : Sys} (hr : Reachable cap s) {c : Call} {w' : World} {ms : List Micro}
    (hc : CallR s.w c w' ms) {f : Nat} {o : Obj} (ho : s.w.objs[f]? = some o) (ha : o.awaits = true) {wk : Nat}
    (hpw : pendingWith f w'.log = pendingWith f s.w.log) (hp : pendingWith f s.w.log = some wk)
    (hk : s.w.wakerOf o = some (some wk)) : w'.wakerOf o = some (some wk) := by
  have hkv := kInv_reachable hr
  have hws : w'.ws = s.w.ws ∧ w'.cells = s.w.cells := by cases hc <;> simp
  have hresp : ∀ mid, (∃ bc, Ev.made f mid bc ∈ s.w.log) → (s.w.resp[mid]?).map Resp.wk = some (some wk) →
      (w'.resp[mid]?).map Resp.wk = some (some wk) := by
    intro mid ⟨bc, hmade⟩ h1
    have app : ∀ x : Resp, ((s.w.resp ++ [x])[mid]?).map Resp.wk = some (some wk) := by
      intro x
      have : mid < s.w.resp.length := by
        apply Nat.lt_of_not_le; intro hge
        rw [List.getElem?_eq_none hge] at h1; simp at h1
      rw [List.getElem?_append_left this]; exact h1
    cases hc
    case send => exact app _
    case broadcast => exact app _
    case pollReply_waiting g wk2 mid2 wk' h2 h3 =>
      by_cases hm : mid2 = mid
      · subst hm
        have h4 : Ev.made g mid2 false ∈ s.w.log := hkv.kw.objs g _ h2
        have h5 := ((hkv.uniq _ _ _ _ _ _ h4 hmade).1).mpr rfl
        subst h5
        have : pendingWith g (Ev.sendPending g mid2 wk2 :: s.w.log) = some wk2 := pendingWith_here _ _ _ (by simp [Ev.poll])
        have h6 := this.symm.trans (hpw.trans hp)
        simp at h6; subst h6
        have hl := (List.getElem?_eq_some_iff.mp h3).1
        simp [hl, Resp.wk]
      · simp [List.getElem?_set_ne hm, h1]
    all_goals simpa using h1
  have hlst : ∀ l, o = .join (some l) → (s.w.lst[l]?).map LCell.wk = some (some wk) →
      (w'.lst[l]?).map LCell.wk = some (some wk) := by
    intro l hol h1
    cases hc
    case join =>
      have : l < s.w.lst.length := by
        apply Nat.lt_of_not_le; intro hge
        rw [List.getElem?_eq_none hge] at h1; simp at h1
      show ((s.w.lst ++ [_])[l]?).map LCell.wk = some (some wk)
      rw [List.getElem?_append_left this]; exact h1
    case joinStale =>
      have : l < s.w.lst.length := by
        apply Nat.lt_of_not_le; intro hge
        rw [List.getElem?_eq_none hge] at h1; simp at h1
      show ((s.w.lst ++ [_])[l]?).map LCell.wk = some (some wk)
      rw [List.getElem?_append_left this]; exact h1
    case pollJoin_waiting j wk2 l2 wk' h2 h3 =>
      by_cases hm : l2 = l
      · subst hm
        by_cases hj : j = f
        · subst hj
          have : pendingWith j (Ev.joinPending j wk2 :: s.w.log) = some wk2 := pendingWith_here _ _ _ (by simp [Ev.poll])
          have h6 := this.symm.trans (hpw.trans hp)
          simp at h6; subst h6
          have hl := (List.getElem?_eq_some_iff.mp h3).1
          simp [hl, LCell.wk]
        · have h4 := lu_reachable hr l2
          subst hol
          have h5 := two_le (oL l2) hj h2 ho
          simp [oL, is1] at h5
          split at h4 <;> omega
      · simp [List.getElem?_set_ne hm, h1]
    all_goals simpa using h1
  cases o with
  | send md mid st =>
    have hm := hkv.kw.objs f _ ho
    cases st with
    | new => simp [Obj.awaits] at ha
    | waiting h => simpa only [World.wakerOf, hws.1] using hk
    | done => exact hresp mid ⟨_, hm.1⟩ hk
  | reply mid => exact hresp mid ⟨_, hkv.kw.objs f _ ho⟩ hk
  | recv b st =>
    cases st with
    | new => simp [Obj.awaits] at ha
    | waiting c => simpa only [World.wakerOf, hws.2] using hk
  | join l =>
    cases l with
    | none => simp [Obj.awaits] at ha
    | some l => exact hlst l rfl hk
  | _ => simp [Obj.awaits] at ha

theorem wakeInv_call {cap : Option Nat} {s : Sys} (hr : Reachable cap s) (k : WakeInv s) {c : Call} {w' : World}
    {ms : List Micro} (hc : CallR s.w c w' ms) : WakeInv ⟨w', s.th ++ [ms]⟩ := by
  refine ⟨fun f o wk ho ha h => ?_, fun f o ho hp => ?_⟩
  · rcases callR_awaits hc ho ha with ⟨rfl, -, hl⟩ | ⟨o0, h1, h2, h3, -⟩
    · have h0 := (fresh_reachable hr).fr _ (Nat.le_refl _)
      simp only [hl, h0] at h; cases h
    rcases callR_pw hc f with h4 | ⟨wk2, mid, wk', h4, h5, rfl⟩ | ⟨wk2, l, wk', h4, h5, rfl⟩ | ⟨h4, rfl⟩ | ⟨l, h4, rfl⟩
    · have h5 : pendingWith f s.w.log = some wk := h4 ▸ h
      simp only [h3]
      exact wakerOf_call hr hc h1 h2 h4 h5 (k.reg f o0 wk h1 h2 h5)
    · have : pendingWith f (Ev.sendPending f mid wk2 :: s.w.log) = some wk2 := pendingWith_here _ _ _ (by simp [Ev.poll])
      replace h := this.symm.trans h; simp at h; subst h
      rw [h1] at h4; simp at h4; subst h4
      have hl := (List.getElem?_eq_some_iff.mp h5).1
      simp only [h3]; simp [World.wakerOf, hl, Resp.wk]
    · have : pendingWith f (Ev.joinPending f wk2 :: s.w.log) = some wk2 := pendingWith_here _ _ _ (by simp [Ev.poll])
      replace h := this.symm.trans h; simp at h; subst h
      rw [h1] at h4; simp at h4; subst h4
      have hl := (List.getElem?_eq_some_iff.mp h5).1
      simp only [h3]; simp [World.wakerOf, hl, LCell.wk]
    · rw [h1] at h4; simp at h4; subst h4; simp [Obj.awaits] at h2
    · have : pendingWith f (Ev.joined f :: s.w.log) = none := pendingWith_here _ _ _ (by simp [Ev.poll])
      replace h := this.symm.trans h; simp at h
  · have ha : o.awaits = true := by
      cases o <;> simp [Obj.polled] at hp <;> rename_i st <;> cases st <;> simp [Obj.polled] at hp <;> rfl
    rcases callR_awaits hc ho ha with ⟨-, h0, -⟩ | ⟨o0, h1, h2, h3, h3'⟩
    · rw [h0] at hp; cases hp
    obtain ⟨wk, hk⟩ := k.pol f o0 h1 (h3'.trans hp)
    rcases callR_pw hc f with h4 | ⟨wk2, mid, wk', h4, h5, rfl⟩ | ⟨wk2, l, wk', h4, h5, rfl⟩ | ⟨h4, rfl⟩ | ⟨l, h4, rfl⟩
    · exact ⟨wk, h4.trans hk⟩
    all_goals (rw [h1] at h4; simp at h4; subst h4; rw [hp] at h3'; simp [Obj.polled] at h3')

theorem wake_reachable {cap : Option Nat} {s : Sys} (h : Reachable cap s) : WakeInv s := by
  refine Reachable.inv (P := WakeInv) ?_ ?_ ?_ h
  · refine ⟨fun f o wk ho ha h => ?_, fun f o ho hp => ?_⟩
    · simp [init, pendingWith] at h
    · rcases f with _ | _ | f <;> simp [init] at ho <;> subst ho <;> simp [Obj.polled] at hp
  · intro s c w' ms hr ih hc; exact wakeInv_call hr ih hc
  · intro s t m rest w' ms hr ih ht he; exact wakeInv_exec hr ih ht he

/-! ## C21 -/

/-- C21: in every reachable state, a send, receive, reply or join future whose latest poll returned
`Pending` with waker `wk` is either still unable to complete with `wk` registered for it, or `wk` has
been woken. (There is no third possibility: no other waker is ever registered or woken instead.) -/
theorem C21_registered_or_woken {cap : Option Nat} {s : Sys} (h : Reachable cap s) {f wk : Nat} {o : Obj}
    (ho : s.w.objs[f]? = some o) (ha : o.awaits = true) (hp : pendingWith f s.w.log = some wk) :
    s.w.sleeps wk o ∨ s.w.wokenUp wk o := by
  have hk := (wake_reachable h).reg f o wk ho ha hp
  have hkv := kInv_reachable h
  have hresp : ∀ mid, Ev.made f mid false ∈ s.w.log → (s.w.resp[mid]?).map Resp.wk = some (some wk) →
      s.w.resp[mid]? = some (.waiting (some wk)) ∨
      ((∃ r, s.w.resp[mid]? = some (.value r (some wk))) ∨ s.w.resp[mid]? = some (.interrupted (some wk))) := by
    intro mid hmade h1
    cases hx : s.w.resp[mid]? with
    | none => simp [hx] at h1
    | some x => cases x <;> simp [hx, Resp.wk] at h1 <;> simp [h1]
  cases o with
  | send md mid st =>
    have hm := hkv.kw.objs f _ ho
    cases st with
    | new => simp [Obj.awaits] at ha
    | waiting h =>
      simp only [World.wakerOf] at hk
      cases hx : s.w.ws[h]? with
      | none => simp [hx] at hk
      | some x => cases x <;> simp [hx] at hk <;> simp [World.sleeps, World.wokenUp, hx, hk]
    | done =>
      simp only [World.wakerOf] at hk
      simp only [World.sleeps, World.wokenUp]
      cases hx : s.w.resp[mid]? with
      | none => simp [hx] at hk
      | some x => cases x <;> simp [hx, Resp.wk] at hk <;> simp [hk]
  | reply mid => exact hresp mid (hkv.kw.objs f _ ho) hk
  | recv b st =>
    cases st with
    | new => simp [Obj.awaits] at ha
    | waiting c =>
      simp only [World.wakerOf] at hk
      cases hx : s.w.cells[c]? with
      | none => simp [hx] at hk
      | some x => cases x <;> simp [hx] at hk <;> simp [World.sleeps, World.wokenUp, hx, hk]
  | join l =>
    cases l with
    | none => simp [Obj.awaits] at ha
    | some l =>
      simp only [World.wakerOf] at hk
      cases hx : s.w.lst[l]? with
      | none => simp [hx] at hk
      | some x => cases x <;> simp [hx, LCell.wk] at hk <;> simp [World.sleeps, World.wokenUp, hx, hk]
  | _ => simp [Obj.awaits] at ha

/-- C21: a registered send or receive future always is in that situation: some poll returned `Pending`
with a waker, which is registered or was woken. -/
theorem C21_never_unregistered {cap : Option Nat} {s : Sys} (h : Reachable cap s) {f : Nat} {o : Obj}
    (ho : s.w.objs[f]? = some o)
    (hk : (∃ md mid x, o = .send md mid (.waiting x)) ∨ (∃ md mid, o = .send md mid .done) ∨ (∃ b x, o = .recv b (.waiting x))) :
    ∃ wk, pendingWith f s.w.log = some wk ∧ (s.w.sleeps wk o ∨ s.w.wokenUp wk o) := by
  have hp : o.polled = true := by
    rcases hk with ⟨_, _, _, rfl⟩ | ⟨_, _, rfl⟩ | ⟨_, _, rfl⟩ <;> rfl
  have ha : o.awaits = true := by
    rcases hk with ⟨_, _, _, rfl⟩ | ⟨_, _, rfl⟩ | ⟨_, _, rfl⟩ <;> rfl
  obtain ⟨wk, h1⟩ := (wake_reachable h).pol f o ho hp
  exact ⟨wk, h1, C21_registered_or_woken h ho ha h1⟩

/-- C21: `sleeps` really means that the future cannot complete: polled again it returns `Pending` (and the
new waker replaces the old one). -/
theorem C21_asleep_polls_pending {w w' : World} {f wk wk' : Nat} {o : Obj} (ho : w.objs[f]? = some o)
    (hs : w.sleeps wk o) (hmd : ∀ mid, o ≠ .send .detached mid .done ∧ o ≠ .send .bcast mid .done)
    (hd : Does w (o.pollCall f wk') w') :
    pendingWith f w'.log = some wk' ∧ w'.sleeps wk' o := by
  obtain ⟨w1, ms, hc, hm⟩ := hd
  have hf := (List.getElem?_eq_some_iff.mp ho).1
  cases o with
  | send md mid st =>
    cases st with
    | new => simp [World.sleeps] at hs
    | waiting h =>
      obtain ⟨m, hs⟩ := hs
      simp only [Obj.pollCall, call, ho] at hc; simp at hc; obtain ⟨rfl, rfl⟩ := hc
      cases hm with | cons hm =>
      simp only [exec, World.setObj, hs] at hm
      cases hm
      have hl := (List.getElem?_eq_some_iff.mp hs).1
      exact ⟨pendingWith_here _ _ _ (by simp [Ev.poll]), m, by simp [World.ev, hl]⟩
    | done =>
      cases md with
      | ret =>
        simp only [World.sleeps] at hs
        simp only [Obj.pollCall, call, ho] at hc; simp at hc; obtain ⟨rfl, rfl⟩ := hc
        cases hm with | cons hm =>
        simp only [exec, World.setObj, hs] at hm
        cases hm
        have hl := (List.getElem?_eq_some_iff.mp hs).1
        exact ⟨pendingWith_here _ _ _ (by simp [Ev.poll]), by simp [World.sleeps, World.ev, hl]⟩
      | detached => exact absurd rfl (hmd mid).1
      | bcast => exact absurd rfl (hmd mid).2
  | reply mid =>
    simp only [World.sleeps] at hs
    simp only [Obj.pollCall, call, ho, hs] at hc; simp at hc; obtain ⟨rfl, rfl⟩ := hc
    cases hm
    have hl := (List.getElem?_eq_some_iff.mp hs).1
    exact ⟨pendingWith_here _ _ _ (by simp [Ev.poll]), by simp [World.sleeps, World.ev, hl]⟩
  | recv b st =>
    cases st with
    | new => simp [World.sleeps] at hs
    | waiting c =>
      simp only [World.sleeps] at hs
      simp only [Obj.pollCall, call, ho] at hc; simp at hc; obtain ⟨rfl, rfl⟩ := hc
      cases hm with | cons hm =>
      simp only [exec, World.setObj, hs] at hm
      cases hm
      have hl := (List.getElem?_eq_some_iff.mp hs).1
      exact ⟨pendingWith_here _ _ _ (by simp [Ev.poll]), by simp [World.sleeps, World.ev, hl]⟩
  | join l =>
    cases l with
    | none => simp [World.sleeps] at hs
    | some l =>
      simp only [World.sleeps] at hs
      simp only [Obj.pollCall, call, ho, hs] at hc; simp at hc; obtain ⟨rfl, rfl⟩ := hc
      cases hm
      have hl := (List.getElem?_eq_some_iff.mp hs).1
      exact ⟨pendingWith_here _ _ _ (by simp [Ev.poll]), by simp [World.sleeps, World.ev, hl]⟩
  | _ => simp [World.sleeps] at hs

/-- C21: a future whose latest poll returned `Pending` with `wk` and whose next poll would not return
`Pending` has had `wk` woken. (A send detached while awaiting its reply is excluded: `detach` itself makes
it able to complete.) -/
theorem C21_ready_implies_woken {cap : Option Nat} {w w' : World} {f wk wk' : Nat} {o : Obj} (hq : Quiet cap w)
    (ho : w.objs[f]? = some o) (ha : o.awaits = true) (hp : pendingWith f w.log = some wk)
    (hmd : ∀ mid, o ≠ .send .detached mid .done ∧ o ≠ .send .bcast mid .done)
    (hd : Does w (o.pollCall f wk') w') (hr : pendingWith f w'.log ≠ some wk') : w.wokenUp wk o := by
  obtain ⟨th, hre, -⟩ := hq
  rcases C21_registered_or_woken hre ho ha hp with h | h
  · exact absurd (C21_asleep_polls_pending ho h hmd hd).1 hr
  · exact h

/-- C21, non-vacuity: a receive polled with waker 7 is woken by a send.
Meets the hypotheses of `C21_registered_or_woken`, `C21_ready_implies_woken`. -/
example : ∃ s, Reachable none s ∧ s.w.objs[2]? = some (.recv 0 (.waiting 0)) ∧
    pendingWith 2 s.w.log = some 7 ∧ s.w.wokenUp 7 (.recv 0 (.waiting 0)) :=
  ⟨_, Reachable.run .init (as := [.call (.next 1), .call (.pollRecv 2 3), .exec 1, .exec 1, .call (.pollRecv 2 7),
    .exec 2, .call (.send 0), .call (.pollSend 3 9), .exec 4, .exec 4, .exec 4]) rfl, by decide, by decide,
    .newMessage ⟨0, .valued 0⟩, by decide⟩

/-- C21, non-vacuity: a send parked on a full mailbox and polled twice sleeps with the second waker.
Meets the hypotheses of `C21_registered_or_woken`, `C21_never_unregistered`, `C21_asleep_polls_pending`. -/
example : ∃ s, Reachable (some 0) s ∧ s.w.objs[2]? = some (.send .ret 0 (.waiting 0)) ∧
    pendingWith 2 s.w.log = some 9 ∧ s.w.sleeps 9 (.send .ret 0 (.waiting 0)) :=
  ⟨_, Reachable.run .init (as := [.call (.send 0), .call (.pollSend 2 8), .exec 1, .exec 1, .exec 1, .exec 1, .exec 1,
    .call (.pollSend 2 9), .exec 2]) rfl, by decide, by decide, ⟨0, .valued 0⟩, by decide⟩

end Xtra
