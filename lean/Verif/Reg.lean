import Verif.Count
/-! Registration invariants: parked senders and idle receivers. -/

set_option linter.unusedSimpArgs false

namespace Xtra

/-- Effect of dropping a handle on its cell. -/
def WsCell.close : WsCell → WsCell
  | .active wk _ => .closed wk
  | c => c

theorem closeHandle_ws (w : World) (h k : Nat) :
    (w.closeHandle h).ws[k]? = if k = h then (w.ws[k]?).map WsCell.close else w.ws[k]? := by
  unfold World.closeHandle
  split
  · rename_i wk m hc
    simp only [World.kill_ws]
    by_cases hk : k = h
    · subst hk
      rw [List.getElem?_set_self (by exact (List.getElem?_eq_some_iff.mp hc).1)]
      simp [hc, WsCell.close]
    · rw [List.getElem?_set_ne (by omega)]; simp [hk]
  · rename_i hc
    split
    · rename_i hk
      subst hk
      cases hx : w.ws[k]? with
      | none => rfl
      | some x => cases x <;> simp [WsCell.close]; exact (hc _ _ hx).elim
    · rfl

theorem closeHandles_ws (hs : List Nat) (w : World) (k : Nat) :
    (w.closeHandles hs).ws[k]? = if k ∈ hs then (w.ws[k]?).map WsCell.close else w.ws[k]? := by
  induction hs generalizing w with
  | nil => simp [World.closeHandles]
  | cons h hs ih =>
    simp only [World.closeHandles]
    rw [ih, closeHandle_ws]
    have hc : ∀ x : Option WsCell, (x.map WsCell.close).map WsCell.close = x.map WsCell.close := by
      intro x; cases x with
      | none => rfl
      | some y => cases y <;> rfl
    by_cases h1 : k ∈ hs <;> by_cases h2 : k = h <;>
      simp only [h1, h2, if_true, if_false, List.mem_cons, or_true, or_self, or_false, hc] <;>
      (subst h2; simp [h1, hc])

/-- Every parked-sender cell after `shutdown_waiting_senders`. -/
theorem shutTx_ws (w : World) (k : Nat) :
    w.shutTx.ws[k]? = if k ∈ w.wOne ∨ k ∈ w.wAll then (w.ws[k]?).map WsCell.close else w.ws[k]? := by
  have : ∀ x : Option WsCell, (x.map WsCell.close).map WsCell.close = x.map WsCell.close := by
    intro x; cases x with
    | none => rfl
    | some y => cases y <;> rfl
  simp only [World.shutTx, closeHandles_ws, World.closeHandles_wAll, World.killAll_wAll,
    World.killAll_wOne, World.killAll_ws]
  by_cases h1 : k ∈ w.wOne <;> by_cases h2 : k ∈ w.wAll <;> simp only [h1, h2, if_true, if_false,
    or_self, or_true, true_or, this]

@[simp] theorem shutTx_wOne (w : World) : w.shutTx.wOne = [] := by simp [World.shutTx]
@[simp] theorem shutTx_wAll (w : World) : w.shutTx.wAll = [] := by simp [World.shutTx]
@[simp] theorem shutTx_uq (w : World) : w.shutTx.uq = [] := by simp [World.shutTx]
@[simp] theorem shutTx_bqs (w : World) : w.shutTx.bqs = [] := by simp [World.shutTx]

/-- Parked senders: the handles point to parked or dropped senders, each handle is in one place, and
every parked sender has a handle. -/
structure RegWs (ws : List WsCell) (wOne wAll : List Nat) : Prop where
  one : regOk ws wOne
  all : regOk ws wAll
  nodup : (wOne ++ wAll).Nodup
  reg : ∀ {h : Nat} {wk : Option Nat} {m : Msg}, ws[h]? = some (.active wk m) → h ∈ wOne ∨ h ∈ wAll

theorem RegWs.swap {ws : List WsCell} {a b : List Nat} (h : RegWs ws a b) : RegWs ws b a where
  one := h.all
  all := h.one
  nodup := (List.perm_append_comm.nodup_iff).mp h.nodup
  reg := fun hc => (h.reg hc).symm

theorem RegWs.takes {ws : List WsCell} {a b a' : List Nat} (r : RegWs ws a b) {h : Nat}
    {wk : Option Nat} {m : Msg} (t : Takes ws a h wk m a') : RegWs (ws.set h (.delivered wk)) a' b := by
  have hsub : ∀ x ∈ a', x ∈ a := fun x hx => t.sublist.subset hx
  have hn := List.nodup_append.mp r.nodup
  have hnm := t.not_mem hn.1
  have hb : h ∉ b := fun hb => hn.2.2 h t.mem h hb rfl
  have hl := (List.getElem?_eq_some_iff.mp t.cell).1
  refine ⟨?_, ?_, ?_, ?_⟩
  · intro x hx
    have : h ≠ x := by rintro rfl; exact hnm hx
    rw [List.getElem?_set_ne this]; exact r.one x (hsub x hx)
  · intro x hx
    have : h ≠ x := by rintro rfl; exact hb hx
    rw [List.getElem?_set_ne this]; exact r.all x hx
  · exact r.nodup.sublist (t.sublist.append (List.Sublist.refl b))
  · intro x wk' m' hx
    by_cases hk : h = x
    · subst hk; rw [List.getElem?_set_self hl] at hx; simp at hx
    · rw [List.getElem?_set_ne hk] at hx
      rcases r.reg hx with h1 | h1
      · exact .inl (t.mem_rest h1 (by simp [wsActive, hx]) (fun e => hk e.symm))
      · exact .inr h1

theorem RegWs.clear {ws : List WsCell} {a b : List Nat} (r : RegWs ws a b)
    (hg : ∀ h ∈ a, ws[h]? = some .gone) : RegWs ws [] b := by
  refine ⟨by simp [regOk], r.all, ?_, ?_⟩
  · simpa using (List.nodup_append.mp r.nodup).2.1
  · intro h wk m hx
    rcases r.reg hx with h1 | h1
    · rw [hg h h1] at hx; simp at hx
    · exact .inr h1

theorem RegWs.park {ws : List WsCell} {a b : List Nat} (r : RegWs ws a b) (m : Msg) :
    RegWs (ws ++ [.active none m]) (a ++ [ws.length]) b := by
  have hlt : ∀ x, x ∈ a ∨ x ∈ b → x < ws.length := by
    intro x hx
    have h1 : (∃ wk m, ws[x]? = some (.active wk m)) ∨ ws[x]? = some .gone := by
      rcases hx with hx | hx
      · exact r.one x hx
      · exact r.all x hx
    rcases h1 with ⟨wk, m, h⟩ | h <;> exact (List.getElem?_eq_some_iff.mp h).1
  have get : ∀ x, x < ws.length → (ws ++ [WsCell.active none m])[x]? = ws[x]? := by
    intro x hx; rw [List.getElem?_append_left hx]
  refine ⟨?_, ?_, ?_, ?_⟩
  · intro x hx
    rcases List.mem_append.mp hx with hx | hx
    · rw [get x (hlt x (.inl hx))]; exact r.one x hx
    · simp at hx; subst hx; simp
  · intro x hx; rw [get x (hlt x (.inr hx))]; exact r.all x hx
  · have hn := List.nodup_append.mp r.nodup
    rw [List.nodup_append]
    refine ⟨?_, hn.2.1, ?_⟩
    · rw [List.nodup_append]
      refine ⟨hn.1, by simp, ?_⟩
      intro x hx y hy
      have := hlt x (.inl hx); simp at hy; omega
    · intro x hx y hy
      rcases List.mem_append.mp hx with hx | hx
      · exact hn.2.2 x hx y hy
      · have := hlt y (.inr hy); simp at hx; omega
  · intro h wk m' hx
    by_cases hl : h < ws.length
    · rw [get h hl] at hx
      rcases r.reg hx with h1 | h1
      · exact .inl (by simp [h1])
      · exact .inr h1
    · have : h = ws.length := by
        have := (List.getElem?_eq_some_iff.mp hx).1
        simp at this; omega
      subst this; simp

/-- Overwriting a non-registered-relevant cell: the new content is parked iff the old one was, or the
sender is dropped. -/
theorem RegWs.set {ws : List WsCell} {a b : List Nat} (r : RegWs ws a b) {h : Nat} {x : WsCell}
    (hx : (∃ wk m wk' m', ws[h]? = some (.active wk m) ∧ x = .active wk' m') ∨ x = .gone) :
    RegWs (ws.set h x) a b := by
  have key : ∀ k : Nat, ((∃ wk m, ws[k]? = some (.active wk m)) ∨ ws[k]? = some .gone) →
      ((∃ wk m, (ws.set h x)[k]? = some (.active wk m)) ∨ (ws.set h x)[k]? = some .gone) := by
    intro k hk
    by_cases he : h = k
    · subst he
      have hl : h < ws.length := by
        rcases hk with ⟨_, _, hk⟩ | hk <;> exact (List.getElem?_eq_some_iff.mp hk).1
      rw [List.getElem?_set_self hl]
      rcases hx with ⟨_, _, wk', m', -, rfl⟩ | rfl
      · left; exact ⟨_, _, rfl⟩
      · right; rfl
    · rw [List.getElem?_set_ne he]; exact hk
  refine ⟨fun k hk => key k (r.one k hk), fun k hk => key k (r.all k hk), r.nodup, ?_⟩
  intro k wk m hk
  by_cases he : h = k
  · subst he
    have hl : h < ws.length := by
      have := (List.getElem?_eq_some_iff.mp hk).1; simpa using this
    rw [List.getElem?_set_self hl] at hk
    rcases hx with ⟨_, _, wk', m', h1, rfl⟩ | rfl
    · exact r.reg h1
    · simp at hk
  · rw [List.getElem?_set_ne he] at hk; exact r.reg hk

/-- Overwriting a delivered or closed cell by `gone`. -/
theorem RegWs.shutTx {w : World} (r : RegWs w.ws w.wOne w.wAll) : RegWs w.shutTx.ws [] [] := by
  refine ⟨by simp [regOk], by simp [regOk], by simp, ?_⟩
  intro h wk m hx
  rw [shutTx_ws] at hx
  split at hx
  · cases hc : w.ws[h]? with
    | none => simp [hc] at hx
    | some x => cases x <;> simp [hc, WsCell.close] at hx
  · rename_i hn
    exact (hn (r.reg hx)).elim

theorem callR_regWs {w w' : World} {c : Call} {ms : List Micro} (h : CallR w c w' ms) :
    w'.ws = w.ws ∧ w'.wOne = w.wOne ∧ w'.wAll = w.wAll ∧ w'.uq = w.uq ∧ w'.wRx = w.wRx ∧
    w'.cells = w.cells ∧ w'.bqs = w.bqs ∧ w'.tail = w.tail ∧ w'.cap = w.cap := by
  cases h <;> simp

theorem popUnicast_regWs {w w' : World} {m : Msg} (r : RegWs w.ws w.wOne w.wAll)
    (h : w.popUnicast = some (m, w')) : RegWs w'.ws w'.wOne w'.wAll := by
  obtain ⟨q, -, ⟨-, rfl⟩ | ⟨-, hg, rfl⟩ | ⟨-, h, wk, m', q', t, rfl⟩⟩ := popUnicast_cases r.one h
  · exact r
  · exact r.clear hg
  · exact r.takes t

@[simp] theorem afterPop_ws (w : World) (b : Nat) (q : List Msg) : (w.afterPop b q).ws = w.ws := by
  unfold World.afterPop; split <;> rfl
@[simp] theorem afterPop_wOne (w : World) (b : Nat) (q : List Msg) : (w.afterPop b q).wOne = w.wOne := by
  unfold World.afterPop; split <;> rfl
@[simp] theorem afterPop_wAll (w : World) (b : Nat) (q : List Msg) : (w.afterPop b q).wAll = w.wAll := by
  unfold World.afterPop; split <;> rfl
@[simp] theorem afterPop_log (w : World) (b : Nat) (q : List Msg) : (w.afterPop b q).log = w.log := by
  unfold World.afterPop; split <;> rfl
@[simp] theorem afterPop_cells (w : World) (b : Nat) (q : List Msg) : (w.afterPop b q).cells = w.cells := by
  unfold World.afterPop; split <;> rfl
@[simp] theorem afterPop_wRx (w : World) (b : Nat) (q : List Msg) : (w.afterPop b q).wRx = w.wRx := by
  unfold World.afterPop; split <;> rfl
@[simp] theorem afterPop_bqs (w : World) (b : Nat) (q : List Msg) : (w.afterPop b q).bqs = w.bqs := by
  unfold World.afterPop; split <;> rfl
@[simp] theorem afterPop_resp (w : World) (b : Nat) (q : List Msg) : (w.afterPop b q).resp = w.resp := by
  unfold World.afterPop; split <;> rfl
@[simp] theorem afterPop_uq (w : World) (b : Nat) (q : List Msg) : (w.afterPop b q).uq = w.uq := by
  unfold World.afterPop; split <;> rfl
@[simp] theorem afterPop_cap (w : World) (b : Nat) (q : List Msg) : (w.afterPop b q).cap = w.cap := by
  unfold World.afterPop; split <;> rfl
@[simp] theorem afterPop_objs (w : World) (b : Nat) (q : List Msg) : (w.afterPop b q).objs = w.objs := by
  unfold World.afterPop; split <;> rfl

theorem popBroadcast_regWs {w w' : World} {b : Nat} {m : Msg} (r : RegWs w.ws w.wOne w.wAll)
    (h : w.popBroadcast b = some (m, w')) : RegWs w'.ws w'.wOne w'.wAll := by
  obtain ⟨q, -, ⟨-, rfl⟩ | ⟨-, hg, rfl⟩ | ⟨-, h, wk, m', q', t, rfl⟩⟩ := popBroadcast_cases r.all h
  · simpa using r
  · simpa using (r.swap.clear hg).swap
  · simpa using (r.swap.takes t).swap

theorem execR_regWs {w w' : World} {m : Micro} {ms : List Micro} (h : ExecR w m w' ms)
    (r : RegWs w.ws w.wOne w.wAll) : RegWs w'.ws w'.wOne w'.wAll := by
  cases h
  case recv_all hp _ _ => simpa using popBroadcast_regWs r hp
  case recv_one hp _ _ => simpa using popUnicast_regWs r hp
  case recvBcast_some hp => simpa using popBroadcast_regWs r hp
  case shutTx => simpa using r.shutTx
  case critAll_park => simpa using (r.swap.park _).swap
  case critOne_park => simpa using r.park _
  case pollWs_active hc => simpa using r.set (.inl ⟨_, _, _, _, hc, rfl⟩)
  case pollWs_delivered hc => simpa using r.set (.inr rfl)
  case pollWs_closed hc => simpa using r.set (.inr rfl)
  case dropWs_active hc => simpa using r.set (.inr rfl)
  case dropWs_other hc => simpa using r.set (.inr rfl)
  all_goals simpa using r

theorem regWs_reachable {cap : Option Nat} {s : Sys} (h : Reachable cap s) :
    RegWs s.w.ws s.w.wOne s.w.wAll := by
  refine Reachable.inv (P := fun s => RegWs s.w.ws s.w.wOne s.w.wAll) ?_ ?_ ?_ h
  · exact ⟨by simp [init, regOk], by simp [init, regOk], by simp [init], by simp [init]⟩
  · intro s c w' ms _ ho hc
    obtain ⟨h1, h2, h3, -⟩ := callR_regWs hc
    simp only [h1, h2, h3]; exact ho
  · intro s t m rest w' ms hr ho ht he
    exact execR_regWs he ho

end Xtra
