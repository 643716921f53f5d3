import Verif.PropsCancel
/-! How the state of a parked sender evolves in one step. -/

set_option linter.unusedSimpArgs false

namespace Xtra

theorem closeHandle_mem (w : World) (h : Nat) {e : Ev} (he : e ∈ w.log) : e ∈ (w.closeHandle h).log := by
  unfold World.closeHandle; split
  · simp [World.kill, he]
  · exact he

theorem closeHandles_dropped (hs : List Nat) {w : World} {h : Nat} {wk : Option Nat} {m : Msg} (hh : h ∈ hs)
    (hc : w.ws[h]? = some (.active wk m)) : Ev.dropped m.id ∈ (w.closeHandles hs).log := by
  induction hs generalizing w with
  | nil => simp at hh
  | cons x hs ih =>
    simp only [World.closeHandles]
    by_cases hx : x = h
    · subst hx
      refine (closeHandles_suffix hs _).mem ?_
      simp [World.closeHandle, hc, World.kill]
    · refine ih ?_ ?_
      · rcases List.mem_cons.mp hh with h1 | h1
        · exact absurd h1.symm hx
        · exact h1
      · rw [closeHandle_ws]; simp [Ne.symm hx, hc]

theorem shutTx_dropped {w : World} {h : Nat} {wk : Option Nat} {m : Msg} (hh : h ∈ w.wOne ∨ h ∈ w.wAll)
    (hc : w.ws[h]? = some (.active wk m)) : Ev.dropped m.id ∈ w.shutTx.log := by
  simp only [World.shutTx]
  by_cases h1 : h ∈ w.wOne
  · refine (closeHandles_suffix _ _).mem ?_
    exact closeHandles_dropped _ (by simpa using h1) (wk := wk) (by simpa using hc)
  · have h2 : h ∈ w.wAll := hh.resolve_left h1
    refine closeHandles_dropped _ (by simpa using h2) (wk := wk) ?_
    simp only [closeHandles_ws]
    rw [if_neg (by simpa using h1)]
    simpa using hc

theorem killAll_dropped (ms : List Msg) {w : World} {m : Msg} (hm : m ∈ ms) : Ev.dropped m.id ∈ (w.killAll ms).log := by
  induction ms generalizing w with
  | nil => simp at hm
  | cons x ms ih =>
    simp only [World.killAll]
    rcases List.mem_cons.mp hm with rfl | h1
    · exact (killAll_suffix ms _).mem (by simp [World.kill])
    · exact ih h1

theorem shutTx_dropped_uq {w : World} {m : Msg} (hm : m ∈ w.uq) : Ev.dropped m.id ∈ w.shutTx.log := by
  simp only [World.shutTx]
  refine (closeHandles_suffix _ _).mem ?_
  refine (closeHandles_suffix _ _).mem ?_
  exact killAll_dropped _ hm

/-- One step, seen from one parked-sender cell. -/
def WsEvo (w w' : World) (mc : Micro) (k : Nat) (x : WsCell) : Prop :=
  w'.ws[k]? = some x ∨
  (∃ wk m f md mid wk', x = .active wk m ∧ mc = .pollWs f md mid k wk' ∧ w'.ws[k]? = some (.active (some wk') m)) ∨
  (∃ wk m, x = .active wk m ∧ w'.ws[k]? = some (.delivered wk) ∧
    ((k ∈ w.wOne ∧ m ∈ w'.uq) ∨ (k ∈ w.wAll ∧ ∃ ts, Ev.bsent m ts ∈ w'.log))) ∨
  (∃ wk m, x = .active wk m ∧ w'.ws[k]? = some (.closed wk) ∧ mc = .shutTx ∧ Ev.dropped m.id ∈ w'.log) ∨
  (w'.ws[k]? = some .gone ∧ ((∃ f md mid wk', mc = .pollWs f md mid k wk' ∧ ∀ wk m, x ≠ .active wk m) ∨
    (mc = .dropWs k ∧ ∀ wk m, x = .active wk m → Ev.dropped m.id ∈ w'.log)))

theorem popBroadcast_evo {w w' : World} {b : Nat} {m : Msg} {mc : Micro} (r : RegWs w.ws w.wOne w.wAll)
    (hp : w.popBroadcast b = some (m, w')) {k : Nat} {x : WsCell} (hx : w.ws[k]? = some x) :
    w'.ws[k]? = some x ∨ (∃ wk m, x = .active wk m ∧ w'.ws[k]? = some (.delivered wk) ∧
      (k ∈ w.wAll ∧ ∃ ts, Ev.bsent m ts ∈ w'.log)) := by
  have hl := (List.getElem?_eq_some_iff.mp hx).1
  obtain ⟨q, -, ⟨-, rfl⟩ | ⟨-, hg, rfl⟩ | ⟨-, h, wk, m', q', t, rfl⟩⟩ := popBroadcast_cases r.all hp
  · left; simpa using hx
  · left; simpa using hx
  · by_cases hk : h = k
    · subst hk
      right
      have hc := t.cell; rw [hx] at hc; simp at hc; subst hc
      exact ⟨wk, m', rfl, by simp [hl], t.mem, _, List.mem_cons_self ..⟩
    · left; simp [List.getElem?_set_ne hk, hx]

theorem execR_evo {w w' : World} {mc : Micro} {ms : List Micro} (h : ExecR w mc w' ms)
    (r : RegWs w.ws w.wOne w.wAll) {k : Nat} {x : WsCell} (hx : w.ws[k]? = some x) : WsEvo w w' mc k x := by
  have hl := (List.getElem?_eq_some_iff.mp hx).1
  cases h
  case recv_all hp _ _ =>
    rcases popBroadcast_evo (mc := .shutRx) r hp hx with h | ⟨wk, m, h1, h2, h3, ts, h4⟩
    · exact .inl h
    · exact .inr (.inr (.inl ⟨wk, m, h1, h2, .inr ⟨h3, ts, List.mem_cons_of_mem _ h4⟩⟩))
  case recvBcast_some hp =>
    rcases popBroadcast_evo (mc := .shutRx) r hp hx with h | ⟨wk, m, h1, h2, h3, ts, h4⟩
    · exact .inl h
    · exact .inr (.inr (.inl ⟨wk, m, h1, h2, .inr ⟨h3, ts, List.mem_cons_of_mem _ h4⟩⟩))
  case recv_one hp _ _ =>
    obtain ⟨q, -, ⟨-, rfl⟩ | ⟨-, hg, rfl⟩ | ⟨-, h, wk, m', q', t, rfl⟩⟩ := popUnicast_cases r.one hp
    · left; simpa using hx
    · left; simpa using hx
    · by_cases hk : h = k
      · subst hk
        have hc := t.cell; rw [hx] at hc; simp at hc; subst hc
        refine .inr (.inr (.inl ⟨wk, m', rfl, by simp [hl], .inl ⟨t.mem, ?_⟩⟩))
        exact ((Heap.push_perm Msg.le _ _).mem_iff).mpr (List.mem_cons_self ..)
      · left; simp [List.getElem?_set_ne hk, hx]
  case shutTx =>
    by_cases hm : k ∈ w.wOne ∨ k ∈ w.wAll
    · have : w.shutTx.ws[k]? = some x.close := by rw [shutTx_ws, if_pos hm, hx]; rfl
      cases x with
      | active wk m =>
        exact .inr (.inr (.inr (.inl ⟨wk, m, rfl, this, rfl, shutTx_dropped hm hx⟩)))
      | delivered _ => exact .inl this
      | closed _ => exact .inl this
      | gone => exact .inl this
    · left; rw [shutTx_ws, if_neg hm, hx]
  case critAll_park => left; show (w.ws ++ [_])[k]? = _; rw [List.getElem?_append_left hl]; exact hx
  case critOne_park => left; show (w.ws ++ [_])[k]? = _; rw [List.getElem?_append_left hl]; exact hx
  case pollWs_active f md mid h wk wk' m hc =>
    by_cases hk : h = k
    · subst hk
      rw [hx] at hc; simp at hc; subst hc
      exact .inr (.inl ⟨wk', m, f, md, mid, wk, rfl, rfl, by simp [hl]⟩)
    · left; simp [List.getElem?_set_ne hk, hx]
  case pollWs_delivered f md mid h wk wk' hc =>
    by_cases hk : h = k
    · subst hk
      rw [hx] at hc; simp at hc; subst hc
      exact .inr (.inr (.inr (.inr ⟨by simp [hl], .inl ⟨f, md, mid, wk, rfl, by simp⟩⟩)))
    · left; simp [List.getElem?_set_ne hk, hx]
  case pollWs_closed f md mid h wk wk' hc =>
    by_cases hk : h = k
    · subst hk
      rw [hx] at hc; simp at hc; subst hc
      exact .inr (.inr (.inr (.inr ⟨by simp [hl], .inl ⟨f, md, mid, wk, rfl, by simp⟩⟩)))
    · left; simp [List.getElem?_set_ne hk, hx]
  case dropWs_active h wk m hc =>
    by_cases hk : h = k
    · subst hk
      rw [hx] at hc; simp at hc; subst hc
      refine .inr (.inr (.inr (.inr ⟨by simp [hl], .inr ⟨rfl, ?_⟩⟩)))
      intro wk' m' h; simp at h; obtain ⟨rfl, rfl⟩ := h
      simp [World.kill]
    · left; simp [List.getElem?_set_ne hk, hx]
  case dropWs_other h hc =>
    by_cases hk : h = k
    · subst hk
      refine .inr (.inr (.inr (.inr ⟨by simp [hl], .inr ⟨rfl, ?_⟩⟩)))
      intro wk' m' h'; subst h'; exact absurd hx (hc wk' m')
    · left; simp [List.getElem?_set_ne hk, hx]
  all_goals exact .inl (by simpa using hx)

theorem popUnicast_wslen {w w' : World} {m : Msg} (r : RegWs w.ws w.wOne w.wAll)
    (hp : w.popUnicast = some (m, w')) : w'.ws.length = w.ws.length := by
  obtain ⟨q, -, ⟨-, rfl⟩ | ⟨-, hg, rfl⟩ | ⟨-, h, wk, m', q', t, rfl⟩⟩ := popUnicast_cases r.one hp <;> simp
theorem popBroadcast_wslen {w w' : World} {b : Nat} {m : Msg} (r : RegWs w.ws w.wOne w.wAll)
    (hp : w.popBroadcast b = some (m, w')) : w'.ws.length = w.ws.length := by
  obtain ⟨q, -, ⟨-, rfl⟩ | ⟨-, hg, rfl⟩ | ⟨-, h, wk, m', q', t, rfl⟩⟩ := popBroadcast_cases r.all hp <;> simp

/-- A cell that appears in a step is a newly parked sender. -/
theorem execR_newWs {w w' : World} {mc : Micro} {ms : List Micro} (h : ExecR w mc w' ms)
    (r : RegWs w.ws w.wOne w.wAll) {k : Nat} {y : WsCell} (hy : w'.ws[k]? = some y) (hn : w.ws[k]? = none) :
    ∃ f md m rc wk, mc = .sendCrit f md m rc wk ∧ y = .active none m ∧ k = w.ws.length ∧
      ms = [.dropTx rc, .pollWs f md m.id k wk] := by
  have hge : w.ws.length ≤ k := by rw [← List.getElem?_eq_none_iff]; exact hn
  have hlt := (List.getElem?_eq_some_iff.mp hy).1
  cases h
  case recv_all hp _ _ => have := popBroadcast_wslen r hp; simp at hlt; omega
  case recvBcast_some hp => have := popBroadcast_wslen r hp; simp at hlt; omega
  case recv_one hp _ _ => have := popUnicast_wslen r hp; simp at hlt; omega
  case shutTx =>
    rw [shutTx_ws] at hy; simp [hn] at hy
  case critAll_park f m rc wk h1 =>
    simp at hlt
    have : k = w.ws.length := by omega
    subst this; simp at hy
    exact ⟨f, _, m, rc, wk, rfl, hy.symm, rfl, rfl⟩
  case critOne_park f md m rc wk h0 h1 h2 =>
    simp at hlt
    have : k = w.ws.length := by omega
    subst this; simp at hy
    exact ⟨f, md, m, rc, wk, rfl, hy.symm, rfl, rfl⟩
  all_goals (try simp at hlt) <;> omega

end Xtra
