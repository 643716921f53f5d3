import Verif.ObjEvo
/-! Wakers: the waker given in the latest poll is the one registered, and the one that gets woken. -/

set_option linter.unusedSimpArgs false

namespace Xtra

theorem slot_busy {w : World} {mc : Micro} (h : WF w mc) {f : Nat} (hs : mc.slot = some f) :
    w.objs[f]? = some .busy := by
  cases mc <;> simp [Micro.slot] at hs <;> subst hs <;> simp only [WF] at h <;> first | exact h | exact h.1

theorem wsL_le (ws : List WsCell) (k : Nat) : wsL ws k ≤ 1 := by unfold wsL; split <;> omega
theorem cellL_le (cells : List RxCell) (k : Nat) : cellL cells k ≤ 1 := by unfold cellL; split <;> omega

/-- A waiting send owns its cell: the cell exists and no step of a running call touches it. -/
theorem owns_ws {s : Sys} (ho : Own s) {f mid h : Nat} {md : Mode}
    (h1 : s.w.objs[f]? = some (.send md mid (.waiting h))) :
    (∃ x, s.w.ws[h]? = some x ∧ x ≠ .gone) ∧
    ∀ {t : Nat} {mc : Micro} {rest : List Micro}, s.th[t]? = some (mc :: rest) → mWs h mc = 0 := by
  have h2 := le_sumBy (oWs h) h1
  have h3 := ho.ws h
  have h4 := wsL_le s.w.ws h
  simp [oWs, sWs] at h2
  constructor
  · have : wsActive s.w.ws h = true := by
      unfold wsL at h3; split at h3
      · assumption
      · omega
    unfold wsActive at this
    cases hx : s.w.ws[h]? with
    | none => simp [hx] at this
    | some x => exact ⟨x, rfl, by rintro rfl; simp [hx] at this⟩
  · intro t mc rest ht
    have := tot_head (mWs h) ht
    omega

theorem owns_cell {s : Sys} (ho : Own s) {r b c : Nat} (h1 : s.w.objs[r]? = some (.recv b (.waiting c))) :
    (∃ x, s.w.cells[c]? = some x ∧ x ≠ .gone) ∧
    ∀ {t : Nat} {mc : Micro} {rest : List Micro}, s.th[t]? = some (mc :: rest) → mCell c mc = 0 := by
  have h2 := le_sumBy (oCell c) h1
  have h3 := ho.cell c
  have h4 := cellL_le s.w.cells c
  simp [oCell, rCell] at h2
  constructor
  · have : cellLive s.w.cells c = true := by
      unfold cellL at h3; split at h3
      · assumption
      · omega
    unfold cellLive at this
    cases hx : s.w.cells[c]? with
    | none => simp [hx] at this
    | some x => exact ⟨x, rfl, by rintro rfl; simp [hx] at this⟩
  · intro t mc rest ht
    have := tot_head (mCell c) ht
    omega

/-! ### receiver cells -/

/-- One step, seen from one receiver cell. -/
def CellEvo (w' : World) (mc : Micro) (c : Nat) (x : RxCell) : Prop :=
  w'.cells[c]? = some x ∨ (∃ wk k, x = .empty wk ∧ w'.cells[c]? = some (.full k wk)) ∨ mCell c mc ≠ 0

theorem notifyCell_evo (cells : List RxCell) (d : Nat) (k : Ctrl) {c : Nat} {x : RxCell} (hx : cells[c]? = some x) :
    (notifyCell cells d k)[c]? = some x ∨ (∃ wk k', x = .empty wk ∧ (notifyCell cells d k)[c]? = some (.full k' wk)) := by
  have hl := (List.getElem?_eq_some_iff.mp hx).1
  unfold notifyCell; split
  · rename_i wk hd
    by_cases h : d = c
    · subst h; rw [hx] at hd; simp at hd; subst hd
      exact .inr ⟨wk, k, rfl, by simp [hl, List.getElem?_set_self hl]⟩
    · exact .inl (by rw [List.getElem?_set_ne h]; exact hx)
  · exact .inl hx

theorem notifyAll_evo (q : List Nat) (k : Ctrl) (cells : List RxCell) {c : Nat} {x : RxCell} (hx : cells[c]? = some x) :
    (q.foldl (fun cs c => notifyCell cs c k) cells)[c]? = some x ∨
    (∃ wk k', x = .empty wk ∧ (q.foldl (fun cs c => notifyCell cs c k) cells)[c]? = some (.full k' wk)) := by
  induction q generalizing cells x with
  | nil => exact .inl hx
  | cons d q ih =>
    simp only [List.foldl_cons]
    have h1 : (notifyCell cells d k)[c]? = some x ∨ (∃ wk, x = .empty wk ∧ (notifyCell cells d k)[c]? = some (.full k wk)) := by
      have hl := (List.getElem?_eq_some_iff.mp hx).1
      unfold notifyCell; split
      · rename_i wk hd
        by_cases h : d = c
        · subst h; rw [hx] at hd; simp at hd; subst hd
          exact .inr ⟨wk, rfl, by simp [List.getElem?_set_self hl]⟩
        · exact .inl (by rw [List.getElem?_set_ne h]; exact hx)
      · exact .inl hx
    rcases h1 with h1 | ⟨wk, rfl, h1⟩
    · exact ih _ h1
    · rcases ih _ h1 with h2 | ⟨wk', k', h2, -⟩
      · exact .inr ⟨wk, k, rfl, h2⟩
      · simp at h2

theorem sendBroadcast_evo (w : World) (m : Msg) {c : Nat} {x : RxCell} (hx : w.cells[c]? = some x) :
    (w.sendBroadcast m).cells[c]? = some x ∨ (∃ wk k, x = .empty wk ∧ (w.sendBroadcast m).cells[c]? = some (.full k wk)) :=
  notifyAll_evo w.wRx .newBroadcast w.cells hx

theorem popBroadcast_cellEvo {w w' : World} {b : Nat} {m : Msg} (r : RegWs w.ws w.wOne w.wAll)
    (hp : w.popBroadcast b = some (m, w')) {c : Nat} {x : RxCell} (hx : w.cells[c]? = some x) :
    w'.cells[c]? = some x ∨ (∃ wk k, x = .empty wk ∧ w'.cells[c]? = some (.full k wk)) := by
  obtain ⟨q, -, ⟨-, rfl⟩ | ⟨-, hg, rfl⟩ | ⟨-, h, wk, m', q', t, rfl⟩⟩ := popBroadcast_cases r.all hp
  · left; simpa using hx
  · left; simpa using hx
  · exact sendBroadcast_evo _ m' (by simpa using hx)

theorem execR_cellEvo {w w' : World} {mc : Micro} {ms : List Micro} (h : ExecR w mc w' ms)
    (r : RegWs w.ws w.wOne w.wAll) {c : Nat} {x : RxCell} (hx : w.cells[c]? = some x) : CellEvo w' mc c x := by
  have hl := (List.getElem?_eq_some_iff.mp hx).1
  have own : mCell c mc ≠ 0 → CellEvo w' mc c x := fun h => .inr (.inr h)
  have hand : ∀ (d : Nat) (m : Msg) (wk' : Option Nat), w.cells[d]? = some (.empty wk') →
      w'.cells = w.cells.set d (.full (.newMessage m) wk') → CellEvo w' mc c x := by
    intro d m wk' h1 h2
    by_cases hd : d = c
    · subst hd; rw [hx] at h1; simp at h1; subst h1
      exact .inr (.inl ⟨wk', _, rfl, by rw [h2, List.getElem?_set_self hl]⟩)
    · exact .inl (by rw [h2, List.getElem?_set_ne hd]; exact hx)
  have mine : ∀ (d : Nat) (y : RxCell), w'.cells = w.cells.set d y → (d = c → mCell c mc ≠ 0) → CellEvo w' mc c x := by
    intro d y h1 h2
    by_cases hd : d = c
    · exact .inr (.inr (h2 hd))
    · exact .inl (by rw [h1, List.getElem?_set_ne hd]; exact hx)
  cases h
  case recv_all hp _ _ =>
    rcases popBroadcast_cellEvo r hp hx with h | h
    · exact .inl h
    · exact .inr (.inl h)
  case recv_one hp _ _ => left; simpa [World.popUnicast_cells hp] using hx
  case recvBcast_some r' b c' wk m w1 hp =>
    by_cases hd : c' = c
    · subst hd; exact .inr (.inr (by simp [mCell]))
    · rcases popBroadcast_cellEvo r hp hx with h | ⟨wk, k, h1, h2⟩
      · left; show (w1.cells.set c' _)[c]? = _; rw [List.getElem?_set_ne hd]; exact h
      · exact .inr (.inl ⟨wk, k, h1, by show (w1.cells.set c' _)[c]? = _; rw [List.getElem?_set_ne hd]; exact h2⟩)
  case critOne_hand h1 h2 => exact hand _ _ _ h2 rfl
  case requeue_hand h1 h2 => exact hand _ _ _ h2 rfl
  case critAll_sent m _ _ _ =>
    rcases sendBroadcast_evo ({ w with log := w.lateLog m } : World) m hx with h | h
    · exact .inl h
    · exact .inr (.inl h)
  case bcastShutdown =>
    rcases sendBroadcast_evo ({ w with resp := w.resp ++ [.none] } : World) ⟨w.resp.length, .shutdown⟩ hx with h | h
    · exact .inl h
    · exact .inr (.inl h)
  case notifyShut =>
    rcases notifyCell_evo w.cells _ .shutdown hx with h | h
    · exact .inl h
    · exact .inr (.inl h)
  case recv_wait => left; show (w.cells ++ [_])[c]? = _; rw [List.getElem?_append_left hl]; exact hx
  case recvPoll_empty => exact mine _ _ rfl (by rintro rfl; simp [mCell])
  case recvPoll_one => exact mine _ _ rfl (by rintro rfl; simp [mCell])
  case recvPoll_shutdown => exact mine _ _ rfl (by rintro rfl; simp [mCell])
  case recvPoll_bcast => exact mine _ _ rfl (by rintro rfl; simp [mCell])
  case recvBcast_none => exact mine _ _ rfl (by rintro rfl; simp [mCell])
  case cancel_msg => exact mine _ _ rfl (by rintro rfl; simp [mCell])
  case cancel_full => exact mine _ _ rfl (by rintro rfl; simp [mCell])
  case dropCell_lost => exact mine _ _ rfl (by rintro rfl; simp [mCell])
  case dropCell_other => exact mine _ _ rfl (by rintro rfl; simp [mCell])
  all_goals exact .inl (by simpa using hx)

/-! ### replies -/

def Resp.wk : Resp → Option Nat
  | .none => Option.none
  | .waiting wk => wk
  | .value _ wk => wk
  | .interrupted wk => wk

/-- One step, seen from one reply cell: its waker changes only by a poll of its own future. -/
theorem modify_wk {resp : List Resp} {i j : Nat} {g : Resp → Resp} (hg : ∀ x, (g x).wk = x.wk) {x : Resp}
    (hx : resp[j]? = some x) : ∃ y, (resp.modify i g)[j]? = some y ∧ y.wk = x.wk := by
  rw [List.getElem?_modify, hx]
  by_cases h : i = j
  · exact ⟨g x, by simp [h], hg x⟩
  · exact ⟨x, by simp [h], rfl⟩

theorem interrupt_wk (x : Resp) : x.interrupt.wk = x.wk := by cases x <;> rfl
theorem fulfil_wk (v : Nat) (x : Resp) : (x.fulfil v).wk = x.wk := by cases x <;> rfl

theorem killAll_wk (ms : List Msg) {w : World} {j : Nat} {x : Resp} (hx : w.resp[j]? = some x) :
    ∃ y, (w.killAll ms).resp[j]? = some y ∧ y.wk = x.wk := by
  induction ms generalizing w x with
  | nil => exact ⟨x, hx, rfl⟩
  | cons m ms ih =>
    obtain ⟨y, h1, h2⟩ := modify_wk (i := m.id) interrupt_wk hx
    obtain ⟨z, h3, h4⟩ := ih (w := w.kill m) h1
    exact ⟨z, h3, h4.trans h2⟩

theorem closeHandles_wk (hs : List Nat) {w : World} {j : Nat} {x : Resp} (hx : w.resp[j]? = some x) :
    ∃ y, (w.closeHandles hs).resp[j]? = some y ∧ y.wk = x.wk := by
  induction hs generalizing w x with
  | nil => exact ⟨x, hx, rfl⟩
  | cons h hs ih =>
    have : ∃ y, (w.closeHandle h).resp[j]? = some y ∧ y.wk = x.wk := by
      unfold World.closeHandle; split
      · exact modify_wk interrupt_wk hx
      · exact ⟨x, hx, rfl⟩
    obtain ⟨y, h1, h2⟩ := this
    obtain ⟨z, h3, h4⟩ := ih h1
    exact ⟨z, h3, h4.trans h2⟩

theorem execR_wk {w w' : World} {mc : Micro} {ms : List Micro} (h : ExecR w mc w' ms)
    {j : Nat} {x : Resp} (hx : w.resp[j]? = some x) :
    (∃ y, w'.resp[j]? = some y ∧ y.wk = x.wk) ∨ (∃ f wk, mc = .sendFin f .ret j wk) := by
  have hl := (List.getElem?_eq_some_iff.mp hx).1
  cases h
  case recv_all hp _ _ => left; exact ⟨x, by simpa [World.popBroadcast_resp hp] using hx, rfl⟩
  case recv_one hp _ _ => left; exact ⟨x, by simpa [World.popUnicast_resp hp] using hx, rfl⟩
  case recvBcast_some hp => left; exact ⟨x, by simpa [World.popBroadcast_resp hp] using hx, rfl⟩
  case shutTx =>
    left; simp only [World.shutTx]
    obtain ⟨y, h1, h2⟩ := killAll_wk w.uq (w := { w with lst := w.lst.map LCell.notify, rang := true, uq := [], bqs := [] }) hx
    obtain ⟨z, h3, h4⟩ := closeHandles_wk _ (w := { (World.killAll _ w.uq) with wOne := [] }) h1
    obtain ⟨u, h5, h6⟩ := closeHandles_wk _ (w := { (World.closeHandles _ _) with wAll := [] }) h3
    exact ⟨u, h5, h6.trans (h4.trans h2)⟩
  case sendFin_waiting f mid wk wk' hc =>
    by_cases hj : mid = j
    · subst hj; exact .inr ⟨f, wk, rfl⟩
    · left; exact ⟨x, by simp [List.getElem?_set_ne hj, hx], rfl⟩
  case respond_one => left; exact modify_wk (fulfil_wk _) hx
  case bcastShutdown =>
    left; exact ⟨x, by show (w.resp ++ [_])[j]? = _; rw [List.getElem?_append_left hl]; exact hx, rfl⟩
  all_goals first
    | (left; exact ⟨x, by simpa using hx, rfl⟩)
    | (left; exact modify_wk interrupt_wk hx)

/-! ### listeners -/

def LCell.wk : LCell → Option Nat
  | .waiting wk => wk
  | .notified wk => wk

theorem execR_lwk {w w' : World} {mc : Micro} {ms : List Micro} (h : ExecR w mc w' ms)
    {j : Nat} {x : LCell} (hx : w.lst[j]? = some x) : ∃ y, w'.lst[j]? = some y ∧ y.wk = x.wk := by
  rcases execR_lst h with ⟨-, h⟩ | ⟨-, h⟩
  · rw [h, List.getElem?_map, hx]; exact ⟨_, rfl, by cases x <;> rfl⟩
  · rw [h]; exact ⟨x, hx, rfl⟩

/-- Listener `l` is held by this object. -/
def oL (l : Nat) : Obj → Nat
  | .join (some l') => is1 l l'
  | _ => 0
/-- Listener `l` is held by this step. -/
def mL (l : Nat) : Micro → Nat
  | .join1 _ l' => is1 l l'
  | .join2 _ l' => is1 l l'
  | _ => 0

theorem execR_oL {w w' : World} {mc : Micro} {ms : List Micro} (h : ExecR w mc w' ms) (hwf : WF w mc) (l : Nat) :
    sumBy (oL l) w'.objs + sumBy (mL l) ms ≤ sumBy (oL l) w.objs + mL l mc := by
  have key : ∀ (f : Nat) (x y : Obj), w.objs[f]? = some x →
      sumBy (oL l) (w.objs.set f y) + oL l x = sumBy (oL l) w.objs + oL l y := fun f x y h => sumBy_set _ y h
  cases h
  case recv_all hp _ _ =>
    have := World.popBroadcast_objs hp
    simp only [WF] at hwf
    simp [this, mL]; have := fun b am => key _ _ (.message b am) hwf; simp [oL] at this; simp [this]
  case recv_one hp _ _ =>
    have := World.popUnicast_objs hp
    simp only [WF] at hwf
    simp [this, mL]; have := fun b am => key _ _ (.message b am) hwf; simp [oL] at this; simp [this]
  case recvBcast_some hp =>
    have := World.popBroadcast_objs hp
    simp only [WF] at hwf
    simp [this, mL]; have := fun b am => key _ _ (.message b am) hwf.1; simp [oL] at this; simp [this]
  case shutRx => simp [mL, sumBy_map, sumBy_eq_zero]
  all_goals simp only [WF] at hwf
  all_goals (simp [mL] <;> grind [oL])

theorem callR_oL {w w' : World} {c : Call} {ms : List Micro} (h : CallR w c w' ms) (l : Nat) :
    sumBy (oL l) w'.objs + sumBy (mL l) ms ≤ sumBy (oL l) w.objs +
      (if l = w.lst.length ∧ w'.lst.length = w.lst.length + 1 then 1 else 0) := by
  have key : ∀ (f : Nat) (x y : Obj), w.objs[f]? = some x →
      sumBy (oL l) (w.objs.set f y) + oL l x = sumBy (oL l) w.objs + oL l y := fun f x y h => sumBy_set _ y h
  cases h <;> simp [mL, oL] <;> grind [oL, is1]

/-- Every listener is held at most once. -/
theorem lu_reachable {cap : Option Nat} {s : Sys} (h : Reachable cap s) (l : Nat) :
    sumBy (oL l) s.w.objs + tot (mL l) s.th ≤ (if l < s.w.lst.length then 1 else 0) := by
  refine Reachable.inv (P := fun s => sumBy (oL l) s.w.objs + tot (mL l) s.th ≤ (if l < s.w.lst.length then 1 else 0)) ?_ ?_ ?_ h
  · simp [init, oL]
  · intro s c w' ms hr ih hc
    have h1 := callR_oL hc l
    have h2 : s.w.lst.length ≤ w'.lst.length ∧ w'.lst.length ≤ s.w.lst.length + 1 := by cases hc <;> simp
    rw [tot_append]
    simp only at *
    split at h1 <;> split at ih <;> split <;> omega
  · intro s t m rest w' ms hr ih ht he
    have h1 := execR_oL he (wf_reachable hr ht) l
    have h2 := tot_exec (mL l) ms ht
    have h3 : w'.lst.length = s.w.lst.length := by
      rcases execR_lst he with ⟨_, h⟩ | ⟨_, h⟩ <;> rw [h] <;> simp
    simp only [h3] at *
    omega

end Xtra
