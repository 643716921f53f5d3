import Verif.Reg
/-! Idle receivers: which cells are still going to be notified. -/

set_option linter.unusedSimpArgs false

namespace Xtra

def RxCell.isEmpty : RxCell → Bool
  | .empty _ => true
  | _ => false

/-- 1 if receiver `k` waits for a notification. -/
def emptyL (cells : List RxCell) (k : Nat) : Nat :=
  match cells[k]? with
  | some (.empty _) => 1
  | _ => 0

/-- 1 if the receive future of cell `k` was dropped or has completed. -/
def goneL (cells : List RxCell) (k : Nat) : Nat :=
  match cells[k]? with
  | some .gone => 1
  | _ => 0

def RxCell.em : RxCell → Nat
  | .empty _ => 1
  | _ => 0
def RxCell.gn : RxCell → Nat
  | .gone => 1
  | _ => 0

theorem emptyL_at {cells : List RxCell} {c : Nat} {y : RxCell} (hc : cells[c]? = some y) :
    emptyL cells c = y.em := by unfold emptyL; rw [hc]; cases y <;> rfl
theorem goneL_at {cells : List RxCell} {c : Nat} {y : RxCell} (hc : cells[c]? = some y) :
    goneL cells c = y.gn := by unfold goneL; rw [hc]; cases y <;> rfl

theorem emptyL_set {cells : List RxCell} {c : Nat} {y : RxCell} (hc : cells[c]? = some y)
    (x : RxCell) (k : Nat) :
    emptyL (cells.set c x) k = if c = k then x.em else emptyL cells k := by
  by_cases hk : c = k
  · subst hk
    rw [if_pos rfl]
    apply emptyL_at
    rw [List.getElem?_set_self (by exact (List.getElem?_eq_some_iff.mp hc).1)]
  · unfold emptyL; rw [List.getElem?_set_ne hk]; simp [hk]

theorem goneL_set {cells : List RxCell} {c : Nat} {y : RxCell} (hc : cells[c]? = some y)
    (x : RxCell) (k : Nat) :
    goneL (cells.set c x) k = if c = k then x.gn else goneL cells k := by
  by_cases hk : c = k
  · subst hk
    rw [if_pos rfl]
    apply goneL_at
    rw [List.getElem?_set_self (by exact (List.getElem?_eq_some_iff.mp hc).1)]
  · unfold goneL; rw [List.getElem?_set_ne hk]; simp [hk]

theorem emptyL_append (cells : List RxCell) (x : RxCell) (k : Nat) :
    emptyL (cells ++ [x]) k = if k = cells.length then x.em else emptyL cells k := by
  unfold emptyL
  by_cases hk : k < cells.length
  · rw [List.getElem?_append_left hk, if_neg (by omega)]
  · by_cases he : k = cells.length
    · subst he; simp; cases x <;> rfl
    · have h1 : (cells ++ [x])[k]? = none := by simp; omega
      have h2 : cells[k]? = none := by simp; omega
      rw [h1, h2, if_neg he]

theorem goneL_append (cells : List RxCell) (x : RxCell) (k : Nat) :
    goneL (cells ++ [x]) k = if k = cells.length then x.gn else goneL cells k := by
  unfold goneL
  by_cases hk : k < cells.length
  · rw [List.getElem?_append_left hk, if_neg (by omega)]
  · by_cases he : k = cells.length
    · subst he; simp; cases x <;> rfl
    · have h1 : (cells ++ [x])[k]? = none := by simp; omega
      have h2 : cells[k]? = none := by simp; omega
      rw [h1, h2, if_neg he]

theorem emptyL_len (cells : List RxCell) : emptyL cells cells.length = 0 := by simp [emptyL]
theorem goneL_len (cells : List RxCell) : goneL cells cells.length = 0 := by simp [goneL]

theorem notifyCell_em (cells : List RxCell) (c : Nat) (x : Ctrl) (k : Nat) :
    emptyL (notifyCell cells c x) k = (if c = k then 0 else emptyL cells k) ∧
    goneL (notifyCell cells c x) k = goneL cells k := by
  unfold notifyCell
  split
  · rename_i wk hc
    rw [emptyL_set hc, goneL_set hc]
    refine ⟨rfl, ?_⟩
    split
    · rename_i h; subst h; rw [goneL_at hc]; rfl
    · rfl
  · rename_i hc
    refine ⟨?_, rfl⟩
    split
    · rename_i h; subst h
      unfold emptyL
      split
      · rename_i wk h; exact (hc wk h).elim
      · rfl
    · rfl

theorem notifyAll_em (q : List Nat) (cells : List RxCell) (x : Ctrl) (k : Nat) :
    emptyL (q.foldl (fun cs c => notifyCell cs c x) cells) k = (if k ∈ q then 0 else emptyL cells k) ∧
    goneL (q.foldl (fun cs c => notifyCell cs c x) cells) k = goneL cells k := by
  induction q generalizing cells with
  | nil => simp
  | cons c cs ih =>
    simp only [List.foldl_cons]
    rw [(ih _).1, (ih _).2, (notifyCell_em _ _ _ _).1, (notifyCell_em _ _ _ _).2]
    refine ⟨?_, rfl⟩
    by_cases h1 : k ∈ cs <;> by_cases h2 : c = k <;> simp [h1, h2, eq_comm]
    intro h; exact (h2 h.symm).elim

/-- Pending shutdown notifications to cell `k`. -/
def mNs (k : Nat) : Micro → Nat
  | .notifyShut c => is1 k c
  | _ => 0

/-- A waiting receiver is going to be notified exactly once more: it is in the waiting list or a pending
shutdown notification addresses it; nobody else is, except stale entries of dropped receivers. -/
def Reg1 (cells : List RxCell) (wRx : List Nat) (k n : Nat) : Prop :=
  emptyL cells k ≤ wRx.count k + n ∧ wRx.count k + n ≤ emptyL cells k + goneL cells k

theorem noneEmpty_em {cells : List RxCell} {q : List Nat} (h : noneEmpty cells q) {k : Nat}
    (hk : k ∈ q) : emptyL cells k = 0 := by
  unfold emptyL
  split
  · rename_i wk hc; exact (h k hk wk hc).elim
  · rfl

theorem Reg1.clear {cells : List RxCell} {wRx : List Nat} {k n : Nat} (r : Reg1 cells wRx k n)
    (h : noneEmpty cells wRx) : Reg1 cells [] k n := by
  unfold Reg1 at *
  by_cases hk : k ∈ wRx
  · have := noneEmpty_em h hk; simp; omega
  · have := List.count_eq_zero.mpr hk; simp; omega

theorem Reg1.hand {cells : List RxCell} {pre rest : List Nat} {c k n : Nat}
    (r : Reg1 cells (pre ++ c :: rest) k n) (h : noneEmpty cells pre) {wk : Option Nat}
    (hc : cells[c]? = some (.empty wk)) (x : Ctrl) (wk' : Option Nat) :
    Reg1 (cells.set c (.full x wk')) rest k n := by
  have hpre : c ∉ pre := fun hm => h c hm wk hc
  unfold Reg1 at *
  rw [emptyL_set hc, goneL_set hc]
  simp only [List.count_append, List.count_cons] at r
  by_cases hk : c = k
  · subst hk
    have h1 := List.count_eq_zero.mpr hpre
    rw [emptyL_at hc, goneL_at hc] at r
    simp [RxCell.em, RxCell.gn] at r ⊢; omega
  · have h2 : (c == k) = false := by simpa using hk
    rw [if_neg hk, if_neg hk]
    simp [h2] at r
    by_cases hp : k ∈ pre
    · have := noneEmpty_em h hp; have := List.count_pos_iff.mpr hp; omega
    · have := List.count_eq_zero.mpr hp; omega

theorem Reg1.notify {cells : List RxCell} {wRx : List Nat} {k n : Nat} (r : Reg1 cells wRx k n)
    (x : Ctrl) : Reg1 (wRx.foldl (fun cs c => notifyCell cs c x) cells) [] k n := by
  unfold Reg1 at *
  rw [(notifyAll_em _ _ _ _).1, (notifyAll_em _ _ _ _).2]
  by_cases hk : k ∈ wRx
  · have := List.count_pos_iff.mpr hk; simp [hk]
    have h1 : emptyL cells k + goneL cells k ≤ 1 := by
      cases h : cells[k]? with
      | none => simp [emptyL, goneL, h]
      | some y => rw [emptyL_at h, goneL_at h]; cases y <;> simp [RxCell.em, RxCell.gn]
    omega
  · have := List.count_eq_zero.mpr hk; simp [hk]; omega

theorem Reg1.le_one {cells : List RxCell} {wRx : List Nat} {k n : Nat} (r : Reg1 cells wRx k n) :
    wRx.count k + n ≤ 1 := by
  unfold Reg1 at r
  have h1 : emptyL cells k + goneL cells k ≤ 1 := by
    cases h : cells[k]? with
    | none => simp [emptyL, goneL, h]
    | some y => rw [emptyL_at h, goneL_at h]; cases y <;> simp [RxCell.em, RxCell.gn]
  omega

theorem popBroadcast_reg1 {w w' : World} {b : Nat} {m : Msg} (r : RegWs w.ws w.wOne w.wAll)
    (h : w.popBroadcast b = some (m, w')) {k n : Nat} (hr : Reg1 w.cells w.wRx k n) :
    Reg1 w'.cells w'.wRx k n := by
  obtain ⟨q, -, ⟨-, rfl⟩ | ⟨-, hg, rfl⟩ | ⟨-, h, wk, m', q', t, rfl⟩⟩ := popBroadcast_cases r.all h
  · simpa using hr
  · simpa using hr
  · simpa [World.sendBroadcast] using hr.notify .newBroadcast

theorem popUnicast_wRx' {w w' : World} {m : Msg} 
    (h : w.popUnicast = some (m, w')) : w'.wRx = w.wRx ∧ w'.cells = w.cells :=
  ⟨World.popUnicast_wRx h, World.popUnicast_cells h⟩

theorem sumBy_mNs (k : Nat) (q : List Nat) : sumBy (fun x => is1 k x) q = q.count k := by
  induction q with
  | nil => rfl
  | cons c cs ih =>
    rw [sumBy_cons, ih, List.count_cons]; simp only [is1, beq_iff_eq]; omega

theorem execR_reg1 {w w' : World} {m : Micro} {ms : List Micro} (h : ExecR w m w' ms) (hwf : WF w m)
    (r : RegWs w.ws w.wOne w.wAll) {k n n' : Nat} (hn : n' + mNs k m = n + sumBy (mNs k) ms)
    (hr : Reg1 w.cells w.wRx k n) : Reg1 w'.cells w'.wRx k n' := by
  have key : ∀ c x y, w.cells[c]? = some y →
      emptyL (w.cells.set c x) k = (if c = k then x.em else emptyL w.cells k) ∧
      goneL (w.cells.set c x) k = (if c = k then x.gn else goneL w.cells k) :=
    fun c x y h => ⟨emptyL_set h x k, goneL_set h x k⟩
  have kat : ∀ c y, w.cells[c]? = some y → emptyL w.cells c = y.em ∧ goneL w.cells c = y.gn :=
    fun c y h => ⟨emptyL_at h, goneL_at h⟩
  cases h
  case recv_all hp _ _ =>
    simp [mNs] at hn; subst hn; simpa using popBroadcast_reg1 r hp hr
  case recv_one hp _ _ =>
    simp [mNs] at hn; subst hn; simpa [popUnicast_wRx' hp] using hr
  case recvBcast_some c _ _ w1 hp =>
    simp only [WF] at hwf
    simp [mNs] at hn; subst hn
    have h1 := popBroadcast_reg1 r hp hr
    have hu : w1.cells[c]? = some .used := by
      have := (popBroadcast_own hp c).2.2; simp at this; rw [this]; exact hwf.2
    simp only [World.yieldMsg_cells, World.yieldMsg_wRx]
    unfold Reg1 at *
    rw [emptyL_set hu, goneL_set hu]
    by_cases hk : c = k
    · subst hk; rw [emptyL_at hu, goneL_at hu] at h1; simp [RxCell.em, RxCell.gn] at h1 ⊢; omega
    · simpa [hk] using h1
  case shutRx =>
    simp [mNs, sumBy_map, sumBy_mNs] at hn
    unfold Reg1 at *; simp; omega
  case critAll_sent => simp [mNs] at hn; subst hn; simpa [World.sendBroadcast] using hr.notify .newBroadcast
  case bcastShutdown => simp [mNs] at hn; subst hn; simpa [World.sendBroadcast] using hr.notify .newBroadcast
  case notifyShut c =>
    simp [mNs] at hn
    unfold Reg1 at *
    simp only [(notifyCell_em _ _ _ _).1, (notifyCell_em _ _ _ _).2]
    have h1 : emptyL w.cells k + goneL w.cells k ≤ 1 := by
      cases h : w.cells[k]? with
      | none => simp [emptyL, goneL, h]
      | some y => rw [emptyL_at h, goneL_at h]; cases y <;> simp [RxCell.em, RxCell.gn]
    unfold is1 at hn
    split <;> rename_i hk
    · simp [hk] at hn; omega
    · simp [hk] at hn; omega
  case critOne_hand hw hne hc =>
    simp [mNs] at hn; subst hn; rw [hw] at hr; simpa using hr.hand hne hc _ _
  case critOne_park hne _ => simp [mNs] at hn; subst hn; simpa using hr.clear hne
  case critOne_queue hne _ => simp [mNs] at hn; subst hn; simpa using hr.clear hne
  case requeue_hand hw hne hc =>
    simp [mNs] at hn; subst hn; rw [hw] at hr; simpa using hr.hand hne hc _ _
  case requeue_queue hne => simp [mNs] at hn; subst hn; simpa using hr.clear hne
  case recv_wait =>
    simp [mNs] at hn; subst hn
    unfold Reg1 at *
    rw [emptyL_append, goneL_append]
    simp only [List.count_append, List.count_cons, List.count_nil]
    by_cases hk : k = w.cells.length
    · subst hk
      rw [emptyL_len, goneL_len] at hr
      simp [RxCell.em, RxCell.gn]; omega
    · have : (w.cells.length == k) = false := by simp; omega
      simp [hk, this]; omega
  case recvPoll_panic hc =>
    simp only [WF] at hwf
    obtain ⟨x, h1, h2, h3⟩ := hwf.2
    rw [h1] at hc; simp [h2, h3] at hc
  case recvBcast_none hp =>
    simp only [WF] at hwf; simp [mNs] at hn; subst hn
    unfold Reg1 at *
    simp [key _ _ _ hwf.2]; grind [RxCell.em, RxCell.gn]
  case dropCell_other hc =>
    simp only [WF] at hwf
    obtain ⟨y, h1, h2⟩ := live_get hwf
    simp [mNs] at hn; subst hn
    unfold Reg1 at *
    cases y <;> simp [key _ _ _ h1] at h2 ⊢ <;> grind [RxCell.em, RxCell.gn]
  case recvPoll_empty hc =>
    simp [mNs] at hn; subst hn
    unfold Reg1 at *
    simp [key _ _ _ hc]; grind [RxCell.em, RxCell.gn]
  case recvPoll_one hc =>
    simp [mNs] at hn; subst hn
    unfold Reg1 at *
    simp [key _ _ _ hc]; grind [RxCell.em, RxCell.gn]
  case recvPoll_shutdown hc =>
    simp [mNs] at hn; subst hn
    unfold Reg1 at *
    simp [key _ _ _ hc]; grind [RxCell.em, RxCell.gn]
  case recvPoll_bcast hc =>
    simp [mNs] at hn; subst hn
    unfold Reg1 at *
    simp [key _ _ _ hc]; grind [RxCell.em, RxCell.gn]
  case cancel_msg hc =>
    simp [mNs] at hn; subst hn
    unfold Reg1 at *
    simp [key _ _ _ hc]; grind [RxCell.em, RxCell.gn]
  case cancel_full hc _ =>
    simp [mNs] at hn; subst hn
    unfold Reg1 at *
    simp [key _ _ _ hc]; grind [RxCell.em, RxCell.gn]
  case dropCell_lost hc =>
    simp [mNs] at hn; subst hn
    unfold Reg1 at *
    simp [key _ _ _ hc]; grind [RxCell.em, RxCell.gn]
  all_goals (simp [mNs] at hn; subst hn; simpa using hr)

theorem callR_mNs {w w' : World} {c : Call} {ms : List Micro} (h : CallR w c w' ms) (k : Nat) :
    sumBy (mNs k) ms = 0 := by cases h <;> simp [mNs]

theorem reg1_reachable {cap : Option Nat} {s : Sys} (h : Reachable cap s) (k : Nat) :
    Reg1 s.w.cells s.w.wRx k (tot (mNs k) s.th) := by
  refine Reachable.inv (P := fun s => Reg1 s.w.cells s.w.wRx k (tot (mNs k) s.th)) ?_ ?_ ?_ h
  · simp [init, Reg1, emptyL]
  · intro s c w' ms _ ho hc
    have h1 := callR_regWs hc
    simp [h1.2.2.2.2.1, h1.2.2.2.2.2.1, callR_mNs hc k]; exact ho
  · intro s t m rest w' ms hr ho ht he
    exact execR_reg1 he (wf_reachable hr ht) (regWs_reachable hr) (tot_exec (mNs k) ms ht) ho

end Xtra
