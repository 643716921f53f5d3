import Verif.Once
/-! Join handles and absence of internal panics (C23, C31). -/

set_option linter.unusedSimpArgs false

namespace Xtra

/-- Pending `shutdown_waiting_senders`. -/
def mShutTx : Micro → Nat
  | .shutTx => 1
  | _ => 0

/-- Pending `shutdown_waiting_receivers`. -/
def mShutRx : Micro → Nat
  | .shutRx => 1
  | _ => 0

theorem callR_noShut {w w' : World} {c : Call} {ms : List Micro} (h : CallR w c w' ms) :
    sumBy mShutTx ms = 0 ∧ sumBy mShutRx ms = 0 := by
  cases h <;> simp [mShutTx, mShutRx]

theorem execR_shutTx {w w' : World} {m : Micro} {ms : List Micro} (h : ExecR w m w' ms) :
    sumBy mShutTx ms = 0 ∨ (sumBy mShutTx ms = 1 ∧ w'.rcv = 0 ∧ w.rcv = 1 ∧ m = .dropRx) := by
  cases h
  case dropRx_last h => right; simp [mShutTx, h]
  case shutRx => left; simp [mShutTx, sumBy_map, sumBy_eq_zero]
  all_goals (left; simp [mShutTx])

theorem execR_shutRx {w w' : World} {m : Micro} {ms : List Micro} (h : ExecR w m w' ms) :
    sumBy mShutRx ms = 0 ∨ (sumBy mShutRx ms = 1 ∧ w'.sc = 0 ∧ w.sc = 1) := by
  cases h
  case dropTx_last h => right; simp [mShutRx, h]
  case shutRx => left; simp [mShutRx, sumBy_map, sumBy_eq_zero]
  all_goals (left; simp [mShutRx])

theorem rcv_zero_call {cap : Option Nat} {s : Sys} (hr : Reachable cap s) {c : Call} {w' : World}
    {ms : List Micro} (h : CallR s.w c w' ms) (h0 : s.w.rcv = 0) : w'.rcv = 0 :=
  callR_rcv_zero h (by have := rcv_reachable hr; omega) h0

theorem sc_zero_call {cap : Option Nat} {s : Sys} (hr : Reachable cap s) {c : Call} {w' : World}
    {ms : List Micro} (h : CallR s.w c w' ms) (h0 : s.w.sc = 0) : w'.sc = 0 :=
  callR_sc_zero h (by have := sc_reachable hr; omega) h0

/-- A pending shutdown of senders implies that no mailbox is left. -/
theorem shutTx_pending {cap : Option Nat} {s : Sys} (h : Reachable cap s) :
    0 < tot mShutTx s.th → s.w.rcv = 0 := by
  refine Reachable.inv (P := fun s => 0 < tot mShutTx s.th → s.w.rcv = 0) ?_ ?_ ?_ h
  · simp [init]
  · intro s c w' ms hr ih hc h
    have := (callR_noShut hc).1
    rw [tot_append] at h
    exact rcv_zero_call hr hc (ih (by omega))
  · intro s t m rest w' ms hr ih ht he h
    have h1 := tot_exec mShutTx ms ht
    rcases execR_shutTx he with h2 | h2
    · exact execR_rcv_zero he (ih (by simp only at *; omega))
    · exact h2.2.1

theorem shutRx_pending {cap : Option Nat} {s : Sys} (h : Reachable cap s) :
    0 < tot mShutRx s.th → s.w.sc = 0 := by
  refine Reachable.inv (P := fun s => 0 < tot mShutRx s.th → s.w.sc = 0) ?_ ?_ ?_ h
  · simp [init]
  · intro s c w' ms hr ih hc h
    have := (callR_noShut hc).2
    rw [tot_append] at h
    exact sc_zero_call hr hc (ih (by omega))
  · intro s t m rest w' ms hr ih ht he h
    have h1 := tot_exec mShutRx ms ht
    rcases execR_shutRx he with h2 | h2
    · exact execR_sc_zero he (ih (by simp only at *; omega))
    · exact h2.2.1

/-- Once the last strong reference is dropped, loads of the counter under the lock are up to date, unless the thread that dropped it has
still to pass through the lock. -/
theorem swept_reachable {cap : Option Nat} {s : Sys} (h : Reachable cap s) :
    s.w.sc = 0 → s.w.lag = .swept ∨ 0 < tot mShutRx s.th := by
  refine Reachable.inv (P := fun s => s.w.sc = 0 → s.w.lag = .swept ∨ 0 < tot mShutRx s.th) ?_ ?_ ?_ h
  · simp [init]
  · intro s c w' ms hr ih hc h
    rw [tot_append]
    have h0 : s.w.sc = 0 := by
      have : s.w.sc ≤ w'.sc := by cases hc <;> simp [World.addTx] <;> grind
      simp only at h; omega
    rcases ih h0 with h1 | h1
    · left
      have : w'.lag = s.w.lag ∨ w'.lag = s.w.lag.flip := by cases hc <;> simp
      simp only
      rcases this with h2 | h2 <;> rw [h2, h1] <;> rfl
    · right; omega
  · intro s t m rest w' ms hr ih ht he h
    have h1 := tot_exec mShutRx ms ht
    have keep : w'.lag = s.w.lag ∨ m = .shutRx ∧ w'.lag = .swept := by
      cases he
      case recv_all hp _ _ => left; simp [World.popBroadcast_lag hp]
      case recv_one hp _ _ => left; simp [World.popUnicast_lag hp]
      case recvBcast_some hp => left; simp [World.popBroadcast_lag hp]
      case shutRx => right; exact ⟨rfl, rfl⟩
      all_goals (left; simp)
    simp only at h ⊢
    rcases keep with hk | ⟨rfl, hk⟩
    · rw [hk]
      by_cases h0 : s.w.sc = 0
      · rcases ih h0 with h2 | h2
        · exact .inl h2
        · have hm : mShutRx m = 0 ∨ m = .shutRx := by cases m <;> simp [mShutRx]
          rcases hm with hm | rfl
          · right; omega
          · cases he
            have hk' : Lag.swept = s.w.lag := hk
            left; exact hk'.symm
      · right
        have : sumBy mShutRx ms = 1 ∧ mShutRx m = 0 := by
          cases he
          case recv_all hp _ _ => simp [World.popBroadcast_sc hp] at h; omega
          case recv_one hp _ _ => simp [World.popUnicast_sc hp] at h; omega
          case recvBcast_some hp => simp [World.popBroadcast_sc hp] at h; omega
          case dropTx_last => simp [mShutRx]
          case dropTx_more hs1 hs2 => simp at h; omega
          all_goals first
            | omega
            | (simp at h; omega)
        omega
    · exact .inl hk

theorem mem_of_tot_shutRx {th : List (List Micro)} (h : 0 < tot mShutRx th) : ∃ ms ∈ th, Micro.shutRx ∈ ms := by
  by_cases hc : ∃ ms ∈ th, Micro.shutRx ∈ ms
  · exact hc
  · exfalso
    have : tot mShutRx th = 0 := by
      simp only [tot]
      rw [sumBy_eq_zero]
      intro x hx
      rw [sumBy_eq_zero]
      intro m hm
      cases m <;> simp [mShutRx]
      exact hc ⟨x, hx, hm⟩
    omega

/-- A load under the lock is out of date only while the thread that dropped the last strong reference is on its way to the lock. -/
theorem oldLoad_reachable {cap : Option Nat} {s : Sys} (h : Reachable cap s) (hl : s.w.lag = .late) :
    0 < s.w.sc ∨ 0 < tot mShutRx s.th := by
  rcases Nat.eq_zero_or_pos s.w.sc with h0 | h0
  · rcases swept_reachable h h0 with h1 | h1
    · rw [hl] at h1; cases h1
    · exact .inr h1
  · exact .inl h0

/-- The last dropper passes through the lock only after the last drop. -/
theorem sweptZero_reachable {cap : Option Nat} {s : Sys} (h : Reachable cap s) : s.w.lag = .swept → s.w.sc = 0 := by
  refine Reachable.inv (P := fun s => s.w.lag = .swept → s.w.sc = 0) ?_ ?_ ?_ h
  · simp [init]
  · intro s c w' ms hr ih hc h
    refine sc_zero_call hr hc (ih ?_)
    have : w'.lag = s.w.lag ∨ w'.lag = s.w.lag.flip := by cases hc <;> simp
    simp only at h
    rcases this with h2 | h2 <;> rw [h2] at h
    · exact h
    · revert h; cases s.w.lag <;> simp [Lag.flip]
  · intro s t m rest w' ms hr ih ht he h
    have keep : w'.lag = s.w.lag ∨ m = .shutRx := by
      cases he
      case recv_all hp _ _ => left; simp [World.popBroadcast_lag hp]
      case recv_one hp _ _ => left; simp [World.popUnicast_lag hp]
      case recvBcast_some hp => left; simp [World.popBroadcast_lag hp]
      case shutRx => right; rfl
      all_goals (left; simp)
    rcases keep with hk | rfl
    · exact execR_sc_zero he (ih (hk ▸ h))
    · apply execR_sc_zero he
      apply shutRx_pending hr
      have := tot_head mShutRx ht; simp [mShutRx] at this; omega

/-- A receive that goes to sleep does so before the last dropper passes through the lock. -/
theorem notSwept {cap : Option Nat} {s : Sys} (h : Reachable cap s) (hl : s.w.sc ≠ 0 ∨ s.w.lag = .late) : s.w.lag ≠ .swept := by
  intro he
  rcases hl with hl | hl
  · exact hl (sweptZero_reachable h he)
  · rw [he] at hl; cases hl

/-- The same for a receive that goes to sleep: a strong reference exists, or the drop of the last one is under way. -/
theorem wait_reachable {cap : Option Nat} {s : Sys} (h : Reachable cap s) (hl : s.w.sc ≠ 0 ∨ s.w.lag = .late) :
    s.w.sc ≠ 0 ∨ ∃ ms ∈ s.th, Micro.shutRx ∈ ms := by
  rcases hl with hl | hl
  · exact .inl hl
  · rcases oldLoad_reachable h hl with h1 | h1
    · exact .inl (by omega)
    · exact .inr (mem_of_tot_shutRx h1)


/-- When the last mailbox is gone the listeners have been notified, or the drop of the last mailbox is still under way. -/
theorem rang_reachable {cap : Option Nat} {s : Sys} (h : Reachable cap s) (ht : s.w.rang = false) :
    0 < s.w.rcv ∨ 0 < tot mShutTx s.th := by
  suffices s.w.rcv = 0 → s.w.rang = true ∨ 0 < tot mShutTx s.th by
    rcases Nat.eq_zero_or_pos s.w.rcv with h0 | h0
    · rcases this h0 with h1 | h1
      · rw [ht] at h1; cases h1
      · exact .inr h1
    · exact .inl h0
  clear ht
  refine Reachable.inv (P := fun s => s.w.rcv = 0 → s.w.rang = true ∨ 0 < tot mShutTx s.th) ?_ ?_ ?_ h
  · simp [init]
  · intro s c w' ms hr ih hc h
    rw [tot_append]
    have h0 : s.w.rcv = 0 := by
      have : s.w.rcv ≤ w'.rcv := by cases hc <;> simp
      simp only at h; omega
    have : w'.rang = s.w.rang := by cases hc <;> simp
    simp only [this]
    rcases ih h0 with h1 | h1
    · exact .inl h1
    · right; omega
  · intro s t m rest w' ms hr ih ht he h
    have h1 := tot_exec mShutTx ms ht
    have keep : (w'.rang = s.w.rang ∧ mShutTx m = 0) ∨ w'.rang = true := by
      cases he
      case recv_all hp _ _ => left; simp [World.popBroadcast_rang hp, mShutTx]
      case recv_one hp _ _ => left; simp [World.popUnicast_rang hp, mShutTx]
      case recvBcast_some hp => left; simp [World.popBroadcast_rang hp, mShutTx]
      case shutTx => right; simp [World.shutTx]
      all_goals (left; simp [mShutTx])
    simp only at h ⊢
    rcases keep with ⟨hk, hm⟩ | hk
    · rw [hk]
      by_cases h0 : s.w.rcv = 0
      · rcases ih h0 with h2 | h2
        · exact .inl h2
        · right; omega
      · right
        have : sumBy mShutTx ms = 1 := by
          cases he
          case recv_all hp _ _ => simp [World.popBroadcast_rcv hp] at h; omega
          case recv_one hp _ _ => simp [World.popUnicast_rcv hp] at h; omega
          case recvBcast_some hp => simp [World.popBroadcast_rcv hp] at h; omega
          case dropRx_last => simp [mShutTx]
          case dropRx_more hs => simp at h; omega
          all_goals first
            | omega
            | (simp at h; omega)
        omega
    · exact .inl hk

/-- Listener `l` will still be notified if it has not been. -/
def LW (w : World) (pend l : Nat) : Prop :=
  l < w.lst.length ∧ ∀ wk, w.lst[l]? = some (.waiting wk) → 0 < w.rcv ∨ 0 < pend

structure JInv (s : Sys) : Prop where
  ntf : ∀ (l : Nat) (wk : Option Nat), s.w.lst[l]? = some (.notified wk) → s.w.rcv = 0
  obj : ∀ f l : Nat, s.w.objs[f]? = some (.join (some l)) → LW s.w (tot mShutTx s.th) l
  t1 : ∀ x ∈ s.th, ∀ o l, Micro.join1 o l ∈ x → l < s.w.lst.length
  t2 : ∀ x ∈ s.th, ∀ o l, Micro.join2 o l ∈ x → LW s.w (tot mShutTx s.th) l
  none : ∀ f : Nat, s.w.objs[f]? = some (.join none) → s.w.rcv = 0 ∨ s.w.sc = 0
  evs : ∀ j, Ev.joined j ∈ s.w.log → s.w.rcv = 0 ∨ s.w.sc = 0

theorem execR_lst {w w' : World} {m : Micro} {ms : List Micro} (h : ExecR w m w' ms) :
    (m = .shutTx ∧ w'.lst = w.lst.map LCell.notify) ∨ (m ≠ .shutTx ∧ w'.lst = w.lst) := by
  cases h
  case recv_all hp _ _ => simp [World.popBroadcast_lst hp]
  case recv_one hp _ _ => simp [World.popUnicast_lst hp]
  case recvBcast_some hp => simp [World.popBroadcast_lst hp]
  case shutTx => left; simp [World.shutTx]
  all_goals simp

theorem execR_joinObj {w w' : World} {m : Micro} {ms : List Micro} (h : ExecR w m w' ms) {f : Nat}
    {x : Option Nat} (ho : w'.objs[f]? = some (.join x)) :
    w.objs[f]? = some (.join x) ∨ (x = none ∧ (w.rcv = 0 ∨ w.sc = 0)) ∨
    (∃ l, x = some l ∧ m = .join2 f l) := by
  cases h
  case recv_all hp _ _ =>
    simp [World.popBroadcast_objs hp] at ho
    rcases set_cases ho with ⟨_, h⟩ | h <;> simp_all
  case recv_one hp _ _ =>
    simp [World.popUnicast_objs hp] at ho
    rcases set_cases ho with ⟨_, h⟩ | h <;> simp_all
  case recvBcast_some hp =>
    simp [World.popBroadcast_objs hp] at ho
    rcases set_cases ho with ⟨_, h⟩ | h <;> simp_all
  all_goals first
    | exact .inl ho
    | (simp at ho; exact .inl ho)
    | (simp at ho; rcases set_cases ho with ⟨h1, h⟩ | h
       · grind
       · exact .inl h.2)

theorem execR_joinTh {w w' : World} {m : Micro} {ms : List Micro} (h : ExecR w m w' ms) {o l : Nat} :
    Micro.join1 o l ∉ ms ∧ (Micro.join2 o l ∈ ms → m = .join1 o l ∧ w'.rcv ≠ 0) := by
  cases h
  all_goals (try simp)
  all_goals grind

theorem execR_joined {w w' : World} {m : Micro} {ms : List Micro} (h : ExecR w m w' ms)
    (r : RegWs w.ws w.wOne w.wAll) {j : Nat} (hj : Ev.joined j ∈ w'.log) : Ev.joined j ∈ w.log := by
  cases h
  case shutTx =>
    rcases shutTx_mem hj with h | ⟨j, h⟩
    · exact h
    · simp at h
  case recv_all hp _ _ =>
    simp at hj
    rcases popBroadcast_log r hp with h' | ⟨m', ts, h'⟩ <;> rw [show _ = _ from h'] at hj <;> simpa using hj
  case recvBcast_some hp =>
    simp at hj
    rcases popBroadcast_log r hp with h' | ⟨m', ts, h'⟩ <;> rw [show _ = _ from h'] at hj <;> simpa using hj
  case recv_one hp _ _ => simpa [World.popUnicast_log hp] using hj
  case critAll_sent =>
    rcases List.mem_cons.mp hj with h | h
    · cases h
    · simp only [World.lateLog] at h; split at h
      · simpa using h
      · exact h
  case bcastShutdown =>
    rcases List.mem_cons.mp hj with h | h
    · cases h
    · exact h
  all_goals first
    | exact hj
    | (simp [World.lateLog] at hj; grind)

theorem jInv_exec {cap : Option Nat} {s : Sys} {t : Nat} {m : Micro} {rest : List Micro} {w' : World}
    {ms : List Micro} (hr : Reachable cap s) (k : JInv s) (ht : s.th[t]? = some (m :: rest))
    (he : ExecR s.w m w' ms) : JInv ⟨w', s.th.set t (ms ++ rest)⟩ := by
  have hz := fun h0 => execR_rcv_zero he h0
  have hsz := fun h0 => execR_sc_zero he h0
  have hlst := execR_lst he
  have hpend := shutTx_pending hr
  have hmem := List.mem_of_getElem? ht
  have h1 := tot_exec mShutTx ms ht
  have hlen : w'.lst.length = s.w.lst.length := by
    rcases hlst with ⟨_, h⟩ | ⟨_, h⟩ <;> rw [h] <;> simp
  have hrcv := rcv_reachable hr
  have hm := tot_head mRcv ht
  have hLW : ∀ l, LW s.w (tot mShutTx s.th) l → LW w' (tot mShutTx (s.th.set t (ms ++ rest))) l := by
    intro l ⟨h2, h3⟩
    refine ⟨by omega, fun wk hwk => ?_⟩
    rcases hlst with ⟨rfl, h⟩ | ⟨hne, h⟩
    · rw [h, List.getElem?_map] at hwk
      cases hx : s.w.lst[l]? with
      | none => rw [hx] at hwk; simp at hwk
      | some x => rw [hx] at hwk; cases x <;> simp [LCell.notify] at hwk
    · rw [h] at hwk
      have hms : mShutTx m = 0 := by cases m <;> simp_all [mShutTx]
      rcases h3 wk hwk with h4 | h4
      · rcases execR_shutTx he with h5 | h5
        · left
          have : w'.rcv = s.w.rcv ∨ (w'.rcv = s.w.rcv - 1 ∧ s.w.rcv ≠ 1) := by
            revert h5
            cases he
            case recv_all hp _ _ => simp [World.popBroadcast_rcv hp]
            case recv_one hp _ _ => simp [World.popUnicast_rcv hp]
            case recvBcast_some hp => simp [World.popBroadcast_rcv hp]
            case dropRx_last => simp [mShutTx]
            case dropRx_more hx => exact fun _ => .inr ⟨rfl, hx⟩
            all_goals simp
          omega
        · right; omega
      · right; omega
  refine ⟨?_, ?_, ?_, ?_, ?_, ?_⟩
  · intro l wk h
    rcases hlst with ⟨rfl, h2⟩ | ⟨_, h2⟩
    · refine hz (hpend ?_)
      have := tot_head mShutTx ht; simp [mShutTx] at this; omega
    · simp only [h2] at h; exact hz (k.ntf l wk h)
  · intro f l h
    rcases execR_joinObj he h with h2 | ⟨h2, _⟩ | ⟨l', h2, rfl⟩
    · exact hLW l (k.obj f l h2)
    · simp at h2
    · simp at h2; subst h2; exact hLW l (k.t2 _ hmem f l (by simp))
  · intro x hx o l h
    simp only [hlen]
    rcases List.mem_or_eq_of_mem_set hx with hx | rfl
    · exact k.t1 x hx o l h
    · rcases List.mem_append.mp h with h | h
      · exact ((execR_joinTh he).1 h).elim
      · exact k.t1 _ hmem o l (by simp [h])
  · intro x hx o l h
    rcases List.mem_or_eq_of_mem_set hx with hx | rfl
    · exact hLW l (k.t2 x hx o l h)
    · rcases List.mem_append.mp h with h | h
      · obtain ⟨rfl, h3⟩ := (execR_joinTh he).2 h
        refine ⟨?_, fun _ _ => .inl (by simp only at *; omega)⟩
        simp only [hlen]; exact k.t1 _ hmem o l (by simp)
      · exact hLW l (k.t2 _ hmem o l (by simp [h]))
  · intro f h
    rcases execR_joinObj he h with h2 | ⟨_, h2⟩ | ⟨l', h2, rfl⟩
    · exact (k.none f h2).imp hz hsz
    · exact h2.imp hz hsz
    · simp at h2
  · intro j h
    exact (k.evs j (execR_joined he (regWs_reachable hr) h)).imp hz hsz

theorem jInv_call {cap : Option Nat} {s : Sys} {c : Call} {w' : World}
    {ms : List Micro} (hr : Reachable cap s) (k : JInv s) (hc : CallR s.w c w' ms) :
    JInv ⟨w', s.th ++ [ms]⟩ := by
  have hz := fun h0 => rcv_zero_call hr hc h0
  have hsz := fun h0 => sc_zero_call hr hc h0
  have hs := (callR_noShut hc).1
  have hrm : s.w.rcv ≤ w'.rcv := by cases hc <;> simp
  -- the listener table
  have hlst : w'.lst = s.w.lst ∨ w'.lst = s.w.lst ++ [.waiting none] ∨
      ∃ l wk wk', s.w.lst[l]? = some (.waiting wk) ∧ w'.lst = s.w.lst.set l (.waiting wk') := by
    cases hc
    case join => right; left; simp
    case joinStale => right; left; simp
    case pollJoin_waiting h1 h2 => right; right; exact ⟨_, _, _, h2, rfl⟩
    all_goals (left; simp)
  have hlen : s.w.lst.length ≤ w'.lst.length := by
    rcases hlst with h | h | ⟨l, wk, wk', _, h⟩ <;> rw [h] <;> simp
  have hLW : ∀ l, LW s.w (tot mShutTx s.th) l → LW w' (tot mShutTx (s.th ++ [ms])) l := by
    intro l ⟨h2, h3⟩
    refine ⟨by omega, fun wk hwk => ?_⟩
    rw [tot_append]
    have : ∃ wk, s.w.lst[l]? = some (.waiting wk) := by
      rcases hlst with h | h | ⟨l', wk', wk'', h1, h⟩
      · rw [h] at hwk; exact ⟨_, hwk⟩
      · rw [h, List.getElem?_append_left h2] at hwk; exact ⟨_, hwk⟩
      · rw [h] at hwk
        rcases set_cases hwk with ⟨rfl, _⟩ | h
        · exact ⟨_, h1⟩
        · exact ⟨_, h.2⟩
    obtain ⟨wk2, h4⟩ := this
    exact (h3 wk2 h4).imp (by intro; omega) (by intro; omega)
  refine ⟨?_, ?_, ?_, ?_, ?_, ?_⟩
  · intro l wk h
    apply hz
    rcases hlst with h2 | h2 | ⟨l', wk', wk'', h1, h2⟩ <;> simp only [h2] at h
    · exact k.ntf _ _ h
    · rcases append_cases h with h3 | ⟨_, h3⟩
      · exact k.ntf _ _ h3.2
      · simp at h3
    · rcases set_cases h with ⟨_, h3⟩ | h3
      · simp at h3
      · exact k.ntf _ _ h3.2
  · intro f l h
    by_cases hst : ∃ i, c = .joinStale i ∧ l = s.w.lst.length
    · obtain ⟨i, rfl, rfl⟩ := hst
      cases hc with
      | joinStale ho htd =>
        refine ⟨by simp, fun _ _ => ?_⟩
        rw [tot_append]
        exact (rang_reachable hr htd).imp id (fun h => by omega)
    apply hLW
    apply k.obj f
    cases hc
    case joinStale i rc ho htd =>
      simp at h
      rcases append_cases h with h3 | ⟨_, h3⟩
      · exact h3.2
      · simp at h3; exact absurd ⟨i, rfl, h3⟩ hst
    all_goals first
      | exact h
      | (simp at h; exact h)
      | (simp at h; rcases set_cases h with ⟨_, h3⟩ | h3
         · simp at h3
         · exact h3.2)
      | (simp at h; rcases append_cases h with h3 | ⟨_, h3⟩
         · exact h3.2
         · simp at h3)
  · intro x hx o l h
    rcases List.mem_append.mp hx with hx | hx
    · have := k.t1 x hx o l h; simp only; omega
    · simp at hx; subst hx
      cases hc <;> simp at h ⊢
      omega
  · intro x hx o l h
    rcases List.mem_append.mp hx with hx | hx
    · exact hLW l (k.t2 x hx o l h)
    · simp at hx; subst hx
      cases hc <;> simp at h
  · intro f h
    suffices s.w.rcv = 0 ∨ s.w.sc = 0 from this.imp hz hsz
    cases hc
    case pollJoin_notified h1 h2 => exact .inl (k.ntf _ _ h2)
    all_goals first
      | exact k.none f h
      | (simp at h; exact k.none f h)
      | (simp at h; rcases set_cases h with ⟨_, h3⟩ | h3
         · simp at h3
         · exact k.none f h3.2)
      | (simp at h; rcases append_cases h with h3 | ⟨_, h3⟩
         · exact k.none f h3.2
         · simp at h3)
  · intro j h
    suffices s.w.rcv = 0 ∨ s.w.sc = 0 from this.imp hz hsz
    cases hc
    case pollJoin_none h1 => exact k.none _ h1
    case pollJoin_notified h1 h2 => exact .inl (k.ntf _ _ h2)
    all_goals first
      | exact k.evs j h
      | (simp at h; exact k.evs j h)

theorem jInv_reachable {cap : Option Nat} {s : Sys} (h : Reachable cap s) : JInv s := by
  refine Reachable.inv ?_ ?_ ?_ h
  · refine ⟨?_, ?_, ?_, ?_, ?_, ?_⟩ <;> simp [init]
    · intro f l h
      cases f with
      | zero => simp at h
      | succ f => cases f <;> simp at h
    · intro f h
      cases f with
      | zero => simp at h
      | succ f => cases f <;> simp at h
  · intro s c w' ms hr ih hc; exact jInv_call hr ih hc
  · intro s t m rest w' ms hr ih ht he; exact jInv_exec hr ih ht he

/-! ### no panic -/

def ePanic : Ev → Nat
  | .panic => 1
  | _ => 0

theorem execR_panic {w w' : World} {m : Micro} {ms : List Micro} (h : ExecR w m w' ms) (hwf : WF w m)
    (r : RegWs w.ws w.wOne w.wAll) 
    (hs : ∀ f mid wk, m = .sendFin f .ret mid wk → mid < w.resp.length ∧ w.resp[mid]? ≠ some .none) :
    sumBy ePanic w'.log = sumBy ePanic w.log := by
  have kl := lateLog_sum ePanic (fun _ => rfl) w
  cases h
  case shutTx => simp [shutTx_drops ePanic (fun _ => rfl)]
  case recv_all hp _ _ =>
    simp [popBroadcast_ev ePanic (by intros; rfl) r hp, ePanic]
  case recvBcast_some hp =>
    simp [popBroadcast_ev ePanic (by intros; rfl) r hp, ePanic]
  case recv_one hp _ _ => simp [World.popUnicast_log hp, ePanic]
  case critAll_sent => simp [World.sendBroadcast, ePanic, kl]
  case bcastShutdown => simp [World.sendBroadcast, ePanic]
  case pollWs_panic h => simp only [WF] at hwf; simp [hwf.2] at h
  case sendFin_panic h =>
    obtain ⟨h1, h2⟩ := hs _ _ _ rfl
    rcases h with h | h
    · rw [List.getElem?_eq_none_iff] at h; omega
    · exact (h2 h).elim
  case recvPoll_panic hc =>
    simp only [WF] at hwf
    obtain ⟨x, h1, h2, h3⟩ := hwf.2
    rw [h1] at hc; simp [h2, h3] at hc
  all_goals simp [ePanic, kl]

theorem callR_panic {cap : Option Nat} {s : Sys} (hr : Reachable cap s) {c : Call} {w' : World}
    {ms : List Micro} (h : CallR s.w c w' ms) : sumBy ePanic w'.log = sumBy ePanic s.w.log := by
  cases h
  case pollReply_panic h1 h2 =>
    have k := kInv_reachable hr
    have h3 := k.made _ _ _ (k.kw.objs _ _ h1)
    rcases h2 with h2 | h2
    · rw [List.getElem?_eq_none_iff] at h2; omega
    · simp [h2] at h3
  case pollJoin_panic h1 h2 =>
    have k := (jInv_reachable hr).obj _ _ h1
    rw [List.getElem?_eq_none_iff] at h2; have := k.1; omega
  all_goals simp [ePanic]

theorem noPanic_reachable {cap : Option Nat} {s : Sys} (h : Reachable cap s) :
    sumBy ePanic s.w.log = 0 := by
  refine Reachable.inv (P := fun s => sumBy ePanic s.w.log = 0) ?_ ?_ ?_ h
  · simp [init]
  · intro s c w' ms hr ih hc
    simp only [callR_panic hr hc]; exact ih
  · intro s t m rest w' ms hr ih ht he
    simp only
    rw [execR_panic he (wf_reachable hr ht) (regWs_reachable hr)]
    · exact ih
    · rintro f mid wk rfl
      have k := kInv_reachable hr
      have h1 := k.th _ (List.mem_of_getElem? ht) (.sendFin f .ret mid wk) (by simp)
      have h2 := k.made _ _ _ h1
      refine ⟨h2.2.1, fun h => ?_⟩
      have := h2.2.2.mp h
      simp [Mode.isB] at this

end Xtra
