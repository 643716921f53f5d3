import Verif.PropsAwait
import Verif.PropsAbort
/-! # C52: nobody hangs, neither while the actors run nor after they are gone, except a send that came too late (C11) -/

set_option linter.unusedSimpArgs false

namespace Xtra

/-- Whatever is queued or parked entered when no mailbox was left. -/
structure OnlyLate (w : World) : Prop where
  uq : ∀ m ∈ w.uq, Ev.late m.id ∈ w.log
  ws : ∀ (h : Nat) (wk : Option Nat) (m : Msg), w.ws[h]? = some (.active wk m) → Ev.late m.id ∈ w.log

theorem OnlyLate.congr {w w' : World} (h : OnlyLate w) (h1 : w'.uq = w.uq) (h2 : w'.ws = w.ws) (h3 : w.log <:+ w'.log) : OnlyLate w' :=
  ⟨by rw [h1]; exact fun m hm => h3.mem (h.uq m hm), by rw [h2]; exact fun a b m hm => h3.mem (h.ws a b m hm)⟩

theorem OnlyLate.set {w : World} (h : OnlyLate w) {w' : World} {k : Nat} {x : WsCell}
    (hx : ∀ wk m, x = .active wk m → Ev.late m.id ∈ w.log) (h1 : w'.uq = w.uq) (h2 : w'.ws = w.ws.set k x) (h3 : w.log <:+ w'.log) :
    OnlyLate w' := by
  refine ⟨by rw [h1]; exact fun m hm => h3.mem (h.uq m hm), fun i wk m hi => ?_⟩
  rw [h2] at hi
  rcases set_cases hi with ⟨-, h⟩ | h4
  · exact h3.mem (hx _ _ h.symm)
  · exact h3.mem (h.ws _ _ _ h4.2)

theorem Cleared.onlyLate {w : World} (h : Cleared w) : OnlyLate w :=
  ⟨by rw [h.uq]; simp, fun a b m hm => absurd hm (h.ws a b m)⟩

theorem late_reachable {cap : Option Nat} {s : Sys} (h : Reachable cap s) : s.w.rcv = 0 → 0 < tot mShutTx s.th ∨ OnlyLate s.w := by
  refine Reachable.inv (P := fun s => s.w.rcv = 0 → 0 < tot mShutTx s.th ∨ OnlyLate s.w) ?_ ?_ ?_ h
  · intro h; simp [init] at h
  · intro s c w' ms hr ih hc h0
    rcases ih (callR_toZero hc h0) with h1 | h1
    · left; rw [tot_append]; omega
    · right; exact h1.congr (callR_uq hc) (callR_wsEq hc) (callR_suffix hc)
  · intro s t mc rest w' ms hr ih ht he h0
    have hreg := regWs_reachable hr
    have htot := tot_exec mShutTx ms ht
    have hsuf := execR_suffix he hreg
    rcases execR_toZero he h0 with h1 | ⟨rfl, rfl⟩
    · rcases ih h1 with h2 | h2
      · by_cases hs : mc = .shutTx
        · subst hs; cases he; right; exact (shutTx_cleared hreg).onlyLate
        · left
          have : mShutTx mc = 0 := by cases mc <;> simp [mShutTx] at hs ⊢
          show 0 < tot mShutTx (s.th.set t (ms ++ rest))
          omega
      · right
        have hn := noRx_steps hr h1 ht
        cases he
        case critAll_park =>
          refine ⟨fun m hm => hsuf.mem (h2.uq m hm), fun i wk m hi => ?_⟩
          rcases append_cases hi with h3 | ⟨-, h3⟩
          · exact hsuf.mem (h2.ws _ _ _ h3.2)
          · simp at h3; obtain ⟨-, rfl⟩ := h3
            simp [World.lateLog, h1]
        case critAll_sent m _ _ _ => exact h2.congr (by simp) (by simp) hsuf
        case critOne_park =>
          refine ⟨fun m hm => hsuf.mem (h2.uq m hm), fun i wk m hi => ?_⟩
          rcases append_cases hi with h3 | ⟨-, h3⟩
          · exact hsuf.mem (h2.ws _ _ _ h3.2)
          · simp at h3; obtain ⟨-, rfl⟩ := h3
            simp [World.lateLog, h1]
        case critOne_hand => exact h2.congr rfl rfl hsuf
        case critOne_queue =>
          refine ⟨fun m hm => ?_, fun i wk m hi => hsuf.mem (h2.ws _ _ _ hi)⟩
          rcases List.mem_cons.mp ((Heap.push_perm ..).mem_iff.mp hm) with rfl | h3
          · simp [World.lateLog, h1]
          · exact hsuf.mem (h2.uq m h3)
        case pollWs_active hc => exact h2.set (fun wk m e => by simp at e; obtain ⟨-, rfl⟩ := e; exact h2.ws _ _ _ hc) rfl rfl hsuf
        case pollWs_delivered => exact h2.set (by simp) rfl rfl hsuf
        case pollWs_closed => exact h2.set (by simp) rfl rfl hsuf
        case dropWs_active hc => exact h2.set (by simp) rfl rfl hsuf
        case dropWs_other => exact h2.set (by simp) rfl rfl hsuf
        case requeue_hand => exact absurd rfl (hn.2 _)
        case requeue_queue => exact absurd rfl (hn.2 _)
        case shutTx => exact (shutTx_cleared hreg).onlyLate
        case recv_all => simp [mRcv] at hn
        case recv_one => simp [mRcv] at hn
        case recvBcast_some => simp [mRcv] at hn
        all_goals exact h2.congr (by simp) (by simp) hsuf
    · left
      show 0 < tot mShutTx (s.th.set t ([Micro.shutTx] ++ rest))
      simp only [sumBy_cons, sumBy_nil, mShutTx] at htot
      omega

/-- **C11 (partial), message by message.** When no mailbox reference is left and the call that dropped the last one has cleared the
channel, the only messages left queued or parked are those whose send entered the channel after the last mailbox was gone, having found it
still connected before (`Ev.late`). Missing, and false of the code (`C11_refuted`): that there are none. -/
theorem C11_only_late_partial {cap : Option Nat} {s : Sys} (h : Reachable cap s) (h0 : s.w.rcv = 0) (hcl : ∀ x ∈ s.th, .shutTx ∉ x) :
    (∀ m ∈ s.w.uq, .late m.id ∈ s.w.log) ∧ ∀ f md m, s.w.parkedSend f md m → .late m.id ∈ s.w.log := by
  rcases late_reachable h h0 with h1 | h1
  · obtain ⟨ms, hms, mc, hmc, hp⟩ := tot_pos_mem h1
    cases mc <;> simp [mShutTx] at hp
    exact absurd hmc (hcl ms hms)
  · exact ⟨h1.uq, fun f md m ⟨k, wk, _, h2⟩ => h1.ws _ _ _ h2⟩

/-- With no mailbox left and no call in progress, a request that is neither answered nor interrupted was not polled yet, or came too late. -/
theorem waiting_is_late {cap : Option Nat} {w : World} (hq : Quiet cap w) (h0 : w.rcv = 0) {f i : Nat} {wk : Option Nat}
    (hm : .made f i false ∈ w.log) (hw : w.resp[i]? = some (.waiting wk)) :
    (∃ md m rc, w.objs[f]? = some (.send md i (.new m rc))) ∨ .late i ∈ w.log := by
  obtain ⟨th, hr, hth⟩ := id hq
  have ol : OnlyLate w := by
    rcases late_reachable hr h0 with h1 | h1
    · obtain ⟨ms, hms, mc, hmc, -⟩ := tot_pos_mem h1
      rw [hth ms hms] at hmc; simp at hmc
    · exact h1
  have hno : ∀ (g : Nat) (o : Obj), w.objs[g]? = some o → o.isMailboxRef = false := by
    intro g o ho
    have h1 := (C14_counts_exact_quiet hq).2
    rw [h0] at h1
    have h2 : w.mailboxRefs = 0 := by omega
    have h2 := List.countP_eq_zero.mp h2 o (List.mem_of_getElem? ho)
    simpa using h2
  have k := kInv_reachable hr
  have h1 := held_reachable hr i
  have hlt := (k.made _ _ _ hm).2.1
  have ht : tot (mAll i) th = 0 := by
    simp only [tot]; rw [sumBy_eq_zero]; intro x hx; rw [hth x hx]; rfl
  simp only [World.held, ht, created, hlt, if_true] at h1
  obtain ⟨hnd, hnh⟩ : ¬ Destroyed w.log i ∧ ∀ r, Ev.handled i r ∉ w.log := by
    rcases resp_cases hr hm with ⟨wk', a1, a2, a3⟩ | ⟨v, wk', a1, a2⟩ | ⟨wk', a1, a2⟩
    · exact ⟨a2, a3⟩
    · simp only at a1; rw [hw] at a1; simp at a1
    · simp only at a1; rw [hw] at a1; simp at a1
  have hlog : sumBy (eAll i) w.log = 0 := by
    apply Classical.byContradiction
    intro hne
    obtain ⟨e, he, hpos⟩ := (sumBy_pos _).mp (by omega : 0 < sumBy (eAll i) w.log)
    cases e <;> simp only [eAll, n1, mid1, Nat.lt_irrefl] at hpos <;> have hpos := pos1 hpos <;> subst hpos
    · rename_i m ts
      have h2 := k.evs _ he
      simp only [okE, bcMsg] at h2
      rcases h2 with ⟨⟨g, h3⟩, -⟩ | ⟨-, h3⟩
      · have := (k.uniq _ _ _ _ _ _ h3 hm).2 rfl; simp at this
      · exact h3 _ _ hm
    · exact hnd (.inl he)
    · exact hnd (.inr (.inl he))
    · exact hnd (.inr (.inr he))
    · exact hnh _ he
  have hcells : sumBy (cellW i) w.cells = 0 := by
    rw [sumBy_eq_zero]; intro x hx
    obtain ⟨l, hl⟩ := List.getElem?_of_mem hx
    cases x with
    | full kk wk =>
      exfalso
      obtain ⟨r, b, hb⟩ := hq.owner (c := l) (by simp [cellLive, hl])
      have := hno r _ hb
      simp [Obj.isMailboxRef] at this
    | _ => rfl
  rw [hlog, hcells] at h1
  by_cases huq : sumBy (mid1 i) w.uq = 0
  · by_cases hws : sumBy (wsW i) w.ws = 0
    · rw [huq, hws] at h1
      obtain ⟨o, ho, hpos⟩ := (sumBy_pos _).mp (by omega : 0 < sumBy (oAll i) w.objs)
      obtain ⟨g, hg⟩ := List.getElem?_of_mem ho
      cases o <;> simp [oAll] at hpos
      · rename_i md mid st
        cases st <;> simp only [sNewW, mid1, Nat.lt_irrefl] at hpos
        rename_i m rc
        have hpos := pos1 hpos
        have hkg := k.kw.objs _ _ hg
        have hmid : mid = i := by
          have := hkg.2
          simp [okS] at this
          rw [← this.1]; exact hpos
        subst hmid
        have : g = f := (k.uniq _ _ _ _ _ _ hkg.1 hm).1.mpr rfl
        subst this
        exact .inl ⟨md, m, rc, hg⟩
      · have := hno g _ hg; simp [Obj.isMailboxRef] at this
      · have := hno g _ hg; simp [Obj.isMailboxRef] at this
    · obtain ⟨x, hx, hpos⟩ := (sumBy_pos _).mp (by omega : 0 < sumBy (wsW i) w.ws)
      obtain ⟨l, hl⟩ := List.getElem?_of_mem hx
      cases x <;> simp only [wsW, mid1, Nat.lt_irrefl] at hpos
      have hpos := pos1 hpos
      subst hpos
      exact .inr (ol.ws _ _ _ hl)
  · obtain ⟨m, hx, hpos⟩ := (sumBy_pos _).mp (by omega : 0 < sumBy (mid1 i) w.uq)
    simp only [mid1] at hpos
    have hpos := pos1 hpos
    subst hpos
    exact .inr (ol.uq _ hx)

/-- **C52.** After the actors are gone nobody hangs: however the scheduler proceeds, once nothing more can happen without a new API call and
no mailbox reference is left (every actor has terminated, or its mailbox was dropped), every awaited send future and `Receiver`, of requests
and broadcasts, has resolved, except those of sends that entered the channel after the last mailbox was gone, having found it still
connected before (`Ev.late`; that these hang is `C11_refuted`). Whatever tasks were dropped, whatever the capacity. -/
theorem C52_after_the_end {A : Nat → Prop} {cap : Option Nat} {closed : Bool} {c c' : PCfg} (h : PRun cap closed c) {f i : Nat} {bc : Bool}
    (hf : A f) (hu : c.s.unresolved f i bc) (hs : AutosC A c c') (he : ¬ ∃ c2, AutoC A c' c2 ∧ NoDrop c' c2)
    (h0 : c'.s.w.mailboxRefs = 0) : c'.s.w.resolved f i bc ∨ .late i ∈ c'.s.w.log := by
  obtain ⟨hr, -⟩ := hs.run h
  have hq : c'.atRestC A := Classical.byContradiction fun hn => he (C51_progress hr hn)
  have quiet : Quiet cap c'.s.w := ⟨c'.s.th, hr.reachable, hq.1.1⟩
  have hrc : c'.s.w.rcv = 0 := by have := (C14_counts_exact_quiet quiet).2; omega
  have k := kInv_reachable hr.reachable
  have hdz := hq.2 f hf
  rcases hs.unresolved h (.inl hu) with hu' | hre
  · right
    rcases unresolved_rest hq.1.1 hu' with ⟨md, st, hb, ho⟩ | ⟨rfl, ho⟩
    · cases st with
      | new m rc => simp [World.dozes, ho] at hdz
      | waiting l =>
        simp only [World.dozes, ho] at hdz
        obtain ⟨wk', m, hw⟩ := hdz
        have hid := (wsId_reachable hr.reachable).obj ho hw
        have := (C11_only_late_partial hr.reachable hrc (fun x hx => by rw [hq.1.1 x hx]; simp)).2 f md m ⟨_, some wk', by rw [hid]; exact ho, hw⟩
        rwa [hid] at this
      | done =>
        cases md with
        | ret =>
          simp only [World.dozes, ho] at hdz
          obtain ⟨wk, hw⟩ := hdz
          rcases waiting_is_late quiet hrc (k.kw.objs _ _ ho).1 hw with ⟨md, m, rc, e⟩ | e
          · rw [ho] at e; simp at e
          · exact e
        | detached => simp [World.dozes, ho] at hdz
        | bcast => simp [World.dozes, ho] at hdz
    · simp only [World.dozes, ho] at hdz
      obtain ⟨wk, hw⟩ := hdz
      rcases waiting_is_late quiet hrc (k.kw.objs _ _ ho) hw with ⟨md, m, rc, e⟩ | e
      · rw [ho] at e; simp at e
      · exact e
  · exact .inl hre

/-- **C52.** While an actor runs nobody hangs, even if other tasks were dropped: let messages be received by the tasks only and the
capacity not be 0. Once nothing more can happen without a new API call and an actor of the pool is still running, every awaited request has
resolved, unless its own handler waits for another message in `yield_once`. (To `Ok`, unless a task was dropped or the message was lost in
the race of C03: `C51_answered`.) -/
theorem C52_while_running {A : Nat → Prop} {cap : Option Nat} {c c' : PCfg} (h : PRun cap true c) (hcap : cap ≠ some 0) {f i : Nat}
    (hf : A f) (hu : c.s.unresolved f i false) (hs : AutosC A c c') (he : ¬ ∃ c2, AutoC A c' c2 ∧ NoDrop c' c2)
    (hz : ∃ T ∈ c'.ts, T.ph ≠ .done) : c'.s.w.resolved f i false ∨ c'.yields i := by
  obtain ⟨hr, -⟩ := hs.run h
  have hq : c'.atRestC A := Classical.byContradiction fun hn => he (C51_progress hr hn)
  obtain ⟨T, hT, hd⟩ := hz
  obtain ⟨T, hT, -, hsl⟩ := hq.1.sleeper hr hT hd
  obtain ⟨h1, -, -, -⟩ := at_rest_gen hr hcap hq.1 ⟨T, hT, hsl⟩
  have quiet : Quiet cap c'.s.w := ⟨c'.s.th, hr.reachable, hq.1.1⟩
  obtain ⟨r0, -, c0, x0, ho0, hc0⟩ := hsl
  obtain ⟨-, huq, -, -⟩ := quiet.waiting ho0 hc0
  have k := kInv_reachable hr.reachable
  have hdz := hq.2 f hf
  rcases hs.unresolved h (.inl hu) with hu' | hre
  · right
    have fin : Ev.made f i false ∈ c'.s.w.log → (∃ wk, c'.s.w.resp[i]? = some (.waiting wk)) →
        (∀ md m rc, c'.s.w.objs[f]? ≠ some (.send md i (.new m rc))) → c'.s.w.objs[f]? ≠ some .gone → c'.yields i := by
      rintro hm ⟨wk, hw⟩ hn hg
      obtain ⟨hnd, hnh⟩ : ¬ Destroyed c'.s.w.log i ∧ ∀ r, Ev.handled i r ∉ c'.s.w.log := by
        rcases resp_cases hr.reachable hm with ⟨wk', a1, a2, a3⟩ | ⟨v, wk', a1, a2⟩ | ⟨wk', a1, a2⟩
        · exact ⟨a2, a3⟩
        · rw [hw] at a1; simp at a1
        · rw [hw] at a1; simp at a1
      rcases h1 f i hm with ⟨md', m, rc, e⟩ | ⟨e, -⟩ | ⟨v, wk, e, -⟩ | e | e | e
      · exact absurd e (hn _ _ _)
      · exact absurd e hg
      · exact absurd e (hnh _)
      · exact absurd (.inr (.inl e)) hnd
      · exact absurd (.inr (.inr e)) hnd
      · exact e
    rcases unresolved_rest hq.1.1 hu' with ⟨md, st, hb, ho⟩ | ⟨-, ho⟩
    · have hmd : md ≠ .bcast := by rintro rfl; simp at hb
      cases st with
      | new m rc => simp [World.dozes, ho] at hdz
      | waiting l =>
        simp only [World.dozes, ho] at hdz
        obtain ⟨wk', m, hw⟩ := hdz
        have hid := (wsId_reachable hr.reachable).obj ho hw
        obtain ⟨cp, e1, e2⟩ := C08_parked_only_when_full hr.reachable hmd ⟨_, some wk', by rw [hid]; exact ho, hw⟩
        rw [huq] at e2
        simp at e2; subst e2
        exact absurd e1 hcap
      | done =>
        cases md with
        | ret =>
          simp only [World.dozes, ho] at hdz
          obtain ⟨wk, hw⟩ := hdz
          exact fin (k.kw.objs _ _ ho).1 ⟨_, hw⟩ (by rw [ho]; simp) (by rw [ho]; simp)
        | detached => simp [World.dozes, ho] at hdz
        | bcast => exact absurd rfl hmd
    · simp only [World.dozes, ho] at hdz
      obtain ⟨wk, hw⟩ := hdz
      exact fin (k.kw.objs _ _ ho) ⟨_, hw⟩ (by rw [ho]; simp) (by rw [ho]; simp)
  · exact .inl hre

/-- **C52.** In the end: with messages received by the tasks only and a capacity other than 0, after finitely many steps an awaited
request has resolved, unless its handler waits for another message in `yield_once`, or its send came too late, or nobody receives any more
although a mailbox is left. -/
theorem C52_eventually {A : Nat → Prop} {cap : Option Nat} {c : PCfg} (h : PRun cap true c) (hcap : cap ≠ some 0) {f i : Nat} (hf : A f)
    (hu : c.s.unresolved f i false) :
    ∃ c', AutosC A c c' ∧
      (c'.s.w.resolved f i false ∨ c'.yields i ∨ .late i ∈ c'.s.w.log ∨ (0 < c'.s.w.mailboxRefs ∧ ∀ T ∈ c'.ts, T.ph = .done)) := by
  obtain ⟨c', h1, h2⟩ := C51_reaches_rest (A := A) h
  refine ⟨c', h1, ?_⟩
  have fin := C51_rest_is_final (h1.run h).1 h2
  by_cases hz : ∃ T ∈ c'.ts, T.ph ≠ .done
  · rcases C52_while_running h hcap hf hu h1 fin hz with h3 | h3
    · exact .inl h3
    · exact .inr (.inl h3)
  · by_cases h0 : c'.s.w.mailboxRefs = 0
    · rcases C52_after_the_end h hf hu h1 fin h0 with h3 | h3
      · exact .inl h3
      · exact .inr (.inr (.inl h3))
    · exact .inr (.inr (.inr ⟨by omega, fun T hT => Classical.byContradiction fun hn => hz ⟨T, hT, hn⟩⟩))

/-! ## Concrete executions -/

/-- A request is made to an actor in `started`. -/
def endStart : List PAct := [.spawn 1, .other (.call (.send 0))]
/-- It is sent, `started` fails, `run` returns; the requester is woken. -/
def endSteps : List PAct :=
  [.other (.call (.pollSend 2 6)), .other (.exec 1), .other (.exec 1), .other (.exec 1), .other (.exec 1), .other (.exec 1),
   .task 0 .startFails, .other (.exec 2), .other (.exec 2), .other (.exec 2), .task 0 .left, .other (.call (.pollSend 2 6)),
   .other (.exec 3)]

def Task.sleepsB (T : Task) (w : World) : Bool :=
  match T.ph with
  | .waiting r => match w.objs[r]? with
    | some (.recv b (.waiting c)) => match w.cells[c]? with
      | some (.empty _) => b == T.b
      | _ => false
    | _ => false
  | _ => false

theorem atRest_of {c : PCfg} {f : Nat} (h1 : ∀ T ∈ c.ts, T.ph = .done ∨ (T.sleepsB c.s.w = true ∧ T.lvl ≠ .sel)) (h2 : c.s.w.objs[f]? = some .gone)
    (h3 : ∀ x ∈ c.s.th, x = []) : c.atRestC (· ∈ [f]) := by
  refine ⟨⟨h3, fun T hT => ?_⟩, fun g hg => ?_⟩
  · rcases h1 T hT with h | h
    · exact .inl h
    · obtain ⟨h, hl⟩ := h
      right; left
      refine ⟨?_, hl⟩
      unfold Task.sleepsB at h
      split at h
      · rename_i r hp
        split at h
        · rename_i b cc ho
          split at h
          · rename_i x hx
            simp at h; subst h
            exact ⟨r, hp, cc, x, ho, hx⟩
          · simp at h
        · simp at h
      · simp at h
  · simp at hg; subst hg
    simp [World.dozes, h2]

/-- The actor fails to start, the request is interrupted (`C52_after_the_end`). -/
example : ∃ c c', PRun none true c ∧ c.s.unresolved 2 0 false ∧ AutosC (· ∈ [2]) c c' ∧ c'.s.w.mailboxRefs = 0 ∧
    .replyInt 2 0 ∈ c'.s.w.log ∧ ¬ ∃ c2, AutoC (· ∈ [2]) c' c2 ∧ NoDrop c' c2 := by
  refine ⟨_, _, PRun.run .new (as := endStart) rfl, .inl ⟨.ret, _, rfl, rfl⟩, autosC_sound [2] endSteps rfl, by decide, by decide,
    C51_rest_is_final (closed := true) (cap := none) (PRun.run .new (as := endStart ++ endSteps) rfl)
      (atRest_of (by decide) rfl (by decide))⟩

/-- Two actors; the first one is dropped while handling a request. -/
def dropStart : List PAct := twoSched ++ [.task 0 .abortHandling]
/-- What happens then: the requester is woken. -/
def dropSteps : List PAct :=
  [.other (.exec 9), .other (.exec 9), .other (.exec 9), .task 0 .aborted, .other (.exec 10), .other (.exec 10), .task 0 .left,
   .other (.call (.pollSend 5 7)), .other (.exec 11)]

/-- … the request is interrupted, the other actor sleeps (`C52_while_running`, with a dropped task).
Meets the hypotheses of `C52_eventually`. -/
example : ∃ c c', PRun none true c ∧ c.s.unresolved 5 0 false ∧ AutosC (· ∈ [5]) c c' ∧ (∃ T ∈ c'.ts, T.ph ≠ .done) ∧
    (∃ T ∈ c'.ts, T.aborted = true) ∧ .replyInt 5 0 ∈ c'.s.w.log ∧ ¬ ∃ c2, AutoC (· ∈ [5]) c' c2 ∧ NoDrop c' c2 := by
  refine ⟨_, _, PRun.run .new (as := dropStart) rfl, .inl ⟨.ret, _, rfl, rfl⟩, autosC_sound [5] dropSteps rfl,
    ⟨_, List.mem_cons_of_mem _ (List.mem_cons_self ..), by decide⟩, ⟨_, List.mem_cons_self .., by decide⟩, by decide,
    C51_rest_is_final (closed := true) (cap := none) (PRun.run .new (as := dropStart ++ dropSteps) rfl)
      (atRest_of (by decide) rfl (by decide))⟩

end Xtra
