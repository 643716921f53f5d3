import Verif.PropsStopAll
import Verif.PropsHang
import Verif.PropsJoin
import Verif.PropsGrace
/-! # C60: when the actors have been told to stop, everybody who waits for them gets away -/

namespace Xtra

/-! ## Specification -/

/-- It is all over: every task of the pool has returned, no mailbox, receive future, message or dispatch is left, every `ActorJoinHandle` has
been notified (its waker woken, if it had one) and resolves whenever it is polled. -/
structure PCfg.over (c : PCfg) : Prop where
  tasks : ∀ T ∈ c.ts, T.ph = .done
  refs : c.s.w.mailboxRefs = 0
  woken : ∀ (j l : Nat), c.s.w.objs[j]? = some (.join (some l)) → ∃ wk, c.s.w.lst[l]? = some (.notified wk)
  joins : ∀ (j wk : Nat) (x : Option Nat) (w' : World), c.s.w.objs[j]? = some (.join x) → Does c.s.w (.pollJoin j wk) w' →
    w'.log = .joined j :: c.s.w.log

/-- The mailboxes still there are those of `run`s. -/
def PCfg.onlyRuns (c : PCfg) : Prop := ∀ (i b : Nat), c.s.w.objs[i]? = some (.mailbox b) → ∃ T ∈ c.ts, T.i = i ∧ T.lvl = .run

/-- No `select`, `join` or `yield_once` called by user code has received a notice of `stop_all`. -/
def PCfg.noticesReachRun (c : PCfg) : Prop := ∀ U ∈ c.ts, U.lvl ≠ .run → ∀ r n, n.prio = .shutdown → (r, .all n, true) ∉ U.hist

/-! ## Proofs -/

/-- Every task has returned: it is all over. -/
theorem over_of_done {cap : Option Nat} {c : PCfg} (h : PRun cap true c) (hq : ∀ x ∈ c.s.th, x = []) (hd : ∀ T ∈ c.ts, T.ph = .done)
    (hb : c.onlyRuns) : c.over := by
  have quiet : Quiet cap c.s.w := ⟨c.s.th, h.reachable, hq⟩
  have h0 : c.s.w.mailboxRefs = 0 := by
    apply Classical.byContradiction
    intro hne
    obtain ⟨o, ho, hx⟩ := List.countP_pos_iff.mp (Nat.pos_of_ne_zero hne)
    obtain ⟨i, hi⟩ := List.getElem?_of_mem ho
    have rx : o.rx → False := by
      intro hrx
      obtain ⟨T, hT, hc⟩ := rxOwned h i (.inl ⟨o, hi, hrx⟩)
      rw [hd T hT] at hc; simp [APh.cur] at hc
    cases o <;> simp [Obj.isMailboxRef] at hx
    · rename_i b
      obtain ⟨T, hT, rfl, hl⟩ := hb _ _ hi
      have := (C48_leaves_nothing h hT (hd T hT)).1 hl
      rw [hi] at this; simp at this
    all_goals exact rx trivial
  have hrc : c.s.w.rcv = 0 := by
    have := (C14_counts_exact_quiet quiet).2
    omega
  refine ⟨hd, h0, fun j l hj => ?_, fun j wk x w' hj hd' => C23_resolves_after_last_mailbox quiet h0 hj hd'⟩
  rcases C23_notification_under_way h.reachable hj hrc with hx | ⟨-, ms, hm, hs⟩
  · exact hx
  · rw [hq ms hm] at hs; simp at hs

/-- Behind whoever receives there is a `run` and its mailbox. -/
theorem base_box {cap : Option Nat} {closed : Bool} {c : PCfg} (h : PRun cap closed c) : ∀ (l : Nat) {U : Task}, c.ts[l]? = some U → U.ph ≠ .done →
    U.ph.hasBox = true → ∃ i : Nat, c.s.w.objs[i]? = some (.mailbox U.b) := by
  intro l
  induction l using Nat.strongRecOn with
  | ind l ih =>
    intro U hU hd hb
    by_cases hl : U.lvl = .run
    · exact ⟨U.i, ((pInv_run h).all l U hU).2.box hl hb⟩
    · obtain ⟨k, T, hk, hT, hg, hbb⟩ := (pInv_run h).par l U hU hl hd
      have : T.ph ≠ .done ∧ T.ph.hasBox = true := by
        unfold Task.given at hg
        cases hp : T.ph <;> rw [hp] at hg <;> simp at hg <;> simp [APh.hasBox]
      obtain ⟨i, hi⟩ := ih k hk hT this.1 this.2
      exact ⟨i, by rw [← hbb]; exact hi⟩

/-! ## Theorems -/

/-- **C60.** After `stop_all`. Whoever executes its critical section, in any interleaving: when everything has come to rest, no task was
dropped, no `select`, `join` or `yield_once` received the notice, and the mailboxes that are left (if any) are those of actors that were running
or starting when the notice was put out, it is all over. -/
theorem C60_after_stop_all {cap : Option Nat} {c c1 c' : PCfg} (h : PRun cap true c) {t : Nat} {rest : List Micro}
    (ht : c.s.th[t]? = some (.bcastShutdown :: rest)) (h1 : c.s.step (.exec t) = some c1.s) (hts : c1.ts = c.ts) (hs : PSteps true c1 c')
    (hq : c'.settled) (ha : ∀ U ∈ c'.ts, U.aborted = false) (hn : c'.noticesReachRun)
    (hb : ∀ (i b : Nat), c'.s.w.objs[i]? = some (.mailbox b) → ∃ T ∈ c.ts, T.i = i ∧ T.lvl = .run) : c'.over := by
  have hst : PStep true c c1 := by
    have := PStep.other (closed := true) (c := c) (a := .exec t) (fun T _ => rfl) (fun _ i => by simp) h1
    rw [show ({ c with s := c1.s } : PCfg) = c1 by rw [← hts]] at this
    exact this
  have hr1 := PRun.step h hst
  have hr := hs.run hr1
  obtain ⟨n, hp, hall⟩ := C57_stop_all h ht h1 hts hs hq ha
  -- the actors of that moment have returned
  have old : ∀ (k : Nat) (T : Task), c.ts[k]? = some T → T.lvl = .run → ∃ T', c'.ts[k]? = some T' ∧ T'.i = T.i ∧ T'.lvl = .run ∧ T'.ph = .done := by
    intro k T hT hl
    obtain ⟨T', hT', hd⟩ := hall k T hT hl
    obtain ⟨T2, hT2, hi, -, hl', -⟩ := hs.task_at (k := k) (by rw [hts]; exact hT)
    rw [hT'] at hT2; cases hT2
    refine ⟨T', hT', hi, hl'.mpr hl, ?_⟩
    rcases hd with hd | ⟨U, hU, hUl, -, r, hr⟩
    · exact hd
    · exact absurd hr (hn U hU hUl r n hp)
  -- hence no mailbox is left
  have nobox : ∀ (i b : Nat), c'.s.w.objs[i]? ≠ some (.mailbox b) := by
    intro i b hi
    obtain ⟨T, hT, rfl, hl⟩ := hb i b hi
    obtain ⟨k, hk⟩ := List.getElem?_of_mem hT
    obtain ⟨T', hT', hi', hl', hd'⟩ := old k T hk hl
    have := (C48_leaves_nothing hr (List.mem_of_getElem? hT') hd').1 hl'
    rw [hi', hi] at this; simp at this
  have hd : ∀ T ∈ c'.ts, T.ph = .done := by
    intro T hT
    apply Classical.byContradiction
    intro hd
    obtain ⟨U, hU, -, r, hr', -⟩ := hq.sleeper hr hT hd
    obtain ⟨k, hk⟩ := List.getElem?_of_mem hU
    obtain ⟨i, hi⟩ := base_box hr k hk (by rw [hr']; simp) (by rw [hr']; rfl)
    exact nobox i _ hi
  exact over_of_done hr hq.1 hd (fun i b hi => absurd hi (nobox i b))

/-- **C60.** After the last strong address is gone: when everything has come to rest (tasks may have been dropped) and the mailboxes that
are left, if any, are those of `run`s, it is all over. -/
theorem C60_after_last_address {cap : Option Nat} {c : PCfg} (h : PRun cap true c) (hq : c.settled) (h0 : c.s.w.strongRefs = 0) (hb : c.onlyRuns) :
    c.over := over_of_done h hq.1 (C56_all_return h hq h0).1 hb

/-- **C60.** Nobody is left hanging: when it is all over and nothing more can happen without a new API call, every awaited send future and
`Receiver`, of requests and broadcasts, has resolved, except those of sends that entered the channel after the last mailbox was gone
(`C11_refuted`). -/
theorem C60_nobody_hangs {A : Nat → Prop} {cap : Option Nat} {c c' : PCfg} (h : PRun cap true c) {f i : Nat} {bc : Bool}
    (hf : A f) (hu : c.s.unresolved f i bc) (hs : AutosC A c c') (he : ¬ ∃ c2, AutoC A c' c2 ∧ NoDrop c' c2) (ho : c'.over) :
    c'.s.w.resolved f i bc ∨ .late i ∈ c'.s.w.log := C52_after_the_end h hf hu hs he ho.refs

/-! ## Example -/

/-- Two actors, somebody who joins (waker 9), a request that is being handled, another that is queued; the handler calls `stop_all`. -/
def overStart : List PAct :=
  [.other (.call (.cloneMailbox 1)), .other (.exec 0), .spawn 1, .spawn 2, .other (.call (.join 0)), .other (.exec 1), .other (.exec 1),
   .other (.call (.pollJoin 3 9)), .other (.call (.send 0)), .other (.call (.pollSend 4 6)), .other (.exec 4), .other (.exec 4), .other (.exec 4),
   .other (.exec 4), .other (.exec 4), .task 0 .started, .task 0 .next, .task 0 (.poll 5), .other (.exec 6), .task 0 .ready, .task 0 .dispatch,
   .other (.call (.send 0)), .other (.call (.pollSend 6 6)), .other (.exec 9), .other (.exec 9), .other (.exec 9), .other (.exec 9), .other (.exec 9),
   .other (.call (.stopAll 5))]
def overSteps : List PAct :=
  [.other (.exec 10), .task 0 (.finish 7), .other (.exec 11), .other (.exec 11), .other (.exec 11), .task 0 .loop, .task 0 .next,
   .task 0 (.poll 5), .other (.exec 13), .task 0 .ready, .task 0 .notice, .other (.exec 14), .other (.exec 14), .task 0 .break,
   .task 0 .stopped, .other (.exec 15), .other (.exec 15), .task 0 .left, .task 1 .started, .task 1 .next, .task 1 (.poll 5),
   .other (.exec 17), .task 1 .ready, .task 1 .notice, .other (.exec 18), .other (.exec 18), .task 1 .break, .task 1 .stopped,
   .other (.exec 19), .other (.exec 19), .other (.exec 19), .task 1 .left, .other (.call (.pollSend 4 6)), .other (.exec 20),
   .other (.call (.pollSend 6 6)), .other (.exec 21)]

/-- The hypotheses of `C60_after_stop_all` are met: the join handle, pending before, has been notified, waker 9 woken; the request in hand
was answered, the queued one interrupted. -/
example : ∃ c c1 c', PRun none true c ∧ c.s.th[10]? = some [.bcastShutdown, .dropTx .strong] ∧ c.s.step (.exec 10) = some c1.s ∧ c1.ts = c.ts ∧
    PSteps true c1 c' ∧ c'.settled ∧ (∀ U ∈ c'.ts, U.aborted = false) ∧ c'.noticesReachRun ∧
    (∀ (i b : Nat), c'.s.w.objs[i]? = some (.mailbox b) → ∃ T ∈ c.ts, T.i = i ∧ T.lvl = .run) ∧ .joinPending 3 9 ∈ c.s.w.log ∧
    c'.s.w.objs[3]? = some (.join (some 0)) ∧ c'.s.w.lst[0]? = some (.notified (some 9)) ∧ .replyOk 4 0 7 ∈ c'.s.w.log ∧ .replyInt 6 1 ∈ c'.s.w.log := by
  refine ⟨_, ⟨_, _⟩, _, PRun.run .new (as := overStart) rfl, rfl, rfl, rfl, psteps_of_run overSteps rfl, settled_dec (by decide) (by decide),
    by decide, ?_, ?_, by decide, by decide, by decide, by decide, by decide⟩
  · intro U hU hl
    exact absurd (show U.lvl = .run by revert U; decide) hl
  · intro i b hi
    exact absurd hi (noBox _ (by decide) i b)

/-- One actor, somebody who joins, a request queued; then the address is dropped. -/
def lastStart : List PAct :=
  [.spawn 1, .other (.call (.join 0)), .other (.exec 0), .other (.exec 0), .other (.call (.pollJoin 2 9)), .other (.call (.send 0)),
   .other (.call (.pollSend 3 6)), .other (.exec 3), .other (.exec 3), .other (.exec 3), .other (.exec 3), .other (.exec 3),
   .other (.call (.dropAddr 0)), .other (.exec 4), .other (.exec 4)]
def lastSteps : List PAct :=
  [.task 0 .started, .task 0 .next, .task 0 (.poll 5), .other (.exec 6), .task 0 .ready, .task 0 .dispatch, .task 0 (.finish 7), .other (.exec 8),
   .other (.exec 8), .other (.exec 8), .task 0 .loop, .task 0 .next, .task 0 (.poll 5), .other (.exec 10), .task 0 .ready, .task 0 .notice,
   .other (.exec 11), .other (.exec 11), .task 0 .break, .task 0 .stopped, .other (.exec 12), .other (.exec 12), .other (.exec 12), .task 0 .left,
   .other (.call (.pollSend 3 6)), .other (.exec 13)]

/-- The hypotheses of `C60_after_last_address` and `C60_nobody_hangs` are met. -/
example : ∃ c c', PRun none true c ∧ c.s.unresolved 3 0 false ∧ AutosC (· ∈ [3]) c c' ∧ (¬ ∃ c2, AutoC (· ∈ [3]) c' c2 ∧ NoDrop c' c2) ∧
    c'.settled ∧ c'.s.w.strongRefs = 0 ∧ c'.onlyRuns ∧ c'.over ∧ .replyOk 3 0 7 ∈ c'.s.w.log := by
  have rest : PRun none true _ := PRun.run .new (as := lastStart ++ lastSteps) rfl
  refine ⟨_, _, PRun.run .new (as := lastStart) rfl, .inl ⟨.ret, _, rfl, rfl⟩, autosC_sound [3] lastSteps rfl, C51_rest_is_final rest (atRest_of (by decide) rfl (by decide)),
    (atRest_of (f := 3) (by decide) rfl (by decide)).1, by decide, ?_, C60_after_last_address rest (atRest_of (f := 3) (by decide) rfl (by decide)).1 (by decide) ?_, by decide⟩
  · intro i b hi
    exact absurd hi (noBox _ (by decide) i b)
  · intro i b hi
    exact absurd hi (noBox _ (by decide) i b)

end Xtra
