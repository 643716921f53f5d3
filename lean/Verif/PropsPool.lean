import Verif.PoolOwn
/-! # C48, C49: properties of actors running on a channel -/

set_option linter.unusedSimpArgs false

namespace Xtra

/-! ## Specification -/

/-- The dispatch of `am` on mailbox queue `b` completed and evaluated to `Break` (`brk`) or `Continue`; if `am` is a request its handler
returned `v` and the value was sent to the requester. -/
def World.dispatched (w : World) (b : Nat) (am : AMsg) (v : Nat) (brk : Bool) : Prop :=
  .flow b am brk ∈ w.log ∧ ∀ m, am = .one m → .handled m.id v ∈ w.log

/-- The task sleeps in `next().await`: its last poll of `r` returned `Pending` and its waker has not been called since. -/
def Task.asleep (T : Task) (w : World) : Prop := ∃ r, T.ph = .waiting r ∧ w.idleReceiver r T.b

/-- The task's own code cannot continue before the thread `t` has executed its API call. -/
def APh.thread : APh → Option Nat
  | .polling _ t => some t
  | .finishing _ _ _ _ t => some t
  | .aborting _ _ t => some t
  | .leaving t => some t
  | _ => none

/-- Nothing is going on: no API call is being executed, and every task has returned or sleeps. -/
def PCfg.atRest (c : PCfg) : Prop := (∀ x ∈ c.s.th, x = []) ∧ ∀ T ∈ c.ts, T.ph = .done ∨ T.asleep c.s.w

/-- The same for programs whose user code may call `yield_once`, which waits for a message like `run` does: no API call is being executed,
and every task has returned, or sleeps in `run` or `yield_once`, or its user code has called `select` or `yield_once` and awaits it. (As this
holds of every task, whoever awaits such a call awaits in the end a `yield_once` that sleeps.) -/
def PCfg.settled (c : PCfg) : Prop := (∀ x ∈ c.s.th, x = []) ∧
  ∀ T ∈ c.ts, T.ph = .done ∨ (T.asleep c.s.w ∧ T.lvl ≠ .sel) ∨ ∃ U ∈ c.ts, U.covers T = true

/-- The handler of message `i` waits for another message, in `yield_once`. -/
def PCfg.yields (c : PCfg) (i : Nat) : Prop :=
  ∃ T ∈ c.ts, (∃ r m, T.ph = .handling r (.one m) ∧ m.id = i) ∧ ∃ U ∈ c.ts, U.lvl = .once ∧ U.b = T.b ∧ U.asleep c.s.w

/-- User code of the actor runs: `started` (lib.rs:230), `handle` (`envelope.rs:93-128, 188-210`, `dispatch_future.rs:88-102, 130-147`) or `stopped` (lib.rs:236). -/
def APh.inUser : APh → Bool
  | .starting => true
  | .handling _ _ => true
  | .stopping => true
  | _ => false

/-- The same, except that user code may be running. -/
def PCfg.calm (c : PCfg) : Prop := (∀ x ∈ c.s.th, x = []) ∧ ∀ T ∈ c.ts, T.ph = .done ∨ T.asleep c.s.w ∨ T.ph.inUser = true

/-- Message `i` is being handled. -/
def PCfg.handles (c : PCfg) (i : Nat) : Prop := ∃ T ∈ c.ts, ∃ r m, T.ph = .handling r (.one m) ∧ m.id = i

/-! ## Proofs: one actor -/

/-- **C48.** Every message a running actor receives is dispatched to it: each message yielded by a receive future of the task is the one
it is busy with, or has been dispatched (a request's handler has run to completion and its value was sent), unless the task itself was
dropped, and then only the last message it received can be concerned. -/
theorem C48_received_is_handled {cap : Option Nat} {closed : Bool} {c : PCfg} (h : PRun cap closed c) {T : Task} (hT : T ∈ c.ts)
    {r b : Nat} {am : AMsg} (hf : r ∈ T.futs) (he : Ev.recv r b am ∈ c.s.w.log) :
    T.ph.busyWith r am ∨ (T.aborted = true ∧ T.futs.head? = some r) ∨ ∃ v brk, (r, am, brk) ∈ T.hist ∧ c.s.w.dispatched T.b am v brk := by
  obtain ⟨k, hk⟩ := List.getElem?_of_mem hT
  obtain ⟨-, ti⟩ := (pInv_run h).all k T hk
  have hy := yielded_reachable h.reachable he
  by_cases hc : T.ph.cur = some r
  · have hp := ti.ph
    left
    generalize hph : T.ph = p at hc hp ⊢
    cases p <;> simp [APh.cur] at hc <;> subst hc
    · obtain ⟨st, hp⟩ := hp
      rcases hy with h1 | ⟨_, h1⟩ | h1 <;> rw [hp] at h1 <;> simp at h1
    · rfl
    · have hp := hp.1
      rcases hy with h1 | ⟨_, h1⟩ | h1 <;> rw [hp] at h1 <;> simp at h1
      exact ⟨rfl, h1.2⟩
    · obtain ⟨⟨x, hp⟩, -⟩ := hp
      rcases hy with h1 | ⟨_, h1⟩ | h1 <;> rw [hp] at h1 <;> simp at h1
      exact ⟨rfl, h1.2.1⟩
  · rcases ti.seen r hf hc b am he with ⟨brk, h1⟩ | ⟨v, brk, t, h1⟩ | h1
    · obtain ⟨-, -, -, v, h2⟩ := ti.hist r am brk h1
      exact .inr (.inr ⟨v, brk, h1, h2⟩)
    · left; rw [h1]; exact ⟨rfl, rfl⟩
    · exact .inr (.inl h1)

/-- **C48.** An actor deals with one message at a time: of the receive futures the task has made, with what they resolved to, at most
one is left, the latest. No two tasks share one, whether they run `run` or `select`, and no two executions of `run` share a mailbox. -/
theorem C48_one_at_a_time {cap : Option Nat} {closed : Bool} {c : PCfg} (h : PRun cap closed c) {T : Task} (hT : T ∈ c.ts) :
    (∀ r ∈ T.futs, c.s.w.objs[r]? ≠ some .gone → T.futs.head? = some r) ∧
    (∀ (k l : Nat) (U V : Task), c.ts[k]? = some U → c.ts[l]? = some V → k ≠ l →
      (U.lvl = .run → V.lvl = .run → U.i ≠ V.i) ∧ ∀ r ∈ U.futs, r ∉ V.futs) := by
  obtain ⟨k, hk⟩ := List.getElem?_of_mem hT
  have pi := pInv_run h
  obtain ⟨-, ti⟩ := pi.all k T hk
  refine ⟨fun r hr hg => ?_, fun k l U V hU hV hn => ⟨pi.ids k l U V hU hV hn, pi.disj k l U V hU hV hn⟩⟩
  rcases ti.futs r hr with h1 | h1
  · exact ti.cur r h1
  · exact absurd h1 hg

/-- **C48.** `run` returns for one of two reasons only: `started` failed, and then it has received nothing; or a dispatch evaluated to
`Break` (a handler called `stop_self`, or a shutdown notice was received), the last one, all dispatches before having evaluated to
`Continue`. A shutdown notice never is passed over. Whenever it has returned, every message it ever received was dispatched. -/
theorem C48_returns_only_on_break {cap : Option Nat} {closed : Bool} {c : PCfg} (h : PRun cap closed c) {T : Task} (hT : T ∈ c.ts)
    (hl : T.lvl = .run) (hd : T.ph = .done) (ha : T.aborted = false) :
    (T.futs = [] ∧ T.hist = [] ∨
      ∃ r am l, T.hist = (r, am, true) :: l ∧ (∀ e ∈ l, e.2.2 = false ∧ e.2.1.isStop = false) ∧ T.futs = T.hist.map (·.1)) ∧
    (∀ r am brk, (r, am, brk) ∈ T.hist → Ev.recv r T.b am ∈ c.s.w.log ∧ ∃ v, c.s.w.dispatched T.b am v brk) := by
  obtain ⟨k, hk⟩ := List.getElem?_of_mem hT
  obtain ⟨sh, ti⟩ := (pInv_run h).all k T hk
  refine ⟨?_, fun r am brk hm => ?_⟩
  · unfold TaskOk at sh; rw [hd, hl, ha] at sh; simp [TaskOkP] at sh
    obtain ⟨h1, h2 | ⟨r, am, l, h2, h3⟩⟩ := sh
    · exact .inl ⟨by rw [h1, h2]; rfl, h2⟩
    · refine .inr ⟨r, am, l, h2, fun e he => ⟨h3 e he, ?_⟩, h1⟩
      obtain ⟨-, -, h4, -⟩ := ti.hist e.1 e.2.1 e.2.2 (by rw [h2]; exact List.mem_cons_of_mem _ he)
      cases h5 : e.2.1.isStop with
      | false => rfl
      | true => have := h4 h5; rw [h3 e he] at this; simp at this
  · obtain ⟨-, h1, -, h2⟩ := ti.hist r am brk hm
    exact ⟨h1, h2⟩

/-- **C48.** `select` returns for one of three reasons only: a dispatch evaluated to `Break` (then it is the last one, and the future may be
unfinished); or the future it was given completed, and then either the receive future it was waiting on gave one more message, which it
dispatched before it returned, or that future gave none, ever. All other dispatches evaluated to `Continue`, and whenever `select` has
returned, every message it received was dispatched, in full. -/
theorem C48_select_returns {cap : Option Nat} {closed : Bool} {c : PCfg} (h : PRun cap closed c) {T : Task} (hT : T ∈ c.ts)
    (hl : T.lvl ≠ .run) (ho : T.lvl ≠ .once) (hd : T.ph = .done) (ha : T.aborted = false) :
    ((T.lvl = .sel ∧ T.futs = T.hist.map (·.1) ∧ ∃ r am l, T.hist = (r, am, true) :: l ∧ ∀ e ∈ l, e.2.2 = false) ∨
      (T.lvl = .last ∧ T.futs = T.hist.map (·.1) ∧ ∃ e l, T.hist = e :: l ∧ ∀ e ∈ l, e.2.2 = false) ∨
      (T.lvl = .gave ∧ (∀ e ∈ T.hist, e.2.2 = false) ∧ ∃ r, T.futs = r :: T.hist.map (·.1) ∧ ∀ b am, Ev.recv r b am ∉ c.s.w.log)) ∧
    (∀ r am brk, (r, am, brk) ∈ T.hist → Ev.recv r T.b am ∈ c.s.w.log ∧ ∃ v, c.s.w.dispatched T.b am v brk) := by
  obtain ⟨k, hk⟩ := List.getElem?_of_mem hT
  obtain ⟨sh, ti⟩ := (pInv_run h).all k T hk
  refine ⟨?_, fun r am brk hm => ?_⟩
  · have hseen := ti.seen
    unfold TaskOk at sh; rw [hd, ha] at sh; simp [TaskOkP, hl, ho] at sh
    rcases sh with ⟨h1, h2 | h2⟩ | ⟨⟨r, h1⟩, h2, h3⟩
    · exact .inl ⟨h2.1, h1, h2.2⟩
    · obtain ⟨h2, a, am, ⟨l, h3, h4⟩ | ⟨l, h3, h4⟩⟩ := h2
      · exact .inr (.inl ⟨h2, h1, _, l, h3, h4⟩)
      · exact .inr (.inl ⟨h2, h1, _, l, h3, h4⟩)
    · refine .inr (.inr ⟨h3, h2, r, h1, fun b am he => ?_⟩)
      have nd := (futs_nodup h hT)
      rcases hseen r (by simp [h1]) (by rw [hd]; simp [APh.cur]) b am he with ⟨brk, h4⟩ | ⟨v, brk, t, h4⟩ | h4
      · rw [h1] at nd
        exact (List.nodup_cons.mp nd).1 (List.mem_map.mpr ⟨_, h4, rfl⟩)
      · rw [hd] at h4; simp at h4
      · rw [ha] at h4; simp at h4
  · obtain ⟨-, h1, -, h2⟩ := ti.hist r am brk hm
    exact ⟨h1, h2⟩

theorem pos1 {p : Prop} [Decidable p] (h : 0 < if p then 1 else 0) : p := by
  split at h
  · assumption
  · simp at h

theorem exec_enabled {s : Sys} {t : Nat} {m : Micro} {rest : List Micro} (h : s.th[t]? = some (m :: rest)) :
    ∃ s', s.step (.exec t) = some s' := by
  simp [Sys.step, h]

theorem call_enabled {s : Sys} {cl : Call} {x : World × List Micro} (h : call s.w cl = some x) :
    ∃ s', s.step (.call cl) = some s' := by
  simp [Sys.step, h]

/-- **C48.** A task never gets stuck: until `run` or `select` has returned, its current API call can execute its next step, or (if it has none in
progress) the task itself can proceed without being dropped, as soon as the `select` its user code is in, if any, has returned. Locks are not modelled as blocking here (C33). -/
theorem C48_never_stuck {cap : Option Nat} {closed : Bool} {c : PCfg} (h : PRun cap closed c) {T : Task} (hT : T ∈ c.ts) (hd : T.ph ≠ .done) :
    (∃ t s', T.ph.thread = some t ∧ c.s.step (.exec t) = some s') ∨ ∃ s' T', TStep c.s T s' T' ∧ T'.aborted = T.aborted ∧ (T.lvl = .sel → T'.lvl = .sel) := by
  obtain ⟨k, hk⟩ := List.getElem?_of_mem hT
  obtain ⟨sh, ti⟩ := (pInv_run h).all k T hk
  have hp := ti.ph
  cases hph : T.ph with
  | starting => exact .inr ⟨_, _, .started hph, rfl, by first | exact id | (intro e; simp_all)⟩
  | done => exact absurd hph hd
  | idle =>
    right
    obtain ⟨o, ho, hb⟩ := (pInv_run h).hbx hk (by rw [hph]; rfl)
    obtain ⟨s', hs⟩ := call_enabled (s := c.s) (cl := .next T.i) (x := _) (by simp [call, ho, hb]; rfl)
    exact ⟨_, _, .next hph hs, rfl, by first | exact id | (intro e; simp_all)⟩
  | waiting r =>
    right
    rw [hph] at hp
    obtain ⟨st, ho⟩ := hp
    cases st with
    | new =>
      obtain ⟨s', hs⟩ := call_enabled (s := c.s) (cl := .pollRecv r 0) (x := _) (by simp [call, ho]; rfl)
      exact ⟨_, _, .poll hph hs, rfl, by first | exact id | (intro e; simp_all)⟩
    | waiting cc =>
      obtain ⟨s', hs⟩ := call_enabled (s := c.s) (cl := .pollRecv r 0) (x := _) (by simp [call, ho]; rfl)
      exact ⟨_, _, .poll hph hs, rfl, by first | exact id | (intro e; simp_all)⟩
  | polling r t =>
    rw [hph] at hp
    obtain ⟨x, hx, hh⟩ := hp
    rcases hh with ⟨wk, rfl⟩ | ⟨_, wk, rfl⟩ | ⟨_, wk, rfl⟩ | ⟨rfl, hh⟩
    · obtain ⟨s', hs⟩ := exec_enabled hx; exact .inl ⟨t, s', rfl, hs⟩
    · obtain ⟨s', hs⟩ := exec_enabled hx; exact .inl ⟨t, s', rfl, hs⟩
    · obtain ⟨s', hs⟩ := exec_enabled hx; exact .inl ⟨t, s', rfl, hs⟩
    · rcases hh with ⟨_, h1⟩ | ⟨am, h1, -⟩
      · by_cases hl : T.lvl = .last
        · obtain ⟨s', hs⟩ := call_enabled (s := c.s) (cl := .dropRecv r) (x := _) (by simp [call, h1]; rfl)
          exact .inr ⟨_, _, .giveUp hph hx hl h1 hs, rfl, fun e => by rw [hl] at e; simp at e⟩
        · exact .inr ⟨_, _, .pending hph hx hl h1, rfl, by first | exact id | (intro e; simp_all)⟩
      · exact .inr ⟨_, _, .ready hph hx h1, rfl, by first | exact id | (intro e; simp_all)⟩
  | got r am =>
    right
    rw [hph] at hp
    have ho := hp.1
    cases ha : am.isStop with
    | false =>
      have : ∃ x, call c.s.w (.dispatch r) = some x := by
        cases am with
        | one m => simp [call, ho]
        | all m => simp [AMsg.isStop] at ha; simp [call, ho, ha]
        | shutdown => simp [AMsg.isStop] at ha
      obtain ⟨x, hx⟩ := this
      obtain ⟨s', hs⟩ := call_enabled hx
      exact ⟨_, _, .dispatch hph ha hs, rfl, by first | exact id | (intro e; simp_all)⟩
    | true =>
      have : ∃ x, call c.s.w (.dispatch r) = some x := by
        cases am with
        | one m => simp [AMsg.isStop] at ha
        | all m => simp [AMsg.isStop] at ha; simp [call, ho, ha]
        | shutdown => simp [call, ho]
      obtain ⟨x, hx⟩ := this
      obtain ⟨s', hs⟩ := call_enabled hx
      exact ⟨_, _, .notice hph ha hs, rfl, by first | exact id | (intro e; simp_all)⟩
  | handling r am =>
    right
    rw [hph] at hp
    obtain ⟨⟨x, ho⟩, -⟩ := hp
    obtain ⟨s', hs⟩ := call_enabled (s := c.s) (cl := .finish r 0) (x := _) (by simp [call, ho]; rfl)
    exact ⟨_, _, .finish hph ho hs, rfl, by first | exact id | (intro e; simp_all)⟩
  | finishing r am v brk t =>
    rw [hph] at hp
    obtain ⟨-, -, x, hx, -⟩ := hp
    cases x with
    | cons m rest => obtain ⟨s', hs⟩ := exec_enabled hx; exact .inl ⟨t, s', rfl, hs⟩
    | nil =>
      unfold TaskOk at sh; rw [hph] at sh
      cases hl : T.lvl with
      | run =>
        cases brk with
        | true => exact .inr ⟨_, _, .break hph hx hl, rfl, by first | exact id | (intro e; simp_all)⟩
        | false => exact .inr ⟨_, _, .loop hph hx (by simp [hl]), rfl, by first | exact id | (intro e; simp_all)⟩
      | sel =>
        cases brk with
        | true => exact .inr ⟨_, _, .return hph hx (.inl ⟨hl, rfl⟩), rfl, by first | exact id | (intro e; simp_all)⟩
        | false => exact .inr ⟨_, _, .loop hph hx (by simp [hl]), rfl, by first | exact id | (intro e; simp_all)⟩
      | last => exact .inr ⟨_, _, .return hph hx (.inr (.inl hl)), rfl, by first | exact id | (intro e; simp_all)⟩
      | once => exact .inr ⟨_, _, .return hph hx (.inr (.inr hl)), rfl, by first | exact id | (intro e; simp_all)⟩
      | gave => exact absurd hl sh.2.2.2
  | stopping =>
    right
    unfold TaskOk at sh; rw [hph] at sh
    have hb := ti.box sh.2.2.2 (by rw [hph]; rfl)
    obtain ⟨s', hs⟩ := call_enabled (s := c.s) (cl := .dropMailbox T.i) (x := _) (by simp [call, hb]; rfl)
    exact ⟨_, _, .stopped hph hs, rfl, by first | exact id | (intro e; simp_all)⟩
  | aborting r am t =>
    rw [hph] at hp
    obtain ⟨x, hx, -⟩ := hp
    cases x with
    | cons m rest => obtain ⟨s', hs⟩ := exec_enabled hx; exact .inl ⟨t, s', rfl, hs⟩
    | nil =>
      by_cases hl : T.lvl = .run
      · have hb := ti.box hl (by rw [hph]; rfl)
        obtain ⟨s', hs⟩ := call_enabled (s := c.s) (cl := .dropMailbox T.i) (x := _) (by simp [call, hb]; rfl)
        exact .inr ⟨_, _, .aborted hph hx hl hs, rfl, by first | exact id | (intro e; simp_all)⟩
      · exact .inr ⟨_, _, .over hph hx hl, rfl, by first | exact id | (intro e; simp_all)⟩
  | leaving t =>
    rw [hph] at hp
    obtain ⟨x, hx⟩ := hp
    cases x with
    | cons m rest => obtain ⟨s', hs⟩ := exec_enabled hx; exact .inl ⟨t, s', rfl, hs⟩
    | nil => exact .inr ⟨_, _, .left hph hx, rfl, by first | exact id | (intro e; simp_all)⟩

/-- **C48.** When `run` or `select` has returned (or its task was dropped), it has left nothing behind: `run`'s mailbox is dropped, and so
is every receive future either made and whatever they resolved to. -/
theorem C48_leaves_nothing {cap : Option Nat} {closed : Bool} {c : PCfg} (h : PRun cap closed c) {T : Task} (hT : T ∈ c.ts)
    (hd : T.ph = .done) : (T.lvl = .run → c.s.w.objs[T.i]? = some .gone) ∧ ∀ r ∈ T.futs, c.s.w.objs[r]? = some .gone := by
  obtain ⟨k, hk⟩ := List.getElem?_of_mem hT
  obtain ⟨-, ti⟩ := (pInv_run h).all k T hk
  refine ⟨fun hl => ti.gone hl (by rw [hd]; rfl), fun r hr => ?_⟩
  rcases ti.futs r hr with h1 | h1
  · rw [hd] at h1; simp [APh.cur] at h1
  · exact h1

/-! ## Proofs: the pool -/

/-- **C48.** While the actors run, no request fails: if messages are received by the tasks only, no task was dropped, no `select` gave up a
receive future (see finding 18), and a mailbox is left, no reply was ever `Interrupted`; and no send was ever refused, unless the last strong address is gone. -/
theorem C48_no_request_fails {cap : Option Nat} {c : PCfg} (h : PRun cap true c) (ha : ∀ T ∈ c.ts, T.cut = false)
    (hm : c.s.w.rcv ≠ 0) :
    (∀ f i, Ev.replyInt f i ∉ c.s.w.log) ∧ (∀ f i, Ev.sendErr f i ∈ c.s.w.log → c.s.w.sc = 0) := by
  have kp := kept_run h ha
  refine ⟨fun f i he => ?_, fun f i he => ?_⟩
  · rcases C18_interrupted_only_if h.reachable he with h1 | h1 | h1
    · exact hm h1
    · exact kp.lost i h1
    · exact kp.disc i h1
  · exact (C10_err_means_disconnected h.reachable he).resolve_left hm

/-- What has become of every request when only user code is running, and some task sleeps. -/
theorem calm_gen {cap : Option Nat} {c : PCfg} (h : PRun cap true c) (hcap : cap ≠ some 0) (hq : c.calm)
    (hz : ∃ T ∈ c.ts, T.asleep c.s.w) :
    (∀ f i, .made f i false ∈ c.s.w.log →
      (∃ md m rc, c.s.w.objs[f]? = some (.send md i (.new m rc))) ∨ (c.s.w.objs[f]? = some .gone ∧ .dropped i ∈ c.s.w.log) ∨
      (∃ v wk, .handled i v ∈ c.s.w.log ∧ c.s.w.resp[i]? = some (.value v wk)) ∨ .lost i ∈ c.s.w.log ∨ .discarded i ∈ c.s.w.log ∨ c.handles i) ∧
    c.s.w.rcv ≠ 0 ∧ c.s.w.sc ≠ 0 ∧ (∀ T ∈ c.ts, T.asleep c.s.w → c.s.w.items T.b = []) := by
  have hr := h.reachable
  have quiet : Quiet cap c.s.w := ⟨c.s.th, hr, hq.1⟩
  obtain ⟨T0, hT0, r0, hp0, hi0⟩ := hz
  have hw := hi0
  obtain ⟨c0, x0, ho0, hc0⟩ := hi0
  obtain ⟨-, huq, -, hsc⟩ := quiet.waiting ho0 hc0
  have hrcv : c.s.w.rcv ≠ 0 := by
    rw [(C14_counts_exact_quiet quiet).2]
    have : 0 < c.s.w.mailboxRefs := List.countP_pos_iff.mpr ⟨_, List.mem_of_getElem? ho0, rfl⟩
    omega
  -- receive futures sleep, or have yielded what is being handled
  have sleep : ∀ r : Nat, ∀ o, c.s.w.objs[r]? = some o → o.rx → (∃ b cc x, o = .recv b (.waiting cc) ∧ c.s.w.cells[cc]? = some (.empty x)) ∨
      ∃ T ∈ c.ts, ∃ am b run, T.ph = .handling r am ∧ o = .dispatch b am run := by
    intro r o ho hx
    obtain ⟨T, hT, hc⟩ := rxOwned h r (.inl ⟨o, ho, hx⟩)
    rcases hq.2 T hT with hd | ⟨r', hp, cc, x, h1, h2⟩ | hu
    · rw [hd] at hc; simp [APh.cur] at hc
    · rw [hp] at hc; simp [APh.cur] at hc; subst hc
      rw [ho] at h1; simp at h1
      exact .inl ⟨_, cc, x, h1, h2⟩
    · obtain ⟨l, hl⟩ := List.getElem?_of_mem hT
      obtain ⟨-, ti⟩ := (pInv_run h).all l T hl
      have hph := ti.ph
      cases hp : T.ph <;> rw [hp] at hu hc hph <;> simp [APh.inUser, APh.cur] at hu hc
      subst hc
      obtain ⟨⟨run, h1⟩, -⟩ := hph
      rw [ho] at h1; simp at h1
      exact .inr ⟨T, hT, _, _, _, hp, h1⟩
  refine ⟨fun f i hm => ?_, hrcv, hsc, fun T hT ⟨r, hp, hi⟩ => (C22_no_message_while_idle quiet hi).2⟩
  have k := kInv_reachable hr
  have h1 := held_reachable hr i
  have hlt := (k.made _ _ _ hm).2.1
  have ht : tot (mAll i) c.s.th = 0 := by
    simp only [tot]; rw [sumBy_eq_zero]; intro x hx; rw [hq.1 x hx]; rfl
  simp only [World.held, ht, created, hlt, if_true, huq, sumBy_nil] at h1
  have hws : sumBy (wsW i) c.s.w.ws = 0 := by
    rw [sumBy_eq_zero]; intro x hx
    cases x with
    | active wk m =>
      by_cases hmi : m.id = i
      · exfalso
        obtain ⟨l, hl⟩ := List.getElem?_of_mem hx
        have h2 := (quiet.own l).1
        rw [show wsL c.s.w.ws l = 1 by simp [wsL, wsActive, hl]] at h2
        obtain ⟨o, ho, hpos⟩ := (sumBy_pos _).mp (by omega : 0 < sumBy (oWs l) c.s.w.objs)
        obtain ⟨g, hg⟩ := List.getElem?_of_mem ho
        cases o <;> simp [oWs] at hpos
        rename_i md mid st
        cases st <;> simp only [sWs, is1, Nat.lt_irrefl] at hpos
        have hpos := pos1 hpos
        subst hpos
        have hid := (wsId_reachable hr).obj hg hl
        have hkg := (k.kw.objs _ _ hg).1
        have hu := k.uniq _ _ _ _ _ _ hkg hm
        have hmd : md ≠ .bcast := by
          rintro rfl
          have := hu.2 (by rw [← hid]; exact hmi)
          simp [Mode.isB] at this
        obtain ⟨cp, e1, e2⟩ := C08_parked_only_when_full hr hmd ⟨_, wk, by rw [hid]; exact hg, hl⟩
        rw [huq] at e2
        simp at e2; subst e2
        exact hcap e1
      · simp [wsW, mid1, hmi]
    | _ => rfl
  have hcells : sumBy (cellW i) c.s.w.cells = 0 := by
    rw [sumBy_eq_zero]; intro x hx
    obtain ⟨l, hl⟩ := List.getElem?_of_mem hx
    cases x with
    | full kk wk =>
      exfalso
      obtain ⟨r, b, hb⟩ := quiet.owner (c := l) (by simp [cellLive, hl])
      rcases sleep r _ hb trivial with ⟨_, cc, x, e1, e2⟩ | ⟨_, _, _, _, _, _, e1⟩
      · simp at e1; obtain ⟨rfl, rfl⟩ := e1
        rw [hl] at e2; simp at e2
      · simp at e1
    | _ => rfl
  rw [hws, hcells] at h1
  by_cases ho : sumBy (oAll i) c.s.w.objs = 0
  · rw [ho] at h1
    obtain ⟨e, he, hpos⟩ := (sumBy_pos _).mp (by omega : 0 < sumBy (eAll i) c.s.w.log)
    cases e <;> simp only [eAll, n1, mid1, Nat.lt_irrefl] at hpos <;> have hpos := pos1 hpos <;> subst hpos
    · rename_i m ts
      exfalso
      have h2 := k.evs _ he
      simp only [okE, bcMsg] at h2
      rcases h2 with ⟨⟨g, h3⟩, -⟩ | ⟨-, h3⟩
      · have := (k.uniq _ _ _ _ _ _ h3 hm).2 rfl; simp at this
      · exact h3 _ _ hm
    · exact .inr (.inl ⟨senderDropped_gone hr hrcv f _ false hm (.inl he), he⟩)
    · exact .inr (.inr (.inr (.inl he)))
    · exact .inr (.inr (.inr (.inr (.inl he))))
    · right; right; left
      rcases resp_cases hr hm with ⟨wk', a1, a2, a3⟩ | ⟨v, wk', a1, a2⟩ | ⟨wk', a1, a2⟩
      · exact absurd he (a3 _)
      · exact ⟨v, wk', a2, a1⟩
      · exact absurd a2 (fin_excl hr he).1
  · obtain ⟨o, ho, hpos⟩ := (sumBy_pos _).mp (by omega : 0 < sumBy (oAll i) c.s.w.objs)
    obtain ⟨g, hg⟩ := List.getElem?_of_mem ho
    cases o <;> simp [oAll] at hpos
    · rename_i md mid st
      cases st <;> simp only [sNewW, mid1, Nat.lt_irrefl] at hpos
      rename_i m rc
      have hpos := pos1 hpos
      have hkg := k.kw.objs _ _ hg
      have hmid : mid = i := by
        have := hkg.2
        simp [okS] at this
        rw [← this.1]; exact hpos
      subst hmid
      have : g = f := (k.uniq _ _ _ _ _ _ hkg.1 hm).1.mpr rfl
      subst this
      exact .inl ⟨md, m, rc, hg⟩
    · rcases sleep g _ hg trivial with ⟨_, _, _, e1, -⟩ | ⟨_, _, _, _, _, _, e1⟩ <;> simp at e1
    · rcases sleep g _ hg trivial with ⟨_, _, _, e1, -⟩ | ⟨T, hT, am, b, run, hp, e1⟩
      · simp at e1
      · simp at e1
        obtain ⟨-, e, -⟩ := e1
        rw [e] at hpos
        cases am <;> simp only [amW, mid1, Nat.lt_irrefl] at hpos
        exact .inr (.inr (.inr (.inr (.inr ⟨T, hT, g, _, hp, pos1 hpos⟩))))

theorem TInv.curObj {cap : Option Nat} {s : Sys} {T : Task} (hr : Reachable cap s) (h : TInv s T) {r : Nat} (hc : T.ph.cur = some r) :
    ∃ o, s.w.objs[r]? = some o ∧ o ≠ .gone ∧ ∀ b, o ≠ .mailbox b := by
  have hp := h.ph
  generalize T.ph = p at hp hc
  cases p <;> simp [APh.cur] at hc <;> subst hc
  · obtain ⟨st, ho⟩ := hp; exact ⟨_, ho, by simp, by simp⟩
  · obtain ⟨x, hx, hh⟩ := hp
    rcases hh with ⟨wk, rfl⟩ | ⟨_, wk, rfl⟩ | ⟨_, wk, rfl⟩ | ⟨rfl, hh⟩
    · have := wf_reachable hr hx; exact ⟨_, this, by simp, by simp⟩
    · have := wf_reachable hr hx; exact ⟨_, this.1, by simp, by simp⟩
    · have := wf_reachable hr hx; exact ⟨_, this.1, by simp, by simp⟩
    · rcases hh with ⟨_, h1⟩ | ⟨am, h1, -⟩
      · exact ⟨_, h1, by simp, by simp⟩
      · exact ⟨_, h1, by simp, by simp⟩
  · exact ⟨_, hp.1, by simp, by simp⟩
  · obtain ⟨⟨x, ho⟩, -⟩ := hp; exact ⟨_, ho, by simp, by simp⟩

/-- Whom a `select` covers is who gave it the mailbox. -/
theorem covers_giver {cap : Option Nat} {closed : Bool} {c : PCfg} (h : PRun cap closed c) {k k' : Nat} {T T' U : Task} (hk : c.ts[k]? = some T)
    (hc : U.covers T = true) (h5 : c.ts[k']? = some T') (h6 : T'.given = some U.i) : k = k' := by
  have pi := pInv_run h
  simp only [Task.covers, Bool.and_eq_true, Bool.or_eq_true, bne_iff_ne, beq_iff_eq, ne_eq] at hc
  obtain ⟨⟨h1, h2⟩, h3⟩ := hc
  obtain ⟨ok, ti⟩ := pi.all k T hk
  obtain ⟨ok', ti'⟩ := pi.all k' T' h5
  apply Classical.byContradiction
  intro hn
  unfold Task.given at h6
  unfold TaskOk at ok ok'
  cases hp' : T'.ph <;> rw [hp'] at h6 ok' <;> simp at h6
  · have hb' := ti'.box ok'.2.2.2 (by rw [hp']; rfl)
    rcases h3 with h3 | ⟨hp, h3⟩
    · obtain ⟨o, ho, -, hm⟩ := ti.curObj h.reachable h3
      rw [← h6, hb'] at ho; simp at ho; exact hm _ ho.symm
    · rw [hp] at ok
      exact pi.ids k k' T T' hk h5 hn ok.2.2.2 ok'.2.2.2 (by rw [h3, h6])
  · rcases h3 with h3 | ⟨hp, h3⟩
    · exact pi.disj k k' T T' hk h5 hn _ (ti.curMem h3) (ti'.curMem (by rw [hp', ← h6]; rfl))
    · rw [hp] at ok
      have hb := ti.box ok.2.2.2 (by rw [hp]; rfl)
      obtain ⟨o, ho, -, hm⟩ := ti'.curObj h.reachable (r := U.i) (by rw [hp', ← h6]; rfl)
      rw [← h3, hb] at ho; simp at ho; exact hm _ ho.symm

/-- A `select` is called after its caller has started. -/
theorem covers_lt {cap : Option Nat} {closed : Bool} {c : PCfg} (h : PRun cap closed c) {k l : Nat} {T U : Task} (hk : c.ts[k]? = some T)
    (hl : c.ts[l]? = some U) (hc : U.covers T = true) : k < l ∧ T.given = some U.i ∧ T.b = U.b := by
  have hc' := hc
  simp only [Task.covers, Bool.and_eq_true, Bool.or_eq_true, bne_iff_ne, beq_iff_eq, ne_eq] at hc'
  obtain ⟨⟨h1, h2⟩, h3⟩ := hc'
  obtain ⟨k', T', h4, h5, h6, h7⟩ := (pInv_run h).par l U hl h1 h2
  have key := covers_giver h hk hc h5 h6
  subst key
  rw [hk] at h5; simp at h5; subst h5
  exact ⟨h4, h6, h7⟩

theorem not_onTop {c : PCfg} {T : Task} (ht : ¬ c.onTop T) : ∃ (l : Nat) (U : Task), c.ts[l]? = some U ∧ U.covers T = true := by
  apply Classical.byContradiction
  intro h'
  refine ht fun U hU => ?_
  cases e : U.covers T with
  | false => rfl
  | true => obtain ⟨l, hl⟩ := List.getElem?_of_mem hU; exact absurd ⟨l, U, hl, e⟩ h'

/-- Whatever goes on goes on at the innermost `select`. -/
theorem exists_top {cap : Option Nat} {closed : Bool} {c : PCfg} (h : PRun cap closed c) : ∀ (n k : Nat) {T : Task}, c.ts.length ≤ k + n →
    c.ts[k]? = some T → T.ph ≠ .done → ∃ (l : Nat) (U : Task), c.ts[l]? = some U ∧ U.ph ≠ .done ∧ c.onTop U ∧ U.b = T.b ∧ (l = k ∨ U.lvl ≠ .run) := by
  intro n
  induction n with
  | zero =>
    intro k T hn hk _
    have := (List.getElem?_eq_some_iff.mp hk).1
    omega
  | succ n ih =>
    intro k T hn hk hd
    by_cases ht : c.onTop T
    · exact ⟨k, T, hk, hd, ht, rfl, .inl rfl⟩
    · obtain ⟨l, U, hl, hc⟩ := not_onTop ht
      obtain ⟨hlt, -, hb⟩ := covers_lt h hk hl hc
      simp only [Task.covers, Bool.and_eq_true, Bool.or_eq_true, bne_iff_ne, beq_iff_eq, ne_eq] at hc
      obtain ⟨l', V, h1, h2, h3, hb', h4⟩ := ih l (by omega) hl hc.1.2
      refine ⟨l', V, h1, h2, h3, hb'.trans hb.symm, .inr ?_⟩
      rcases h4 with rfl | h4
      · rw [hl] at h1; simp at h1; subst h1; exact hc.1.1
      · exact h4

theorem given_inUser {T : Task} {i : Nat} (h : T.given = some i) : T.ph.inUser = true := by
  unfold Task.given at h
  split at h <;> simp_all [APh.inUser]

/-- In a settled configuration whoever has not returned sleeps, or awaits somebody who sleeps in a `yield_once`. -/
theorem PCfg.settled.top {cap : Option Nat} {closed : Bool} {c : PCfg} (h : PRun cap closed c) (hq : c.settled) {T : Task} (hT : T ∈ c.ts)
    (hd : T.ph ≠ .done) : (T.asleep c.s.w ∧ T.lvl ≠ .sel) ∨ (T.ph.inUser = true ∧ ∃ U ∈ c.ts, U.lvl = .once ∧ U.b = T.b ∧ U.asleep c.s.w) := by
  rcases hq.2 T hT with h1 | h1 | ⟨V, hV, hc⟩
  · exact absurd h1 hd
  · exact .inl h1
  right
  obtain ⟨k, hk⟩ := List.getElem?_of_mem hT
  obtain ⟨m, hm⟩ := List.getElem?_of_mem hV
  refine ⟨given_inUser (covers_lt h hk hm hc).2.1, ?_⟩
  obtain ⟨l, U, hl, hd', hot, hb, hx⟩ := exists_top h c.ts.length k (by omega) hk hd
  have hU := List.mem_of_getElem? hl
  rcases hq.2 U hU with h2 | ⟨h2, h3⟩ | ⟨W, hW, hc'⟩
  · exact absurd h2 hd'
  · refine ⟨U, hU, ?_, hb, h2⟩
    have hr : U.lvl ≠ .run := by
      rcases hx with rfl | hx
      · rw [hk] at hl; simp at hl; subst hl
        have := hot V hV
        rw [hc] at this; simp at this
      · exact hx
    obtain ⟨r, hp, -⟩ := h2
    have ok := ((pInv_run h).all l U hl).1
    unfold TaskOk at ok; rw [hp] at ok
    rcases ok.2.2.2 with h4 | h4 | h4
    · exact absurd h4 hr
    · exact absurd h4 h3
    · exact h4
  · have := hot W hW
    rw [hc'] at this; simp at this

theorem PCfg.settled.calm {cap : Option Nat} {closed : Bool} {c : PCfg} (h : PRun cap closed c) (hq : c.settled) : c.calm :=
  ⟨hq.1, fun T hT => by
    by_cases hd : T.ph = .done
    · exact .inl hd
    · rcases hq.top h hT hd with h1 | h1
      · exact .inr (.inl h1.1)
      · exact .inr (.inr h1.1)⟩

theorem PCfg.settled.handles {cap : Option Nat} {closed : Bool} {c : PCfg} (h : PRun cap closed c) (hq : c.settled) {i : Nat} (hi : c.handles i) :
    c.yields i := by
  obtain ⟨T, hT, r, m, hp, he⟩ := hi
  rcases hq.top h hT (by simp [hp]) with ⟨⟨_, h1, -⟩, -⟩ | ⟨-, h1⟩
  · rw [hp] at h1; simp at h1
  · exact ⟨T, hT, ⟨r, m, hp, he⟩, h1⟩

/-- At rest no `select` is going on: its caller would not be at rest. -/
theorem rest_run {cap : Option Nat} {closed : Bool} {c : PCfg} (h : PRun cap closed c) (hq : c.atRest) {T : Task} (hT : T ∈ c.ts)
    (hd : T.ph ≠ .done) : T.lvl = .run := by
  apply Classical.byContradiction
  intro hn
  obtain ⟨l, hl⟩ := List.getElem?_of_mem hT
  obtain ⟨k, U, -, hk, hg, -⟩ := (pInv_run h).par l T hl hn hd
  unfold Task.given at hg
  rcases hq.2 U (List.mem_of_getElem? hk) with e | ⟨r, e, -⟩ <;> rw [e] at hg <;> simp at hg

theorem PCfg.atRest.settled {cap : Option Nat} {closed : Bool} {c : PCfg} (hq : c.atRest) (h : PRun cap closed c) : c.settled :=
  ⟨hq.1, fun T hT => by
    by_cases hd : T.ph = .done
    · exact .inl hd
    · exact .inr (.inl ⟨(hq.2 T hT).resolve_left hd, by simp [rest_run h hq hT hd]⟩)⟩

/-- Without `yield_once` there is no difference. -/
theorem PCfg.settled.atRest {cap : Option Nat} {closed : Bool} {c : PCfg} (hq : c.settled) (h : PRun cap closed c)
    (hn : ∀ T ∈ c.ts, T.lvl ≠ .once) : c.atRest :=
  ⟨hq.1, fun T hT => by
    by_cases hd : T.ph = .done
    · exact .inl hd
    · rcases hq.top h hT hd with h1 | ⟨-, U, hU, h1, -⟩
      · exact .inr h1.1
      · exact absurd h1 (hn U hU)⟩

/-- Somebody still runs, so somebody sleeps. -/
theorem PCfg.settled.sleeper {cap : Option Nat} {closed : Bool} {c : PCfg} (h : PRun cap closed c) (hq : c.settled) {T : Task} (hT : T ∈ c.ts)
    (hd : T.ph ≠ .done) : ∃ U ∈ c.ts, U.b = T.b ∧ U.asleep c.s.w := by
  rcases hq.top h hT hd with h1 | ⟨-, U, h1, -, h2⟩
  · exact ⟨T, hT, rfl, h1.1⟩
  · exact ⟨U, h1, h2⟩

/-- What has become of every request when everything has settled and an actor sleeps. -/
theorem at_rest_gen {cap : Option Nat} {c : PCfg} (h : PRun cap true c) (hcap : cap ≠ some 0) (hq : c.settled)
    (hz : ∃ T ∈ c.ts, T.asleep c.s.w) :
    (∀ f i, .made f i false ∈ c.s.w.log →
      (∃ md m rc, c.s.w.objs[f]? = some (.send md i (.new m rc))) ∨ (c.s.w.objs[f]? = some .gone ∧ .dropped i ∈ c.s.w.log) ∨
      (∃ v wk, .handled i v ∈ c.s.w.log ∧ c.s.w.resp[i]? = some (.value v wk)) ∨ .lost i ∈ c.s.w.log ∨ .discarded i ∈ c.s.w.log ∨ c.yields i) ∧
    c.s.w.rcv ≠ 0 ∧ c.s.w.sc ≠ 0 ∧ (∀ T ∈ c.ts, T.asleep c.s.w → c.s.w.items T.b = []) := by
  obtain ⟨h1, h2⟩ := calm_gen h hcap (hq.calm h) hz
  refine ⟨fun f i hm => ?_, h2⟩
  rcases h1 f i hm with h3 | h3 | h3 | h3 | h3 | h3
  · exact .inl h3
  · exact .inr (.inl h3)
  · exact .inr (.inr (.inl h3))
  · exact .inr (.inr (.inr (.inl h3)))
  · exact .inr (.inr (.inr (.inr (.inl h3))))
  · exact .inr (.inr (.inr (.inr (.inr (hq.handles h h3)))))

/-- **C48.** The pool serves everything. Let messages be received by the tasks only, and let no task have been dropped and no `select`
have given up a receive future. When everything
has come to rest and at least one actor still sleeps in `next().await`, every request ever made has been handled, its value sent to the
requester, except the requests whose send future has not been polled yet or was dropped by its owner before the message was taken, and
those whose handler itself waits for a further message in `yield_once`; no
send failed; no broadcast is left in a mailbox of the pool. -/
theorem C48_at_rest {cap : Option Nat} {c : PCfg} (h : PRun cap true c) (hcap : cap ≠ some 0) (ha : ∀ T ∈ c.ts, T.cut = false)
    (hq : c.settled) (hz : ∃ T ∈ c.ts, T.asleep c.s.w) :
    (∀ f i, .made f i false ∈ c.s.w.log →
      (∃ md m rc, c.s.w.objs[f]? = some (.send md i (.new m rc))) ∨ (c.s.w.objs[f]? = some .gone ∧ .dropped i ∈ c.s.w.log) ∨
      (∃ v wk, .handled i v ∈ c.s.w.log ∧ c.s.w.resp[i]? = some (.value v wk)) ∨ c.yields i) ∧
    (∀ f i, Ev.sendErr f i ∉ c.s.w.log) ∧ (∀ f i, Ev.replyInt f i ∉ c.s.w.log) ∧
    (∀ T ∈ c.ts, T.asleep c.s.w → c.s.w.items T.b = []) := by
  have hr := h.reachable
  have kp := kept_run h ha
  obtain ⟨h1, hrcv, hsc, h2⟩ := at_rest_gen h hcap hq hz
  have nf := C48_no_request_fails h ha hrcv
  refine ⟨fun f i hm => ?_, fun f i he => hsc (nf.2 f i he), nf.1, h2⟩
  rcases h1 f i hm with h3 | h3 | h3 | h3 | h3 | h3
  · exact .inl h3
  · exact .inr (.inl h3)
  · exact .inr (.inr (.inl h3))
  · exact absurd h3 (kp.lost i)
  · exact absurd h3 (kp.disc i)
  · exact .inr (.inr (.inr h3))

def Task.asleepD (T : Task) (w : World) : Bool :=
  match T.ph with
  | .waiting r => match w.objs[r]? with
    | some (.recv b (.waiting c)) => b == T.b && match w.cells[c]? with
      | some (.empty _) => true
      | _ => false
    | _ => false
  | _ => false

theorem asleepD_sound {T : Task} {w : World} (h : T.asleepD w = true) : T.asleep w := by
  unfold Task.asleepD at h
  split at h
  · rename_i r hp
    split at h
    · rename_i b c ho
      simp at h
      obtain ⟨rfl, h⟩ := h
      split at h
      · rename_i wk hc
        exact ⟨r, hp, c, wk, ho, hc⟩
      · simp at h
    · simp at h
  · simp at h

theorem atRest_dec {c : PCfg} (h1 : c.s.th.all (·.isEmpty) = true) (h2 : c.ts.all (fun T => T.ph == .done || T.asleepD c.s.w) = true) : c.atRest := by
  refine ⟨fun x hx => ?_, fun T hT => ?_⟩
  · have := List.all_eq_true.mp h1 x hx
    simpa using this
  · have := List.all_eq_true.mp h2 T hT
    simp at this
    rcases this with h | h
    · exact .inl h
    · exact .inr (asleepD_sound h)

theorem settled_dec {c : PCfg} (h1 : c.s.th.all (·.isEmpty) = true)
    (h2 : c.ts.all (fun T => T.ph == .done || (T.asleepD c.s.w && T.lvl != .sel) || c.ts.any (·.covers T)) = true) : c.settled := by
  refine ⟨fun x hx => ?_, fun T hT => ?_⟩
  · have := List.all_eq_true.mp h1 x hx
    simpa using this
  · have := List.all_eq_true.mp h2 T hT
    simp at this
    rcases this with (h | ⟨h, h'⟩) | h
    · exact .inl h
    · exact .inr (.inl ⟨asleepD_sound h, h'⟩)
    · exact .inr (.inr h)

end Xtra
