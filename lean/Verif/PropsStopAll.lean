import Verif.StopAll
/-! # C57: `stop_all` stops every actor, after the message in hand -/

set_option linter.unusedSimpArgs false

namespace Xtra

/-! ## The notice is not lost -/

/-- The notice `n` is in mailbox `b`, or was received there, or the mailbox is gone. -/
def Noticed (b : Nat) (n : Msg) (s : Sys) : Prop :=
  b < s.w.bq.length ∧ (n ∈ s.w.items b ∨ (∃ r, Ev.recv r b (.all n) ∈ s.w.log) ∨ s.w.alive b = false)

theorem dead_step {cap : Option Nat} {s s' : Sys} {a : Act} (h : Reachable cap s) (hs : s.step a = some s') {b : Nat} (hb : b < s.w.bq.length)
    (h0 : s.w.alive b = false) : s'.w.alive b = false := by
  cases hx : s'.w.alive b with
  | false => rfl
  | true => rw [(step_dead h hs).2 b hx hb] at h0; simp at h0

theorem Noticed.step {cap : Option Nat} {s s' : Sys} {a : Act} {b : Nat} {n : Msg} (h : Reachable cap s) (hq : Noticed b n s)
    (hs : s.step a = some s') : Noticed b n s' := by
  refine ⟨Nat.lt_of_lt_of_le hq.1 (step_dead h hs).1, ?_⟩
  rcases hq.2 with h1 | ⟨r, h1⟩ | h1
  · cases ha : s'.w.alive b with
    | false => exact .inr (.inr rfl)
    | true =>
      rcases step_rel hs with ⟨c, w', ms, rfl, hc, rfl⟩ | ⟨t, mc, rest, w', ms, rfl, ht, he, rfl⟩
      · left
        rw [show (Sys.mk w' (s.th ++ [ms])).w.items b = s.w.items b from (callR_bqs hc).2.2 b]; exact h1
      · rcases execR_items_mem he (regWs_reachable h) (bqsOk_reachable h) h1 ha with h3 | ⟨r, h3⟩
        · exact .inl h3
        · exact .inr (.inl ⟨r, List.mem_of_mem_head? (by simp only; rw [h3]; simp)⟩)
  · exact .inr (.inl ⟨r, (step_suffix h hs).subset h1⟩)
  · exact .inr (.inr (dead_step h hs hq.1 h1))

theorem noticed_steps {cap : Option Nat} {closed : Bool} {c c' : PCfg} {b : Nat} {n : Msg} (hs : PSteps closed c c') :
    PRun cap closed c → Noticed b n c.s → Noticed b n c'.s := by
  induction hs with
  | refl => exact fun _ => id
  | @step c c1 c' h1 _ ih =>
    intro h hq
    refine ih (.step h h1) ?_
    rcases h1.chan h with e | ⟨a, hs⟩
    · rw [e]; exact hq
    · exact hq.step h.reachable hs

theorem Noticed.of_mem {s : Sys} {b : Nat} {n : Msg} (hn : n ∈ s.w.items b) : Noticed b n s := by
  refine ⟨?_, .inl hn⟩
  obtain ⟨q, h1⟩ := items_ne (w := s.w) (b := b) (by intro e; rw [e] at hn; simp at hn)
  exact (List.getElem?_eq_some_iff.mp h1).1

theorem TStep.grow {s s' : Sys} {T T' : Task} (ht : TStep s T s' T') : (∃ l, T'.hist = l ++ T.hist) ∧ ∃ l, T'.futs = l ++ T.futs := by
  constructor <;> cases ht <;> first | exact ⟨[], rfl⟩ | exact ⟨[_], rfl⟩

/-- A task after any number of steps. -/
theorem PSteps.task_at {closed : Bool} {c c' : PCfg} (hs : PSteps closed c c') {k : Nat} : ∀ {T : Task}, c.ts[k]? = some T →
    ∃ T', c'.ts[k]? = some T' ∧ T'.i = T.i ∧ T'.b = T.b ∧ (T'.lvl = .run ↔ T.lvl = .run) ∧ (∃ l, T'.hist = l ++ T.hist) ∧
      (∃ l, T'.futs = l ++ T.futs) := by
  induction hs with
  | refl => exact fun {T} hT => ⟨T, hT, rfl, rfl, .rfl, ⟨[], rfl⟩, ⟨[], rfl⟩⟩
  | @step c c1 c' h1 _ ih =>
    intro T hT
    obtain ⟨T1, hT1, e⟩ := h1.task_at hT
    obtain ⟨T', hT', h1, h2, h3, ⟨l, h4⟩, l', h5⟩ := ih hT1
    have : T1.i = T.i ∧ T1.b = T.b ∧ (T1.lvl = .run ↔ T.lvl = .run) ∧ (∃ l, T1.hist = l ++ T.hist) ∧ ∃ l, T1.futs = l ++ T.futs := by
      rcases e with rfl | e
      · exact ⟨rfl, rfl, .rfl, ⟨[], rfl⟩, ⟨[], rfl⟩⟩
      · exact ⟨e.ids.1, e.ids.2, e.lvl_run, e.grow.1, e.grow.2⟩
    obtain ⟨e1, e2, e3, ⟨m, e4⟩, m', e5⟩ := this
    exact ⟨T', hT', h1.trans e1, h2.trans e2, h3.trans e3, ⟨l ++ m, by rw [h4, e4]; simp⟩, ⟨l' ++ m', by rw [h5, e5]; simp⟩⟩

/-- **C57.** A `stop_all` notice stops the actor. Once a notice is in its mailbox, then, however things go on, when everything has come to
rest `run` has returned; or a `select` or `yield_once` called by user code of this actor consumed the notice (and ended because of it:
finding 7; `yield_once` at least says so to its caller). No task was dropped. -/
theorem C57_stops {cap : Option Nat} {c c' : PCfg} (h : PRun cap true c) {k : Nat} {T : Task} (hT : c.ts[k]? = some T) (hl : T.lvl = .run)
    {n : Msg} (hn : n ∈ c.s.w.items T.b) (hp : n.prio = .shutdown) (hs : PSteps true c c') (hq : c'.settled)
    (ha : ∀ U ∈ c'.ts, U.aborted = false) :
    ∃ T', c'.ts[k]? = some T' ∧ (T'.ph = .done ∨ ∃ U ∈ c'.ts, U.lvl ≠ .run ∧ U.b = T.b ∧ ∃ r, (r, .all n, true) ∈ U.hist) := by
  obtain ⟨T', hT', -, hb, hl', -⟩ := hs.task_at hT
  refine ⟨T', hT', ?_⟩
  have hr' := hs.run h
  have quiet : Quiet cap c'.s.w := ⟨c'.s.th, hr'.reachable, hq.1⟩
  have hm := List.mem_of_getElem? hT'
  by_cases hdone : T'.ph = .done
  · exact .inl hdone
  right
  have ok := ((pInv_run hr').all k T' hT').1
  have conts : Conts T'.hist := by
    unfold TaskOk at ok
    rcases hq.2 T' hm with e | ⟨⟨r, e, -⟩, -⟩ | ⟨V, hV, hc⟩
    · exact absurd e hdone
    · rw [e] at ok; exact ok.2.1
    · obtain ⟨l, hl2⟩ := List.getElem?_of_mem hV
      have hg := (covers_lt hr' hT' hl2 hc).2.1
      unfold Task.given at hg
      split at hg
      · rename_i e; rw [e] at ok; rw [ok.2.1]; intro e h; simp at h
      · rename_i e; rw [e] at ok; exact ok.2.1
      · simp at hg
  obtain ⟨W, -, hW, r, e, cc, x, h2, h3⟩ := hq.sleeper hr' hm hdone
  rw [hW] at h2
  have live : c'.s.w.alive T'.b = true := mailboxLive_alive hr'.reachable ⟨_, List.mem_of_getElem? h2, by simp [Obj.holdsMailbox]⟩
  rcases (noticed_steps hs h (.of_mem hn)).2 with h1 | ⟨r', h1⟩ | h1
  · rw [← hb, (quiet.waiting h2 h3).2.2.1] at h1; simp at h1
  · rcases received_handled hr' ha hq h1 with ⟨U, hU, e1, v, brk, h4, -⟩ | ⟨U, hU, -, h4, -⟩
    rotate_left
    · obtain ⟨l, hl2⟩ := List.getElem?_of_mem hU
      have hp2 := ((pInv_run hr').all l U hl2).2.ph
      rw [h4] at hp2
      have := hp2.2.2
      simp [AMsg.isStop, hp] at this
    obtain ⟨l, hl2⟩ := List.getElem?_of_mem hU
    have hx := ((pInv_run hr').all l U hl2).2.hist _ _ _ h4
    have hbrk : brk = true := hx.2.2.1 (by simp [AMsg.isStop, hp])
    subst hbrk
    by_cases hlu : U.lvl = .run
    · exfalso
      have := (boxInv_run hr').inj l k U T' hl2 hT' hlu (hl'.mpr hl) (e1.trans hb.symm)
      subst this
      rw [hT'] at hl2; simp at hl2; subst hl2
      have := conts _ h4
      simp at this
    · exact ⟨U, hU, hlu, e1, r', h4⟩
  · rw [hb, h1] at live; simp at live

theorem gone_steps {cap : Option Nat} {closed : Bool} {c c' : PCfg} {i : Nat} (hs : PSteps closed c c') :
    PRun cap closed c → c.s.w.objs[i]? = some .gone → c'.s.w.objs[i]? = some .gone := by
  induction hs with
  | refl => exact fun _ => id
  | @step c c1 c' h1 _ ih =>
    intro h hq
    refine ih (.step h h1) ?_
    rcases h1.chan h with e | ⟨a, hs⟩
    · rw [e]; exact hq
    · exact obj_gone h.reachable hs hq

/-- **C57.** `stop_all` stops everybody: whoever executes its critical section, in any interleaving, every `run` that was going on at that
moment has returned when everything has come to rest, except where a `select` or `yield_once` called by the actor's user code consumed the
notice (finding 7). No task was dropped. -/
theorem C57_stop_all {cap : Option Nat} {c c1 c' : PCfg} (h : PRun cap true c) {t : Nat} {rest : List Micro}
    (ht : c.s.th[t]? = some (.bcastShutdown :: rest)) (h1 : c.s.step (.exec t) = some c1.s) (hts : c1.ts = c.ts) (hs : PSteps true c1 c')
    (hq : c'.settled) (ha : ∀ U ∈ c'.ts, U.aborted = false) :
    ∃ n : Msg, n.prio = .shutdown ∧ ∀ (k : Nat) (T : Task), c.ts[k]? = some T → T.lvl = .run →
      ∃ T', c'.ts[k]? = some T' ∧ (T'.ph = .done ∨ ∃ U ∈ c'.ts, U.lvl ≠ .run ∧ U.b = T.b ∧ ∃ r, (r, .all n, true) ∈ U.hist) := by
  have hst : PStep true c c1 := by
    have := PStep.other (closed := true) (c := c) (a := .exec t) (fun T _ => rfl) (fun _ i => by simp) h1
    rw [show ({ c with s := c1.s } : PCfg) = c1 by rw [← hts]] at this
    exact this
  have hr1 := PRun.step h hst
  obtain ⟨n, hp, -, -, hn⟩ := C16_notice_everywhere h.reachable ht h1
  refine ⟨n, hp, fun k T hT hl => ?_⟩
  have ti := ((pInv_run h).all k T hT).2
  cases hb : T.ph.hasBox with
  | true =>
    have hn := (hn T.b ⟨_, List.mem_of_getElem? (ti.box hl hb), by simp [Obj.holdsMailbox]⟩).1
    exact C57_stops hr1 (by rw [hts]; exact hT) hl hn hp hs hq ha
  | false =>
    have hg := gone_steps hs hr1 (obj_gone h.reachable h1 (ti.gone hl hb))
    obtain ⟨T', hT', hi, -, hl', -⟩ := hs.task_at (k := k) (by rw [hts]; exact hT)
    refine ⟨T', hT', .inl ?_⟩
    cases hb' : T'.ph.hasBox with
    | true =>
      have := ((pInv_run (hs.run hr1)).all k T' hT').2.box (hl'.mpr hl) hb'
      rw [hi, hg] at this; simp at this
    | false =>
      apply Classical.byContradiction
      intro hd
      rcases hq.top (hs.run hr1) (List.mem_of_getElem? hT') hd with ⟨⟨r, e, -⟩, -⟩ | ⟨e, -⟩
      · rw [e] at hb'; simp [APh.hasBox] at hb'
      · cases e2 : T'.ph <;> rw [e2] at hb' e <;> simp [APh.hasBox, APh.inUser] at hb' e

/-! ## At most one more message -/

/-- What has been received from mailbox `b` since, given that a notice was there: nothing but notices, except by the receive future `r0`. -/
structure Stopped (L : List Ev) (b : Nat) (r0 : Option Nat) (n : Msg) (c : PCfg) : Prop where
  lt : b < c.s.w.bq.length
  rcv : ∀ r am, Ev.recv r b am ∈ c.s.w.log → Ev.recv r b am ∈ L ∨ am.isStop = true ∨ r0 = some r
  st : (n ∈ c.s.w.items b ∧ ∀ r x, c.s.waitsOn r b x → r0 = some r) ∨ (∃ r am, Ev.recv r b am ∈ c.s.w.log ∧ am.isStop = true) ∨
    c.s.w.alive b = false

/-- An actor that received a notice receives nothing any more. -/
theorem stopped_no_more {cap : Option Nat} {c c' : PCfg} {b : Nat} (h : PRun cap true c) (hst : PStep true c c') (hns : c'.noSelect b)
    {r r' : Nat} {am am' : AMsg} (h1 : Ev.recv r b am ∈ c.s.w.log) (ha : am.isStop = true) (h2 : Ev.recv r' b am' ∈ c'.s.w.log) :
    Ev.recv r' b am' ∈ c.s.w.log := by
  have hr' := PRun.step h hst
  rcases hst.chan h with e | ⟨a, hs⟩
  · exact e ▸ h2
  rcases step_recvEv h.reachable hs h2 with h3 | ⟨h3, h4⟩
  · exact h3
  exfalso
  have hne : r ≠ r' := by
    rintro rfl
    have := yielded_reachable h.reachable h1
    rw [h3] at this; simp [YieldedOk] at this
  obtain ⟨T1, hT1, hc⟩ := rxOwned hr' r' (.inl ⟨_, h4, trivial⟩)
  have b1 : T1.b = b := ((cur_box hr' hT1 hc).2.1 _ _ h4).symm
  have h1' : Ev.recv r b am ∈ c'.s.w.log := (step_suffix h.reachable hs).subset h1
  obtain ⟨T2, hT2, hf⟩ := received_by hr' h1'
  have b2 : T2.b = b := (futs_box hr' hT2 hf h1').symm
  obtain ⟨k1, hk1⟩ := List.getElem?_of_mem hT1
  obtain ⟨k2, hk2⟩ := List.getElem?_of_mem hT2
  have := (boxInv_run hr').inj k1 k2 T1 T2 hk1 hk2 (hns T1 hT1 b1) (hns T2 hT2 b2) (b1.trans b2.symm)
  subst this
  rw [hk1] at hk2; simp at hk2; subst hk2
  obtain ⟨ok, ti⟩ := (pInv_run hr').all k1 T1 hk1
  rcases ti.seen r hf (by rw [hc]; simp; exact fun e => hne e.symm) b am h1' with ⟨brk, h5⟩ | ⟨v, brk, t, h5⟩ | ⟨h5, h6⟩
  · have h6 := (ti.hist _ _ _ h5).2.2.1 ha
    subst h6
    unfold TaskOk at ok
    have : Conts T1.hist := by
      cases e : T1.ph <;> rw [e] at ok hc <;> simp [APh.cur] at hc <;> exact ok.2.1
    have := this _ h5
    simp at this
  · rw [h5] at hc; simp [APh.cur] at hc
  · unfold TaskOk at ok
    cases e : T1.ph <;> rw [e] at ok hc <;> simp [APh.cur] at hc <;> rw [ok.2.2.1] at h5 <;> simp at h5

theorem Stopped.step {cap : Option Nat} {c c' : PCfg} {L : List Ev} {b : Nat} {r0 : Option Nat} {n : Msg} (hp : n.prio = .shutdown)
    (h : PRun cap true c) (hst : PStep true c c') (hns : c'.noSelect b) (S : Stopped L b r0 n c) : Stopped L b r0 n c' := by
  have hr' := PRun.step h hst
  rcases hst.chan h with e | ⟨a, hs⟩
  · exact ⟨e ▸ S.lt, e ▸ S.rcv, e ▸ S.st⟩
  have hr := h.reachable
  have lt := Nat.lt_of_lt_of_le S.lt (step_dead hr hs).1
  rcases S.st with ⟨h1, h2⟩ | ⟨r1, am1, h1, h2⟩ | h1
  · have hne : c.s.w.items b ≠ [] := by intro e; rw [e] at h1; simp at h1
    refine ⟨lt, fun r am he => ?_, ?_⟩
    · by_cases ho : Ev.recv r b am ∈ c.s.w.log
      · exact S.rcv r am ho
      · rcases C16_next_is_notice hr hs h1 hp he ho with h3 | ⟨m, t, x, wk, rest, y, -, -, ht, -⟩
        · exact .inr (.inl h3)
        · exact .inr (.inr (h2 r x (.inr ⟨_, List.mem_of_getElem? ht, wk, by simp⟩)))
    · rcases (Noticed.step hr ⟨S.lt, .inl h1⟩ hs).2 with h3 | ⟨r, h3⟩ | h3
      · exact .inl ⟨h3, fun r x hw => h2 r x (waitsOn_back hr hs hne hw)⟩
      · exact .inr (.inl ⟨r, _, h3, by simp [AMsg.isStop, hp]⟩)
      · exact .inr (.inr h3)
  · refine ⟨lt, fun r am he => S.rcv r am (stopped_no_more h hst hns h1 h2 he), .inr (.inl ⟨r1, am1, (step_suffix hr hs).subset h1, h2⟩)⟩
  · have h2 := dead_step hr hs S.lt h1
    refine ⟨lt, fun r am he => ?_, .inr (.inr h2)⟩
    rcases step_recvEv hr hs he with h3 | ⟨-, h3⟩
    · exact S.rcv r am h3
    · have := mailboxLive_alive hr'.reachable ⟨_, List.mem_of_getElem? h3, by simp [Obj.holdsMailbox]; rfl⟩
      rw [h2] at this; simp at this

theorem Stopped.steps {cap : Option Nat} {c c' : PCfg} {L : List Ev} {b : Nat} {r0 : Option Nat} {n : Msg} (hp : n.prio = .shutdown)
    (hs : PSteps true c c') : PRun cap true c → c'.noSelect b → Stopped L b r0 n c → Stopped L b r0 n c' := by
  induction hs with
  | refl => exact fun _ _ => id
  | @step c c1 c' h1 h2 ih =>
    intro h hns S
    exact ih (.step h h1) hns (S.step hp h h1 (noSelect_steps h2 hns))

theorem nodup_filter_le {α β : Type _} [DecidableEq β] (f : α → β) (p : α → Bool) (x : β) : ∀ (l : List α), (l.map f).Nodup →
    (∀ e ∈ l, p e = true → f e = x) → (l.filter p).length ≤ 1 := by
  intro l
  induction l with
  | nil => simp
  | cons a l ih =>
    intro hn hx
    simp only [List.map_cons, List.nodup_cons] at hn
    by_cases hp : p a = true
    · have : l.filter p = [] := by
        rw [List.filter_eq_nil_iff]
        intro e he hpe
        exact hn.1 (List.mem_map.mpr ⟨e, he, by rw [hx e (by simp [he]) hpe, hx a (by simp) hp]⟩)
      simp [List.filter, hp, this]
    · simp only [List.filter, hp]
      exact ih hn.2 fun e he => hx e (by simp [he])

theorem histNodup {cap : Option Nat} {closed : Bool} {c : PCfg} (h : PRun cap closed c) {k : Nat} {T : Task} (hT : c.ts[k]? = some T) :
    (T.hist.map (·.1)).Nodup := by
  have ok := ((pInv_run h).all k T hT).1
  have nd := futs_nodup h (List.mem_of_getElem? hT)
  unfold TaskOk at ok
  cases e : T.ph <;> rw [e] at ok <;> simp only [TaskOkP] at ok
  case leaving =>
    rcases ok.2 with ⟨h1, -⟩ | ⟨r, h1, -⟩ <;> rw [h1] at nd
    · exact nd
    · exact (List.nodup_cons.mp nd).2
  case done =>
    rcases ok with ⟨h1, -⟩ | ⟨r, h1, -⟩ <;> rw [h1] at nd
    · exact nd
    · exact (List.nodup_cons.mp nd).2
  case starting => simp [ok.2.1]
  all_goals
    rw [ok.1] at nd
    first
    | exact nd
    | exact (List.nodup_cons.mp nd).2

/-- **C57.** Nothing but the message in hand is handled any more. Once a notice is in the mailbox of a running actor whose user code does
not call `select`, `join` or `yield_once`, it dispatches, in whatever is left of its life, notices and at most one other message: the one it is
handling, or that was already handed to the receive it is waiting on. Between two receives (or in `started`) there is none. -/
theorem C57_at_most_one_more {cap : Option Nat} {c c' : PCfg} (h : PRun cap true c) {k : Nat} {T : Task} (hT : c.ts[k]? = some T)
    (hl : T.lvl = .run) {n : Msg} (hn : n ∈ c.s.w.items T.b) (hp : n.prio = .shutdown) (hs : PSteps true c c') (hns : c'.noSelect T.b) :
    ∃ T' new, c'.ts[k]? = some T' ∧ T'.hist = new ++ T.hist ∧ (new.filter fun e => !e.2.1.isStop).length ≤ 1 ∧
      (T.ph = .idle ∨ T.ph = .starting → ∀ e ∈ new, e.2.1.isStop = true) := by
  obtain ⟨T', hT', -, hb, hl', ⟨new, hh⟩, -⟩ := hs.task_at hT
  refine ⟨T', new, hT', hh, ?_⟩
  have hr' := hs.run h
  have ns0 := noSelect_steps hs hns
  have uniq : ∀ {U : Task}, U ∈ c.ts → U.b = T.b → U = T := by
    intro U hU hb
    obtain ⟨l, hl2⟩ := List.getElem?_of_mem hU
    have := (boxInv_run h).inj l k U T hl2 hT (ns0 U hU hb) hl hb
    subst this
    rw [hT] at hl2; simp at hl2; exact hl2.symm
  have S0 : Stopped c.s.w.log T.b T.futs.head? n c := by
    refine ⟨(Noticed.of_mem hn).1, fun r am he => .inl he, .inl ⟨hn, fun r x hw => ?_⟩⟩
    obtain ⟨U, hU, e, hc⟩ := waitsOn_cur h hw
    have := uniq hU e; subst this
    exact ((pInv_run h).all k U hT).2.cur r hc
  have S := S0.steps hp hs h hns
  have nd := histNodup hr' hT'
  rw [hh, List.map_append, List.nodup_append] at nd
  have ti' := ((pInv_run hr').all k T' hT').2
  obtain ⟨ok, ti⟩ := (pInv_run h).all k T hT
  have key : ∀ e ∈ new, e.2.1.isStop = false → T.futs.head? = some e.1 := by
    rintro ⟨r, am, brk⟩ he hst
    have h1 := (ti'.hist r am brk (by rw [hh]; simp [he])).2.1
    rw [hb] at h1
    rcases S.rcv r am h1 with h2 | h2 | h2
    · obtain ⟨U, hU, hf⟩ := received_by h h2
      have := uniq hU (futs_box h hU hf h2).symm; subst this
      rcases C48_received_is_handled h hU hf h2 with h3 | ⟨-, h3⟩ | ⟨v, brk', h3, -⟩
      · cases e : U.ph <;> rw [e] at h3 <;> simp [APh.busyWith] at h3
        case polling => subst h3; exact ti.cur _ (by rw [e]; rfl)
        case got => obtain ⟨rfl, -⟩ := h3; exact ti.cur _ (by rw [e]; rfl)
        case handling => obtain ⟨rfl, -⟩ := h3; exact ti.cur _ (by rw [e]; rfl)
        case finishing =>
          obtain ⟨rfl, -⟩ := h3
          unfold TaskOk at ok; rw [e] at ok
          rw [ok.1]; rfl
      · exact h3
      · exfalso
        exact nd.2.2 r (List.mem_map.mpr ⟨_, he, rfl⟩) r (List.mem_map.mpr ⟨_, h3, rfl⟩) rfl
    · simp [h2] at hst
    · exact h2
  refine ⟨?_, fun hph e he => ?_⟩
  · cases hf : T.futs.head? with
    | none =>
      have : (new.filter fun e => !e.2.1.isStop) = [] := by
        rw [List.filter_eq_nil_iff]
        intro e he hpe
        have := key e he (by simpa using hpe)
        rw [hf] at this; simp at this
      simp [this]
    | some x =>
      refine nodup_filter_le (·.1) _ x new nd.1 fun e he hpe => ?_
      have := key e he (by simpa using hpe)
      rw [hf] at this; simp at this; exact this.symm
  · cases hst : e.2.1.isStop with
    | true => rfl
    | false =>
      exfalso
      have hk := key e he hst
      unfold TaskOk at ok
      rcases hph with e1 | e1 <;> rw [e1] at ok
      · rw [ok.1] at hk
        have := List.mem_of_mem_head? (by rw [hk]; rfl : e.1 ∈ (T.hist.map (·.1)).head?)
        exact nd.2.2 e.1 (List.mem_map.mpr ⟨e, he, rfl⟩) e.1 this rfl
      · rw [ok.1] at hk; simp at hk

/-! ## Concrete executions -/

/-- Two actors: one handles a request, the other is starting; a second request is queued. The handler calls `stop_all`. -/
def stopAllStart : List PAct :=
  [.other (.call (.cloneMailbox 1)), .other (.exec 0), .spawn 1, .spawn 2, .other (.call (.send 0)), .other (.call (.pollSend 3 6)),
   .other (.exec 2), .other (.exec 2), .other (.exec 2), .other (.exec 2), .other (.exec 2), .task 0 .started, .task 0 .next,
   .task 0 (.poll 5), .other (.exec 4), .task 0 .ready, .task 0 .dispatch, .other (.call (.send 0)), .other (.call (.pollSend 5 6)),
   .other (.exec 7), .other (.exec 7), .other (.exec 7), .other (.exec 7), .other (.exec 7), .other (.call (.stopAll 4))]
def stopAllSteps : List PAct :=
  [.other (.exec 8), .task 0 (.finish 7), .other (.exec 9), .other (.exec 9), .other (.exec 9), .task 0 .loop, .task 0 .next,
   .task 0 (.poll 5), .other (.exec 11), .task 0 .ready, .task 0 .notice, .other (.exec 12), .other (.exec 12), .task 0 .break,
   .task 0 .stopped, .other (.exec 13), .other (.exec 13), .task 0 .left, .task 1 .started, .task 1 .next, .task 1 (.poll 5),
   .other (.exec 15), .task 1 .ready, .task 1 .notice, .other (.exec 16), .other (.exec 16), .task 1 .break, .task 1 .stopped,
   .other (.exec 17), .other (.exec 17), .other (.exec 17), .task 1 .left]

/-- The hypotheses of `C57_stop_all`, `C57_stops` and `C57_at_most_one_more` are met; here both actors stop, one after having finished its
request, and the queued request is never handled. -/
example : ∃ c c1 c', PRun none true c ∧ c.s.th[8]? = some [.bcastShutdown, .dropTx .strong] ∧ c.s.step (.exec 8) = some c1.s ∧ c1.ts = c.ts ∧
    PSteps true c1 c' ∧ c'.settled ∧ (∀ U ∈ c'.ts, U.aborted = false) ∧ (∀ b, c'.noSelect b) ∧ c.ts.length = 2 ∧
    (∀ T ∈ c1.ts, T.lvl = .run ∧ ⟨2, .shutdown⟩ ∈ c1.s.w.items T.b) ∧ (∀ T ∈ c'.ts, T.ph = .done) ∧
    ⟨1, .valued 0⟩ ∈ c1.s.w.uq ∧ .dropped 1 ∈ c'.s.w.log ∧ .handled 0 7 ∈ c'.s.w.log := by
  refine ⟨_, ⟨_, _⟩, _, PRun.run .new (as := stopAllStart) rfl, rfl, rfl, rfl, psteps_of_run stopAllSteps rfl, settled_dec (by decide) (by decide), by decide, ?_, rfl, by decide, by decide, by decide, by decide, by decide⟩
  intro b U hU hb
  clear hb
  revert U; decide

/-- The handler calls `stop_all`, then `select`. -/
def eatStart : List PAct :=
  [.spawn 1, .other (.call (.send 0)), .other (.call (.pollSend 2 6)), .other (.exec 1), .other (.exec 1), .other (.exec 1), .other (.exec 1),
   .other (.exec 1), .task 0 .started, .task 0 .next, .task 0 (.poll 5), .other (.exec 3), .task 0 .ready, .task 0 .dispatch,
   .other (.call (.stopAll 3)), .other (.exec 5)]
def eatSteps : List PAct :=
  [.other (.exec 5), .nest 0, .task 1 .next, .task 1 (.poll 5), .other (.exec 7), .task 1 .ready, .task 1 .notice, .other (.exec 8),
   .other (.exec 8), .task 1 .return, .task 0 (.finish 7), .other (.exec 9), .other (.exec 9), .other (.exec 9), .task 0 .loop, .task 0 .next,
   .task 0 (.poll 5), .other (.exec 11), .other (.exec 11), .task 0 .pending]

/-- **C57, refuted for `select` and `join`.** *After `stop_all` every actor stops* is false of a program whose handlers call `select` or
`join`: the notice is consumed by `select`, whose `ControlFlow` is not passed on (`xtra/src/lib.rs:301-328`), and `run` goes on. Here
nobody drops a task, everything comes to rest, and the actor still waits for messages. -/
theorem C57_select_refuted : ∃ c c', PRun none true c ∧ (∃ T, c.ts[0]? = some T ∧ T.lvl = .run ∧ ⟨1, .shutdown⟩ ∈ c.s.w.items T.b) ∧
    PSteps true c c' ∧ c'.settled ∧ (∀ U ∈ c'.ts, U.aborted = false) ∧ ∃ T', c'.ts[0]? = some T' ∧ T'.asleep c'.s.w := by
  refine ⟨_, _, PRun.run .new (as := eatStart) rfl, ⟨_, rfl, rfl, by decide⟩, psteps_of_run eatSteps rfl,
    settled_dec (by decide) (by decide), by decide, _, rfl, asleepD_sound (by decide)⟩

end Xtra
