import Verif.PropsAgree
import Verif.PropsCount
/-! # C70: nothing happens by itself. C14: which references are strong. -/

set_option linter.unusedSimpArgs false

namespace Xtra

/-! ## Specification -/

/-- Calls that give back a reference to a mailbox. -/
def Call.givesBackMailbox : Call → Prop
  | .dropMailbox _ | .dropRecv _ | .dropMessage _ | .dispatch _ | .finish _ _ | .dropDispatch _ => True
  | _ => False

/-- Calls that poll the future `f` made by `send` or `broadcast`, with waker `wk`. -/
def Call.pollsSend (f wk : Nat) (c : Call) : Prop := c = .pollSend f wk ∨ c = .pollSendStale f wk

/-- The call `c`, begun in the state `w`, may have the effect `e`. -/
def Makes (w : World) (c : Call) : Ev → Prop
  -- a future resolves or is pending only when it is polled
  | .sendErr f _ | .sendOk f _ => ∃ wk, c.pollsSend f wk
  | .sendPending f _ wk => c.pollsSend f wk ∨ c = .pollReply f wk
  | .replyOk f _ _ | .replyInt f _ => ∃ wk, c.pollsSend f wk ∨ c = .pollReply f wk
  | .recv r _ _ => ∃ wk, c = .pollRecv r wk
  | .recvPending r wk => c = .pollRecv r wk
  | .joined j => ∃ wk, c = .pollJoin j wk
  | .joinPending j wk => c = .pollJoin j wk
  -- a message is handled, with result `v`, only when the user's handler for it completes with `v`
  | .handled i v => ∃ o b m rn, c = .finish o v ∧ w.objs[o]? = some (.dispatch b (.one m) rn) ∧ m.id = i
  -- the answer of a dispatch: `Break` for a notice; when the handler completes, according to `stop_self`
  | .flow b am brk =>
    (∃ o, c = .dispatch o ∧ w.objs[o]? = some (.message b am) ∧ brk = true ∧ (am = .shutdown ∨ ∃ m, am = .all m ∧ m.prio = .shutdown)) ∨
    (∃ o v rn, c = .finish o v ∧ w.objs[o]? = some (.dispatch b am rn) ∧ brk = !rn)
  -- a received message is destroyed unhandled only when the user drops it, or the future of its handler
  | .discarded i => ∃ o b m, m.id = i ∧
    ((c = .dropMessage o ∧ w.objs[o]? = some (.message b (.one m))) ∨ ∃ rn, c = .dropDispatch o ∧ w.objs[o]? = some (.dispatch b (.one m) rn))
  -- a message is put back or lost only when the user drops a waiting receive future
  | .requeued _ | .lost _ => ∃ r b k, c = .dropRecv r ∧ w.objs[r]? = some (.recv b (.waiting k))
  -- a message that was never received is destroyed only when its future is dropped or fails, or a mailbox reference is given back
  | .dropped _ => c.givesBackMailbox ∨ (∃ f wk, c.pollsSend f wk) ∨ (∃ f, c = .dropSend f) ∨ ∃ f p, c = .setPrio f p
  -- a broadcast is put into the mailboxes only by a poll of a broadcast, by a receive that makes room for it, or by `stop_all`
  | .bsent m _ => (∃ f wk, c.pollsSend f wk) ∨ (∃ r wk, c = .pollRecv r wk) ∨ ∃ o, c = .stopAll o ∧ m.prio = .shutdown
  | .late _ => ∃ f wk, c.pollsSend f wk
  | .connected i a => c = .isConnected i ∨ (c = .isConnectedStale i ∧ a = true)
  | .len i n => c = .len i ∧ n = w.tail + w.uq.length
  | .upgraded i a => c = .upgrade i ∧ (a = true ↔ w.sc ≠ 0)
  | .made f _ bc => f = w.objs.length ∧ ∃ k, c = if bc then .broadcast k else .send k
  | .prioSet i p => ∃ f md m rc, c = .setPrio f p ∧ w.objs[f]? = some (.send md i (.new m rc))
  | .prioPanic f i => ∃ p md st, c = .setPrio f p ∧ w.objs[f]? = some (.send md i st) ∧ ∀ m rc, st ≠ .new m rc
  | .panic => False

/-! ## Proof -/

/-- The step may be one of the call `c` begun in the state `w`. -/
def Micro.of (w : World) (c : Call) : Micro → Prop
  | .sendLd1 f _ _ _ wk | .sendLd2 f _ _ _ wk | .sendCrit f _ _ _ wk | .pollWs f _ _ _ wk | .sendFin f _ _ wk => c.pollsSend f wk
  | .dropWs _ | .dropMsg _ => (∃ f, c = .dropSend f) ∨ ∃ f p, c = .setPrio f p
  | .dropRx | .shutTx => c.givesBackMailbox
  | .recvTry r _ wk | .recvPoll r _ _ wk | .recvBcast r _ _ wk => c = .pollRecv r wk
  | .cancel _ _ | .requeue _ | .dropCell _ => ∃ r b k, c = .dropRecv r ∧ w.objs[r]? = some (.recv b (.waiting k))
  | .discard am => ∃ o b, (c = .dropMessage o ∧ w.objs[o]? = some (.message b am)) ∨ ∃ rn, c = .dropDispatch o ∧ w.objs[o]? = some (.dispatch b am rn)
  | .respond b am v brk => ∃ o rn, c = .finish o v ∧ w.objs[o]? = some (.dispatch b am rn) ∧ brk = !rn
  | .bcastShutdown => ∃ o, c = .stopAll o
  | .conn1 i | .conn2 i => c = .isConnected i
  | _ => True

def LogBy (P : Ev → Prop) (l L : List Ev) : Prop := ∃ t, L = t ++ l ∧ ∀ e ∈ t, P e

theorem LogBy.refl {P : Ev → Prop} (l : List Ev) : LogBy P l l := ⟨[], rfl, by simp⟩
theorem LogBy.cons {P : Ev → Prop} {l L : List Ev} {e : Ev} (h : LogBy P l L) (he : P e) : LogBy P l (e :: L) := by
  obtain ⟨t, rfl, h2⟩ := h
  exact ⟨e :: t, rfl, by intro x hx; rcases List.mem_cons.mp hx with rfl | hx; exact he; exact h2 x hx⟩
theorem LogBy.one {P : Ev → Prop} {l : List Ev} {e : Ev} (he : P e) : LogBy P l (e :: l) := (LogBy.refl l).cons he
theorem LogBy.trans {P : Ev → Prop} {a b c : List Ev} (h : LogBy P a b) (h' : LogBy P b c) : LogBy P a c := by
  obtain ⟨t, rfl, h2⟩ := h
  obtain ⟨t', rfl, h2'⟩ := h'
  refine ⟨t' ++ t, by simp, ?_⟩
  intro x hx
  rcases List.mem_append.mp hx with hx | hx
  · exact h2' x hx
  · exact h2 x hx

theorem killAll_logBy {P : Ev → Prop} (hp : ∀ i, P (.dropped i)) (ms : List Msg) (w : World) : LogBy P w.log (w.killAll ms).log := by
  induction ms generalizing w with
  | nil => exact .refl _
  | cons m ms ih =>
    simp only [World.killAll]
    exact (LogBy.one (hp m.id)).trans (ih _)

theorem closeHandles_logBy {P : Ev → Prop} (hp : ∀ i, P (.dropped i)) (hs : List Nat) (w : World) :
    LogBy P w.log (w.closeHandles hs).log := by
  induction hs generalizing w with
  | nil => exact .refl _
  | cons h hs ih =>
    simp only [World.closeHandles]
    refine LogBy.trans ?_ (ih _)
    unfold World.closeHandle
    split
    · exact LogBy.one (hp _)
    · exact .refl _

theorem shutTx_logBy {P : Ev → Prop} (hp : ∀ i, P (.dropped i)) (w : World) : LogBy P w.log w.shutTx.log := by
  simp only [World.shutTx]
  refine LogBy.trans ?_ (closeHandles_logBy hp _ _)
  refine LogBy.trans ?_ (closeHandles_logBy hp _ _)
  exact killAll_logBy hp w.uq ({ w with lst := w.lst.map LCell.notify, rang := true, uq := [], bqs := [] } : World)

theorem lateLog_logBy {P : Ev → Prop} (w : World) (m : Msg) (hp : P (.late m.id)) : LogBy P w.log (w.lateLog m) := by
  unfold World.lateLog; split
  · exact LogBy.one hp
  · exact .refl _

theorem popBroadcast_logBy {P : Ev → Prop} {w w' : World} {b : Nat} {m : Msg} (r : RegWs w.ws w.wOne w.wAll)
    (hp : w.popBroadcast b = some (m, w')) (hq : ∀ m ts, P (.bsent m ts)) : LogBy P w.log w'.log := by
  rcases popBroadcast_log r hp with h | ⟨m', ts, h⟩ <;> rw [h]
  · exact .refl _
  · exact LogBy.one (hq _ _)

/-- The effects of one step are effects its call may have. -/
theorem execR_makes {w0 w w' : World} {c : Call} {m : Micro} {ms : List Micro} (h : ExecR w m w' ms)
    (r : RegWs w.ws w.wOne w.wAll) (ho : m.of w0 c) : LogBy (fun e => e = .panic ∨ Makes w0 c e) w.log w'.log := by
  cases h
  case recv_all hp _ _ => exact (popBroadcast_logBy r hp fun _ _ => .inr (.inr (.inl ⟨_, _, ho⟩))).cons (.inr ⟨_, ho⟩)
  case recv_one hp _ _ => rw [World.yieldMsg_log, World.popUnicast_log hp]; exact LogBy.one (.inr ⟨_, ho⟩)
  case recvBcast_some hp => exact (popBroadcast_logBy r hp fun _ _ => .inr (.inr (.inl ⟨_, _, ho⟩))).cons (.inr ⟨_, ho⟩)
  case shutTx => exact shutTx_logBy (fun i => .inr (.inl ho)) w
  case critAll_park => exact lateLog_logBy w _ (.inr ⟨_, _, ho⟩)
  case critOne_park => exact lateLog_logBy w _ (.inr ⟨_, _, ho⟩)
  case critOne_queue => exact lateLog_logBy w _ (.inr ⟨_, _, ho⟩)
  case critOne_hand => exact lateLog_logBy w _ (.inr ⟨_, _, ho⟩)
  case critAll_sent => exact (lateLog_logBy w _ (.inr ⟨_, _, ho⟩)).cons (.inr (.inl ⟨_, _, ho⟩))
  case dropBq => rw [World.decBq_log]; exact .refl _
  case sendLd1_err => exact (LogBy.one (.inr (.inr (.inl ⟨_, _, ho⟩)))).cons (.inr ⟨_, ho⟩)
  case sendLd2_err => exact (LogBy.one (.inr (.inr (.inl ⟨_, _, ho⟩)))).cons (.inr ⟨_, ho⟩)
  case dropWs_active => exact LogBy.one (.inr (.inr (.inr ho)))
  case dropMsg => exact LogBy.one (.inr (.inr (.inr ho)))
  case pollWs_active => exact LogBy.one (.inr (.inl ho))
  case pollWs_closed => exact LogBy.one (.inr ⟨_, ho⟩)
  case pollWs_panic => exact LogBy.one (.inl rfl)
  case sendFin_panic => exact LogBy.one (.inl rfl)
  case recvPoll_panic => exact LogBy.one (.inl rfl)
  case sendFin_bcast => exact LogBy.one (.inr ⟨_, ho⟩)
  case sendFin_detached => exact LogBy.one (.inr ⟨_, ho⟩)
  case sendFin_waiting => exact LogBy.one (.inr (.inl ho))
  case sendFin_value => exact LogBy.one (.inr ⟨_, .inl ho⟩)
  case sendFin_interrupted => exact LogBy.one (.inr ⟨_, .inl ho⟩)
  case recv_shutdown => exact LogBy.one (.inr ⟨_, ho⟩)
  case recvPoll_one => exact LogBy.one (.inr ⟨_, ho⟩)
  case recvPoll_shutdown => exact LogBy.one (.inr ⟨_, ho⟩)
  case recvPoll_empty => exact LogBy.one (.inr ho)
  case requeue_hand => exact LogBy.one (.inr ho)
  case requeue_queue => exact LogBy.one (.inr ho)
  case dropCell_lost => exact LogBy.one (.inr ho)
  case discard_one => obtain ⟨o, b, h⟩ := ho; exact LogBy.one (.inr ⟨o, b, _, rfl, h⟩)
  case respond_one =>
    obtain ⟨o, rn, h1, h2, h3⟩ := ho
    exact (LogBy.one (.inr ⟨o, _, _, rn, h1, h2, rfl⟩)).cons (.inr (.inr ⟨o, _, rn, h1, h2, h3⟩))
  case respond_other =>
    obtain ⟨o, rn, h1, h2, h3⟩ := ho
    exact LogBy.one (.inr (.inr ⟨o, _, rn, h1, h2, h3⟩))
  case bcastShutdown => obtain ⟨o, h⟩ := ho; exact LogBy.one (.inr (.inr (.inr ⟨o, h, rfl⟩)))
  case conn1_no => exact LogBy.one (.inr (.inl ho))
  case conn2 => exact LogBy.one (.inr (.inl ho))
  all_goals exact .refl _

/-- A step of a call is followed by steps of that call. -/
theorem execR_of {w0 w w' : World} {c : Call} {m : Micro} {ms : List Micro} (h : ExecR w m w' ms) (ho : m.of w0 c) :
    ∀ x ∈ ms, x.of w0 c := by
  cases h <;> simp only [List.mem_cons, List.not_mem_nil, List.mem_map, or_false, forall_eq_or_imp, forall_eq, false_implies, implies_true,
    Micro.of, true_and, and_true] at ho ⊢ <;> first | exact ho | skip
  case shutRx => rintro x ⟨a, -, rfl⟩; trivial
  all_goals
    obtain ⟨r, b, k, rfl, h⟩ := ho
    first
      | exact ⟨⟨_, _, _, rfl, h⟩, trivial, _, _, _, rfl, h⟩
      | exact ⟨trivial, _, _, _, rfl, h⟩

/-- The effects of the call itself, and its steps. -/
theorem callR_makes {w w' : World} {c : Call} {ms : List Micro} (h : CallR w c w' ms) :
    LogBy (fun e => e = .panic ∨ Makes w c e) w.log w'.log ∧ ∀ x ∈ ms, x.of w c := by
  cases h
  case setPrio_waiting ho => exact ⟨LogBy.one (.inr ⟨_, _, _, rfl, ho, by simp⟩), by simp [Micro.of]⟩
  case setPrio_done ho => exact ⟨LogBy.one (.inr ⟨_, _, _, rfl, ho, by simp⟩), by simp [Micro.of]⟩
  case dropRecv_waiting ho => exact ⟨.refl _, by simp only [List.mem_singleton, forall_eq]; exact ⟨_, _, _, rfl, ho⟩⟩
  case dropMessage ho =>
    refine ⟨.refl _, fun x hx => ?_⟩
    simp only [List.mem_cons, List.not_mem_nil, or_false] at hx
    rcases hx with rfl | rfl | rfl
    · exact ⟨_, _, .inl ⟨rfl, ho⟩⟩
    · trivial
    · trivial
  case finish ho =>
    refine ⟨.refl _, fun x hx => ?_⟩
    simp only [List.mem_cons, List.not_mem_nil, or_false] at hx
    rcases hx with rfl | rfl | rfl
    · trivial
    · trivial
    · exact ⟨_, _, rfl, ho, rfl⟩
  case dropDispatch ho =>
    refine ⟨.refl _, fun x hx => ?_⟩
    simp only [List.mem_cons, List.not_mem_nil, or_false] at hx
    rcases hx with rfl | rfl | rfl
    · trivial
    · trivial
    · exact ⟨_, _, .inr ⟨_, rfl, ho⟩⟩
  case next => exact ⟨by simp [World.addObj]; exact .refl _, by simp⟩
  all_goals first
    | exact ⟨.refl _, by simp [Micro.of, Call.givesBackMailbox, Call.pollsSend]⟩
    | exact ⟨LogBy.one (.inl rfl), by simp⟩
    | exact ⟨LogBy.one (by simp [Makes, Call.pollsSend, *]), by simp [Micro.of, Call.givesBackMailbox, Call.pollsSend]⟩

/-- In the schedule `as`, the call `c` was begun as thread number `t`, in the state `s0`. -/
def Began (cap : Option Nat) (as : List Act) (t : Nat) (c : Call) (s0 : Sys) : Prop :=
  ∃ pre post, as = pre ++ .call c :: post ∧ (init cap).run pre = some s0 ∧ s0.th.length = t

theorem Began.snoc {cap : Option Nat} {as : List Act} {t : Nat} {c : Call} {s0 : Sys} (h : Began cap as t c s0) (a : Act) :
    Began cap (as ++ [a]) t c s0 := by
  obtain ⟨pre, post, rfl, h1, h2⟩ := h
  exact ⟨pre, post ++ [a], by simp, h1, h2⟩

/-- Every thread runs the steps of the call it was begun for. -/
theorem began_run {cap : Option Nat} : ∀ (as : List Act) (s : Sys), (init cap).run as = some s →
    ∀ t x, s.th[t]? = some x → ∃ c s0, Began cap as t c s0 ∧ ∀ m ∈ x, m.of s0.w c := by
  refine run_ind ?_ ?_
  · intro t x hx; simp [init] at hx
  · intro as s a s' hrun ih hs t x hx
    rcases step_rel hs with ⟨c, w', ms, rfl, hc, rfl⟩ | ⟨t', m, rest, w', ms, rfl, ht, he, rfl⟩
    · simp only at hx
      rcases append_cases hx with ⟨-, hx⟩ | ⟨rfl, hx⟩
      · obtain ⟨c', s0, hb, hm⟩ := ih t x hx
        exact ⟨c', s0, hb.snoc _, hm⟩
      · subst x
        exact ⟨c, s, ⟨as, [], by simp, hrun, rfl⟩, (callR_makes hc).2⟩
    · simp only at hx
      rcases set_cases hx with ⟨rfl, rfl⟩ | ⟨-, hx⟩
      · obtain ⟨c', s0, hb, hm⟩ := ih t' _ ht
        refine ⟨c', s0, hb.snoc _, fun x hx => ?_⟩
        rcases List.mem_append.mp hx with hx | hx
        · exact execR_of he (hm m (by simp)) x hx
        · exact hm x (by simp [hx])
      · obtain ⟨c', s0, hb, hm⟩ := ih t x hx
        exact ⟨c', s0, hb.snoc _, hm⟩

/-- **C70.** Nothing happens by itself. Every step of every execution belongs to a call that user code has begun (the step is the beginning of the
call, or a step of the thread in which it runs), and whatever the step adds to the history is an effect of that call on the object it was
made on, as listed in `Makes`. -/
theorem C70_step_of_a_call {cap : Option Nat} {as : List Act} {a : Act} {s s' : Sys} (hrun : (init cap).run as = some s)
    (hs : s.step a = some s') :
    ∃ t c s0, Began cap (as ++ [a]) t c s0 ∧ (a = .call c ∧ s0 = s ∨ a = .exec t) ∧
      ∃ new, s'.w.log = new ++ s.w.log ∧ ∀ e ∈ new, Makes s0.w c e := by
  have hr : Reachable cap s := Reachable.run .init hrun
  have np := C31_no_panic (hr.step hs)
  rcases step_rel hs with ⟨c, w', ms, rfl, hc, rfl⟩ | ⟨t, m, rest, w', ms, rfl, ht, he, rfl⟩
  · refine ⟨s.th.length, c, s, ⟨as, [], rfl, hrun, rfl⟩, .inl ⟨rfl, rfl⟩, ?_⟩
    obtain ⟨new, h1, h2⟩ := (callR_makes hc).1
    refine ⟨new, h1, fun e hn => (h2 e hn).resolve_left ?_⟩
    rintro rfl; exact np (by simp only [h1]; simp [hn])
  · obtain ⟨c, s0, hb, hm⟩ := began_run as s hrun t _ ht
    refine ⟨t, c, s0, hb.snoc _, .inr rfl, ?_⟩
    obtain ⟨new, h1, h2⟩ := execR_makes he (regWs_reachable hr) (hm m (by simp))
    refine ⟨new, h1, fun e hn => (h2 e hn).resolve_left ?_⟩
    rintro rfl; exact np (by simp only [h1]; simp [hn])

/-- **C70.** So every effect in the history of any execution is an effect of some call that user code made in it. -/
theorem C70_every_effect {cap : Option Nat} {as : List Act} {s : Sys} (hrun : (init cap).run as = some s) {e : Ev} (he : e ∈ s.w.log) :
    ∃ t c s0, Began cap as t c s0 ∧ Makes s0.w c e := by
  revert he
  refine run_ind (P := fun as s => e ∈ s.w.log → ∃ t c s0, Began cap as t c s0 ∧ Makes s0.w c e) ?_ ?_ as s hrun
  · simp [init]
  · intro as s a s' hrun ih hs he
    obtain ⟨t, c, s0, hb, -, new, h1, h2⟩ := C70_step_of_a_call hrun hs
    rw [h1] at he
    rcases List.mem_append.mp he with he | he
    · exact ⟨t, c, s0, hb, h2 e he⟩
    · obtain ⟨t, c, s0, hb, hm⟩ := ih he
      exact ⟨t, c, s0, hb.snoc _, hm⟩

/-- **C18.** A request is answered only by its own handler: if a send future or receiver resolved to `Ok(v)` for message `i`, then in the
execution user code completed the handler of exactly that message with `v`. -/
theorem C18_answer_is_the_handlers {cap : Option Nat} {as : List Act} {s : Sys} (hrun : (init cap).run as = some s) {f i v : Nat}
    (he : Ev.replyOk f i v ∈ s.w.log) :
    ∃ pre post s0 o b m rn, as = pre ++ .call (.finish o v) :: post ∧ (init cap).run pre = some s0 ∧
      s0.w.objs[o]? = some (.dispatch b (.one m) rn) ∧ m.id = i := by
  have hh := ((C18_replies (Reachable.run .init hrun)).1 f i v he).2.1
  obtain ⟨t, c, s0, ⟨pre, post, h1, h2, -⟩, o, b, m, rn, rfl, h3, h4⟩ := C70_every_effect hrun hh
  exact ⟨pre, post, s0, o, b, m, rn, h1, h2, h3, h4⟩

/-! ## C14: which references are strong -/

/-- **C14.** What an address makes is a reference of its own kind: a clone, an either-address, a send future and a broadcast future of a strong
(or either-strong) address is one more strong reference, that of a weak one is none; a weak address made of it (`downgrade`) is none; asking
it for its length or connectedness makes none. In every state, whatever is going on. -/
theorem C14_references_made {s s' : Sys} {i : Nat} {rc : Rc} {c : Call} (ho : s.w.objs[i]? = some (.addr rc))
    (hs : s.step (.call c) = some s') :
    (c = .cloneAddr i ∨ c = .asEither i ∨ c = .send i ∨ c = .broadcast i →
      s'.w.strongRefs = s.w.strongRefs + (if rc.isStrong then 1 else 0) ∧ s'.w.sc = s.w.sc + (if rc.isStrong then 1 else 0)) ∧
    (c = .downgrade i ∨ c = .isConnected i ∨ c = .isConnectedStale i ∨ c = .len i ∨ c = .join i ∨ c = .joinStale i →
      s'.w.strongRefs = s.w.strongRefs ∧ s'.w.sc = s.w.sc) := by
  obtain ⟨w', ms, hcl, rfl, -⟩ := step_newThread hs
  generalize s'.w = w' at hcl ⊢
  constructor
  · rintro (rfl | rfl | rfl | rfl) <;> cases hcl <;>
      simp_all [World.strongRefs, World.addObj, World.addTx, World.ev, Obj.isStrongRef] <;> cases rc <;> simp [Rc.isStrong, Rc.toEither]
  · rintro (rfl | rfl | rfl | rfl | rfl | rfl) <;> cases hcl <;>
      simp_all [World.strongRefs, World.addObj, World.addTx, World.ev, Obj.isStrongRef, Rc.isStrong]

/-- **C14.** Setting the priority of an unpolled send future, or detaching it, does not change whether it is a strong reference. -/
theorem C14_future_keeps {s s' : Sys} {f : Nat} {md : Mode} {i : Nat} {m : Msg} {rc : Rc} {c : Call}
    (ho : s.w.objs[f]? = some (.send md i (.new m rc))) (hc : c = .detach f ∨ ∃ p, c = .setPrio f p) (hs : s.step (.call c) = some s') :
    s'.w.strongRefs = s.w.strongRefs ∧ s'.w.sc = s.w.sc := by
  obtain ⟨w', ms, hcl, rfl, -⟩ := step_newThread hs
  generalize s'.w = w' at hcl ⊢
  have key : ∀ (md' : Mode) (i' : Nat) (m' : Msg), (w'.objs = s.w.objs.set f (.send md' i' (.new m' rc))) → w'.strongRefs = s.w.strongRefs := by
    intro md' i' m' hw
    rw [← strongRefs_eq, ← strongRefs_eq, hw]
    have := sumBy_set (f := oStrong) (.send md' i' (.new m' rc)) ho
    have h1 : oStrong (.send md' i' (.new m' rc)) = oStrong (.send md i (.new m rc)) := rfl
    omega
  rcases hc with rfl | ⟨p, rfl⟩ <;> cases hcl <;> simp_all
  · exact key _ _ _ rfl
  · exact key _ _ _ rfl

/-- **C14.** What a mailbox (or the context of a running handler) makes: a receive future is one more mailbox reference, a clone counts as one from
the moment it is asked for, and the address it gives out is weak: neither a mailbox reference nor a strong one. -/
theorem C14_mailbox_references_made {s s' : Sys} {i b : Nat} {o : Obj} {c : Call} (ho : s.w.objs[i]? = some o) (hb : o.mbox = some b)
    (hs : s.step (.call c) = some s') :
    (c = .next i → s'.w.mailboxRefs = s.w.mailboxRefs + 1 ∧ s'.w.rcv = s.w.rcv + 1) ∧
    (c = .cloneMailbox i → s'.w.mailboxRefs = s.w.mailboxRefs ∧ s'.th = s.th ++ [[.newBq s.w.objs.length]] ∧ s'.w.rcv = s.w.rcv + 1) ∧
    (c = .address i → s'.w.mailboxRefs = s.w.mailboxRefs ∧ s'.w.rcv = s.w.rcv ∧ s'.w.objs = s.w.objs ++ [.addr .weak]) ∧
    (c = .next i ∨ c = .cloneMailbox i ∨ c = .address i → s'.w.strongRefs = s.w.strongRefs ∧ s'.w.sc = s.w.sc) := by
  obtain ⟨w', ms, hcl, rfl, hth⟩ := step_newThread hs
  generalize s'.w = w' at hcl ⊢
  refine ⟨?_, ?_, ?_, ?_⟩
  · rintro rfl; cases hcl; simp [World.mailboxRefs, World.addObj, Obj.isMailboxRef]
  · rintro rfl; cases hcl; simp [World.mailboxRefs, World.addObj, Obj.isMailboxRef, hth]
  · rintro rfl; cases hcl; simp [World.mailboxRefs, World.addObj, Obj.isMailboxRef]
  · rintro (rfl | rfl | rfl) <;> cases hcl <;> simp [World.strongRefs, World.addObj, Obj.isStrongRef, Rc.isStrong]

/-- Meets the hypotheses of `C14_mailbox_references_made`. -/
example : ∃ s', (init none).step (.call (.next 1)) = some s' ∧ s'.w.mailboxRefs = 2 := ⟨_, rfl, rfl⟩

/-- A request is sent, received, and handled with result 8, and the sender sees the answer. Meets the hypotheses of `C70_every_effect`,
`C70_step_of_a_call` (for any prefix), `C18_answer_is_the_handlers`. -/
def exOriginSched : List Act :=
  [.call (.send 0), .call (.pollSend 2 0), .exec 1, .exec 1, .exec 1, .exec 1, .exec 1, .call (.next 1), .call (.pollRecv 3 0), .exec 3,
   .call (.dispatch 3), .call (.finish 3 8), .exec 5, .exec 5, .exec 5, .call (.pollSend 2 0), .exec 6]

example : ∃ s, (init none).run exOriginSched = some s ∧ Ev.replyOk 2 0 8 ∈ s.w.log :=
  ⟨_, rfl, by decide⟩

/-- A strong address makes a broadcast future, an either-address and a clone, and its future is detached. Meets the hypotheses of
`C14_references_made`, `C14_future_keeps`. -/
example : ∃ s s' s'' s3, Reachable none s ∧ s.w.objs[0]? = some (.addr .strong) ∧ s.step (.call (.broadcast 0)) = some s' ∧
    s'.w.strongRefs = 3 ∧ s'.w.objs[3]? = some (.send .bcast 0 (.new ⟨0, .valued 0⟩ .strong)) ∧
    s'.step (.call (.setPrio 3 9)) = some s'' ∧ s''.step (.call (.asEither 0)) = some s3 ∧ s3.w.strongRefs = 4 :=
  ⟨_, _, _, _, Reachable.run .init (as := [.call (.cloneAddr 0)]) rfl, rfl, rfl, rfl, rfl, rfl, rfl, rfl⟩

end Xtra
