import Verif.PropsRest
import Verif.PropsBcast
/-! # C51: with a running actor, every awaited request is answered -/

set_option linter.unusedSimpArgs false

namespace Xtra

/-! ## Specification -/

/-- Whoever awaits the future `f` (a send future, or the detached `Receiver` it gave) has nothing to do: its last poll returned `Pending`
and left its waker there, and the waker has not been called; or there is nothing to await (any more). -/
def World.dozes (w : World) (f : Nat) : Prop :=
  match w.objs[f]? with
  | some (.send _ _ (.new _ _)) => False
  | some (.send _ _ (.waiting h)) => ∃ wk m, w.ws[h]? = some (.active (some wk) m)
  | some (.send .ret i .done) => ∃ wk, w.resp[i]? = some (.waiting (some wk))
  | some (.send _ _ .done) => False
  | some (.reply i) => ∃ wk, w.resp[i]? = some (.waiting (some wk))
  | _ => True

/-- A step of the channel, of a task, or of a client: `A f` says that somebody awaits the future `f`, i.e. polls it first when awaiting
it, and then whenever its waker was called, with any waker. No other API call of user code. -/
inductive AutoC (A : Nat → Prop) : PCfg → PCfg → Prop where
  | auto {c c' : PCfg} : Auto c c' → AutoC A c c'
  | await {c : PCfg} {f wk : Nat} {s' : Sys} : A f → ¬ c.s.w.dozes f →
      (c.s.step (.call (.pollSend f wk)) = some s' ∨ c.s.step (.call (.pollReply f wk)) = some s') → AutoC A c { c with s := s' }

/-- Finitely many such steps, in none of which a task is dropped. -/
inductive AutosC (A : Nat → Prop) : PCfg → PCfg → Prop where
  | refl {c : PCfg} : AutosC A c c
  | step {c c1 c2 : PCfg} : AutoC A c c1 → NoDrop c c1 → AutosC A c1 c2 → AutosC A c c2

/-- The micro-step belongs to a poll of the send future `f` of message `i` (`bc`: a broadcast). -/
def Micro.asks (f i : Nat) (bc : Bool) : Micro → Prop
  | .sendLd1 f' md m _ _ => f' = f ∧ m.id = i ∧ (md == .bcast) = bc
  | .sendLd2 f' md m _ _ => f' = f ∧ m.id = i ∧ (md == .bcast) = bc
  | .sendCrit f' md m _ _ => f' = f ∧ m.id = i ∧ (md == .bcast) = bc
  | .pollWs f' md mid _ _ => f' = f ∧ mid = i ∧ (md == .bcast) = bc
  | .sendFin f' md mid _ => f' = f ∧ mid = i ∧ (md == .bcast) = bc
  | _ => False

/-- The future `f` of message `i` exists and has not resolved: it is a send future, polled or not, or a poll of it is in progress, or (for
a request) it is the `Receiver` that the detached send future gave. -/
def Sys.unresolved (s : Sys) (f i : Nat) (bc : Bool) : Prop :=
  (∃ md st, (md == Mode.bcast) = bc ∧ s.w.objs[f]? = some (.send md i st)) ∨ (∃ x ∈ s.th, ∃ m ∈ x, m.asks f i bc) ∨
  (bc = false ∧ s.w.objs[f]? = some (.reply i))

/-- The future `f` of message `i` resolved: to `Disconnected`; a broadcast to `()`; a request to the value its handler returned or to
`Interrupted`. -/
def World.resolved (w : World) (f i : Nat) (bc : Bool) : Prop :=
  .sendErr f i ∈ w.log ∨ (bc = true ∧ .sendOk f i ∈ w.log) ∨
  (bc = false ∧ ((∃ v, .replyOk f i v ∈ w.log) ∨ .replyInt f i ∈ w.log))

/-- Nothing is going on: no API call is being executed, everybody has returned or sleeps or awaits a `yield_once` that sleeps, and so does
everybody who awaits something. -/
def PCfg.atRestC (A : Nat → Prop) (c : PCfg) : Prop := c.settled ∧ ∀ f, A f → c.s.w.dozes f

/-! ## Proofs -/

theorem AutoC.pstep {A : Nat → Prop} {closed : Bool} {c c' : PCfg} (h : AutoC A c c') : PStep closed c c' := by
  cases h with
  | auto h => exact h.pstep
  | await _ _ hs =>
    rcases hs with hs | hs
    · exact .other (fun _ _ => rfl) (fun _ _ => by simp) hs
    · exact .other (fun _ _ => rfl) (fun _ _ => by simp) hs

theorem wsAct_one {x : WsCell} (h : wsAct x = 1) : ∃ wk m, x = .active (some wk) m := by
  rcases x with ⟨_ | wk, m⟩ | _ | _ | _ <;> simp [wsAct] at h ⊢

theorem respW_one {x : Resp} (h : respW x = 1) : ∃ wk, x = .waiting (some wk) := by
  cases x with
  | waiting wk => cases wk <;> simp [respW] at h ⊢
  | _ => simp [respW] at h

theorem pollSend_down {s s' : Sys} {f wk : Nat} (hd : ¬ s.w.dozes f) (hs : s.step (.call (.pollSend f wk)) = some s') :
    L3 s.k0 s.k1 s.k2 s'.k0 s'.k1 s'.k2 := by
  obtain ⟨w', ms, hc, rfl, h1, h2, h3⟩ := call_k hs
  cases hc
  case pollSend_new md mid m rc ho =>
    have := k2_objEq (w := s.w) (w' := s.w.setObj f .busy) ho rfl rfl rfl rfl rfl rfl
    simp [World.objK, objK, objNew] at this
    exact .high (by rw [h1]; simp [Sys.k0, Micro.k0]; omega)
  case pollSend_waiting md mid h ho =>
    have := k2_objEq (w := s.w) (w' := s.w.setObj f .busy) ho rfl rfl rfl rfl rfl rfl
    have e : s.w.objK (.send md mid (.waiting h)) = 5 := by
      simp only [World.objK, objK]
      split
      · rename_i hx
        exfalso; apply hd
        simp only [World.dozes, ho]
        cases hw : s.w.ws[h]? with
        | none => simp [hw] at hx
        | some x =>
          obtain ⟨wk, m, rfl⟩ := wsAct_one (x := x) (by simpa [hw] using hx)
          exact ⟨wk, m, rfl⟩
      · rfl
    rw [e] at this
    simp [World.objK, objK, objNew] at this
    refine .low ?_ ?_ ?_
    · rw [h1]; simp [Sys.k0, Micro.k0]; omega
    · rw [h2]; simp [Micro.k1]
    · rw [h3]; simp [Sys.k2, Micro.k2]; omega
  case pollSend_done md mid ho =>
    have := k2_objEq (w := s.w) (w' := s.w.setObj f .busy) ho rfl rfl rfl rfl rfl rfl
    have e : s.w.objK (.send md mid .done) = 3 := by
      cases md <;> simp only [World.objK, objK]
      split
      · rename_i hx
        exfalso; apply hd
        simp only [World.dozes, ho]
        cases hw : s.w.resp[mid]? with
        | none => simp [hw] at hx
        | some x =>
          obtain ⟨wk, rfl⟩ := respW_one (x := x) (by simpa [hw] using hx)
          exact ⟨wk, rfl⟩
      · rfl
    rw [e] at this
    simp [World.objK, objK, objNew] at this
    refine .low ?_ ?_ ?_
    · rw [h1]; simp [Sys.k0, Micro.k0]; omega
    · rw [h2]; simp [Micro.k1]
    · rw [h3]; simp [Sys.k2, Micro.k2]; omega

theorem pollReply_down {cap : Option Nat} {s s' : Sys} {f wk : Nat} (hr : Reachable cap s) (hd : ¬ s.w.dozes f)
    (hs : s.step (.call (.pollReply f wk)) = some s') : L3 s.k0 s.k1 s.k2 s'.k0 s'.k1 s'.k2 := by
  have hp := C31_no_panic (hr.step hs)
  obtain ⟨w', ms, hc, rfl, h1, h2, h3⟩ := call_k hs
  have key : ∀ mid, s.w.objs[f]? = some (.reply mid) → (∀ wk, s.w.resp[mid]? ≠ some (.waiting wk)) → s.w.objK (.reply mid) = 1 := by
    intro mid ho hne
    simp only [World.objK, objK]
    split
    · rename_i hx
      exfalso
      cases hw : s.w.resp[mid]? with
      | none => simp [hw] at hx
      | some x =>
        obtain ⟨wk, rfl⟩ := respW_one (x := x) (by simpa [hw] using hx)
        exact hne _ hw
    · rfl
  cases hc
  case pollReply_waiting mid wk' hw ho =>
    have hw' : wk' = none := by
      cases wk' with
      | none => rfl
      | some x => exact absurd (by simp only [World.dozes, ho]; exact ⟨x, hw⟩) hd
    subst hw'
    have hw : s.w.resp[mid]? = some (.waiting none) := hw
    have := sumBy_set (f := respW) (.waiting (some wk)) hw
    simp [respW] at this
    exact .high (by rw [h1]; simp [Sys.k0, World.k0, Micro.k0]; omega)
  case pollReply_value mid wk' r hw ho =>
    have e := key mid ho (by rw [hw]; simp)
    have := k2_objEq (w := s.w) (w' := (s.w.setObj f .gone).ev (.replyOk f mid r)) ho rfl rfl rfl rfl rfl rfl
    rw [e] at this
    simp [World.objK, objK, objNew] at this
    refine .low ?_ ?_ ?_
    · rw [h1]; simp [Sys.k0, Micro.k0]; omega
    · rw [h2]; simp [Micro.k1]
    · rw [h3]; simp [Sys.k2, Micro.k2]; omega
  case pollReply_interrupted mid wk' hw ho =>
    have e := key mid ho (by rw [hw]; simp)
    have := k2_objEq (w := s.w) (w' := (s.w.setObj f .gone).ev (.replyInt f mid)) ho rfl rfl rfl rfl rfl rfl
    rw [e] at this
    simp [World.objK, objK, objNew] at this
    refine .low ?_ ?_ ?_
    · rw [h1]; simp [Sys.k0, Micro.k0]; omega
    · rw [h2]; simp [Micro.k1]
    · rw [h3]; simp [Sys.k2, Micro.k2]; omega
  case pollReply_panic => simp [World.ev] at hp

theorem AutoC.down {A : Nat → Prop} {cap : Option Nat} {closed : Bool} {c c' : PCfg} (hr : PRun cap closed c) (h : AutoC A c c') :
    L3 c.k0 c.s.k1 c.k2 c'.k0 c'.s.k1 c'.k2 := by
  cases h with
  | auto h => exact h.down hr
  | await _ hd hs =>
    rcases hs with hs | hs
    · exact (pollSend_down hd hs).add _ 0 _
    · exact (pollReply_down hr.reachable hd hs).add _ 0 _

theorem autoC_acc {A : Nat → Prop} {cap : Option Nat} {closed : Bool} {c : PCfg} (h : PRun cap closed c) :
    Acc (fun c' c => AutoC A c c') c :=
  L3_acc (AutoC A) (PRun cap closed) PCfg.k0 (fun c => c.s.k1) PCfg.k2 (fun _ _ hx hy => .step hx hy.pstep) (fun _ _ hx hy => hy.down hx)
    _ _ _ c rfl rfl rfl h

/-- **C51.** No livelock: awaiting clients, the actors and the channel do not keep each other busy forever. -/
theorem C51_no_livelock {A : Nat → Prop} {cap : Option Nat} {closed : Bool} {f : Nat → PCfg} (h : PRun cap closed (f 0)) :
    ¬ ∀ n, AutoC A (f n) (f (n + 1)) :=
  acc_no_seq (autoC_acc h) f rfl

theorem await_enabled {s : Sys} {f : Nat} (hd : ¬ s.w.dozes f) :
    ∃ s', s.step (.call (.pollSend f 0)) = some s' ∨ s.step (.call (.pollReply f 0)) = some s' := by
  have key : ∀ o, s.w.objs[f]? = some o → ((∃ md i st, o = .send md i st) ∨ ∃ i, o = .reply i) →
      ∃ s', s.step (.call (.pollSend f 0)) = some s' ∨ s.step (.call (.pollReply f 0)) = some s' := by
    rintro o ho (⟨md, i, st, rfl⟩ | ⟨i, rfl⟩)
    · cases st <;> exact ⟨_, .inl (by simp only [Sys.step, call, ho]; rfl)⟩
    · cases hx : s.w.resp[i]? with
      | none => exact ⟨_, .inr (by simp only [Sys.step, call, ho, hx]; rfl)⟩
      | some x => cases x <;> exact ⟨_, .inr (by simp only [Sys.step, call, ho, hx]; rfl)⟩
  cases ho : s.w.objs[f]? with
  | none => simp [World.dozes, ho] at hd
  | some o =>
    cases o with
    | send md i st => exact key _ ho (.inl ⟨_, _, _, rfl⟩)
    | reply i => exact key _ ho (.inr ⟨_, rfl⟩)
    | _ => simp [World.dozes, ho] at hd

/-- **C51.** No deadlock: unless everything is at rest, some step is possible without a new API call, dropping no task. -/
theorem C51_progress {A : Nat → Prop} {cap : Option Nat} {closed : Bool} {c : PCfg} (h : PRun cap closed c) (hn : ¬ c.atRestC A) :
    ∃ c', AutoC A c c' ∧ NoDrop c c' := by
  by_cases hr : c.settled
  · have : ∃ f, A f ∧ ¬ c.s.w.dozes f := by
      apply Classical.byContradiction
      intro h'
      refine hn ⟨hr, fun f hf => ?_⟩
      apply Classical.byContradiction
      intro h2
      exact h' ⟨f, hf, h2⟩
    obtain ⟨f, hf, hd⟩ := this
    obtain ⟨s', hs⟩ := await_enabled hd
    exact ⟨_, .await hf hd hs, rfl⟩
  · obtain ⟨c', h1, h2⟩ := C50_progress h hr
    exact ⟨c', .auto h1, h2⟩

theorem AutosC.run {A : Nat → Prop} {cap : Option Nat} {closed : Bool} {c c' : PCfg} (h : AutosC A c c') (hr : PRun cap closed c) :
    PRun cap closed c' ∧ c'.ts.map (·.aborted) = c.ts.map (·.aborted) := by
  induction h with
  | refl => exact ⟨hr, rfl⟩
  | step ha hn _ ih =>
    obtain ⟨h1, h2⟩ := ih (.step hr ha.pstep)
    exact ⟨h1, h2.trans hn⟩

/-- **C51.** From every reachable configuration, actors and awaiting clients come to rest, without a task being dropped. -/
theorem C51_reaches_rest {A : Nat → Prop} {cap : Option Nat} {closed : Bool} {c : PCfg} (h : PRun cap closed c) :
    ∃ c', AutosC A c c' ∧ c'.atRestC A := by
  have ha := autoC_acc (A := A) h
  induction ha with
  | intro c _ ih =>
    by_cases hr : c.atRestC A
    · exact ⟨c, .refl, hr⟩
    · obtain ⟨c1, h1, h2⟩ := C51_progress h hr
      obtain ⟨c2, h3, h4⟩ := ih c1 h1 (.step h h1.pstep)
      exact ⟨c2, .step h1 h2 h3, h4⟩

/-! ### A future resolves or stays -/

theorem execR_asks {w w' : World} {mc : Micro} {ms : List Micro} (h : ExecR w mc w' ms) {f i : Nat} {bc : Bool} (hwf : WF w mc)
    (ha : mc.asks f i bc) (hp : Ev.panic ∉ w'.log) :
    (∃ md st, (md == Mode.bcast) = bc ∧ w'.objs[f]? = some (.send md i st)) ∨ (∃ m ∈ ms, m.asks f i bc) ∨
    (bc = false ∧ w'.objs[f]? = some (.reply i)) ∨ w'.resolved f i bc := by
  cases h <;> simp only [Micro.asks] at ha <;> obtain ⟨rfl, rfl, rfl⟩ := ha <;> simp only [WF] at hwf
  case sendLd1_err => exact .inr (.inr (.inr (.inl (by simp [World.ev]))))
  case sendLd2_err => exact .inr (.inr (.inr (.inl (by simp [World.ev]))))
  case pollWs_closed => exact .inr (.inr (.inr (.inl (by simp [World.ev]))))
  case pollWs_panic => simp [World.ev] at hp
  case sendFin_panic => simp [World.ev] at hp
  case pollWs_active =>
    have hl := (List.getElem?_eq_some_iff.mp hwf.1).1
    exact .inl ⟨_, _, rfl, by simp [World.setObj, World.ev, hl]; rfl⟩
  case sendFin_bcast => exact .inr (.inr (.inr (.inr (.inl ⟨rfl, by simp [World.ev]⟩))))
  case sendFin_detached =>
    have hl := (List.getElem?_eq_some_iff.mp hwf).1
    exact .inr (.inr (.inl ⟨rfl, by simp [World.setObj, World.ev, hl]⟩))
  case sendFin_waiting =>
    have hl := (List.getElem?_eq_some_iff.mp hwf).1
    exact .inl ⟨_, _, rfl, by simp [World.setObj, World.ev, hl]; rfl⟩
  case sendFin_value => exact .inr (.inr (.inr (.inr (.inr ⟨rfl, .inl ⟨_, List.mem_cons_self ..⟩⟩))))
  case sendFin_interrupted => exact .inr (.inr (.inr (.inr (.inr ⟨rfl, .inr (by simp [World.ev])⟩))))
  all_goals first
    | exact .inr (.inl ⟨_, List.mem_cons_self .., rfl, rfl, rfl⟩)
    | exact .inr (.inl ⟨_, List.mem_cons_of_mem _ (List.mem_cons_self ..), rfl, rfl, rfl⟩)

theorem resolved_mono {w w' : World} (h : w.log <:+ w'.log) {f i : Nat} {bc : Bool} (hr : w.resolved f i bc) : w'.resolved f i bc := by
  rcases hr with h1 | ⟨h0, h1⟩ | ⟨h0, ⟨v, h1⟩ | h1⟩
  · exact .inl (h.subset h1)
  · exact .inr (.inl ⟨h0, h.subset h1⟩)
  · exact .inr (.inr ⟨h0, .inl ⟨v, h.subset h1⟩⟩)
  · exact .inr (.inr ⟨h0, .inr (h.subset h1)⟩)

/-- The call does not consume a send future or a `Receiver` otherwise than by polling it. -/
def Call.polite (f : Nat) : Call → Bool
  | .dropSend g => g != f
  | .setPrio g _ => g != f
  | .dropReply g => g != f
  | _ => true

theorem callR_unresolved {w w' : World} {c : Call} {ms : List Micro} (h : CallR w c w' ms) {f i : Nat} {bc : Bool} (hp : c.polite f = true)
    (hid : ∀ md st, w.objs[f]? = some (.send md i st) → ∀ m rc, st = .new m rc → m.id = i) (hpan : Ev.panic ∉ w'.log)
    (hu : (∃ md st, (md == Mode.bcast) = bc ∧ w.objs[f]? = some (.send md i st)) ∨ (bc = false ∧ w.objs[f]? = some (.reply i))) :
    (∃ md st, (md == Mode.bcast) = bc ∧ w'.objs[f]? = some (.send md i st)) ∨ (∃ m ∈ ms, m.asks f i bc) ∨
    (bc = false ∧ w'.objs[f]? = some (.reply i)) ∨ w'.resolved f i bc := by
  by_cases ht : c.target = some f
  · have key : ∃ o, w.objs[f]? = some o ∧ ((∃ md st, o = .send md i st ∧ (md == Mode.bcast) = bc) ∨ o = .reply i ∧ bc = false) := by
      rcases hu with ⟨md, st, h1, h2⟩ | ⟨h1, h2⟩
      · exact ⟨_, h2, .inl ⟨md, st, rfl, h1⟩⟩
      · exact ⟨_, h2, .inr ⟨rfl, h1⟩⟩
    obtain ⟨o, ho, hk⟩ := key
    have hl := (List.getElem?_eq_some_iff.mp ho).1
    cases h <;> simp only [Call.target, Option.some.injEq, reduceCtorEq] at ht <;> subst ht <;> simp [Call.polite] at hp
    case pollSend_new hx =>
      rw [hx] at ho; simp at ho; subst ho
      rcases hk with ⟨md, st, e, hb⟩ | ⟨e, -⟩ <;> simp at e
      obtain ⟨rfl, rfl, rfl⟩ := e
      exact .inr (.inl ⟨_, List.mem_cons_self .., rfl, hid _ _ hx _ _ rfl, hb⟩)
    case pollSendStale hx =>
      rw [hx] at ho; simp at ho; subst ho
      rcases hk with ⟨md, st, e, hb⟩ | ⟨e, -⟩ <;> simp at e
      obtain ⟨rfl, rfl, rfl⟩ := e
      exact .inr (.inl ⟨_, List.mem_cons_self .., rfl, hid _ _ hx _ _ rfl, hb⟩)
    case pollSend_waiting hx =>
      rw [hx] at ho; simp at ho; subst ho
      rcases hk with ⟨md, st, e, hb⟩ | ⟨e, -⟩ <;> simp at e
      obtain ⟨rfl, rfl, rfl⟩ := e
      exact .inr (.inl ⟨_, List.mem_cons_self .., rfl, rfl, hb⟩)
    case pollSend_done hx =>
      rw [hx] at ho; simp at ho; subst ho
      rcases hk with ⟨md, st, e, hb⟩ | ⟨e, -⟩ <;> simp at e
      obtain ⟨rfl, rfl, rfl⟩ := e
      exact .inr (.inl ⟨_, List.mem_cons_self .., rfl, rfl, hb⟩)
    case pollReply_waiting hx hy =>
      rw [hx] at ho; simp at ho; subst ho
      rcases hk with ⟨md, st, e, hb⟩ | ⟨e, hb⟩ <;> simp at e
      subst e
      exact .inr (.inr (.inl ⟨hb, hx⟩))
    case pollReply_value hx hy =>
      rw [hx] at ho; simp at ho; subst ho
      rcases hk with ⟨md, st, e, hb⟩ | ⟨e, hb⟩ <;> simp at e
      subst e
      exact .inr (.inr (.inr (.inr (.inr ⟨hb, .inl ⟨_, List.mem_cons_self ..⟩⟩))))
    case pollReply_interrupted hx hy =>
      rw [hx] at ho; simp at ho; subst ho
      rcases hk with ⟨md, st, e, hb⟩ | ⟨e, hb⟩ <;> simp at e
      subst e
      exact .inr (.inr (.inr (.inr (.inr ⟨hb, .inr (List.mem_cons_self ..)⟩))))
    case pollReply_panic => simp [World.ev] at hpan
    case detach hx =>
      rw [hx] at ho; simp at ho; subst ho
      rcases hk with ⟨md, st, e, hb⟩ | ⟨e, -⟩ <;> simp at e
      obtain ⟨rfl, rfl, rfl⟩ := e
      exact .inl ⟨.detached, _, by rw [← hb]; rfl, by simp [World.setObj, hl]; rfl⟩
    all_goals
      exfalso
      first
      | (rename_i hx; rw [ho] at hx; simp at hx; subst hx; simp at hk; done)
      | (rename_i hx _; rw [ho] at hx; simp at hx; subst hx; simp at hk; done)
      | (rename_i hx _ _; rw [ho] at hx; simp at hx; subst hx; simp at hk; done)
      | (rename_i hx hy; rw [ho] at hx; simp at hx; subst hx; rcases hk with ⟨_, _, e, -⟩ | ⟨e, -⟩ <;> subst e <;> simp [Obj.mbox] at hy)
      | (rename_i hy hx; rw [ho] at hx; simp at hx; subst hx; rcases hk with ⟨_, _, e, -⟩ | ⟨e, -⟩ <;> subst e <;> simp [Obj.mbox] at hy)
  · rcases hu with ⟨md, st, h1, h2⟩ | ⟨h1, h2⟩
    · exact .inl ⟨md, st, h1, callR_keeps h ht h2⟩
    · exact .inr (.inr (.inl ⟨h1, callR_keeps h ht h2⟩))

theorem step_unresolved {cap : Option Nat} {s s' : Sys} {a : Act} {f i : Nat} {bc : Bool} (hr : Reachable cap s) (hs : s.step a = some s')
    (hp : ∀ c, a = .call c → c.polite f = true) (hu : s.unresolved f i bc) : s'.unresolved f i bc ∨ s'.w.resolved f i bc := by
  have hpan := C31_no_panic (hr.step hs)
  rcases step_rel hs with ⟨c, w', ms, rfl, hc, rfl⟩ | ⟨t, m, rest, w', ms, rfl, ht, he, rfl⟩
  · have key : ∀ hu, _ := fun hu => callR_unresolved hc (f := f) (i := i) (bc := bc) (hp c rfl) (fun md st ho m rc e => by
      subst e; exact ((kInv_reachable hr).kw.objs _ _ ho).2.1) hpan hu
    have fin : ((∃ md st, (md == Mode.bcast) = bc ∧ w'.objs[f]? = some (.send md i st)) ∨ (∃ m ∈ ms, m.asks f i bc) ∨
        (bc = false ∧ w'.objs[f]? = some (.reply i)) ∨ w'.resolved f i bc) →
        Sys.unresolved ⟨w', s.th ++ [ms]⟩ f i bc ∨ w'.resolved f i bc := by
      rintro (h | h | h | h)
      · exact .inl (.inl h)
      · exact .inl (.inr (.inl ⟨ms, by simp, h⟩))
      · exact .inl (.inr (.inr h))
      · exact .inr h
    rcases hu with hu | ⟨x, hx, m, hm, ha⟩ | hu
    · exact fin (key (.inl hu))
    · exact .inl (.inr (.inl ⟨x, by simp [hx], m, hm, ha⟩))
    · exact fin (key (.inr hu))
  · rcases hu with ⟨md, st, hb, ho⟩ | ⟨x, hx, m', hm, ha⟩ | ⟨hb, ho⟩
    · exact .inl (.inl ⟨md, st, hb, exec_keeps_obj hr hs ho (by simp)⟩)
    · obtain ⟨t', ht'⟩ := List.getElem?_of_mem hx
      have hl := (List.getElem?_eq_some_iff.mp ht).1
      by_cases e : t' = t
      · subst e
        rw [ht] at ht'; simp at ht'; subst ht'
        rcases List.mem_cons.mp hm with rfl | hm
        · have hin : ms ++ rest ∈ s.th.set t' (ms ++ rest) := List.mem_of_getElem? (i := t') (by simp [hl])
          rcases execR_asks he (wf_reachable hr ht) ha hpan with h | ⟨m2, h2, h3⟩ | h | h
          · exact .inl (.inl h)
          · exact .inl (.inr (.inl ⟨_, hin, m2, by simp [h2], h3⟩))
          · exact .inl (.inr (.inr h))
          · exact .inr h
        · have hin : ms ++ rest ∈ s.th.set t' (ms ++ rest) := List.mem_of_getElem? (i := t') (by simp [hl])
          exact .inl (.inr (.inl ⟨_, hin, m', by simp [hm], ha⟩))
      · refine .inl (.inr (.inl ⟨x, List.mem_of_getElem? (i := t') ?_, m', hm, ha⟩))
        simp [List.getElem?_set_ne (Ne.symm e), ht']
    · exact .inl (.inr (.inr ⟨hb, exec_keeps_obj hr hs ho (by simp)⟩))

theorem tstep_unresolved {cap : Option Nat} {s s' : Sys} {T T' : Task} {f i : Nat} {bc : Bool} (hr : Reachable cap s) (ht : TStep s T s' T')
    (hu : s.unresolved f i bc) : s'.unresolved f i bc ∨ s'.w.resolved f i bc := by
  cases ht <;> first
    | exact .inl hu
    | exact step_unresolved hr (by assumption) (by intro c e; cases e; rfl) hu

theorem tstep_suffix {cap : Option Nat} {s s' : Sys} {T T' : Task} (hr : Reachable cap s) (ht : TStep s T s' T') :
    s.w.log <:+ s'.w.log := by
  cases ht <;> first
    | exact List.suffix_refl _
    | exact step_suffix hr (by assumption)

theorem AutoC.unresolved {A : Nat → Prop} {cap : Option Nat} {closed : Bool} {c c' : PCfg} (hr : PRun cap closed c) (h : AutoC A c c')
    {f i : Nat} {bc : Bool} (hu : c.s.unresolved f i bc ∨ c.s.w.resolved f i bc) : c'.s.unresolved f i bc ∨ c'.s.w.resolved f i bc := by
  rcases hu with hu | hu
  · cases h with
    | auto h =>
      cases h with
      | exec hs => exact step_unresolved hr.reachable hs (by intro c e; cases e) hu
      | task _ _ ht _ => exact tstep_unresolved hr.reachable ht hu
    | await _ _ hs =>
      rcases hs with hs | hs
      · exact step_unresolved hr.reachable hs (by intro c e; cases e; rfl) hu
      · exact step_unresolved hr.reachable hs (by intro c e; cases e; rfl) hu
  · right
    cases h with
    | auto h =>
      cases h with
      | exec hs => exact resolved_mono (step_suffix hr.reachable hs) hu
      | task _ _ ht _ => exact resolved_mono (tstep_suffix hr.reachable ht) hu
    | await _ _ hs =>
      rcases hs with hs | hs
      · exact resolved_mono (step_suffix hr.reachable hs) hu
      · exact resolved_mono (step_suffix hr.reachable hs) hu

theorem AutosC.unresolved {A : Nat → Prop} {cap : Option Nat} {closed : Bool} {c c' : PCfg} (hr : PRun cap closed c) (h : AutosC A c c')
    {f i : Nat} {bc : Bool} (hu : c.s.unresolved f i bc ∨ c.s.w.resolved f i bc) : c'.s.unresolved f i bc ∨ c'.s.w.resolved f i bc := by
  induction h with
  | refl => exact hu
  | step ha _ _ ih => exact ih (.step hr ha.pstep) (ha.unresolved hr hu)

/-- At rest, an unresolved future is not being polled. -/
theorem unresolved_rest {s : Sys} {f i : Nat} {bc : Bool} (hq : ∀ x ∈ s.th, x = []) (hu : s.unresolved f i bc) :
    (∃ md st, (md == Mode.bcast) = bc ∧ s.w.objs[f]? = some (.send md i st)) ∨ (bc = false ∧ s.w.objs[f]? = some (.reply i)) := by
  rcases hu with hu | ⟨x, hx, m, hm, -⟩ | hu
  · exact .inl hu
  · rw [hq x hx] at hm; simp at hm
  · exact .inr hu

/-- An awaited request that has not resolved is being handled, if only user code is running and some task sleeps. -/
theorem calm_request {cap : Option Nat} {c : PCfg} (hr : PRun cap true c) (hcap : cap ≠ some 0) (hq : c.calm)
    (hz : ∃ T ∈ c.ts, T.asleep c.s.w) {f i : Nat} (hdz : c.s.w.dozes f) (hu : c.s.unresolved f i false) :
    c.handles i ∧ ((∃ md, c.s.w.objs[f]? = some (.send md i .done)) ∨ c.s.w.objs[f]? = some (.reply i)) := by
  obtain ⟨h1, -, -, -⟩ := calm_gen hr hcap hq hz
  have quiet : Quiet cap c.s.w := ⟨c.s.th, hr.reachable, hq.1⟩
  obtain ⟨T, hT, r0, -, c0, x0, ho0, hc0⟩ := hz
  obtain ⟨-, huq, -, -⟩ := quiet.waiting ho0 hc0
  have k := kInv_reachable hr.reachable
  have h1 : .made f i false ∈ c.s.w.log → (∃ md m rc, c.s.w.objs[f]? = some (.send md i (.new m rc))) ∨ c.s.w.objs[f]? = some .gone ∨
      (∀ wk, c.s.w.resp[i]? ≠ some (.waiting (some wk))) ∨ c.handles i := by
    intro hm
    have intr : .lost i ∈ c.s.w.log ∨ .discarded i ∈ c.s.w.log → ∀ wk, c.s.w.resp[i]? ≠ some (.waiting (some wk)) := by
      intro hl wk e
      rcases resp_cases hr.reachable hm with ⟨wk', a1, a2, a3⟩ | ⟨v, wk', a1, a2⟩ | ⟨wk', a1, a2⟩
      · rcases hl with hl | hl
        · exact a2 (.inr (.inl hl))
        · exact a2 (.inr (.inr hl))
      · rw [a1] at e; simp at e
      · rw [a1] at e; simp at e
    rcases h1 f i hm with h2 | h2 | ⟨v, wk, -, e⟩ | h2 | h2 | h2
    · exact .inl h2
    · exact .inr (.inl h2.1)
    · exact .inr (.inr (.inl fun wk' e' => by rw [e] at e'; simp at e'))
    · exact .inr (.inr (.inl (intr (.inl h2))))
    · exact .inr (.inr (.inl (intr (.inr h2))))
    · exact .inr (.inr (.inr h2))
  rcases unresolved_rest hq.1 hu with ⟨md, st, hb, ho⟩ | ⟨-, ho⟩
  · have hmd : md ≠ .bcast := by rintro rfl; simp at hb
    have hmade : Ev.made f i false ∈ c.s.w.log := by
      have := (k.kw.objs _ _ ho).1
      cases md <;> simp [Mode.isB] at this hmd <;> exact this
    cases st with
    | new m rc => simp [World.dozes, ho] at hdz
    | waiting l =>
      simp only [World.dozes, ho] at hdz
      obtain ⟨wk', m, hw⟩ := hdz
      have hid := (wsId_reachable hr.reachable).obj ho hw
      obtain ⟨cp, e1, e2⟩ := C08_parked_only_when_full hr.reachable hmd ⟨_, some wk', by rw [hid]; exact ho, hw⟩
      rw [huq] at e2
      simp at e2; subst e2
      exact absurd e1 hcap
    | done =>
      rcases h1 hmade with ⟨md', m, rc, e⟩ | e | e | e
      · rw [ho] at e; simp at e
      · rw [ho] at e; simp at e
      · cases md with
        | ret => simp [World.dozes, ho, e] at hdz
        | detached => simp [World.dozes, ho] at hdz
        | bcast => exact absurd rfl hmd
      · exact ⟨e, .inl ⟨md, ho⟩⟩
  · have hmade : Ev.made f i false ∈ c.s.w.log := k.kw.objs _ _ ho
    rcases h1 hmade with ⟨md', m, rc, e⟩ | e | e | e
    · rw [ho] at e; simp at e
    · rw [ho] at e; simp at e
    · simp [World.dozes, ho, e] at hdz
    · exact ⟨e, .inr ho⟩

/-- An awaited broadcast has resolved, if only user code is running and on each mailbox some task sleeps. -/
theorem calm_broadcast {cap : Option Nat} {c : PCfg} (hr : PRun cap true c) (hcap : cap ≠ some 0) (hq : c.calm)
    (hsl : ∀ b, b < c.s.w.bq.length → ∃ T ∈ c.ts, T.b = b ∧ T.asleep c.s.w) {f i : Nat} (hdz : c.s.w.dozes f) : ¬ c.s.unresolved f i true := by
  intro hu
  have hlen : 0 < c.s.w.bq.length := by
    obtain ⟨as, hr⟩ := reachable_schedule hr.reachable
    have := (run_dead as .init hr).1
    simp [init] at this; omega
  obtain ⟨T0, hT0, -, hs0⟩ := hsl 0 hlen
  obtain ⟨-, -, -, h4⟩ := calm_gen hr hcap hq ⟨T0, hT0, hs0⟩
  have hlive : ∀ b, b < c.s.w.bq.length → c.s.w.mailboxLive b := by
    intro b hb
    obtain ⟨T, -, rfl, r, -, cc, x, ho, -⟩ := hsl b hb
    exact ⟨_, List.mem_of_getElem? ho, by simp [Obj.holdsMailbox]⟩
  rcases unresolved_rest hq.1 hu with ⟨md, st, hb, ho⟩ | ⟨hb, -⟩
  · have hmd : md = .bcast := by cases md <;> simp at hb ⊢
    subst hmd
    cases st with
    | new m rc => simp [World.dozes, ho] at hdz
    | done => simp [World.dozes, ho] at hdz
    | waiting l =>
      simp only [World.dozes, ho] at hdz
      obtain ⟨wk', m, hw⟩ := hdz
      have hid := (wsId_reachable hr.reachable).obj ho hw
      obtain ⟨cp, e1, b, hbl, e2⟩ := C30_parked_partial hr.reachable hlive ⟨_, some wk', by rw [hid]; exact ho, hw⟩
      have hb : b < c.s.w.bq.length := alive_lt (mailboxLive_alive hr.reachable hbl)
      obtain ⟨T, hT, rfl, hsT⟩ := hsl b hb
      rw [h4 T hT hsT] at e2
      simp at e2; subst e2
      exact hcap e1
  · simp at hb

/-- **C51.** Every awaited request is answered, or it is known why not. Let messages be received by the tasks only, and let the capacity not
be 0. Take any request whose future (send future or detached `Receiver`) exists and is awaited. However the scheduler proceeds: once
nothing more can happen without a new API call, if an actor of the pool is still running, the future has resolved, to `Ok(v)` where `v` is
the value a completed handler invocation of this very message returned; or to `Interrupted`, because the task handling it was dropped, or
because it was being handed to a receive of a task at the moment the task was dropped, or of a `select` at the moment it returned (C03).
The only other possibility is that its handler called `yield_once` and waits there for another message. -/
theorem C51_resolved {A : Nat → Prop} {cap : Option Nat} {c c' : PCfg} (h : PRun cap true c) (hcap : cap ≠ some 0)
    {f i : Nat} (hf : A f) (hu : c.s.unresolved f i false) (hs : AutosC A c c')
    (he : ¬ ∃ c2, AutoC A c' c2 ∧ NoDrop c' c2) (hz : ∃ T ∈ c'.ts, T.ph ≠ .done) :
    (∃ v, .replyOk f i v ∈ c'.s.w.log ∧ .handled i v ∈ c'.s.w.log) ∨
    (.replyInt f i ∈ c'.s.w.log ∧
      ((∃ T ∈ c'.ts, DroppedTask c'.s.w i T) ∨ (.lost i ∈ c'.s.w.log ∧ ∃ T ∈ c'.ts, CancelledTask c'.s.w T))) ∨ c'.yields i := by
  have hr := (hs.run h).1
  have hq : c'.atRestC A := Classical.byContradiction fun hn => he (C51_progress hr hn)
  obtain ⟨T, hT, hd⟩ := hz
  obtain ⟨U, hU, -, hsl⟩ := hq.1.sleeper hr hT hd
  obtain ⟨-, hrcv, hsc, -⟩ := at_rest_gen hr hcap hq.1 ⟨U, hU, hsl⟩
  rcases hs.unresolved h (.inl hu) with hu' | hre
  · exact .inr (.inr (hq.1.handles hr (calm_request hr hcap (hq.1.calm hr) ⟨U, hU, hsl⟩ (hq.2 f hf) hu').1))
  · rcases hre with hre | ⟨hre, -⟩ | ⟨-, ⟨v, hre⟩ | hre⟩
    · rcases C10_err_means_disconnected hr.reachable hre with e | e
      · exact absurd e hrcv
      · exact absurd e hsc
    · simp at hre
    · exact .inl ⟨v, hre, ((C18_replies hr.reachable).1 f i v hre).2.1⟩
    · exact .inr (.inl ⟨hre, C49_only_own_request hr hrcv hre⟩)

/-- **C51.** Every awaited request is answered: `C51_resolved` when no task was dropped and the message was not lost in the race of C03 (which
takes a `select` that returned at the same moment: `C49_only_own_request`), unless its own handler waits for another message. -/
theorem C51_answered {A : Nat → Prop} {cap : Option Nat} {c c' : PCfg} (h : PRun cap true c) (hcap : cap ≠ some 0)
    {f i : Nat} (hf : A f) (hu : c.s.unresolved f i false) (hs : AutosC A c c') (ha : ∀ T ∈ c'.ts, T.aborted = false)
    (hl : .lost i ∉ c'.s.w.log) (he : ¬ ∃ c2, AutoC A c' c2 ∧ NoDrop c' c2) (hz : ∃ T ∈ c'.ts, T.ph ≠ .done) :
    (∃ v, .replyOk f i v ∈ c'.s.w.log ∧ .handled i v ∈ c'.s.w.log) ∨ c'.yields i := by
  rcases C51_resolved h hcap hf hu hs he hz with h1 | ⟨-, ⟨T, hT, h1⟩ | ⟨h1, -⟩⟩ | h1
  · exact .inl h1
  · have := ha T hT; rw [h1.1] at this; simp at this
  · exact absurd h1 hl
  · exact .inr h1

/-- **C51.** At rest nothing goes on: in the configurations of `C51_reaches_rest`, no step is possible without a new API call. -/
theorem C51_rest_is_final {A : Nat → Prop} {cap : Option Nat} {closed : Bool} {c : PCfg} (h : PRun cap closed c) (hr : c.atRestC A) :
    ¬ ∃ c', AutoC A c c' ∧ NoDrop c c' := by
  rintro ⟨c', h1, h2⟩
  cases h1 with
  | auto h1 => exact C50_rest_is_final h hr.1 ⟨c', h1, h2⟩
  | await hf hd _ => exact hd (hr.2 _ hf)

/-- **C51.** The eventual form of `C51_answered`: with messages received by the tasks only and a capacity other than 0, an awaited request is
answered, or interrupted for one of the reasons of `C51_resolved`, or its handler waits for another message in `yield_once`, or every actor
of the pool terminates; and that happens after finitely many steps. -/
theorem C51_eventually {A : Nat → Prop} {cap : Option Nat} {c : PCfg} (h : PRun cap true c) (hcap : cap ≠ some 0)
    {f i : Nat} (hf : A f) (hu : c.s.unresolved f i false) :
    ∃ c', AutosC A c c' ∧ ((∃ v, .replyOk f i v ∈ c'.s.w.log ∧ .handled i v ∈ c'.s.w.log) ∨
      (.replyInt f i ∈ c'.s.w.log ∧
        ((∃ T ∈ c'.ts, DroppedTask c'.s.w i T) ∨ (.lost i ∈ c'.s.w.log ∧ ∃ T ∈ c'.ts, CancelledTask c'.s.w T))) ∨
      c'.yields i ∨ ∀ T ∈ c'.ts, T.ph = .done) := by
  obtain ⟨c', h1, h2⟩ := C51_reaches_rest (A := A) h
  refine ⟨c', h1, ?_⟩
  by_cases hz : ∃ T ∈ c'.ts, T.ph ≠ .done
  · rcases C51_resolved h hcap hf hu h1 (C51_rest_is_final (h1.run h).1 h2) hz with h3 | h3 | h3
    · exact .inl h3
    · exact .inr (.inl h3)
    · exact .inr (.inr (.inl h3))
  · refine .inr (.inr (.inr fun T hT => Classical.byContradiction fun hn => hz ⟨T, hT, hn⟩))

/-- **C51.** Every awaited broadcast completes, if every mailbox ever created on the address is received from by a running actor: once
nothing more can happen without a new API call, its future has resolved to `()`. (If a mailbox was dropped, this is false: `C30_refuted`.) -/
theorem C51_broadcast_completes {A : Nat → Prop} {cap : Option Nat} {c c' : PCfg} (h : PRun cap true c) (hcap : cap ≠ some 0)
    {f i : Nat} (hf : A f) (hu : c.s.unresolved f i true) (hs : AutosC A c c')
    (he : ¬ ∃ c2, AutoC A c' c2 ∧ NoDrop c' c2) (hz : ∀ b, b < c'.s.w.bq.length → ∃ T ∈ c'.ts, T.b = b ∧ T.ph ≠ .done) :
    .sendOk f i ∈ c'.s.w.log := by
  have hr := (hs.run h).1
  have hq : c'.atRestC A := Classical.byContradiction fun hn => he (C51_progress hr hn)
  have hsl : ∀ b, b < c'.s.w.bq.length → ∃ T ∈ c'.ts, T.b = b ∧ T.asleep c'.s.w := by
    intro b hb
    obtain ⟨T, hT, e, hd⟩ := hz b hb
    obtain ⟨U, hU, e', hsl⟩ := hq.1.sleeper hr hT hd
    exact ⟨U, hU, e'.trans e, hsl⟩
  have hlen : 0 < c'.s.w.bq.length := by
    obtain ⟨as, hr⟩ := reachable_schedule hr.reachable
    have := (run_dead as .init hr).1
    simp [init] at this; omega
  obtain ⟨T0, hT0, -, hs0⟩ := hsl 0 hlen
  obtain ⟨-, hrcv, hsc, -⟩ := at_rest_gen hr hcap hq.1 ⟨T0, hT0, hs0⟩
  have h2 : ∀ f i, Ev.sendErr f i ∉ c'.s.w.log := fun f i he => (C10_err_means_disconnected hr.reachable he).elim hrcv hsc
  rcases hs.unresolved h (.inl hu) with hu' | hre
  · exact absurd hu' (calm_broadcast hr hcap (hq.1.calm hr) hsl (hq.2 f hf))
  · rcases hre with hre | ⟨-, hre⟩ | ⟨hre, -⟩
    · exact absurd hre (h2 f i)
    · exact hre
    · simp at hre

/-! ## Concrete executions -/

def World.dozesB (w : World) (f : Nat) : Bool :=
  match w.objs[f]? with
  | some (.send _ _ (.new _ _)) => false
  | some (.send _ _ (.waiting h)) => match w.ws[h]? with
    | some (.active (some _) _) => true
    | _ => false
  | some (.send .ret i .done) => match w.resp[i]? with
    | some (.waiting (some _)) => true
    | _ => false
  | some (.send _ _ .done) => false
  | some (.reply i) => match w.resp[i]? with
    | some (.waiting (some _)) => true
    | _ => false
  | _ => true

theorem dozesB_of {w : World} {f : Nat} (h : w.dozes f) : w.dozesB f = true := by
  unfold World.dozes at h
  unfold World.dozesB
  cases ho : w.objs[f]? with
  | none => rfl
  | some o =>
    cases o with
    | send md i st =>
      cases st with
      | new m rc => simp [ho] at h
      | waiting l => simp only [ho] at h; obtain ⟨wk, m, h⟩ := h; simp [h]
      | done =>
        cases md with
        | ret => simp only [ho] at h; obtain ⟨wk, h⟩ := h; simp [h]
        | _ => simp [ho] at h
    | reply i => simp only [ho] at h; obtain ⟨wk, h⟩ := h; simp [h]
    | _ => rfl

/-- Execute the actions if they are steps of `AutosC` where the futures in `l` are awaited. -/
def PCfg.autosC (l : List Nat) (c : PCfg) : List PAct → Option PCfg
  | [] => some c
  | .other (.call (.pollSend f wk)) :: as => match c.s.step (.call (.pollSend f wk)) with
    | some s' => if c.s.w.dozesB f || !l.contains f then none else PCfg.autosC l { c with s := s' } as
    | none => none
  | a :: as => match c.autos [a] with
    | some c' => PCfg.autosC l c' as
    | none => none

theorem Autos.append {A : Nat → Prop} {c c' c2 : PCfg} (h : Autos c c') (h2 : AutosC A c' c2) : AutosC A c c2 := by
  induction h with
  | refl => exact h2
  | step h1 hn _ ih => exact .step (.auto h1) hn (ih h2)

theorem autosC_sound (l : List Nat) (as : List PAct) : ∀ {c c' : PCfg}, c.autosC l as = some c' → AutosC (· ∈ l) c c' := by
  induction as with
  | nil => intro c c' h; simp [PCfg.autosC] at h; subst h; exact .refl
  | cons a as ih =>
    intro c c' h
    unfold PCfg.autosC at h
    split at h
    · simp_all
    · split at h
      · split at h
        · simp at h
        · rename_i e _ s' hs hd
          simp at e; obtain ⟨rfl, rfl⟩ := e
          simp at hd
          exact .step (.await hd.2 (fun hz => by rw [dozesB_of hz] at hd; simp at hd) (.inl hs)) rfl (ih h)
      · simp at h
    · split at h
      · rename_i e _ c1 h1
        simp at e; obtain ⟨rfl, rfl⟩ := e
        exact (autos_sound _ h1).append (ih h)
      · simp at h

theorem atRestC_ex (c : PCfg) (h1 : ∀ T ∈ c.ts, T.b = 0 ∧ T.ph = .waiting 4 ∧ T.lvl = .run) (h2 : c.s.w.objs[4]? = some (.recv 0 (.waiting 1)))
    (h3 : c.s.w.cells[1]? = some (.empty (some 5))) (h4 : c.s.w.objs[3]? = some .gone) (h5 : ∀ x ∈ c.s.th, x = []) :
    c.atRestC (· ∈ [3]) := by
  refine ⟨⟨h5, fun T hT => ?_⟩, fun f hf => ?_⟩
  · obtain ⟨e1, e2, e3⟩ := h1 T hT
    exact .inr (.inl ⟨⟨4, e2, 1, some 5, by rw [e1]; exact h2, h3⟩, by simp [e3]⟩)
  · simp at hf; subst hf
    simp [World.dozes, h4]

/-- An actor sleeps, a request was made, its future not polled yet. -/
def awaitStart : List PAct := oneSched.take 8
/-- The future is awaited. -/
def awaitSteps : List PAct := oneSched.drop 8

/-- A request to a sleeping actor is awaited, and answered with 7 (`C51_no_livelock`, `C51_progress`, `C51_reaches_rest`,
`C51_answered`, `C51_eventually`, `C51_rest_is_final`). Meets the hypotheses of `C51_resolved`. -/
example : ∃ c c', PRun none true c ∧ c.s.unresolved 3 0 false ∧ ¬ c.atRestC (· ∈ [3]) ∧
    AutosC (· ∈ [3]) c c' ∧ ((∀ T ∈ c'.ts, T.aborted = false) ∧ .lost 0 ∉ c'.s.w.log) ∧ c'.atRestC (· ∈ [3]) ∧ (∃ T ∈ c'.ts, T.ph ≠ .done) ∧ .replyOk 3 0 7 ∈ c'.s.w.log ∧
    ¬ ∃ c2, AutoC (· ∈ [3]) c' c2 ∧ NoDrop c' c2 := by
  refine ⟨_, _, PRun.run .new (as := awaitStart) rfl, .inl ⟨.ret, _, rfl, rfl⟩, fun hn => ?_, autosC_sound [3] awaitSteps rfl, by decide,
    atRestC_ex _ (by decide) rfl rfl rfl (by decide), ⟨_, List.mem_cons_self .., by decide⟩, by decide,
    C51_rest_is_final (closed := true) (cap := none) (PRun.run .new (as := awaitStart ++ awaitSteps) rfl) (atRestC_ex _ (by decide) rfl rfl rfl (by decide))⟩
  exact absurd (dozesB_of (hn.2 3 (by simp))) (by decide)

/-- An actor sleeps, a broadcast was made, its future not polled yet. -/
def awaitBStart : List PAct := oneSched.take 7 ++ [.other (.call (.broadcast 0))]
/-- The future is awaited. -/
def awaitBSteps : List PAct :=
  [.other (.call (.pollSend 3 6)), .other (.exec 3), .other (.exec 3), .other (.exec 3), .other (.exec 3), .other (.exec 3),
   .task 0 (.poll 5), .other (.exec 4), .other (.exec 4), .task 0 .ready, .task 0 .dispatch, .task 0 (.finish 7), .other (.exec 6),
   .other (.exec 6), .other (.exec 6), .task 0 .loop, .task 0 .next, .task 0 (.poll 5), .other (.exec 8), .other (.exec 8),
   .task 0 .pending]

theorem awaitB_ex : ((PCfg.mk (init (some 1)) []).run awaitBStart).any (fun c =>
    decide ((∀ T ∈ c.ts, T.aborted = false) ∧ c.s.w.objs[3]? = some (.send .bcast 0 (.new ⟨0, .valued 0⟩ .strong))) &&
    (c.autosC [3] awaitBSteps).any (fun c' =>
      decide ((c'.ts.length = 1 ∧ c'.s.w.bq.length = 1) ∧ (∀ T ∈ c'.ts, T.b = 0 ∧ T.ph = .waiting 4 ∧ T.lvl = .run) ∧
        c'.s.w.objs[4]? = some (.recv 0 (.waiting 1)) ∧ c'.s.w.cells[1]? = some (.empty (some 5)) ∧ c'.s.w.objs[3]? = some .gone ∧
        (∀ x ∈ c'.s.th, x = []) ∧ .sendOk 3 0 ∈ c'.s.w.log))) = true := by decide

/-- A broadcast to the sleeping actor of a bounded(1) mailbox completes (`C51_broadcast_completes`). -/
example : ∃ c c', PRun (some 1) true c ∧ (∀ T ∈ c.ts, T.aborted = false) ∧ c.s.unresolved 3 0 true ∧ AutosC (· ∈ [3]) c c' ∧
    (∀ b, b < c'.s.w.bq.length → ∃ T ∈ c'.ts, T.b = b ∧ T.ph ≠ .done) ∧ .sendOk 3 0 ∈ c'.s.w.log ∧
    ¬ ∃ c2, AutoC (· ∈ [3]) c' c2 ∧ NoDrop c' c2 := by
  obtain ⟨c, h0, hx⟩ := (Option.any_eq_true _ _).mp awaitB_ex
  rw [Bool.and_eq_true, decide_eq_true_eq] at hx
  obtain ⟨⟨a1, a2⟩, hx⟩ := hx
  obtain ⟨c', h1, hx⟩ := (Option.any_eq_true _ _).mp hx
  rw [decide_eq_true_eq] at hx
  obtain ⟨b1, b2, b3, b4, b5, b6, b7⟩ := hx
  have hs := autosC_sound [3] awaitBSteps h1
  have hr : PRun (some 1) true c := PRun.run .new h0
  refine ⟨c, c', hr, a1, .inl ⟨.bcast, _, rfl, a2⟩, hs, fun b hb => ?_, b7, C51_rest_is_final (hs.run hr).1 (atRestC_ex _ b2 b3 b4 b5 b6)⟩
  have hb0 : b = 0 := by omega
  subst hb0
  cases ht : c'.ts with
  | nil => simp [ht] at b1
  | cons T _ =>
    have := b2 T (by simp [ht])
    exact ⟨T, by simp, this.1, by rw [this.2.1]; simp⟩

end Xtra
