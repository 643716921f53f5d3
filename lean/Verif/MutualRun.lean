import Verif.NetRun
/-! Concrete cases for C55: two actors that `join` on each other's answers; and what goes wrong when one of them is stopped meanwhile. -/

set_option linter.unusedSimpArgs false

namespace Xtra

/-- Execute the actions if they are steps of `NMoves`. -/
def Net.moves (ext : List (Nat × Nat)) (n : Nat) (N : Net) : List NAct → Option Net
  | [] => some N
  | .nest p k :: as => match N.act (.nest p k) with
    | some N' => Net.moves ext n N' as
    | none => none
  | a :: as => if N.autoB ext n a then match N.act a with
    | some N' => Net.moves ext n N' as
    | none => none
    else none

theorem nest_act {N N' : Net} {p k : Nat} (h : N.act (.nest p k) = some N') : N.Nest p N' := by
  simp only [Net.act] at h
  repeat' split at h
  all_goals simp at h
  subst h
  rename_i h1 h2
  exact .nest (by assumption) (by simpa [PCfg.onTop] using h2) h1

theorem nmoves_sound {ok : Allowed} {caps : Nat → Option Nat} {ext : List (Nat × Nat)} {n : Nat} : ∀ (as : List NAct) {N N' : Net},
    NRun ok caps N → (∀ a ∈ as, a.allowed ok) → N.moves ext n as = some N' →
    NMoves ok (fun p f => (p, f) ∈ ext) n N N' ∧ N.acts as = some N' := by
  intro as
  induction as with
  | nil => intro N N' h _ e; simp [Net.moves] at e; subst e; exact ⟨.refl, rfl⟩
  | cons a as ih =>
    intro N N' h ha e
    unfold Net.moves at e
    split at e
    · rename_i e1; simp at e1
    · rename_i p k as' e1
      simp at e1
      obtain ⟨rfl, rfl⟩ := e1
      split at e
      · rename_i h1
        have h2 := nest_act h1
        obtain ⟨h3, h4⟩ := ih (.step h (.nest h2)) (fun b hb => ha b (by simp [hb])) e
        exact ⟨.nest h2 h3, by simp only [Net.acts, h1]; exact h4⟩
      · simp at e
    · rename_i a' as' _ e1
      simp at e1
      obtain ⟨rfl, rfl⟩ := e1
      split at e
      · rename_i hb
        split at e
        · rename_i h1
          obtain ⟨h2, h3⟩ := autoB_sound (nInv_run h) (ha a (by simp)) hb h1
          obtain ⟨h4, h5⟩ := ih (h2.run h) (fun b hb => ha b (by simp [hb])) e
          exact ⟨.step h2 h3 h4, by simp only [Net.acts, h1]; exact h5⟩
        · simp at e
      · simp at e

/-- Channel 0 has a sleeping actor. The actor of channel 1 handles a request of a client, and `join`s on asking the actor of channel 0. -/
def joinStart : List NAct :=
  (oneSched.take 7).map (PAct.at 0) ++ (oneSched.take 18).map (PAct.at 1) ++
    [.nest 1 0, .task 1 1 .next 0, .task 1 1 (.poll 5) 0, .exec 1 7, .exec 1 7, .task 1 1 .pending 0, .ask 1 0 0 0 .answer true]
/-- The actor of channel 0 handles that request, and `join`s on asking the actor of channel 1. -/
def joinMutual : List NAct :=
  ((oneSched.drop 8).take 10).map (PAct.at 0) ++
    [.nest 0 0, .task 0 1 .next 0, .task 0 1 (.poll 5) 0, .exec 0 7, .exec 0 7, .task 0 1 .pending 0, .ask 0 0 1 0 .answer true]
/-- The actor of channel 1 handles that, inside its `join`; the other one gets the answer, and answers; and so does the first. -/
def joinSteps : List NAct :=
  [.poll 1 5 6, .exec 1 9, .exec 1 9, .exec 1 9, .exec 1 9, .exec 1 9, .task 1 1 (.poll 5) 0, .exec 1 10, .task 1 1 .ready 0,
   .task 1 1 .dispatch 0, .task 1 1 (.finish 7) 0, .exec 1 12, .exec 1 12, .exec 1 12, .poll 1 5 6, .exec 1 13, .resume 0 0 0,
   .task 0 1 (.futReady 5) 0, .exec 0 8, .task 0 1 .giveUp 0, .exec 0 9, .exec 0 9, .exec 0 9, .exec 0 9, .task 0 1 .over 0,
   .task 0 0 (.finish 7) 0, .exec 0 10, .exec 0 10, .exec 0 10, .poll 0 3 6, .exec 0 11, .task 0 0 .loop 0, .task 0 0 .next 0,
   .task 0 0 (.poll 5) 0, .exec 0 13, .exec 0 13, .task 0 0 .pending 0, .task 1 1 .loop 0, .task 1 1 .next 0, .resume 1 0 0,
   .task 1 1 (.poll 5) 0, .exec 1 15, .exec 1 15, .task 1 1 .pending 0, .task 1 1 (.futReady 5) 0, .exec 1 16, .task 1 1 .giveUp 0,
   .exec 1 17, .exec 1 17, .exec 1 17, .exec 1 17, .task 1 1 .over 0, .task 1 0 (.finish 7) 0, .exec 1 18, .exec 1 18, .exec 1 18,
   .poll 1 3 6, .exec 1 19, .task 1 0 .loop 0, .task 1 0 .next 0, .task 1 0 (.poll 5) 0, .exec 1 21, .exec 1 21, .task 1 0 .pending 0]
/-- Meanwhile the actor of channel 1 handles another request of a client, inside its `join`, and calls `stop_self`: the `select` in `join`
returns. Only then the actor of channel 0 asks. -/
def stopJoin : List NAct :=
  joinStart ++ [.call 1 (.send 0), .poll 1 5 7, .exec 1 9, .exec 1 9, .exec 1 9, .exec 1 9, .exec 1 9, .task 1 1 (.poll 5) 0, .exec 1 10,
    .task 1 1 .ready 0, .task 1 1 .dispatch 0, .call 1 (.stopSelf 4), .task 1 1 (.finish 8) 0, .exec 1 13, .exec 1 13, .exec 1 13,
    .task 1 1 .return 0] ++ joinMutual ++
    [.poll 1 5 6, .exec 1 15, .poll 1 6 6, .exec 1 16, .exec 1 16, .exec 1 16, .exec 1 16, .exec 1 16]

/-- The first task sleeps, on the receive future `r`; the second one has returned. -/
def PCfg.joinedRest (c : PCfg) (r l : Nat) : Prop :=
  c.ts.map (·.ph) = [.waiting r, .done] ∧ (∀ T ∈ c.ts, T.b = 0 ∧ T.aborted = false) ∧ c.s.w.bq.length = 1 ∧
  c.s.w.objs[r]? = some (.recv 0 (.waiting l)) ∧ c.s.w.cells[l]? = some (.empty (some 5)) ∧ (∀ x ∈ c.s.th, x = [])

instance (c : PCfg) (r l : Nat) : Decidable (c.joinedRest r l) := by unfold PCfg.joinedRest; infer_instance

theorem joinedRest_mem {c : PCfg} {r l : Nat} (h : c.joinedRest r l) : ∀ T ∈ c.ts, T.ph = .waiting r ∨ T.ph = .done := by
  intro T hT
  have : T.ph ∈ c.ts.map (·.ph) := List.mem_map_of_mem hT
  rw [h.1] at this
  simpa using this

theorem joinedRest_atRest {c : PCfg} {r l : Nat} (h : c.joinedRest r l) : c.atRest :=
  ⟨h.2.2.2.2.2, fun T hT => (joinedRest_mem h T hT).symm.imp_right fun e =>
    ⟨r, e, l, some 5, by rw [(h.2.1 T hT).1]; exact h.2.2.2.1, h.2.2.2.2.1⟩⟩

theorem joinedRest_served {c : PCfg} {r l : Nat} (h : c.joinedRest r l) : c.served ∧ c.servedAll ∧ ∃ T ∈ c.ts, T.ph ≠ .done := by
  have : ∃ T ∈ c.ts, T.ph = .waiting r := by
    have : APh.waiting r ∈ c.ts.map (·.ph) := by rw [h.1]; simp
    simpa using this
  obtain ⟨T, hT, e⟩ := this
  refine ⟨.inl ⟨T, hT, by rw [e]; simp⟩, .inl fun b hb => ⟨T, hT, ?_, by rw [e]; simp⟩, T, hT, by rw [e]; simp⟩
  rw [(h.2.1 T hT).1]
  have := h.2.2.1
  omega

theorem join_ex : (newNet.acts joinStart).any (fun N =>
    decide ((N.h 1 0).wait = [⟨0, 3, 0, .answer, true⟩] ∧ (N.ch 1).s.w.objs[3]? = some (.send .ret 0 .done)) &&
    (N.moves [(1, 3)] 2 joinMutual).any (fun N1 =>
      decide ((N1.h 1 0).wait = [⟨0, 3, 0, .answer, true⟩] ∧ (N1.h 0 0).wait = [⟨1, 5, 1, .answer, true⟩]) &&
      (N1.moves [(1, 3)] 2 joinSteps).any (fun N' => decide (
        ((N'.ch 0).joinedRest 5 2 ∧ (N'.ch 1).joinedRest 7 3 ∧ (N'.ch 1).s.w.objs[3]? = some .gone) ∧
        (N'.h 0 0 = .idle ∧ N'.h 1 0 = .idle ∧ N'.h 0 1 = .idle ∧ N'.h 1 1 = .idle) ∧
        .replyOk 3 0 7 ∈ (N'.ch 0).s.w.log ∧ .replyOk 5 1 7 ∈ (N'.ch 1).s.w.log ∧ .replyOk 3 0 7 ∈ (N'.ch 1).s.w.log)))) = true := by decide

/-- Everybody may await everybody else, in `join` or `select` only. -/
def onlyJoin : Allowed := fun p j _ jn => p < 2 ∧ j < 2 ∧ jn = true

theorem onlyJoin_all {as : List NAct} (h : (as.all fun a => match a with | .ask p _ j _ _ jn => decide (p < 2 ∧ j < 2 ∧ jn = true) | _ => true) = true) :
    ∀ a ∈ as, a.allowed onlyJoin := by
  intro a ha
  have := List.all_eq_true.mp h a ha
  cases a <;> simp [NAct.allowed, onlyJoin] at this ⊢
  exact this

theorem proc_lt {as : List NAct} (h : as.all (fun a => decide (a.proc < 2)) = true) {q : Nat} (hq : ¬ q < 2) : ∀ a ∈ as, q ≠ a.proc := by
  intro a ha
  have := List.all_eq_true.mp h a ha
  simp at this; omega

/-- The example of `xtra/examples/interleaved_messages.rs`: two actors await each other's answers in `join`, and get them, and the client
is answered (`C55_progress`, `C55_nobody_hangs`, `C55_answered`). -/
example : ∃ (N N1 N' : Net), NRun onlyJoin (fun _ => none) N ∧ (N.ch 1).s.unresolved 3 0 false ∧
    ⟨0, 3, 0, .answer, true⟩ ∈ (N.h 1 0).wait ∧ NMoves onlyJoin (fun p f => (p, f) ∈ [(1, 3)]) 2 N N1 ∧
    -- each awaits the other
    ⟨0, 3, 0, .answer, true⟩ ∈ (N1.h 1 0).wait ∧ ⟨1, 5, 1, .answer, true⟩ ∈ (N1.h 0 0).wait ∧ ¬ N1.atRest (fun p f => (p, f) ∈ [(1, 3)]) 2 ∧
    NMoves onlyJoin (fun p f => (p, f) ∈ [(1, 3)]) 2 N1 N' ∧ N'.atRest (fun p f => (p, f) ∈ [(1, 3)]) 2 ∧
    N'.final onlyJoin (fun p f => (p, f) ∈ [(1, 3)]) 2 ∧ N'.served onlyJoin 2 ∧ N'.uncut 2 ∧ (∀ p, p < 2 → ∃ T ∈ (N'.ch p).ts, T.ph ≠ .done) ∧
    .replyOk 3 0 7 ∈ (N'.ch 0).s.w.log ∧ .replyOk 5 1 7 ∈ (N'.ch 1).s.w.log ∧ .replyOk 3 0 7 ∈ (N'.ch 1).s.w.log := by
  obtain ⟨N, h0, hx⟩ := (Option.any_eq_true _ _).mp join_ex
  rw [Bool.and_eq_true, decide_eq_true_eq] at hx
  obtain ⟨⟨a1, a2⟩, hx⟩ := hx
  obtain ⟨N1, h1, hx⟩ := (Option.any_eq_true _ _).mp hx
  rw [Bool.and_eq_true, decide_eq_true_eq] at hx
  obtain ⟨⟨c1, c2⟩, hx⟩ := hx
  obtain ⟨N', h2, hx⟩ := (Option.any_eq_true _ _).mp hx
  rw [decide_eq_true_eq] at hx
  obtain ⟨⟨b0, b1, b2⟩, ⟨d1, d2, d3, d4⟩, e⟩ := hx
  have hr : NRun onlyJoin (fun _ => none) N := NRun.acts joinStart .new (onlyJoin_all (by decide)) h0
  obtain ⟨m1, g1⟩ := nmoves_sound joinMutual hr (onlyJoin_all (by decide)) h1
  have hr1 := m1.run hr
  obtain ⟨m2, g2⟩ := nmoves_sound joinSteps hr1 (onlyJoin_all (by decide)) h2
  have hr' := m2.run hr1
  have iv' := nInv_run hr'
  have hp2 : ∀ p, p < 2 → p = 0 ∨ p = 1 := fun p hp => by omega
  have hidle : ∀ q k, N'.h q k = .idle := by
    intro q k
    by_cases hq : q < 2
    · have : (N'.ch q).ts.length = 2 := by
        rcases hp2 q hq with rfl | rfl
        · simpa using congrArg List.length b0.1
        · simpa using congrArg List.length b1.1
      by_cases hk : k < 2
      · rcases hp2 q hq with rfl | rfl <;> rcases hp2 k hk with rfl | rfl <;> assumption
      · exact h_beyond iv' (by omega)
    · rw [acts_h joinSteps g2 (proc_lt (by decide) hq), acts_h joinMutual g1 (proc_lt (by decide) hq), acts_h joinStart h0 (proc_lt (by decide) hq)]; rfl
  have haw : ∀ p f, N'.awaited (fun p f => (p, f) ∈ [(1, 3)]) p f → p = 1 ∧ f = 3 := by
    rintro p f (h | ⟨q, k, i, want, jn, h⟩)
    · simpa using h
    · rw [hidle] at h; simp [HSt.idle] at h
  have hrest : N'.atRest (fun p f => (p, f) ∈ [(1, 3)]) 2 := by
    intro p hp
    refine ⟨⟨?_, fun f hf => ?_⟩, hidle p⟩
    · rcases hp2 p hp with rfl | rfl
      · exact joinedRest_atRest b0
      · exact joinedRest_atRest b1
    · obtain ⟨rfl, rfl⟩ := haw p f hf
      simp [World.dozes, b2]
  refine ⟨N, N1, N', hr, .inl ⟨.ret, _, rfl, a2⟩, by rw [a1]; simp, m1, by rw [c1]; simp, by rw [c2]; simp, fun hn => ?_, m2, hrest,
    C54_rest_is_final hr' hrest, fun p hp => ?_, fun p hp T hT U hU hc => ?_, fun p hp => ?_, e⟩
  · rw [(hn 1 (by omega)).2 0] at c1; simp [HSt.idle] at c1
  · rcases hp2 p hp with rfl | rfl
    · exact ⟨(joinedRest_served b0).1, fun _ => (joinedRest_served b0).2.1⟩
    · exact ⟨(joinedRest_served b1).1, fun _ => (joinedRest_served b1).2.1⟩
  · obtain ⟨-, -, hg⟩ := hc
    have hu := given_inUser hg
    have : ∃ r, T.ph = .waiting r ∨ T.ph = .done := by
      rcases hp2 p hp with rfl | rfl
      · exact ⟨_, joinedRest_mem b0 T hT⟩
      · exact ⟨_, joinedRest_mem b1 T hT⟩
    obtain ⟨r, h | h⟩ := this <;> rw [h] at hu <;> simp [APh.inUser] at hu
  · rcases hp2 p hp with rfl | rfl
    · exact (joinedRest_served b0).2.2
    · exact (joinedRest_served b1).2.2

/-- Everybody awaits something, or is a `select` whose future does, and nothing resolves: final. -/
theorem stuck_final_join {ok : Allowed} {Ext : Nat → Nat → Prop} {caps : Nat → Option Nat} {n : Nat} {N : Net} (hr : NRun ok caps N)
    (h1 : ∀ p, p < n → ∀ x ∈ (N.ch p).s.th, x = [])
    (h2 : ∀ p, p < n → ∀ k T, (N.ch p).ts[k]? = some T → T.ph = .done ∨ ((∃ r am, T.ph = .handling r am) ∧ (N.h p k).wait ≠ []) ∨
      (T.asleep (N.ch p).s.w ∧ ∃ k' V x, (N.ch p).ts[k']? = some V ∧ T.covers V = true ∧ x ∈ (N.h p k').wait ∧ x.joined = true))
    (h3 : ∀ p, p < n → ∀ k, (N.h p k).fuel = 0)
    (h4 : ∀ p, p < n → ∀ f, N.awaited Ext p f → (N.ch p).s.w.dozes f)
    (h5 : ∀ p, p < n → ∀ k x, x ∈ (N.h p k).wait → ¬ (N.ch x.p).s.w.met x.f x.i x.want) : N.final ok Ext n := by
  have iv := nInv_run hr
  rintro ⟨N', ⟨p, hp, hs⟩, hn⟩
  cases hs with
  | @chan c' h' ha g =>
    have hn := hn p
    rw [setHs_ch, setCh_self] at hn
    cases ha with
    | auto ha =>
      cases ha with
      | @exec t s' hs =>
        simp only [Sys.step] at hs
        cases ht : (N.ch p).s.th[t]? with
        | none => simp [ht] at hs
        | some x =>
          have := h1 p hp x (List.mem_of_getElem? ht)
          subst this
          simp [ht] at hs
      | @task k T T' s' hk hot ht hz =>
        have hl := (List.getElem?_eq_some_iff.mp hk).1
        have hab : T'.aborted = T.aborted := by
          have h3 := congrArg (fun l : List Bool => l[k]?) hn
          simp [hk, hl] at h3
          rw [h3, (List.getElem?_eq_some_iff.mp hk).2]
        rcases h2 p hp k T hk with hd | ⟨⟨r, am, hph⟩, hw⟩ | ⟨hs, k', V, x, h6, h7, h8, h9⟩
        · exact ht.not_done hd
        · have hb : (N.ch p).busy k := ⟨T, hk, by rw [hph]; rfl⟩
          have hna := busy_not_aborted (iv.run p) hk (by rw [hph]; rfl)
          have hna' : T'.aborted = false := by rw [hab]; exact hna
          have hg := g.returns k hb
          cases ht <;> simp_all [PCfg.busy, APh.inUser]
        · have hz := hz hs
          obtain ⟨r, hph, -⟩ := hs
          have hna : T.aborted = false := by
            obtain ⟨sh, -⟩ := (pInv_run (iv.run p)).all k T hk
            unfold TaskOk at sh; rw [hph] at sh
            exact sh.2.2.1
          have hlast : T.lvl = .sel ∧ T'.lvl = .last := by
            rw [hab, hna] at hz
            simp at hz
            cases ht <;> simp_all
          have := g.futs k T T' k' V x hk (by simp [hl]) hlast.1 hlast.2 h6 h7 h8
          rw [h9] at this; simp at this
    | await hf hd _ => exact hd (h4 p hp _ hf)
  | ask h =>
    cases h with
    | @ask k _ _ _ _ _ _ _ _ hh _ => have := h3 p hp k; rw [hh] at this; simp at this
  | resume h =>
    cases h with
    | @resume k _ _ _ _ hh _ hres => exact h5 p hp k _ (by rw [hh]; simp) hres

theorem stopJoin_ex : (newNet.acts stopJoin).any (fun N => decide (
      ((N.ch 0).ts = [⟨1, 0, .handling 2 (.one ⟨0, .valued 0⟩), [2], [], false, .run⟩, ⟨2, 0, .waiting 4, [4], [], false, .sel⟩] ∧
       (N.ch 1).ts = [⟨1, 0, .handling 2 (.one ⟨0, .valued 0⟩), [2], [], false, .run⟩,
         ⟨2, 0, .done, [4], [(4, .one ⟨1, .valued 0⟩, true)], false, .sel⟩]) ∧
      ((∀ x ∈ (N.ch 0).s.th, x = []) ∧ (∀ x ∈ (N.ch 1).s.th, x = [])) ∧
      (N.h 0 0 = ⟨0, [⟨1, 6, 2, .answer, true⟩]⟩ ∧ N.h 1 0 = ⟨0, [⟨0, 3, 0, .answer, true⟩]⟩ ∧ N.h 0 1 = .idle ∧ N.h 1 1 = .idle) ∧
      ((N.ch 0).s.w.objs[3]? = some (.send .ret 0 .done) ∧ (N.ch 1).s.w.objs[6]? = some (.send .ret 2 .done) ∧
        (N.ch 1).s.w.objs[3]? = some (.send .ret 0 .done) ∧ (N.ch 0).s.w.objs[4]? = some (.recv 0 (.waiting 1)) ∧
        (N.ch 0).s.w.cells[1]? = some (.empty (some 5))) ∧
      ((N.ch 0).s.w.resp[0]? = some (.waiting (some 6)) ∧ (N.ch 1).s.w.resp[0]? = some (.waiting (some 6)) ∧
        (N.ch 1).s.w.resp[2]? = some (.waiting (some 6))) ∧
      logHas (N.ch 0).s.w 3 0 = false ∧ logHas (N.ch 1).s.w 6 2 = false ∧ logHas (N.ch 1).s.w 3 0 = false)) = true := by decide

/-- **C55.** That no `select` was cut short is needed: if an actor is stopped while it `join`s, the `select` in `join` returns, and `join`
awaits its future without serving the mailbox (lib.rs:383-386). Then two actors that `join` on each other's answers deadlock after all, and nobody
else is answered either. -/
theorem C55_refuted : ∃ (ok : Allowed) (N : Net), (∀ p j want jn, ok p j want jn → p < 2 ∧ j < 2 ∧ jn = true) ∧ NRun ok (fun _ => none) N ∧
    (∀ p, p < 2 → (N.ch p).served) ∧ N.final ok (fun p f => (p, f) = (1, 3)) 2 ∧ (∀ p, p < 2 → ∀ T ∈ (N.ch p).ts, T.aborted = false) ∧
    -- both are awaiting answers
    ⟨0, 3, 0, .answer, true⟩ ∈ (N.h 1 0).wait ∧ ⟨1, 6, 2, .answer, true⟩ ∈ (N.h 0 0).wait ∧
    ¬ (N.ch 0).s.w.resolved 3 0 false ∧ ¬ (N.ch 1).s.w.resolved 6 2 false ∧
    -- and so is a client
    (N.ch 1).s.unresolved 3 0 false ∧ ¬ (N.ch 1).s.w.resolved 3 0 false := by
  obtain ⟨N, h0, hx⟩ := (Option.any_eq_true _ _).mp stopJoin_ex
  rw [decide_eq_true_eq] at hx
  obtain ⟨⟨a0, a1⟩, ⟨b0, b1⟩, ⟨c0, c1, c2, c3⟩, ⟨d0, d1, d2, d3, d4⟩, ⟨e0, e1, e2⟩, f0, f1, f2⟩ := hx
  have hr : NRun onlyJoin (fun _ => none) N := NRun.acts stopJoin .new (onlyJoin_all (by decide)) h0
  have iv := nInv_run hr
  have r0 : ¬ (N.ch 0).s.w.resolved 3 0 false := fun h => by rw [logHas_iff.mpr h] at f0; simp at f0
  have r1 : ¬ (N.ch 1).s.w.resolved 6 2 false := fun h => by rw [logHas_iff.mpr h] at f1; simp at f1
  have r2 : ¬ (N.ch 1).s.w.resolved 3 0 false := fun h => by rw [logHas_iff.mpr h] at f2; simp at f2
  have hp2 : ∀ p, p < 2 → p = 0 ∨ p = 1 := fun p hp => by omega
  have hbey : ∀ q k, ¬ (q < 2 ∧ k = 0) → N.h q k = .idle := by
    intro q k hk
    by_cases hq : q < 2
    · by_cases hk1 : k = 1
      · subst hk1; rcases hp2 q hq with rfl | rfl <;> assumption
      · exact h_beyond iv (by
          have : (N.ch q).ts.length = 2 := by
            rcases hp2 q hq with rfl | rfl
            · rw [a0]; rfl
            · rw [a1]; rfl
          omega)
    · rw [acts_h stopJoin h0 (proc_lt (by decide) hq)]; rfl
  have hwait : ∀ q k x, x ∈ (N.h q k).wait → x = ⟨1, 6, 2, .answer, true⟩ ∨ x = ⟨0, 3, 0, .answer, true⟩ := by
    intro q k x h
    by_cases hk : q < 2 ∧ k = 0
    · obtain ⟨hq, rfl⟩ := hk
      rcases hp2 q hq with rfl | rfl
      · rw [c0] at h; simp at h; simp [h]
      · rw [c1] at h; simp at h; simp [h]
    · rw [hbey q k hk] at h; simp [HSt.idle] at h
  refine ⟨onlyJoin, N, fun _ _ _ _ h => h, hr, fun p hp => .inl ?_, stuck_final_join hr (fun p hp => ?_) (fun p hp k T hk => ?_)
    (fun p hp k => ?_) (fun p hp f hf => ?_) (fun p hp k x h => ?_), fun p hp T hT => ?_, by rw [c1]; simp, by rw [c0]; simp, r0, r1,
    .inl ⟨.ret, _, rfl, d2⟩, r2⟩
  · rcases hp2 p hp with rfl | rfl
    · exact ⟨_, by rw [a0]; exact List.mem_cons_self .., by simp⟩
    · exact ⟨_, by rw [a1]; exact List.mem_cons_self .., by simp⟩
  · rcases hp2 p hp with rfl | rfl
    · exact b0
    · exact b1
  · rcases hp2 p hp with rfl | rfl
    · rw [a0] at hk
      rcases k with _ | _ | k <;> simp at hk
      · subst hk; exact .inr (.inl ⟨⟨_, _, rfl⟩, by rw [c0]; simp⟩)
      · subst hk
        exact .inr (.inr ⟨⟨4, rfl, 1, some 5, d3, d4⟩, 0, _, _, by rw [a0]; rfl, by decide, by rw [c0]; exact List.mem_cons_self .., rfl⟩)
    · rw [a1] at hk
      rcases k with _ | _ | k <;> simp at hk
      · subst hk; exact .inr (.inl ⟨⟨_, _, rfl⟩, by rw [c1]; simp⟩)
      · subst hk; exact .inl rfl
  · by_cases hk : k = 0
    · subst hk
      rcases hp2 p hp with rfl | rfl
      · rw [c0]
      · rw [c1]
    · rw [hbey p k (fun h => hk h.2)]; rfl
  · have key : p = 1 ∧ f = 3 ∨ p = 1 ∧ f = 6 ∨ p = 0 ∧ f = 3 := by
      rcases hf with hf | ⟨q, k, i, want, jn, hf⟩
      · simp at hf; exact .inl hf
      · rcases hwait q k _ hf with h | h <;> simp at h
        · exact .inr (.inl ⟨h.1, h.2.1⟩)
        · exact .inr (.inr ⟨h.1, h.2.1⟩)
    rcases key with ⟨rfl, rfl⟩ | ⟨rfl, rfl⟩ | ⟨rfl, rfl⟩
    · simp only [World.dozes, d2]; exact ⟨6, e1⟩
    · simp only [World.dozes, d1]; exact ⟨6, e2⟩
    · simp only [World.dozes, d0]; exact ⟨6, e0⟩
  · rcases hwait p k x h with rfl | rfl
    · exact r1
    · exact r0
  · rcases hp2 p hp with rfl | rfl
    · rw [a0] at hT; simp at hT; rcases hT with rfl | rfl <;> rfl
    · rw [a1] at hT; simp at hT; rcases hT with rfl | rfl <;> rfl

end Xtra
