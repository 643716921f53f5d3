import Verif.PropsHist
/-! # Reference counts, replies, priorities, panics: C10, C14, C15, C18, C19, C31, C37, C38 -/

namespace Xtra

theorem tot_countP {f : Micro → Nat} {p : Micro → Bool} (h : ∀ x, f x = if p x then 1 else 0) (th : List (List Micro)) :
    tot f th = th.flatten.countP p := by
  induction th with
  | nil => rfl
  | cons a th ih =>
    have : tot f (a :: th) = sumBy f a + tot f th := rfl
    rw [this, ih, sumBy_countP h]; simp

theorem strongRefs_eq (w : World) : sumBy oStrong w.objs = w.strongRefs := by
  apply sumBy_countP; intro o
  cases o with
  | send md mid s =>
    cases s with
    | new m rc => cases rc <;> rfl
    | _ => rfl
  | addr rc => cases rc <;> rfl
  | _ => simp [oStrong, Obj.isStrongRef]

theorem mailboxRefs_eq (w : World) : sumBy oRcv w.objs = w.mailboxRefs := by
  apply sumBy_countP; intro o; cases o <;> simp [oRcv, Obj.isMailboxRef]

/-- **C14.** In every reachable state the strong count is the number of live strong references (objects
plus those owned by calls in progress), and the mailbox count is the number of live mailbox references.
Weak addresses count for nothing. -/
theorem C14_counts_exact {cap : Option Nat} {s : Sys} (h : Reachable cap s) :
    s.w.sc = s.w.strongRefs + s.th.flatten.countP Micro.holdsStrong ∧
    s.w.rcv = s.w.mailboxRefs + s.th.flatten.countP Micro.holdsRx := by
  constructor
  · rw [sc_reachable h, strongRefs_eq, tot_countP (p := Micro.holdsStrong)]
    intro m
    cases m <;> (first | rfl | (rename_i rc; cases rc <;> rfl) | (rename_i rc wk; cases rc <;> rfl))
  · rw [rcv_reachable h, mailboxRefs_eq, tot_countP (p := Micro.holdsRx)]
    intro m; cases m <;> simp [mRcv, Micro.holdsRx]

theorem Quiet.flat {cap : Option Nat} {w : World} (hq : Quiet cap w) :
    ∃ th, Reachable cap ⟨w, th⟩ ∧ th.flatten = [] := by
  obtain ⟨th, hr, he⟩ := hq
  refine ⟨th, hr, ?_⟩
  rw [List.flatten_eq_nil_iff]; exact he

/-- **C14**, while no call is in progress: the counts are exactly the numbers of live references. -/
theorem C14_counts_exact_quiet {cap : Option Nat} {w : World} (hq : Quiet cap w) :
    w.sc = w.strongRefs ∧ w.rcv = w.mailboxRefs := by
  obtain ⟨th, hr, he⟩ := hq.flat
  have := C14_counts_exact hr
  simpa [he] using this

def exRefsSched : List Act :=
  [.call (.asEither 0), .call (.downgrade 0), .call (.send 2), .call (.send 3), .call (.cloneMailbox 1), .exec 4,
   .call (.next 1)]

/-- Meets the hypotheses of `C14_counts_exact`, `C14_counts_exact_quiet`. -/
example : ∃ w, Quiet (some 2) w ∧ w.sc = 3 ∧ w.rcv = 3 ∧ w.objs.length = 8 := by
  refine ⟨_, ⟨_, Reachable.run .init (as := exRefsSched) rfl, by decide⟩, rfl, rfl, rfl⟩

/-- **C15.** Once the strong count is zero it stays zero, whatever happens; likewise the mailbox count. -/
theorem C15_zero_forever {cap : Option Nat} {s s' : Sys} {a : Act} (h : Reachable cap s) (hs : s.step a = some s') :
    (s.w.sc = 0 → s'.w.sc = 0) ∧ (s.w.rcv = 0 → s'.w.rcv = 0) := by
  rcases step_rel hs with ⟨c, w', ms, rfl, hc, rfl⟩ | ⟨t, m1, rest, w', ms, rfl, ht, he, rfl⟩
  · exact ⟨sc_zero_call h hc, rcv_zero_call h hc⟩
  · exact ⟨execR_sc_zero he, execR_rcv_zero he⟩

/-- **C15.** `try_upgrade` on a weak address, in any reachable state (calls in progress or not): it
succeeds exactly if a strong reference is alive, and then the result is a strong address. -/
theorem C15_upgrade_iff {cap : Option Nat} {s s' : Sys} {i : Nat} (h : Reachable cap s)
    (hs : s.step (.call (.upgrade i)) = some s') :
    (0 < s.w.strongRefs + s.th.flatten.countP Micro.holdsStrong ∧ s'.w.log.head? = some (.upgraded i true) ∧
      s'.w.objs = s.w.objs ++ [.addr .strong] ∧ s'.w.sc = s.w.sc + 1) ∨
    (s.w.strongRefs + s.th.flatten.countP Micro.holdsStrong = 0 ∧ s'.w.log.head? = some (.upgraded i false) ∧
      s'.w.objs = s.w.objs ∧ s'.w.sc = 0) := by
  have h1 := (C14_counts_exact h).1
  rcases step_rel hs with ⟨c, w', ms, hcc, hc, rfl⟩ | ⟨t, m1, rest, w', ms, hcc, ht, he, rfl⟩
  · simp at hcc; subst hcc
    cases hc
    case upgrade_no hsc ho => right; exact ⟨by omega, rfl, rfl, hsc⟩
    case upgrade_yes hsc ho => left; exact ⟨by omega, rfl, rfl, rfl⟩
  · simp at hcc

/-- Meets the hypotheses of `C15_upgrade_iff`. -/
example : ∃ s s', Reachable (some 1) s ∧ s.step (.call (.upgrade 2)) = some s' ∧ s'.w.log = [.upgraded 2 true] := by
  refine ⟨_, _, Reachable.run .init (as := [.call (.downgrade 0)]) rfl, rfl, rfl⟩

/-- **C31.** No internal `unwrap`, `expect`, `unreachable!` or `panic!` of the modelled code (those behind
the `panic` event; the documented one of `SendFuture::priority` is C19) is ever reached. -/
theorem C31_no_panic {cap : Option Nat} {s : Sys} (h : Reachable cap s) : Ev.panic ∉ s.w.log := by
  intro hp
  have := noPanic_reachable h
  rw [sumBy_eq_zero] at this
  have := this _ hp; simp [ePanic] at this

/-! ## Replies -/

theorem evFin_resolves (f : Nat) (l : List Ev) : l.countP (Ev.resolves f) ≤ sumBy (evFin f) l := by
  rw [← sumBy_countP (f := fun e => if e.resolves f then 1 else 0) (fun _ => rfl)]
  apply sumBy_le; intro e
  cases e <;> simp [Ev.resolves, evFin, n1]

theorem atL_gone_le (objs : List Obj) (f : Nat) : atL oGone objs f ≤ 1 := by
  unfold atL; split
  · rename_i o _; cases o <;> simp [oGone]
  · simp

/-- handled and destroyed exclude each other, and the return value is unique. -/
theorem fin_excl {cap : Option Nat} {s : Sys} (h : Reachable cap s) {i r : Nat} (hh : Ev.handled i r ∈ s.w.log) :
    ¬ Destroyed s.w.log i ∧ ∀ r', Ev.handled i r' ∈ s.w.log → r' = r := by
  have h1 := held_reachable h i
  have h2 := created_le i s.w
  simp only [World.held] at h1
  have h3 : sumBy (eAll i) s.w.log ≤ 1 := by omega
  have two : ∀ e e' : Ev, e ∈ s.w.log → e' ∈ s.w.log → eAll i e = 1 → eAll i e' = 1 → e = e' := by
    intro e e' he he' h4 h5
    by_cases heq : e = e'
    · exact heq
    · exfalso
      obtain ⟨l1, l2, hl⟩ := List.append_of_mem he
      rw [hl] at he' h3
      have h6 : e' ∈ l1 ∨ e' ∈ l2 := by
        simp at he'; rcases he' with h | h | h
        · exact .inl h
        · exact absurd h.symm heq
        · exact .inr h
      simp only [sumBy_append, sumBy_cons] at h3
      rcases h6 with h6 | h6
      · obtain ⟨k, hk⟩ := List.getElem?_of_mem h6
        have := le_sumBy (eAll i) hk; omega
      · obtain ⟨k, hk⟩ := List.getElem?_of_mem h6
        have := le_sumBy (eAll i) hk; omega
  refine ⟨fun hd => ?_, fun r' hr' => ?_⟩
  · rcases hd with hd | hd | hd
    · have := two _ _ hh hd (by simp [eAll, n1]) (by simp [eAll, n1]); simp at this
    · have := two _ _ hh hd (by simp [eAll, n1]) (by simp [eAll, n1]); simp at this
    · have := two _ _ hh hd (by simp [eAll, n1]) (by simp [eAll, n1]); simp at this
  · have := two _ _ hh hr' (by simp [eAll, n1]) (by simp [eAll, n1]); simp at this; exact this.symm

/-- **C18.** In every history: a send future or detached receiver `f` that resolved to `Ok(r)` is the future
made for message `i`, and a completed handler invocation of exactly that message returned `r` (and no
other); one that resolved to `Interrupted` belongs to a message that was destroyed and whose handler never
completed; and every future resolves (Disconnected, Ok or Interrupted) at most once. -/
theorem C18_replies {cap : Option Nat} {s : Sys} (h : Reachable cap s) :
    (∀ f i r, Ev.replyOk f i r ∈ s.w.log →
      Ev.made f i false ∈ s.w.log ∧ Ev.handled i r ∈ s.w.log ∧
      (∀ r', Ev.handled i r' ∈ s.w.log → r' = r) ∧ ¬ Destroyed s.w.log i) ∧
    (∀ f i, Ev.replyInt f i ∈ s.w.log →
      Ev.made f i false ∈ s.w.log ∧ Destroyed s.w.log i ∧ ∀ r, Ev.handled i r ∉ s.w.log) ∧
    (∀ f, s.w.log.countP (Ev.resolves f) ≤ 1) ∧
    (∀ f f' i bc bc', Ev.made f i bc ∈ s.w.log → Ev.made f' i bc' ∈ s.w.log → f = f' ∧ bc = bc') := by
  have k := kInv_reachable h
  refine ⟨fun f i r he => ?_, fun f i he => ?_, fun f => ?_, fun f f' i bc bc' h1 h2 => ?_⟩
  · have h1 : Ev.made f i false ∈ s.w.log := k.evs _ he
    have h2 : Ev.handled i r ∈ s.w.log := rpl_reachable h _ he
    have h3 := fin_excl h h2
    exact ⟨h1, h2, h3.2, h3.1⟩
  · have h1 : Ev.made f i false ∈ s.w.log := k.evs _ he
    have h2 : Destroyed s.w.log i := rpl_reachable h _ he
    exact ⟨h1, h2, fun r hr => (fin_excl h hr).1 h2⟩
  · have h1 := evFin_resolves f s.w.log
    have h2 := fin_reachable h f
    have h3 := atL_gone_le s.w.objs f
    omega
  · have := k.uniq _ _ _ _ _ _ h1 h2
    exact ⟨this.1.mpr rfl, this.2 rfl⟩

/-- The three outcomes of looking at a reply. -/
theorem resp_cases {cap : Option Nat} {s : Sys} (h : Reachable cap s) {f i : Nat} (hm : Ev.made f i false ∈ s.w.log) :
    (∃ wk, s.w.resp[i]? = some (.waiting wk) ∧ ¬ Destroyed s.w.log i ∧ ∀ r, Ev.handled i r ∉ s.w.log) ∨
    (∃ r wk, s.w.resp[i]? = some (.value r wk) ∧ Ev.handled i r ∈ s.w.log) ∨
    (∃ wk, s.w.resp[i]? = some (.interrupted wk) ∧ Destroyed s.w.log i) := by
  have k := (kInv_reachable h).made _ _ _ hm
  have hr := resp_reachable h i
  cases hc : s.w.resp[i]? with
  | none => rw [List.getElem?_eq_none_iff] at hc; omega
  | some x =>
    rw [hc] at hr
    cases x with
    | none => have := k.2.2.mp hc; simp at this
    | waiting wk => exact .inl ⟨wk, rfl, hr⟩
    | value r wk => exact .inr (.inl ⟨r, wk, rfl, hr⟩)
    | interrupted wk => exact .inr (.inr ⟨wk, rfl, hr⟩)

/-- **C18.** Polling a detached receiver (a single atomic step, in any reachable state): it resolves to
`Ok(r)` exactly if the handler of its message completed with `r`, to `Interrupted` exactly if the message
was destroyed, and is pending otherwise. -/
theorem C18_poll_receiver {cap : Option Nat} {s s' : Sys} {o i wk : Nat} (h : Reachable cap s)
    (ho : s.w.objs[o]? = some (.reply i)) (hs : s.step (.call (.pollReply o wk)) = some s') :
    (∀ r, Ev.handled i r ∈ s.w.log → s'.w.log = .replyOk o i r :: s.w.log) ∧
    (Destroyed s.w.log i → s'.w.log = .replyInt o i :: s.w.log) ∧
    ((∀ r, Ev.handled i r ∉ s.w.log) → ¬ Destroyed s.w.log i → s'.w.log = .sendPending o i wk :: s.w.log) := by
  have hm : Ev.made o i false ∈ s.w.log := (kInv_reachable h).kw.objs _ _ ho
  rcases resp_cases h hm with ⟨wk', h1, h2, h3⟩ | ⟨r, wk', h1, h2⟩ | ⟨wk', h1, h2⟩
  · simp [Sys.step, Xtra.call, ho, h1] at hs; subst hs
    exact ⟨fun r hr => absurd hr (h3 r), fun hd => absurd hd h2, fun _ _ => rfl⟩
  · simp [Sys.step, Xtra.call, ho, h1] at hs; subst hs
    refine ⟨fun r' hr => ?_, fun hd => absurd hd (fin_excl h h2).1, fun hn _ => absurd h2 (hn r)⟩
    rw [(fin_excl h h2).2 r' hr]; rfl
  · simp [Sys.step, Xtra.call, ho, h1] at hs; subst hs
    exact ⟨fun r hr => absurd h2 (fin_excl h hr).1, fun _ => rfl, fun _ hn => absurd h2 hn⟩

/-- **C18.** The same for the step in which an admitted, not detached send future looks at its reply. -/
theorem C18_poll_send {cap : Option Nat} {s s' : Sys} {t f i wk : Nat} {rest : List Micro} (h : Reachable cap s)
    (ht : s.th[t]? = some (.sendFin f .ret i wk :: rest)) (hs : s.step (.exec t) = some s') :
    (∀ r, Ev.handled i r ∈ s.w.log → s'.w.log = .replyOk f i r :: s.w.log) ∧
    (Destroyed s.w.log i → s'.w.log = .replyInt f i :: s.w.log) ∧
    ((∀ r, Ev.handled i r ∉ s.w.log) → ¬ Destroyed s.w.log i → s'.w.log = .sendPending f i wk :: s.w.log) := by
  have hm : Ev.made f i false ∈ s.w.log := (kInv_reachable h).th _ (List.mem_of_getElem? ht) _ (List.mem_cons_self ..)
  rcases resp_cases h hm with ⟨wk', h1, h2, h3⟩ | ⟨r, wk', h1, h2⟩ | ⟨wk', h1, h2⟩
  · simp [Sys.step, exec, ht, h1] at hs; subst hs
    exact ⟨fun r hr => absurd hr (h3 r), fun hd => absurd hd h2, fun _ _ => rfl⟩
  · simp [Sys.step, exec, ht, h1] at hs; subst hs
    refine ⟨fun r' hr => ?_, fun hd => absurd hd (fin_excl h h2).1, fun hn _ => absurd h2 (hn r)⟩
    rw [(fin_excl h h2).2 r' hr]; rfl
  · simp [Sys.step, exec, ht, h1] at hs; subst hs
    exact ⟨fun r hr => absurd h2 (fin_excl h hr).1, fun _ => rfl, fun _ hn => absurd h2 hn⟩

/-- A handled and a destroyed message in one history (see `exHandledSched` for the first). -/
def exInterruptedSched : List Act :=
  [.call (.send 0), .call (.detach 2), .call (.pollSend 2 0), .exec 2, .exec 2, .exec 2, .exec 2, .exec 2, .call (.next 1),
   .call (.pollRecv 3 0), .exec 4, .call (.dispatch 3), .call (.dropDispatch 3), .exec 6, .exec 6, .exec 6]

/-- Meets the hypotheses of `C18_replies`, `C18_poll_receiver`. -/
example : ∃ s s', Reachable (some 1) s ∧ s.w.objs[2]? = some (.reply 0) ∧ Destroyed s.w.log 0 ∧
    s.step (.call (.pollReply 2 0)) = some s' ∧ Ev.replyInt 2 0 ∈ s'.w.log := by
  refine ⟨_, _, Reachable.run .init (as := exInterruptedSched) rfl, rfl, ?_, rfl, ?_⟩
  · exact .inr (.inr (by decide))
  · decide

/-- Both counters at zero, and a further step. Meets the hypotheses of `C15_zero_forever`, `C31_no_panic`. -/
example : ∃ s s', Reachable none s ∧ s.w.sc = 0 ∧ s.w.rcv = 0 ∧ s.step (.call (.upgrade 2)) = some s' ∧ s'.w.sc = 0 ∧
    s.w.log.length ≠ 0 :=
  ⟨_, _, Reachable.run .init (as := [.call (.downgrade 0), .call (.len 0), .call (.dropAddr 0), .exec 2, .call (.dropMailbox 1), .exec 3,
    .exec 3, .exec 3]) rfl, rfl, rfl, rfl, rfl, by decide⟩

end Xtra
