import Verif.PropsIdle
import Verif.PropsPark
import Verif.PropsLost
import Verif.Pool
import Verif.Why
/-! Shutdown notices and the messages sent before them (C56): proofs about the channel. -/

set_option linter.unusedSimpArgs false

namespace Xtra

/-- Some receive future has yielded the notice that the strong addresses are gone. -/
def World.told (w : World) : Prop := ∃ r b, Ev.recv r b .shutdown ∈ w.log

theorem World.told.mono {w w' : World} (h : w.told) (hs : w.log <:+ w'.log) : w'.told := by
  obtain ⟨r, b, h⟩ := h; exact ⟨r, b, hs.subset h⟩

/-- The steps that yield a notice. -/
theorem execR_told {w w' : World} {mc : Micro} {ms : List Micro} (h : ExecR w mc w' ms) (rg : RegWs w.ws w.wOne w.wAll) {r b : Nat}
    (he : Ev.recv r b .shutdown ∈ w'.log) : Ev.recv r b .shutdown ∈ w.log ∨
    (∃ wk, mc = .recvTry r b wk ∧ w.uq = [] ∧ w.items b = [] ∧ w.sc = 0) ∨
    ∃ c wk wk', mc = .recvPoll r b c wk ∧ w.cells[c]? = some (.full .shutdown wk') := by
  cases h
  case shutTx =>
    rcases shutTx_mem he with h | ⟨j, h⟩
    · exact .inl h
    · simp at h
  case recv_all r0 b0 wk m w1 hp _ _ =>
    simp only [World.yieldMsg, World.ev] at he
    rcases List.mem_cons.mp he with h | h
    · simp at h
    · rcases popBroadcast_log rg hp with h' | ⟨m', ts, h'⟩ <;> rw [show _ = _ from h'] at h
      · exact .inl h
      · simp at h; exact .inl h
  case recvBcast_some r0 b0 c wk m w1 hp =>
    simp only [World.yieldMsg, World.ev] at he
    rcases List.mem_cons.mp he with h | h
    · simp at h
    · rcases popBroadcast_log rg hp with h' | ⟨m', ts, h'⟩ <;> rw [show _ = _ from h'] at h
      · exact .inl h
      · simp at h; exact .inl h
  case recv_one r0 b0 wk m w1 hp _ _ =>
    simp only [World.yieldMsg, World.ev] at he
    rcases List.mem_cons.mp he with h | h
    · simp at h
    · rw [show _ = _ from World.popUnicast_log hp] at h; exact .inl h
  case recv_shutdown r0 b0 wk h1 h2 h3 =>
    simp only [World.yieldMsg, World.ev] at he
    rcases List.mem_cons.mp he with h | h
    · simp at h; obtain ⟨rfl, rfl⟩ := h
      exact .inr (.inl ⟨wk, rfl, h1, h2, h3⟩)
    · exact .inl h
  case recvPoll_one hc =>
    simp only [World.yieldMsg, World.ev] at he
    rcases List.mem_cons.mp he with h | h
    · simp at h
    · exact .inl h
  case recvPoll_shutdown hc =>
    simp only [World.yieldMsg, World.ev] at he
    rcases List.mem_cons.mp he with h | h
    · simp at h; obtain ⟨rfl, rfl⟩ := h
      exact .inr (.inr ⟨_, _, _, rfl, hc⟩)
    · exact .inl h
  all_goals first
    | exact .inl he
    | (simp at he; exact .inl he)
    | exact .inl (lateLog_recv he)
    | (simp at he; exact .inl (lateLog_recv he))
    | (simp [World.sendBroadcast] at he; exact .inl he)
    | (simp [World.sendBroadcast] at he; exact .inl (lateLog_recv he))
    | (rw [World.decBq_log] at he; exact .inl he)

/-- A notice is given only when no strong reference is left. -/
theorem told_sc {cap : Option Nat} {s : Sys} (h : Reachable cap s) (ht : s.w.told) : s.w.sc = 0 := by
  refine Reachable.inv (P := fun s => s.w.told → s.w.sc = 0) ?_ ?_ ?_ h ht
  · rintro ⟨r, b, h⟩; simp [init] at h
  · rintro s c w' ms hr ih hc ⟨r, b, he⟩
    exact sc_zero_call hr hc (ih ⟨r, b, callR_recvEv hc he⟩)
  · rintro s t m rest w' ms hr ih ht hx ⟨r, b, he⟩
    refine execR_sc_zero hx ?_
    rcases execR_told hx (regWs_reachable hr) he with h | ⟨wk, -, -, -, h⟩ | ⟨c, wk, wk', -, h⟩
    · exact ih ⟨r, b, h⟩
    · exact h
    · exact (iInv_reachable hr).sh _ _ h

/-- Nobody has been told, or is about to be told, that the strong addresses are gone. -/
structure Untold (s : Sys) : Prop where
  told : ¬ s.w.told
  ns : ∀ x ∈ s.th, ∀ c, Micro.notifyShut c ∉ x
  sh : ∀ (c : Nat) (wk : Option Nat), s.w.cells[c]? ≠ some (.full .shutdown wk)

theorem Untold.of_sc {cap : Option Nat} {s : Sys} (h : Reachable cap s) (hs : s.w.sc ≠ 0) : Untold s where
  told := fun ht => hs (told_sc h ht)
  ns := fun x hx c hc => hs ((iInv_reachable h).ns x hx c hc)
  sh := fun c wk hc => hs ((iInv_reachable h).sh c wk hc)

/-- While messages are queued, nobody comes to be told. -/
theorem Untold.step {cap : Option Nat} {s s' : Sys} {a : Act} (h : Reachable cap s) (hu : Untold s) (hq : s.w.uq ≠ [])
    (hs : s.step a = some s') : Untold s' := by
  have hrg := regWs_reachable h
  rcases step_rel hs with ⟨c, w', ms, rfl, hc, rfl⟩ | ⟨t, mc, rest, w', ms, rfl, ht, he, rfl⟩
  · refine ⟨?_, ?_, ?_⟩
    · rintro ⟨r, b, he⟩; exact hu.told ⟨r, b, callR_recvEv hc he⟩
    · intro x hx d hd
      simp at hx; rcases hx with hx | rfl
      · exact hu.ns x hx d hd
      · cases hc <;> simp at hd
    · intro d wk hd
      simp only [callR_cells hc] at hd; exact hu.sh d wk hd
  · have hth := List.mem_of_getElem? ht
    refine ⟨?_, ?_, ?_⟩
    · rintro ⟨r, b, h1⟩
      rcases execR_told he hrg h1 with h2 | ⟨wk, -, h2, -⟩ | ⟨c, wk, wk', -, h2⟩
      · exact hu.told ⟨r, b, h2⟩
      · exact hq h2
      · exact hu.sh _ _ h2
    · intro x hx d hd
      rcases List.mem_or_eq_of_mem_set hx with hx | rfl
      · exact hu.ns x hx d hd
      · rcases List.mem_append.mp hd with hd | hd
        · have := execR_ns he hd; subst this
          cases he
          rw [(uInv_reachable h).idle hq] at hd; simp at hd
        · exact hu.ns _ hth d (by simp [hd])
    · intro d wk hd
      rcases execR_sh he hrg hd with h1 | ⟨c, rfl⟩
      · exact hu.sh d wk h1
      · exact hu.ns _ hth c (by simp)

/-- No mailbox is left and nobody has been told: nobody ever will. -/
theorem untold_dead {cap : Option Nat} {s s' : Sys} {a : Act} (h : Reachable cap s) (h0 : s.w.rcv = 0) (hn : ¬ s.w.told)
    (hs : s.step a = some s') : s'.w.rcv = 0 ∧ ¬ s'.w.told := by
  refine ⟨(C15_zero_forever h hs).2 h0, ?_⟩
  rintro ⟨r, b, he⟩
  have hc := rcv_reachable h
  rcases step_rel hs with ⟨c, w', ms, rfl, hc, rfl⟩ | ⟨t, mc, rest, w', ms, rfl, ht, hx, rfl⟩
  · exact hn ⟨r, b, callR_recvEv hc he⟩
  · have h1 := tot_head mRcv ht
    rcases execR_told hx (regWs_reachable h) he with h2 | ⟨wk, rfl, -⟩ | ⟨c, wk, wk', rfl, -⟩
    · exact hn ⟨r, b, h2⟩
    · simp [mRcv] at h1; omega
    · simp [mRcv] at h1; omega

/-- Message `m` is queued, and nobody is being told; or it has been received; or no mailbox is left and nobody was told. -/
def Queued (m : Msg) (s : Sys) : Prop :=
  (∃ r b, Ev.recv r b (.one m) ∈ s.w.log) ∨ (m ∈ s.w.uq ∧ Untold s) ∨ (s.w.rcv = 0 ∧ ¬ s.w.told)

theorem Queued.step {cap : Option Nat} {s s' : Sys} {a : Act} {m : Msg} (h : Reachable cap s) (hq : Queued m s)
    (hs : s.step a = some s') : Queued m s' := by
  rcases hq with ⟨r, b, h1⟩ | ⟨h1, h2⟩ | ⟨h1, h2⟩
  · exact .inl ⟨r, b, (step_suffix h hs).subset h1⟩
  · have hne : s.w.uq ≠ [] := by intro e; rw [e] at h1; simp at h1
    have hu := h2.step h hne hs
    rcases step_rel hs with ⟨c, w', ms, rfl, hc, rfl⟩ | ⟨t, mc, rest, w', ms, rfl, ht, he, rfl⟩
    · exact .inr (.inl ⟨by rw [show (Sys.mk w' (s.th ++ [ms])).w.uq = s.w.uq from callR_uq hc]; exact h1, hu⟩)
    · rcases execR_uqMem he (regWs_reachable h) h1 with h3 | ⟨r, b, h3⟩ | ⟨rfl, -⟩
      · exact .inr (.inl ⟨h3, hu⟩)
      · exact .inl ⟨r, b, by rw [show (Sys.mk w' (s.th.set t (ms ++ rest))).w.log = _ from h3]; simp⟩
      · exact .inr (.inr ⟨execR_rcv_zero he (shutTx_now h ht), hu.told⟩)
  · exact .inr (.inr (untold_dead h h1 h2 hs))

/-- Message `m` is that of a parked unicast send. -/
def World.parkedUni (w : World) (m : Msg) : Prop := ∃ k wk, w.ws[k]? = some (.active wk m) ∧ k ∈ w.wOne

theorem parkedUni_ne {cap : Option Nat} {s : Sys} {m : Msg} (h : Reachable cap s) (hc : cap ≠ some 0) (hp : s.w.parkedUni m) :
    s.w.uq ≠ [] := by
  obtain ⟨k, wk, h1, h2⟩ := hp
  have h3 := (uInv_reachable h).parked h2 h1
  intro e
  unfold World.uniFull at h3
  rw [cap_reachable h, e] at h3
  cases cap with
  | none => simp at h3
  | some c => simp at h3; exact hc (by rw [h3])

/-- A cell of a parked unicast send stays on the unicast side. -/
theorem parkedUni_stays {cap : Option Nat} {s s' : Sys} {a : Act} {k : Nat} {wk wk' : Option Nat} {m : Msg} (h : Reachable cap s)
    (hs : s.step a = some s') (h1 : s.w.ws[k]? = some (.active wk m)) (h2 : k ∈ s.w.wOne) (h3 : s'.w.ws[k]? = some (.active wk' m)) :
    s'.w.parkedUni m := by
  refine ⟨k, wk', h3, ?_⟩
  have hr' := h.step hs
  rcases (regWs_reachable hr').reg h3 with h4 | h4
  · exact h4
  · obtain ⟨⟨f', hf'⟩, -⟩ := (kInv_reachable hr').kw.all _ h4 _ _ h3
    obtain ⟨⟨f, hf⟩, -⟩ := (kInv_reachable h).kw.one _ h2 _ _ h1
    have := ((kInv_reachable hr').uniq _ _ _ _ _ _ ((step_suffix h hs).subset hf) hf').2 rfl
    simp at this

/-- The send future in slot `f` was dropped (or panicked) before it resolved. -/
def World.forsaken (w : World) (f : Nat) : Prop := w.objs[f]? = some .gone ∧ ∀ e ∈ w.log, e.resolves f = false

theorem resolves_fin {f : Nat} {e : Ev} (h : e.resolves f = true) : evFin f e = 1 := by
  cases e <;> simp [Ev.resolves] at h <;> simp [evFin, n1, h]

theorem unresolved_of_sum {f : Nat} {l : List Ev} (h : sumBy (evFin f) l = 0) : ∀ e ∈ l, e.resolves f = false := by
  intro e he
  rw [sumBy_eq_zero] at h
  cases hr : e.resolves f with
  | false => rfl
  | true => have := h e he; rw [resolves_fin hr] at this; simp at this

theorem World.forsaken.step {cap : Option Nat} {s s' : Sys} {a : Act} {f : Nat} (h : Reachable cap s) (hf : s.w.forsaken f)
    (hs : s.step a = some s') : s'.w.forsaken f := by
  refine ⟨obj_gone h hs hf.1, ?_⟩
  have key : sumBy (evFin f) s'.w.log + atL oGone s.w.objs f ≤ sumBy (evFin f) s.w.log + atL oGone s'.w.objs f := by
    rcases step_rel hs with ⟨c, w', ms, rfl, hc, rfl⟩ | ⟨t, mc, rest, w', ms, rfl, ht, he, rfl⟩
    · exact callR_fin hc f
    · exact execR_fin he (wf_reachable h ht) (regWs_reachable h) f
  have h1 : atL oGone s.w.objs f = 1 := atL_at oGone hf.1
  have h2 := atL_gone_le s'.w.objs f
  obtain ⟨l, hl⟩ := step_suffix h hs
  rw [← hl, sumBy_append] at key
  have hl0 := unresolved_of_sum (f := f) (l := l) (by omega)
  intro e he
  rw [← hl] at he
  rcases List.mem_append.mp he with he | he
  · exact hl0 e he
  · exact hf.2 e he

/-- The future whose parked message is being dropped was dropped before it resolved. -/
theorem dropWs_gone {cap : Option Nat} {s : Sys} (h : Reachable cap s) : ∀ x ∈ s.th, ∀ k, Micro.dropWs k ∈ x →
    ∀ (wk : Option Nat) (m : Msg), s.w.ws[k]? = some (.active wk m) → ∀ f bc, Ev.made f m.id bc ∈ s.w.log → s.w.forsaken f := by
  induction h with
  | init => simp [init]
  | @step s s' a hr hs ih =>
    intro x hx k hk wk m hc f bc hm
    have kI := kInv_reachable hr
    have rg := regWs_reachable hr
    have made_lt : ∀ {wk : Option Nat}, s.w.ws[k]? = some (.active wk m) → m.id < s.w.resp.length := by
      intro wk h1
      rcases rg.reg h1 with h2 | h2
      · obtain ⟨⟨g, hg⟩, -⟩ := kI.kw.one _ h2 _ _ h1; exact (kI.made _ _ _ hg).2.1
      · obtain ⟨⟨g, hg⟩, -⟩ := kI.kw.all _ h2 _ _ h1; exact (kI.made _ _ _ hg).2.1
    have hs0 := hs
    rcases step_rel hs with ⟨c, w', ms, rfl, hcl, rfl⟩ | ⟨t, mc, rest, w', ms, rfl, ht, he, rfl⟩
    · have hws := callR_wsEq hcl
      simp only [hws] at hc
      have hm0 : Ev.made f m.id bc ∈ s.w.log := by
        rcases callR_made hcl hm with h1 | ⟨h1, -⟩
        · exact h1
        · have := made_lt hc; omega
      simp at hx; rcases hx with hx | rfl
      · exact (ih x hx k hk wk m hc f bc hm0).step hr hs0
      · have key : ∀ {g : Nat} {md : Mode} {mid : Nat}, s.w.objs[g]? = some (.send md mid (.waiting k)) → f = g := by
          intro g md mid ho
          have hid := (wsId_reachable hr).obj ho hc
          have ok : okO s.w.log g (.send md mid (.waiting k)) := kI.kw.objs _ _ ho
          exact (kI.uniq _ _ _ _ _ _ hm0 ok.1).1.mpr hid
        have nores : ∀ {g : Nat} {md : Mode} {mid : Nat}, s.w.objs[g]? = some (.send md mid (.waiting k)) →
            ∀ e ∈ s.w.log, e.resolves g = false := by
          intro g md mid ho
          have h1 := fin_reachable hr g
          have h2 : atL oGone s.w.objs g = 0 := atL_at oGone ho
          exact unresolved_of_sum (by omega)
        cases hcl <;> simp at hk
        case setPrio_waiting ho =>
          subst hk
          have := key ho; subst this
          have hl := (List.getElem?_eq_some_iff.mp ho).1
          refine ⟨by simp [World.setObj, hl], fun e he => ?_⟩
          simp at he
          rcases he with rfl | he
          · rfl
          · exact nores ho e he
        case dropSend_waiting ho =>
          subst hk
          have := key ho; subst this
          have hl := (List.getElem?_eq_some_iff.mp ho).1
          exact ⟨by simp [World.setObj, hl], nores ho⟩
    · have hm0 : Ev.made f m.id bc ∈ s.w.log := execR_made he rg hm
      have hin : ∃ y ∈ s.th, Micro.dropWs k ∈ y := by
        rcases List.mem_or_eq_of_mem_set hx with hx | rfl
        · exact ⟨x, hx, hk⟩
        · rcases List.mem_append.mp hk with hk | hk
          · exfalso; cases he <;> simp at hk
          · exact ⟨_, List.mem_of_getElem? ht, by simp [hk]⟩
      obtain ⟨y, hy, hky⟩ := hin
      have hold : ∃ wk0, s.w.ws[k]? = some (.active wk0 m) := by
        have h1 := (own_reachable hr).ws k
        obtain ⟨l, hl⟩ := List.getElem?_of_mem hy
        obtain ⟨j, hj⟩ := List.getElem?_of_mem hky
        have h2 := le_sumBy (sumBy (mWs k)) hl
        have h3 := le_sumBy (mWs k) hj
        have h4 : tot (mWs k) s.th = sumBy (sumBy (mWs k)) s.th := rfl
        simp [mWs] at h3
        have h5 : wsL s.w.ws k ≠ 0 := by omega
        cases hw : s.w.ws[k]? with
        | none => simp [wsL, wsActive, hw] at h5
        | some z =>
          rcases execR_evo he rg hw with e | ⟨a, m', f', md', mid, b, e, -, e2⟩ | ⟨a, m', e, e2, -⟩ | ⟨a, m', e, e2, -⟩ | ⟨e2, -⟩
          · simp only at hc; rw [hc] at e; simp at e; subst e; exact ⟨wk, rfl⟩
          · simp only at hc; rw [hc] at e2; simp at e2; obtain ⟨-, rfl⟩ := e2; subst e; exact ⟨a, rfl⟩
          · simp only at hc; rw [hc] at e2; simp at e2
          · simp only at hc; rw [hc] at e2; simp at e2
          · simp only at hc; rw [hc] at e2; simp at e2
      obtain ⟨wk0, h0⟩ := hold
      exact (ih y hy k hky wk0 m h0 f bc hm0).step hr hs0

/-- The message was dropped together with its send future, by its owner. -/
def World.ownerDropped (w : World) (i : Nat) : Prop :=
  Ev.dropped i ∈ w.log ∧ ∃ f, Ev.made f i false ∈ w.log ∧ w.forsaken f

/-- The same as `Queued` for a message that may still be parked; its owner may have dropped it. -/
def InLine (m : Msg) (s : Sys) : Prop :=
  Queued m s ∨ (s.w.parkedUni m ∧ Untold s) ∨ s.w.ownerDropped m.id

theorem InLine.step {cap : Option Nat} {s s' : Sys} {a : Act} {m : Msg} (h : Reachable cap s) (hc : cap ≠ some 0) (hq : InLine m s)
    (hs : s.step a = some s') : InLine m s' := by
  rcases hq with h1 | ⟨h1, h2⟩ | h1
  · exact .inl (h1.step h hs)
  · have hu := h2.step h (parkedUni_ne h hc h1) hs
    obtain ⟨k, wk, h3, h4⟩ := h1
    have hs0 := hs
    rcases step_rel hs with ⟨c, w', ms, rfl, hc, rfl⟩ | ⟨t, mc, rest, w', ms, rfl, ht, he, rfl⟩
    · exact .inr (.inl ⟨parkedUni_stays h hs0 h3 h4 (wk' := wk) (by rw [show (Sys.mk w' (s.th ++ [ms])).w.ws = s.w.ws from callR_wsEq hc]; exact h3), hu⟩)
    · rcases execR_evo he (regWs_reachable h) h3 with h5 | ⟨a, m', f', md', mid, b, h5, rfl, h6⟩ | ⟨a, m', h5, h6, h7⟩ | ⟨a, m', h5, h6, rfl, h7⟩ |
        ⟨h5, ⟨f', md', mid, wk', rfl, h6⟩ | ⟨rfl, h6⟩⟩
      · exact .inr (.inl ⟨parkedUni_stays h hs0 h3 h4 h5, hu⟩)
      · simp at h5; obtain ⟨rfl, rfl⟩ := h5
        exact .inr (.inl ⟨parkedUni_stays h hs0 h3 h4 h6, hu⟩)
      · simp at h5; obtain ⟨rfl, rfl⟩ := h5
        rcases h7 with ⟨-, h7⟩ | ⟨h7, -⟩
        · exact .inl (.inr (.inl ⟨h7, hu⟩))
        · exact absurd rfl ((List.nodup_append.mp (regWs_reachable h).nodup).2.2 _ h4 _ h7)
      · exact .inl (.inr (.inr ⟨execR_rcv_zero he (shutTx_now h ht), hu.told⟩))
      · exact absurd rfl (h6 _ _)
      · obtain ⟨⟨g, hg⟩, -⟩ := (kInv_reachable h).kw.one _ h4 _ _ h3
        exact .inr (.inr ⟨h6 _ _ rfl, g, (step_suffix h hs0).subset hg,
          (dropWs_gone h _ (List.mem_of_getElem? ht) k (by simp) wk m h3 g false hg).step h hs0⟩)
  · obtain ⟨h1, g, h2, h3⟩ := h1
    exact .inr (.inr ⟨(step_suffix h hs).subset h1, g, (step_suffix h hs).subset h2, h3.step h hs⟩)

end Xtra
