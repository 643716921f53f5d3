import Verif.Poison
import Verif.PropsHang
/-! # C59: a message whose destructor panics when the last mailbox goes -/

set_option linter.unusedSimpArgs false

namespace Xtra

/-! ## Specification -/

/-- A step of a send, a `stop_all` or an `is_connected` that has found the channel connected. -/
def Micro.underWay : Micro → Bool
  | .sendLd2 .. => true
  | .sendCrit .. => true
  | .bcastShutdown => true
  | .conn2 _ => true
  | _ => false

/-- No such step is to be executed any more. -/
def Sys.nothingUnderWay (s : Sys) : Prop := ∀ y ∈ s.th, ∀ mc ∈ y, mc.underWay = false

/-- The event is a received message, a join handle found pending or the answer `true` of `is_connected`. -/
def Ev.lively : Ev → Bool
  | .recv .. => true
  | .joinPending .. => true
  | .connected _ true => true
  | _ => false

/-- The send future `f` reports a result. -/
def Ev.resultOf (f : Nat) : Ev → Bool
  | .sendOk g _ => g == f
  | e => e.resolves f

/-! ## Proofs -/

/-- Nobody can receive any more. -/
structure Deaf (s : Sys) : Prop where
  rcv : s.w.rcv = 0
  objs : ∀ (i : Nat) (o : Obj), s.w.objs[i]? = some o → o.isMailboxRef = false
  th : ∀ y ∈ s.th, ∀ mc ∈ y, mc.holdsRx = false ∧ ∀ m, mc ≠ .requeue m
  lst : ∀ (j l : Nat), s.w.objs[j]? = some (.join (some l)) → ∃ wk, s.w.lst[l]? = some (.notified wk)
  jth : ∀ y ∈ s.th, ∀ o l, .join2 o l ∈ y → ∃ wk, s.w.lst[l]? = some (.notified wk)

/-- A step of a call that owns no mailbox, with the lock poisoned. -/
theorem execP_rel (w : World) {mc : Micro} (h1 : mc.holdsRx = false) (h2 : ∀ m, mc ≠ .requeue m) :
    (∃ f md m rc wk, mc = .sendCrit f md m rc wk ∧ execP w mc = ((w.kill m).setObj f .gone, [.dropTx rc], some (.send f))) ∨
    (mc = .bcastShutdown ∧ execP w mc = (w, [], some .stopAll)) ∨
    ((mc = .shutRx ∨ mc = .shutTx) ∧ execP w mc = (w, [], none)) ∨
    (mc.underWay = (match mc with | .sendLd2 .. => true | .conn2 _ => true | _ => false) ∧ mc ≠ .shutRx ∧ mc ≠ .shutTx ∧
      ExecR w mc (execP w mc).1 (execP w mc).2.1 ∧ (execP w mc).2.2 = none) := by
  have he := exec_rel w mc
  cases mc
  case sendCrit f md m rc wk => exact .inl ⟨f, md, m, rc, wk, rfl, rfl⟩
  all_goals simp [Micro.holdsRx] at h1 h2
  all_goals simp_all [execP, Micro.underWay]

theorem callR_deaf {w w' : World} {c : Call} {ms : List Micro} (h : CallR w c w' ms) (hns : c.stale = false) (d0 : w.rcv = 0)
    (d1 : ∀ (i : Nat) (o : Obj), w.objs[i]? = some o → o.isMailboxRef = false) :
    w'.rcv = 0 ∧ (∀ mc ∈ ms, mc.holdsRx = false ∧ (∀ m, mc ≠ .requeue m) ∧ mc.underWay = false ∧ ∀ o l, mc ≠ .join2 o l) ∧
    (∀ (i : Nat) (o : Obj), w'.objs[i]? = some o → w.objs[i]? = some o ∨ (o.isMailboxRef = false ∧ ∀ l, o ≠ .join (some l))) ∧
    (∀ (l : Nat) (wk : Option Nat), w.lst[l]? = some (.notified wk) → w'.lst[l]? = some (.notified wk)) := by
  have mb : ∀ {i : Nat} {o : Obj} {b : Nat}, w.objs[i]? = some o → o.mbox = some b → False := by
    intro i o b h1 h2
    have := d1 i o h1
    cases o <;> simp [Obj.mbox, Obj.isMailboxRef] at h2 this
  cases h
  case isConnectedStale => simp [Call.stale] at hns
  case flipLag => simp [Call.stale] at hns
  case joinStale => simp [Call.stale] at hns
  case pollSendStale => simp [Call.stale] at hns
  case cloneMailbox h1 h2 => exact (mb h1 h2).elim
  case address h1 h2 => exact (mb h1 h2).elim
  case next h1 h2 => exact (mb h1 h2).elim
  case join h1 =>
    refine ⟨d0, by simp [Micro.holdsRx, Micro.underWay], fun i o ho => ?_, fun l wk hl => ?_⟩
    · simp [World.addObj] at ho
      rcases append_cases ho with ⟨-, h⟩ | ⟨-, rfl⟩
      · exact .inl h
      · exact .inr ⟨rfl, by simp⟩
    · simp [World.addObj]
      rw [List.getElem?_append_left (List.getElem?_eq_some_iff.mp hl).1]; exact hl
  case pollJoin_waiting j wk l wk' h1 h2 =>
    refine ⟨d0, by simp, fun i o ho => .inl ho, fun l' wk hl => ?_⟩
    simp only [World.ev]
    rw [List.getElem?_set_ne (by rintro rfl; rw [h2] at hl; simp at hl)]; exact hl
  all_goals first
    | (exfalso; have := d1 _ _ (by assumption); simp [Obj.isMailboxRef] at this; done)
    | (refine ⟨by simpa using d0, by simp [Micro.holdsRx, Micro.underWay], fun i o ho => ?_, fun l wk hl => by simpa using hl⟩
       first
         | exact .inl ho
         | (simp [World.addObj, World.setObj, World.ev, World.addTx] at ho
            first
              | exact .inl ho
              | (rcases append_cases ho with ⟨-, h⟩ | ⟨-, rfl⟩
                 · exact .inl h
                 · exact .inr ⟨rfl, by simp⟩)
              | (rcases set_cases ho with ⟨-, rfl⟩ | ⟨-, h⟩
                 · exact .inr ⟨rfl, by simp⟩
                 · exact .inl h)))

theorem deaf_call {s : Sys} (d : Deaf s) {c : Call} {w' : World} {ms : List Micro} (h : CallR s.w c w' ms) (hns : c.stale = false) :
    Deaf ⟨w', s.th ++ [ms]⟩ := by
  obtain ⟨h1, h2, h3, h4⟩ := callR_deaf h hns d.rcv d.objs
  refine ⟨h1, fun i o ho => ?_, fun y hy mc hm => ?_, fun j l hj => ?_, fun y hy o l hm => ?_⟩
  · rcases h3 i o ho with h | h
    · exact d.objs i o h
    · exact h.1
  · rcases List.mem_append.mp hy with hy | hy
    · exact d.th y hy mc hm
    · simp at hy; subst hy
      exact ⟨(h2 mc hm).1, (h2 mc hm).2.1⟩
  · rcases h3 j _ hj with h | h
    · obtain ⟨wk, h⟩ := d.lst j l h
      exact ⟨wk, h4 _ _ h⟩
    · exact absurd rfl (h.2 l)
  · rcases List.mem_append.mp hy with hy | hy
    · obtain ⟨wk, h⟩ := d.jth y hy o l hm
      exact ⟨wk, h4 _ _ h⟩
    · simp at hy; subst hy
      exact absurd rfl ((h2 _ hm).2.2.2 o l)

theorem execR_deaf {w w' : World} {mc : Micro} {ms : List Micro} (h : ExecR w mc w' ms) (d0 : w.rcv = 0) (h1 : mc.holdsRx = false)
    (h2 : ∀ m, mc ≠ .requeue m) (h3 : mc ≠ .shutRx) (h4 : mc ≠ .shutTx) (h5 : ∀ f md m rc wk, mc ≠ .sendCrit f md m rc wk) (h6 : mc ≠ .bcastShutdown) :
    w'.rcv = 0 ∧ w'.lst = w.lst ∧ (∀ m ∈ ms, m.holdsRx = false ∧ (∀ m', m ≠ .requeue m') ∧ (∀ o l, m ≠ .join2 o l) ∧
      (m.underWay = true → mc.underWay = true)) ∧
    (∀ (i : Nat) (o : Obj), w'.objs[i]? = some o → w.objs[i]? = some o ∨ (o.isMailboxRef = false ∧ ∀ l, o = .join (some l) → mc = .join2 i l)) := by
  cases h <;> simp [Micro.holdsRx] at h1 h2 h3 h4 h5 h6
  all_goals
    refine ⟨by simpa using d0, by simp, by simp [Micro.holdsRx, Micro.underWay] <;> simp_all, fun i o ho => ?_⟩
    first
      | exact .inl ho
      | (simp [World.addObj, World.setObj, World.ev, World.addTx] at ho
         first
           | exact .inl ho
           | (rcases set_cases ho with ⟨rfl, rfl⟩ | ⟨-, h⟩
              · exact .inr ⟨rfl, by simp⟩
              · exact .inl h))

/-- A step with the lock poisoned. -/
theorem deaf_exec {s : Sys} (d : Deaf s) {t : Nat} {mc : Micro} {rest : List Micro} (ht : s.th[t]? = some (mc :: rest)) :
    Deaf ⟨(execP s.w mc).1, s.th.set t ((execP s.w mc).2.1 ++ rest)⟩ ∧
    (∀ p, (execP s.w mc).2.2 = some p → (∃ f, p = .send f) ∨ p = .stopAll) ∧
    (mc.underWay = false → (execP s.w mc).2.2 = none ∧ ∀ m ∈ (execP s.w mc).2.1, m.underWay = false) := by
  have hy := List.mem_of_getElem? ht
  have hmc := d.th _ hy mc (List.mem_cons_self ..)
  have hrest : ∀ m ∈ rest, m.holdsRx = false ∧ ∀ m', m ≠ .requeue m' := fun m hm => d.th _ hy m (List.mem_cons_of_mem _ hm)
  -- it suffices to look at the world and the new steps
  have key : ∀ {w' : World} {ms : List Micro}, w'.rcv = 0 → w'.lst = s.w.lst → (∀ m ∈ ms, m.holdsRx = false ∧ (∀ m', m ≠ .requeue m') ∧
      (∀ o l, m ≠ .join2 o l)) → (∀ (i : Nat) (o : Obj), w'.objs[i]? = some o → s.w.objs[i]? = some o ∨
        (o.isMailboxRef = false ∧ ∀ l, o = .join (some l) → mc = .join2 i l)) → Deaf ⟨w', s.th.set t (ms ++ rest)⟩ := by
    intro w' ms k1 k2 k3 k4
    refine ⟨k1, fun i o ho => ?_, fun y hy' m hm => ?_, fun j l hj => ?_, fun y hy' o l hm => ?_⟩
    · rcases k4 i o ho with h | h
      · exact d.objs i o h
      · exact h.1
    · rcases mem_set_cases hy' with h | rfl
      · exact d.th y h m hm
      · rcases List.mem_append.mp hm with h | h
        · exact ⟨(k3 m h).1, (k3 m h).2.1⟩
        · exact hrest m h
    · simp only [k2]
      rcases k4 j _ hj with h | h
      · exact d.lst j l h
      · have := h.2 l rfl; subst this
        exact d.jth _ hy j l (List.mem_cons_self ..)
    · simp only [k2]
      rcases mem_set_cases hy' with h | rfl
      · exact d.jth y h o l hm
      · rcases List.mem_append.mp hm with h | h
        · exact absurd rfl ((k3 _ h).2.2 o l)
        · exact d.jth _ hy o l (List.mem_cons_of_mem _ h)
  have same : ∀ (i : Nat) (o : Obj), s.w.objs[i]? = some o → s.w.objs[i]? = some o ∨
        (o.isMailboxRef = false ∧ ∀ l, o = .join (some l) → mc = .join2 i l) := fun _ _ h => .inl h
  rcases execP_rel s.w hmc.1 hmc.2 with ⟨f, md, m, rc, wk, rfl, he⟩ | ⟨rfl, he⟩ | ⟨h, he⟩ | ⟨hu, h3, h4, he, hb⟩
  · rw [he]
    refine ⟨key d.rcv rfl (by simp [Micro.holdsRx]) (fun i o ho => ?_), by simp, by simp [Micro.underWay]⟩
    simp [World.setObj, World.kill] at ho
    rcases set_cases ho with ⟨-, rfl⟩ | ⟨-, h⟩
    · exact .inr ⟨rfl, by simp⟩
    · exact .inl h
  · rw [he]
    exact ⟨key d.rcv rfl (by simp) same, by simp, by simp [Micro.underWay]⟩
  · rw [he]
    exact ⟨key d.rcv rfl (by simp) same, by simp, by simp⟩
  · by_cases h5 : ∃ f md m rc wk, mc = .sendCrit f md m rc wk
    · obtain ⟨f, md, m, rc, wk, rfl⟩ := h5
      simp [Micro.underWay] at hu
    by_cases h6 : mc = .bcastShutdown
    · subst h6; simp [Micro.underWay] at hu
    obtain ⟨k1, k2, k3, k4⟩ := execR_deaf he d.rcv hmc.1 hmc.2 h3 h4 (fun f md m rc wk h => h5 ⟨f, md, m, rc, wk, h⟩) h6
    refine ⟨key k1 k2 (fun m hm => ⟨(k3 m hm).1, (k3 m hm).2.1, (k3 m hm).2.2.1⟩) k4, by simp [hb], fun hn => ⟨hb, fun m hm => ?_⟩⟩
    have := (k3 m hm).2.2.2
    cases hm' : m.underWay
    · rfl
    · rw [this hm'] at hn; simp at hn

/-- Nobody can receive any more once `shutdown_waiting_senders` is being executed. -/
theorem deaf_start {cap : Option Nat} {s : Sys} (h : Reachable cap s) {t : Nat} {rest : List Micro} (ht : s.th[t]? = some (.shutTx :: rest))
    {w' : World} (h1 : w'.rcv = s.w.rcv) (h2 : w'.objs = s.w.objs) (h3 : w'.lst = s.w.lst.map LCell.notify) :
    Deaf ⟨w', s.th.set t rest⟩ := by
  have hp : s.w.rcv = 0 := shutTx_pending h (by have := tot_head mShutTx ht; simp [mShutTx] at this; omega)
  obtain ⟨-, hc⟩ := C14_counts_exact h
  rw [hp] at hc
  have hy := List.mem_of_getElem? ht
  have sub : ∀ y ∈ s.th.set t rest, ∀ m ∈ y, ∃ y' ∈ s.th, m ∈ y' := by
    intro y hy' m hm
    rcases mem_set_cases hy' with h | rfl
    · exact ⟨y, h, hm⟩
    · exact ⟨_, hy, List.mem_cons_of_mem _ hm⟩
  have nt : ∀ l, l < s.w.lst.length → ∃ wk, (s.w.lst.map LCell.notify)[l]? = some (.notified wk) := by
    intro l hl
    rw [List.getElem?_map, List.getElem?_eq_getElem hl]
    cases s.w.lst[l] <;> simp [LCell.notify]
  have j := jInv_reachable h
  refine ⟨by rw [h1]; exact hp, fun i o ho => ?_, fun y hy' m hm => ?_, fun i l hj => ?_, fun y hy' o l hm => ?_⟩
  · simp only [h2] at ho
    have : s.w.mailboxRefs = 0 := by omega
    simp [World.mailboxRefs, List.countP_eq_zero] at this
    have := this o (List.mem_of_getElem? ho)
    simpa using this
  · obtain ⟨y', hy'', hm'⟩ := sub y hy' m hm
    have h0 : s.th.flatten.countP Micro.holdsRx = 0 := by omega
    rw [List.countP_eq_zero] at h0
    refine ⟨by simpa using h0 m (List.mem_flatten.mpr ⟨y', hy'', hm'⟩), ?_⟩
    rintro m' rfl
    obtain ⟨post, h4, h5, -⟩ := reqOk_reachable h y' hy'' m' hm'
    have := h0 .dropRx (List.mem_flatten.mpr ⟨y', hy'', by rw [h4]; exact List.mem_cons_of_mem _ h5⟩)
    simp [Micro.holdsRx] at this
  · simp only [h2] at hj
    simp only [h3]
    exact nt l (j.obj i l hj).1
  · obtain ⟨y', hy'', hm'⟩ := sub y hy' _ hm
    simp only [h3]
    exact nt l (j.t2 y' hy'' o l hm').1

/-- The invariant of all executions. -/
theorem xrun_inv {cap : Option Nat} {x : XSys} (h : XRun cap x) :
    (x.poisoned = false → Reachable cap x.s ∧ x.booms = []) ∧ (x.poisoned = true → Deaf x.s) ∧
    ∀ p ∈ x.booms, (∃ i, p = .len i) ∨ (∃ f, p = .send f) ∨ p = .stopAll := by
  induction h with
  | new => exact ⟨fun _ => ⟨.init, rfl⟩, by simp, by simp⟩
  | step _ hs ih =>
    obtain ⟨i1, i2, i3⟩ := ih
    cases hs with
    | ok hp hs => exact ⟨fun _ => ⟨.step (i1 hp).1 hs, (i1 hp).2⟩, fun h => by rw [show _ = _ from hp] at h; simp at h, i3⟩
    | panicQueue hp ht _ =>
      exact ⟨by simp, fun _ => deaf_start (i1 hp).1 ht (by simp [World.shutTxQueue]) (by simp [World.shutTxQueue]) (by simp [World.shutTxQueue]), i3⟩
    | panicOne hp ht _ =>
      exact ⟨by simp, fun _ => deaf_start (i1 hp).1 ht (by simp [World.shutTxOne]) (by simp [World.shutTxOne]) (by simp [World.shutTxOne]), i3⟩
    | panicAll hp ht _ =>
      exact ⟨by simp, fun _ => deaf_start (i1 hp).1 ht (by simp) (by simp) (by simp [World.shutTx]), i3⟩
    | call hp _ hns hc => exact ⟨fun h => by rw [show _ = _ from hp] at h; simp at h, fun _ => deaf_call (i2 hp) (call_rel hc) hns, i3⟩
    | len hp _ =>
      refine ⟨fun h => by rw [show _ = _ from hp] at h; simp at h, fun _ => i2 hp, fun p hm => ?_⟩
      rcases List.mem_cons.mp hm with rfl | hm
      · exact .inl ⟨_, rfl⟩
      · exact i3 p hm
    | exec hp ht =>
      obtain ⟨k1, k2, -⟩ := deaf_exec (i2 hp) ht
      refine ⟨by simp, fun _ => k1, fun p hm => ?_⟩
      rcases List.mem_append.mp hm with hm | hm
      · exact .inr (k2 p (by simpa using hm))
      · exact i3 p hm

/-! ### what is reported -/

theorem callR_deafLog {w w' : World} {c : Call} {ms : List Micro} (h : CallR w c w' ms) (hns : c.stale = false)
    (d1 : ∀ (i : Nat) (o : Obj), w.objs[i]? = some o → o.isMailboxRef = false)
    (d2 : ∀ (j l : Nat), w.objs[j]? = some (.join (some l)) → ∃ wk, w.lst[l]? = some (.notified wk)) {e : Ev} (he : e ∈ w'.log) :
    e ∈ w.log ∨ e.lively = false := by
  cases h
  case isConnectedStale => simp [Call.stale] at hns
  case flipLag => simp [Call.stale] at hns
  case joinStale => simp [Call.stale] at hns
  case pollSendStale => simp [Call.stale] at hns
  case pollJoin_waiting j wk l wk' h1 h2 =>
    obtain ⟨x, hx⟩ := d2 _ _ h1
    rw [h2] at hx; simp at hx
  all_goals first
    | (left; simpa [World.addObj, World.setObj, World.addTx] using he; done)
    | (simp [World.addObj, World.setObj, World.ev, World.addTx] at he
       rcases he with rfl | he
       · exact .inr rfl
       · exact .inl he)

theorem execR_deafLog {w w' : World} {mc : Micro} {ms : List Micro} (h : ExecR w mc w' ms) (h1 : mc.holdsRx = false)
    (h2 : ∀ m, mc ≠ .requeue m) (h3 : mc ≠ .shutRx) (h4 : mc ≠ .shutTx) (h5 : ∀ f md m rc wk, mc ≠ .sendCrit f md m rc wk) (h6 : mc ≠ .bcastShutdown)
    {e : Ev} (he : e ∈ w'.log) : e ∈ w.log ∨ e.lively = false ∨ (mc.underWay = true ∧ ∃ i, e = .connected i true) := by
  cases h <;> simp [Micro.holdsRx] at h1 h2 h3 h4 h6
  case conn2 =>
    simp [World.ev] at he
    rcases he with rfl | he
    · by_cases hb : 0 < w.sc
      · rename_i i; exact .inr (.inr ⟨rfl, i, by rw [decide_eq_true hb]⟩)
      · exact .inr (.inl (by simp [hb, Ev.lively]))
    · exact .inl he
  case respond_one =>
    simp at he
    rcases he with rfl | rfl | he
    · exact .inr (.inl rfl)
    · exact .inr (.inl rfl)
    · exact .inl he
  all_goals first
    | exact absurd rfl (h5 _ _ _ _ _)
    | (left; simpa [World.addObj, World.setObj, World.addTx] using he; done)
    | (simp [World.addObj, World.setObj, World.ev, World.kill] at he
       rcases he with rfl | he
       · exact .inr (.inl rfl)
       · exact .inl he)
    | (simp [World.addObj, World.setObj, World.ev, World.kill] at he
       rcases he with rfl | rfl | he
       · exact .inr (.inl rfl)
       · exact .inr (.inl rfl)
       · exact .inl he)

theorem execR_log {w w' : World} {mc : Micro} {ms : List Micro} (h : ExecR w mc w' ms) (h1 : mc.holdsRx = false) {e : Ev} (he : e ∈ w.log) :
    e ∈ w'.log := by
  cases h <;> simp [Micro.holdsRx] at h1
  case shutTx => exact (shutTx_suffix _).subset he
  case critAll_sent => exact List.mem_cons_of_mem _ ((lateLog_suffix w _).subset he)
  all_goals first
    | exact he
    | exact (lateLog_suffix w _).subset he
    | (simp [World.setObj, World.ev, World.kill, World.sendBroadcast, he]; done)

theorem deaf_execLog {s : Sys} (d : Deaf s) {t : Nat} {mc : Micro} {rest : List Micro} (ht : s.th[t]? = some (mc :: rest)) {e : Ev}
    (hm : e ∈ (execP s.w mc).1.log) : e ∈ s.w.log ∨ e.lively = false ∨ (mc.underWay = true ∧ ∃ i, e = .connected i true) := by
  have hmc := d.th _ (List.mem_of_getElem? ht) mc (List.mem_cons_self ..)
  rcases execP_rel s.w hmc.1 hmc.2 with ⟨f, md, m, rc, wk, rfl, he⟩ | ⟨rfl, he⟩ | ⟨h, he⟩ | ⟨hu, h3, h4, he, hb⟩
  · rw [he] at hm
    simp [World.setObj, World.kill] at hm
    rcases hm with rfl | hm
    · exact .inr (.inl rfl)
    · exact .inl hm
  · rw [he] at hm; exact .inl hm
  · rw [he] at hm; exact .inl hm
  · by_cases h5 : ∃ f md m rc wk, mc = .sendCrit f md m rc wk
    · obtain ⟨f, md, m, rc, wk, rfl⟩ := h5
      simp [Micro.underWay] at hu
    by_cases h6 : mc = .bcastShutdown
    · subst h6; simp [Micro.underWay] at hu
    exact execR_deafLog he hmc.1 hmc.2 h3 h4 (fun f md m rc wk h => h5 ⟨f, md, m, rc, wk, h⟩) h6 hm

/-- After the panic the lock stays poisoned. -/
theorem xsteps_poisoned {x x' : XSys} (h : XSteps x x') (hp : x.poisoned = true) : x'.poisoned = true := by
  induction h with
  | refl => exact hp
  | step _ hs ih =>
    cases hs <;> simp_all

theorem xsteps_run {cap : Option Nat} {x x' : XSys} (h : XSteps x x') (hr : XRun cap x) : XRun cap x' := by
  induction h with
  | refl => exact hr
  | step _ hs ih => exact .step ih hs

/-- What happens when the lock is poisoned. -/
theorem xsteps_deaf {cap : Option Nat} {x x' : XSys} (hr : XRun cap x) (hp : x.poisoned = true) (h : XSteps x x') :
    (∀ e ∈ x'.s.w.log, e ∈ x.s.w.log ∨ e.lively = false ∨ (¬ x.s.nothingUnderWay ∧ ∃ i, e = .connected i true)) ∧
    (x.s.nothingUnderWay → x'.s.nothingUnderWay ∧ ∀ p ∈ x'.booms, p ∈ x.booms ∨ ∃ i, p = .len i) := by
  induction h with
  | refl => exact ⟨fun e he => .inl he, fun hn => ⟨hn, fun p h => .inl h⟩⟩
  | @step x1 x2 hss hs ih =>
    have hp1 := xsteps_poisoned hss hp
    have d := (xrun_inv (xsteps_run hss hr)).2.1 hp1
    obtain ⟨i1, i2⟩ := ih
    cases hs with
    | ok h _ => rw [hp1] at h; simp at h
    | panicQueue h _ _ => rw [hp1] at h; simp at h
    | panicOne h _ _ => rw [hp1] at h; simp at h
    | panicAll h _ _ => rw [hp1] at h; simp at h
    | call _ _ hns hc =>
      have hc := call_rel hc
      refine ⟨fun e he => ?_, fun hn => ⟨fun y hy mc hm => ?_, (i2 hn).2⟩⟩
      · rcases callR_deafLog hc hns d.objs d.lst he with h | h
        · exact i1 e h
        · exact .inr (.inl h)
      · rcases List.mem_append.mp hy with hy | hy
        · exact (i2 hn).1 y hy mc hm
        · simp at hy; subst hy
          exact ((callR_deaf hc hns d.rcv d.objs).2.1 mc hm).2.2.1
    | len _ _ =>
      refine ⟨i1, fun hn => ⟨(i2 hn).1, fun p hm => ?_⟩⟩
      rcases List.mem_cons.mp hm with rfl | hm
      · exact .inr ⟨_, rfl⟩
      · exact (i2 hn).2 p hm
    | @exec t mc rest _ ht =>
      obtain ⟨-, -, k3⟩ := deaf_exec d ht
      refine ⟨fun e he => ?_, fun hn => ?_⟩
      · rcases deaf_execLog d ht he with h | h | ⟨h, h'⟩
        · exact i1 e h
        · exact .inr (.inl h)
        · refine .inr (.inr ⟨fun hn => ?_, h'⟩)
          have := (i2 hn).1 _ (List.mem_of_getElem? ht) mc (List.mem_cons_self ..)
          rw [this] at h; simp at h
      · have hu := (i2 hn).1 _ (List.mem_of_getElem? ht) mc (List.mem_cons_self ..)
        obtain ⟨k4, k5⟩ := k3 hu
        refine ⟨fun y hy m hm => ?_, fun p hm => ?_⟩
        · rcases mem_set_cases hy with h | rfl
          · exact (i2 hn).1 y h m hm
          · rcases List.mem_append.mp hm with h | h
            · exact k5 m h
            · exact (i2 hn).1 _ (List.mem_of_getElem? ht) m (List.mem_cons_of_mem _ h)
        · simp [k4] at hm
          exact (i2 hn).2 p hm

/-! ### the sends that were not released -/

/-- The send future `f` is parked in cell `h`, and nobody works on it but its own polls. -/
structure Stuck (f h : Nat) (m : Msg) (s : Sys) : Prop where
  obj : ∀ o, s.w.objs[f]? = some o → (∃ md, o = .send md m.id (.waiting h)) ∨ o = .busy ∨ o = .gone
  len : f < s.w.objs.length
  cell : (∃ wk, s.w.ws[h]? = some (.active wk m)) ∨ s.w.ws[h]? = some .gone
  th : ∀ y ∈ s.th, ∀ mc ∈ y, mc.slot = some f → ∃ md wk, mc = .pollWs f md m.id h wk

theorem callR_stuck {w w' : World} {c : Call} {ms : List Micro} (hc : CallR w c w' ms) {f h : Nat} {m : Msg}
    (o : ∀ o, w.objs[f]? = some o → (∃ md, o = .send md m.id (.waiting h)) ∨ o = .busy ∨ o = .gone) (hl : f < w.objs.length) :
    (∀ o, w'.objs[f]? = some o → (∃ md, o = .send md m.id (.waiting h)) ∨ o = .busy ∨ o = .gone) ∧
    f < w'.objs.length ∧ w'.ws = w.ws ∧
    (∀ mc ∈ ms, mc.slot = some f → ∃ md wk, mc = .pollWs f md m.id h wk) ∧
    (∀ e ∈ w'.log, e ∈ w.log ∨ e.resultOf f = false) := by
  have hne : w.objs.length ≠ f := by omega
  refine ⟨fun o' ho => ?_, ?_, ?_, ?_, ?_⟩
  · by_cases ht : c.target = some f
    · cases hc <;> simp only [Call.target, Option.some.injEq, reduceCtorEq] at ht <;> subst ht <;> (try exact o _ ho) <;>
        simp [World.setObj, World.addObj, World.ev, World.addTx, List.getElem?_append_left hl, List.getElem?_set_self hl] at ho o ⊢ <;> grind
    · have : ∀ y, w.objs[f]? = some y → w'.objs[f]? = some y := fun y hy => callR_keeps hc ht hy
      obtain ⟨y, hy⟩ : ∃ y, w.objs[f]? = some y := ⟨_, List.getElem?_eq_getElem hl⟩
      rw [this y hy] at ho; cases ho
      exact o _ hy
  · cases hc <;> first | exact hl | (simp [World.setObj, World.addObj, World.ev, World.addTx] <;> omega)
  · cases hc <;> simp [World.setObj, World.addObj, World.ev, World.addTx]
  · cases hc <;> simp [Micro.slot] <;> grind
  · cases hc <;> simp [World.setObj, World.addObj, World.ev, World.addTx, Ev.resultOf, Ev.resolves] <;> grind [Ev.resultOf, Ev.resolves]

theorem execR_stuck {w w' : World} {mc : Micro} {ms : List Micro} (he : ExecR w mc w' ms) {f h : Nat} {m : Msg}
    (h1 : mc.holdsRx = false) (h2 : ∀ m, mc ≠ .requeue m) (h3 : mc ≠ .shutRx) (h4 : mc ≠ .shutTx)
    (h5 : ∀ f md m rc wk, mc ≠ .sendCrit f md m rc wk) (h6 : mc ≠ .bcastShutdown)
    (o : ∀ o, w.objs[f]? = some o → (∃ md, o = .send md m.id (.waiting h)) ∨ o = .busy ∨ o = .gone) (hl : f < w.objs.length)
    (hc : (∃ wk, w.ws[h]? = some (.active wk m)) ∨ w.ws[h]? = some .gone)
    (ht : mc.slot = some f → ∃ md wk, mc = .pollWs f md m.id h wk) :
    (∀ o, w'.objs[f]? = some o → (∃ md, o = .send md m.id (.waiting h)) ∨ o = .busy ∨ o = .gone) ∧
    f < w'.objs.length ∧ ((∃ wk, w'.ws[h]? = some (.active wk m)) ∨ w'.ws[h]? = some .gone) ∧
    (∀ mc ∈ ms, mc.slot = some f → ∃ md wk, mc = .pollWs f md m.id h wk) ∧
    (∀ e ∈ w'.log, e ∈ w.log ∨ e.resultOf f = false) := by
  have hlen : h < w.ws.length := by
    rcases hc with ⟨_, hc⟩ | hc <;> exact (List.getElem?_eq_some_iff.mp hc).1
  by_cases hs : mc.slot = some f
  · obtain ⟨md, wk, rfl⟩ := ht hs
    cases he with
    | pollWs_active ha =>
      refine ⟨fun o' ho => ?_, by simpa [World.setObj, World.ev] using hl, ?_, by simp, ?_⟩
      · simp [World.setObj, World.ev, List.getElem?_set_self hl] at ho
        exact .inl ⟨_, ho.symm⟩
      · left
        rcases hc with ⟨wk', hc⟩ | hc
        · rw [ha] at hc; cases hc
          exact ⟨some wk, by simp [World.setObj, World.ev, List.getElem?_set_self hlen]⟩
        · rw [ha] at hc; cases hc
      · intro e hm
        simp [World.setObj, World.ev] at hm
        rcases hm with rfl | hm
        · exact .inr rfl
        · exact .inl hm
    | pollWs_delivered ha => rw [ha] at hc; simp at hc
    | pollWs_closed ha => rw [ha] at hc; simp at hc
    | pollWs_panic ha =>
      refine ⟨fun o' ho => ?_, by simpa [World.setObj, World.ev] using hl, hc, by simp, ?_⟩
      · simp [World.setObj, World.ev, List.getElem?_set_self hl] at ho
        exact .inr (.inr ho.symm)
      · intro e hm
        simp [World.setObj, World.ev] at hm
        rcases hm with rfl | hm
        · exact .inr rfl
        · exact .inl hm
  · refine ⟨fun o' ho => ?_, ?_, ?_, ?_, ?_⟩
    · obtain ⟨y, hy⟩ : ∃ y, w.objs[f]? = some y := ⟨_, List.getElem?_eq_getElem hl⟩
      rw [execR_keeps he hs hy] at ho; cases ho
      exact o _ hy
    · obtain ⟨y, hy⟩ : ∃ y, w.objs[f]? = some y := ⟨_, List.getElem?_eq_getElem hl⟩
      exact (List.getElem?_eq_some_iff.mp (execR_keeps he hs hy)).1
    · clear ht o
      cases he <;> simp [Micro.holdsRx] at h1 h2 h3 h4 h6
      all_goals first
        | exact absurd rfl (h5 _ _ _ _ _)
        | (simpa [World.setObj, World.ev] using hc)
        | (simp [World.setObj, World.ev, World.kill, List.getElem?_set]; grind)
    · clear ht o
      cases he <;> simp [Micro.holdsRx] at h1 h2 h3 h4 h6
      all_goals first
        | exact absurd rfl (h5 _ _ _ _ _)
        | (simp [Micro.slot] at hs ⊢; done)
        | (simp [Micro.slot] at hs ⊢; grind)
    · clear ht o
      cases he <;> simp [Micro.holdsRx] at h1 h2 h3 h4 h6
      all_goals first
        | exact absurd rfl (h5 _ _ _ _ _)
        | (simp [Micro.slot] at hs; simp [World.setObj, World.ev, World.kill, Ev.resultOf, Ev.resolves]; done)
        | (simp [Micro.slot] at hs; simp [World.setObj, World.ev, World.kill, Ev.resultOf, Ev.resolves]; grind [Ev.resultOf, Ev.resolves])
        | (simp [World.setObj, World.ev, World.kill, Ev.resultOf, Ev.resolves] <;> grind [Ev.resultOf, Ev.resolves])

theorem stuck_steps {cap : Option Nat} {x x' : XSys} (hr : XRun cap x) (hp : x.poisoned = true) (hs : XSteps x x') {f h : Nat} {m : Msg}
    (st : Stuck f h m x.s) : Stuck f h m x'.s ∧ ∀ e ∈ x'.s.w.log, e ∈ x.s.w.log ∨ e.resultOf f = false := by
  induction hs with
  | refl => exact ⟨st, fun e he => .inl he⟩
  | @step x1 x2 hss hs ih =>
    have hp1 := xsteps_poisoned hss hp
    have d := (xrun_inv (xsteps_run hss hr)).2.1 hp1
    obtain ⟨i1, i2⟩ := ih
    cases hs with
    | ok h _ => rw [hp1] at h; simp at h
    | panicQueue h _ _ => rw [hp1] at h; simp at h
    | panicOne h _ _ => rw [hp1] at h; simp at h
    | panicAll h _ _ => rw [hp1] at h; simp at h
    | call _ _ _ hc =>
      obtain ⟨k1, k2, k3, k4, k5⟩ := callR_stuck (call_rel hc) i1.obj i1.len
      refine ⟨⟨k1, k2, by simpa only [k3] using i1.cell, fun y hy mc hm => ?_⟩, fun e he => ?_⟩
      · rcases List.mem_append.mp hy with hy | hy
        · exact i1.th y hy mc hm
        · simp at hy; subst hy
          exact k4 mc hm
      · rcases k5 e he with h | h
        · exact i2 e h
        · exact .inr h
    | len _ _ => exact ⟨i1, i2⟩
    | @exec t mc rest _ ht =>
      have hy := List.mem_of_getElem? ht
      have hmc := d.th _ hy mc (List.mem_cons_self ..)
      have hsl := i1.th _ hy mc (List.mem_cons_self ..)
      have hrest := fun m hm => i1.th _ hy m (List.mem_cons_of_mem mc hm)
      have key : ∀ {w' : World} {ms : List Micro},
          ((∀ o, w'.objs[f]? = some o → (∃ md, o = .send md m.id (.waiting h)) ∨ o = .busy ∨ o = .gone) ∧
            f < w'.objs.length ∧ ((∃ wk, w'.ws[h]? = some (.active wk m)) ∨ w'.ws[h]? = some .gone) ∧
            (∀ mc ∈ ms, mc.slot = some f → ∃ md wk, mc = .pollWs f md m.id h wk) ∧
            (∀ e ∈ w'.log, e ∈ x1.s.w.log ∨ e.resultOf f = false)) →
          Stuck f h m ⟨w', x1.s.th.set t (ms ++ rest)⟩ ∧ ∀ e ∈ w'.log, e ∈ x.s.w.log ∨ e.resultOf f = false := by
        rintro w' ms ⟨k1, k2, k3, k4, k5⟩
        refine ⟨⟨k1, k2, k3, fun y hy' mc' hm => ?_⟩, fun e he => ?_⟩
        · rcases mem_set_cases hy' with h' | rfl
          · exact i1.th y h' mc' hm
          · rcases List.mem_append.mp hm with h' | h'
            · exact k4 _ h'
            · exact hrest _ h'
        · rcases k5 e he with h' | h'
          · exact i2 e h'
          · exact .inr h'
      refine key ?_
      rcases execP_rel x1.s.w hmc.1 hmc.2 with ⟨f', md, m', rc, wk, rfl, he⟩ | ⟨rfl, he⟩ | ⟨h', he⟩ | ⟨hu, h3, h4, he, hb⟩
      · rw [he]
        have hne : f' ≠ f := by
          rintro rfl
          obtain ⟨_, _, h'⟩ := hsl rfl
          simp at h'
        refine ⟨?_, ?_, ?_, by simp [Micro.slot], ?_⟩
        · simpa [World.setObj, World.kill, List.getElem?_set_ne hne] using i1.obj
        · simpa [World.setObj, World.kill] using i1.len
        · simpa [World.setObj, World.kill] using i1.cell
        · intro e hm
          simp [World.setObj, World.kill] at hm
          rcases hm with rfl | hm
          · exact .inr rfl
          · exact .inl hm
      · rw [he]; exact ⟨i1.obj, i1.len, i1.cell, by simp, fun e he => .inl he⟩
      · rw [he]; exact ⟨i1.obj, i1.len, i1.cell, by simp, fun e he => .inl he⟩
      · by_cases h5 : ∃ f md m rc wk, mc = .sendCrit f md m rc wk
        · obtain ⟨f, md, m, rc, wk, rfl⟩ := h5
          simp [Micro.underWay] at hu
        by_cases h6 : mc = .bcastShutdown
        · subst h6; simp [Micro.underWay] at hu
        exact execR_stuck he hmc.1 hmc.2 h3 h4 (fun f md m rc wk h => h5 ⟨f, md, m, rc, wk, h⟩) h6 i1.obj i1.len i1.cell hsl

theorem killAll_resp (ms : List Msg) {w : World} {m : Msg} (h : m ∈ ms) (wk : Option Nat) : (w.killAll ms).resp[m.id]? ≠ some (.waiting wk) := by
  have one : ∀ (w : World) (m : Msg) (wk : Option Nat), (w.kill m).resp[m.id]? ≠ some (.waiting wk) := by
    intro w m wk
    simp only [World.kill, List.getElem?_modify, if_true]
    cases w.resp[m.id]? with
    | none => simp
    | some r => cases r <;> simp [Resp.interrupt]
  have keep : ∀ (ms : List Msg) (w : World) (i : Nat), (∀ wk, w.resp[i]? ≠ some (.waiting wk)) → ∀ wk, (w.killAll ms).resp[i]? ≠ some (.waiting wk) := by
    intro ms
    induction ms with
    | nil => intro w i h; exact h
    | cons a ms ih =>
      intro w i h
      refine ih _ _ (fun wk => ?_)
      by_cases hi : a.id = i
      · subst hi; exact one w a wk
      · simp only [World.kill, List.getElem?_modify, hi, if_false]
        simpa using h wk
  induction ms generalizing w with
  | nil => simp at h
  | cons a ms ih =>
    rcases List.mem_cons.mp h with rfl | h
    · exact keep ms _ _ (one w m) wk
    · exact ih h

theorem closeHandles_notWaiting (hs : List Nat) {w : World} {i : Nat} (h : ∀ wk, w.resp[i]? ≠ some (.waiting wk)) :
    ∀ wk, (w.closeHandles hs).resp[i]? ≠ some (.waiting wk) := by
  induction hs generalizing w with
  | nil => exact h
  | cons a hs ih =>
    refine ih (fun wk => ?_)
    unfold World.closeHandle
    split
    · rename_i m _
      simp only [World.kill, List.getElem?_modify]
      by_cases hi : m.id = i
      · subst hi
        simp only [if_true]
        cases w.resp[m.id]? with
        | none => simp
        | some r => cases r <;> simp [Resp.interrupt]
      · simpa [hi] using h wk
    · exact h wk

/-- Executions in which no destructor panics. -/
theorem xrun_ok {cap : Option Nat} {s : Sys} (h : Reachable cap s) : XRun cap ⟨s, false, []⟩ := by
  induction h with
  | init => exact .new
  | step _ hs ih => exact .step ih (.ok rfl hs)

/-! ## Theorems -/

/-- C59. Because of the poisoned lock only `len`/`capacity`, polls of send futures and `stop_all` panic: never the drop of an address, of a
mailbox, of a receive future or of a message, never a receive and never `Mailbox::clone`. -/
theorem C59_what_panics {cap : Option Nat} {x : XSys} (h : XRun cap x) : ∀ p ∈ x.booms, (∃ i, p = .len i) ∨ (∃ f, p = .send f) ∨ p = .stopAll :=
  (xrun_inv h).2.2

/-- C59. Without the panic of a destructor nothing panics. -/
theorem C59_no_panic_unless_poisoned {cap : Option Nat} {x : XSys} (h : XRun cap x) (hp : x.poisoned = false) : x.booms = [] ∧ .panic ∉ x.s.w.log :=
  ⟨((xrun_inv h).1 hp).2, C31_no_panic ((xrun_inv h).1 hp).1⟩

/-- C59. Once the calls are through that had found the channel connected before the panic, only `len`/`capacity` panic. -/
theorem C59_only_len_panics {cap : Option Nat} {x x' : XSys} (h : XRun cap x) (hp : x.poisoned = true) (hn : x.s.nothingUnderWay)
    (hs : XSteps x x') : ∀ p ∈ x'.booms, p ∈ x.booms ∨ ∃ i, p = .len i :=
  ((xsteps_deaf h hp hs).2 hn).2

/-- C59. The messages that were in the queue are gone, all of them, and nobody waits for their replies any more. -/
theorem C59_queue_dropped {cap : Option Nat} {x x' : XSys} (_ : XRun cap x) (hp : x.poisoned = false) (hs : XStep x x') (hp' : x'.poisoned = true) :
    x'.s.w.uq = [] ∧ ∀ m ∈ x.s.w.uq, .dropped m.id ∈ x'.s.w.log ∧ ∀ wk, x'.s.w.resp[m.id]? ≠ some (.waiting wk) := by
  cases hs with
  | ok _ _ => rw [show _ = _ from hp'] at hp; simp at hp
  | call h _ _ => rw [hp] at h; simp at h
  | len h _ => rw [hp] at h; simp at h
  | exec h _ => rw [hp] at h; simp at h
  | panicQueue _ _ _ => exact ⟨by simp [World.shutTxQueue], fun m hm => ⟨killAll_mem _ hm, killAll_resp _ hm⟩⟩
  | panicOne _ _ _ =>
    refine ⟨by simp [World.shutTxOne], fun m hm => ⟨?_, ?_⟩⟩
    · exact (closeHandles_suffix _ _).subset (killAll_mem _ hm)
    · exact closeHandles_notWaiting _ (killAll_resp _ hm)
  | panicAll _ _ _ =>
    refine ⟨by simp, fun m hm => ⟨?_, ?_⟩⟩
    · exact (closeHandles_suffix _ _).subset ((closeHandles_suffix _ _).subset (killAll_mem _ hm))
    · exact closeHandles_notWaiting _ (closeHandles_notWaiting _ (killAll_resp _ hm))

/-- C59. Afterwards nothing is received, no join handle is pending, and – unless the question was asked before – no address is connected. -/
theorem C59_all_over {cap : Option Nat} {x x' : XSys} (h : XRun cap x) (hp : x.poisoned = true) (hs : XSteps x x') :
    (∀ r b am, .recv r b am ∈ x'.s.w.log → .recv r b am ∈ x.s.w.log) ∧
    (∀ j wk, .joinPending j wk ∈ x'.s.w.log → .joinPending j wk ∈ x.s.w.log) ∧
    (x.s.nothingUnderWay → ∀ i, .connected i true ∈ x'.s.w.log → .connected i true ∈ x.s.w.log) := by
  have k := (xsteps_deaf h hp hs).1
  refine ⟨fun r b am he => ?_, fun j wk he => ?_, fun hn i he => ?_⟩
  · rcases k _ he with h | h | ⟨-, i, h⟩
    · exact h
    · simp [Ev.lively] at h
    · simp at h
  · rcases k _ he with h | h | ⟨-, i, h⟩
    · exact h
    · simp [Ev.lively] at h
    · simp at h
  · rcases k _ he with h | h | ⟨h, -⟩
    · exact h
    · simp [Ev.lively] at h
    · exact absurd hn h

/-- C59. A send future polled for the first time afterwards resolves to `Err(Disconnected)` in that poll. -/
theorem C59_sends_refused {cap : Option Nat} {x x1 x2 : XSys} (h : XRun cap x) (hp : x.poisoned = true) {f i wk : Nat} {md : Mode} {m : Msg} {rc : Rc}
    (ho : x.s.w.objs[f]? = some (.send md i (.new m rc)))
    (h1 : x1 = { x with s := ⟨x.s.w.setObj f .busy, x.s.th ++ [[.sendLd1 f md m rc wk]]⟩ }) (hs : XSteps x1 x2) :
    XStep x x1 ∧ call x.s.w (.pollSend f wk) = some (x1.s.w, [.sendLd1 f md m rc wk]) ∧
    (x2.s.th[x.s.th.length]? = some [] → .sendErr f m.id ∈ x2.s.w.log) := by
  have hc : call x.s.w (.pollSend f wk) = some (x.s.w.setObj f .busy, [.sendLd1 f md m rc wk]) := by simp [call, ho]
  have hst : XStep x x1 := by subst h1; exact .call hp (by simp) rfl hc
  refine ⟨hst, by subst h1; exact hc, fun hd => ?_⟩
  have hr1 : XRun cap x1 := .step h hst
  have hp1 : x1.poisoned = true := by subst h1; exact hp
  have key : x2.s.th[x.s.th.length]? = some [.sendLd1 f md m rc wk] ∨ .sendErr f m.id ∈ x2.s.w.log := by
    clear hd
    induction hs with
    | refl => left; subst h1; simp
    | @step y z hss hs ih =>
      have hpy := xsteps_poisoned hss hp1
      have d := (xrun_inv (xsteps_run hss hr1)).2.1 hpy
      cases hs with
      | ok h _ => rw [hpy] at h; simp at h
      | panicQueue h _ _ => rw [hpy] at h; simp at h
      | panicOne h _ _ => rw [hpy] at h; simp at h
      | panicAll h _ _ => rw [hpy] at h; simp at h
      | @call c w' ms _ hl _ hc =>
        rcases ih with ih | ih
        · left
          show (y.s.th ++ [ms])[x.s.th.length]? = _
          rw [List.getElem?_append_left (List.getElem?_eq_some_iff.mp ih).1]; exact ih
        · exact .inr ((callR_suffix (call_rel hc)).subset ih)
      | len _ _ => exact ih
      | @exec t mc rest _ ht =>
        rcases ih with ih | ih
        · by_cases htt : t = x.s.th.length
          · subst htt
            rw [ih] at ht; cases ht
            right
            show _ ∈ (execP y.s.w _).1.log
            simp [execP, exec, d.rcv, World.ev]
          · left
            show (y.s.th.set t _)[x.s.th.length]? = _
            rw [List.getElem?_set_ne htt]; exact ih
        · right
          show _ ∈ (execP y.s.w mc).1.log
          have hmc := d.th _ (List.mem_of_getElem? ht) mc (List.mem_cons_self ..)
          rcases execP_rel y.s.w hmc.1 hmc.2 with ⟨f', md, m', rc, wk, rfl, he⟩ | ⟨rfl, he⟩ | ⟨h', he⟩ | ⟨hu, h3, h4, he, hb⟩
          · rw [he]; simp [World.setObj, World.kill]; exact ih
          · rw [he]; exact ih
          · rw [he]; exact ih
          · exact execR_log he hmc.1 ih
  rcases key with h | h
  · rw [hd] at h; simp at h
  · exact h

/-- C59, what is left of it. If the message whose destructor panics is that of a parked send, or of a parked broadcast, all parked sends are
closed, woken (the cell has kept their waker) and their messages dropped. -/
theorem C59_parked_released_partial (w : World) {h : Nat} {wk : Option Nat} {m : Msg} (ha : w.ws[h]? = some (.active wk m)) :
    (h ∈ w.wOne → w.shutTxOne.ws[h]? = some (.closed wk) ∧ .dropped m.id ∈ w.shutTxOne.log) ∧
    (h ∈ w.wOne ∨ h ∈ w.wAll → w.shutTx.ws[h]? = some (.closed wk)) := by
  refine ⟨fun hm => ⟨?_, ?_⟩, fun hm => ?_⟩
  · simp [World.shutTxOne, closeHandles_ws, hm, ha, WsCell.close]
  · refine closeHandles_dropped (h := h) (wk := wk) _ ?_ ?_
    · simpa [World.shutTxOne] using hm
    · simpa [World.shutTxOne] using ha
  · simp [shutTx_ws, hm, ha, WsCell.close]

/-- C59, the rest of it is false. Once the lock is poisoned, a send that is still parked is not woken and never resolves, whatever is done. -/
theorem C59_never_released {cap : Option Nat} {x x' : XSys} (h : XRun cap x) (hp : x.poisoned = true) (hq : ∀ y ∈ x.s.th, y = [])
    {f k : Nat} {md : Mode} {m : Msg} {wk : Option Nat} (ho : x.s.w.objs[f]? = some (.send md m.id (.waiting k)))
    (ha : x.s.w.ws[k]? = some (.active wk m)) (hs : XSteps x x') :
    (∀ e ∈ x'.s.w.log, e.resultOf f = true → e ∈ x.s.w.log) ∧
    ((∃ wk', x'.s.w.ws[k]? = some (.active wk' m)) ∨ x'.s.w.ws[k]? = some .gone) := by
  have st : Stuck f k m x.s := by
    refine ⟨fun o h' => ?_, (List.getElem?_eq_some_iff.mp ho).1, .inl ⟨wk, ha⟩, fun y hy mc hm => ?_⟩
    · rw [ho] at h'; cases h'; exact .inl ⟨_, rfl⟩
    · rw [hq y hy] at hm; simp at hm
  obtain ⟨k1, k2⟩ := stuck_steps h hp hs st
  refine ⟨fun e he hr => ?_, k1.cell⟩
  rcases k2 e he with h' | h'
  · exact h'
  · rw [h'] at hr; simp at hr

/-! ## Examples -/

/-- `bounded(1)`; one message queued, one send parked, waker 7; the mailbox is dropped. -/
def poisonRun : List Act :=
  [.call (.send 0), .call (.pollSend 2 5), .exec 1, .exec 1, .exec 1, .exec 1, .exec 1,
   .call (.send 0), .call (.pollSend 3 7), .exec 3, .exec 3, .exec 3, .exec 3, .exec 3,
   .call (.join 0), .exec 4, .exec 4, .call (.pollJoin 4 9), .call (.dropMailbox 1), .exec 6]

/-- … just before `shutdown_waiting_senders`. -/
def poisonS : Sys := ((init (some 1)).run poisonRun).getD (init none)

theorem poisonS_run : XRun (some 1) ⟨poisonS, false, []⟩ := xrun_ok (Reachable.run .init (as := poisonRun) rfl)

/-- The destructor of the queued message has panicked, the drop of the mailbox is through. -/
def poisonX : XSys := ⟨⟨(execP poisonS.w.shutTxQueue (.dropBq 0)).1, poisonS.th.set 6 []⟩, true, []⟩

theorem poisonX_run : XRun (some 1) poisonX := by
  refine .step (.step poisonS_run (.panicQueue (t := 6) (rest := [.dropBq 0]) rfl (by decide) (by decide))) ?_
  have := XStep.exec (x := ⟨⟨poisonS.w.shutTxQueue, poisonS.th.set 6 [.dropBq 0]⟩, true, []⟩) (t := 6) (mc := .dropBq 0) (rest := []) rfl (by decide)
  exact this

/-- C59 is false: the mailbox is gone, every call has returned, the address is there, and the parked send – polled with a waker that was never
woken – never resolves. -/
theorem C59_refuted : ∃ x : XSys, XRun (some 1) x ∧ x.poisoned = true ∧ (∀ y ∈ x.s.th, y = []) ∧ x.s.w.mailboxRefs = 0 ∧
    x.s.w.objs[0]? = some (.addr .strong) ∧ x.s.w.objs[3]? = some (.send .ret 1 (.waiting 0)) ∧ .sendPending 3 1 7 ∈ x.s.w.log ∧
    ∀ x', XSteps x x' → ∀ e ∈ x'.s.w.log, e.resultOf 3 = false := by
  refine ⟨poisonX, poisonX_run, rfl, by decide, by decide, by decide, by decide, by decide, fun x' hs e he => ?_⟩
  cases hb : e.resultOf 3
  · rfl
  · have := (C59_never_released poisonX_run rfl (by decide) (f := 3) (k := 0) (md := .ret) (m := ⟨1, .valued 0⟩) (wk := some 7)
      (by decide) (by decide) hs).1 e he hb
    have h0 : ∀ e ∈ poisonX.s.w.log, e.resultOf 3 = false := by decide
    rw [h0 e this] at hb; simp at hb

/-- The hypotheses of the theorems are met: nothing is under way, a join handle that was pending resolves, `len` panics, the queued message is
dropped, a new send is refused.
Meets the hypotheses of `C59_what_panics`, `C59_only_len_panics`, `C59_queue_dropped`, `C59_all_over`, `C59_sends_refused`,
`C59_never_released`. -/
example : poisonX.s.nothingUnderWay ∧ (.joinPending 4 9 ∈ poisonX.s.w.log) ∧ (call poisonX.s.w (.pollJoin 4 9)).map (·.1.log.head?) = some (some (.joined 4)) ∧
    XStep poisonX { poisonX with booms := [.len 0] } ∧ .dropped 0 ∈ poisonX.s.w.log ∧ poisonS.w.uq = [⟨0, .valued 0⟩] := by
  refine ⟨?_, by decide, by decide, .len (rc := .strong) rfl (by decide), by decide, by decide⟩
  unfold Sys.nothingUnderWay; decide

/-- A send is under way – it has found the channel connected – when the destructor panics: its poll panics. -/
example : ∃ x : XSys, XRun none x ∧ .send 3 ∈ x.booms := by
  have h1 : XRun none ⟨((init none).run [.call (.send 0), .call (.pollSend 2 5), .exec 1, .exec 1, .exec 1, .exec 1, .exec 1,
    .call (.send 0), .call (.pollSend 3 7), .exec 3, .exec 3, .call (.dropMailbox 1), .exec 4]).getD (init none), false, []⟩ :=
    xrun_ok (Reachable.run .init (as := [.call (.send 0), .call (.pollSend 2 5), .exec 1, .exec 1, .exec 1, .exec 1, .exec 1,
      .call (.send 0), .call (.pollSend 3 7), .exec 3, .exec 3, .call (.dropMailbox 1), .exec 4]) rfl)
  have h2 := XRun.step h1 (.panicQueue (t := 4) (rest := [.dropBq 0]) rfl (by decide) (by decide))
  have h3 := XRun.step h2 (.exec (t := 3) (mc := .sendCrit 3 .ret ⟨1, .valued 0⟩ .strong 7) (rest := []) rfl (by decide))
  exact ⟨_, h3, by decide⟩

/-- A parked send whose destructor panics: the other parked sends are released, the parked broadcasts are not.
Meets the hypotheses of `C59_parked_released_partial`. -/
example : ∃ w : World, w.holdsMessage w.wOne ∧ w.ws[0]? = some (.active (some 7) ⟨1, .valued 0⟩) ∧ 0 ∈ w.wOne ∧ Quiet (some 1) w := by
  refine ⟨(((init (some 1)).run (poisonRun.take 14)).getD (init none)).w, ⟨0, by decide, some 7, ⟨1, .valued 0⟩, by decide⟩, by decide, by decide, ?_⟩
  exact ⟨_, Reachable.run .init (as := poisonRun.take 14) rfl, by decide⟩

/-- A message is queued and nothing has panicked. Meets the hypotheses of `C59_no_panic_unless_poisoned`. -/
example : ∃ x : XSys, XRun (some 1) x ∧ x.poisoned = false ∧ x.s.w.uq ≠ [] :=
  ⟨⟨_, false, []⟩, xrun_ok (Reachable.run .init (as := poisonRun.take 14) rfl), rfl, by decide⟩

end Xtra
