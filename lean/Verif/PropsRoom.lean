import Verif.PropsCausal
import Verif.PropsPrio
/-! # C76: whoever gets into the mailbox sees what was done by those who made room -/

set_option linter.unusedSimpArgs false
set_option linter.unusedVariables false

namespace Xtra

/-! ## Specification -/

/-- The message of the detached send, or broadcast, `f` is not in the mailbox yet: the future has not been polled, or is being polled for the first time
and has not got at the mailbox, or waits for room. -/
def OutsideYet (s : Sys) (f : Nat) : Prop := ∃ md i, md ≠ .ret ∧
  ((∃ (m : Msg) (rc : Rc), s.w.objs[f]? = some (.send md i (.new m rc))) ∨
   (∃ (u : Nat) (m : Msg) (rc : Rc) (wk : Nat) (rest : List Micro), m.id = i ∧ (s.th[u]? = some (.sendLd1 f md m rc wk :: rest) ∨ s.th[u]? = some (.sendLd2 f md m rc wk :: rest) ∨
      s.th[u]? = some (.sendCrit f md m rc wk :: rest))) ∨
   (∃ (h : Nat) (wk : Option Nat) (m : Msg), s.w.objs[f]? = some (.send md i (.waiting h)) ∧ s.w.ws[h]? = some (.active wk m)) ∨
   (∃ (u h wk : Nat) (wk' : Option Nat) (m : Msg) (rest : List Micro), s.th[u]? = some (.pollWs f md i h wk :: rest) ∧ s.w.ws[h]? = some (.active wk' m)))

/-- The step takes a message out of the mailbox: a unicast message from the queue, or a broadcast. (A message that is handed directly to a waiting receive
is not in the mailbox.) -/
def TakesOut (x x' : KSys) (r b : Nat) (am : AMsg) : Prop :=
  x.adds x' (.recv r b am) ∧ ((∃ m, am = .one m ∧ m ∈ x.s.w.uq) ∨ ∃ m, am = .all m)

/-! ## Proofs -/

theorem sumBy_mem {α : Type _} (g : α → Nat) {l : List α} {m : α} (h : m ∈ l) : g m ≤ sumBy g l := by
  obtain ⟨k, hk⟩ := List.getElem?_of_mem h
  exact le_sumBy g hk

theorem sumBy_two {α : Type _} (g : α → Nat) {l : List α} {m m' : α} (h : m ∈ l) (h' : m' ∈ l) (hn : m ≠ m') : g m + g m' ≤ sumBy g l := by
  induction l with
  | nil => simp at h
  | cons a l ih =>
    rcases List.mem_cons.mp h with rfl | h1 <;> rcases List.mem_cons.mp h' with rfl | h2
    · exact absurd rfl hn
    · have := sumBy_mem g h2; simp; omega
    · have := sumBy_mem g h1; simp; omega
    · have := ih h1 h2; simp; omega

theorem tot_unique {α : Type _} {g : α → Nat} {th : List (List α)} (h1 : tot g th ≤ 1) {u u' : Nat} {ms ms' : List α} {m m' : α}
    (hu : th[u]? = some ms) (hm : m ∈ ms) (hg : 0 < g m) (hu' : th[u']? = some ms') (hm' : m' ∈ ms') (hg' : 0 < g m') : m = m' := by
  by_cases e : m = m'
  · exact e
  · exfalso
    induction th generalizing u u' with
    | nil => simp at hu
    | cons a l ih =>
      simp only [tot, sumBy_cons] at h1
      cases u with
      | zero =>
        simp at hu; subst hu
        have := sumBy_mem g hm
        cases u' with
        | zero => simp at hu'; subst hu'; have := sumBy_two g hm hm' e; omega
        | succ u' => simp at hu'; have := mem_tot g hu' hm'; simp only [tot] at this; omega
      | succ u =>
        simp at hu
        have := mem_tot g hu hm; simp only [tot] at this
        cases u' with
        | zero => simp at hu'; subst hu'; have := sumBy_mem g hm'; omega
        | succ u' => simp at hu'; exact ih (by simp only [tot]; omega) hu hu'

/-- A waiting send is let in only by a step that holds the lock. -/
theorem execR_delivered {w w' : World} {mc : Micro} {ms : List Micro} (h : ExecR w mc w' ms) (r : RegWs w.ws w.wOne w.wAll) {k : Nat}
    {wk : Option Nat} (hx : w'.ws[k]? = some (.delivered wk)) :
    w.ws[k]? = some (.delivered wk) ∨ (mc.locked = true ∧ ∃ wk m, w.ws[k]? = some (.active wk m)) := by
  cases hk : w.ws[k]? with
  | some x =>
    rcases execR_evo h r hk with h1 | ⟨_, _, _, _, _, _, -, -, h1⟩ | ⟨a, m, rfl, h1, h2⟩ | ⟨_, m, rfl, h1, h2, -⟩ | ⟨h1, -⟩ <;> rw [hx] at h1 <;> simp at h1
    · subst h1; exact .inl rfl
    · right
      refine ⟨?_, _, _, rfl⟩
      by_cases hl : mc.locked = true
      · exact hl
      · exfalso
        have : w'.ws[k]? = w.ws[k]? ∨ w'.ws[k]? = some .gone ∨ (∃ a m, w'.ws[k]? = some (.active a m)) := by
          clear h2
          cases h <;> simp [Micro.locked] at hl
          case dropBq => left; simp
          all_goals (simp [List.getElem?_set] at hx ⊢ <;> grind)
        rw [hx, hk] at this; simp at this
  | none =>
    exfalso
    have hl : w.ws.length ≤ k := List.getElem?_eq_none_iff.mp hk
    have len : w'.ws.length = w.ws.length → False := by
      intro e; rw [List.getElem?_eq_none (by omega)] at hx; simp at hx
    cases h
    case critAll_park =>
      rcases append_cases hx with h | h
      · rw [hk] at h; simp at h
      · simp at h
    case critOne_park =>
      rcases append_cases hx with h | h
      · rw [hk] at h; simp at h
      · simp at h
    case recv_all hp _ _ =>
      obtain ⟨q, -, ⟨-, rfl⟩ | ⟨-, hg, rfl⟩ | ⟨-, h, wk, m', q', t, rfl⟩⟩ := popBroadcast_cases r.all hp <;> apply len <;> simp
    case recvBcast_some hp =>
      obtain ⟨q, -, ⟨-, rfl⟩ | ⟨-, hg, rfl⟩ | ⟨-, h, wk, m', q', t, rfl⟩⟩ := popBroadcast_cases r.all hp <;> apply len <;> simp
    case recv_one hp _ _ =>
      obtain ⟨q, -, ⟨-, rfl⟩ | ⟨-, hg, rfl⟩ | ⟨-, h, wk, m', q', t, rfl⟩⟩ := popUnicast_cases r.one hp <;> apply len <;> simp
    case shutTx => rw [shutTx_ws, hk] at hx; simp at hx
    all_goals (apply len; simp [World.kill, World.ev, World.setObj])

/-- If the waiting send `h` was let in, `K` was known. -/
def LetIn (K : Know) (x : KSys) (h : Nat) : Prop := ∀ wk, x.s.w.ws[h]? = some (.delivered wk) → K.le (x.k.loc (.ws h))

/-- A step of a poll of `f`. -/
def StepOk (K : Know) (x : KSys) (f u : Nat) : Micro → Prop
  | .sendLd1 f' md .. | .sendLd2 f' md .. | .sendCrit f' md .. => f' = f → md ≠ .ret
  | .pollWs f' md _ h _ => f' = f → md ≠ .ret ∧ LetIn K x h
  | .sendFin f' md _ _ => f' = f → md ≠ .ret ∧ K.le (x.k.th u)
  | _ => True

def ObjOk (K : Know) (x : KSys) : Obj → Prop
  | .send md _ (.new _ _) => md ≠ .ret
  | .send md _ (.waiting h) => md ≠ .ret ∧ LetIn K x h
  | .send _ _ .done => False
  | _ => True

structure RoomInv (K : Know) (f : Nat) (x : KSys) : Prop where
  obj : ∃ o, x.s.w.objs[f]? = some o ∧ ObjOk K x o
  th : ∀ (u : Nat) ms mc, x.s.th[u]? = some ms → mc ∈ ms → StepOk K x f u mc

theorem ObjOk.mono {K : Know} {x x' : KSys} (hl : ∀ h, LetIn K x h → LetIn K x' h) {o : Obj} (ho : ObjOk K x o) : ObjOk K x' o := by
  cases o <;> simp only [ObjOk] at * 
  rename_i md i s
  cases s <;> simp only [ObjOk] at *
  · exact ho
  · exact ⟨ho.1, hl _ ho.2⟩

theorem StepOk.mono {K : Know} {x x' : KSys} (hl : ∀ h, LetIn K x h → LetIn K x' h) {f u : Nat} (ht : (x.k.th u).le (x'.k.th u)) {mc : Micro}
    (ho : StepOk K x f u mc) : StepOk K x' f u mc := by
  cases mc <;> simp only [StepOk] at * <;> try exact ho
  · exact fun e => ⟨(ho e).1, hl _ (ho e).2⟩
  · exact fun e => ⟨(ho e).1, (ho e).2.trans ht⟩

/-- Where the steps of a poll come from. -/
theorem execR_stepNew {w w' : World} {m mc : Micro} {ms : List Micro} (h : ExecR w m w' ms) (hmc : mc ∈ ms) :
    (∀ f md mm rc wk, mc ≠ .sendLd1 f md mm rc wk) ∧
    (∀ f md mm rc wk, mc = .sendLd2 f md mm rc wk → m = .sendLd1 f md mm rc wk) ∧
    (∀ f md mm rc wk, mc = .sendCrit f md mm rc wk → m = .sendLd2 f md mm rc wk) ∧
    (∀ f md i h wk, mc = .pollWs f md i h wk → (∃ mm rc, m = .sendCrit f md mm rc wk) ∧ ∃ m', w'.ws[h]? = some (.active none m')) ∧
    (∀ f md i wk, mc = .sendFin f md i wk →
      (∃ mm rc, m = .sendCrit f md mm rc wk) ∨ ∃ h wk', m = .pollWs f md i h wk ∧ w.ws[h]? = some (.delivered wk')) := by
  cases h <;> simp at hmc <;>
    first
    | (rcases hmc with rfl | rfl <;> simp
       · intros; subst_vars; simp
       done)
    | (rcases hmc with rfl | rfl <;> simp <;> done)
    | (rcases hmc with rfl | rfl <;> simp <;> grind)
    | grind

theorem callR_objOk {w w' : World} {c : Call} {ms : List Micro} (h : CallR w c w' ms) {f : Nat} {o : Obj} (ho : w.objs[f]? = some o) :
    ∃ o', w'.objs[f]? = some o' ∧ ∀ K x, ObjOk K x o → ObjOk K x o' := by
  by_cases hf : c.target = some f
  · have hl := (List.getElem?_eq_some_iff.mp ho).1
    have hg := (List.getElem?_eq_some_iff.mp ho).2
    cases h <;> simp [Call.target] at hf <;> (try subst hf) <;>
      simp [World.setObj, World.addObj, World.ev, List.getElem?_append_left, hl, hg] <;>
      first
      | done
      | exact ho
      | (refine ⟨_, ho, fun _ _ h => h⟩)
      | (simp [ObjOk]; done)
      | (rename_i h0; rw [ho] at h0; simp at h0; subst h0; intro K x; simp [ObjOk]; done)
      | (rename_i s h0; rw [ho] at h0; simp at h0; subst h0; intro K x; cases s <;> simp [ObjOk]; done)
      | skip
  · exact ⟨o, callR_keeps h hf ho, fun _ _ h => h⟩

theorem room_step {cap : Option Nat} {x x' : KSys} {t f : Nat} {K : Know} (hx : KReach cap x) (hi : RoomInv K f x) (hs : KStep x t x')
    (hK : ∀ mc rest, x.s.th[t]? = some (mc :: rest) → mc.locked = true → K.le (x.k.after (mc.acq x.s.w) t)) : RoomInv K f x' := by
  have hr := hx.reachable
  have hkept := (kn_kept hs).1
  obtain ⟨⟨o, ho, hok⟩, hth⟩ := hi
  cases hs with
  | @call c s' ka hs =>
    rcases step_rel hs with ⟨c', w', ms, hc', hc, rfl⟩ | ⟨t, m1, rest, w', ms, hc', ht, he, rfl⟩
    · obtain rfl : c = c' := by simpa using hc'
      have hws := callR_wsEq hc
      have hl : ∀ h, LetIn K x h → LetIn K ⟨⟨w', x.s.th ++ [ms]⟩, x.k.call x.s.w x.s.th.length c ka⟩ h := by
        intro h hh wk hw
        simp only [hws] at hw
        exact (hh wk hw).trans fun p hp => .inl hp
      have hnew : (∃ o, w'.objs[f]? = some o ∧ ObjOk K x o) ∧ ∀ mc ∈ ms, (∀ md i wk, mc ≠ .sendFin f md i wk) ∧ StepOk K x f x.s.th.length mc := by
        have hlt := (List.getElem?_eq_some_iff.mp ho).1
        constructor
        · obtain ⟨o', h1, h2⟩ := callR_objOk hc ho
          exact ⟨o', h1, h2 K x hok⟩
        · clear hs hl hkept hK hws
          cases hc
          case pollSend_done h0 =>
            simp only [List.mem_singleton, forall_eq, StepOk]
            refine ⟨?_, ?_⟩
            · intro md i wk e
              simp at e
              obtain ⟨rfl, -⟩ := e
              rw [ho] at h0; simp at h0; subst h0; simp [ObjOk] at hok
            · rintro rfl
              rw [ho] at h0; simp at h0; subst h0; simp [ObjOk] at hok
          all_goals simp [StepOk] <;> (try (rename_i h0; intro e; subst e; rw [ho] at h0; simp at h0; subst h0; simp [ObjOk] at hok; try exact hok)) <;> skip
      obtain ⟨⟨o', h1, h2⟩, h3⟩ := hnew
      refine ⟨⟨o', h1, h2.mono hl⟩, ?_⟩
      intro u us mc hu hm
      rcases append_cases hu with h | h
      · exact (hth _ _ _ h.2 hm).mono hl (hkept _ h.1)
      · obtain ⟨rfl, h⟩ := h
        obtain rfl : us = ms := by simpa using h
        obtain ⟨hn, this⟩ := h3 mc hm
        cases mc <;> simp only [StepOk] at * <;> try exact this
        · exact fun e => ⟨(this e).1, hl _ (this e).2⟩
        · intro e; subst e; exact absurd rfl (hn _ _ _)
    · simp at hc'
  | @exec _ m rest s' ht hs =>
    rcases step_rel hs with ⟨c', w', ms, hc', hc, rfl⟩ | ⟨t', m1, rest1, w', ms, hc', ht', he, rfl⟩
    · simp at hc'
    obtain rfl : t = t' := by simpa using hc'
    rw [ht] at ht'
    obtain ⟨rfl, rfl⟩ : m = m1 ∧ rest = rest1 := by simpa using ht'
    have r := regWs_reachable hr
    have hl : ∀ h, LetIn K x h → LetIn K ⟨⟨w', x.s.th.set t (ms ++ rest)⟩, x.k.exec x.s.w w' t m⟩ h := by
      intro h hh wk hw
      rcases execR_delivered he r hw with h1 | ⟨h1, a, mm, h2⟩
      · exact (hh wk h1).trans fun p hp => .inl hp
      · exact fun p hp => .inr ⟨⟨⟨_, _, h2⟩, _, .inl hw⟩, hK _ _ ht h1 p hp⟩
    have hm := hth _ _ m ht (List.mem_cons_self ..)
    refine ⟨?_, ?_⟩
    · cases ho' : w'.objs[f]? with
      | none =>
        exfalso
        have h1 := execR_objs_length he
        have h2 := (List.getElem?_eq_some_iff.mp ho).1
        have h3 := List.getElem?_eq_none_iff.mp ho'
        omega
      | some o' =>
        refine ⟨o', rfl, ?_⟩
        rcases execR_objEvo he ho' with h1 | ⟨h1, h2⟩
        · rw [ho] at h1; simp at h1; subst h1; exact hok.mono hl
        · rcases h2 with h2 | ⟨md, mid, h, wk, mm, wk', rfl, rfl, h3, -⟩ | ⟨_, _, -, rfl, -⟩ | ⟨_, _, _, rfl, -⟩ | h2
          · cases o' <;> simp [Obj.inert] at h2 <;> simp [ObjOk]
          · exact ⟨(hm rfl).1, hl _ (hm rfl).2⟩
          · trivial
          · exact absurd rfl (hm rfl).1
          · rcases h2 with ⟨_, _, _, _, -, rfl, -⟩ | ⟨_, -, rfl, -⟩ <;> trivial
    · intro u us mc hu hmc
      rcases set_cases hu with ⟨rfl, h⟩ | h
      · obtain rfl : us = ms ++ rest := by simpa using h
        rcases List.mem_append.mp hmc with h1 | h1
        · obtain ⟨a1, a2, a3, a4, a5⟩ := execR_stepNew he h1
          have hthis : ∀ p, x.k.after (m.acq x.s.w) t p → (x.k.exec x.s.w w' t m).th t p := by intro p hp; simp only [Kn.exec, if_true]; exact hp
          cases mc <;> simp only [StepOk] <;> (try trivial) <;> rintro rfl
          · exact absurd rfl (a1 _ _ _ _ _)
          · have := a2 _ _ _ _ _ rfl; subst this; exact hm rfl
          · have := a3 _ _ _ _ _ rfl; subst this; exact hm rfl
          · obtain ⟨⟨mm, rc, rfl⟩, m', h2⟩ := a4 _ _ _ _ _ rfl
            refine ⟨hm rfl, fun wk hw => ?_⟩
            simp only [h2] at hw; simp at hw
          · rcases a5 _ _ _ _ rfl with ⟨mm, rc, rfl⟩ | ⟨h, wk', rfl, h2⟩
            · exact ⟨hm rfl, fun p hp => hthis p (hK _ _ ht rfl p hp)⟩
            · refine ⟨(hm rfl).1, fun p hp => hthis p (.inr ⟨.ws h, by simp [Micro.acq], (hm rfl).2 _ h2 p hp⟩)⟩
        · exact (hth _ _ _ ht (List.mem_cons_of_mem _ h1)).mono hl (hkept _ (List.getElem?_eq_some_iff.mp ht).1)
      · exact (hth _ _ _ h.2 hmc).mono hl (hkept _ (List.getElem?_eq_some_iff.mp h.2).1)

theorem locked_acq {mc : Micro} (w : World) (h : mc.locked = true) : .mutex ∈ mc.acq w := by
  cases mc <;> simp [Micro.locked] at h <;> simp [Micro.acq]
  split <;> simp

theorem mutex_kept {x x' : KSys} {t : Nat} (hs : KStep x t x') : (x.k.loc .mutex).le (x'.k.loc .mutex) := by
  cases hs <;> exact fun p hp => .inl hp

theorem room_steps {cap : Option Nat} {x y : KSys} {f : Nat} {K : Know} (hx : KReach cap x) (hi : RoomInv K f x) (hm : K.le (x.k.loc .mutex))
    (h : KSteps x y) : RoomInv K f y ∧ K.le (y.k.loc .mutex) := by
  induction h with
  | refl => exact ⟨hi, hm⟩
  | tail h hs ih =>
    refine ⟨room_step (h.reach hx) ih.1 hs ?_, ih.2.trans (mutex_kept hs)⟩
    intro mc rest ht hl p hp
    exact .inr ⟨_, locked_acq _ hl, ih.2 p hp⟩

/-- A future that is outside has not heard anything yet. -/
theorem room_outside {cap : Option Nat} {x : KSys} {f : Nat} (K : Know) (hx : KReach cap x) (ho : OutsideYet x.s f) : RoomInv K f x := by
  have hr := hx.reachable
  have hslot := (own_reachable hr).slot f
  have hne : ∀ o, x.s.w.objs[f]? = some o → o ≠ .busy → ∀ (u : Nat) ms mc, x.s.th[u]? = some ms → mc ∈ ms → StepOk K x f u mc := by
    intro o h1 h2 u ms mc hu hmc
    have h3 := mem_tot (fun x => eq1 f x.slot) hu hmc
    have h4 : busyL x.s.w.objs f = 0 := by simp [busyL, h1, h2]
    simp only [hslot, h4] at h3
    cases mc <;> simp only [StepOk] <;> (try trivial) <;> rintro rfl <;> simp [eq1, Micro.slot] at h3
  have one : ∀ (u0 : Nat) mc0 rest, x.s.th[u0]? = some (mc0 :: rest) → mc0.slot = some f → (∀ u, StepOk K x f u mc0) →
      (∃ o, x.s.w.objs[f]? = some o ∧ ObjOk K x o) ∧ ∀ (u : Nat) ms mc, x.s.th[u]? = some ms → mc ∈ ms → StepOk K x f u mc := by
    intro u0 mc0 rest h0 h1 h2
    refine ⟨⟨_, slot_busy (wf_reachable hr h0) h1, trivial⟩, ?_⟩
    intro u ms mc hu hmc
    by_cases hs : mc.slot = some f
    · have := tot_unique (g := fun x => eq1 f x.slot) (by rw [hslot]; unfold busyL; split <;> omega) hu hmc (by simp [eq1, hs]) h0 (List.mem_cons_self ..) (by simp [eq1, h1])
      rw [this]; exact h2 u
    · cases mc <;> simp only [StepOk] <;> (try trivial) <;> rintro rfl <;> simp [Micro.slot] at hs
  obtain ⟨md, i, hmd, ⟨m, rc, h⟩ | ⟨u, m, rc, wk, rest, -, h | h | h⟩ | ⟨h', wk, m, h, hw⟩ | ⟨u, h', wk, wk', m, rest, h, hw⟩⟩ := ho
  · exact ⟨⟨_, h, hmd⟩, hne _ h (by simp)⟩
  · exact ⟨(one _ _ _ h rfl fun _ _ => hmd).1, (one _ _ _ h rfl fun _ _ => hmd).2⟩
  · exact ⟨(one _ _ _ h rfl fun _ _ => hmd).1, (one _ _ _ h rfl fun _ _ => hmd).2⟩
  · exact ⟨(one _ _ _ h rfl fun _ _ => hmd).1, (one _ _ _ h rfl fun _ _ => hmd).2⟩
  · exact ⟨⟨_, h, hmd, fun wk hh => by rw [hw] at hh; simp at hh⟩, hne _ h (by simp)⟩
  · have := one _ _ _ h rfl fun _ _ => ⟨hmd, fun wk hh => by rw [hw] at hh; simp at hh⟩
    exact ⟨this.1, this.2⟩

/-- Only the end of a poll reports that the message is in the mailbox. -/
theorem okBy_step {cap : Option Nat} {x x' : KSys} {t : Nat} (hx : KReach cap x) (hs : KStep x t x') :
    LogBy (fun e => ∀ f i, e = .sendOk f i → ∃ md wk rest, x.s.th[t]? = some (.sendFin f md i wk :: rest)) x.s.w.log x'.s.w.log := by
  have hr := hx.reachable
  cases hs with
  | @call c s' ka hs =>
    rcases step_rel hs with ⟨c', w', ms, hc', hc, rfl⟩ | ⟨t, m1, rest, w', ms, hc', ht, he, rfl⟩
    · cases hc
      case next => simp [World.addObj]; exact .refl _
      all_goals first
        | exact .refl _
        | exact LogBy.one (by simp)
    · simp at hc'
  | @exec _ m rest s' ht hs =>
    rcases step_rel hs with ⟨c', w', ms, hc', hc, rfl⟩ | ⟨t', m1, rest1, w', ms, hc', ht', he, rfl⟩
    · simp at hc'
    obtain rfl : t = t' := by simpa using hc'
    rw [ht] at ht'
    obtain ⟨rfl, rfl⟩ : m = m1 ∧ rest = rest1 := by simpa using ht'
    have r := regWs_reachable hr
    cases he
    case recv_all hp _ _ => exact (popBroadcast_logBy r hp fun _ _ => by simp).cons (by simp)
    case recv_one hp _ _ => rw [World.yieldMsg_log, World.popUnicast_log hp]; exact LogBy.one (by simp)
    case recvBcast_some hp => exact (popBroadcast_logBy r hp fun _ _ => by simp).cons (by simp)
    case shutTx => exact shutTx_logBy (fun i => by simp) _
    case critAll_park => exact lateLog_logBy _ _ (by simp)
    case critOne_park => exact lateLog_logBy _ _ (by simp)
    case critOne_queue => exact lateLog_logBy _ _ (by simp)
    case critOne_hand => exact lateLog_logBy _ _ (by simp)
    case critAll_sent => exact (lateLog_logBy _ _ (by simp)).cons (by simp)
    case dropBq => simp only [World.decBq_log]; exact .refl _
    case sendFin_bcast => exact LogBy.one (by rintro f i e; simp at e; obtain ⟨rfl, rfl⟩ := e; exact ⟨_, _, _, ht⟩)
    case sendFin_detached => exact LogBy.one (by rintro f i e; simp at e; obtain ⟨rfl, rfl⟩ := e; exact ⟨_, _, _, ht⟩)
    case sendLd1_err => exact (LogBy.one (by simp)).cons (by simp)
    case sendLd2_err => exact (LogBy.one (by simp)).cons (by simp)
    case respond_one => exact (LogBy.one (by simp)).cons (by simp)
    all_goals first
      | exact .refl _
      | exact LogBy.one (by simp)

/-- Who knew something when it had the lock, lets everybody know who gets into the mailbox later. -/
theorem room_core {cap : Option Nat} {x y y' : KSys} {f i u : Nat} {K : Know} (hx : KReach cap x) (hi : RoomInv K f x) (hm : K.le (x.k.loc .mutex))
    (hxy : KSteps x y) (hs : KStep y u y') (he : y.adds y' (.sendOk f i)) : K.le (y'.k.th u) := by
  obtain ⟨h1, h2⟩ := room_steps hx hi hm hxy
  obtain ⟨l, h3, h4⟩ := okBy_step (hxy.reach hx) hs
  obtain ⟨l', h5, h6⟩ := he
  rw [h3] at h5
  have := List.append_cancel_right h5
  subst this
  obtain ⟨md, wk, rest, h7⟩ := h4 _ h6 f i rfl
  exact ((h1.th _ _ _ h7 (List.mem_cons_self ..)) rfl).2.trans ((kn_kept hs).1 _ (List.getElem?_eq_some_iff.mp h7).1)

/-- A step that takes a message out of the mailbox holds the lock. -/
theorem takesOut_locked {cap : Option Nat} {x x' : KSys} {t r b : Nat} {am : AMsg} (hx : KReach cap x) (hs : KStep x t x') (ht : TakesOut x x' r b am) :
    ∃ mc rest, x.s.th[t]? = some (mc :: rest) ∧ mc.locked = true ∧ x'.k = x.k.exec x.s.w x'.s.w t mc := by
  have hr := hx.reachable
  obtain ⟨⟨l, h1, h2⟩, hq⟩ := ht
  cases hs with
  | @call c s' ka hs =>
    exfalso
    rcases step_rel hs with ⟨c', w', ms, hc', hc, rfl⟩ | ⟨t, m1, rest, w', ms, hc', ht, he, rfl⟩
    · have : LogBy (fun e => e ≠ .recv r b am) x.s.w.log w'.log := by
        cases hc
        case next => simp [World.addObj]; exact .refl _
        all_goals first
          | exact .refl _
          | exact LogBy.one (by simp)
      obtain ⟨l', h3, h4⟩ := this
      simp only at h1
      rw [h3] at h1
      have := List.append_cancel_right h1
      subst this
      exact h4 _ h2 rfl
    · simp at hc'
  | @exec _ m rest s' ht hs =>
    refine ⟨m, rest, ht, ?_, rfl⟩
    rcases step_rel hs with ⟨c', w', ms, hc', hc, rfl⟩ | ⟨t', m1, rest1, w', ms, hc', ht', he, rfl⟩
    · simp at hc'
    obtain rfl : t = t' := by simpa using hc'
    rw [ht] at ht'
    obtain ⟨rfl, rfl⟩ : m = m1 ∧ rest = rest1 := by simpa using ht'
    by_cases hl : m.locked = true
    · exact hl
    exfalso
    have : LogBy (fun e => e ≠ .recv r b am) x.s.w.log w'.log := by
      cases he <;> simp [Micro.locked] at hl
      case recvPoll_one c wk wk' m hp =>
        refine LogBy.one ?_
        intro e
        simp at e
        obtain ⟨rfl, rfl, rfl⟩ := e
        rcases hq with ⟨m', h3, h4⟩ | ⟨m', h3⟩
        · simp at h3; subst h3
          have a1 := held_reachable hr m.id
          have a2 := created_le m.id x.s.w
          have a3 := le_sumBy (cellW m.id) hp
          have a4 := sumBy_mem (mid1 m.id) h4
          simp only [World.held] at a1
          simp [cellW, ctrlW, mid1] at a3 a4
          omega
        · simp at h3
      case recvPoll_shutdown =>
        refine LogBy.one ?_
        intro e
        simp at e
        obtain ⟨-, -, rfl⟩ := e
        simp at hq
      case dropBq => simp only [World.decBq_log]; exact .refl _
      case sendLd1_err => exact (LogBy.one (by simp)).cons (by simp)
      case sendLd2_err => exact (LogBy.one (by simp)).cons (by simp)
      case respond_one => exact (LogBy.one (by simp)).cons (by simp)
      all_goals first
        | exact .refl _
        | exact LogBy.one (by simp)
    obtain ⟨l', h3, h4⟩ := this
    simp only at h1
    rw [h3] at h1
    have := List.append_cancel_right h1
    subst this
    exact h4 _ h2 rfl

/-! ## C76 -/

/-- **C76.** Somebody takes a message out of the mailbox while a detached send or a broadcast is still outside — not yet polled, about to get at the
mailbox, or waiting for room. When it is told later that its message is in, it sees everything that the receiver had seen and done. -/
theorem C76_receiver_to_sender {cap : Option Nat} {x x' y y' : KSys} {t r b f i u : Nat} {am : AMsg} (hx : KReach cap x) (hs : KStep x t x')
    (ht : TakesOut x x' r b am) (ho : OutsideYet x.s f) (hxy : KSteps x' y) (hs' : KStep y u y') (he : y.adds y' (.sendOk f i)) :
    (x'.k.th t).le (y'.k.th u) := by
  obtain ⟨mc, rest, h1, h2, h3⟩ := takesOut_locked hx hs ht
  have hth : x'.k.th t = x.k.after (mc.acq x.s.w) t := by rw [h3]; simp [Kn.exec]
  have hi := room_outside (x'.k.th t) hx ho
  refine room_core (hx.step hs) (room_step hx hi hs ?_) ?_ hxy hs' he
  · intro mc' rest' h4 _
    rw [h1] at h4; simp at h4
    rw [hth, h4.1]; exact .refl _
  · rw [hth, h3]
    exact fun p hp => .inr ⟨h2, hp⟩

/-- **C76.** Actors that share a mailbox: whoever takes a message out of it sees everything that was seen and done by those who took one before. -/
theorem C76_receiver_to_receiver {cap : Option Nat} {x x' y y' : KSys} {t r b u r' b' : Nat} {am am' : AMsg} (hx : KReach cap x) (hs : KStep x t x')
    (ht : TakesOut x x' r b am) (hxy : KSteps x' y) (hs' : KStep y u y') (ht' : TakesOut y y' r' b' am') : (x'.k.th t).le (y'.k.th u) := by
  obtain ⟨mc, rest, h1, h2, h3⟩ := takesOut_locked hx hs ht
  have hth : x'.k.th t = x.k.after (mc.acq x.s.w) t := by rw [h3]; simp [Kn.exec]
  have hm : (x'.k.th t).le (x'.k.loc .mutex) := by
    rw [hth, h3]
    exact fun p hp => .inr ⟨h2, hp⟩
  have hm2 : (x'.k.loc .mutex).le (y.k.loc .mutex) := by
    clear hs' ht' hm
    induction hxy with
    | refl => exact .refl _
    | tail _ hs ih => exact ih.trans (mutex_kept hs)
  obtain ⟨mc', rest', h1', h2', h3'⟩ := takesOut_locked (hxy.reach (hx.step hs)) hs' ht'
  intro p hp
  rw [h3']
  simp only [Kn.exec, if_true]
  exact .inr ⟨_, locked_acq _ h2', hm2 p (hm p hp)⟩

/-- **C76.** Senders among themselves: somebody who knows `ka` polls a send or broadcast for the first time. Later its message is in the mailbox — in the
queue, or accepted as a broadcast — while a detached send or a broadcast `g` is still outside. When `g` is told that its message is in, it knows `ka`. -/
theorem C76_sender_to_sender {cap : Option Nat} {x x1 y z z' : KSys} {f wk mid g i u : Nat} {md : Mode} {m : Msg} {rc : Rc} {ka : Know}
    (hx : KReach cap x) (ho : x.s.w.objs[f]? = some (.send md mid (.new m rc))) (hb : KBegins x (.pollSend f wk) ka x1) (hxy : KSteps x1 y)
    (hin : (∃ m' ∈ y.s.w.uq, m'.id = m.id) ∨ ∃ m' ts, m'.id = m.id ∧ Ev.bsent m' ts ∈ y.s.w.log)
    (hg : OutsideYet y.s g) (hyz : KSteps y z) (hs : KStep z u z') (he : z.adds z' (.sendOk g i)) : ka.le (z'.k.th u) := by
  have h1 : KReach cap x1 := hx.step hb.step
  have hy := hxy.reach h1
  refine room_core hy (room_outside ka hy hg) ?_ hyz hs he
  refine Know.le.trans ?_ ((knInv_reach hy).mtx m.id)
  have a1 := held_reachable hy.reachable m.id
  have a2 := created_le m.id y.s.w
  simp only [World.held] at a1
  have hpos : 1 ≤ sumBy (mid1 m.id) y.s.w.uq ∨ 1 ≤ y.s.w.log.countP (Ev.acceptsBc m.id) := by
    rcases hin with ⟨m', h2, h3⟩ | ⟨m', ts, h2, h3⟩
    · left
      have := sumBy_mem (mid1 m.id) h2
      simp only [mid1, h3, if_true] at this
      exact this
    · exact .inr (List.countP_pos_iff.mpr ⟨_, h3, by simp [Ev.acceptsBc, h2]⟩)
  obtain ⟨-, -, ⟨mc, h2, h3⟩ | h2 | h2⟩ := sent_or_not hx ho hb _ hxy
  · exfalso
    have h4 : mSnd m.id mc = 1 := by rcases h3 with rfl | rfl | rfl <;> simp [mSnd, mid1]
    have h5 := unsent_unseen hy.reachable h2 h4
    have h6 := mem_tot (mAll m.id) h2 (List.mem_singleton_self _)
    have h7 : mAll m.id mc = 1 := by rcases h3 with rfl | rfl | rfl <;> simp [mAll, mid1]
    omega
  · exact h2
  · exfalso
    obtain ⟨-, n1, -, n2⟩ := C10_never_handled hy.reachable h2
    have := sumBy_mem (eAll m.id) h2
    simp [eAll, Xtra.n1] at this
    omega

/-! ## Examples -/

/-! Capacity 1. The first of two detached sends is in the mailbox, the second waits for room. Somebody who alone knows fact 7 polls a receive, which takes
the first message; then the second send is polled again. -/
def exR0sched : List (Act × Know) :=
  [exC (.send 0), exC (.detach 2), exC (.pollSend 2 0)] ++ exE 5 2 ++ [exC (.send 0), exC (.detach 3), exC (.pollSend 3 0)] ++ exE 5 5 ++
    [exC (.next 1), (.call (.pollRecv 4 0), fact7)]
def exR0 : KSys := (exBot (some 1)).goD exR0sched
def exR1 : KSys := exR0.goD (exE 1 7)
def exR2 : KSys := exR1.goD ([exC (.pollSend 3 1)] ++ exE 1 8)
def exR3 : KSys := exR2.goD (exE 1 8)

/-- The hypotheses of `C76_receiver_to_sender` are met, by a send that waits for room, and what it says is news to the sender. -/
example : KReach (some 1) exR0 ∧ KStep exR0 7 exR1 ∧ TakesOut exR0 exR1 4 0 (.one ⟨0, .valued 0⟩) ∧ OutsideYet exR0.s 3 ∧ KSteps exR1 exR2 ∧
    KStep exR2 8 exR3 ∧ exR2.adds exR3 (.sendOk 3 1) ∧ ¬ (exR1.goD [exC (.pollSend 3 1)]).k.th 8 7 ∧ exR3.k.th 8 7 := by
  have h0 : KReach (some 1) exR0 := (KSteps.go (x := exBot (some 1)) (as := exR0sched) rfl).reach .init
  have h1 : KStep exR0 7 exR1 := .exec (m := .recvTry 4 0 0) (rest := []) rfl rfl
  have h2 : TakesOut exR0 exR1 4 0 (.one ⟨0, .valued 0⟩) := ⟨⟨[.recv 4 0 (.one ⟨0, .valued 0⟩)], rfl, by simp⟩, .inl ⟨_, rfl, by decide⟩⟩
  have h3 : OutsideYet exR0.s 3 := ⟨.detached, 1, by simp, .inr (.inr (.inl ⟨0, some 0, ⟨1, .valued 0⟩, rfl, rfl⟩))⟩
  have h4 : KSteps exR1 exR2 := KSteps.go (as := [exC (.pollSend 3 1)] ++ exE 1 8) rfl
  have h5 : KStep exR2 8 exR3 := .exec (m := .sendFin 3 .detached 1 1) (rest := []) rfl rfl
  have h6 : exR2.adds exR3 (.sendOk 3 1) := ⟨[.sendOk 3 1], rfl, by simp⟩
  refine ⟨h0, h1, h2, h3, h4, h5, h6, ?_, C76_receiver_to_sender h0 h1 h2 h3 h4 h5 h6 7 (.inl (.inl rfl))⟩
  intro h
  change noFact 7 ∨ ∃ l ∈ ([] : List Loc), _ at h
  simp [noFact] at h

/-! The mailbox is cloned; the clone then takes the second message. -/
def exR4 : KSys := exR1.goD ([exC (.cloneMailbox 1)] ++ exE 1 8 ++ [exC (.next 5), exC (.pollRecv 6 0)])
def exR5 : KSys := exR4.goD (exE 1 10)

/-- The hypotheses of `C76_receiver_to_receiver` are met. -/
example : KSteps exR1 exR4 ∧ KStep exR4 10 exR5 ∧ TakesOut exR4 exR5 6 1 (.one ⟨1, .valued 0⟩) ∧ ¬ exR4.k.th 10 7 ∧ exR5.k.th 10 7 := by
  have h0 : KReach (some 1) exR0 := (KSteps.go (x := exBot (some 1)) (as := exR0sched) rfl).reach .init
  have h1 : KStep exR0 7 exR1 := .exec (m := .recvTry 4 0 0) (rest := []) rfl rfl
  have h2 : TakesOut exR0 exR1 4 0 (.one ⟨0, .valued 0⟩) := ⟨⟨[.recv 4 0 (.one ⟨0, .valued 0⟩)], rfl, by simp⟩, .inl ⟨_, rfl, by decide⟩⟩
  have h3 : KSteps exR1 exR4 := KSteps.go (as := [exC (.cloneMailbox 1)] ++ exE 1 8 ++ [exC (.next 5), exC (.pollRecv 6 0)]) rfl
  have h4 : KStep exR4 10 exR5 := .exec (m := .recvTry 6 1 0) (rest := []) rfl rfl
  have h5 : TakesOut exR4 exR5 6 1 (.one ⟨1, .valued 0⟩) := ⟨⟨[.recv 6 1 (.one ⟨1, .valued 0⟩)], rfl, by simp⟩, .inl ⟨_, rfl, by decide⟩⟩
  refine ⟨h3, h4, h5, ?_, C76_receiver_to_receiver h0 h1 h2 h3 h4 h5 7 (.inl (.inl rfl))⟩
  intro h
  change noFact 7 ∨ ∃ l ∈ ([] : List Loc), _ at h
  simp [noFact] at h

/-! Two detached sends; the first sender alone knows fact 7. -/
def exS0 : KSys := (exBot none).goD [exC (.send 0), exC (.detach 2), exC (.send 0), exC (.detach 3)]
def exS1 : KSys := exS0.goD [(.call (.pollSend 2 0), fact7)]
def exS2 : KSys := exS1.goD (exE 5 4)
def exS3 : KSys := exS2.goD ([exC (.pollSend 3 0)] ++ exE 4 5)
def exS4 : KSys := exS3.goD (exE 1 5)

/-- The hypotheses of `C76_sender_to_sender` are met. -/
example : KReach none exS0 ∧ KBegins exS0 (.pollSend 2 0) fact7 exS1 ∧ KSteps exS1 exS2 ∧ (∃ m' ∈ exS2.s.w.uq, m'.id = 0) ∧ OutsideYet exS2.s 3 ∧
    KSteps exS2 exS3 ∧ KStep exS3 5 exS4 ∧ exS3.adds exS4 (.sendOk 3 1) ∧ ¬ (exS2.goD [exC (.pollSend 3 0)]).k.th 5 7 ∧ exS4.k.th 5 7 := by
  have h0 : KReach none exS0 := (KSteps.go (x := exBot none) (as := [exC (.send 0), exC (.detach 2), exC (.send 0), exC (.detach 3)]) rfl).reach .init
  have hb : KBegins exS0 (.pollSend 2 0) fact7 exS1 := ⟨rfl, rfl⟩
  have h1 : KSteps exS1 exS2 := KSteps.go (as := exE 5 4) rfl
  have h2 : ∃ m' ∈ exS2.s.w.uq, m'.id = 0 := ⟨⟨0, .valued 0⟩, by decide, rfl⟩
  have h3 : OutsideYet exS2.s 3 := ⟨.detached, 1, by simp, .inl ⟨⟨1, .valued 0⟩, .strong, rfl⟩⟩
  have h4 : KSteps exS2 exS3 := KSteps.go (as := [exC (.pollSend 3 0)] ++ exE 4 5) rfl
  have h5 : KStep exS3 5 exS4 := .exec (m := .sendFin 3 .detached 1 0) (rest := []) rfl rfl
  have h6 : exS3.adds exS4 (.sendOk 3 1) := ⟨[.sendOk 3 1], rfl, by simp⟩
  refine ⟨h0, hb, h1, h2, h3, h4, h5, h6, ?_,
    C76_sender_to_sender (f := 2) (mid := 0) (md := .detached) (m := ⟨0, .valued 0⟩) (rc := .strong) h0 rfl hb h1 (.inl h2) h3 h4 h5 h6 7 rfl⟩
  intro h
  change noFact 7 ∨ ∃ l ∈ ([] : List Loc), _ at h
  simp [noFact] at h

end Xtra
