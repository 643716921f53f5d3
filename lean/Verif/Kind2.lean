import Verif.Kind
/-! The kind invariant holds in every reachable state. -/

set_option linter.unusedSimpArgs false

namespace Xtra

/-- `L` contains `l` and agrees with it on the ids satisfying `P`. -/
structure LogP (P : Nat → Prop) (l L : List Ev) : Prop where
  mem : ∀ e, e ∈ l → e ∈ L
  prio : ∀ i, P i → lastPrio i L = lastPrio i l
  made : ∀ f i bc, P i → Ev.made f i bc ∈ L → Ev.made f i bc ∈ l

variable {P : Nat → Prop} {l L : List Ev}

theorem uniMsg.monoP (h : LogP P l L) {m : Msg} (hP : P m.id) (u : uniMsg l m) : uniMsg L m := by
  obtain ⟨⟨f, h1⟩, h2⟩ := u; exact ⟨⟨f, h.mem _ h1⟩, by rw [h.prio _ hP]; exact h2⟩
theorem bcMade.monoP (h : LogP P l L) {m : Msg} (hP : P m.id) (u : bcMade l m) : bcMade L m := by
  obtain ⟨⟨f, h1⟩, h2⟩ := u; exact ⟨⟨f, h.mem _ h1⟩, by rw [h.prio _ hP]; exact h2⟩
theorem bcMsg.monoP (h : LogP P l L) {m : Msg} (hP : P m.id) (u : bcMsg l m) : bcMsg L m := by
  rcases u with ⟨⟨f, h1⟩, h2⟩ | ⟨h1, h2⟩
  · exact .inl ⟨⟨f, h.mem _ h1⟩, by rw [h.prio _ hP]; exact h2⟩
  · exact .inr ⟨h1, fun f bc hm => h2 f bc (h.made _ _ _ hP hm)⟩

theorem not_of_sum {α : Type _} {g : α → Nat} {xs : List α} (h : sumBy g xs = 0) {x : α} (hx : x ∈ xs) :
    g x = 0 := (sumBy_eq_zero g).mp h x hx

theorem mid1_ne {i : Nat} {m : Msg} (h : mid1 i m = 0) : m.id ≠ i := by
  unfold mid1 at h; split at h <;> simp_all

theorem okAm.monoP (h : LogP P l L) {am : AMsg} (hP : ∀ m, am = .one m → P m.id) (u : okAm l am) :
    okAm L am := by
  cases am with
  | one m => exact uniMsg.monoP h (hP m rfl) u
  | all m => obtain ⟨ts, h1⟩ := u; exact ⟨ts, h.mem _ h1⟩
  | shutdown => trivial

theorem amW_ne {i : Nat} {am : AMsg} (h : amW i am = 0) : ∀ m, am = .one m → m.id ≠ i := by
  intro m hm; subst hm; exact mid1_ne h

theorem okO.monoP {i : Nat} (h : LogP (· ≠ i) l L) {f : Nat} {o : Obj} (hP : oAll i o = 0)
    (u : okO l f o) : okO L f o := by
  cases o with
  | send md mid s =>
    refine ⟨h.mem _ u.1, ?_⟩
    cases s with
    | new m rc =>
      have := mid1_ne (i := i) (m := m) hP
      obtain ⟨h1, h2⟩ := u.2
      exact ⟨h1, by rw [h.prio _ (h1 ▸ this)]; exact h2⟩
    | waiting => trivial
    | done => trivial
  | reply mid => exact h.mem _ u
  | message b am => exact okAm.monoP h (amW_ne hP) u
  | dispatch b am r => exact okAm.monoP h (amW_ne hP) u
  | _ => trivial

theorem okNew.monoP {i : Nat} (h : LogP (· ≠ i) l L) {f : Nat} {md : Mode} {m : Msg} (hP : mid1 i m = 0)
    (u : okNew l f md m) : okNew L f md m :=
  ⟨h.mem _ u.1, by rw [h.prio _ (mid1_ne hP)]; exact u.2⟩

theorem okM.monoP {i : Nat} (h : LogP (· ≠ i) l L) {m : Micro} (hP : mAll i m = 0) (u : okM l m) :
    okM L m := by
  cases m with
  | sendLd1 => exact okNew.monoP h hP u
  | sendLd2 => exact okNew.monoP h hP u
  | sendCrit => exact okNew.monoP h hP u
  | pollWs => exact h.mem _ u
  | sendFin => exact h.mem _ u
  | requeue => exact uniMsg.monoP h (mid1_ne hP) u
  | discard => exact okAm.monoP h (amW_ne hP) u
  | respond => exact okAm.monoP h (amW_ne hP) u
  | _ => trivial

theorem okE.monoP {i : Nat} (h : LogP (· ≠ i) l L) {e : Ev} (hP : eAll i e = 0) (hP' : eRecv i e = 0)
    (u : okE l e) : okE L e := by
  cases e with
  | recv => exact okAm.monoP h (amW_ne hP') u
  | bsent => exact bcMsg.monoP h (mid1_ne hP) u
  | sendErr => obtain ⟨bc, h1⟩ := u; exact ⟨bc, h.mem _ h1⟩
  | sendOk => obtain ⟨bc, h1⟩ := u; exact ⟨bc, h.mem _ h1⟩
  | sendPending => obtain ⟨bc, h1⟩ := u; exact ⟨bc, h.mem _ h1⟩
  | replyOk => exact h.mem _ u
  | replyInt => exact h.mem _ u
  | prioSet => obtain ⟨f, bc, h1⟩ := u; exact ⟨f, bc, h.mem _ h1⟩
  | prioPanic => obtain ⟨bc, h1⟩ := u; exact ⟨bc, h.mem _ h1⟩
  | _ => trivial

/-- The whole invariant. -/
structure KInv (s : Sys) : Prop where
  kw : KW s.w.log s.w
  th : ∀ ms ∈ s.th, ∀ m ∈ ms, okM s.w.log m
  evs : ∀ e ∈ s.w.log, okE s.w.log e
  made : ∀ f i bc, Ev.made f i bc ∈ s.w.log →
    f < s.w.objs.length ∧ i < s.w.resp.length ∧ (s.w.resp[i]? = some .none ↔ bc = true)
  uniq : ∀ f i bc f' i' bc', Ev.made f i bc ∈ s.w.log → Ev.made f' i' bc' ∈ s.w.log →
    (f = f' ↔ i = i') ∧ (i = i' → bc = bc')

/-- Everything about id `i` except object `f` is empty. -/
theorem KW.monoP {i : Nat} {w : World} (h : LogP (· ≠ i) w.log L) (k : KW w.log w)
    (hu : sumBy (mid1 i) w.uq = 0) (hw : sumBy (wsW i) w.ws = 0) (hc : sumBy (cellW i) w.cells = 0)
    {objs : List Obj} (ho : ∀ (f : Nat) (o : Obj), objs[f]? = some o → okO L f o) :
    KW L { w with objs := objs } where
  objs := ho
  uq := fun m a => uniMsg.monoP h (mid1_ne (not_of_sum hu a)) (k.uq m a)
  one := fun x a wk m b => by
    have := not_of_sum hw (List.mem_of_getElem? b)
    exact uniMsg.monoP h (mid1_ne this) (k.one x a wk m b)
  all := fun x a wk m b => by
    have := not_of_sum hw (List.mem_of_getElem? b)
    exact bcMade.monoP h (mid1_ne this) (k.all x a wk m b)
  cells := fun c m wk a => by
    have := not_of_sum hc (List.mem_of_getElem? a)
    exact uniMsg.monoP h (mid1_ne this) (k.cells c m wk a)
  bq := fun b m a => by obtain ⟨ts, h1⟩ := k.bq b m a; exact ⟨ts, h.mem _ h1⟩

theorem resp_kind_exec {w w' : World} {m : Micro} {ms : List Micro} (h : ExecR w m w' ms) (i : Nat)
    (hi : i < w.resp.length) :
    i < w'.resp.length ∧ (w'.resp[i]? = some .none ↔ w.resp[i]? = some .none) := by
  have hint : ∀ (j : Nat) (resp : List Resp) (g : Resp → Resp), (∀ x, g x = .none ↔ x = .none) →
      ((resp.modify j g)[i]? = some .none ↔ resp[i]? = some .none) := by
    intro j resp g hg
    rw [List.getElem?_modify]
    cases resp[i]? with
    | none => simp
    | some x => by_cases hj : j = i <;> simp [hj, hg]
  have h1 : ∀ x, Resp.interrupt x = .none ↔ x = .none := by intro x; cases x <;> simp [Resp.interrupt]
  have h2 : ∀ r x, Resp.fulfil r x = .none ↔ x = .none := by intro r x; cases x <;> simp [Resp.fulfil]
  have hset : ∀ j wk wk', w.resp[j]? = some (.waiting wk') →
      ((w.resp.set j (.waiting wk))[i]? = some .none ↔ w.resp[i]? = some .none) := by
    intro j wk wk' hj
    by_cases hk : j = i
    · subst hk; rw [List.getElem?_set_self hi, hj]; simp
    · rw [List.getElem?_set_ne hk]
  have hkill : ∀ (ms : List Msg) (w : World),
      ((w.killAll ms).resp[i]? = some .none ↔ w.resp[i]? = some .none) := by
    intro ms; induction ms with
    | nil => intro w; rfl
    | cons m ms ih => intro w; simp only [World.killAll]; rw [ih]; exact hint _ _ _ h1
  have hclose : ∀ (hs : List Nat) (w : World),
      ((w.closeHandles hs).resp[i]? = some .none ↔ w.resp[i]? = some .none) := by
    intro hs; induction hs with
    | nil => intro w; rfl
    | cons h hs ih =>
      intro w; simp only [World.closeHandles]; rw [ih]; unfold World.closeHandle
      split
      · exact hint _ _ _ h1
      · rfl
  cases h
  case recv_all hp _ _ => simp [World.popBroadcast_resp hp, hi]
  case recv_one hp _ _ => simp [World.popUnicast_resp hp, hi]
  case recvBcast_some hp => simp [World.popBroadcast_resp hp, hi]
  case shutTx =>
    refine ⟨by rw [shutTx_resplen]; exact hi, ?_⟩
    simp only [World.shutTx]
    rw [hclose]; 
    show ((World.closeHandles _ _).resp[i]? = some Resp.none ↔ _)
    rw [hclose]; 
    show ((World.killAll _ _).resp[i]? = some Resp.none ↔ _)
    rw [hkill]
  case bcastShutdown =>
    refine ⟨by simp; omega, ?_⟩
    simp [List.getElem?_append_left hi]
  case sendFin_waiting hc => exact ⟨by simpa using hi, hset _ _ _ hc⟩
  all_goals first
    | exact ⟨hi, Iff.rfl⟩
    | (refine ⟨by simpa using hi, ?_⟩
       first
         | (simp; done)
         | exact hint _ _ _ h1
         | exact hint _ _ _ (h2 _))

theorem objslen_exec {w w' : World} {m : Micro} {ms : List Micro} (h : ExecR w m w' ms) :
    w'.objs.length = w.objs.length := by
  cases h
  case recv_all hp _ _ => simp [World.popBroadcast_objs hp]
  case recv_one hp _ _ => simp [World.popUnicast_objs hp]
  case recvBcast_some hp => simp [World.popBroadcast_objs hp]
  all_goals simp

theorem kInv_exec {cap : Option Nat} {s : Sys} {t : Nat} {m : Micro} {rest : List Micro} {w' : World}
    {ms : List Micro} (hr : Reachable cap s) (k : KInv s) (ht : s.th[t]? = some (m :: rest))
    (he : ExecR s.w m w' ms) : KInv ⟨w', s.th.set t (ms ++ rest)⟩ := by
  have hle := execR_logLe he (regWs_reachable hr)
  have hth : ∀ x ∈ s.th, ∀ m ∈ x, okM w'.log m := fun x hx m hm => (k.th x hx m hm).mono hle
  have hcur := hth _ (List.mem_of_getElem? ht)
  obtain ⟨h1, h2, h3⟩ := execR_KW he (wf_reachable hr ht) (regWs_reachable hr) (bqsOk_reachable hr)
    (fun f bc hm => by have := (k.made _ _ _ (hle.made hm)).2.1; omega) (k.kw.mono hle) (hcur _ (by simp))
  refine ⟨h1, ?_, ?_, ?_, ?_⟩
  · intro x hx y hy
    rcases List.mem_or_eq_of_mem_set hx with hx | rfl
    · exact hth x hx y hy
    · rcases List.mem_append.mp hy with hy | hy
      · exact h2 y hy
      · exact hcur y (by simp [hy])
  · intro e he
    rcases h3 e he with h | h
    · exact (k.evs e h).mono hle
    · exact h
  · intro f i bc hm
    obtain ⟨a, b, c⟩ := k.made f i bc (hle.made hm)
    obtain ⟨b', c'⟩ := resp_kind_exec he i b
    exact ⟨by simp only; rw [objslen_exec he]; exact a, b', c'.trans c⟩
  · intro f i bc f' i' bc' hm hm'
    exact k.uniq _ _ _ _ _ _ (hle.made hm) (hle.made hm')

theorem sumBy_le {α : Type _} {f g : α → Nat} (h : ∀ x, f x ≤ g x) (xs : List α) :
    sumBy f xs ≤ sumBy g xs := by
  induction xs with
  | nil => simp
  | cons x xs ih => have := h x; simp; omega

/-- Message `i` is an unsent message of object `f`, so it is nowhere else. -/
theorem only_new {cap : Option Nat} {s : Sys} (hr : Reachable cap s) {f i : Nat} {md : Mode} {mid : Nat}
    {m : Msg} {rc : Rc} (ho : s.w.objs[f]? = some (.send md mid (.new m rc))) (hi : m.id = i) :
    sumBy (mid1 i) s.w.uq = 0 ∧ sumBy (wsW i) s.w.ws = 0 ∧ sumBy (cellW i) s.w.cells = 0 ∧
    sumBy (oAll i) (s.w.objs.set f .gone) = 0 ∧ sumBy (eAll i) s.w.log = 0 ∧
    tot (mAll i) s.th = 0 ∧ sumBy (eRecv i) s.w.log = 0 := by
  have h1 := held_reachable hr i
  have h2 := post_reachable hr i
  have h3 := sumBy_set (oAll i) .gone ho
  have h4 := sumBy_set (oPost i) .gone ho
  have hle : ∀ o, oPost i o ≤ oAll i o := by intro o; cases o <;> simp [oPost, oAll]
  have hlm : ∀ o, mPost i o ≤ mAll i o := by intro o; cases o <;> simp [mPost, mAll]
  have hle' : ∀ o, ePost i o ≤ eAll i o := by intro o; cases o <;> simp [ePost, eAll]
  have h5 : sumBy (oPost i) (s.w.objs.set f .gone) ≤ sumBy (oAll i) (s.w.objs.set f .gone) :=
    sumBy_le hle _
  have h6 : sumBy (ePost i) s.w.log ≤ sumBy (eAll i) s.w.log := sumBy_le hle' _
  have h7 : tot (mPost i) s.th ≤ tot (mAll i) s.th := tot_le hlm _
  have h8 : created i s.w ≤ 1 := by unfold created; split <;> omega
  have h9 : oAll i (.send md mid (.new m rc)) = 1 := by simp [oAll, sNewW, mid1, hi]
  simp [World.held, World.post, oPost, oAll] at *
  omega

/-- Ids not yet created are nowhere. -/
theorem none_new {cap : Option Nat} {s : Sys} (hr : Reachable cap s) {i : Nat} (hi : s.w.resp.length ≤ i) :
    sumBy (mid1 i) s.w.uq = 0 ∧ sumBy (wsW i) s.w.ws = 0 ∧ sumBy (cellW i) s.w.cells = 0 ∧
    sumBy (oAll i) s.w.objs = 0 ∧ sumBy (eAll i) s.w.log = 0 ∧
    tot (mAll i) s.th = 0 ∧ sumBy (eRecv i) s.w.log = 0 := by
  have h1 := held_reachable hr i
  have h2 := post_reachable hr i
  have hle : ∀ o, oPost i o ≤ oAll i o := by intro o; cases o <;> simp [oPost, oAll]
  have hlm : ∀ o, mPost i o ≤ mAll i o := by intro o; cases o <;> simp [mPost, mAll]
  have hle' : ∀ o, ePost i o ≤ eAll i o := by intro o; cases o <;> simp [ePost, eAll]
  have h5 : sumBy (oPost i) s.w.objs ≤ sumBy (oAll i) s.w.objs := sumBy_le hle _
  have h6 : sumBy (ePost i) s.w.log ≤ sumBy (eAll i) s.w.log := sumBy_le hle' _
  have h7 : tot (mPost i) s.th ≤ tot (mAll i) s.th := tot_le hlm _
  have h8 : created i s.w = 0 := by unfold created; split <;> omega
  simp [World.held, World.post] at *
  omega

theorem th_zero {i : Nat} {th : List (List Micro)} (h : tot (mAll i) th = 0) {x : List Micro} (hx : x ∈ th)
    {y : Micro} (hy : y ∈ x) : mAll i y = 0 := not_of_sum (not_of_sum h hx) hy

theorem kInv_send {cap : Option Nat} {s : Sys} (hr : Reachable cap s) (k : KInv s) (md : Mode) (x : Resp)
    (hx : x = .none ↔ md = .bcast) (sc : Nat) (rc : Rc) :
    KInv ⟨(({ s.w with sc := sc, resp := s.w.resp ++ [x] } : World).addObj
        (.send md s.w.resp.length (.new ⟨s.w.resp.length, .valued 0⟩ rc))).ev
        (.made s.w.objs.length s.w.resp.length md.isB), s.th ++ [[]]⟩ := by
  have hL : LogP (· ≠ s.w.resp.length) s.w.log (.made s.w.objs.length s.w.resp.length md.isB :: s.w.log) := by
    refine ⟨fun e he => by simp [he], fun i hi => rfl, ?_⟩
    intro f i bc hi hm
    simp at hm
    rcases hm with hm | hm
    · exact absurd hm.2.1 hi
    · exact hm
  obtain ⟨h1, h2, h3, h4, h5, h6, h7⟩ := none_new hr (i := s.w.resp.length) (Nat.le_refl _)
  have hlp : lastPrio s.w.resp.length s.w.log = 0 := by
    have : ∀ l : List Ev, (∀ e ∈ l, okE s.w.log e) → (∀ j p, Ev.prioSet j p ∈ l → j < s.w.resp.length) →
        lastPrio s.w.resp.length l = 0 := by
      intro l
      induction l with
      | nil => intros; rfl
      | cons e l ih =>
        intro he hp
        have := ih (fun x hx => he x (by simp [hx])) (fun j p hj => hp j p (by simp [hj]))
        cases e <;> simp [lastPrio, this]
        rename_i j p
        have := hp j p (by simp)
        omega
    refine this _ k.evs ?_
    intro j p hj
    obtain ⟨f, bc, h1⟩ := k.evs _ hj
    exact (k.made _ _ _ h1).2.1
  have hkw : KW (.made s.w.objs.length s.w.resp.length md.isB :: s.w.log)
      { s.w with objs := s.w.objs ++ [.send md s.w.resp.length (.new ⟨s.w.resp.length, .valued 0⟩ rc)] } := by
    refine KW.monoP hL k.kw h1 h2 h3 ?_
    intro f o ho
    rcases append_cases ho with ⟨-, ho⟩ | ⟨rfl, rfl⟩
    · exact okO.monoP hL (not_of_sum h4 (List.mem_of_getElem? ho)) (k.kw.objs f o ho)
    · refine ⟨by simp, rfl, ?_⟩
      simp [lastPrio, hlp]
  refine ⟨hkw.obj hkw.objs rfl rfl rfl rfl rfl (fun _ => rfl), ?_, ?_, ?_, ?_⟩
  · intro y hy m hm
    rcases List.mem_append.mp hy with hy | hy
    · exact (k.th y hy m hm).monoP hL (th_zero h6 hy hm)
    · simp at hy; subst hy; simp at hm
  · intro e he
    rcases List.mem_cons.mp he with rfl | he
    · trivial
    · exact (k.evs e he).monoP hL (not_of_sum h5 he) (not_of_sum h7 he)
  · intro f i bc hm
    simp at hm ⊢
    rcases hm with ⟨rfl, rfl, rfl⟩ | hm
    · refine ⟨by omega, by omega, ?_⟩
      simp [hx]; cases md <;> simp [Mode.isB]
    · obtain ⟨a, b, c⟩ := k.made f i bc hm
      refine ⟨by omega, by omega, ?_⟩
      rw [List.getElem?_append_left b]; exact c
  · intro f i bc f' i' bc' hm hm'
    simp at hm hm'
    rcases hm with ⟨rfl, rfl, rfl⟩ | hm <;> rcases hm' with ⟨rfl, rfl, rfl⟩ | hm'
    · simp
    · have := k.made _ _ _ hm'; constructor
      · constructor <;> intro <;> omega
      · intro; omega
    · have := k.made _ _ _ hm; constructor
      · constructor <;> intro <;> omega
      · intro; omega
    · exact k.uniq _ _ _ _ _ _ hm hm'

theorem kInv_setPrio {cap : Option Nat} {s : Sys} (hr : Reachable cap s) (k : KInv s) {f p : Nat}
    {md : Mode} {mid : Nat} {m : Msg} {rc : Rc} (ho : s.w.objs[f]? = some (.send md mid (.new m rc))) :
    KInv ⟨(s.w.setObj f (.send md mid (.new { m with prio := .valued p } rc))).ev (.prioSet mid p),
      s.th ++ [[]]⟩ := by
  obtain ⟨hmade, hid, hpr⟩ := k.kw.objs f _ ho
  obtain ⟨h1, h2, h3, h4, h5, h6, h7⟩ := only_new hr ho hid
  have hL : LogP (· ≠ mid) s.w.log (.prioSet mid p :: s.w.log) := by
    refine ⟨fun e he => by simp [he], fun i hi => ?_, ?_⟩
    · simp [lastPrio, Ne.symm hi]
    · intro f i bc hi hm; simpa using hm
  have hkw : KW (.prioSet mid p :: s.w.log)
      { s.w with objs := s.w.objs.set f (.send md mid (.new { m with prio := .valued p } rc)) } := by
    refine KW.monoP hL k.kw h1 h2 h3 ?_
    intro g o hg
    rcases set_cases hg with ⟨he, rfl⟩ | ⟨hne, hg⟩
    · subst he; exact ⟨by simp [hmade], hid, by simp [lastPrio]⟩
    · refine okO.monoP hL ?_ (k.kw.objs g o hg)
      refine not_of_sum h4 (List.mem_of_getElem? (i := g) ?_)
      rw [List.getElem?_set_ne hne]; exact hg
  refine ⟨hkw.obj hkw.objs rfl rfl rfl rfl rfl (fun _ => rfl), ?_, ?_, ?_, ?_⟩
  · intro y hy x hx
    rcases List.mem_append.mp hy with hy | hy
    · exact (k.th y hy x hx).monoP hL (th_zero h6 hy hx)
    · simp at hy; subst hy; simp at hx
  · intro e he
    rcases List.mem_cons.mp he with rfl | he
    · exact ⟨f, _, by simp; exact hmade⟩
    · exact (k.evs e he).monoP hL (not_of_sum h5 he) (not_of_sum h7 he)
  · intro g i bc hm
    simp at hm ⊢
    exact k.made g i bc hm
  · intro f i bc f' i' bc' hm hm'
    simp at hm hm'
    exact k.uniq _ _ _ _ _ _ hm hm'

/-- Calls other than `send`, `broadcast` and a successful `priority`. -/
theorem kInv_quiet {s : Sys} (k : KInv s) {w' : World} {ms : List Micro}
    (hle : LogLe s.w.log w'.log) (hw : KW w'.log w') (hms : ∀ m ∈ ms, okM w'.log m)
    (hev : ∀ e ∈ w'.log, e ∈ s.w.log ∨ okE w'.log e) (hol : s.w.objs.length ≤ w'.objs.length)
    (hresp : ∀ i, i < s.w.resp.length →
      i < w'.resp.length ∧ (w'.resp[i]? = some .none ↔ s.w.resp[i]? = some .none)) :
    KInv ⟨w', s.th ++ [ms]⟩ := by
  refine ⟨hw, ?_, ?_, ?_, ?_⟩
  · intro y hy x hx
    rcases List.mem_append.mp hy with hy | hy
    · exact (k.th y hy x hx).mono hle
    · simp at hy; subst hy; exact hms x hx
  · intro e he
    rcases hev e he with h | h
    · exact (k.evs e h).mono hle
    · exact h
  · intro f i bc hm
    obtain ⟨a, b, c⟩ := k.made f i bc (hle.made hm)
    obtain ⟨b', c'⟩ := hresp i b
    exact ⟨by simp only; omega, b', c'.trans c⟩
  · intro f i bc f' i' bc' hm hm'
    exact k.uniq _ _ _ _ _ _ (hle.made hm) (hle.made hm')

theorem KW.addObj {L : List Ev} {w : World} (k : KW L w) {o : Obj} (ho : okO L w.objs.length o) :
    ∀ (f : Nat) (o' : Obj), (w.objs ++ [o])[f]? = some o' → okO L f o' := by
  intro f o' h
  rcases append_cases h with ⟨-, h⟩ | ⟨rfl, rfl⟩
  · exact k.objs _ _ h
  · exact ho

theorem kInv_call {cap : Option Nat} {s : Sys} {c : Call} {w' : World} {ms : List Micro}
    (hr : Reachable cap s) (k : KInv s) (h : CallR s.w c w' ms) : KInv ⟨w', s.th ++ [ms]⟩ := by
  cases h
  case send i rc h => exact kInv_send hr k .ret (.waiting none) (by simp) _ rc
  case broadcast i rc h => exact kInv_send hr k .bcast .none (by simp) _ rc
  case setPrio h => exact kInv_setPrio hr k h
  case next b ho hm =>
    refine kInv_quiet k (by simp; exact .refl _) ?_ (by simp) (by simp; intro e he; exact .inl he) (by simp)
      (by simp)
    refine KW.obj (k.kw.mono (by simp; exact .refl _)) ?_ (by simp) (by simp) (by simp) (by simp) (by simp)
      (fun b' => incBq_items _ _ _)
    simp only [World.addObj_objs, World.incBq_objs, World.addObj_log, World.incBq_log]
    exact KW.addObj k.kw trivial
  case pollReply_waiting o _ mid wk' ho hc =>
    have hk := k.kw.objs _ _ ho
    refine kInv_quiet k ((LogLe.refl _).cons _ rfl) ?_ (by simp) ?_ (by simp) ?_
    · exact KW.obj (k.kw.mono ((LogLe.refl _).cons _ rfl)) (k.kw.mono ((LogLe.refl _).cons _ rfl)).objs rfl rfl rfl rfl rfl
        (fun _ => rfl)
    · intro e he
      rcases List.mem_cons.mp he with rfl | he
      · exact .inr ⟨_, List.mem_cons_of_mem _ hk⟩
      · exact .inl he
    · intro i hi
      refine ⟨by simpa using hi, ?_⟩
      simp
      by_cases hk : mid = i
      · subst hk; rw [List.getElem?_set_self hi, hc]; simp
      · rw [List.getElem?_set_ne hk]
  case flipLag =>
    exact kInv_quiet k (.refl _) (KW.obj (k.kw.mono (.refl _)) k.kw.objs rfl rfl rfl rfl rfl (fun _ => rfl)) (by simp)
      (fun e he => .inl he) (by simp) (fun i hi => ⟨hi, Iff.rfl⟩)
  all_goals
    have hk := k.kw.objs _ _ (by assumption)
    refine kInv_quiet k ?_ (KW.obj (k.kw.mono ?_) ?_ rfl rfl rfl rfl rfl (fun _ => rfl)) ?_ ?_ ?_ ?_
    · first
        | exact .refl _
        | exact (LogLe.refl _).cons _ rfl
    · first
        | exact .refl _
        | exact (LogLe.refl _).cons _ rfl
    · have kk : KW _ s.w := k.kw.mono (by first | exact .refl _ | exact (LogLe.refl s.w.log).cons _ rfl)
      first
        | exact k.kw.objs
        | exact (k.kw.mono ((LogLe.refl s.w.log).cons _ rfl)).objs
        | exact KW.addObj k.kw trivial
        | exact KW.setObj k.kw _ trivial
        | exact KW.setObj k.kw _ hk
        | exact KW.addObj (k.kw.mono ((LogLe.refl s.w.log).cons _ rfl)) trivial
        | exact KW.setObj (k.kw.mono ((LogLe.refl s.w.log).cons _ rfl)) _ trivial
    · first
        | (simp [okM]; done)
        | (simp [okM]; exact hk)
        | (simp [okM]; exact hk.1)
        | (simp [okM, okNew]; obtain ⟨h1, h2, h3⟩ := hk; subst h2; exact ⟨h1, h3⟩)
    · first
        | exact fun e he => .inl he
        | (intro e he
           rcases List.mem_cons.mp he with rfl | he
           · right
             first
               | trivial
               | exact List.mem_cons_of_mem _ hk
               | exact ⟨_, List.mem_cons_of_mem _ hk⟩
               | exact ⟨_, List.mem_cons_of_mem _ hk.1⟩
           · exact .inl he)
    · simp
    · exact fun i hi => ⟨hi, Iff.rfl⟩

theorem kInv_reachable {cap : Option Nat} {s : Sys} (h : Reachable cap s) : KInv s := by
  refine Reachable.inv (P := KInv) ?_ ?_ ?_ h
  · refine ⟨⟨?_, by simp [init], by simp [init], by simp [init], by simp [init], ?_⟩, by simp [init], by simp [init],
      by simp [init], by simp [init]⟩
    · intro f o ho
      simp only [init] at ho
      match f, ho with
      | 0, ho => simp at ho; subst ho; trivial
      | 1, ho => simp at ho; subst ho; trivial
      | n + 2, ho => simp at ho
    · intro b m hm
      simp only [init, World.items] at hm
      match b, hm with
      | 0, hm => simp at hm
      | n + 1, hm => simp at hm
  · intro s c w' ms hr k hc; exact kInv_call hr k hc
  · intro s t m rest w' ms hr k ht he; exact kInv_exec hr k ht he

end Xtra
