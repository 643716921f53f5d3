import Verif.Cons
/-! Which future made which message, its kind (unicast or broadcast) and its priority. -/

set_option linter.unusedSimpArgs false

namespace Xtra

/-- The priority last set for message `i` (0 if never set); the log is newest first. -/
def lastPrio (i : Nat) : List Ev → Nat
  | [] => 0
  | .prioSet j p :: l => if j = i then p else lastPrio i l
  | _ :: l => lastPrio i l

/-- `e` neither sets a priority nor makes a message. -/
def Ev.quiet : Ev → Bool
  | .prioSet _ _ => false
  | .made _ _ _ => false
  | _ => true

/-- `L` extends `l` by quiet events. -/
def LogLe (l L : List Ev) : Prop := ∃ t, L = t ++ l ∧ ∀ e ∈ t, e.quiet = true

theorem LogLe.refl (l : List Ev) : LogLe l l := ⟨[], rfl, by simp⟩
theorem LogLe.cons {l L : List Ev} (h : LogLe l L) (e : Ev) (he : e.quiet = true) : LogLe l (e :: L) := by
  obtain ⟨t, rfl, h2⟩ := h
  exact ⟨e :: t, rfl, by intro x hx; rcases List.mem_cons.mp hx with rfl | hx; exact he; exact h2 x hx⟩
theorem LogLe.trans {a b c : List Ev} (h : LogLe a b) (h' : LogLe b c) : LogLe a c := by
  obtain ⟨t, rfl, h2⟩ := h
  obtain ⟨t', rfl, h2'⟩ := h'
  refine ⟨t' ++ t, by simp, ?_⟩
  intro x hx
  rcases List.mem_append.mp hx with hx | hx
  · exact h2' x hx
  · exact h2 x hx

theorem LogLe.mem {l L : List Ev} (h : LogLe l L) {e : Ev} (he : e ∈ l) : e ∈ L := by
  obtain ⟨t, rfl, -⟩ := h; simp [he]
theorem LogLe.made {l L : List Ev} (h : LogLe l L) {f i : Nat} {bc : Bool}
    (he : Ev.made f i bc ∈ L) : Ev.made f i bc ∈ l := by
  obtain ⟨t, rfl, h2⟩ := h
  rcases List.mem_append.mp he with hx | hx
  · have := h2 _ hx; simp [Ev.quiet] at this
  · exact hx
theorem LogLe.prio {l L : List Ev} (h : LogLe l L) (i : Nat) : lastPrio i L = lastPrio i l := by
  obtain ⟨t, rfl, h2⟩ := h
  induction t with
  | nil => rfl
  | cons e t ih =>
    have := ih (fun x hx => h2 x (by simp [hx]))
    have he := h2 e (by simp)
    cases e <;> simp_all [lastPrio, Ev.quiet]

theorem killAll_logLe (ms : List Msg) (w : World) : LogLe w.log (w.killAll ms).log := by
  induction ms generalizing w with
  | nil => exact .refl _
  | cons m ms ih =>
    simp only [World.killAll]
    exact ((LogLe.refl w.log).cons (.dropped m.id) rfl).trans (ih _)

theorem closeHandles_logLe (hs : List Nat) (w : World) : LogLe w.log (w.closeHandles hs).log := by
  induction hs generalizing w with
  | nil => exact .refl _
  | cons h hs ih =>
    simp only [World.closeHandles]
    refine LogLe.trans ?_ (ih _)
    unfold World.closeHandle
    split
    · exact (LogLe.refl w.log).cons _ rfl
    · exact .refl _

theorem shutTx_logLe (w : World) : LogLe w.log w.shutTx.log := by
  simp only [World.shutTx]
  refine LogLe.trans ?_ (closeHandles_logLe _ _)
  refine LogLe.trans ?_ (closeHandles_logLe _ _)
  exact killAll_logLe w.uq ({ w with lst := w.lst.map LCell.notify, rang := true, uq := [], bqs := [] } : World)

theorem lateLog_logLe (w : World) (m : Msg) : LogLe w.log (w.lateLog m) := by
  unfold World.lateLog; split
  · exact (LogLe.refl _).cons _ rfl
  · exact .refl _

theorem popBroadcast_logLe {w w' : World} {b : Nat} {m : Msg} (r : RegWs w.ws w.wOne w.wAll)
    (hp : w.popBroadcast b = some (m, w')) : LogLe w.log w'.log := by
  rcases popBroadcast_log r hp with h | ⟨m', ts, h⟩ <;> rw [h]
  · exact .refl _
  · exact (LogLe.refl _).cons _ rfl

theorem execR_logLe {w w' : World} {m : Micro} {ms : List Micro} (h : ExecR w m w' ms)
    (r : RegWs w.ws w.wOne w.wAll) : LogLe w.log w'.log := by
  cases h
  case recv_all hp _ _ => exact (popBroadcast_logLe r hp).cons _ rfl
  case recv_one hp _ _ => rw [World.yieldMsg_log, World.popUnicast_log hp]; exact (LogLe.refl _).cons _ rfl
  case recvBcast_some hp => exact (popBroadcast_logLe r hp).cons _ rfl
  case shutTx => exact shutTx_logLe w
  case critAll_park => exact lateLog_logLe w _
  case critOne_park => exact lateLog_logLe w _
  case critOne_queue => exact lateLog_logLe w _
  case critOne_hand => exact lateLog_logLe w _
  case critAll_sent => exact (lateLog_logLe w _).cons _ rfl
  case dropBq => rw [World.decBq_log]; exact .refl _
  all_goals first
    | exact .refl _
    | exact (LogLe.refl w.log).cons _ rfl
    | exact ((LogLe.refl w.log).cons _ rfl).cons _ rfl

/-! ### kinds -/

/-- A unicast message made by `send`, with the priority last set. -/
def uniMsg (L : List Ev) (m : Msg) : Prop :=
  (∃ f, Ev.made f m.id false ∈ L) ∧ m.prio = .valued (lastPrio m.id L)

/-- A broadcast message made by `broadcast`, with the priority last set. -/
def bcMade (L : List Ev) (m : Msg) : Prop :=
  (∃ f, Ev.made f m.id true ∈ L) ∧ m.prio = .valued (lastPrio m.id L)

/-- A broadcast message made by `broadcast`, with the priority last set, or a `stop_all` notice. -/
def bcMsg (L : List Ev) (m : Msg) : Prop :=
  ((∃ f, Ev.made f m.id true ∈ L) ∧ m.prio = .valued (lastPrio m.id L)) ∨
  (m.prio = .shutdown ∧ ∀ f bc, Ev.made f m.id bc ∉ L)

/-- Accepted broadcast. -/
def bcAcc (L : List Ev) (m : Msg) : Prop := ∃ ts, Ev.bsent m ts ∈ L

def okAm (L : List Ev) : AMsg → Prop
  | .one m => uniMsg L m
  | .all m => bcAcc L m
  | .shutdown => True

def okS (L : List Ev) (mid : Nat) : Sending → Prop
  | .new m _ => m.id = mid ∧ m.prio = .valued (lastPrio mid L)
  | _ => True

def Mode.isB : Mode → Bool
  | .bcast => true
  | _ => false

def okO (L : List Ev) (f : Nat) : Obj → Prop
  | .send md mid s => Ev.made f mid md.isB ∈ L ∧ okS L mid s
  | .reply mid => Ev.made f mid false ∈ L
  | .message _ am => okAm L am
  | .dispatch _ am _ => okAm L am
  | _ => True

def okNew (L : List Ev) (f : Nat) (md : Mode) (m : Msg) : Prop :=
  Ev.made f m.id md.isB ∈ L ∧ m.prio = .valued (lastPrio m.id L)

def okM (L : List Ev) : Micro → Prop
  | .sendLd1 f md m _ _ => okNew L f md m
  | .sendLd2 f md m _ _ => okNew L f md m
  | .sendCrit f md m _ _ => okNew L f md m
  | .pollWs f md mid _ _ => Ev.made f mid md.isB ∈ L
  | .sendFin f md mid _ => Ev.made f mid md.isB ∈ L
  | .requeue m => uniMsg L m
  | .discard am => okAm L am
  | .respond _ am _ _ => okAm L am
  | _ => True

/-- Events are justified. -/
def okE (L : List Ev) : Ev → Prop
  | .recv _ _ am => okAm L am
  | .bsent m _ => bcMsg L m
  | .sendErr f mid => ∃ bc, Ev.made f mid bc ∈ L
  | .sendOk f mid => ∃ bc, Ev.made f mid bc ∈ L
  | .sendPending f mid _ => ∃ bc, Ev.made f mid bc ∈ L
  | .replyOk f mid _ => Ev.made f mid false ∈ L
  | .replyInt f mid => Ev.made f mid false ∈ L
  | .prioSet mid _ => ∃ f bc, Ev.made f mid bc ∈ L
  | .prioPanic f mid => ∃ bc, Ev.made f mid bc ∈ L
  | _ => True

theorem uniMsg.mono {l L : List Ev} (h : LogLe l L) {m : Msg} (u : uniMsg l m) : uniMsg L m := by
  obtain ⟨⟨f, h1⟩, h2⟩ := u; exact ⟨⟨f, h.mem h1⟩, by rw [h.prio]; exact h2⟩
theorem bcMade.mono {l L : List Ev} (h : LogLe l L) {m : Msg} (u : bcMade l m) : bcMade L m := by
  obtain ⟨⟨f, h1⟩, h2⟩ := u; exact ⟨⟨f, h.mem h1⟩, by rw [h.prio]; exact h2⟩
theorem bcMade.msg {L : List Ev} {m : Msg} (u : bcMade L m) : bcMsg L m := .inl u
theorem bcMsg.mono {l L : List Ev} (h : LogLe l L) {m : Msg} (u : bcMsg l m) : bcMsg L m := by
  rcases u with ⟨⟨f, h1⟩, h2⟩ | ⟨h1, h2⟩
  · exact .inl ⟨⟨f, h.mem h1⟩, by rw [h.prio]; exact h2⟩
  · exact .inr ⟨h1, fun f bc hm => h2 f bc (h.made hm)⟩
theorem okAm.mono {l L : List Ev} (h : LogLe l L) {am : AMsg} (u : okAm l am) : okAm L am := by
  cases am with
  | one m => exact uniMsg.mono h u
  | all m => obtain ⟨ts, h1⟩ := u; exact ⟨ts, h.mem h1⟩
  | shutdown => trivial
theorem okS.mono {l L : List Ev} (h : LogLe l L) {mid : Nat} {s : Sending} (u : okS l mid s) : okS L mid s := by
  cases s with
  | new m rc => exact ⟨u.1, by rw [h.prio]; exact u.2⟩
  | waiting => trivial
  | done => trivial
theorem okO.mono {l L : List Ev} (h : LogLe l L) {f : Nat} {o : Obj} (u : okO l f o) : okO L f o := by
  cases o with
  | send md mid s => exact ⟨h.mem u.1, u.2.mono h⟩
  | reply mid => exact h.mem u
  | message b am => exact okAm.mono h u
  | dispatch b am r => exact okAm.mono h u
  | _ => trivial
theorem okNew.mono {l L : List Ev} (h : LogLe l L) {f : Nat} {md : Mode} {m : Msg} (u : okNew l f md m) :
    okNew L f md m := ⟨h.mem u.1, by rw [h.prio]; exact u.2⟩
theorem okM.mono {l L : List Ev} (h : LogLe l L) {m : Micro} (u : okM l m) : okM L m := by
  cases m with
  | sendLd1 => exact okNew.mono h u
  | sendLd2 => exact okNew.mono h u
  | sendCrit => exact okNew.mono h u
  | pollWs => exact h.mem u
  | sendFin => exact h.mem u
  | requeue => exact uniMsg.mono h u
  | discard => exact okAm.mono h u
  | respond => exact okAm.mono h u
  | _ => trivial
theorem okE.mono {l L : List Ev} (h : LogLe l L) {e : Ev} (u : okE l e) : okE L e := by
  cases e with
  | recv => exact okAm.mono h u
  | bsent => exact bcMsg.mono h u
  | sendErr => obtain ⟨bc, h1⟩ := u; exact ⟨bc, h.mem h1⟩
  | sendOk => obtain ⟨bc, h1⟩ := u; exact ⟨bc, h.mem h1⟩
  | sendPending => obtain ⟨bc, h1⟩ := u; exact ⟨bc, h.mem h1⟩
  | replyOk => exact h.mem u
  | replyInt => exact h.mem u
  | prioSet => obtain ⟨f, bc, h1⟩ := u; exact ⟨f, bc, h.mem h1⟩
  | prioPanic => obtain ⟨bc, h1⟩ := u; exact ⟨bc, h.mem h1⟩
  | _ => trivial

theorem okNew.uni {L : List Ev} {f : Nat} {md : Mode} {m : Msg} (u : okNew L f md m) (h : md ≠ .bcast) :
    uniMsg L m := by
  refine ⟨⟨f, ?_⟩, u.2⟩
  have := u.1; cases md <;> simp_all [Mode.isB]
theorem okNew.bcMade {L : List Ev} {f : Nat} {m : Msg} (u : okNew L f .bcast m) : bcMade L m :=
  ⟨⟨f, u.1⟩, u.2⟩
theorem okNew.bc {L : List Ev} {f : Nat} {m : Msg} (u : okNew L f .bcast m) : bcMsg L m :=
  .inl ⟨⟨f, u.1⟩, u.2⟩

/-- All messages in the channel and all objects are justified. -/
structure KW (L : List Ev) (w : World) : Prop where
  objs : ∀ (f : Nat) (o : Obj), w.objs[f]? = some o → okO L f o
  uq : ∀ m : Msg, m ∈ w.uq → uniMsg L m
  one : ∀ h : Nat, h ∈ w.wOne → ∀ (wk : Option Nat) (m : Msg), w.ws[h]? = some (.active wk m) → uniMsg L m
  all : ∀ h : Nat, h ∈ w.wAll → ∀ (wk : Option Nat) (m : Msg), w.ws[h]? = some (.active wk m) → bcMade L m
  cells : ∀ (c : Nat) (m : Msg) (wk : Option Nat), w.cells[c]? = some (.full (.newMessage m) wk) → uniMsg L m
  bq : ∀ (b : Nat) (m : Msg), m ∈ w.items b → bcAcc L m

theorem KW.mono {l L : List Ev} {w : World} (k : KW l w) (h : LogLe l L) : KW L w where
  objs := fun _ _ a => (k.objs _ _ a).mono h
  uq := fun _ a => (k.uq _ a).mono h
  one := fun _ a _ _ b => (k.one _ a _ _ b).mono h
  all := fun _ a _ _ b => (k.all _ a _ _ b).mono h
  cells := fun _ _ _ a => (k.cells _ _ _ a).mono h
  bq := fun _ _ a => by obtain ⟨ts, h1⟩ := k.bq _ _ a; exact ⟨ts, h.mem h1⟩

/-- Only the objects change. -/
theorem KW.obj {L : List Ev} {w w' : World} (k : KW L w)
    (h : ∀ (f : Nat) (o : Obj), w'.objs[f]? = some o → okO L f o)
    (h1 : w'.uq = w.uq) (h2 : w'.wOne = w.wOne) (h3 : w'.wAll = w.wAll) (h4 : w'.ws = w.ws)
    (h5 : w'.cells = w.cells) (h6 : ∀ b, w'.items b = w.items b) : KW L w' where
  objs := h
  uq := fun _ a => k.uq _ (h1 ▸ a)
  one := fun _ a _ _ b => k.one _ (h2 ▸ a) _ _ (h4 ▸ b)
  all := fun _ a _ _ b => k.all _ (h3 ▸ a) _ _ (h4 ▸ b)
  cells := fun _ _ _ a => k.cells _ _ _ (h5 ▸ a)
  bq := fun _ _ a => by rw [h6] at a; exact k.bq _ _ a

theorem set_cases {α : Type _} {l : List α} {i j : Nat} {x y : α} (h : (l.set i x)[j]? = some y) :
    (i = j ∧ y = x) ∨ (i ≠ j ∧ l[j]? = some y) := by
  by_cases hk : i = j
  · subst hk
    have hl := (List.getElem?_eq_some_iff.mp h).1
    simp at hl
    rw [List.getElem?_set_self hl] at h; simp at h; exact .inl ⟨rfl, h.symm⟩
  · rw [List.getElem?_set_ne hk] at h; exact .inr ⟨hk, h⟩

theorem append_cases {α : Type _} {l : List α} {j : Nat} {x y : α} (h : (l ++ [x])[j]? = some y) :
    (j < l.length ∧ l[j]? = some y) ∨ (j = l.length ∧ y = x) := by
  by_cases hk : j < l.length
  · rw [List.getElem?_append_left hk] at h; exact .inl ⟨hk, h⟩
  · have hl := (List.getElem?_eq_some_iff.mp h).1
    simp at hl
    have : j = l.length := by omega
    subst this; simp at h; exact .inr ⟨rfl, h.symm⟩

theorem RegWs.one_lt {ws : List WsCell} {a b : List Nat} (r : RegWs ws a b) {h : Nat} (hh : h ∈ a) :
    h < ws.length := by
  rcases r.one h hh with ⟨_, _, hx⟩ | hx <;> exact (List.getElem?_eq_some_iff.mp hx).1

theorem KW.setObj {L : List Ev} {w : World} (k : KW L w) (i : Nat) {o : Obj} (ho : okO L i o) :
    ∀ (f : Nat) (o' : Obj), (w.objs.set i o)[f]? = some o' → okO L f o' := by
  intro f o' h
  rcases set_cases h with ⟨rfl, rfl⟩ | ⟨-, h⟩
  · exact ho
  · exact k.objs _ _ h

theorem notifyCell_new {cells : List RxCell} {c d : Nat} {k : Ctrl} (hk : ∀ m, k ≠ .newMessage m)
    {m : Msg} {wk : Option Nat} (h : (notifyCell cells c k)[d]? = some (.full (.newMessage m) wk)) :
    cells[d]? = some (.full (.newMessage m) wk) := by
  unfold notifyCell at h
  split at h
  · rcases set_cases h with ⟨-, h2⟩ | ⟨-, h2⟩
    · injection h2 with h3 h4; exact (hk m h3.symm).elim
    · exact h2
  · exact h

theorem notifyAll_new {l : List Nat} {d : Nat} {k : Ctrl} (hk : ∀ m, k ≠ .newMessage m)
    {m : Msg} {wk : Option Nat} {cells : List RxCell}
    (h : (l.foldl (fun cs c => notifyCell cs c k) cells)[d]? = some (.full (.newMessage m) wk)) :
    cells[d]? = some (.full (.newMessage m) wk) := by
  induction l generalizing cells with
  | nil => exact h
  | cons c l ih => exact notifyCell_new hk (ih h)

theorem KW.send {L : List Ev} {w : World} (k : KW L w) (hn : w.bqs.Nodup) {m : Msg} (hm : bcAcc L m) :
    KW L (w.sendBroadcast m) where
  objs := fun _ _ a => k.objs _ _ a
  uq := fun _ a => k.uq _ a
  one := fun _ a _ _ b => k.one _ a _ _ b
  all := fun _ a _ _ b => k.all _ a _ _ b
  cells := fun _ _ _ a => k.cells _ _ _ (notifyAll_new (by simp) a)
  bq := by
    intro b m' h
    rw [sendBroadcast_items w m hn] at h
    split at h
    · have := (Heap.push_perm Msg.le (w.items b) m).mem_iff.mp h
      rcases List.mem_cons.mp this with rfl | h
      · exact hm
      · exact k.bq _ _ h
    · exact k.bq _ _ h

theorem KW.popUnicast {L : List Ev} {w w' : World} {m : Msg} (k : KW L w)
    (r : RegWs w.ws w.wOne w.wAll) (hp : w.popUnicast = some (m, w')) : KW L w' ∧ uniMsg L m := by
  have hn := List.nodup_append.mp r.nodup
  obtain ⟨q, hq, hc⟩ := popUnicast_cases r.one hp
  have hperm := Heap.pop_perm hq
  have hm : uniMsg L m := k.uq _ (hperm.mem_iff.mpr (by simp))
  have hqs : ∀ x : Msg, x ∈ q → uniMsg L x := fun x hx => k.uq _ (hperm.mem_iff.mpr (by simp [hx]))
  refine ⟨?_, hm⟩
  rcases hc with ⟨-, rfl⟩ | ⟨-, hg, rfl⟩ | ⟨-, h', wk, m', q', t, rfl⟩
  · exact ⟨k.objs, hqs, k.one, k.all, k.cells, k.bq⟩
  · exact ⟨k.objs, hqs, fun _ h => by simp at h, k.all, k.cells, k.bq⟩
  · refine ⟨k.objs, ?_, ?_, ?_, k.cells, k.bq⟩
    · intro x hx
      have := (Heap.push_perm Msg.le q m').mem_iff.mp hx
      rcases List.mem_cons.mp this with rfl | h
      · exact k.one _ t.mem _ _ t.cell
      · exact hqs _ h
    · intro h hh wk' m1 hc
      rcases set_cases hc with ⟨-, hc⟩ | ⟨-, hc⟩
      · simp at hc
      · exact k.one _ (t.sublist.mem hh) _ _ hc
    · intro h hh wk' m1 hc
      rcases set_cases hc with ⟨-, hc⟩ | ⟨-, hc⟩
      · simp at hc
      · exact k.all _ hh _ _ hc

/-- A broadcast pop: the popped message was accepted; a newly admitted one is justified. -/
theorem KW.popBroadcast {L : List Ev} {w w' : World} {b : Nat} {m : Msg} (k : KW L w)
    (r : RegWs w.ws w.wOne w.wAll) (o : BqsOk w) (hp : w.popBroadcast b = some (m, w'))
    (hL : ∀ m' ts, Ev.bsent m' ts ∈ w'.log → bcAcc L m') :
    KW L w' ∧ bcAcc L m ∧ ∀ e ∈ w'.log, e ∈ w.log ∨ okE L e := by
  have hn := List.nodup_append.mp r.nodup
  obtain ⟨q, hq, hc⟩ := popBroadcast_cases r.all hp
  have hperm := Heap.pop_perm hq
  have hm : bcAcc L m := k.bq _ _ (hperm.mem_iff.mpr (by simp))
  have hb : ∀ (b' : Nat) (m : Msg), m ∈ (w.afterPop b q).items b' → bcAcc L m := by
    intro b' m' h
    rw [afterPop_items (pop_ne hq)] at h
    split at h
    · rename_i he; subst he; exact k.bq _ _ (hperm.mem_iff.mpr (by simp [h]))
    · exact k.bq _ _ h
  rcases hc with ⟨-, rfl⟩ | ⟨-, hg, rfl⟩ | ⟨-, h', wk, m', q', t, rfl⟩
  · refine ⟨⟨?_, ?_, ?_, ?_, ?_, hb⟩, hm, by simp; intro e he; exact .inl he⟩
    · simpa using k.objs
    · simpa using k.uq
    · simpa using k.one
    · simpa using k.all
    · simpa using k.cells
  · refine ⟨⟨?_, ?_, ?_, ?_, ?_, hb⟩, hm, by simp; intro e he; exact .inl he⟩
    · simpa using k.objs
    · simpa using k.uq
    · simpa using k.one
    · simp
    · simpa using k.cells
  · have hacc : bcAcc L m' := hL m' _ (List.mem_cons_self ..)
    refine ⟨?_, hm, ?_⟩
    · refine KW.send ?_ (by simpa using o.nodup) hacc
      refine ⟨?_, ?_, ?_, ?_, ?_, hb⟩
      · simpa using k.objs
      · simpa using k.uq
      · intro h hh wk' m1 hc
        simp at hh hc
        rcases set_cases hc with ⟨-, hc⟩ | ⟨-, hc⟩
        · simp at hc
        · exact k.one _ hh _ _ hc
      · intro h hh wk' m1 hc
        simp at hh hc
        rcases set_cases hc with ⟨-, hc⟩ | ⟨-, hc⟩
        · simp at hc
        · exact k.all _ (t.sublist.mem hh) _ _ hc
      · simpa using k.cells
    · intro e he
      simp only [World.sendBroadcast, afterPop_log, List.mem_cons] at he
      rcases he with rfl | he
      · right; exact (k.all _ t.mem _ _ t.cell).msg
      · exact .inl he

theorem KW.shutTx {L : List Ev} {w : World} (k : KW L w) : KW L w.shutTx where
  objs := by simpa using k.objs
  uq := by simp
  one := by simp
  all := by simp
  cells := by simpa using k.cells
  bq := by
    intro b m h
    have : w.shutTx.items b = w.items b := items_congr (by simp) b
    rw [this] at h; exact k.bq _ _ h

/-- `shutTx` logs only `dropped`. -/
theorem shutTx_mem {w : World} {e : Ev} (h : e ∈ w.shutTx.log) : e ∈ w.log ∨ ∃ j, e = .dropped j := by
  have hk : ∀ (ms : List Msg) (w : World), e ∈ (w.killAll ms).log → e ∈ w.log ∨ ∃ j, e = .dropped j := by
    intro ms; induction ms with
    | nil => intro w h; exact .inl h
    | cons m ms ih =>
      intro w h
      simp only [World.killAll] at h
      rcases ih _ h with h | h
      · simp at h; rcases h with h | h
        · exact .inr ⟨_, h⟩
        · exact .inl h
      · exact .inr h
  have hc : ∀ (hs : List Nat) (w : World), e ∈ (w.closeHandles hs).log → e ∈ w.log ∨ ∃ j, e = .dropped j := by
    intro hs; induction hs with
    | nil => intro w h; exact .inl h
    | cons x hs ih =>
      intro w h
      simp only [World.closeHandles] at h
      rcases ih _ h with h | h
      · unfold World.closeHandle at h
        split at h
        · simp at h; rcases h with h | h
          · exact .inr ⟨_, h⟩
          · exact .inl h
        · exact .inl h
      · exact .inr h
  simp only [World.shutTx] at h
  rcases hc _ _ h with h | h
  · rcases hc _ _ h with h | h
    · have := hk w.uq ({ w with lst := w.lst.map LCell.notify, rang := true, uq := [], bqs := [] } : World) h
      exact this
    · exact .inr h
  · exact .inr h

theorem execR_KW {w w' : World} {m : Micro} {ms : List Micro} (h : ExecR w m w' ms) (hwf : WF w m)
    (r : RegWs w.ws w.wOne w.wAll) (o : BqsOk w) (hfresh : ∀ f bc, Ev.made f w.resp.length bc ∉ w'.log)
    (k : KW w'.log w) (hm : okM w'.log m) :
    KW w'.log w' ∧ (∀ m' ∈ ms, okM w'.log m') ∧ ∀ e ∈ w'.log, e ∈ w.log ∨ okE w'.log e := by
  have hb : ∀ m' ts, Ev.bsent m' ts ∈ w'.log → bcAcc w'.log m' := fun m' ts h => ⟨ts, h⟩
  have hlate : ∀ (m1 : Msg) {e : Ev}, e ∈ w.lateLog m1 → e ∈ w.log ∨ okE w'.log e := by
    intro m1 e he
    unfold World.lateLog at he
    split at he
    · rcases List.mem_cons.mp he with rfl | he
      · exact .inr trivial
      · exact .inl he
    · exact .inl he
  generalize hL : w'.log = L at *
  have one' : ∀ {x : Nat} {y : WsCell}, (∀ wk m, y = .active wk m → ∃ wk', w.ws[x]? = some (.active wk' m)) →
      ∀ h : Nat, h ∈ w.wOne → ∀ (wk : Option Nat) (m : Msg), (w.ws.set x y)[h]? = some (.active wk m) → uniMsg L m := by
    intro x y hy h hh wk m hc
    rcases set_cases hc with ⟨he, hc2⟩ | ⟨-, hc⟩
    · subst he; obtain ⟨wk', h2⟩ := hy wk m hc2.symm; exact k.one _ hh _ _ h2
    · exact k.one _ hh _ _ hc
  have all' : ∀ {x : Nat} {y : WsCell}, (∀ wk m, y = .active wk m → ∃ wk', w.ws[x]? = some (.active wk' m)) →
      ∀ h : Nat, h ∈ w.wAll → ∀ (wk : Option Nat) (m : Msg), (w.ws.set x y)[h]? = some (.active wk m) → bcMade L m := by
    intro x y hy h hh wk m hc
    rcases set_cases hc with ⟨he, hc2⟩ | ⟨-, hc⟩
    · subst he; obtain ⟨wk', h2⟩ := hy wk m hc2.symm; exact k.all _ hh _ _ h2
    · exact k.all _ hh _ _ hc
  have cel' : ∀ {x : Nat} {y : RxCell}, (∀ wk m, y = .full (.newMessage m) wk → uniMsg L m) →
      ∀ (c : Nat) (m : Msg) (wk : Option Nat), (w.cells.set x y)[c]? = some (.full (.newMessage m) wk) → uniMsg L m := by
    intro x y hy c m wk hc
    rcases set_cases hc with ⟨-, hc⟩ | ⟨-, hc⟩
    · exact hy wk m hc.symm
    · exact k.cells _ _ _ hc
  cases h
  case recv_all r1 b _ m1 w1 hp _ _ =>
    obtain ⟨k1, h1, h2⟩ := k.popBroadcast r o hp (fun m' ts h => hb m' ts (by subst hL; simp [h]))
    refine ⟨k1.obj (k1.setObj r1 (o := .message b (.all m1)) h1) rfl rfl rfl rfl rfl (fun _ => rfl), by simp, ?_⟩
    intro e he
    subst hL; simp at he
    rcases he with rfl | he
    · exact .inr h1
    · exact h2 e he
  case recv_one r1 b _ m1 w1 hp _ _ =>
    obtain ⟨k1, h1⟩ := k.popUnicast r hp
    refine ⟨k1.obj (k1.setObj r1 (o := .message b (.one m1)) h1) rfl rfl rfl rfl rfl (fun _ => rfl), by simp, ?_⟩
    intro e he
    subst hL; simp at he
    rcases he with rfl | he
    · exact .inr h1
    · rw [World.popUnicast_log hp] at he; exact .inl he
  case recvBcast_some r1 b c _ m1 w1 hp =>
    obtain ⟨k1, h1, h2⟩ := k.popBroadcast r o hp (fun m' ts h => hb m' ts (by subst hL; simp [h]))
    refine ⟨⟨k1.setObj r1 (o := .message b (.all m1)) h1, k1.uq, k1.one, k1.all, ?_, k1.bq⟩, by simp, ?_⟩
    · intro c m wk hc
      rcases set_cases hc with ⟨-, hc⟩ | ⟨-, hc⟩
      · simp at hc
      · exact k1.cells _ _ _ hc
    · intro e he
      subst hL; simp at he
      rcases he with rfl | he
      · exact .inr h1
      · exact h2 e he
  case shutTx =>
    refine ⟨k.shutTx, by simp, ?_⟩
    intro e he
    rw [← hL] at he
    rcases shutTx_mem he with h | ⟨j, rfl⟩
    · exact .inl h
    · exact .inr trivial
  case shutRx =>
    refine ⟨⟨k.objs, k.uq, k.one, k.all, k.cells, k.bq⟩, by simp [okM], ?_⟩
    intro e he; subst hL; exact .inl he
  case critAll_sent m1 _ _ _ =>
    have hacc : bcAcc L m1 := by subst hL; exact ⟨_, List.mem_cons_self ..⟩
    refine ⟨?_, by simp [okM]; exact hm.1, ?_⟩
    · refine KW.send (w := { w with log := w.lateLog m1 }) ?_ o.nodup hacc
      exact ⟨k.objs, k.uq, k.one, k.all, k.cells, k.bq⟩
    · intro e he
      rw [← hL] at he
      simp only [World.sendBroadcast, List.mem_cons] at he
      rcases he with rfl | he
      · exact .inr (okNew.bc hm)
      · exact hlate m1 he
  case bcastShutdown =>
    have hacc : bcAcc L ⟨w.resp.length, .shutdown⟩ := by subst hL; exact ⟨_, List.mem_cons_self ..⟩
    refine ⟨?_, by simp, ?_⟩
    · refine KW.send (w := { w with resp := w.resp ++ [Resp.none] }) ?_ o.nodup hacc
      exact ⟨k.objs, k.uq, k.one, k.all, k.cells, k.bq⟩
    · intro e he
      rw [← hL] at he
      simp only [World.sendBroadcast, List.mem_cons] at he
      rcases he with rfl | he
      · exact .inr (.inr ⟨rfl, hfresh⟩)
      · exact .inl he
  case critAll_park m1 _ _ _ =>
    refine ⟨⟨k.objs, k.uq, ?_, ?_, k.cells, k.bq⟩, by simp [okM]; exact hm.1, fun e he => hlate m1 (by rw [← hL] at he; exact he)⟩
    · intro h hh wk m hc
      rcases append_cases hc with ⟨hl, hc⟩ | ⟨hl, hc⟩
      · exact k.one _ hh _ _ hc
      · exact absurd (r.one_lt hh) (by omega)
    · intro h hh wk m hc
      rcases append_cases hc with ⟨hl, hc⟩ | ⟨hl, hc⟩
      · have : h ∈ w.wAll := by
          simp at hh; rcases hh with hh | hh
          · exact hh
          · omega
        exact k.all _ this _ _ hc
      · simp at hc; rw [hc.2]; exact okNew.bcMade hm
  case critOne_park f md m1 rc _ hmd hne hf =>
    refine ⟨⟨k.objs, k.uq, ?_, ?_, k.cells, k.bq⟩, by simp [okM]; exact hm.1, fun e he => hlate m1 (by rw [← hL] at he; exact he)⟩
    · intro h hh wk m hc
      rcases append_cases hc with ⟨hl, hc⟩ | ⟨hl, hc⟩
      · have : h ∈ w.wOne := by
          simp at hh; rcases hh with hh | hh
          · exact hh
          · omega
        exact k.one _ this _ _ hc
      · simp at hc; rw [hc.2]; exact okNew.uni hm hmd
    · intro h hh wk m hc
      rcases append_cases hc with ⟨hl, hc⟩ | ⟨hl, hc⟩
      · exact k.all _ hh _ _ hc
      · exact absurd (r.swap.one_lt hh) (by omega)
  case critOne_hand f md m1 rc _ _ _ _ _ hmd hw hne hc =>
    refine ⟨⟨k.objs, k.uq, k.one, k.all, ?_, k.bq⟩, by simp [okM]; exact hm.1, fun e he => hlate m1 (by rw [← hL] at he; exact he)⟩
    exact cel' (fun wk m he => by simp at he; rw [← he.1]; exact okNew.uni hm hmd)
  case critOne_queue f md m1 rc _ hmd hne hf =>
    refine ⟨⟨k.objs, ?_, k.one, k.all, k.cells, k.bq⟩, by simp [okM]; exact hm.1, fun e he => hlate m1 (by rw [← hL] at he; exact he)⟩
    intro x hx
    rcases List.mem_cons.mp ((Heap.push_perm Msg.le w.uq m1).mem_iff.mp hx) with rfl | h
    · exact okNew.uni hm hmd
    · exact k.uq _ h
  case requeue_hand hw hne hc =>
    refine ⟨⟨k.objs, k.uq, k.one, k.all, ?_, k.bq⟩, by simp, ?_⟩
    · exact cel' (fun wk m he => by simp at he; rw [← he.1]; exact hm)
    · intro e he; rw [← hL] at he
      rcases List.mem_cons.mp he with rfl | he
      · exact .inr trivial
      · exact .inl he
  case requeue_queue m1 hne =>
    refine ⟨⟨k.objs, ?_, k.one, k.all, k.cells, k.bq⟩, by simp, ?_⟩
    · intro x hx
      rcases List.mem_cons.mp ((Heap.push_perm Msg.le w.uq m1).mem_iff.mp hx) with rfl | h
      · exact hm
      · exact k.uq _ h
    · intro e he; rw [← hL] at he
      rcases List.mem_cons.mp he with rfl | he
      · exact .inr trivial
      · exact .inl he
  case recv_wait =>
    refine ⟨⟨k.objs, k.uq, k.one, k.all, ?_, k.bq⟩, by simp [okM], fun e he => .inl (hL ▸ he)⟩
    intro c m wk hc
    rcases append_cases hc with ⟨-, hc⟩ | ⟨-, hc⟩
    · exact k.cells _ _ _ hc
    · simp at hc
  case notifyShut =>
    refine ⟨⟨k.objs, k.uq, k.one, k.all, ?_, k.bq⟩, by simp, fun e he => .inl (hL ▸ he)⟩
    intro c m wk hc; exact k.cells _ _ _ (notifyCell_new (by simp) hc)
  case dropBq =>
    refine ⟨⟨by simpa using k.objs, by simpa using k.uq, by simpa using k.one, by simpa using k.all,
      by simpa using k.cells, ?_⟩, by simp, ?_⟩
    · intro b m h
      rw [decBq_items] at h
      split at h
      · simp at h
      · exact k.bq _ _ h
    · intro e he; rw [← hL] at he; simp at he; exact .inl he
  case newBq =>
    refine ⟨⟨k.setObj _ trivial, k.uq, k.one, k.all, k.cells, ?_⟩, by simp, fun e he => .inl (hL ▸ he)⟩
    intro b m h
    refine k.bq b m ?_
    unfold World.items at h ⊢
    simp only at h
    by_cases hl : b < w.bq.length
    · rw [List.getElem?_append_left hl] at h; exact h
    · cases hg : (w.bq ++ [(⟨1, []⟩ : BQ)])[b]? with
      | none => rw [hg] at h; simp at h
      | some q =>
        rcases append_cases hg with ⟨h1, -⟩ | ⟨-, h2⟩
        · exact absurd h1 hl
        · rw [hg, h2] at h; simp at h
  case cancel_msg hc =>
    refine ⟨⟨k.objs, k.uq, k.one, k.all, cel' (by simp), k.bq⟩, ?_, fun e he => .inl (hL ▸ he)⟩
    simp [okM]; exact k.cells _ _ _ hc
  case recvPoll_one hc =>
    have := k.cells _ _ _ hc
    refine ⟨⟨k.setObj _ (by exact this), k.uq, k.one, k.all, cel' (by simp), k.bq⟩, by simp, ?_⟩
    intro e he; rw [← hL] at he
    simp at he
    rcases he with rfl | he
    · exact .inr this
    · exact .inl he
  case pollWs_active hc =>
    refine ⟨⟨k.setObj _ ⟨hm, trivial⟩, k.uq, one' ?_, all' ?_, k.cells, k.bq⟩, by simp, ?_⟩
    · intro wk m he; simp at he; rw [← he.2]; exact ⟨_, hc⟩
    · intro wk m he; simp at he; rw [← he.2]; exact ⟨_, hc⟩
    · intro e he; rw [← hL] at he
      rcases List.mem_cons.mp he with rfl | he2
      · exact .inr ⟨_, hm⟩
      · exact .inl he2
  all_goals try simp only [okM] at hm
  all_goals
    refine ⟨⟨?_, ?_, ?_, ?_, ?_, ?_⟩, ?_, ?_⟩
    · first
        | exact k.objs
        | exact k.setObj _ trivial
        | exact k.setObj _ hm
        | exact k.setObj _ ⟨hm, trivial⟩
    · exact k.uq
    · first
        | exact k.one
        | exact one' (by simp)
    · first
        | exact k.all
        | exact all' (by simp)
    · first
        | exact k.cells
        | exact cel' (by simp)
    · exact k.bq
    · first | (simp_all [okM, okAm, okNew]; done) | (intro m1 hm1; simp at hm1)
    · intro e he; rw [← hL] at he
      first
        | exact .inl he
        | (rcases List.mem_cons.mp he with rfl | he2
           · right; first | trivial | exact ⟨_, hm⟩ | exact ⟨_, hm.1⟩ | exact hm
           · first
               | exact .inl he2
               | (rcases List.mem_cons.mp he2 with rfl | he3
                  · right; first | trivial | exact ⟨_, hm⟩ | exact ⟨_, hm.1⟩ | exact hm
                  · exact .inl he3))

end Xtra
