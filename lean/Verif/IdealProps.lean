import Verif.Ideal
/-! What the ideal mailbox of `Verif/Ideal.lean` guarantees, proved about that machine alone (no code is involved): it is not so
permissive that refining it would say nothing. -/

set_option linter.unusedSimpArgs false

namespace Xtra.Ideal
open Xtra

/-- `m` was made, as a broadcast (`b`) or not. -/
def MadeAs (s : State) (b : Bool) (m : Msg) : Prop := ∃ f, Ev.made f m.id b ∈ s.hist

structure Sane (s : State) : Prop where
  fresh : ∀ f i b, Ev.made f i b ∈ s.hist → i < s.next
  kind : ∀ f i b, Ev.made f i b ∈ s.hist → (b = true ↔ s.answer i = .none)
  draft : ∀ m, s.draft m ≠ 0 → ∃ b, MadeAs s b m
  store : ∀ m ∈ s.store, MadeAs s false m
  ticket : ∀ h b m, s.ticket h = .parked b m → MadeAs s b m
  seat : ∀ c m, s.seat c = .told (.newMessage m) → MadeAs s false m
  limbo : ∀ m, s.limbo m ≠ 0 → MadeAs s false m
  held : ∀ m, s.held m ≠ 0 → MadeAs s false m
  box : ∀ b, ∀ m ∈ s.box b, MadeAs s true m ∨ m.prio = .shutdown
  one : ∀ r b m, Ev.recv r b (.one m) ∈ s.hist → MadeAs s false m
  all : ∀ r b m, Ev.recv r b (.all m) ∈ s.hist → MadeAs s true m ∨ m.prio = .shutdown
  value : ∀ i r, s.answer i = .value r → Ev.handled i r ∈ s.hist
  replyOk : ∀ f i r, Ev.replyOk f i r ∈ s.hist → Ev.handled i r ∈ s.hist
  broken : ∀ i, s.answer i = .interrupted → Ev.dropped i ∈ s.hist ∨ Ev.lost i ∈ s.hist ∨ Ev.discarded i ∈ s.hist
  replyInt : ∀ f i, Ev.replyInt f i ∈ s.hist → Ev.dropped i ∈ s.hist ∨ Ev.lost i ∈ s.hist ∨ Ev.discarded i ∈ s.hist

theorem Sane.start (cap : Option Nat) : Sane (start cap) := by
  constructor <;> simp [Ideal.start]

theorem MadeAs.mono {s s' : State} {b : Bool} {m : Msg} (h : MadeAs s b m) (hh : ∀ f, Ev.made f m.id b ∈ s.hist → Ev.made f m.id b ∈ s'.hist) :
    MadeAs s' b m := by obtain ⟨f, hf⟩ := h; exact ⟨f, hh f hf⟩

theorem del_ne {b : Bag} {m x : Msg} (h : (b.del m) x ≠ 0) : b x ≠ 0 := by
  unfold Bag.del at h; split at h <;> omega

theorem add_ne {b : Bag} {m x : Msg} (h : (b.add m) x ≠ 0) : x = m ∨ b x ≠ 0 := by
  unfold Bag.add at h; split at h
  · exact .inl (by assumption)
  · exact .inr h

theorem interrupt_none (a : Answer) : a.interrupt = .none ↔ a = .none := by cases a <;> simp [Answer.interrupt]
theorem give_none (a : Answer) (r : Nat) : a.give r = .none ↔ a = .none := by cases a <;> simp [Answer.give]
theorem interrupt_value (a : Answer) (r : Nat) : a.interrupt = .value r ↔ a = .value r := by cases a <;> simp [Answer.interrupt]
theorem give_int (a : Answer) (r : Nat) : a.give r = .interrupted ↔ a = .interrupted := by cases a <;> simp [Answer.give]
theorem give_value {a : Answer} {r r' : Nat} (h : a.give r = .value r') : a = .value r' ∨ r' = r := by
  cases a <;> simp_all [Answer.give]
theorem interrupt_int {a : Answer} (h : a.interrupt = .interrupted) : a = .interrupted ∨ a = .owed := by
  cases a <;> simp_all [Answer.interrupt]

/-- Nothing about answers or history changes, and no new messages appear. -/
theorem Sane.offer {s s' : State} {m : Msg} (i : Sane s) (hm : MadeAs s false m) (h : Offer s m s') : Sane s' := by
  cases h with
  | hand _ =>
    refine { i with seat := ?_ }
    intro c x hx
    simp only [put] at hx
    split at hx
    · simp at hx; subst hx; exact hm
    · exact i.seat c x hx
  | store _ hp =>
    refine { i with store := ?_ }
    intro x hx
    rcases List.mem_cons.mp (hp.mem_iff.mp hx) with rfl | h
    · exact hm
    · exact i.store x h

theorem Sane.deliver {s s' : State} {m : Msg} (i : Sane s) (hm : MadeAs s true m ∨ m.prio = .shutdown) (h : Deliver s m s') : Sane s' := by
  cases h with
  | mk h1 h2 =>
    have mono : ∀ {b x}, MadeAs s b x → MadeAs { s with hist := Ev.bsent m s.live :: s.hist } b x :=
      fun h => h.mono (fun f hf => by simp [hf])
    constructor
    case box =>
      intro b x hx
      have : x = m ∨ x ∈ s.box b := by
        by_cases hb : b ∈ s.live
        · exact List.mem_cons.mp ((h1 b hb).mem_iff.mp hx)
        · have := h2 b hb; simp only [this] at hx; exact .inr hx
      rcases this with rfl | h
      · exact hm.imp mono id
      · exact (i.box b x h).imp mono id
    case seat =>
      intro c x hx
      simp only at hx
      split at hx
      · simp at hx
      · exact mono (i.seat c x hx)
    case fresh => intro f j b h; exact i.fresh f j b (by simpa using h)
    case kind => intro f j b h; exact i.kind f j b (by simpa using h)
    case draft => intro x hx; obtain ⟨b, hb⟩ := i.draft x hx; exact ⟨b, mono hb⟩
    case store => intro x hx; exact mono (i.store x hx)
    case ticket => intro h b x hx; exact mono (i.ticket h b x hx)
    case limbo => intro x hx; exact mono (i.limbo x hx)
    case held => intro x hx; exact mono (i.held x hx)
    case one => intro r b x hx; exact mono (i.one r b x (by simpa using hx))
    case all => intro r b x hx; exact (i.all r b x (by simpa using hx)).imp mono id
    case value => intro j r h; have := i.value j r h; simp [this]
    case replyOk => intro f j r h; have := i.replyOk f j r (by simpa using h); simp [this]
    case broken => intro j h; have := i.broken j h; simpa using this
    case replyInt => intro f j h; have := i.replyInt f j (by simpa using h); simpa using this

theorem Sane.refillOne {s s' : State} (i : Sane s) (h : RefillOne s s') : Sane s' := by
  cases h with
  | full _ => exact i
  | none _ => exact i
  | @move h m st _ ht _ hp =>
    refine { i with store := ?_, ticket := ?_ }
    · intro x hx
      rcases List.mem_cons.mp (hp.mem_iff.mp hx) with rfl | h'
      · exact i.ticket h false x ht
      · exact i.store x h'
    · intro k b x hx
      simp only [put] at hx
      split at hx
      · simp at hx
      · exact i.ticket k b x hx

theorem Sane.refillAll {s s' : State} (i : Sane s) (h : RefillAll s s') : Sane s' := by
  cases h with
  | full _ => exact i
  | none _ => exact i
  | @move h m _ _ ht _ hd =>
    refine Sane.deliver (s := { s with ticket := put s.ticket h .accepted }) { i with ticket := ?_ } (.inl (i.ticket h true m ht)) hd
    intro k b x hx
    simp only [put] at hx
    split at hx
    · simp at hx
    · exact i.ticket k b x hx

theorem Sane.takeAll {s s' : State} {b : Nat} {m : Msg} (i : Sane s) (h : TakeAll s b m s') :
    Sane s' ∧ (MadeAs s' true m ∨ m.prio = .shutdown) := by
  cases h with
  | @mk l n _ hp _ _ hr =>
    have i1 : Sane { s with box := put s.box b l, level := n } := by
      refine { i with box := ?_ }
      intro k x hx
      simp only [put] at hx
      split at hx
      · rename_i hk; subst hk
        exact i.box k x (hp.mem_iff.mpr (List.mem_cons.mpr (.inr hx)))
      · exact i.box k x hx
    refine ⟨i1.refillAll hr, ?_⟩
    refine (i.box b m (hp.mem_iff.mpr (by simp))).imp (fun hm => hm.mono (fun f hf => ?_)) id
    cases hr with
    | full _ => exact hf
    | none _ => exact hf
    | move _ _ _ hd => cases hd; simpa using hf

/-- Adding an event that makes nothing and claims nothing new. -/
theorem Sane.log {s : State} {e : Ev} (i : Sane s) (h1 : ∀ f j b, e ≠ .made f j b)
    (h2 : ∀ r b m, e = .recv r b (.one m) → MadeAs s false m)
    (h3 : ∀ r b m, e = .recv r b (.all m) → MadeAs s true m ∨ m.prio = .shutdown)
    (h4 : ∀ f j r, e = .replyOk f j r → Ev.handled j r ∈ s.hist)
    (h5 : ∀ f j, e = .replyInt f j → Ev.dropped j ∈ s.hist ∨ Ev.lost j ∈ s.hist ∨ Ev.discarded j ∈ s.hist) :
    Sane { s with hist := e :: s.hist } := by
  have mono : ∀ {b x}, MadeAs s b x → MadeAs { s with hist := e :: s.hist } b x := fun h => h.mono (fun f hf => by simp [hf])
  have back : ∀ {f j b}, Ev.made f j b ∈ e :: s.hist → Ev.made f j b ∈ s.hist := by
    intro f j b h
    rcases List.mem_cons.mp h with h | h
    · exact absurd h.symm (h1 f j b)
    · exact h
  constructor
  case fresh => intro f j b h; exact i.fresh f j b (back h)
  case kind => intro f j b h; exact i.kind f j b (back h)
  case draft => intro x hx; obtain ⟨b, hb⟩ := i.draft x hx; exact ⟨b, mono hb⟩
  case store => intro x hx; exact mono (i.store x hx)
  case ticket => intro h b x hx; exact mono (i.ticket h b x hx)
  case seat => intro c x hx; exact mono (i.seat c x hx)
  case limbo => intro x hx; exact mono (i.limbo x hx)
  case held => intro x hx; exact mono (i.held x hx)
  case box => intro b x hx; exact (i.box b x hx).imp mono id
  case one =>
    intro r b x hx
    rcases List.mem_cons.mp hx with h | h
    · exact mono (h2 r b x h.symm)
    · exact mono (i.one r b x h)
  case all =>
    intro r b x hx
    rcases List.mem_cons.mp hx with h | h
    · exact (h3 r b x h.symm).imp mono id
    · exact (i.all r b x h).imp mono id
  case value => intro j r h; have := i.value j r h; simp [this]
  case replyOk =>
    intro f j r hx
    rcases List.mem_cons.mp hx with h | h
    · have := h4 f j r h.symm; simp [this]
    · have := i.replyOk f j r h; simp [this]
  case broken => intro j h; have := i.broken j h; grind
  case replyInt =>
    intro f j hx
    rcases List.mem_cons.mp hx with h | h
    · have := h5 f j h.symm; grind
    · have := i.replyInt f j h; grind

/-- The answer to `j` is interrupted, and why is written down. -/
theorem Sane.interrupt {s : State} {j : Nat} {e : Ev} (i : Sane s) (he : e = .dropped j ∨ e = .lost j ∨ e = .discarded j) :
    Sane { s with answer := put s.answer j (s.answer j).interrupt, hist := e :: s.hist } := by
  have i1 := i.log (e := e) (by grind) (by grind) (by grind) (by grind) (by grind)
  refine { i1 with kind := ?_, value := ?_, broken := ?_ }
  · intro f k b h
    have := i1.kind f k b h
    simp only [put]; split
    · subst_vars; rw [interrupt_none]; exact this
    · exact this
  · intro k r h
    simp only [put] at h
    split at h
    · subst_vars; exact i1.value _ r ((interrupt_value _ _).mp h)
    · exact i1.value k r h
  · intro k h
    simp only [put] at h
    split at h
    · subst_vars; grind
    · exact i1.broken k h

theorem Sane.reduce {s : State} (i : Sane s) {d l hd : Bag} {st : List Msg} {tk : Nat → Ticket} {se : Nat → Seat} {bx : Nat → List Msg}
    {lv : List Nat} {le n1 n2 : Nat} {dm : Bool} {fm : Nat → Nat} {ow : Nat → Nat × Nat} {idl : List Nat} {kn : Nat → Bool}
    (h1 : ∀ m, d m ≠ 0 → s.draft m ≠ 0) (h2 : ∀ m, l m ≠ 0 → MadeAs s false m) (h3 : ∀ m, hd m ≠ 0 → MadeAs s false m)
    (h4 : ∀ m ∈ st, m ∈ s.store) (h5 : ∀ h b m, tk h = .parked b m → MadeAs s b m)
    (h6 : ∀ c m, se c = .told (.newMessage m) → MadeAs s false m) (h7 : ∀ b, ∀ m ∈ bx b, m ∈ s.box b) :
    Sane { s with strong := n1, dismissed := dm, boxes := n2, draft := d, store := st, box := bx, live := lv, level := le, ticket := tk, forMsg := fm, seat := se, owner := ow, idle := idl, limbo := l, held := hd, known := kn } := by
  refine { i with draft := ?_, store := ?_, ticket := ?_, seat := ?_, limbo := ?_, held := ?_, box := ?_ }
  · intro m hm; exact i.draft m (h1 m hm)
  · intro m hm; exact i.store m (h4 m hm)
  · exact h5
  · exact h6
  · exact h2
  · exact h3
  · intro b m hm; exact i.box b m (h7 b m hm)

theorem put_eq {α : Type} {f : Nat → α} {i j : Nat} {x y : α} (h : put f i x j = y) : j = i ∧ x = y ∨ f j = y := by
  unfold put at h; split at h
  · exact .inl ⟨by assumption, h⟩
  · exact .inr h

theorem MadeAs.unique {s : State} (i : Sane s) {b b' : Bool} {m : Msg} (h : MadeAs s b m) (h' : MadeAs s b' m) : b = b' := by
  obtain ⟨f, hf⟩ := h; obtain ⟨f', hf'⟩ := h'
  have := i.kind _ _ _ hf; have := i.kind _ _ _ hf'
  cases b <;> cases b' <;> simp_all

theorem draft_kind {s : State} (i : Sane s) {m : Msg} (h : s.draft m ≠ 0) :
    (s.answer m.id ≠ .none → MadeAs s false m) ∧ (s.answer m.id = .none → MadeAs s true m) := by
  obtain ⟨b, f, hf⟩ := i.draft m h
  have := i.kind _ _ _ hf
  cases b
  · exact ⟨fun _ => ⟨f, hf⟩, fun h => by simp_all⟩
  · exact ⟨fun h => by simp_all, fun _ => ⟨f, hf⟩⟩

/-- Goals about tables: a put is either the new entry or an old one. -/
macro "tables" i:ident : tactic => `(tactic| first
  | exact ($i).limbo | exact ($i).held | exact ($i).ticket | exact ($i).seat
  | exact fun _ h => h | exact fun _ _ h => h | exact fun _ h => del_ne h
  | (intro c m h; rcases put_eq h with ⟨-, h⟩ | h
     · simp at h
     · exact ($i).seat c m h)
  | (intro c b m h; rcases put_eq h with ⟨-, h⟩ | h
     · simp at h
     · exact ($i).ticket c b m h))

theorem Sane.step {s s' : State} (i : Sane s) (h : Step s s') : Sane s' := by
  have q1 := i.limbo
  have q2 := i.held
  cases h
  case retain h => exact i.reduce (by tables i) (by tables i) (by tables i) (by tables i) (by tables i) (by tables i) (by tables i)
  case release h => exact i.reduce (by tables i) (by tables i) (by tables i) (by tables i) (by tables i) (by tables i) (by tables i)
  case enter h => exact i.reduce (by tables i) (by tables i) (by tables i) (by tables i) (by tables i) (by tables i) (by tables i)
  case leave h => exact i.reduce (by tables i) (by tables i) (by tables i) (by tables i) (by tables i) (by tables i) (by tables i)
  case upgraded => exact i.log (by grind) (by grind) (by grind) (by grind) (by grind)
  case openBox => exact i.reduce (by tables i) (by tables i) (by tables i) (by tables i) (by tables i) (by tables i) (by tables i)
  case closeBox =>
    refine i.reduce (by tables i) (by tables i) (by tables i) (by tables i) (by tables i) (by tables i) ?_
    intro b m h
    simp only [put] at h
    split at h
    · simp at h
    · exact h
  case len => exact i.log (by grind) (by grind) (by grind) (by grind) (by grind)
  case make f bc =>
    have mono : ∀ {b x}, MadeAs s b x → MadeAs { s with hist := Ev.made f s.next bc :: s.hist } b x := fun h => h.mono (fun f hf => by simp [hf])
    constructor
    case fresh =>
      intro f' j b h
      rcases List.mem_cons.mp h with h | h
      · simp at h; simp [h]
      · have := i.fresh _ _ _ h; simp only; omega
    case kind =>
      intro f' j b h
      rcases List.mem_cons.mp h with h | h
      · simp at h; obtain ⟨-, rfl, rfl⟩ := h; simp only [put, if_true]; cases b <;> simp
      · have h1 := i.fresh _ _ _ h
        have h2 := i.kind _ _ _ h
        simp only [put]; rw [if_neg (by omega)]; exact h2
    case draft =>
      intro m hm
      rcases add_ne hm with rfl | hm
      · exact ⟨bc, f, by simp⟩
      · obtain ⟨b, hb⟩ := i.draft m hm; exact ⟨b, mono hb⟩
    case store => intro x hx; exact mono (i.store x hx)
    case ticket => intro h b x hx; exact mono (i.ticket h b x hx)
    case seat => intro c x hx; exact mono (i.seat c x hx)
    case limbo => intro x hx; exact mono (i.limbo x hx)
    case held => intro x hx; exact mono (i.held x hx)
    case box => intro b x hx; exact (i.box b x hx).imp mono id
    case one => intro r b x hx; exact mono (i.one r b x (by simpa using hx))
    case all => intro r b x hx; exact (i.all r b x (by simpa using hx)).imp mono id
    case value =>
      intro j r h
      rcases put_eq h with ⟨-, h⟩ | h
      · cases bc <;> simp at h
      · have := i.value j r h; simp [this]
    case replyOk => intro f j r h; have := i.replyOk f j r (by simpa using h); simp [this]
    case broken =>
      intro j h
      rcases put_eq h with ⟨-, h⟩ | h
      · cases bc <;> simp at h
      · have := i.broken j h; simpa using this
    case replyInt => intro f j h; have := i.replyInt f j (by simpa using h); simpa using this
  case prio m p hm =>
    have i1 := i.log (e := .prioSet m.id p) (by grind) (by grind) (by grind) (by grind) (by grind)
    refine { i1 with draft := ?_ }
    intro x hx
    rcases add_ne hx with rfl | hx
    · obtain ⟨b, f, hf⟩ := i.draft m hm; exact ⟨b, f, by simpa using hf⟩
    · exact i1.draft x (del_ne hx)
  case abandon m hm =>
    refine Sane.interrupt (s := { s with draft := s.draft.del m }) ?_ (.inl rfl)
    exact i.reduce (by tables i) (by tables i) (by tables i) (by tables i) (by tables i) (by tables i) (by tables i)
  case reject m f hm hf ho =>
    have i1 : Sane { s with draft := s.draft.del m } :=
      i.reduce (by tables i) (by tables i) (by tables i) (by tables i) (by tables i) (by tables i) (by tables i)
    have i2 := i1.interrupt (j := m.id) (e := .dropped m.id) (.inl rfl)
    exact i2.log (e := .sendErr f m.id) (by grind) (by grind) (by grind) (by grind) (by grind)
  case submit m hm hk hr ho =>
    refine Sane.offer (m := m) ?_ ?_ ho
    · exact i.reduce (by tables i) (by tables i) (by tables i) (by tables i) (by tables i) (by tables i) (by tables i)
    · exact (draft_kind i hm).1 hk
  case park m h hm hk _ _ _ =>
    refine i.reduce (by tables i) (by tables i) (by tables i) (by tables i) ?_ (by tables i) (by tables i)
    intro k b x hx
    rcases put_eq hx with ⟨-, hx⟩ | hx
    · simp at hx; obtain ⟨rfl, rfl⟩ := hx; exact (draft_kind i hm).1 hk
    · exact i.ticket k b x hx
  case submitAll m hm hk hr ho =>
    refine Sane.deliver (m := m) ?_ (.inl ?_) ho
    · exact i.reduce (by tables i) (by tables i) (by tables i) (by tables i) (by tables i) (by tables i) (by tables i)
    · exact (draft_kind i hm).2 hk
  case parkAll m h hm hk _ _ =>
    refine i.reduce (by tables i) (by tables i) (by tables i) (by tables i) ?_ (by tables i) (by tables i)
    intro k b x hx
    rcases put_eq hx with ⟨-, hx⟩ | hx
    · simp at hx; obtain ⟨rfl, rfl⟩ := hx; exact (draft_kind i hm).2 hk
    · exact i.ticket k b x hx
  case stillParked => exact i.log (by grind) (by grind) (by grind) (by grind) (by grind)
  case learn => exact i.reduce (by tables i) (by tables i) (by tables i) (by tables i) (by tables i) (by tables i) (by tables i)
  case refused f h hh hf =>
    have i1 : Sane { s with ticket := put s.ticket h .free } :=
      i.reduce (by tables i) (by tables i) (by tables i) (by tables i) (by tables i) (by tables i) (by tables i)
    exact i1.log (e := .sendErr f (s.forMsg h)) (by grind) (by grind) (by grind) (by grind) (by grind)
  case cancel h a m hh =>
    refine Sane.interrupt (s := { s with ticket := put s.ticket h .free }) ?_ (.inl rfl)
    exact i.reduce (by tables i) (by tables i) (by tables i) (by tables i) (by tables i) (by tables i) (by tables i)
  case tear h hh => exact i.reduce (by tables i) (by tables i) (by tables i) (by tables i) (by tables i) (by tables i) (by tables i)
  case sendOk => exact i.log (by grind) (by grind) (by grind) (by grind) (by grind)
  case replyPending => exact i.log (by grind) (by grind) (by grind) (by grind) (by grind)
  case replyOk f j r hj hf =>
    have := i.value j r hj
    exact i.log (by grind) (by grind) (by grind) (by grind) (by grind)
  case replyInt f j hj hf =>
    have := i.broken j hj
    exact i.log (by grind) (by grind) (by grind) (by grind) (by grind)
  case takeOne r b m st s1 hp h1 h2 hr =>
    have hm := i.store m (hp.mem_iff.mpr (by simp))
    have i1 : Sane { s with store := st } :=
      i.reduce (by tables i) (by tables i) (by tables i) (fun x hx => hp.mem_iff.mpr (by simp [hx])) (by tables i) (by tables i) (by tables i)
    have i2 := i1.refillOne hr
    have hm2 : MadeAs s1 false m := by cases hr <;> exact hm
    have i3 : Sane { s1 with held := s1.held.add m } := by
      refine { i2 with held := ?_ }
      intro x hx
      rcases add_ne hx with rfl | hx
      · exact hm2
      · exact i2.held x hx
    exact i3.log (e := .recv r b (.one m)) (by grind) (by intro _ _ x hx; cases hx; exact hm2) (by grind) (by grind) (by grind)
  case takeAll r b m s1 h1 ht =>
    obtain ⟨i1, hm⟩ := i.takeAll ht
    exact i1.log (e := .recv r b (.all m)) (by grind) (by grind) (by intro _ _ x hx; cases hx; exact hm) (by grind) (by grind)
  case takeEnd => exact i.log (by grind) (by grind) (by grind) (by grind) (by grind)
  case sit => exact i.reduce (by tables i) (by tables i) (by tables i) (by tables i) (by tables i) (by tables i) (by tables i)
  case stillWaiting => exact i.log (by grind) (by grind) (by grind) (by grind) (by grind)
  case pickUp c m hc =>
    have hm := i.seat c m hc
    have i1 : Sane { s with seat := put s.seat c .free, held := s.held.add m } := by
      refine i.reduce (by tables i) (by tables i) ?_ (by tables i) (by tables i) (by tables i) (by tables i)
      intro x hx
      rcases add_ne hx with rfl | hx
      · exact hm
      · exact i.held x hx
    exact i1.log (e := .recv (s.owner c).1 (s.owner c).2 (.one m)) (by grind) (by intro _ _ x hx; cases hx; exact hm) (by grind) (by grind) (by grind)
  case pickEnd c hc =>
    have i1 : Sane { s with seat := put s.seat c .free } :=
      i.reduce (by tables i) (by tables i) (by tables i) (by tables i) (by tables i) (by tables i) (by tables i)
    exact i1.log (e := .recv (s.owner c).1 (s.owner c).2 .shutdown) (by grind) (by grind) (by grind) (by grind) (by grind)
  case look => exact i.reduce (by tables i) (by tables i) (by tables i) (by tables i) (by tables i) (by tables i) (by tables i)
  case pickAll c m s1 hc ht =>
    obtain ⟨i1, hm⟩ := i.takeAll ht
    have i2 : Sane { s1 with seat := put s1.seat c .free } :=
      i1.reduce (by tables i1) (by tables i1) (by tables i1) (by tables i1) (by tables i1) (by tables i1) (by tables i1)
    exact i2.log (e := .recv (s.owner c).1 (s.owner c).2 (.all m)) (by grind) (by grind) (by intro _ _ x hx; cases hx; exact hm) (by grind) (by grind)
  case again => exact i.reduce (by tables i) (by tables i) (by tables i) (by tables i) (by tables i) (by tables i) (by tables i)
  case giveBack c m hc =>
    refine i.reduce (by tables i) ?_ (by tables i) (by tables i) (by tables i) (by tables i) (by tables i)
    intro x hx
    rcases add_ne hx with rfl | hx
    · exact i.seat c x hc
    · exact i.limbo x hx
  case ignore => exact i.reduce (by tables i) (by tables i) (by tables i) (by tables i) (by tables i) (by tables i) (by tables i)
  case reOffer m s1 hm ho =>
    have i1 : Sane { s with limbo := s.limbo.del m } :=
      i.reduce (by tables i) (fun x hx => i.limbo x (del_ne hx)) (by tables i) (by tables i) (by tables i) (by tables i) (by tables i)
    have i2 := i1.offer (i.limbo m hm) ho
    exact i2.log (by grind) (by grind) (by grind) (by grind) (by grind)
  case rise => exact i.reduce (by tables i) (by tables i) (by tables i) (by tables i) (by tables i) (by tables i) (by tables i)
  case lose c m hc =>
    refine Sane.interrupt (s := { s with seat := put s.seat c .free }) ?_ (.inr (.inl rfl))
    exact i.reduce (by tables i) (by tables i) (by tables i) (by tables i) (by tables i) (by tables i) (by tables i)
  case dismiss => exact i.reduce (by tables i) (by tables i) (by tables i) (by tables i) (by tables i) (by tables i) (by tables i)
  case tell => exact i.reduce (by tables i) (by tables i) (by tables i) (by tables i) (by tables i) (by tables i) (by tables i)
  case close a ds h0 h1 h2 h3 h4 =>
    have ha : ∀ j, a j = s.answer j ∨ a j = (s.answer j).interrupt ∧ j ∈ ds := by
      intro j
      by_cases hw : s.waits j
      · exact .inr ⟨h1 j hw, (h4 j).mpr hw⟩
      · exact .inl (h2 j hw)
    have back : ∀ {f j b}, Ev.made f j b ∈ ds.map Ev.dropped ++ s.hist → Ev.made f j b ∈ s.hist := by
      intro f j b h; simpa using h
    have up : ∀ {e}, e ∈ s.hist → e ∈ ds.map Ev.dropped ++ s.hist := fun h => List.mem_append_right _ h
    have mono : ∀ {b x}, MadeAs s b x → MadeAs { s with hist := ds.map Ev.dropped ++ s.hist } b x := fun h => h.mono (fun f hf => up hf)
    constructor
    case fresh => intro f j b h; exact i.fresh f j b (back h)
    case kind =>
      intro f j b h
      have := i.kind f j b (back h)
      rcases ha j with e | ⟨e, -⟩ <;> simp only [e, interrupt_none] <;> exact this
    case draft => intro x hx; obtain ⟨b, hb⟩ := i.draft x hx; exact ⟨b, mono hb⟩
    case store => intro x hx; simp at hx
    case ticket =>
      intro h b x hx
      simp only at hx
      cases ht : s.ticket h <;> rw [ht] at hx <;> simp [Ticket.refuse] at hx
    case seat => intro c x hx; exact mono (i.seat c x hx)
    case limbo => intro x hx; exact mono (i.limbo x hx)
    case held => intro x hx; exact mono (i.held x hx)
    case box => intro b x hx; exact (i.box b x hx).imp mono id
    case one => intro r b x hx; exact mono (i.one r b x (by simpa using hx))
    case all => intro r b x hx; exact (i.all r b x (by simpa using hx)).imp mono id
    case value =>
      intro j r h
      rcases ha j with e | ⟨e, -⟩
      · exact up (i.value j r (e ▸ h))
      · exact up (i.value j r ((interrupt_value _ _).mp (e ▸ h)))
    case replyOk => intro f j r h; exact up (i.replyOk f j r (by simpa using h))
    case broken =>
      intro j h
      rcases ha j with e | ⟨e, hj⟩
      · exact (i.broken j (e ▸ h)).imp up (Or.imp up up)
      · exact .inl (List.mem_append_left _ (List.mem_map.mpr ⟨j, hj, rfl⟩))
    case replyInt => intro f j h; exact (i.replyInt f j (by simpa using h)).imp up (Or.imp up up)
  case stopAll h0 hd =>
    refine Sane.deliver ?_ (.inr rfl) hd
    have ne : ∀ {f j b}, Ev.made f j b ∈ s.hist → j ≠ s.next := fun h => by have := i.fresh _ _ _ h; omega
    refine { i with fresh := ?_, kind := ?_, value := ?_, broken := ?_ }
    · intro f j b h; have := i.fresh f j b h; simp only; omega
    · intro f j b h; simp only [put, if_neg (ne h)]; exact i.kind f j b h
    · intro j r h
      rcases put_eq h with ⟨-, h⟩ | h
      · simp at h
      · exact i.value j r h
    · intro j h
      rcases put_eq h with ⟨-, h⟩ | h
      · simp at h
      · exact i.broken j h
  case handled m r hm =>
    have i1 : Sane { s with held := s.held.del m } :=
      i.reduce (by tables i) (by tables i) (fun x hx => i.held x (del_ne hx)) (by tables i) (by tables i) (by tables i) (by tables i)
    have i2 := i1.log (e := .handled m.id r) (by grind) (by grind) (by grind) (by grind) (by grind)
    refine { i2 with kind := ?_, value := ?_, broken := ?_ }
    · intro f k b h
      have := i2.kind f k b h
      simp only [put]; split
      · subst_vars; rw [give_none]; exact this
      · exact this
    · intro k r' h
      rcases put_eq h with ⟨rfl, hh⟩ | h
      · rcases give_value hh with h | rfl
        · exact i2.value _ _ h
        · simp
      · exact i2.value k r' h
    · intro k h
      rcases put_eq h with ⟨rfl, hh⟩ | h
      · exact i2.broken _ ((give_int _ _).mp hh)
      · exact i2.broken k h
  case discarded m hm =>
    refine Sane.interrupt (s := { s with held := s.held.del m }) ?_ (.inr (.inr rfl))
    exact i.reduce (by tables i) (by tables i) (fun x hx => i.held x (del_ne hx)) (by tables i) (by tables i) (by tables i) (by tables i)

theorem Sane.steps {cap : Option Nat} {s : State} (h : Steps (Ideal.start cap) s) : Sane s := by
  suffices ∀ a, Steps a s → Sane a → Sane s from this _ h (.start cap)
  clear h
  intro a h
  induction h with
  | refl => exact id
  | tail _ hs ih => exact fun ia => (ih ia).step hs

end Xtra.Ideal
