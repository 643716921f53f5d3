import Verif.IdealOnce
/-! The ideal mailbox, third: everything that happens has its causes before it. -/

set_option linter.unusedSimpArgs false

namespace Xtra.Ideal
open Xtra

/-- A list of events, newest first, in which every event is justified by the older ones. -/
def Causal : List Ev → Prop
  | [] => True
  | e :: l => Justified e l ∧ Causal l

theorem Causal.split {l1 l0 : List Ev} {e : Ev} (h : Causal (l1 ++ e :: l0)) : Justified e l0 := by
  induction l1 with
  | nil => exact h.1
  | cons a l ih => exact ih h.2

structure Life (s : State) : Prop where
  causal : Causal s.hist
  held : ∀ m, s.held m ≠ 0 → ∃ r b, Ev.recv r b (.one m) ∈ s.hist
  parked : ∀ h a m, s.ticket h = .parked a m → s.forMsg h = m.id
  refused : ∀ h, s.ticket h = .refused → Ev.dropped (s.forMsg h) ∈ s.hist
  drop : ∀ i, Ev.dropped i ∈ s.hist → s.hist.countP (got i) = 0
  box : ∀ b, ∀ m ∈ s.box b, ∃ T, Ev.bsent m T ∈ s.hist ∧ b ∈ T

theorem Life.start (cap : Option Nat) : Life (start cap) := by
  constructor <;> simp [Ideal.start, Causal]

section
variable {s s' : State} {loc : Nat → Place} {m : Msg}

/-- An event is added that is no receipt and no destruction. -/
theorem Life.log (l : Life s) {e : Ev} (hj : Justified e s.hist) (h1 : ∀ j, got j e = false) (h2 : ∀ j, e ≠ .dropped j) :
    Life { s with hist := e :: s.hist } := by
  refine ⟨⟨hj, l.causal⟩, ?_, l.parked, ?_, ?_, ?_⟩
  · intro m hm; obtain ⟨r, b, h⟩ := l.held m hm; exact ⟨r, b, by simp [h]⟩
  · intro h hh; have := l.refused h hh; simp [this]
  · intro i hi
    rcases List.mem_cons.mp hi with h | h
    · exact absurd h.symm (h2 i)
    · have := l.drop i h; simpa [List.countP_cons, h1 i] using this
  · intro b m hm; obtain ⟨T, h, h'⟩ := l.box b m hm; exact ⟨T, by simp [h], h'⟩

/-- A destruction is added. -/
theorem Life.logDrop (l : Life s) {i : Nat} (hj : Justified (.dropped i) s.hist) : Life { s with hist := .dropped i :: s.hist } := by
  refine ⟨⟨hj, l.causal⟩, ?_, l.parked, ?_, ?_, ?_⟩
  · intro m hm; obtain ⟨r, b, h⟩ := l.held m hm; exact ⟨r, b, by simp [h]⟩
  · intro h hh; have := l.refused h hh; simp [this]
  · intro j hi
    rcases List.mem_cons.mp hi with h | h
    · simp at h; subst h; simpa [List.countP_cons, got] using hj.2.1
    · have := l.drop j h; simpa [List.countP_cons, got] using this
  · intro b m hm; obtain ⟨T, h, h'⟩ := l.box b m hm; exact ⟨T, by simp [h], h'⟩

/-- A receipt is added. -/
theorem Life.logGot (l : Life s) {r b : Nat} (hj : Justified (.recv r b (.one m)) s.hist) :
    Life { s with held := s.held.add m, hist := .recv r b (.one m) :: s.hist } := by
  refine ⟨⟨hj, l.causal⟩, ?_, l.parked, ?_, ?_, ?_⟩
  · intro x hx
    rcases add_ne hx with rfl | hx
    · exact ⟨r, b, by simp⟩
    · obtain ⟨r, b, h⟩ := l.held x hx; exact ⟨r, b, by simp [h]⟩
  · intro h hh; have := l.refused h hh; simp [this]
  · intro j hi
    have hi' : Ev.dropped j ∈ s.hist := by simpa using hi
    have h0 := l.drop j hi'
    have hne : m.id ≠ j := by
      rintro rfl
      have := hj.2.2
      rw [List.countP_eq_zero] at this
      exact this _ hi' (by simp [ended])
    simp [List.countP_cons, got, hne, h0]
  · intro b m hm; obtain ⟨T, h, h'⟩ := l.box b m hm; exact ⟨T, by simp [h], h'⟩

/-- Nothing is written down; tickets and boxes only lose entries. -/
theorem Life.sub (l : Life s) (h0 : s'.hist = s.hist) (h1 : ∀ m, s'.held m ≠ 0 → s.held m ≠ 0)
    (h2 : ∀ h a m, s'.ticket h = .parked a m → s'.forMsg h = m.id) (h3 : ∀ h, s'.ticket h = .refused → Ev.dropped (s'.forMsg h) ∈ s.hist)
    (h4 : ∀ b, ∀ m ∈ s'.box b, m ∈ s.box b) : Life s' := by
  refine ⟨h0 ▸ l.causal, ?_, h2, ?_, ?_, ?_⟩
  · intro m hm; rw [h0]; exact l.held m (h1 m hm)
  · rw [h0]; exact h3
  · rw [h0]; exact l.drop
  · intro b m hm; rw [h0]; exact l.box b m (h4 b m hm)

theorem Life.same (l : Life s) (h0 : s'.hist = s.hist) (h1 : s'.held = s.held) (h2 : s'.ticket = s.ticket) (h3 : s'.forMsg = s.forMsg)
    (h4 : s'.box = s.box) : Life s' := by
  refine l.sub h0 (by simp [h1]) ?_ ?_ (by simp [h4])
  · intro h a m; rw [h2, h3]; exact l.parked h a m
  · intro h; rw [h2, h3]; exact l.refused h

theorem Life.offer (l : Life s) (ho : Offer s m s') : Life s' := by
  cases ho with
  | hand _ => exact l.same rfl rfl rfl rfl rfl
  | store _ _ => exact l.same rfl rfl rfl rfl rfl

theorem Life.deliver (l : Life s) (hm : MadeAs s true m ∨ m.prio = .shutdown) (ho : Deliver s m s') : Life s' := by
  cases ho with
  | mk h1 h2 =>
    have l1 := l.log (e := .bsent m s.live) hm (fun _ => rfl) (by simp)
    refine ⟨l1.causal, l1.held, l1.parked, l1.refused, l1.drop, ?_⟩
    intro b x hx
    by_cases hb : b ∈ s.live
    · rcases List.mem_cons.mp ((h1 b hb).mem_iff.mp hx) with rfl | h
      · exact ⟨s.live, by simp, hb⟩
      · exact l1.box b x h
    · have := h2 b hb; simp only [this] at hx; exact l1.box b x hx

theorem ticket_put (l : Life s) {k : Nat} {t : Ticket} (ht : ∀ a x, t ≠ .parked a x) (ht2 : t ≠ .refused) :
    (∀ h a m, put s.ticket k t h = .parked a m → s.forMsg h = m.id) ∧ (∀ h, put s.ticket k t h = .refused → Ev.dropped (s.forMsg h) ∈ s.hist) := by
  constructor
  · intro h a m hh
    rcases put_eq hh with ⟨-, e⟩ | e
    · exact absurd e (ht a m)
    · exact l.parked h a m e
  · intro h hh
    rcases put_eq hh with ⟨-, e⟩ | e
    · exact absurd e ht2
    · exact l.refused h e

theorem Life.refillOne (l : Life s) (ho : RefillOne s s') : Life s' := by
  cases ho with
  | full _ => exact l
  | none _ => exact l
  | @move h m st _ ht _ hp =>
    have := ticket_put l (k := h) (t := .accepted) (by simp) (by simp)
    exact l.sub rfl (fun _ h => h) this.1 this.2 (fun _ _ h => h)

theorem Life.refillAll (l : Life s) (i : Sane s) (ho : RefillAll s s') : Life s' := by
  cases ho with
  | full _ => exact l
  | none _ => exact l
  | @move h m _ _ ht _ hd =>
    have := ticket_put l (k := h) (t := .accepted) (by simp) (by simp)
    have l1 : Life { s with ticket := put s.ticket h .accepted } := l.sub rfl (fun _ h => h) this.1 this.2 (fun _ _ h => h)
    exact l1.deliver (.inl (i.ticket h true m ht)) hd

theorem Life.takeAll (l : Life s) (i : Sane s) {b : Nat} (ho : TakeAll s b m s') : Life s' ∧ ∃ T, Ev.bsent m T ∈ s'.hist ∧ b ∈ T := by
  cases ho with
  | @mk bl n _ hp _ _ hr =>
    have hb : ∀ k, ∀ x ∈ put s.box b bl k, x ∈ s.box k := by
      intro k x hx
      simp only [put] at hx
      split at hx
      · rename_i hk; subst hk; exact hp.mem_iff.mpr (by simp [hx])
      · exact hx
    have l1 : Life { s with box := put s.box b bl, level := n } := l.sub rfl (fun _ h => h) l.parked l.refused hb
    have i1 : Sane { s with box := put s.box b bl, level := n } := { i with box := fun k x hx => i.box k x (hb k x hx) }
    refine ⟨l1.refillAll i1 hr, ?_⟩
    obtain ⟨T, h, h'⟩ := l.box b m (hp.mem_iff.mpr (by simp))
    refine ⟨T, ?_, h'⟩
    cases hr with
    | full _ => exact h
    | none _ => exact h
    | move _ _ _ hd => cases hd; simp [h]

theorem Life.step (l : Life s) (i : Sane s) (o : Once s loc) (h : Step s s') : Life s' := by
  cases h
  case retain h => exact l.same rfl rfl rfl rfl rfl
  case release h => exact l.same rfl rfl rfl rfl rfl
  case enter h => exact l.same rfl rfl rfl rfl rfl
  case leave h => exact l.same rfl rfl rfl rfl rfl
  case upgraded => exact l.log trivial (fun _ => rfl) (by simp)
  case openBox => exact l.same rfl rfl rfl rfl rfl
  case closeBox b =>
    refine l.sub rfl (fun _ h => h) l.parked l.refused (fun k x hx => ?_)
    simp only [put] at hx
    split at hx
    · simp at hx
    · exact hx
  case len => exact l.log trivial (fun _ => rfl) (by simp)
  case make f bc =>
    have l1 := l.log (e := .made f s.next bc) (by intro f' b hm; have := i.fresh _ _ _ hm; omega) (fun _ => rfl) (by simp)
    exact l1.same rfl rfl rfl rfl rfl
  case prio m p hm =>
    have hp := o.draft m hm
    have hc := o.count0 (j := m.id) (by rw [hp]; rfl)
    obtain ⟨b, f, hf⟩ := i.draft m hm
    have l1 := l.log (e := .prioSet m.id p) ⟨⟨f, b, hf⟩, hc⟩ (fun _ => rfl) (by simp)
    exact l1.same rfl rfl rfl rfl rfl
  case abandon m hm =>
    have hp := o.draft m hm
    have hc := o.count0 (j := m.id) (by rw [hp]; rfl)
    obtain ⟨b, f, hf⟩ := i.draft m hm
    have l1 := l.logDrop (i := m.id) ⟨⟨f, b, hf⟩, hc⟩
    exact l1.same rfl rfl rfl rfl rfl
  case reject m f hm hf ho =>
    have hp := o.draft m hm
    have hc := o.count0 (j := m.id) (by rw [hp]; rfl)
    obtain ⟨b, f', hf'⟩ := i.draft m hm
    have l1 := l.logDrop (i := m.id) ⟨⟨f', b, hf'⟩, hc⟩
    have l2 := l1.log (e := .sendErr f m.id)
      ⟨by obtain ⟨bc, h⟩ := hf; exact ⟨bc, by simp [h]⟩, by simp, by simpa [List.countP_cons, got] using hc.1⟩ (fun _ => rfl) (by simp)
    exact l2.same rfl rfl rfl rfl rfl
  case submit m hm hk hr ho =>
    have l1 : Life { s with draft := s.draft.del m, known := put s.known m.id true } := l.same rfl rfl rfl rfl rfl
    exact l1.offer ho
  case park m h hm hk _ _ ht =>
    refine l.sub rfl (fun _ h => h) ?_ ?_ (fun _ _ h => h)
    · intro k a x hx
      simp only [put] at hx ⊢
      split at hx
      · rename_i e; simp [e] at hx ⊢; rw [hx.2]
      · rename_i e; rw [if_neg e]; exact l.parked k a x hx
    · intro k hx
      simp only [put] at hx ⊢
      split at hx
      · simp at hx
      · rename_i e; rw [if_neg e]; exact l.refused k hx
  case submitAll m hm hk hr ho =>
    have l1 : Life { s with draft := s.draft.del m, known := put s.known m.id true } := l.same rfl rfl rfl rfl rfl
    exact l1.deliver (.inl ((draft_kind i hm).2 hk)) ho
  case parkAll m h hm hk _ ht =>
    refine l.sub rfl (fun _ h => h) ?_ ?_ (fun _ _ h => h)
    · intro k a x hx
      simp only [put] at hx ⊢
      split at hx
      · rename_i e; simp [e] at hx ⊢; rw [hx.2]
      · rename_i e; rw [if_neg e]; exact l.parked k a x hx
    · intro k hx
      simp only [put] at hx ⊢
      split at hx
      · simp at hx
      · rename_i e; rw [if_neg e]; exact l.refused k hx
  case stillParked f h a m wk ht he hf =>
    exact l.log (e := .sendPending f (s.forMsg h) wk) (he ▸ hf) (fun _ => rfl) (by simp)
  case learn h ht =>
    have := ticket_put l (k := h) (t := .free) (by simp) (by simp)
    exact l.sub rfl (fun _ h => h) this.1 this.2 (fun _ _ h => h)
  case refused f h hh hf =>
    have hd := l.refused h hh
    have l1 := l.log (e := .sendErr f (s.forMsg h)) ⟨hf, hd, l.drop _ hd⟩ (fun _ => rfl) (by simp)
    have := ticket_put l1 (k := h) (t := .free) (by simp) (by simp)
    exact l1.sub rfl (fun _ h => h) this.1 this.2 (fun _ _ h => h)
  case cancel h a m hh =>
    have hp := o.ticket h a m hh
    have hc := o.count0 (j := m.id) (by rw [hp]; rfl)
    obtain ⟨f, hf⟩ := i.ticket h a m hh
    have l1 := l.logDrop (i := m.id) ⟨⟨f, a, hf⟩, hc⟩
    have := ticket_put l1 (k := h) (t := .free) (by simp) (by simp)
    exact l1.sub rfl (fun _ h => h) this.1 this.2 (fun _ _ h => h)
  case tear h hh =>
    have := ticket_put l (k := h) (t := .free) (by simp) (by simp)
    exact l.sub rfl (fun _ h => h) this.1 this.2 (fun _ _ h => h)
  case sendOk f j hk hf => exact l.log (e := .sendOk f j) hf (fun _ => rfl) (by simp)
  case replyPending f j wk hj hf => exact l.log (e := .sendPending f j wk) hf (fun _ => rfl) (by simp)
  case replyOk f j r hj hf =>
    obtain ⟨bc, hb⟩ := hf
    have hk := i.kind _ _ _ hb
    have hbc : bc = false := by cases bc <;> simp_all
    exact l.log (e := .replyOk f j r) ⟨hbc ▸ hb, i.value j r hj⟩ (fun _ => rfl) (by simp)
  case replyInt f j hj hf =>
    obtain ⟨bc, hb⟩ := hf
    have hk := i.kind _ _ _ hb
    have hbc : bc = false := by cases bc <;> simp_all
    exact l.log (e := .replyInt f j) ⟨hbc ▸ hb, i.broken j hj⟩ (fun _ => rfl) (by simp)
  case takeOne r b m st s1 hp h1 h2 hr =>
    have hs := hp.mem_iff.mpr (List.mem_cons_self (a := m) (l := st))
    have hc := o.count0 (j := m.id) (by rw [o.store m hs]; rfl)
    have l0 : Life { s with store := st } := l.same rfl rfl rfl rfl rfl
    have l1 := l0.logGot (m := m) (r := r) (b := b) ⟨i.store m hs, hc⟩
    have : RefillOne { s with store := st, held := s.held.add m, hist := .recv r b (.one m) :: s.hist }
        { s1 with held := s1.held.add m, hist := .recv r b (.one m) :: s1.hist } := by
      cases hr with
      | full h => exact .full h
      | none h => exact .none h
      | move a1 a2 a3 a4 => exact .move a1 a2 a3 a4
    exact l1.refillOne this
  case takeAll r b m s1 h1 ht =>
    obtain ⟨l1, hb⟩ := l.takeAll i ht
    exact l1.log (e := .recv r b (.all m)) hb (fun _ => rfl) (by simp)
  case takeEnd => exact l.log trivial (fun _ => rfl) (by simp)
  case sit => exact l.same rfl rfl rfl rfl rfl
  case stillWaiting => exact l.log trivial (fun _ => rfl) (by simp)
  case pickUp c m hc =>
    have hn := o.count0 (j := m.id) (by rw [o.seat c m hc]; rfl)
    have l1 := l.logGot (m := m) (r := (s.owner c).1) (b := (s.owner c).2) ⟨i.seat c m hc, hn⟩
    exact l1.same rfl rfl rfl rfl rfl
  case pickEnd c hc =>
    have l1 := l.log (e := .recv (s.owner c).1 (s.owner c).2 .shutdown) trivial (fun _ => rfl) (by simp)
    exact l1.same rfl rfl rfl rfl rfl
  case look => exact l.same rfl rfl rfl rfl rfl
  case pickAll c m s1 hc ht =>
    obtain ⟨l1, hb⟩ := l.takeAll i ht
    have l2 := l1.log (e := .recv (s.owner c).1 (s.owner c).2 (.all m)) hb (fun _ => rfl) (by simp)
    exact l2.same rfl rfl rfl rfl rfl
  case again => exact l.same rfl rfl rfl rfl rfl
  case giveBack c m hc => exact l.same rfl rfl rfl rfl rfl
  case ignore => exact l.same rfl rfl rfl rfl rfl
  case reOffer m s1 hm ho =>
    have hn := o.count0 (j := m.id) (by rw [o.limbo m hm]; rfl)
    have l0 : Life { s with limbo := s.limbo.del m } := l.same rfl rfl rfl rfl rfl
    have l1 := l0.offer ho
    have he : s1.hist = s.hist := by cases ho <;> rfl
    refine l1.log (e := .requeued m.id) ?_ (fun _ => rfl) (by simp)
    rw [he]; exact ⟨i.limbo m hm, hn⟩
  case rise => exact l.same rfl rfl rfl rfl rfl
  case lose c m hc =>
    have hn := o.count0 (j := m.id) (by rw [o.seat c m hc]; rfl)
    have l1 := l.log (e := .lost m.id) ⟨i.seat c m hc, hn⟩ (fun _ => rfl) (by simp)
    exact l1.same rfl rfl rfl rfl rfl
  case dismiss => exact l.same rfl rfl rfl rfl rfl
  case tell => exact l.same rfl rfl rfl rfl rfl
  case close a ds h0 h1 h2 h3 h4 =>
    have key : ∀ ds : List Nat, ds.Nodup → (∀ j ∈ ds, s.waits j) → Life { s with hist := ds.map Ev.dropped ++ s.hist } := by
      intro ds
      induction ds with
      | nil => intro _ _; exact l
      | cons j ds ih =>
        intro hn hw
        have l1 := ih (List.nodup_cons.mp hn).2 (fun k hk => hw k (by simp [hk]))
        have hj : (∃ f b, Ev.made f j b ∈ s.hist) ∧ s.hist.countP (got j) = 0 ∧ s.hist.countP (ended j) = 0 := by
          rcases hw j (by simp) with ⟨x, hx, rfl⟩ | ⟨h, b, x, hx, rfl⟩
          · obtain ⟨f, hf⟩ := i.store x hx
            exact ⟨⟨f, _, hf⟩, o.count0 (by rw [o.store x hx]; rfl)⟩
          · obtain ⟨f, hf⟩ := i.ticket h b x hx
            exact ⟨⟨f, _, hf⟩, o.count0 (by rw [o.ticket h b x hx]; rfl)⟩
        refine l1.logDrop (i := j) ⟨?_, ?_, ?_⟩
        · obtain ⟨f, b, hf⟩ := hj.1; exact ⟨f, b, by simp [hf]⟩
        · have : (ds.map Ev.dropped).countP (got j) = 0 := by
            rw [List.countP_eq_zero]; intro e he; obtain ⟨k, -, rfl⟩ := List.mem_map.mp he; simp [got]
          rw [List.countP_append, this, hj.2.1]
        · have : (ds.map Ev.dropped).countP (ended j) = 0 := by
            rw [List.countP_eq_zero]; intro e he; obtain ⟨k, hk, rfl⟩ := List.mem_map.mp he
            simp only [ended, beq_iff_eq]; rintro rfl; exact (List.nodup_cons.mp hn).1 hk
          rw [List.countP_append, this, hj.2.2]
    have l1 := key ds h3 (fun j hj => (h4 j).mp hj)
    refine ⟨l1.causal, l1.held, ?_, ?_, l1.drop, l1.box⟩
    · intro h b x hx
      simp only at hx
      cases ht : s.ticket h <;> rw [ht] at hx <;> simp [Ticket.refuse] at hx
    · intro h hx
      simp only at hx
      cases ht : s.ticket h with
      | parked b x =>
        have := (h4 x.id).mpr (.inr ⟨h, b, x, ht, rfl⟩)
        rw [l.parked h b x ht]
        exact List.mem_append_left _ (List.mem_map.mpr ⟨_, this, rfl⟩)
      | refused => exact List.mem_append_right _ (l.refused h ht)
      | free => rw [ht] at hx; simp [Ticket.refuse] at hx
      | accepted => rw [ht] at hx; simp [Ticket.refuse] at hx
  case stopAll h0 hd =>
    have l1 : Life { s with next := s.next + 1, answer := put s.answer s.next .none } := l.same rfl rfl rfl rfl rfl
    exact l1.deliver (.inr rfl) hd
  case handled m r hm =>
    have hp := o.held m hm
    have he : s.hist.countP (ended m.id) = 0 := by
      have := o.ends m.id; rw [hp] at this; simpa [Place.isOver] using this
    obtain ⟨r', b, hg⟩ := l.held m hm
    have l1 := l.log (e := .handled m.id r) ⟨⟨r', b, m, hg, rfl⟩, he⟩ (fun _ => rfl) (by simp)
    exact l1.sub rfl (fun _ h => del_ne h) l1.parked l1.refused (fun _ _ h => h)
  case discarded m hm =>
    have hp := o.held m hm
    have he : s.hist.countP (ended m.id) = 0 := by
      have := o.ends m.id; rw [hp] at this; simpa [Place.isOver] using this
    obtain ⟨r', b, hg⟩ := l.held m hm
    have l1 := l.log (e := .discarded m.id) ⟨⟨r', b, m, hg, rfl⟩, he⟩ (fun _ => rfl) (by simp)
    exact l1.sub rfl (fun _ h => del_ne h) l1.parked l1.refused (fun _ _ h => h)

theorem Life.steps {cap : Option Nat} (h : Steps (Ideal.start cap) s) : Life s := by
  suffices ∀ a, Steps a s → (Life a ∧ Sane a ∧ ∃ loc, Once a loc) → (Life s ∧ Sane s ∧ ∃ loc, Once s loc) from
    (this _ h ⟨.start cap, .start cap, _, .start cap⟩).1
  clear h
  intro a h
  induction h with
  | refl => exact id
  | tail _ hs ih =>
    intro ia
    obtain ⟨l, i, loc, o⟩ := ih ia
    exact ⟨l.step i o hs, i.step hs, o.step hs⟩
end

end Xtra.Ideal
