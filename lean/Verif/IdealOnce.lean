import Verif.IdealProps
/-! The ideal mailbox again: no message is in two places, none is received twice, none ends twice. -/

set_option linter.unusedSimpArgs false

namespace Xtra.Ideal
open Xtra

/-- Where a message is. -/
inductive Place where
  | nowhere
  | draft (m : Msg)
  | store
  | ticket (h : Nat)
  | seat (c : Nat)
  | limbo (m : Msg)
  | held (m : Msg)
  | over

def Place.after : Place → Bool
  | .held _ => true
  | .over => true
  | _ => false

def Place.isOver : Place → Bool
  | .over => true
  | _ => false

structure Once (s : State) (loc : Nat → Place) : Prop where
  new : ∀ j, s.next ≤ j → loc j = .nowhere
  draft : ∀ m, s.draft m ≠ 0 → loc m.id = .draft m
  draft1 : ∀ m, s.draft m ≤ 1
  store : ∀ m ∈ s.store, loc m.id = .store
  storeN : (s.store.map (·.id)).Nodup
  ticket : ∀ h a m, s.ticket h = .parked a m → loc m.id = .ticket h
  seat : ∀ c m, s.seat c = .told (.newMessage m) → loc m.id = .seat c
  limbo : ∀ m, s.limbo m ≠ 0 → loc m.id = .limbo m
  limbo1 : ∀ m, s.limbo m ≤ 1
  held : ∀ m, s.held m ≠ 0 → loc m.id = .held m
  held1 : ∀ m, s.held m ≤ 1
  recv : ∀ j, s.hist.countP (got j) ≤ if (loc j).after then 1 else 0
  ends : ∀ j, s.hist.countP (ended j) ≤ if (loc j).isOver then 1 else 0

theorem Once.start (cap : Option Nat) : Once (start cap) (fun _ => .nowhere) := by
  constructor <;> simp [Ideal.start]

/-- An event that is about no message. -/
theorem Once.log {s : State} {loc : Nat → Place} {e : Ev} (i : Once s loc) (h1 : ∀ j, got j e = false) (h2 : ∀ j, ended j e = false) :
    Once { s with hist := e :: s.hist } loc := by
  refine { i with recv := ?_, ends := ?_ }
  · intro j; simpa [List.countP_cons, h1 j] using i.recv j
  · intro j; simpa [List.countP_cons, h2 j] using i.ends j

section
variable {s : State} {loc : Nat → Place} {m : Msg}

theorem Once.lt (i : Once s loc) (h : loc m.id ≠ .nowhere) : m.id < s.next := by
  rcases Nat.lt_or_ge m.id s.next with h' | h'
  · exact h'
  · exact absurd (i.new _ h') h

theorem Once.count0 (i : Once s loc) {j : Nat} (h : (loc j).after = false) : s.hist.countP (got j) = 0 ∧ s.hist.countP (ended j) = 0 := by
  have h1 := i.recv j
  have h2 := i.ends j
  have h3 : (loc j).isOver = false := by cases hl : loc j <;> simp_all [Place.after, Place.isOver]
  simp [h, h3] at h1 h2
  simp [List.countP_eq_zero]; exact ⟨h1, h2⟩

theorem put_ne' {α : Type} {f : Nat → α} {i j : Nat} {x : α} (h : j ≠ i) : put f i x j = f j := by simp [put, h]

/-! A message leaves its place -/

/-- The fields in which nothing changes but that message `j`, which is not there, moved. -/
theorem loc_put {j : Nat} {q : Place} {x : Msg} {p : Place} (h : loc x.id = p) (hne : loc j ≠ p) : put loc j q x.id = p := by
  unfold put; split
  · rename_i e; rw [e] at h; exact absurd h hne
  · exact h

theorem recv_put (i : Once s loc) {j : Nat} (h0 : (loc j).after = false) (q : Place) :
    ∀ k, s.hist.countP (got k) ≤ if (put loc j q k).after then 1 else 0 := by
  intro k; unfold put; split
  · rename_i e; subst e; have := (i.count0 h0).1; omega
  · exact i.recv k

theorem ends_put (i : Once s loc) {j : Nat} (h0 : (loc j).after = false) (q : Place) :
    ∀ k, s.hist.countP (ended k) ≤ if (put loc j q k).isOver then 1 else 0 := by
  intro k; unfold put; split
  · rename_i e; subst e; have := (i.count0 h0).2; omega
  · exact i.ends k

theorem new_put (i : Once s loc) {j : Nat} (q : Place) (h : q = .nowhere ∨ j < s.next) : ∀ k, s.next ≤ k → put loc j q k = .nowhere := by
  intro k hk; unfold put; split
  · rename_i e; subst e; rcases h with h | h
    · exact h
    · omega
  · exact i.new k hk

theorem Once.outDraft (i : Once s loc) (h : s.draft m ≠ 0) : Once { s with draft := s.draft.del m } (put loc m.id .nowhere) := by
  have hp := i.draft m h
  have h0 : (loc m.id).after = false := by rw [hp]; rfl
  refine ⟨new_put i _ (.inl rfl), ?_, ?_, fun x hx => loc_put (i.store x hx) (by simp [hp]), i.storeN,
    fun k a x hx => loc_put (i.ticket k a x hx) (by simp [hp]), fun c x hx => loc_put (i.seat c x hx) (by simp [hp]),
    fun x hx => loc_put (i.limbo x hx) (by simp [hp]), i.limbo1, fun x hx => loc_put (i.held x hx) (by simp [hp]), i.held1,
    recv_put i h0 _, ends_put i h0 _⟩
  · intro x hx
    have h1 := i.draft x (del_ne hx)
    have h2 : x ≠ m := by
      rintro rfl; have := i.draft1 x; simp [Bag.del] at hx; omega
    exact loc_put h1 (by rw [hp]; simpa using Ne.symm h2)
  · intro x; have := i.draft1 x; simp only [Bag.del]; split <;> omega

theorem Once.outStore (i : Once s loc) {st : List Msg} (h : s.store.Perm (m :: st)) : Once { s with store := st } (put loc m.id .nowhere) := by
  have hp := i.store m (h.mem_iff.mpr (by simp))
  have h0 : (loc m.id).after = false := by rw [hp]; rfl
  have hn : ((m :: st).map (·.id)).Nodup := (h.map _).nodup_iff.mp i.storeN
  simp only [List.map_cons, List.nodup_cons] at hn
  refine ⟨new_put i _ (.inl rfl), fun x hx => loc_put (i.draft x hx) (by simp [hp]), i.draft1, ?_, hn.2,
    fun k a x hx => loc_put (i.ticket k a x hx) (by simp [hp]), fun c x hx => loc_put (i.seat c x hx) (by simp [hp]),
    fun x hx => loc_put (i.limbo x hx) (by simp [hp]), i.limbo1, fun x hx => loc_put (i.held x hx) (by simp [hp]), i.held1,
    recv_put i h0 _, ends_put i h0 _⟩
  intro x hx
  have h1 := i.store x (h.mem_iff.mpr (by simp [hx]))
  have h2 : x.id ≠ m.id := by
    intro e; exact hn.1 (List.mem_map.mpr ⟨x, hx, e⟩)
  rw [put_ne' h2]; exact h1

theorem Once.outTicket (i : Once s loc) {h : Nat} {a : Bool} {t : Ticket} (hh : s.ticket h = .parked a m) (ht : ∀ b x, t ≠ .parked b x) :
    Once { s with ticket := put s.ticket h t } (put loc m.id .nowhere) := by
  have hp := i.ticket h a m hh
  have h0 : (loc m.id).after = false := by rw [hp]; rfl
  refine ⟨new_put i _ (.inl rfl), fun x hx => loc_put (i.draft x hx) (by simp [hp]), i.draft1, fun x hx => loc_put (i.store x hx) (by simp [hp]),
    i.storeN, ?_, fun c x hx => loc_put (i.seat c x hx) (by simp [hp]),
    fun x hx => loc_put (i.limbo x hx) (by simp [hp]), i.limbo1, fun x hx => loc_put (i.held x hx) (by simp [hp]), i.held1,
    recv_put i h0 _, ends_put i h0 _⟩
  intro k b x hx
  simp only [put] at hx
  split at hx
  · exact absurd hx (ht b x)
  · rename_i hk
    exact loc_put (i.ticket k b x hx) (by rw [hp]; simpa using Ne.symm hk)

theorem Once.outSeat (i : Once s loc) {c : Nat} {t : Seat} (hh : s.seat c = .told (.newMessage m)) (ht : ∀ x, t ≠ .told (.newMessage x)) :
    Once { s with seat := put s.seat c t } (put loc m.id .nowhere) := by
  have hp := i.seat c m hh
  have h0 : (loc m.id).after = false := by rw [hp]; rfl
  refine ⟨new_put i _ (.inl rfl), fun x hx => loc_put (i.draft x hx) (by simp [hp]), i.draft1, fun x hx => loc_put (i.store x hx) (by simp [hp]),
    i.storeN, fun k a x hx => loc_put (i.ticket k a x hx) (by simp [hp]), ?_,
    fun x hx => loc_put (i.limbo x hx) (by simp [hp]), i.limbo1, fun x hx => loc_put (i.held x hx) (by simp [hp]), i.held1,
    recv_put i h0 _, ends_put i h0 _⟩
  intro k x hx
  simp only [put] at hx
  split at hx
  · exact absurd hx (ht x)
  · rename_i hk
    exact loc_put (i.seat k x hx) (by rw [hp]; simpa using Ne.symm hk)

theorem Once.outLimbo (i : Once s loc) (h : s.limbo m ≠ 0) : Once { s with limbo := s.limbo.del m } (put loc m.id .nowhere) := by
  have hp := i.limbo m h
  have h0 : (loc m.id).after = false := by rw [hp]; rfl
  refine ⟨new_put i _ (.inl rfl), fun x hx => loc_put (i.draft x hx) (by simp [hp]), i.draft1, fun x hx => loc_put (i.store x hx) (by simp [hp]), i.storeN,
    fun k a x hx => loc_put (i.ticket k a x hx) (by simp [hp]), fun c x hx => loc_put (i.seat c x hx) (by simp [hp]),
    ?_, ?_, fun x hx => loc_put (i.held x hx) (by simp [hp]), i.held1,
    recv_put i h0 _, ends_put i h0 _⟩
  · intro x hx
    have h1 := i.limbo x (del_ne hx)
    have h2 : x ≠ m := by
      rintro rfl; have := i.limbo1 x; simp [Bag.del] at hx; omega
    exact loc_put h1 (by rw [hp]; simpa using Ne.symm h2)
  · intro x; have := i.limbo1 x; simp only [Bag.del]; split <;> omega

/-! A message comes to a place -/

theorem at_put {j : Nat} {q p : Place} {x : Msg} (h : loc x.id = p) (hj : loc j = .nowhere) (hne : p ≠ .nowhere) : put loc j q x.id = p :=
  loc_put h (by rw [hj]; exact Ne.symm hne)

theorem Once.toDraft (i : Once s loc) (h : loc m.id = .nowhere) (hl : m.id < s.next) :
    Once { s with draft := s.draft.add m } (put loc m.id (.draft m)) := by
  have h0 : (loc m.id).after = false := by rw [h]; rfl
  have hz : s.draft m = 0 := by
    rcases Nat.eq_zero_or_pos (s.draft m) with e | e
    · exact e
    · have := i.draft m (by omega); rw [h] at this; simp at this
  refine ⟨new_put i _ (.inr hl), ?_, ?_, fun x hx => at_put (i.store x hx) h (by simp), i.storeN,
    fun k a x hx => at_put (i.ticket k a x hx) h (by simp), fun c x hx => at_put (i.seat c x hx) h (by simp),
    fun x hx => at_put (i.limbo x hx) h (by simp), i.limbo1, fun x hx => at_put (i.held x hx) h (by simp), i.held1,
    recv_put i h0 _, ends_put i h0 _⟩
  · intro x hx
    rcases add_ne hx with rfl | hx
    · simp [put]
    · exact at_put (i.draft x hx) h (by simp)
  · intro x; have := i.draft1 x; simp only [Bag.add]; split
    · subst_vars; omega
    · omega

theorem Once.toStore (i : Once s loc) {st : List Msg} (h : loc m.id = .nowhere) (hl : m.id < s.next) (hp : st.Perm (m :: s.store)) :
    Once { s with store := st } (put loc m.id .store) := by
  have h0 : (loc m.id).after = false := by rw [h]; rfl
  refine ⟨new_put i _ (.inr hl), fun x hx => at_put (i.draft x hx) h (by simp), i.draft1, ?_, ?_,
    fun k a x hx => at_put (i.ticket k a x hx) h (by simp), fun c x hx => at_put (i.seat c x hx) h (by simp),
    fun x hx => at_put (i.limbo x hx) h (by simp), i.limbo1, fun x hx => at_put (i.held x hx) h (by simp), i.held1,
    recv_put i h0 _, ends_put i h0 _⟩
  · intro x hx
    rcases List.mem_cons.mp (hp.mem_iff.mp hx) with rfl | hx
    · simp [put]
    · exact at_put (i.store x hx) h (by simp)
  · refine (hp.map _).nodup_iff.mpr ?_
    simp only [List.map_cons, List.nodup_cons]
    refine ⟨fun hm => ?_, i.storeN⟩
    obtain ⟨x, hx, e⟩ := List.mem_map.mp hm
    have := i.store x hx
    rw [e, h] at this; simp at this

theorem Once.toTicket (i : Once s loc) {k : Nat} {a : Bool} (h : loc m.id = .nowhere) (hl : m.id < s.next) :
    Once { s with ticket := put s.ticket k (.parked a m) } (put loc m.id (.ticket k)) := by
  have h0 : (loc m.id).after = false := by rw [h]; rfl
  refine ⟨new_put i _ (.inr hl), fun x hx => at_put (i.draft x hx) h (by simp), i.draft1, fun x hx => at_put (i.store x hx) h (by simp), i.storeN,
    ?_, fun c x hx => at_put (i.seat c x hx) h (by simp),
    fun x hx => at_put (i.limbo x hx) h (by simp), i.limbo1, fun x hx => at_put (i.held x hx) h (by simp), i.held1,
    recv_put i h0 _, ends_put i h0 _⟩
  intro j b x hx
  rcases put_eq hx with ⟨rfl, hy⟩ | hx
  · simp at hy; obtain ⟨-, rfl⟩ := hy; simp [put]
  · exact at_put (i.ticket j b x hx) h (by simp)

theorem Once.toSeat (i : Once s loc) {c : Nat} (h : loc m.id = .nowhere) (hl : m.id < s.next) :
    Once { s with seat := put s.seat c (.told (.newMessage m)) } (put loc m.id (.seat c)) := by
  have h0 : (loc m.id).after = false := by rw [h]; rfl
  refine ⟨new_put i _ (.inr hl), fun x hx => at_put (i.draft x hx) h (by simp), i.draft1, fun x hx => at_put (i.store x hx) h (by simp), i.storeN,
    fun k a x hx => at_put (i.ticket k a x hx) h (by simp), ?_,
    fun x hx => at_put (i.limbo x hx) h (by simp), i.limbo1, fun x hx => at_put (i.held x hx) h (by simp), i.held1,
    recv_put i h0 _, ends_put i h0 _⟩
  intro j x hx
  rcases put_eq hx with ⟨rfl, hy⟩ | hx
  · simp at hy; obtain rfl := hy; simp [put]
  · exact at_put (i.seat j x hx) h (by simp)

theorem Once.toLimbo (i : Once s loc) (h : loc m.id = .nowhere) (hl : m.id < s.next) :
    Once { s with limbo := s.limbo.add m } (put loc m.id (.limbo m)) := by
  have h0 : (loc m.id).after = false := by rw [h]; rfl
  have hz : s.limbo m = 0 := by
    rcases Nat.eq_zero_or_pos (s.limbo m) with e | e
    · exact e
    · have := i.limbo m (by omega); rw [h] at this; simp at this
  refine ⟨new_put i _ (.inr hl), fun x hx => at_put (i.draft x hx) h (by simp), i.draft1, fun x hx => at_put (i.store x hx) h (by simp), i.storeN,
    fun k a x hx => at_put (i.ticket k a x hx) h (by simp), fun c x hx => at_put (i.seat c x hx) h (by simp),
    ?_, ?_, fun x hx => at_put (i.held x hx) h (by simp), i.held1,
    recv_put i h0 _, ends_put i h0 _⟩
  · intro x hx
    rcases add_ne hx with rfl | hx
    · simp [put]
    · exact at_put (i.limbo x hx) h (by simp)
  · intro x; have := i.limbo1 x; simp only [Bag.add]; split
    · subst_vars; omega
    · omega

/-- Received. -/
theorem Once.toHeld (i : Once s loc) {r b : Nat} (h : loc m.id = .nowhere) (hl : m.id < s.next) :
    Once { s with held := s.held.add m, hist := .recv r b (.one m) :: s.hist } (put loc m.id (.held m)) := by
  have h0 : (loc m.id).after = false := by rw [h]; rfl
  have hz : s.held m = 0 := by
    rcases Nat.eq_zero_or_pos (s.held m) with e | e
    · exact e
    · have := i.held m (by omega); rw [h] at this; simp at this
  refine ⟨new_put i _ (.inr hl), fun x hx => at_put (i.draft x hx) h (by simp), i.draft1, fun x hx => at_put (i.store x hx) h (by simp), i.storeN,
    fun k a x hx => at_put (i.ticket k a x hx) h (by simp), fun c x hx => at_put (i.seat c x hx) h (by simp),
    fun x hx => at_put (i.limbo x hx) h (by simp), i.limbo1, ?_, ?_, ?_, ?_⟩
  · intro x hx
    rcases add_ne hx with rfl | hx
    · simp [put]
    · exact at_put (i.held x hx) h (by simp)
  · intro x; have := i.held1 x; simp only [Bag.add]; split
    · subst_vars; omega
    · omega
  · intro j
    by_cases hj : j = m.id
    · subst hj; have := (i.count0 h0).1; simp [List.countP_cons, this, got, put, Place.after]
    · have := i.recv j; simpa [List.countP_cons, got, put, hj, Ne.symm hj] using this
  · intro j
    have := ends_put i h0 (.held m) j
    simpa [List.countP_cons, ended] using this

/-- The end of a message. -/
theorem Once.toOver (i : Once s loc) {e : Ev} (h : loc m.id = .nowhere) (hl : m.id < s.next) (he : e = .dropped m.id ∨ e = .lost m.id) :
    Once { s with hist := e :: s.hist } (put loc m.id .over) := by
  have h0 : (loc m.id).after = false := by rw [h]; rfl
  refine ⟨new_put i _ (.inr hl), fun x hx => at_put (i.draft x hx) h (by simp), i.draft1, fun x hx => at_put (i.store x hx) h (by simp), i.storeN,
    fun k a x hx => at_put (i.ticket k a x hx) h (by simp), fun c x hx => at_put (i.seat c x hx) h (by simp),
    fun x hx => at_put (i.limbo x hx) h (by simp), i.limbo1, fun x hx => at_put (i.held x hx) h (by simp), i.held1, ?_, ?_⟩
  · intro j
    have := recv_put i h0 .over j
    rcases he with rfl | rfl <;> simpa [List.countP_cons, got] using this
  · intro j
    by_cases hj : j = m.id
    · subst hj; have := (i.count0 h0).2; rcases he with rfl | rfl <;> simp [List.countP_cons, this, ended, put, Place.isOver]
    · have := i.ends j; rcases he with rfl | rfl <;> simpa [List.countP_cons, ended, put, hj, Ne.symm hj] using this

theorem Once.heldOver (i : Once s loc) {e : Ev} (h : s.held m ≠ 0) (he : e = .discarded m.id ∨ ∃ r, e = .handled m.id r) :
    Once { s with held := s.held.del m, hist := e :: s.hist } (put loc m.id .over) := by
  have hp := i.held m h
  refine ⟨new_put i _ (.inr (i.lt (by simp [hp]))), fun x hx => loc_put (i.draft x hx) (by simp [hp]), i.draft1,
    fun x hx => loc_put (i.store x hx) (by simp [hp]), i.storeN,
    fun k a x hx => loc_put (i.ticket k a x hx) (by simp [hp]), fun c x hx => loc_put (i.seat c x hx) (by simp [hp]),
    fun x hx => loc_put (i.limbo x hx) (by simp [hp]), i.limbo1, ?_, ?_, ?_, ?_⟩
  · intro x hx
    have h1 := i.held x (del_ne hx)
    have h2 : x ≠ m := by
      rintro rfl; have := i.held1 x; simp [Bag.del] at hx; omega
    exact loc_put h1 (by rw [hp]; simpa using Ne.symm h2)
  · intro x; have := i.held1 x; simp only [Bag.del]; split <;> omega
  · intro j
    by_cases hj : j = m.id
    · subst hj; have := i.recv m.id; rw [hp] at this; rcases he with rfl | ⟨r, rfl⟩ <;> simpa [List.countP_cons, got, put, Place.after] using this
    · have := i.recv j; rcases he with rfl | ⟨r, rfl⟩ <;> simpa [List.countP_cons, got, put, hj] using this
  · intro j
    by_cases hj : j = m.id
    · subst hj; have := i.ends m.id; rw [hp] at this
      simp [Place.isOver] at this
      rcases he with rfl | ⟨r, rfl⟩ <;> simpa [List.countP_cons, ended, put, Place.isOver] using this
    · have := i.ends j; rcases he with rfl | ⟨r, rfl⟩ <;> simpa [List.countP_cons, ended, put, hj, Ne.symm hj] using this
end

/-! The rules -/

/-- Messages stay where they are; entries of tables may be overwritten by something else. -/
macro "keep" i:ident : tactic => `(tactic| (
  refine ⟨($i).new, ($i).draft, ($i).draft1, ($i).store, ($i).storeN, ?_, ?_, ($i).limbo, ($i).limbo1, ($i).held, ($i).held1, ($i).recv, ($i).ends⟩
  · first
    | exact ($i).ticket
    | (intro c b m h; rcases put_eq h with ⟨-, h⟩ | h
       · simp at h
       · exact ($i).ticket c b m h)
  · first
    | exact ($i).seat
    | (intro c m h; rcases put_eq h with ⟨-, h⟩ | h
       · simp at h
       · exact ($i).seat c m h)))

section
variable {s s' : State} {loc : Nat → Place} {m : Msg}

theorem Once.offer (i : Once s loc) (h : loc m.id = .nowhere) (hl : m.id < s.next) (ho : Offer s m s') : ∃ loc', Once s' loc' := by
  cases ho with
  | @hand c rest _ =>
    have i1 := i.toSeat (c := c) h hl
    exact ⟨_, by keep i1⟩
  | store _ hp => exact ⟨_, i.toStore h hl hp⟩

theorem Once.deliver (i : Once s loc) (ho : Deliver s m s') : Once s' loc := by
  cases ho with
  | mk _ _ =>
    have i1 := i.log (e := .bsent m s.live) (fun _ => rfl) (fun _ => rfl)
    refine ⟨i1.new, i1.draft, i1.draft1, i1.store, i1.storeN, i1.ticket, ?_, i1.limbo, i1.limbo1, i1.held, i1.held1, i1.recv, i1.ends⟩
    intro c x hx
    simp only at hx
    split at hx
    · simp at hx
    · exact i.seat c x hx

theorem Once.refillOne (i : Once s loc) (ho : RefillOne s s') : ∃ loc', Once s' loc' := by
  cases ho with
  | full _ => exact ⟨_, i⟩
  | none _ => exact ⟨_, i⟩
  | @move h m st _ ht _ hp =>
    have i1 := i.outTicket (t := .accepted) ht (by simp)
    exact ⟨_, i1.toStore (m := m) (by simp [put]) (i.lt (by simp [i.ticket h _ m ht])) hp⟩

theorem Once.refillAll (i : Once s loc) (ho : RefillAll s s') : ∃ loc', Once s' loc' := by
  cases ho with
  | full _ => exact ⟨_, i⟩
  | none _ => exact ⟨_, i⟩
  | @move h m _ _ ht _ hd =>
    have i1 := i.outTicket (t := .accepted) ht (by simp)
    exact ⟨_, i1.deliver hd⟩

theorem Once.takeAll (i : Once s loc) {b : Nat} (ho : TakeAll s b m s') : ∃ loc', Once s' loc' := by
  cases ho with
  | @mk l n _ hp _ _ hr =>
    have i1 : Once { s with box := put s.box b l, level := n } loc := by keep i
    exact i1.refillAll hr

theorem got_refill (ho : RefillOne s s') : s'.next = s.next := by cases ho <;> rfl

theorem Once.step (i : Once s loc) (h : Step s s') : ∃ loc', Once s' loc' := by
  cases h
  case retain h => exact ⟨_, by keep i⟩
  case release h => exact ⟨_, by keep i⟩
  case enter h => exact ⟨_, by keep i⟩
  case leave h => exact ⟨_, by keep i⟩
  case upgraded => exact ⟨_, i.log (fun _ => rfl) (fun _ => rfl)⟩
  case openBox => exact ⟨_, by keep i⟩
  case closeBox => exact ⟨_, by keep i⟩
  case len => exact ⟨_, i.log (fun _ => rfl) (fun _ => rfl)⟩
  case make f bc =>
    have i0 : Once { s with next := s.next + 1 } loc :=
      ⟨fun j hj => i.new j (by simp only at hj; omega), i.draft, i.draft1, i.store, i.storeN, i.ticket, i.seat, i.limbo, i.limbo1, i.held, i.held1, i.recv, i.ends⟩
    have i1 := i0.toDraft (m := ⟨s.next, .valued 0⟩) (i.new _ (Nat.le_refl _)) (Nat.lt_succ_self _)
    have i2 := i1.log (e := .made f s.next bc) (fun _ => rfl) (fun _ => rfl)
    exact ⟨_, by keep i2⟩
  case prio m p hm =>
    have hl := i.lt (m := m) (by simp [i.draft m hm])
    have i1 := (i.outDraft hm).toDraft (m := { m with prio := .valued p }) (by simp [put]) hl
    exact ⟨_, i1.log (e := .prioSet m.id p) (fun _ => rfl) (fun _ => rfl)⟩
  case abandon m hm =>
    have hl := i.lt (m := m) (by simp [i.draft m hm])
    have i1 := (i.outDraft hm).toOver (e := .dropped m.id) (by simp [put]) hl (.inl rfl)
    exact ⟨_, by keep i1⟩
  case reject m f hm hf ho =>
    have hl := i.lt (m := m) (by simp [i.draft m hm])
    have i1 := (i.outDraft hm).toOver (e := .dropped m.id) (by simp [put]) hl (.inl rfl)
    have i2 := i1.log (e := .sendErr f m.id) (fun _ => rfl) (fun _ => rfl)
    exact ⟨_, by keep i2⟩
  case submit m hm hk hr ho =>
    have hl := i.lt (m := m) (by simp [i.draft m hm])
    have i1 := i.outDraft hm
    have i2 : Once { s with draft := s.draft.del m, known := put s.known m.id true } (put loc m.id .nowhere) := by keep i1
    exact i2.offer (by simp [put]) hl ho
  case park m h hm hk _ _ _ =>
    have hl := i.lt (m := m) (by simp [i.draft m hm])
    have i1 := (i.outDraft hm).toTicket (k := h) (a := false) (by simp [put]) hl
    exact ⟨_, ⟨i1.new, i1.draft, i1.draft1, i1.store, i1.storeN, i1.ticket, i1.seat, i1.limbo, i1.limbo1, i1.held, i1.held1, i1.recv, i1.ends⟩⟩
  case submitAll m hm hk hr ho =>
    have i1 := i.outDraft hm
    have i2 : Once { s with draft := s.draft.del m, known := put s.known m.id true } (put loc m.id .nowhere) := by keep i1
    exact ⟨_, i2.deliver ho⟩
  case parkAll m h hm hk _ _ =>
    have hl := i.lt (m := m) (by simp [i.draft m hm])
    have i1 := (i.outDraft hm).toTicket (k := h) (a := true) (by simp [put]) hl
    exact ⟨_, ⟨i1.new, i1.draft, i1.draft1, i1.store, i1.storeN, i1.ticket, i1.seat, i1.limbo, i1.limbo1, i1.held, i1.held1, i1.recv, i1.ends⟩⟩
  case stillParked => exact ⟨_, i.log (fun _ => rfl) (fun _ => rfl)⟩
  case learn => exact ⟨_, by keep i⟩
  case refused f h hh hf =>
    have i1 := i.log (e := .sendErr f (s.forMsg h)) (fun _ => rfl) (fun _ => rfl)
    exact ⟨_, by keep i1⟩
  case cancel h a m hh =>
    have hl := i.lt (m := m) (by simp [i.ticket h a m hh])
    have i1 := (i.outTicket (t := .free) hh (by simp)).toOver (m := m) (e := .dropped m.id) (by simp [put]) hl (.inl rfl)
    exact ⟨_, by keep i1⟩
  case tear h hh => exact ⟨_, by keep i⟩
  case sendOk => exact ⟨_, i.log (fun _ => rfl) (fun _ => rfl)⟩
  case replyPending => exact ⟨_, i.log (fun _ => rfl) (fun _ => rfl)⟩
  case replyOk => exact ⟨_, i.log (fun _ => rfl) (fun _ => rfl)⟩
  case replyInt => exact ⟨_, i.log (fun _ => rfl) (fun _ => rfl)⟩
  case takeOne r b m st s1 hp h1 h2 hr =>
    have hm := i.store m (hp.mem_iff.mpr (by simp))
    have hl := i.lt (m := m) (by simp [hm])
    have i1 := (i.outStore hp).toHeld (r := r) (b := b) (m := m) (by simp [put]) hl
    have : RefillOne { s with store := st, held := s.held.add m, hist := .recv r b (.one m) :: s.hist }
        { s1 with held := s1.held.add m, hist := .recv r b (.one m) :: s1.hist } := by
      cases hr with
      | full h => exact .full h
      | none h => exact .none h
      | move a1 a2 a3 a4 => exact .move a1 a2 a3 a4
    exact i1.refillOne this
  case takeAll r b m s1 h1 ht =>
    obtain ⟨loc', i1⟩ := i.takeAll ht
    exact ⟨_, i1.log (fun _ => rfl) (fun _ => rfl)⟩
  case takeEnd => exact ⟨_, i.log (fun _ => rfl) (fun _ => rfl)⟩
  case sit => exact ⟨_, by keep i⟩
  case stillWaiting => exact ⟨_, i.log (fun _ => rfl) (fun _ => rfl)⟩
  case pickUp c m hc =>
    have hl := i.lt (m := m) (by simp [i.seat c m hc])
    exact ⟨_, (i.outSeat (t := .free) hc (by simp)).toHeld (m := m) (by simp [put]) hl⟩
  case pickEnd c hc =>
    have i1 := i.log (e := .recv (s.owner c).1 (s.owner c).2 .shutdown) (fun _ => rfl) (fun _ => rfl)
    exact ⟨_, by keep i1⟩
  case look => exact ⟨_, by keep i⟩
  case pickAll c m s1 hc ht =>
    obtain ⟨loc', i1⟩ := i.takeAll ht
    have i2 := i1.log (e := .recv (s.owner c).1 (s.owner c).2 (.all m)) (fun _ => rfl) (fun _ => rfl)
    exact ⟨loc', by keep i2⟩
  case again => exact ⟨_, by keep i⟩
  case giveBack c m hc =>
    have hl := i.lt (m := m) (by simp [i.seat c m hc])
    exact ⟨_, (i.outSeat (t := .looked) hc (by simp)).toLimbo (m := m) (by simp [put]) hl⟩
  case ignore => exact ⟨_, by keep i⟩
  case reOffer m s1 hm ho =>
    have hl := i.lt (m := m) (by simp [i.limbo m hm])
    obtain ⟨loc', i1⟩ := (i.outLimbo hm).offer (by simp [put]) hl ho
    exact ⟨_, i1.log (fun _ => rfl) (fun _ => rfl)⟩
  case rise => exact ⟨_, by keep i⟩
  case lose c m hc =>
    have hl := i.lt (m := m) (by simp [i.seat c m hc])
    have i1 := (i.outSeat (t := .free) hc (by simp)).toOver (m := m) (e := .lost m.id) (by simp [put]) hl (.inr rfl)
    exact ⟨_, ⟨i1.new, i1.draft, i1.draft1, i1.store, i1.storeN, i1.ticket, i1.seat, i1.limbo, i1.limbo1, i1.held, i1.held1, i1.recv, i1.ends⟩⟩
  case dismiss => exact ⟨_, by keep i⟩
  case tell => exact ⟨_, by keep i⟩
  case close a ds h0 h1 h2 h3 h4 =>
    have hw : ∀ j, j ∈ ds → (loc j).after = false ∧ (loc j = .store ∨ ∃ h, loc j = .ticket h) := by
      intro j hj
      rcases (h4 j).mp hj with ⟨x, hx, rfl⟩ | ⟨h, b, x, hx, rfl⟩
      · rw [i.store x hx]; exact ⟨rfl, .inl rfl⟩
      · rw [i.ticket h b x hx]; exact ⟨rfl, .inr ⟨h, rfl⟩⟩
    have keep : ∀ {x : Msg} {p : Place}, loc x.id = p → p ≠ .store → (∀ h, p ≠ .ticket h) → (if x.id ∈ ds then Place.over else loc x.id) = p := by
      intro x p e h1 h2
      rw [if_neg, e]
      intro hm
      rcases (hw _ hm).2 with h | ⟨k, h⟩
      · exact h1 (e.symm.trans h)
      · exact h2 k (e.symm.trans h)
    refine ⟨fun j => if j ∈ ds then .over else loc j, ?_, fun x hx => keep (i.draft x hx) (by simp) (by simp), i.draft1, ?_, ?_, ?_,
      fun c x hx => keep (i.seat c x hx) (by simp) (by simp), fun x hx => keep (i.limbo x hx) (by simp) (by simp), i.limbo1,
      fun x hx => keep (i.held x hx) (by simp) (by simp), i.held1, ?_, ?_⟩
    · intro j hj
      have := i.new j hj
      rw [if_neg, this]
      intro hm
      rcases (hw _ hm).2 with h | ⟨k, h⟩ <;> rw [this] at h <;> simp at h
    · simp
    · simp
    · intro h b x hx
      simp only at hx
      cases ht : s.ticket h <;> rw [ht] at hx <;> simp [Ticket.refuse] at hx
    · intro j
      have h5 : (ds.map Ev.dropped).countP (got j) = 0 := by
        rw [List.countP_eq_zero]; intro e he; obtain ⟨k, -, rfl⟩ := List.mem_map.mp he; simp [got]
      rw [List.countP_append, h5]
      have := i.recv j
      by_cases hj : j ∈ ds
      · simp only [hj, if_true, Place.after]; have := (i.count0 (hw j hj).1).1; omega
      · simp only [hj, if_false]; omega
    · intro j
      have h5 : (ds.map Ev.dropped).countP (ended j) = ds.count j := by
        rw [List.countP_map, List.count]; congr 1
      rw [List.countP_append, h5]
      have := i.ends j
      by_cases hj : j ∈ ds
      · simp only [hj, if_true, Place.isOver]
        have h6 := (i.count0 (hw j hj).1).2
        have h7 : ds.count j ≤ 1 := List.nodup_iff_count.mp h3 j
        omega
      · simp only [hj, if_false]
        have : ds.count j = 0 := List.count_eq_zero.mpr hj
        omega
  case stopAll h0 hd =>
    have i1 : Once { s with next := s.next + 1, answer := put s.answer s.next .none } loc :=
      ⟨fun j hj => i.new j (by simp only at hj; omega), i.draft, i.draft1, i.store, i.storeN, i.ticket, i.seat, i.limbo, i.limbo1, i.held, i.held1, i.recv, i.ends⟩
    exact ⟨_, i1.deliver hd⟩
  case handled m r hm =>
    have i1 := i.heldOver (e := .handled m.id r) hm (.inr ⟨r, rfl⟩)
    exact ⟨_, by keep i1⟩
  case discarded m hm =>
    have i1 := i.heldOver (e := .discarded m.id) hm (.inl rfl)
    exact ⟨_, by keep i1⟩

theorem Once.steps {cap : Option Nat} (h : Steps (Ideal.start cap) s) : ∃ loc, Once s loc := by
  suffices ∀ a, Steps a s → (∃ loc, Once a loc) → ∃ loc, Once s loc from this _ h ⟨_, .start cap⟩
  clear h
  intro a h
  induction h with
  | refl => exact id
  | tail _ hs ih =>
    intro ia
    obtain ⟨loc, i⟩ := ih ia
    exact i.step hs
end

end Xtra.Ideal
