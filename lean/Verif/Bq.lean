import Verif.RegRx
/-! Broadcast queues: effect of the critical sections on contents and reference counts. -/

set_option linter.unusedSimpArgs false

namespace Xtra

/-- Strong count of queue `b`. -/
def World.refs (w : World) (b : Nat) : Nat :=
  match w.bq[b]? with
  | some q => q.refs
  | none => 0

theorem alive_iff (w : World) (b : Nat) : w.alive b = true ↔ 0 < w.refs b := by
  unfold World.alive World.refs; cases w.bq[b]? <;> simp

theorem alive_lt {w : World} {b : Nat} (h : w.alive b = true) : b < w.bq.length := by
  unfold World.alive at h
  cases hb : w.bq[b]? with
  | none => simp [hb] at h
  | some q => exact (List.getElem?_eq_some_iff.mp hb).1

def BQ.push (m : Msg) (q : BQ) : BQ := { q with items := Heap.push Msg.le q.items m }

theorem pushBq_get (m : Msg) (bq : List BQ) (a b : Nat) :
    (pushBq m bq a)[b]? = if b = a then (bq[b]?).map (BQ.push m) else bq[b]? := by
  unfold pushBq
  by_cases hk : b = a
  · subst hk
    cases hb : bq[b]? with
    | none => simp [hb]
    | some q =>
      simp only []
      rw [List.getElem?_set_self (by exact (List.getElem?_eq_some_iff.mp hb).1)]; simp [BQ.push]
  · cases ha : bq[a]? with
    | none => simp [hk]
    | some q => simp only []; rw [List.getElem?_set_ne (by omega)]; simp [hk]

theorem pushAll_get (m : Msg) (live : List Nat) (hn : live.Nodup) (bq : List BQ) (b : Nat) :
    (live.foldl (pushBq m) bq)[b]? = if b ∈ live then (bq[b]?).map (BQ.push m) else bq[b]? := by
  induction live generalizing bq with
  | nil => simp
  | cons a l ih =>
    simp only [List.foldl_cons]
    rw [ih (List.nodup_cons.mp hn).2, pushBq_get]
    have := (List.nodup_cons.mp hn).1
    by_cases h1 : b = a
    · subst h1; simp [this]
    · simp [h1]

theorem pushAll_length (m : Msg) (live : List Nat) (bq : List BQ) :
    (live.foldl (pushBq m) bq).length = bq.length := by
  induction live generalizing bq with
  | nil => rfl
  | cons a l ih =>
    simp only [List.foldl_cons]; rw [ih]; unfold pushBq; split <;> simp

theorem sendBroadcast_bq (w : World) (m : Msg) (hn : w.bqs.Nodup) (b : Nat) :
    (w.sendBroadcast m).bq[b]? =
      if b ∈ w.bqs ∧ w.alive b = true then (w.bq[b]?).map (BQ.push m) else w.bq[b]? := by
  have : (w.bqs.filter w.alive).Nodup := hn.filter _
  simp only [World.sendBroadcast, pushAll_get m _ this, List.mem_filter]

theorem sendBroadcast_items (w : World) (m : Msg) (hn : w.bqs.Nodup) (b : Nat) :
    (w.sendBroadcast m).items b =
      if b ∈ w.bqs ∧ w.alive b = true then Heap.push Msg.le (w.items b) m else w.items b := by
  unfold World.items
  rw [sendBroadcast_bq w m hn]
  by_cases h : b ∈ w.bqs ∧ w.alive b = true
  · rw [if_pos h, if_pos h]
    have := alive_lt h.2
    cases hb : w.bq[b]? with
    | none => simp at hb; omega
    | some q => simp [BQ.push]
  · rw [if_neg h, if_neg h]

theorem sendBroadcast_refs (w : World) (m : Msg) (hn : w.bqs.Nodup) (b : Nat) :
    (w.sendBroadcast m).refs b = w.refs b := by
  unfold World.refs
  rw [sendBroadcast_bq w m hn]
  by_cases h : b ∈ w.bqs ∧ w.alive b = true
  · rw [if_pos h]; cases hb : w.bq[b]? <;> simp [BQ.push]
  · rw [if_neg h]

theorem alive_congr {w w' : World} {b : Nat} (h : w'.refs b = w.refs b) : w'.alive b = w.alive b := by
  have h1 := alive_iff w b; have h2 := alive_iff w' b
  rw [h] at h2
  cases ha : w.alive b <;> cases hb : w'.alive b <;> simp_all

theorem items_ne {w : World} {b : Nat} (h : w.items b ≠ []) : ∃ q, w.bq[b]? = some q := by
  unfold World.items at h
  cases hb : w.bq[b]? with
  | none => simp [hb] at h
  | some q => exact ⟨q, rfl⟩

theorem afterPop_items {w : World} {b : Nat} (h : w.items b ≠ []) (q : List Msg) (b' : Nat) :
    (w.afterPop b q).items b' = if b' = b then q else w.items b' := by
  obtain ⟨q0, h0⟩ := items_ne h
  unfold World.afterPop
  rw [h0]
  simp only [World.items]
  by_cases hk : b' = b
  · subst hk
    rw [List.getElem?_set_self (by exact (List.getElem?_eq_some_iff.mp h0).1)]; simp
  · rw [List.getElem?_set_ne (by omega)]; simp [hk]

theorem afterPop_refs (w : World) (b : Nat) (q : List Msg) (b' : Nat) :
    (w.afterPop b q).refs b' = w.refs b' := by
  unfold World.afterPop
  cases h0 : w.bq[b]? with
  | none => rfl
  | some q0 =>
    simp only [World.refs]
    by_cases hk : b' = b
    · subst hk
      rw [List.getElem?_set_self (by exact (List.getElem?_eq_some_iff.mp h0).1), h0]
    · rw [List.getElem?_set_ne (by omega)]

theorem afterPop_bqlen (w : World) (b : Nat) (q : List Msg) :
    (w.afterPop b q).bq.length = w.bq.length := by
  unfold World.afterPop; split <;> simp

theorem foldl_max_ge (w : World) (l : List Nat) (acc : Nat) :
    acc ≤ l.foldl (fun acc b => if w.alive b then max acc (w.items b).length else acc) acc ∧
    ∀ b ∈ l, w.alive b = true →
      (w.items b).length ≤ l.foldl (fun acc b => if w.alive b then max acc (w.items b).length else acc) acc := by
  induction l generalizing acc with
  | nil => simp
  | cons a l ih =>
    simp only [List.foldl_cons, List.mem_cons]
    obtain ⟨h1, h2⟩ := ih (if w.alive a then max acc (w.items a).length else acc)
    refine ⟨?_, ?_⟩
    · by_cases ha : w.alive a = true
      · simp only [ha, if_true] at h1 ⊢; omega
      · simp only [ha] at h1 ⊢; exact h1
    · rintro b (rfl | hb) hal
      · simp only [hal, if_true] at h1 h2 ⊢; omega
      · exact h2 b hb hal

theorem longest_ge (w : World) {b : Nat} (hb : b ∈ w.bqs) (ha : w.alive b = true) :
    (w.items b).length ≤ w.longest := (foldl_max_ge w w.bqs 0).2 b hb ha

theorem foldl_max_le (w : World) (l : List Nat) (acc n : Nat) (h0 : acc ≤ n)
    (h : ∀ b ∈ l, w.alive b = true → (w.items b).length ≤ n) :
    l.foldl (fun acc b => if w.alive b then max acc (w.items b).length else acc) acc ≤ n := by
  induction l generalizing acc with
  | nil => simpa
  | cons a l ih =>
    simp only [List.foldl_cons]
    apply ih
    · split
      · rename_i ha; have := h a (by simp) ha; omega
      · exact h0
    · intro b hb; exact h b (by simp [hb])

theorem longest_le (w : World) (n : Nat)
    (h : ∀ b ∈ w.bqs, w.alive b = true → (w.items b).length ≤ n) : w.longest ≤ n :=
  foldl_max_le w w.bqs 0 n (by omega) h

/-- The longest live mailbox as a maximum: it is attained (or no live mailbox holds anything). -/
theorem foldl_max_mem (w : World) (l : List Nat) (acc : Nat) :
    l.foldl (fun acc b => if w.alive b then max acc (w.items b).length else acc) acc = acc ∨
    ∃ b ∈ l, w.alive b = true ∧
      l.foldl (fun acc b => if w.alive b then max acc (w.items b).length else acc) acc = (w.items b).length := by
  induction l generalizing acc with
  | nil => simp
  | cons a l ih =>
    simp only [List.foldl_cons]
    rcases ih (if w.alive a then max acc (w.items a).length else acc) with h | ⟨b, hb, h1, h2⟩
    · rw [h]
      by_cases ha : w.alive a = true
      · simp only [ha, if_true]
        by_cases hle : acc ≤ (w.items a).length
        · right; exact ⟨a, by simp, ha, by omega⟩
        · left; omega
      · left; simp [ha]
    · right; exact ⟨b, by simp [hb], h1, h2⟩

theorem afterPop_tail {w : World} {b : Nat} (h : w.items b ≠ []) (q : List Msg) :
    (w.afterPop b q).tail = (w.afterPop b q).longest := by
  obtain ⟨q0, h0⟩ := items_ne h
  unfold World.afterPop
  rw [h0]
  rfl

theorem pop_ne {l q : List Msg} {m : Msg} (h : Heap.pop Msg.le l = some (m, q)) : l ≠ [] := by
  intro h0; subst h0; simp [Heap.pop] at h

theorem decBq_bq (w : World) (b b' : Nat) :
    (w.decBq b).bq[b']? = if b' = b then
      (w.bq[b]?).map (fun q => if q.refs ≤ 1 then ⟨0, []⟩ else { q with refs := q.refs - 1 })
      else w.bq[b']? := by
  unfold World.decBq
  by_cases hk : b' = b
  · subst hk
    cases h0 : w.bq[b']? with
    | none => simp [h0]
    | some q0 =>
      have hl := (List.getElem?_eq_some_iff.mp h0).1
      simp only []
      by_cases hr : q0.refs ≤ 1
      · simp [hr, List.getElem?_set_self hl]
      · simp [hr, List.getElem?_set_self hl]
  · cases h0 : w.bq[b]? with
    | none => simp [hk]
    | some q0 =>
      simp only []
      by_cases hr : q0.refs ≤ 1
      · simp only [hr, if_true]; rw [List.getElem?_set_ne (Ne.symm hk)]; simp [hk]
      · simp only [hr, if_false]; rw [List.getElem?_set_ne (Ne.symm hk)]; simp [hk]

theorem decBq_refs (w : World) (b b' : Nat) :
    (w.decBq b).refs b' = if b' = b then w.refs b - 1 else w.refs b' := by
  unfold World.refs
  rw [decBq_bq]
  by_cases hk : b' = b
  · subst hk
    cases h0 : w.bq[b']? with
    | none => simp
    | some q0 => by_cases hr : q0.refs ≤ 1 <;> simp [hr]
  · simp [hk]

theorem decBq_items (w : World) (b b' : Nat) :
    (w.decBq b).items b' = if b' = b ∧ w.refs b ≤ 1 then [] else w.items b' := by
  unfold World.refs World.items
  rw [decBq_bq]
  by_cases hk : b' = b
  · subst hk
    cases h0 : w.bq[b']? with
    | none => simp
    | some q0 => by_cases hr : q0.refs ≤ 1 <;> simp [hr]
  · simp [hk]

theorem incBq_refs (w : World) (b b' : Nat) :
    (w.incBq b).refs b' = if b' = b ∧ b < w.bq.length then w.refs b + 1 else w.refs b' := by
  unfold World.incBq World.refs
  cases h0 : w.bq[b]? with
  | none =>
    have : ¬ b < w.bq.length := by simp at h0; omega
    simp [this]
  | some q0 =>
    have hl := (List.getElem?_eq_some_iff.mp h0).1
    simp only []
    by_cases hk : b' = b
    · subst hk; simp [List.getElem?_set_self hl, hl]
    · simp only [List.getElem?_set_ne (Ne.symm hk), hk, false_and, if_false]

theorem incBq_items (w : World) (b b' : Nat) : (w.incBq b).items b' = w.items b' := by
  unfold World.incBq World.items
  cases h0 : w.bq[b]? with
  | none => rfl
  | some q0 =>
    have hl := (List.getElem?_eq_some_iff.mp h0).1
    simp only []
    by_cases hk : b' = b
    · subst hk; simp [List.getElem?_set_self hl, h0]
    · simp only [List.getElem?_set_ne (Ne.symm hk)]

theorem incBq_len (w : World) (b : Nat) : (w.incBq b).bq.length = w.bq.length := by
  unfold World.incBq; split <;> simp
theorem decBq_len (w : World) (b : Nat) : (w.decBq b).bq.length = w.bq.length := by
  unfold World.decBq; split
  · split <;> simp
  · rfl

end Xtra
