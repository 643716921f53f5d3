import Verif.Prio
/-!
# `std::collections::BinaryHeap`

The queues of xtra are `BinaryHeap<ByPriority<..>>` (xtra/src/chan.rs:26, 310). The heap is not part of
/repo; what is modelled here is the algorithm of the Rust standard library (`push`, `pop`, `peek`,
`sift_up`, `sift_down_to_bottom`), on the array layout, since its behaviour on equal priorities is
observable through the order in which an actor handles messages.

`Hole::move_to(i)` is modelled as swapping the hole's element with the element at `i`; this is
what the sequence of moves amounts to once the hole is filled. Loops take a fuel argument (the array
length always suffices: this is part of what `pop_heap`/`push_heap` prove, since a loop cut short
would leave the order broken).
-/

namespace Xtra.Heap

variable {α : Type}

/-- Swap two positions (identity if one is out of range). -/
def swap (l : List α) (i j : Nat) : List α :=
  match l[i]?, l[j]? with
  | some a, some b => (l.set i b).set j a
  | _, _ => l

/-- `BinaryHeap::sift_up(0, pos)`:
`while pos > 0 { parent = (pos-1)/2; if elem <= data[parent] { break } move_to(parent) }`. -/
def siftUp (le : α → α → Bool) : Nat → List α → Nat → List α
  | 0, l, _ => l
  | n + 1, l, pos =>
    if pos = 0 then l else
      match l[pos]?, l[(pos - 1) / 2]? with
      | some x, some y =>
        if le x y then l else siftUp le n (swap l pos ((pos - 1) / 2)) ((pos - 1) / 2)
      | _, _ => l

/-- First half of `BinaryHeap::sift_down_to_bottom(0)`: move the hole down to a leaf, always to the
greater child, to the *right* child on ties
(`child += (data[child] <= data[child + 1]) as usize`). Returns the array and the hole's final position. -/
def descend (le : α → α → Bool) : Nat → List α → Nat → List α × Nat
  | 0, l, pos => (l, pos)
  | n + 1, l, pos =>
    match l[2 * pos + 1]?, l[2 * pos + 2]? with
    | some x, some y =>
      if le x y then descend le n (swap l pos (2 * pos + 2)) (2 * pos + 2)
      else descend le n (swap l pos (2 * pos + 1)) (2 * pos + 1)
    | some _, none => (swap l pos (2 * pos + 1), 2 * pos + 1)
    | none, _ => (l, pos)

/-- `BinaryHeap::push`: `let old_len = len; data.push(item); sift_up(0, old_len)`. -/
def push (le : α → α → Bool) (l : List α) (x : α) : List α :=
  siftUp le (l.length + 1) (l ++ [x]) l.length

/-- `BinaryHeap::sift_down_to_bottom(0)`: descend to a leaf, then sift up. -/
def siftDownToBottom (le : α → α → Bool) (l : List α) : List α :=
  let r := descend le l.length l 0
  siftUp le (l.length + 1) r.1 r.2

/-- `BinaryHeap::pop`:
`data.pop().map(|mut item| { if !is_empty() { swap(&mut item, &mut data[0]); sift_down_to_bottom(0) } item })`. -/
def pop (le : α → α → Bool) (l : List α) : Option (α × List α) :=
  match l with
  | [] => none
  | [x] => some (x, [])
  | x :: y :: rest =>
    some (x, siftDownToBottom le ((y :: rest).getLast (by simp) :: (y :: rest).dropLast))

/-- `BinaryHeap::peek`: the first array element. -/
def peek (l : List α) : Option α := l.head?

/-- The heap order: every element is `<=` its parent. -/
def Ordered (le : α → α → Bool) (l : List α) : Prop :=
  ∀ i x y, 0 < i → l[i]? = some x → l[(i - 1) / 2]? = some y → le x y = true

/-! ## Permutation facts -/

theorem swap_length (l : List α) (i j : Nat) : (swap l i j).length = l.length := by
  unfold swap; split <;> simp

theorem swap_getElem? {l : List α} {i j : Nat} {a b : α} (hi : l[i]? = some a) (hj : l[j]? = some b)
    (k : Nat) : (swap l i j)[k]? = if k = j then some a else if k = i then some b else l[k]? := by
  have hil : i < l.length := by
    rw [List.getElem?_eq_some_iff] at hi; exact hi.1
  have hjl : j < l.length := by
    rw [List.getElem?_eq_some_iff] at hj; exact hj.1
  simp only [swap, hi, hj, List.getElem?_set, List.length_set]
  by_cases h1 : k = j
  · subst h1; simp [hjl]
  · by_cases h2 : k = i
    · subst h2; simp [h1, hil, Ne.symm h1]
    · simp [h1, h2, Ne.symm h1, Ne.symm h2]

theorem swap_perm (l : List α) (i j : Nat) : (swap l i j).Perm l := by
  unfold swap
  split
  · rename_i a b hi hj
    rw [List.getElem?_eq_some_iff] at hi hj
    obtain ⟨hi, rfl⟩ := hi
    obtain ⟨hj, rfl⟩ := hj
    exact List.set_set_perm hi hj
  · exact List.Perm.refl _

theorem siftUp_perm (le : α → α → Bool) (n : Nat) (l : List α) (pos : Nat) :
    (siftUp le n l pos).Perm l := by
  induction n generalizing l pos with
  | zero => exact List.Perm.refl _
  | succ n ih =>
    simp only [siftUp]
    split
    · exact List.Perm.refl _
    · split
      · split
        · exact List.Perm.refl _
        · exact (ih _ _).trans (swap_perm _ _ _)
      · exact List.Perm.refl _

theorem descend_perm (le : α → α → Bool) (n : Nat) (l : List α) (pos : Nat) :
    (descend le n l pos).1.Perm l := by
  induction n generalizing l pos with
  | zero => exact List.Perm.refl _
  | succ n ih =>
    simp only [descend]
    split
    · split
      · exact (ih _ _).trans (swap_perm _ _ _)
      · exact (ih _ _).trans (swap_perm _ _ _)
    · exact swap_perm _ _ _
    · exact List.Perm.refl _

theorem siftDownToBottom_perm (le : α → α → Bool) (l : List α) :
    (siftDownToBottom le l).Perm l :=
  (siftUp_perm _ _ _ _).trans (descend_perm _ _ _ _)

theorem push_perm (le : α → α → Bool) (l : List α) (x : α) : (push le l x).Perm (x :: l) :=
  (siftUp_perm _ _ _ _).trans (List.perm_append_comm)

theorem pop_perm {le : α → α → Bool} {l l' : List α} {x : α} (h : pop le l = some (x, l')) :
    l.Perm (x :: l') := by
  match l, h with
  | [y], h => simp [pop] at h; obtain ⟨rfl, rfl⟩ := h; exact List.Perm.refl _
  | y :: z :: rest, h =>
    simp only [pop, Option.some.injEq, Prod.mk.injEq] at h
    obtain ⟨rfl, rfl⟩ := h
    refine List.Perm.cons _ ?_
    refine List.Perm.trans ?_ (siftDownToBottom_perm _ _).symm
    have : (z :: rest).dropLast ++ [(z :: rest).getLast (by simp)] = z :: rest :=
      List.dropLast_concat_getLast _
    conv => lhs; rw [← this]
    exact List.perm_append_comm

theorem pop_none {le : α → α → Bool} {l : List α} : pop le l = none ↔ l = [] := by
  match l with
  | [] => simp [pop]
  | [y] => simp [pop]
  | y :: z :: rest => simp [pop]

/-- `peek` is exactly what `pop` would return. -/
theorem pop_peek {le : α → α → Bool} {l : List α} : (pop le l).map Prod.fst = peek l := by
  match l with
  | [] => simp [pop, peek]
  | [y] => simp [pop, peek]
  | y :: z :: rest => simp [pop, peek]

/-! ## The heap order is maintained -/

/-- A total preorder, as `ByPriority`'s `Ord` is (xtra/src/chan/priority.rs:51-58). -/
structure TotalPre (le : α → α → Bool) : Prop where
  total : ∀ a b, le a b = true ∨ le b a = true
  trans : ∀ a b c, le a b = true → le b c = true → le a c = true

/-- Heap order except at `p` relative to its parent; children of `p` are below `p`'s parent. -/
def OrderedExceptUp (le : α → α → Bool) (l : List α) (p : Nat) : Prop :=
  (∀ i x y, 0 < i → i ≠ p → l[i]? = some x → l[(i - 1) / 2]? = some y → le x y = true) ∧
  (∀ i x y, 0 < i → 0 < p → (i - 1) / 2 = p → l[i]? = some x → l[(p - 1) / 2]? = some y →
    le x y = true)

theorem siftUp_ordered {le : α → α → Bool} (hle : TotalPre le) (n : Nat) (l : List α) (p : Nat)
    (hn : p < n) (h : OrderedExceptUp le l p) : Ordered le (siftUp le n l p) := by
  induction n generalizing l p with
  | zero => omega
  | succ n ih =>
    simp only [siftUp]
    by_cases hp : p = 0
    · simp only [hp, if_true]
      intro i x y hi hx hy
      exact h.1 i x y hi (by omega) hx hy
    · simp only [hp, if_false]
      split
      · rename_i x0 y0 hx0 hy0
        by_cases hxy : le x0 y0 = true
        · simp only [hxy, if_true]
          intro i x y hi hx hy
          by_cases hip : i = p
          · subst hip; simp_all
          · exact h.1 i x y hi hip hx hy
        · simp only [hxy, if_false, Bool.false_eq_true]
          apply ih
          · omega
          · have hlt : (p - 1) / 2 < p := by omega
            have hyx : le y0 x0 = true := by
              rcases hle.total x0 y0 with h' | h'
              · exact absurd h' hxy
              · exact h'
            have hsw := swap_getElem? hx0 hy0
            constructor
            · intro i x y hi hne hx hy
              rw [hsw] at hx hy
              by_cases hip : i = p
              · -- the old parent, now at p, against x0 now at parent
                subst hip
                simp only [show ¬ (i = (i - 1) / 2) from by omega, if_false, if_true] at hx hy
                simp_all
              · simp only [hne, hip, if_false] at hx
                by_cases hpi : (i - 1) / 2 = p
                · simp only [hpi, show ¬ (p = (p - 1) / 2) from by omega, if_false, if_true] at hy
                  cases hy
                  exact h.2 i x y0 hi (by omega) hpi hx hy0
                · by_cases hpp : (i - 1) / 2 = (p - 1) / 2
                  · simp only [hpp, if_true] at hy
                    cases hy
                    have := h.1 i x y0 hi hip hx (by rw [hpp]; exact hy0)
                    exact hle.trans _ _ _ this hyx
                  · simp only [hpi, hpp, if_false] at hy
                    exact h.1 i x y hi hip hx hy
            · intro i x y hi hp' hpi hx hy
              rw [hsw] at hx hy
              have hgp : (((p - 1) / 2) - 1) / 2 < (p - 1) / 2 := by omega
              simp only [show ¬ ((((p - 1) / 2) - 1) / 2 = (p - 1) / 2) from by omega,
                show ¬ ((((p - 1) / 2) - 1) / 2 = p) from by omega, if_false] at hy
              have hpar : le y0 y = true :=
                h.1 ((p - 1) / 2) y0 y hp' (by omega) hy0 hy
              by_cases hip : i = p
              · subst hip
                simp only [show ¬ (i = (i - 1) / 2) from by omega, if_false, if_true] at hx
                cases hx
                exact hpar
              · simp only [hip, show ¬ (i = (p - 1) / 2) from by omega, if_false] at hx
                have := h.1 i x y0 hi hip hx (by rw [hpi]; exact hy0)
                exact hle.trans _ _ _ this hpar
      · rename_i hno
        intro i x y hi hx hy
        by_cases hip : i = p
        · subst hip
          exact absurd hy (by intro hy; exact hno x y hx hy)
        · exact h.1 i x y hi hip hx hy

/-- Heap order except around the hole `p` on its way down. -/
def OrderedExceptDown (le : α → α → Bool) (l : List α) (p : Nat) : Prop :=
  (∀ i x y, 0 < i → i ≠ p → (i - 1) / 2 ≠ p → l[i]? = some x → l[(i - 1) / 2]? = some y →
    le x y = true) ∧
  (∀ i x y, 0 < i → 0 < p → (i - 1) / 2 = p → l[i]? = some x → l[(p - 1) / 2]? = some y →
    le x y = true)

/-- Moving the hole from `p` to its greater child `c` keeps `OrderedExceptDown`. -/
theorem swap_down {le : α → α → Bool} {l : List α} {p c : Nat} {e x0 : α}
    (h : OrderedExceptDown le l p) (hc : (c - 1) / 2 = p) (hc0 : 0 < c)
    (he : l[p]? = some e) (hx0 : l[c]? = some x0)
    (hbig : ∀ i x, 0 < i → (i - 1) / 2 = p → l[i]? = some x → le x x0 = true) :
    OrderedExceptDown le (swap l p c) c := by
  have hsw := swap_getElem? he hx0
  have hpc : p < c := by omega
  constructor
  · intro i x y hi hne hpne hx hy
    rw [hsw] at hx hy
    simp only [hne, hpne, if_false] at hx hy
    by_cases hip : i = p
    · subst hip
      simp only [if_true] at hx
      cases hx
      simp only [show ¬ ((i - 1) / 2 = i) from by omega, if_false] at hy
      exact h.2 c x0 y (by omega) hi hc hx0 hy
    · simp only [hip, if_false] at hx
      by_cases hpi : (i - 1) / 2 = p
      · simp only [hpi, if_true] at hy
        cases hy
        exact hbig i x hi hpi hx
      · simp only [hpi, if_false] at hy
        exact h.1 i x y hi hip hpi hx hy
  · intro i x y hi _ hpi hx hy
    rw [hsw] at hx hy
    rw [hc] at hy
    simp only [show ¬ (p = c) from by omega, if_false, if_true] at hy
    cases hy
    simp only [show ¬ (i = c) from by omega, show ¬ (i = p) from by omega, if_false] at hx
    exact h.1 i x x0 hi (by omega) (by omega) hx (by rw [hpi]; exact hx0)

theorem descend_ordered {le : α → α → Bool} (hle : TotalPre le) (n : Nat) (l : List α) (p : Nat)
    (hn : l.length ≤ p + n) (hp : p < l.length) (h : OrderedExceptDown le l p) :
    OrderedExceptUp le (descend le n l p).1 (descend le n l p).2 ∧
      (descend le n l p).2 < l.length := by
  induction n generalizing l p with
  | zero => omega
  | succ n ih =>
    obtain ⟨e, he⟩ : ∃ e, l[p]? = some e := ⟨l[p], List.getElem?_eq_getElem hp⟩
    simp only [descend]
    split
    · rename_i x y hx hy
      have hlx : 2 * p + 1 < l.length := by
        rw [List.getElem?_eq_some_iff] at hx; exact hx.1
      have hly : 2 * p + 2 < l.length := by
        rw [List.getElem?_eq_some_iff] at hy; exact hy.1
      by_cases hxy : le x y = true
      · simp only [hxy, if_true]
        have := ih (swap l p (2 * p + 2)) (2 * p + 2) (by rw [swap_length]; omega)
          (by rw [swap_length]; omega)
          (swap_down h (by omega) (by omega) he hy (by
            intro i z hi hpi hz
            have : i = 2 * p + 1 ∨ i = 2 * p + 2 := by omega
            rcases this with rfl | rfl
            · rw [hx] at hz; cases hz; exact hxy
            · rw [hy] at hz; cases hz
              rcases hle.total y y with h' | h' <;> exact h'))
        rw [swap_length] at this
        exact this
      · simp only [hxy, if_false, Bool.false_eq_true]
        have hyx : le y x = true := by
          rcases hle.total x y with h' | h'
          · exact absurd h' hxy
          · exact h'
        have := ih (swap l p (2 * p + 1)) (2 * p + 1) (by rw [swap_length]; omega)
          (by rw [swap_length]; omega)
          (swap_down h (by omega) (by omega) he hx (by
            intro i z hi hpi hz
            have : i = 2 * p + 1 ∨ i = 2 * p + 2 := by omega
            rcases this with rfl | rfl
            · rw [hx] at hz; cases hz
              rcases hle.total x x with h' | h' <;> exact h'
            · rw [hy] at hz; cases hz; exact hyx))
        rw [swap_length] at this
        exact this
    · rename_i x hx hy
      have hlx : 2 * p + 1 < l.length := by
        rw [List.getElem?_eq_some_iff] at hx; exact hx.1
      have hly : l.length ≤ 2 * p + 2 := by
        rw [List.getElem?_eq_none_iff] at hy; exact hy
      have hd := swap_down h (c := 2 * p + 1) (by omega) (by omega) he hx (by
            intro i z hi hpi hz
            have hil : i < l.length := by
              rw [List.getElem?_eq_some_iff] at hz; exact hz.1
            have : i = 2 * p + 1 := by omega
            subst this
            rw [hx] at hz; cases hz
            rcases hle.total x x with h' | h' <;> exact h')
      refine ⟨⟨?_, ?_⟩, hlx⟩
      · intro i a b hi hne ha hb
        have hil : i < l.length := by
          have h1 := (List.getElem?_eq_some_iff.1 ha).1
          simpa [swap_length] using h1
        exact hd.1 i a b hi hne (by omega) ha hb
      · exact hd.2
    · rename_i hx
      have hlx : l.length ≤ 2 * p + 1 := by
        rw [List.getElem?_eq_none_iff] at hx; exact hx
      refine ⟨⟨?_, h.2⟩, hp⟩
      intro i a b hi hne ha hb
      have hil : i < l.length := by
        rw [List.getElem?_eq_some_iff] at ha; exact ha.1
      exact h.1 i a b hi hne (by omega) ha hb

theorem siftDownToBottom_ordered {le : α → α → Bool} (hle : TotalPre le) (l : List α)
    (h : OrderedExceptDown le l 0) : Ordered le (siftDownToBottom le l) := by
  unfold siftDownToBottom
  by_cases hl : 0 < l.length
  · have := descend_ordered hle l.length l 0 (by omega) hl h
    exact siftUp_ordered hle _ _ _ (by omega) this.1
  · have : l = [] := by
      cases l with
      | nil => rfl
      | cons a t => simp at hl
    subst this
    simp [descend, siftUp, Ordered]

/-- Pushing keeps the heap order. -/
theorem push_heap {le : α → α → Bool} (hle : TotalPre le) (l : List α) (x : α)
    (h : Ordered le l) : Ordered le (push le l x) := by
  unfold push
  apply siftUp_ordered hle
  · omega
  · constructor
    · intro i a b hi hne ha hb
      have hil : i < (l ++ [x]).length := by
        rw [List.getElem?_eq_some_iff] at ha; exact ha.1
      simp at hil
      rw [List.getElem?_append_left (by omega)] at ha hb
      exact h i a b hi ha hb
    · intro i a b hi _ hpi ha _
      have hil : i < (l ++ [x]).length := by
        rw [List.getElem?_eq_some_iff] at ha; exact ha.1
      simp at hil
      omega

/-- Popping keeps the heap order. -/
theorem pop_heap {le : α → α → Bool} (hle : TotalPre le) {l l' : List α} {x : α}
    (h : Ordered le l) (hp : pop le l = some (x, l')) : Ordered le l' := by
  match l, hp with
  | [y], hp => simp [pop] at hp; obtain ⟨rfl, rfl⟩ := hp; simp [Ordered]
  | y :: z :: rest, hp =>
    simp only [pop, Option.some.injEq, Prod.mk.injEq] at hp
    obtain ⟨rfl, rfl⟩ := hp
    apply siftDownToBottom_ordered hle
    constructor
    · intro i a b hi hne hpne ha hb
      -- positions i and its parent are both nonzero, so they are old positions
      have key : ∀ k v, 0 < k →
          ((z :: rest).getLast (by simp) :: (z :: rest).dropLast)[k]? = some v →
          (y :: z :: rest)[k]? = some v := by
        intro k v hk hv
        obtain ⟨k, rfl⟩ : ∃ k', k = k' + 1 := ⟨k - 1, by omega⟩
        simp only [List.getElem?_cons_succ] at hv ⊢
        rw [List.dropLast_eq_take, List.getElem?_take] at hv
        split at hv
        · exact hv
        · simp at hv
      exact h i a b hi (key i a hi ha) (key _ b (by omega) hb)
    · intro i a b _ h0; omega

/-- In an ordered heap the first element is maximal. -/
theorem ordered_root_max {le : α → α → Bool} (hle : TotalPre le) {l : List α} {r : α}
    (h : Ordered le l) (hr : l[0]? = some r) : ∀ (i : Nat) (x : α), l[i]? = some x → le x r = true := by
  intro i
  induction i using Nat.strongRecOn with
  | ind i ih =>
    intro x hx
    by_cases hi : i = 0
    · subst hi; rw [hr] at hx; cases hx
      rcases hle.total r r with h' | h' <;> exact h'
    · have hil : i < l.length := by
        rw [List.getElem?_eq_some_iff] at hx; exact hx.1
      have hpl : (i - 1) / 2 < l.length := by omega
      have hy := List.getElem?_eq_getElem hpl
      have h1 := h i x _ (by omega) hx hy
      exact hle.trans _ _ _ h1 (ih _ (by omega) _ hy)

theorem peek_max {le : α → α → Bool} (hle : TotalPre le) {l : List α} {r : α}
    (h : Ordered le l) (hr : peek l = some r) : r ∈ l ∧ ∀ x ∈ l, le x r = true := by
  have hr0 : l[0]? = some r := by
    rw [← List.head?_eq_getElem?]; exact hr
  refine ⟨List.mem_of_getElem? hr0, ?_⟩
  intro x hx
  obtain ⟨i, hi⟩ := List.mem_iff_getElem?.1 hx
  exact ordered_root_max hle h hr0 i x hi

theorem pop_max {le : α → α → Bool} (hle : TotalPre le) {l l' : List α} {x : α}
    (h : Ordered le l) (hp : pop le l = some (x, l')) : x ∈ l ∧ ∀ y ∈ l, le y x = true := by
  have : peek l = some x := by rw [← pop_peek (le := le), hp]; rfl
  exact peek_max hle h this

theorem ordered_nil (le : α → α → Bool) : Ordered le ([] : List α) := by
  intro i x y _ hx; simp at hx

/-- A heap of priorities, a push into it and a pop from it. Meets the hypotheses of `push_perm`, `push_heap`, `pop_perm`, `pop_peek`, `pop_heap`,
`pop_max`. -/
example : TotalPre (fun a b : Nat => decide (a ≤ b)) ∧ Ordered (fun a b : Nat => decide (a ≤ b)) [9, 5, 7, 1] ∧
    push (fun a b : Nat => decide (a ≤ b)) [9, 5, 7, 1] 8 = [9, 8, 7, 1, 5] ∧
    pop (fun a b : Nat => decide (a ≤ b)) [9, 8, 7, 1, 5] = some (9, [8, 5, 7, 1]) := by
  refine ⟨⟨fun a b => by simp; omega, fun a b c => by simp; omega⟩, fun i x y h h1 h2 => ?_, by decide, by decide⟩
  match i with
  | 1 | 2 | 3 => simp at h1 h2; subst h1; subst h2; decide
  | i + 4 => simp at h1

end Xtra.Heap
