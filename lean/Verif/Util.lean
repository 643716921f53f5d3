/-! Finite sums over lists, used to state counting invariants. -/

namespace Xtra

/-- Sum of `f` over a list. -/
def sumBy {α : Type _} (f : α → Nat) : List α → Nat
  | [] => 0
  | x :: xs => f x + sumBy f xs

section
variable {α : Type _} (f : α → Nat)

@[simp] theorem sumBy_nil : sumBy f [] = 0 := rfl
@[simp] theorem sumBy_cons (x : α) (xs : List α) : sumBy f (x :: xs) = f x + sumBy f xs := rfl

@[simp] theorem sumBy_append (xs ys : List α) : sumBy f (xs ++ ys) = sumBy f xs + sumBy f ys := by
  induction xs with
  | nil => simp
  | cons x xs ih => simp [ih]; omega

theorem sumBy_set {xs : List α} {i : Nat} {x : α} (y : α) (h : xs[i]? = some x) :
    sumBy f (xs.set i y) + f x = sumBy f xs + f y := by
  induction xs generalizing i with
  | nil => simp at h
  | cons z xs ih =>
    cases i with
    | zero => simp at h; subst h; simp; omega
    | succ i => simp at h; have := ih h; simp; omega

theorem sumBy_perm {xs ys : List α} (h : xs.Perm ys) : sumBy f xs = sumBy f ys := by
  induction h with
  | nil => rfl
  | cons _ _ ih => simp [ih]
  | swap => simp; omega
  | trans _ _ ih1 ih2 => exact ih1.trans ih2

theorem le_sumBy {xs : List α} {i : Nat} {x : α} (h : xs[i]? = some x) : f x ≤ sumBy f xs := by
  induction xs generalizing i with
  | nil => simp at h
  | cons z xs ih =>
    cases i with
    | zero => simp at h; subst h; simp
    | succ i => simp at h; have := ih h; simp; omega

theorem sumBy_eq_zero {xs : List α} : sumBy f xs = 0 ↔ ∀ x ∈ xs, f x = 0 := by
  induction xs with
  | nil => simp
  | cons x xs ih => simp [ih]

theorem sumBy_pos {xs : List α} : 0 < sumBy f xs ↔ ∃ x ∈ xs, 0 < f x := by
  induction xs with
  | nil => simp
  | cons x xs ih =>
    simp only [sumBy_cons, List.mem_cons, exists_eq_or_imp]
    rw [← ih]; omega

theorem sumBy_congr {g : α → Nat} {xs : List α} (h : ∀ x ∈ xs, f x = g x) :
    sumBy f xs = sumBy g xs := by
  induction xs with
  | nil => rfl
  | cons x xs ih =>
    simp only [sumBy_cons]
    rw [h x (by simp), ih (fun y hy => h y (by simp [hy]))]

theorem sumBy_add (g : α → Nat) (xs : List α) :
    sumBy (fun x => f x + g x) xs = sumBy f xs + sumBy g xs := by
  induction xs with
  | nil => rfl
  | cons x xs ih => simp [ih]; omega

theorem sumBy_map {β : Type _} (g : β → α) (xs : List β) :
    sumBy f (xs.map g) = sumBy (fun x => f (g x)) xs := by
  induction xs with
  | nil => rfl
  | cons x xs ih => simp [ih]

end

@[simp] theorem sumBy_zero {α : Type _} (xs : List α) : sumBy (fun _ => 0) xs = 0 := by
  induction xs with
  | nil => rfl
  | cons x xs ih => simp [ih]

/-- Sum over the pending steps of all threads. -/
def tot {α : Type _} (g : α → Nat) (th : List (List α)) : Nat := sumBy (sumBy g) th

theorem tot_exec {α : Type _} (g : α → Nat) {th : List (List α)} {t : Nat} {m : α} {rest : List α}
    (ms : List α) (h : th[t]? = some (m :: rest)) :
    tot g (th.set t (ms ++ rest)) + g m = tot g th + sumBy g ms := by
  have := sumBy_set (sumBy g) (ms ++ rest) h
  simp only [tot, sumBy_append, sumBy_cons] at *
  omega

@[simp] theorem tot_append {α : Type _} (g : α → Nat) (th : List (List α)) (ms : List α) :
    tot g (th ++ [ms]) = tot g th + sumBy g ms := by simp [tot]

@[simp] theorem tot_nil {α : Type _} (g : α → Nat) : tot g ([] : List (List α)) = 0 := rfl

theorem tot_head {α : Type _} (g : α → Nat) {th : List (List α)} {t : Nat} {m : α} {rest : List α}
    (h : th[t]? = some (m :: rest)) : g m ≤ tot g th := by
  have := le_sumBy (sumBy g) h
  simp only [tot, sumBy_cons] at *
  omega

end Xtra
