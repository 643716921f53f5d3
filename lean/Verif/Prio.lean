/-!
# Message priorities

Models `xtra/src/chan/priority.rs`.
-/

namespace Xtra

/-- `enum Priority { Valued(u32), Shutdown }`, xtra/src/chan/priority.rs:3-7.
The `u32` is a `Nat`: no arithmetic is ever done on it, so wrap-around cannot occur; every theorem
therefore covers all `u32` values. -/
inductive Prio where
  | valued (n : Nat)
  | shutdown
  deriving DecidableEq, Repr

namespace Prio

/-- Derived `Ord` on `Priority` (xtra/src/chan/priority.rs:3): variants compare by declaration order,
then by payload. `ble a b` is Rust's `a <= b`. -/
def ble : Prio → Prio → Bool
  | .valued a, .valued b => decide (a ≤ b)
  | .valued _, .shutdown => true
  | .shutdown, .valued _ => false
  | .shutdown, .shutdown => true

/-- Rust's `a < b` for the derived order. -/
def blt (a b : Prio) : Bool := ble a b && !(ble b a)

theorem ble_refl (a : Prio) : ble a a = true := by
  cases a <;> simp [ble]

theorem ble_total (a b : Prio) : ble a b = true ∨ ble b a = true := by
  cases a <;> cases b <;> simp [ble]; omega

theorem ble_trans {a b c : Prio} (h1 : ble a b = true) (h2 : ble b c = true) : ble a c = true := by
  cases a <;> cases b <;> cases c <;> simp_all [ble]; omega

theorem ble_antisymm {a b : Prio} (h1 : ble a b = true) (h2 : ble b a = true) : a = b := by
  cases a <;> cases b <;> simp_all [ble]; omega

theorem not_ble {a b : Prio} (h : ble a b = false) : ble b a = true := by
  rcases ble_total a b with h' | h'
  · simp [h] at h'
  · exact h'

theorem blt_iff {a b : Prio} : blt a b = true ↔ ble a b = true ∧ ble b a = false := by
  simp [blt]

theorem ble_shutdown (a : Prio) : ble a .shutdown = true := by cases a <;> rfl

/-- `impl Ord for Option<Priority>` as used by `shared_priority.cmp(&broadcast_priority)`
(xtra/src/chan.rs:177): `None` is less than every `Some`. -/
def cmpOpt : Option Prio → Option Prio → Ordering
  | none, none => .eq
  | none, some _ => .lt
  | some _, none => .gt
  | some a, some b => if blt a b then .lt else if blt b a then .gt else .eq

end Prio
end Xtra
