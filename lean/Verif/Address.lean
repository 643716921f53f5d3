import Verif.Model
/-!
# Addresses of many channels: identity, comparison, hashing, conversion (C27, C35)

`Model.lean` has one channel and the address kinds `Rc`. Here there are arbitrarily many channels and handles to them
(`Address`es and `MessageChannel`s), and the operations are the ones of `xtra/src/address.rs`, `xtra/src/message_channel.rs`
and `xtra/src/chan/ptr.rs` that create, convert, compare and hash handles. Not modelled here: what a channel does when its
last strong handle goes (that is `Model.lean`).
-/

namespace Xtra

/-- The type parameter `Rc` of an `Address` / `MessageChannel`: `Strong`, `Weak`, `Either` (xtra/src/chan/ptr.rs:120-171). -/
inductive RcTy where
  | strong
  | weak
  | either
  deriving DecidableEq, Repr

/-- The type of a reference counter (xtra/src/chan/ptr.rs:124, 162, 166-171). -/
def Rc.ty : Rc → RcTy
  | .strong => .strong
  | .weak => .weak
  | .eitherStrong => .either
  | .eitherWeak => .either

/-- `Address<A, Rc>(Ptr { inner, ref_counter })` (xtra/src/address.rs:65, xtra/src/chan/ptr.rs:14-20); `ptr` is the address of
the channel behind the `Arc`. -/
structure Addr where
  ptr : Nat
  rc : Rc
  deriving DecidableEq, Repr

/-- `Ordering::then`-style match used in `partial_cmp`. -/
def natCmp (a b : Nat) : Ordering := compare a b

/-- `Ord for bool`: `false < true`. -/
def boolCmp : Bool → Bool → Ordering
  | false, true => .lt
  | true, false => .gt
  | _, _ => .eq

namespace Addr

/-- `Ptr::is_strong` (xtra/src/chan/ptr.rs:45-47). -/
def isStrong (a : Addr) : Bool := a.rc.isStrong

/-- `Address::same_actor` (xtra/src/address.rs:217-219), `MessageChannel::same_actor` (xtra/src/message_channel.rs:132-137). -/
def sameActor (a b : Addr) : Bool := a.ptr == b.ptr

/-- `PartialEq for Address` (xtra/src/address.rs:282-286), any two reference-count types; `PartialEq for MessageChannel`
(xtra/src/message_channel.rs:206-208). -/
def eq (a b : Addr) : Bool := a.sameActor b && (a.isStrong == b.isStrong)

/-- `PartialOrd for Address` (xtra/src/address.rs:294-301). -/
def partialCmp (a b : Addr) : Option Ordering :=
  some (match natCmp a.ptr b.ptr with
    | .eq => boolCmp a.isStrong b.isStrong
    | o => o)

/-- `Ord for Address` (xtra/src/address.rs:303-307); in Rust only between addresses of the same reference-count type. -/
def cmp (a b : Addr) : Ordering := natCmp a.ptr b.ptr

/-- One call on a `Hasher`. -/
inductive HashWrite where
  | usize (n : Nat)
  | u8 (n : Nat)
  deriving DecidableEq, Repr

/-- `Hash for Address` (xtra/src/address.rs:309-315) and for `MessageChannel` (xtra/src/message_channel.rs:384-388): the writes
fed to the hasher. `state.finish()` has no effect on them. -/
def hash (a : Addr) : List HashWrite := [.usize a.ptr, .u8 (if a.isStrong then 1 else 0)]

end Addr

/-! ## Conversions -/

/-- A handle: an `Address`, or a `MessageChannel`, which boxes an `Address` (xtra/src/message_channel.rs:69-71). -/
structure Handle where
  boxed : Bool
  addr : Addr
  deriving DecidableEq, Repr

/-- `Chan::sender_count` of every channel. -/
abbrev Counts := Nat → Nat

/-- `Chan::on_sender_created` (xtra/src/chan.rs:76-79). -/
def Counts.inc (c : Counts) (p : Nat) : Counts := fun q => if q = p then c q + 1 else c q

/-- `Chan::on_sender_dropped` (xtra/src/chan.rs:82-91), the counter only. -/
def Counts.dec (c : Counts) (p : Nat) : Counts := fun q => if q = p then c q - 1 else c q

/-- `RefCounter::make_new` (xtra/src/chan/ptr.rs:238-242, 254-256, 266-271). -/
def makeNew (c : Counts) (a : Addr) : Counts := if a.isStrong then c.inc a.ptr else c

/-- `RefCounter::destroy` (xtra/src/chan/ptr.rs:244-246, 258, 273-278). -/
def destroy (c : Counts) (a : Addr) : Counts := if a.isStrong then c.dec a.ptr else c

/-- A conversion of a handle. -/
inductive Conv where
  | clone
  | asEither
  | downgrade
  | upgrade
  | intoChannel
  deriving DecidableEq, Repr

/-- Apply a conversion; `none`: the method does not exist on this type, or `try_upgrade` returned `None`.
* `clone` (xtra/src/address.rs:271-275, xtra/src/message_channel.rs:222-231, 339-343)
* `as_either` (xtra/src/address.rs:115-123, xtra/src/message_channel.rs:266-270, 375-382, xtra/src/chan/ptr.rs:80-85)
* `downgrade`, on `Strong` and `Either` only (xtra/src/address.rs:97-112, xtra/src/message_channel.rs:239-256, 357-361,
  xtra/src/chan/ptr.rs:49-54)
* `try_upgrade`, on `WeakAddress` only (xtra/src/address.rs:87-94, xtra/src/chan/ptr.rs:56-61, 130-156)
* `MessageChannel::new`: consumes the address (xtra/src/message_channel.rs:81-89, 169-171)
-/
def convert (c : Counts) (h : Handle) : Conv → Option (Counts × Handle)
  | .clone => some (makeNew c h.addr, h)
  | .asEither => some (makeNew c h.addr, { h with addr := { h.addr with rc := h.addr.rc.toEither } })
  | .downgrade =>
    match h.addr.rc.ty with
    | .weak => none
    | _ => some (c, { h with addr := { h.addr with rc := .weak } })
  | .upgrade =>
    if h.boxed then none
    else
      match h.addr.rc with
      | .weak => if c h.addr.ptr = 0 then none else some (c.inc h.addr.ptr, { h with addr := { h.addr with rc := .strong } })
      | _ => none
  | .intoChannel => if h.boxed then none else some (c, { h with boxed := true })

/-- Handles held by a program. `none`: dropped or moved out of. -/
structure Hs where
  counts : Counts
  hs : List (Option Handle)
  next : Nat

/-- An operation of a program on its handles. -/
inductive HOp where
  /-- `Mailbox::bounded` / `unbounded` (xtra/src/mailbox.rs:18-43, xtra/src/chan/ptr.rs:23-30): a strong address of a fresh channel -/
  | newChan
  | conv (i : Nat) (c : Conv)
  | drop (i : Nat)
  deriving DecidableEq, Repr

/-- Execute an operation. -/
def Hs.op (s : Hs) : HOp → Option Hs
  | .newChan => some ⟨s.counts.inc s.next, s.hs ++ [some ⟨false, ⟨s.next, .strong⟩⟩], s.next + 1⟩
  | .conv i k =>
    match s.hs[i]? with
    | some (some h) =>
      match convert s.counts h k with
      | some (c, h') =>
        some ⟨c, (if k = .intoChannel then s.hs.set i none else s.hs) ++ [some h'], s.next⟩
      | none => none
    | _ => none
  | .drop i =>
    match s.hs[i]? with
    | some (some h) => some ⟨destroy s.counts h.addr, s.hs.set i none, s.next⟩
    | _ => none

/-- No handle yet. -/
def Hs.empty : Hs := ⟨fun _ => 0, [], 0⟩

/-- Reached by some program. -/
inductive Hs.Reach : Hs → Prop where
  | empty : Hs.Reach Hs.empty
  | op {s s' : Hs} {o : HOp} : Hs.Reach s → s.op o = some s' → Hs.Reach s'

/-! ## C27 -/

theorem boolCmp_eq (a b : Bool) : boolCmp a b = .eq ↔ a = b := by cases a <;> cases b <;> simp [boolCmp]

/-- **C27.** `==` holds exactly between handles of the same channel and the same strength, whatever their types. -/
theorem C27_eq_iff (a b : Addr) : a.eq b = true ↔ a.ptr = b.ptr ∧ a.rc.isStrong = b.rc.isStrong := by
  simp [Addr.eq, Addr.sameActor, Addr.isStrong]

/-- **C27.** `==` is an equivalence. -/
theorem C27_equivalence : (∀ a : Addr, a.eq a = true) ∧ (∀ a b : Addr, a.eq b = b.eq a) ∧
    ∀ a b c : Addr, a.eq b = true → b.eq c = true → a.eq c = true := by
  refine ⟨fun a => by simp [C27_eq_iff], fun a b => ?_, fun a b c => ?_⟩
  · rw [Bool.eq_iff_iff, C27_eq_iff, C27_eq_iff]; grind
  · simp only [C27_eq_iff]; grind

/-- **C27.** Equal handles feed the same data to every hasher; and unequal ones feed different data. -/
theorem C27_hash (a b : Addr) : a.hash = b.hash ↔ a.eq b = true := by
  rw [C27_eq_iff]
  simp only [Addr.hash, Addr.isStrong]
  by_cases h1 : a.rc.isStrong = true <;> by_cases h2 : b.rc.isStrong = true <;> simp [h1, h2]

/-- `a < b` by `partial_cmp`. -/
def Addr.Lt (a b : Addr) : Prop := a.partialCmp b = some .lt

theorem lt_iff (a b : Addr) : a.Lt b ↔ a.ptr < b.ptr ∨ (a.ptr = b.ptr ∧ a.rc.isStrong = false ∧ b.rc.isStrong = true) := by
  unfold Addr.Lt Addr.partialCmp natCmp
  simp only [Addr.isStrong]
  rcases Nat.lt_trichotomy a.ptr b.ptr with h | h | h
  · have : compare a.ptr b.ptr = .lt := Nat.compare_eq_lt.mpr h
    simp [this, h]
  · have : compare a.ptr b.ptr = .eq := Nat.compare_eq_eq.mpr h
    simp only [this]
    cases a.rc.isStrong <;> cases b.rc.isStrong <;> simp [boolCmp, h]
  · have : compare a.ptr b.ptr = .gt := Nat.compare_eq_gt.mpr h
    simp [this]; omega

/-- **C27.** `partial_cmp` is a total order up to `==`, on all handle types: it answers `Equal` exactly when `==`, `Greater`
exactly when the converse is `Less`, one of the three always, `<` is irreflexive and transitive, and of two different handles of
one channel the strong one is the greater. -/
theorem C27_partial_cmp :
    (∀ a b : Addr, a.partialCmp b = some .eq ↔ a.eq b = true) ∧
    (∀ a b : Addr, a.partialCmp b = some .gt ↔ b.Lt a) ∧
    (∀ a b : Addr, a.Lt b ∨ a.eq b = true ∨ b.Lt a) ∧
    (∀ a : Addr, ¬ a.Lt a) ∧
    (∀ a b c : Addr, a.Lt b → b.Lt c → a.Lt c) ∧
    (∀ a b : Addr, a.ptr = b.ptr → a.rc.isStrong = true → b.rc.isStrong = false → b.Lt a) := by
  refine ⟨fun a b => ?_, fun a b => ?_, fun a b => ?_, fun a => ?_, fun a b c => ?_, fun a b h1 h2 h3 => ?_⟩
  · rw [C27_eq_iff]
    unfold Addr.partialCmp natCmp
    simp only [Addr.isStrong]
    rcases Nat.lt_trichotomy a.ptr b.ptr with h | h | h
    · have : compare a.ptr b.ptr = .lt := Nat.compare_eq_lt.mpr h
      simp [this]; omega
    · have : compare a.ptr b.ptr = .eq := Nat.compare_eq_eq.mpr h
      simp [this, boolCmp_eq, h]
    · have : compare a.ptr b.ptr = .gt := Nat.compare_eq_gt.mpr h
      simp [this]; omega
  · rw [lt_iff]
    unfold Addr.partialCmp natCmp
    simp only [Addr.isStrong]
    rcases Nat.lt_trichotomy a.ptr b.ptr with h | h | h
    · have : compare a.ptr b.ptr = .lt := Nat.compare_eq_lt.mpr h
      simp [this]; omega
    · have : compare a.ptr b.ptr = .eq := Nat.compare_eq_eq.mpr h
      simp only [this]
      cases a.rc.isStrong <;> cases b.rc.isStrong <;> simp [boolCmp, h]
    · have : compare a.ptr b.ptr = .gt := Nat.compare_eq_gt.mpr h
      simp [this]; omega
  · rw [lt_iff, lt_iff, C27_eq_iff]
    cases a.rc.isStrong <;> cases b.rc.isStrong <;> simp <;> omega
  · rw [lt_iff]; simp
  · rw [lt_iff, lt_iff, lt_iff]; grind
  · rw [lt_iff]; simp [h1, h2, h3]

/-- **C27 (partial).** On `Address<A, Strong>` and on `Address<A, Weak>`, `Ord` agrees with `partial_cmp` and `==`. Missing:
`Address<A, Either>`, see `C27_ord_refuted`. -/
theorem C27_ord_partial {a b : Addr} (hty : a.rc.ty = b.rc.ty) (hne : a.rc.ty ≠ .either) :
    a.partialCmp b = some (a.cmp b) ∧ (a.cmp b = .eq ↔ a.eq b = true) := by
  have hs : a.rc.isStrong = b.rc.isStrong := by
    revert hty hne; cases a.rc <;> cases b.rc <;> simp [Rc.ty, Rc.isStrong]
  have h1 : a.partialCmp b = some (a.cmp b) := by
    simp only [Addr.partialCmp, Addr.cmp, Addr.isStrong, hs]
    cases h : natCmp a.ptr b.ptr <;> simp [(boolCmp_eq _ _).mpr]
  exact ⟨h1, by rw [← C27_partial_cmp.1, h1]; simp⟩

/-- Two strong addresses of different channels. Meets the hypotheses of `C27_equivalence`, `C27_partial_cmp`, `C27_ord_preorder_partial`. -/
example : (⟨0, .strong⟩ : Addr).rc.ty = (⟨1, .strong⟩ : Addr).rc.ty ∧ (⟨0, .strong⟩ : Addr).cmp ⟨1, .strong⟩ = .lt := ⟨rfl, rfl⟩

/-- **C27 (partial).** `Ord` is a total preorder on every type and identifies exactly the handles of one channel. -/
theorem C27_ord_preorder_partial :
    (∀ a b : Addr, a.cmp b = .eq ↔ a.sameActor b = true) ∧ (∀ a b : Addr, a.cmp b = (b.cmp a).swap) ∧
    (∀ a b c : Addr, a.cmp b = .lt → b.cmp c = .lt → a.cmp c = .lt) := by
  refine ⟨fun a b => ?_, fun a b => ?_, fun a b c h1 h2 => ?_⟩
  · simp [Addr.cmp, natCmp, Addr.sameActor, Nat.compare_eq_eq]
  · simp [Addr.cmp, natCmp, Nat.compare_swap]
  · simp only [Addr.cmp, natCmp, Nat.compare_eq_lt] at *; omega

/-- **C27 is false of the code** for `Ord` on `Address<A, Either>`: a program with one strong address `a` obtains
`x = a.as_either()` and `y = a.downgrade().as_either()`; these have the same type, `x != y` and `x > y`, but `x.cmp(&y)` is
`Equal`. -/
theorem C27_ord_refuted : ∃ s x y, Hs.Reach s ∧ some (some x) = s.hs[1]? ∧ some (some y) = s.hs[3]? ∧ x.addr.rc.ty = .either ∧
    y.addr.rc.ty = .either ∧ x.addr.eq y.addr = false ∧ y.addr.Lt x.addr ∧ x.addr.cmp y.addr = .eq :=
  ⟨_, _, _, .op (o := .conv 2 .asEither) (.op (o := .conv 0 .downgrade) (.op (o := .conv 0 .asEither)
    (.op (o := .newChan) .empty rfl) rfl) rfl) rfl, rfl, rfl, rfl, rfl, rfl, rfl, rfl⟩

/-! ## C35 -/

/-- The strength a chain of conversions ends with: `clone`, `as_either` and boxing keep it. -/
def strengthAfter (b : Bool) : List Conv → Bool
  | [] => b
  | .downgrade :: cs => strengthAfter false cs
  | .upgrade :: cs => strengthAfter true cs
  | _ :: cs => strengthAfter b cs

/-- Follow a chain of conversions. -/
def convertAll (c : Counts) (h : Handle) : List Conv → Option (Counts × Handle)
  | [] => some (c, h)
  | k :: ks =>
    match convert c h k with
    | some (c', h') => convertAll c' h' ks
    | none => none

theorem toEither_strong (r : Rc) : r.toEither.isStrong = r.isStrong := by cases r <;> rfl

theorem makeNew_apply (c : Counts) (a : Addr) (p : Nat) :
    makeNew c a p = if p = a.ptr ∧ a.rc.isStrong = true then c p + 1 else c p := by
  by_cases h : a.rc.isStrong = true <;> simp [makeNew, Addr.isStrong, h, Counts.inc]

theorem destroy_apply (c : Counts) (a : Addr) (p : Nat) :
    destroy c a p = if p = a.ptr ∧ a.rc.isStrong = true then c p - 1 else c p := by
  by_cases h : a.rc.isStrong = true <;> simp [destroy, Addr.isStrong, h, Counts.dec]

theorem convert_spec {c c' : Counts} {h h' : Handle} {k : Conv} (hc : convert c h k = some (c', h')) :
    h'.addr.ptr = h.addr.ptr ∧ h'.addr.rc.isStrong = strengthAfter h.addr.rc.isStrong [k] ∧
    (∀ p, p ≠ h.addr.ptr → c' p = c p) ∧
    c' h.addr.ptr = (if k ≠ .intoChannel ∧ h'.addr.rc.isStrong then c h.addr.ptr + 1 else c h.addr.ptr) := by
  cases k <;> simp only [convert] at hc
  case clone => simp at hc; obtain ⟨rfl, rfl⟩ := hc; simp [strengthAfter, makeNew_apply]; grind
  case asEither =>
    simp at hc; obtain ⟨rfl, rfl⟩ := hc
    simp [strengthAfter, makeNew_apply, toEither_strong]; grind
  case downgrade =>
    split at hc <;> simp at hc
    obtain ⟨rfl, rfl⟩ := hc; simp [strengthAfter, Rc.isStrong]
  case upgrade =>
    split at hc
    · simp at hc
    · split at hc
      · split at hc
        · simp at hc
        · simp at hc; obtain ⟨rfl, rfl⟩ := hc; simp [strengthAfter, Rc.isStrong, Counts.inc]
      · simp at hc
  case intoChannel =>
    split at hc <;> simp at hc
    obtain ⟨rfl, rfl⟩ := hc; simp [strengthAfter]

/-- **C35.** Whatever chain of conversions is applied to a handle: the result is a handle of the same actor, of the strength the
last downgrade or upgrade gave it (the original one if there was none), and other channels are not affected. -/
theorem C35_chain {c c' : Counts} {h h' : Handle} {ks : List Conv} (hc : convertAll c h ks = some (c', h')) :
    h'.addr.sameActor h.addr = true ∧ h'.addr.isStrong = strengthAfter h.addr.isStrong ks ∧
    ∀ p, p ≠ h.addr.ptr → c' p = c p := by
  suffices h'.addr.ptr = h.addr.ptr ∧ h'.addr.isStrong = strengthAfter h.addr.isStrong ks ∧ ∀ p, p ≠ h.addr.ptr → c' p = c p by
    simpa [Addr.sameActor] using this
  induction ks generalizing c h with
  | nil => simp [convertAll] at hc; obtain ⟨rfl, rfl⟩ := hc; simp [strengthAfter]
  | cons k ks ih =>
    simp only [convertAll] at hc
    split at hc
    · rename_i c1 h1 h2
      obtain ⟨e1, e2, e3, -⟩ := convert_spec h2
      obtain ⟨i1, i2, i3⟩ := ih hc
      refine ⟨i1.trans e1, ?_, fun p hp => by rw [i3 p (by rw [e1]; exact hp), e3 p hp]⟩
      rw [i2]
      simp only [Addr.isStrong] at *
      rw [e2]
      cases k <;> rfl
    · simp at hc

/-- The chain downgrade, upgrade, as_either, into channel, clone on a strong address. Meets the hypotheses of `C35_succeeds`. -/
example : ∃ c' h', convertAll (fun _ => 1) ⟨false, ⟨7, .strong⟩⟩ [.downgrade, .upgrade, .asEither, .intoChannel, .clone] = some (c', h') ∧
    h' = ⟨true, ⟨7, .eitherStrong⟩⟩ ∧ c' 7 = 4 := ⟨_, _, rfl, rfl, rfl⟩

/-- **C35.** `clone`, `as_either` and `downgrade` (where it exists) never fail; `try_upgrade` of a weak address succeeds exactly
if the channel still has a strong reference. -/
theorem C35_succeeds (c : Counts) (h : Handle) :
    (convert c h .clone).isSome ∧ (convert c h .asEither).isSome ∧ (h.addr.rc.ty ≠ .weak → (convert c h .downgrade).isSome) ∧
    (h.boxed = false → h.addr.rc = .weak → ((convert c h .upgrade).isSome ↔ c h.addr.ptr ≠ 0)) := by
  refine ⟨rfl, rfl, fun h1 => ?_, fun h1 h2 => ?_⟩
  · simp [convert]
  · simp [convert, h1, h2]

/-- Live strong handles of channel `p`. -/
def Hs.strongOf (s : Hs) (p : Nat) : Nat :=
  s.hs.countP (fun o => match o with
    | some h => h.addr.ptr == p && h.addr.isStrong
    | none => false)

def hw (p : Nat) (o : Option Handle) : Nat :=
  match o with
  | some h => if h.addr.ptr = p ∧ h.addr.isStrong = true then 1 else 0
  | none => 0

theorem strongOf_eq (s : Hs) (p : Nat) : s.strongOf p = sumBy (hw p) s.hs := by
  unfold Hs.strongOf
  induction s.hs with
  | nil => rfl
  | cons o l ih => rw [List.countP_cons, ih, sumBy_cons]; cases o <;> simp [hw]; grind

/-- **C35.** In every program, with any number of channels and handles, the reference count of each channel is exactly the number
of its live strong handles (addresses and message channels); in particular a conversion of one handle never disturbs another. -/
theorem C35_counts {s : Hs} (h : Hs.Reach s) (p : Nat) : s.counts p = s.strongOf p := by
  rw [strongOf_eq]
  suffices (∀ p, s.counts p = sumBy (hw p) s.hs) ∧ ∀ (i : Nat) x, s.hs[i]? = some (some x) → x.addr.ptr < s.next from this.1 p
  induction h with
  | empty => simp [Hs.empty]
  | @op s s' o hr hs ih =>
    obtain ⟨ih, ih2⟩ := ih
    cases o with
    | newChan =>
      simp [Hs.op] at hs; subst hs
      refine ⟨fun p => ?_, fun i x hx => ?_⟩
      · simp only [Counts.inc, sumBy_append, sumBy_cons, sumBy_nil, hw, Addr.isStrong, Rc.isStrong, ← ih]
        grind
      · simp only at hx ⊢
        rcases Nat.lt_trichotomy i s.hs.length with hl | hl | hl
        · rw [List.getElem?_append_left hl] at hx
          have := ih2 i x hx; omega
        · subst hl; simp at hx; subst hx; simp
        · rw [List.getElem?_eq_none (by simp; omega)] at hx; simp at hx
    | conv i k =>
      simp only [Hs.op] at hs
      split at hs
      · rename_i h hi
        split at hs
        · rename_i c h' hc
          simp at hs; subst hs
          obtain ⟨e1, e2, e3, e4⟩ := convert_spec hc
          have hset := fun p => sumBy_set (hw p) none hi
          refine ⟨fun p => ?_, fun j x hx => ?_⟩
          · have := hset p
            by_cases hp : p = h.addr.ptr
            · subst hp
              simp only; rw [e4]
              by_cases hk : k = .intoChannel
              · subst hk
                simp only [strengthAfter] at e2
                simp [hw, Addr.isStrong, e1, e2, ← ih] at this ⊢
                omega
              · simp [hk, hw, Addr.isStrong, e1, ← ih]; split <;> simp_all
            · simp only; rw [e3 p hp]
              by_cases hk : k = .intoChannel
              · simp [hk, hw, e1, Ne.symm hp, ← ih] at this ⊢; omega
              · simp [hk, hw, e1, Ne.symm hp, ← ih]
          · simp only at hx ⊢
            have hl2 : (if k = .intoChannel then s.hs.set i none else s.hs).length = s.hs.length := by split <;> simp
            rcases Nat.lt_trichotomy j s.hs.length with hl | hl | hl
            · rw [List.getElem?_append_left (by omega)] at hx
              split at hx
              · by_cases hji : i = j
                · subst hji; simp [hl] at hx
                · rw [List.getElem?_set_ne hji] at hx; exact ih2 j x hx
              · exact ih2 j x hx
            · subst hl
              rw [List.getElem?_append_right (by omega)] at hx
              simp [hl2] at hx; subst hx; rw [e1]; exact ih2 i h hi
            · rw [List.getElem?_eq_none (by simp; omega)] at hx; simp at hx
        · simp at hs
      · simp at hs
    | drop i =>
      simp only [Hs.op] at hs
      split at hs
      · rename_i h hi
        simp at hs; subst hs
        refine ⟨fun p => ?_, fun j x hx => ?_⟩
        · have := sumBy_set (hw p) none hi
          simp only [destroy_apply]
          simp only [hw, ← ih, Addr.isStrong] at this ⊢
          grind
        · simp only at hx ⊢
          by_cases hji : i = j
          · subst hji; have hl := (List.getElem?_eq_some_iff.mp hi).1; simp [hl] at hx
          · rw [List.getElem?_set_ne hji] at hx; exact ih2 j x hx
      · simp at hs

/-- Two channels with converted handles of both. -/
example : ∃ s, Hs.Reach s ∧ s.strongOf 0 = 2 ∧ s.strongOf 1 = 1 ∧ s.hs.length = 5 :=
  ⟨_, .op (o := .conv 1 .intoChannel) (.op (o := .conv 0 .asEither) (.op (o := .conv 0 .downgrade) (.op (o := .newChan)
    (.op (o := .newChan) .empty rfl) rfl) rfl) rfl) rfl, rfl, rfl, rfl⟩

/-! ### `MessageChannel::send` -/

/-- The sending half of a `SendFuture`: `ActorNamedSending(Sending)` (xtra/src/send_future.rs:74) or
`ActorErasedSending(Box<dyn ErasedSending>)` (xtra/src/send_future.rs:82), whose trait methods are the ones of the boxed `Sending`. -/
inductive SendingF where
  | named (s : Sending)
  | erased (s : Sending)
  deriving DecidableEq, Repr

/-- `poll`, `is_terminated` and `set_priority` of both delegate to the inner `Sending` (xtra/src/send_future.rs:252-268, 288-300,
408-415, 426-430), so a poll of either is a poll of the inner one. -/
def SendingF.inner : SendingF → Sending
  | .named s => s
  | .erased s => s

/-- `SendFuture::sending_named` (xtra/src/send_future.rs:92-106). -/
def sendingNamed (mid : Nat) (rc : Rc) : SendingF := .named (.new ⟨mid, .valued 0⟩ rc)

/-- `SendFuture::sending_erased` (xtra/src/send_future.rs:110-126). -/
def sendingErased (mid : Nat) (rc : Rc) : SendingF := .erased (.new ⟨mid, .valued 0⟩ rc)

/-- `send` on a handle: `Address::send` (xtra/src/address.rs:183-192) or `MessageChannel::send` (xtra/src/message_channel.rs:122-124,
335-337); both clone the pointer. -/
def Handle.send (h : Handle) (c : Counts) (mid : Nat) : Counts × SendingF :=
  (makeNew c h.addr, if h.boxed then sendingErased mid h.addr.rc else sendingNamed mid h.addr.rc)

/-- **C35.** A send through a `MessageChannel` starts in exactly the state a send through the address starts in: same channel,
priority and reference count; and that is the state the call `send` of the channel model starts a send in. -/
theorem C35_channel_send (c : Counts) (a : Addr) (mid : Nat) :
    (Handle.send ⟨true, a⟩ c mid).1 = (Handle.send ⟨false, a⟩ c mid).1 ∧
    (Handle.send ⟨true, a⟩ c mid).2.inner = (Handle.send ⟨false, a⟩ c mid).2.inner ∧
    ∀ (w : World) (i : Nat), w.objs[i]? = some (.addr a.rc) → w.resp.length = mid →
      ∃ w', call w (.send i) = some (w', []) ∧
        w'.objs = w.objs ++ [.send .ret mid (Handle.send ⟨true, a⟩ c mid).2.inner] ∧ w'.uq = w.uq ∧
        w'.sc = (Handle.send ⟨true, a⟩ (fun _ => w.sc) mid).1 a.ptr := by
  refine ⟨rfl, rfl, fun w i hi hl => ?_⟩
  subst hl
  simp only [call, hi]
  refine ⟨_, rfl, rfl, rfl, ?_⟩
  simp [Handle.send, makeNew_apply, World.addTx, World.addObj, World.ev]

/-- The hypotheses hold for the first address of the channel model. -/
example : ∃ w : World, w.objs[0]? = some (.addr .strong) ∧ w.resp.length = 0 := ⟨(init none).w, rfl, rfl⟩

/-- The conversion calls of the channel model. -/
def Conv.call (i : Nat) : Conv → Option Call
  | .clone => some (.cloneAddr i)
  | .asEither => some (.asEither i)
  | .downgrade => some (.downgrade i)
  | .upgrade => some (.upgrade i)
  | .intoChannel => none

/-- **C35.** The conversion calls of the channel model (with all its concurrency) do to their channel exactly what `convert`
does: a conversion that succeeds adds one handle, of the converted kind, and adjusts the strong count alike; the original handle and
everything else in the channel is untouched. -/
theorem C35_model_agrees {w : World} {i : Nat} {rc rc' : Rc} {c' : Counts} {k : Conv} {cl : Call} (hi : w.objs[i]? = some (.addr rc))
    (hk : k.call i = some cl) (hc : convert (fun _ => w.sc) ⟨false, ⟨0, rc⟩⟩ k = some (c', ⟨false, ⟨0, rc'⟩⟩)) :
    ∃ w', Xtra.call w cl = some (w', []) ∧ w'.objs = w.objs ++ [.addr rc'] ∧ w'.sc = c' 0 ∧ w'.rcv = w.rcv ∧ w'.uq = w.uq ∧
      w'.bq = w.bq ∧ w'.ws = w.ws ∧ w'.cells = w.cells := by
  cases k <;> simp [Conv.call] at hk <;> subst hk <;> simp only [convert] at hc
  case clone =>
    simp only [Xtra.call, hi]
    simp at hc; obtain ⟨rfl, rfl⟩ := hc
    refine ⟨_, rfl, rfl, ?_, rfl, rfl, rfl, rfl, rfl⟩
    rw [makeNew_apply]; simp [World.addTx, World.addObj]
  case asEither =>
    simp only [Xtra.call, hi]
    simp at hc; obtain ⟨rfl, rfl⟩ := hc
    refine ⟨_, rfl, rfl, ?_, rfl, rfl, rfl, rfl, rfl⟩
    rw [makeNew_apply]; simp [World.addTx, World.addObj]
  case downgrade =>
    simp only [Xtra.call, hi]
    split at hc <;> simp at hc
    obtain ⟨rfl, rfl⟩ := hc
    exact ⟨_, rfl, rfl, rfl, rfl, rfl, rfl, rfl, rfl⟩
  case upgrade =>
    cases rc <;> simp at hc
    obtain ⟨h0, rfl, rfl⟩ := hc
    simp only [Xtra.call, hi, h0, if_false]
    exact ⟨_, rfl, rfl, rfl, rfl, rfl, rfl, rfl, rfl⟩

/-- Upgrading a weak address while a strong one exists. -/
example : ∃ w : World, w.objs[2]? = some (.addr .weak) ∧ ∃ c', convert (fun _ => w.sc) ⟨false, ⟨0, .weak⟩⟩ .upgrade =
    some (c', ⟨false, ⟨0, .strong⟩⟩) ∧ c' 0 = 2 :=
  ⟨((init none).w.addObj (.addr .weak)), rfl, _, rfl, rfl⟩

end Xtra
