/-!
# `#[derive(Actor)]` (C40)

Models `macros/src/lib.rs`. Types, bounds and predicates are opaque token trees (`String`), as they are to the macro. Assumed of
`syn`/`quote`: `Generics::split_for_impl` (generics.rs of syn) gives the parameters with their bounds but without defaults, the
parameter names as arguments, and the where clause; `quote!` prints what it is given.
-/

namespace Xtra.Derive

/-- `syn::GenericParam` with what `split_for_impl` and the macro look at (macros/src/lib.rs:37-41). -/
inductive GenericParam where
  | lifetime (name : String) (bounds : List String)
  | type (name : String) (bounds : List String) (default : Option String)
  | const (name : String) (ty : String) (default : Option String)
  deriving DecidableEq, Repr

/-- `syn::WherePredicate`: subject and bounds. -/
structure WherePredicate where
  subject : String
  bounds : List String
  deriving DecidableEq, Repr

/-- `syn::DeriveInput`: name, parameters, where clause if there is one. -/
structure DeriveInput where
  ident : String
  params : List GenericParam
  whereClause : Option (List WherePredicate)
  deriving DecidableEq, Repr

/-- The generated `impl<implGenerics> xtra::Actor for ident<typeArgs> where whereClause` (macros/src/lib.rs:21-27). -/
structure ImplItem where
  implGenerics : List GenericParam
  traitPath : String
  ident : String
  typeArgs : List String
  whereClause : List WherePredicate
  stopType : String
  deriving DecidableEq, Repr

/-- `filter_map` closure (macros/src/lib.rs:37-41). -/
def typeIdent : GenericParam → Option String
  | .type n _ _ => some n
  | .lifetime _ _ => none
  | .const _ _ _ => none

/-- `send_and_static_bounds` (macros/src/lib.rs:32-48). -/
def sendAndStaticBounds (i : DeriveInput) : List WherePredicate :=
  (i.params.filterMap typeIdent).map (fun n => ⟨n, ["Send", "'static"]⟩)

/-- `ImplGenerics` of syn: parameters without defaults. -/
def GenericParam.stripDefault : GenericParam → GenericParam
  | .lifetime n b => .lifetime n b
  | .type n b _ => .type n b none
  | .const n t _ => .const n t none

/-- `TypeGenerics` of syn: parameter names. -/
def GenericParam.name : GenericParam → String
  | .lifetime n _ => n
  | .type n _ _ => n
  | .const n _ _ => n

/-- `actor_derive` (macros/src/lib.rs:6-29). -/
def actorDerive (i : DeriveInput) : ImplItem :=
  let bounds := sendAndStaticBounds i
  { implGenerics := i.params.map GenericParam.stripDefault
    traitPath := "xtra::Actor"
    ident := i.ident
    typeArgs := i.params.map GenericParam.name
    whereClause := match i.whereClause with
      | none => bounds
      | some existing => existing ++ bounds
    stopType := "()" }

/-! ## What it should mean -/

/-- `p` is a type parameter of the item. -/
def GenericParam.isType : GenericParam → Bool
  | .type _ _ _ => true
  | _ => false

/-- Every predicate of `ps` holds under the judgement `holds subject bound` (e.g. "the type substituted for `subject` implements
`bound`"). -/
def allHold (holds : String → String → Prop) (ps : List WherePredicate) : Prop :=
  ∀ p ∈ ps, ∀ b ∈ p.bounds, holds p.subject b

/-- **C40.** The where clause of the generated impl consists of the existing predicates, in order, followed by exactly one
`T: Send + 'static` for each type parameter `T`, in order, and nothing else. -/
theorem C40_where_clause (i : DeriveInput) :
    (actorDerive i).whereClause = i.whereClause.getD [] ++
      (i.params.filter GenericParam.isType).map (fun p => ⟨p.name, ["Send", "'static"]⟩) := by
  have h : sendAndStaticBounds i = (i.params.filter GenericParam.isType).map (fun p => ⟨p.name, ["Send", "'static"]⟩) := by
    unfold sendAndStaticBounds
    induction i.params with
    | nil => rfl
    | cons p ps ih =>
      cases p
      · rw [List.filterMap_cons_none rfl, List.filter_cons_of_neg (by simp [GenericParam.isType])]; exact ih
      · exact congrArg (_ :: ·) ih
      · rw [List.filterMap_cons_none rfl, List.filter_cons_of_neg (by simp [GenericParam.isType])]; exact ih
  simp only [actorDerive, h]
  cases i.whereClause <;> simp

/-- **C40.** Meaning: the impl applies to an instantiation exactly if the item's own where predicates hold and every type
parameter is `Send` and `'static`; lifetimes and consts get no condition. -/
theorem C40_impl_applies (i : DeriveInput) (holds : String → String → Prop) :
    allHold holds (actorDerive i).whereClause ↔
      allHold holds (i.whereClause.getD []) ∧ ∀ p ∈ i.params, p.isType = true → holds p.name "Send" ∧ holds p.name "'static" := by
  rw [C40_where_clause]
  simp only [allHold, List.mem_append, List.mem_map, List.mem_filter]
  constructor
  · intro h
    refine ⟨fun p hp => h p (.inl hp), fun p hp ht => ?_⟩
    have := h ⟨p.name, ["Send", "'static"]⟩ (.inr ⟨p, ⟨hp, ht⟩, rfl⟩)
    exact ⟨this "Send" (by simp), this "'static" (by simp)⟩
  · rintro ⟨h1, h2⟩ p (hp | ⟨q, ⟨hq, ht⟩, rfl⟩) b hb
    · exact h1 p hp b hb
    · have := h2 q hq ht
      simp at hb
      rcases hb with rfl | rfl
      · exact this.1
      · exact this.2

/-- **C40.** The impl is for the item itself: same name, all parameters in order as arguments and as impl parameters with their
own bounds, and `Stop = ()`. -/
theorem C40_impl_for_item (i : DeriveInput) :
    (actorDerive i).ident = i.ident ∧ (actorDerive i).traitPath = "xtra::Actor" ∧ (actorDerive i).stopType = "()" ∧
    (actorDerive i).typeArgs.length = i.params.length ∧ (actorDerive i).implGenerics.length = i.params.length ∧
    ∀ (k : Nat) p, i.params[k]? = some p → (actorDerive i).typeArgs[k]? = some p.name ∧
      ∃ q, (actorDerive i).implGenerics[k]? = some q ∧ q.name = p.name ∧ q.isType = p.isType := by
  refine ⟨rfl, rfl, rfl, by simp [actorDerive], by simp [actorDerive], fun k p hp => ⟨?_, p.stripDefault, ?_, ?_, ?_⟩⟩
  · simp [actorDerive, hp]
  · simp [actorDerive, hp]
  · cases p <;> rfl
  · cases p <;> rfl

/-- Bounds written at the parameters themselves (`T: Clone` in `<T: Clone>`) as predicates. -/
def GenericParam.ownBounds : GenericParam → WherePredicate
  | .lifetime n b => ⟨n, b⟩
  | .type n b _ => ⟨n, b⟩
  | .const n _ _ => ⟨n, []⟩

/-- A parameter default, which Rust forbids in an impl header. -/
def GenericParam.default : GenericParam → Option String
  | .lifetime _ _ => none
  | .type _ _ d => d
  | .const _ _ d => d

/-- **C40.** Meaning of the whole header: an instantiation of the parameters satisfies all bounds of the generated impl (those at its
parameters and its where clause) exactly if it satisfies all bounds of the item (those at the item's parameters and its where clause)
and every type parameter is `Send` and `'static`. -/
theorem C40_impl_iff_item (i : DeriveInput) (holds : String → String → Prop) :
    allHold holds ((actorDerive i).implGenerics.map GenericParam.ownBounds ++ (actorDerive i).whereClause) ↔
      allHold holds (i.params.map GenericParam.ownBounds ++ i.whereClause.getD []) ∧
        ∀ p ∈ i.params, p.isType = true → holds p.name "Send" ∧ holds p.name "'static" := by
  have hb : (actorDerive i).implGenerics.map GenericParam.ownBounds = i.params.map GenericParam.ownBounds := by
    simp only [actorDerive, List.map_map]
    refine List.map_congr_left fun p _ => ?_
    cases p <;> rfl
  have happ : ∀ a b : List WherePredicate, allHold holds (a ++ b) ↔ allHold holds a ∧ allHold holds b := by
    intro a b
    simp only [allHold, List.mem_append]
    exact ⟨fun h => ⟨fun p hp => h p (.inl hp), fun p hp => h p (.inr hp)⟩, fun h p hp => hp.elim (h.1 p) (h.2 p)⟩
  rw [hb, happ, happ, C40_impl_applies]
  exact ⟨fun ⟨a, b, c⟩ => ⟨⟨a, b⟩, c⟩, fun ⟨⟨a, b⟩, c⟩ => ⟨a, b, c⟩⟩

/-- **C40.** The generated header is legal: no parameter of the impl has a default, whatever the item declares; and each keeps its
name, its kind and (for consts) its type. -/
theorem C40_impl_legal (i : DeriveInput) :
    (∀ q ∈ (actorDerive i).implGenerics, q.default = none) ∧
    ∀ (k : Nat) n ty d, i.params[k]? = some (.const n ty d) → (actorDerive i).implGenerics[k]? = some (.const n ty none) := by
  refine ⟨fun q hq => ?_, fun k n ty d h => ?_⟩
  · simp only [actorDerive, List.mem_map] at hq
    obtain ⟨p, -, rfl⟩ := hq
    cases p <;> rfl
  · simp [actorDerive, h, GenericParam.stripDefault]

/-- `struct Foo<'a, T: Clone, const N: usize, U> where T: Debug`. Meets the hypotheses of `C40_where_clause`, `C40_impl_applies`,
`C40_impl_for_item`, `C40_impl_iff_item`. -/
example : (actorDerive ⟨"Foo", [.lifetime "'a" [], .type "T" ["Clone"] none, .const "N" "usize" none, .type "U" [] none],
      some [⟨"T", ["Debug"]⟩]⟩).whereClause =
    [⟨"T", ["Debug"]⟩, ⟨"T", ["Send", "'static"]⟩, ⟨"U", ["Send", "'static"]⟩] := rfl

/-- `struct Foo<T: Clone = u8, const N: usize = 3>`: the defaults do not get into the impl header. -/
example : (actorDerive ⟨"Foo", [.type "T" ["Clone"] (some "u8"), .const "N" "usize" (some "3")], none⟩).implGenerics =
    [.type "T" ["Clone"] none, .const "N" "usize" none] := rfl

end Xtra.Derive
