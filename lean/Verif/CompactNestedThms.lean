import Verif.CompactNested

/-! # The default form of types whose nested types have aliases: C03 and C04 -/

set_option autoImplicit false

namespace Recap
open Spec Dict

theorem hasAlias_defined {s : RType} (h : HasAlias s) : definedAliases s ≠ [] := by
  obtain ⟨h1, h2⟩ := h
  cases s <;> simp only [RType.isProxy, Bool.true_eq_false] at h1 <;> simp only [RType.attrs] at h2 <;>
    simp [definedAliases, own, h2]

/-- If nested types define no aliases, nothing has to be kept apart. -/
theorem separate_of_children {compact : Bool} {t : RType} (hd : ∀ c ∈ children t, definedAliases c = []) :
    Separate compact t := by
  intro u hu hnone c hc
  have hall : (∀ c ∈ children u, definedAliases c = []) := by
    rcases sub_iff.mp hu with rfl | ⟨c', hc', hs⟩
    · exact hd
    · exact fun c hc => defined_children (defined_sub hs (hd _ hc')) hc
  refine .inr ⟨hall c hc, fun w s _ hs ha => ?_⟩
  rcases sub_iff.mp hs with rfl | ⟨c', hc', hs'⟩
  · exact absurd hnone ha.2
  · exact absurd (defined_sub hs' (hall _ hc')) (hasAlias_defined ha)

/-- C03 for canonical types, with aliases on the type and on nested types: reading back the default document gives
the type with references in place of the types that built-in aliases stand for, if aliases are kept apart.
Missing: unions that are not canonical, and types in which aliases are not kept apart (see below and C04). -/
theorem C03_nested_round_trip_partial (t : RType) (h : WellFormed (names newRegistry) t) (hr : RealType t)
    (hc : Canonical t) (hk : PlainKeys t) (hs : Separate true (aliased t)) :
    ∃ v t', toDict true true t = .ok v ∧ parse v = .ok t' ∧ RType.pyEq t' (aliased t) = true := by
  have hp : Plain t := ⟨h.1, hr, h.2.1, hk⟩
  obtain ⟨v, h1, h2, -⟩ := Nested.toDict_nested true t hp (fun _ => tidy_of h.1 hc) h.2.2.1 h.2.2.2 hs
  obtain ⟨t', h3, h4⟩ := parse_of_reads (h2.read newRegistry (bounded_aliased t h.2.1) (aliased_real hr)
    (aliased_aliases (aliasesOK_of h.1)) (by rw [defined_aliased]; exact h.2.2.1)
    (by rw [defined_aliased]; exact h.2.2.2))
  exact ⟨v, t', h1, h3, h4⟩

/-- The same for the form that is not compacted: canonicity is not needed. -/
theorem C03_nested_uncompacted_partial (t : RType) (h : WellFormed (names newRegistry) t) (hr : RealType t)
    (hk : PlainKeys t) (hs : Separate false (aliased t)) :
    ∃ v t', toDict false true t = .ok v ∧ parse v = .ok t' ∧ RType.pyEq t' (aliased t) = true := by
  have hp : Plain t := ⟨h.1, hr, h.2.1, hk⟩
  obtain ⟨v, h1, h2, -⟩ := Nested.toDict_nested false t hp (fun e => by cases e) h.2.2.1 h.2.2.2 hs
  obtain ⟨t', h3, h4⟩ := parse_of_reads (h2.read newRegistry (bounded_aliased t h.2.1) (aliased_real hr)
    (aliased_aliases (aliasesOK_of h.1)) (by rw [defined_aliased]; exact h.2.2.1)
    (by rw [defined_aliased]; exact h.2.2.2))
  exact ⟨v, t', h1, h3, h4⟩

/-- C04 for canonical types in which aliases are kept apart. -/
theorem C04_nested_partial (t : RType) (h : WellFormed (names newRegistry) t) (hr : RealType t)
    (hc : Canonical t) (hk : PlainKeys t) (hs : Separate true (aliased t)) : ∃ v, toDict true true t = .ok v := by
  obtain ⟨v, -, h1, -⟩ := C03_nested_round_trip_partial t h hr hc hk hs
  exact ⟨v, h1⟩

/-! ## Concrete types -/

mutual
/-- The type and the types nested in it. -/
def subs : RType → List RType
  | .list t l v a => .list t l v a :: subs t
  | .map k v a => .map k v a :: (subs k ++ subs v)
  | .struct fs a => .struct fs a :: subsAll fs
  | .union ts a => .union ts a :: subsAll ts
  | t => [t]
def subsAll : List RType → List RType
  | [] => []
  | t :: ts => subs t ++ subsAll ts
end

theorem mem_subsAll {u : RType} {ts : List RType} : u ∈ subsAll ts ↔ ∃ t ∈ ts, u ∈ subs t := by
  induction ts with
  | nil => simp [subsAll]
  | cons t ts ih => simp [subsAll, ih]

theorem subs_children {u t : RType} : u ∈ subs t ↔ u = t ∨ ∃ c ∈ children t, u ∈ subs c := by
  cases t <;> simp [subs, children, mem_subsAll]

theorem mem_subs {u t : RType} (h : Sub u t) : u ∈ subs t := by
  rcases sub_iff.mp h with rfl | ⟨c, hc, hs⟩
  · exact subs_children.mpr (.inl rfl)
  · have := size_child hc
    exact subs_children.mpr (.inr ⟨c, hc, mem_subs hs⟩)
termination_by sizeOf t

/-- `HasAlias` as a check. -/
def hasAliasCheck (t : RType) : Bool := !t.isProxy && decide (t.attrs.alias ≠ .none)

theorem hasAliasCheck_iff {t : RType} : hasAliasCheck t = true ↔ HasAlias t := by
  simp [hasAliasCheck, HasAlias]

/-- `Guarded` as a check. -/
def guardedCheck (compact : Bool) (c : RType) : Bool :=
  hasAliasCheck c || compact && match c with
    | .union [n, x] a => RType.pyEq n (.null {}) && decide (a.alias = .none) && decide (a.logical = .none) &&
        decide ("default" ∈ a.extra.keys) && hasAliasCheck x
    | _ => false

theorem guarded_of_check {compact : Bool} {c : RType} (h : guardedCheck compact c = true) : Guarded compact c := by
  unfold guardedCheck at h
  rw [Bool.or_eq_true, Bool.and_eq_true] at h
  rcases h with h | ⟨h1, h2⟩
  · exact .inl (hasAliasCheck_iff.mp h)
  · refine .inr ⟨h1, ?_⟩
    split at h2
    · rename_i n x a
      simp only [Bool.and_eq_true, decide_eq_true_eq] at h2
      exact ⟨x, ⟨n, a, rfl, h2.1.1.1.1, h2.1.1.1.2, h2.1.1.2, h2.1.2⟩, hasAliasCheck_iff.mp h2.2⟩
    · cases h2

/-- `Separate` as a check. -/
def separateCheck (compact : Bool) (t : RType) : Bool :=
  (subs t).all fun u => decide (u.attrs.alias ≠ .none) || (children u).all fun c => guardedCheck compact c ||
    (definedAliases c).isEmpty && (subs c).all fun w => (subs u).all fun s =>
      !hasAliasCheck s || !RType.pyEq w (definition s)

theorem separate_of_check {compact : Bool} {t : RType} (h : separateCheck compact t = true) : Separate compact t := by
  intro u hu hn c hc
  have := List.all_eq_true.mp h u (mem_subs hu)
  rw [hn] at this
  simp only [ne_eq, not_true_eq_false, decide_false, Bool.false_or] at this
  have := List.all_eq_true.mp this c hc
  rw [Bool.or_eq_true, Bool.and_eq_true] at this
  rcases this with h | ⟨h1, h2⟩
  · exact .inl (guarded_of_check h)
  · refine .inr ⟨List.isEmpty_iff.mp h1, fun w s hw hs ha => ?_⟩
    have := List.all_eq_true.mp (List.all_eq_true.mp h2 w (mem_subs hw)) s (mem_subs hs)
    rw [hasAliasCheck_iff.mpr ha] at this
    simpa using this

/-- `OptionalForm` as a check. -/
def optionalCheck (ts : List RType) (a : Attrs) : Bool :=
  !ts.any (fun n => RType.pyEq n (.null {})) || !decide ("default" ∈ a.extra.keys) ||
    a.extra.keys.all (fun k => k == "default" || k == "name") && decide (Dict.get? a.extra "name" ≠ some .none) &&
    match ts with
    | [] => false
    | n :: rest => RType.pyEq n (.null {}) && rest.all (fun u => !RType.pyEq u (.null {})) &&
      match rest with
      | [u] => decide (a.alias ≠ .none) || decide (a.logical ≠ .none) || decide (a.doc = .none) &&
          u.typeName != "union" && decide ("name" ∉ u.attrs.extra.keys) && decide ("default" ∉ u.attrs.extra.keys)
      | _ => true

theorem optional_of_check {ts : List RType} {a : Attrs} (h : optionalCheck ts a = true) : OptionalForm ts a := by
  rintro ⟨n, hn, hp⟩ hd
  have h1 : ts.any (fun n => RType.pyEq n (.null {})) = true := List.any_eq_true.mpr ⟨n, hn, hp⟩
  unfold optionalCheck at h
  rw [h1, decide_eq_true hd] at h
  simp only [Bool.not_true, Bool.false_or, Bool.and_eq_true, decide_eq_true_eq, List.all_eq_true, Bool.or_eq_true,
    beq_iff_eq] at h
  obtain ⟨⟨g1, g2⟩, g3⟩ := h
  refine ⟨g1, g2, ?_⟩
  match ts, g3 with
  | n :: rest, g3 =>
    simp only [Bool.and_eq_true, List.all_eq_true, Bool.not_eq_true'] at g3
    refine ⟨n, rest, rfl, g3.1.1, fun u hu e => ?_, ?_⟩
    · rw [IsPlainNull, g3.1.2 u hu] at e; cases e
    · rintro e1 e2 u rfl
      have := g3.2
      simp only [e1, e2, Bool.or_eq_true, Bool.and_eq_true, decide_eq_true_eq, ne_eq, not_true_eq_false, false_or,
        bne_iff_ne] at this
      exact ⟨this.1.1.1, this.1.1.2, this.1.2, this.2⟩

/-- `Canonical` as a check. -/
def canonicalCheck (t : RType) : Bool := (subs t).all fun
  | .union ts a => optionalCheck ts a
  | _ => true

theorem canonical_of_check {t : RType} (h : canonicalCheck t = true) : Canonical t :=
  fun _ _ hs => optional_of_check (List.all_eq_true.mp h _ (mem_subs hs))

/-- A table whose columns have types with aliases: an address, an optional price and a list of further addresses,
which is a reference. -/
def nestedAliases : RType :=
  .struct [
    .struct [.string (.int 50) (.bool true) { extra := [("name", .str "street")] }, .int (.int 64) (.bool true) {}]
      { alias := .str "com.Address", extra := [("name", .str "home")] },
    .union [.null {}, .bytes (.int 16) (.bool false) { alias := .str "com.Price", logical := .str "build.recap.Decimal" }]
      { extra := [("default", .none), ("name", .str "price")] },
    .list (.proxy .none { alias := .str "com.Address" }) .none (.bool true) { extra := [("name", .str "others")] }] {}

/-- The hypotheses hold for a type with aliases on nested types, one of them optional. -/
example : WellFormed (names newRegistry) nestedAliases ∧ RealType nestedAliases ∧ Canonical nestedAliases ∧
    PlainKeys nestedAliases ∧ Separate true (aliased nestedAliases) ∧
    definedAliases nestedAliases = [.str "com.Address", .str "com.Price"] ∧
    toDict true true nestedAliases = .ok (.dict [("type", .str "struct"), ("fields", .list [
      .dict [("type", .str "struct"), ("alias", .str "com.Address"), ("name", .str "home"),
        ("fields", .list [.dict [("type", .str "string"), ("name", .str "street"), ("bytes", .int 50)], .str "int64"])],
      .dict [("type", .str "bytes"), ("alias", .str "com.Price"), ("logical", .str "build.recap.Decimal"),
        ("bytes", .int 16), ("variable", .bool false), ("name", .str "price"), ("optional", .bool true)],
      .dict [("type", .str "list"), ("name", .str "others"), ("values", .str "com.Address")]])]) := by
  have hp : Plain nestedAliases := plain_of_check (by decide +kernel)
    (by simp [nestedAliases, Bounded, BoundedAll, SizeOK, NumBetween, PyVal.truthy])
  exact ⟨⟨hp.node, hp.bounded, by decide +kernel, by decide +kernel⟩, hp.real, canonical_of_check (by decide +kernel),
    hp.keys, separate_of_check (by decide +kernel), by decide +kernel, by decide +kernel⟩

/-- A column of a type that an alias of another column stands for. -/
def sameAsAlias : RType :=
  .struct [.int (.int 24) (.bool true) { alias := .str "com.Small" }, .int (.int 24) (.bool true) {}] {}

/-- C03 does not extend to all types with aliases: the second column is written as a reference to the alias of the
first. -/
theorem C03_user_alias_refuted : ¬ ∀ t, WellFormed (names newRegistry) t → RealType t → Canonical t → PlainKeys t →
    ∃ v t', toDict true true t = .ok v ∧ parse v = .ok t' ∧ RType.pyEq t' (aliased t) = true := by
  intro h
  have hp : Plain sameAsAlias := plain_of_check (by decide +kernel)
    (by simp [sameAsAlias, Bounded, BoundedAll, NumBetween])
  obtain ⟨v, t', h1, h2, h3⟩ := h sameAsAlias ⟨hp.node, hp.bounded, by decide +kernel, by decide +kernel⟩ hp.real
    (canonical_of_check (by decide +kernel)) hp.keys
  have e : toDict true true sameAsAlias = .ok (.dict [("type", .str "struct"), ("fields", .list [
      .dict [("type", .str "int"), ("alias", .str "com.Small"), ("bits", .int 24)], .str "com.Small"])]) := by
    decide +kernel
  rw [e] at h1
  cases h1
  have e2 : parse (.dict [("type", .str "struct"), ("fields", .list [
      .dict [("type", .str "int"), ("alias", .str "com.Small"), ("bits", .int 24)], .str "com.Small"])]) =
      .ok (.struct [.int (.int 24) (.bool true) { alias := .str "com.Small" }, .proxy .none { alias := .str "com.Small" }] {}) := by
    decide +kernel
  rw [e2] at h2
  cases h2
  exact absurd h3 (by decide +kernel)

/-- Without compaction, the form with aliases cannot be computed for an optional column of a type with an alias. -/
theorem C04_uncompacted_refuted : ¬ ∀ t, WellFormed (names newRegistry) t → RealType t → Canonical t → PlainKeys t →
    (∃ v, toDict true true t = .ok v) → ∃ v, toDict false true t = .ok v := by
  intro h
  have hp : Plain nestedAliases := plain_of_check (by decide +kernel)
    (by simp [nestedAliases, Bounded, BoundedAll, SizeOK, NumBetween, PyVal.truthy])
  obtain ⟨v, h1⟩ := h nestedAliases ⟨hp.node, hp.bounded, by decide +kernel, by decide +kernel⟩ hp.real
    (canonical_of_check (by decide +kernel)) hp.keys
    (C04_nested_partial _ ⟨hp.node, hp.bounded, by decide +kernel, by decide +kernel⟩ hp.real
      (canonical_of_check (by decide +kernel)) hp.keys (separate_of_check (by decide +kernel)))
  have e : toDict false true nestedAliases = .error .valueError := by decide +kernel
  rw [e] at h1
  cases h1

end Recap
