import Verif.Parsed

/-! # Resolved references are valid: C72 -/

namespace Recap

open Spec

/-! ## Helper lemmas -/

mutual
theorem bounded_of_shape : ∀ t : RType, Bounded (shape t) → Bounded t
  | .list t .. => by simp only [shape, Bounded]; exact fun h => ⟨h.1, bounded_of_shape t h.2⟩
  | .map k v _ => by
    simp only [shape, Bounded]; exact fun h => ⟨bounded_of_shape k h.1, bounded_of_shape v h.2⟩
  | .struct fs _ => by simp only [shape, Bounded]; exact boundedAll_of_shape fs
  | .union ts _ => by simp only [shape, Bounded]; exact boundedAll_of_shape ts
  | .proxy .. => by simp [Bounded]
  | .null _ => by simp only [shape, imp_self]
  | .bool _ => by simp only [shape, imp_self]
  | .int .. => by simp only [shape, imp_self]
  | .float .. => by simp only [shape, imp_self]
  | .string .. => by simp only [shape, imp_self]
  | .bytes .. => by simp only [shape, imp_self]
  | .enum .. => by simp only [shape, imp_self]
theorem boundedAll_of_shape : ∀ ts : List RType, BoundedAll (shapeAll ts) → BoundedAll ts
  | [] => by simp [BoundedAll]
  | t :: ts => by
    simp only [shapeAll, BoundedAll]; exact fun h => ⟨bounded_of_shape t h.1, boundedAll_of_shape ts h.2⟩
end

theorem bounded_withAttrs {t : RType} (a : Attrs) : Bounded (t.withAttrs a) ↔ Bounded t := by
  cases t <;> simp only [RType.withAttrs, Bounded]

theorem bounded_sub {u t : RType} (h : Sub u t) (hb : Bounded t) : Bounded u := by
  have mem : ∀ (ts : List RType) (t : RType), BoundedAll ts → t ∈ ts → Bounded t := by
    intro ts
    induction ts with
    | nil => simp
    | cons x xs ih =>
      intro t h hm
      simp only [BoundedAll] at h
      rcases List.mem_cons.mp hm with rfl | hm
      · exact h.1
      · exact ih t h.2 hm
  induction h with
  | refl => exact hb
  | list _ ih => simp only [Bounded] at hb; exact ih hb.2
  | key _ ih => simp only [Bounded] at hb; exact ih hb.1
  | value _ ih => simp only [Bounded] at hb; exact ih hb.2
  | field hm _ ih => simp only [Bounded] at hb; exact ih (mem _ _ hb hm)
  | member hm _ ih => simp only [Bounded] at hb; exact ih (mem _ _ hb hm)

theorem bounded_applyOverride {t t' : RType} {k : String} {v : PyVal}
    (hk : k ∉ ["bits", "bytes_", "variable", "length"]) (h : applyOverride t k v = .ok t') (hb : Bounded t) :
    Bounded t' := by
  simp only [List.mem_cons, List.not_mem_nil, or_false, not_or] at hk
  obtain ⟨h1, h2, h3, h4⟩ := hk
  unfold applyOverride at h
  simp only [h1, h2, h3, h4, if_false] at h
  split at h
  · cases h
  split at h
  · cases h; exact (bounded_withAttrs _).mpr hb
  split at h
  · cases h; exact (bounded_withAttrs _).mpr hb
  split at h
  · cases h; exact (bounded_withAttrs _).mpr hb
  split at h <;> (try split at h) <;> cases h <;>
    first | exact (bounded_withAttrs _).mpr hb | simpa only [Bounded] using hb

theorem bounded_applyOverrides {e : Dict} : ∀ {t t' : RType},
    (∀ k ∈ e.keys, k ∉ ["bits", "bytes_", "variable", "length"]) → applyOverrides t e = .ok t' → Bounded t →
    Bounded t' := by
  induction e with
  | nil => intro t t' _ h hb; simp only [applyOverrides] at h; cases h; exact hb
  | cons kv e ih =>
    obtain ⟨k, v⟩ := kv
    intro t t' hk h hb
    simp only [applyOverrides] at h
    obtain ⟨t1, h1, h⟩ := ok_bind h
    exact ih (fun k' hk' => hk k' (List.mem_cons_of_mem _ hk')) h
      (bounded_applyOverride (hk k List.mem_cons_self) h1 hb)

/-! ## C72 -/

/-- C72, the full statement. -/
def C72_statement : Prop :=
  ∀ (v : PyVal) (t : RType) (reg : Registry) (a : Attrs) (d : RType),
    fromDict v newRegistry = .ok (t, reg) → Sub (.proxy .none a) t → resolve reg .none a = .ok d → Bounded d

/-- C72 is false: a reference to `int32` with `bits: 0` is accepted and resolves to a type that
`validate` would reject. -/
theorem C72_invalid_override_refuted : ¬ C72_statement := by
  intro h
  have := h (.dict [("type", .str "int32"), ("bits", .int 0)])
    (.proxy .none { alias := .str "int32", extra := [("bits", .int 0)] }) newRegistry
    { alias := .str "int32", extra := [("bits", .int 0)] } (.int (.int 0) (.bool true) {})
    (by decide +kernel) .refl (by decide +kernel)
  simp [Bounded, NumBetween] at this

/-- C72 for overrides that leave the sizes alone (missing: overrides of `bits`, `bytes_`, `length`
and `variable`, for which the statement is false): in every later state of the registry, a
reference to an alias defined anywhere in a parsed document resolves to a valid type only. -/
theorem C72_resolved_types_valid_partial (v : PyVal) (reg reg' : Registry) (t u d : RType) (s : String)
    (ops : List RegOp) (a : Attrs)
    (h : fromDict v reg = .ok (t, reg')) (hu : Sub u t) (hp : u.isProxy = false) (hs : u.attrs.alias = .str s)
    (ha : a.alias = .str s) (hk : ∀ k ∈ a.extra.keys, k ∉ ["bits", "bytes_", "variable", "length"])
    (hd : resolve (runOps reg' ops) .none a = .ok d) : Bounded d := by
  obtain ⟨d0, h1, h2⟩ := C08_alias_stands_for_its_type v reg reg' t u s h hu hs hp
  have h3 := C09_aliases_never_overwritten reg' ops s d0 h1
  simp only [resolve, ha, Option.getD_none, h3, bind, Except.bind] at hd
  refine bounded_applyOverrides hk hd (bounded_of_shape _ ?_)
  rw [shape_deepcopy, h2]
  refine bounded_shape _ ((bounded_withAttrs _).mpr ?_)
  exact bounded_sub hu (C06_parsed_types_bounded v reg reg' t h)

/-- C72 for the built-in aliases, under the same condition. -/
theorem C72_builtin_references_valid_partial (s : String) (t d : RType) (ops : List RegOp) (a : Attrs)
    (h : Registry.fromAlias newRegistry (.str s) = .ok t)
    (ha : a.alias = .str s) (hk : ∀ k ∈ a.extra.keys, k ∉ ["bits", "bytes_", "variable", "length"])
    (hd : resolve (runOps newRegistry ops) .none a = .ok d) : Bounded d := by
  have h3 := C09_aliases_never_overwritten newRegistry ops s t h
  simp only [resolve, ha, Option.getD_none, h3, bind, Except.bind] at hd
  refine bounded_applyOverrides hk hd (bounded_of_shape _ ?_)
  rw [shape_deepcopy]
  refine bounded_shape _ ?_
  have hm : ∃ e ∈ newRegistry, e.2 = t := by
    unfold Registry.fromAlias at h
    simp only at h
    cases hf : Registry.find? newRegistry s with
    | none => rw [hf] at h; cases h
    | some x =>
      rw [hf] at h; cases h
      exact ⟨_, mem_of_find? hf, rfl⟩
  obtain ⟨e, hm, rfl⟩ := hm
  have hv : ∀ e ∈ newRegistry, e.2.validate = .ok () ∧ e.2.typeName ∈ ["int", "float", "string", "bytes"] := by
    decide +kernel
  have := hv e hm
  revert this
  generalize e.2 = t
  rintro ⟨h1, h2⟩
  refine bounded_leaf ?_ h1
  cases t <;> simp [RType.typeName] at h2 <;> trivial

/-- A reference with an override on an alias defined in a document. -/
example : (do
    let (_, reg) ← fromDict (.dict [("type", .str "int"), ("bits", .int 7), ("alias", .str "a.b")]) newRegistry
    resolve reg .none { alias := .str "a.b", extra := [("signed", .bool false)] }) =
    .ok (.int (.int 7) (.bool false) {}) := by decide +kernel

end Recap
