import Verif.CompactAliased
import Verif.RoundTripThms

/-! # The compact form of documents: C02 – C05 -/

set_option autoImplicit false

namespace Recap

open Spec

/-! ## C02: compaction without aliases -/

/-- C02: for every well-formed type, reading back the compact document gives an equal type. -/
def C02_statement : Prop :=
  ∀ t, WellFormed (names newRegistry) t → RealType t →
    ∃ v t', toDict true false t = .ok v ∧ parse v = .ok t' ∧ RType.pyEq t' t = true

theorem tidy_of {t : RType} (h : ∀ u, Sub u t → NodeOK u) (hc : Canonical t) : Tidy t :=
  ⟨hc, fun u hu => (h u hu).1⟩

theorem parse_of_reads {v : PyVal} {t : RType} (h : ReadsAs v newRegistry t) :
    ∃ t', parse v = .ok t' ∧ RType.pyEq t' t = true := by
  obtain ⟨t', reg', h1, h2, -⟩ := h
  exact ⟨t', by simp only [parse, h1, Functor.map, Except.map], h2⟩

/-- C02 for canonical types.  Missing: unions with a default and a plain null member that have further
attributes, a null that is not first, or a nested union. -/
theorem C02_canonical_round_trip_partial (t : RType) (h : WellFormed (names newRegistry) t) (hr : RealType t)
    (hc : Canonical t) :
    ∃ v t', toDict true false t = .ok v ∧ parse v = .ok t' ∧ RType.pyEq t' t = true := by
  obtain ⟨v, h1, h2⟩ := toDict_clean t h.1 hr (tidy_of h.1 hc)
  obtain ⟨t', h3, h4⟩ := parse_of_reads (h2.read newRegistry h.2.1 hr (aliasesOK_of h.1) h.2.2.1 h.2.2.2)
  exact ⟨v, t', h1, h3, h4⟩

/-- A union with a default and one more attribute. -/
def lossyUnion : RType :=
  .union [.null {}, .bool {}] { extra := [("default", .bool true), ("comment", .str "kept")] }

theorem realNode_of_atoms {t : RType} (h1 : atom t.attrs.logical = true) (h2 : atom t.attrs.alias = true)
    (h3 : atom t.attrs.doc = true) (h4 : t.attrs.extra.all (fun kv => atom kv.2) = true)
    (h5 : (params t).all (fun kv => atom kv.2) = true) (hn : t.attrs.extra.keys.Nodup) : RealNode t := by
  have real : ∀ v, atom v = true → Real v := fun v hv => by cases v <;> simp [atom] at hv <;> simp [Real]
  rw [List.all_eq_true] at h4 h5
  exact ⟨real _ h1, real _ h2, real _ h3, ⟨hn, .of_mem fun kv hkv => real _ (h4 kv hkv)⟩, fun kv hkv => real _ (h5 kv hkv)⟩

/-- A node check that can be computed; aliases are checked by the matcher of C10. -/
def nodeCheck (t : RType) : Bool :=
  decide (t.attrs.extra.keys.Nodup) && t.attrs.extra.keys.all (fun k => !(reservedKeys t).contains k) &&
    (if t.isProxy then match t.attrs.alias with
      | .str n => !coreTypeNames.contains n
      | _ => false
     else match t.attrs.alias with
      | .none => true
      | .str s => aliasOk s
      | _ => false) &&
    atom t.attrs.logical && atom t.attrs.alias && atom t.attrs.doc && t.attrs.extra.all (fun kv => atom kv.2) &&
    (params t).all (fun kv => atom kv.2) && t.attrs.extra.keys.all (fun k => !nestedKeys.contains k)

mutual
/-- The check for all nested types. -/
def treeCheck : RType → Bool
  | .list t l v a => nodeCheck (.list t l v a) && treeCheck t
  | .map k v a => nodeCheck (.map k v a) && treeCheck k && treeCheck v
  | .struct fs a => nodeCheck (.struct fs a) && treeCheckAll fs
  | .union ts a => nodeCheck (.union ts a) && treeCheckAll ts
  | t => nodeCheck t
def treeCheckAll : List RType → Bool
  | [] => true
  | t :: ts => treeCheck t && treeCheckAll ts
end

theorem treeCheckAll_iff {ts : List RType} : treeCheckAll ts = true ↔ ∀ t ∈ ts, treeCheck t = true := by
  induction ts with
  | nil => simp [treeCheckAll]
  | cons t ts ih => simp [treeCheckAll, ih]

theorem treeCheck_node {t : RType} (h : treeCheck t = true) : nodeCheck t = true := by
  cases t <;> simp only [treeCheck, Bool.and_eq_true] at h <;> first | exact h | exact h.1 | exact h.1.1

theorem treeCheck_child {t c : RType} (h : treeCheck t = true) (hc : c ∈ children t) : treeCheck c = true := by
  cases t <;> simp only [children, List.not_mem_nil, List.mem_cons, or_false] at hc <;>
    simp only [treeCheck, Bool.and_eq_true] at h
  · subst hc; exact h.2
  · rcases hc with rfl | rfl
    · exact h.1.2
    · exact h.2
  · exact treeCheckAll_iff.mp h.2 c hc
  · exact treeCheckAll_iff.mp h.2 c hc

theorem treeCheck_sub {t u : RType} (h : treeCheck t = true) (hs : Sub u t) : nodeCheck u = true := by
  rcases sub_iff.mp hs with rfl | ⟨c, hc, hs⟩
  · exact treeCheck_node h
  · have := size_child hc
    exact treeCheck_sub (treeCheck_child h hc) hs
termination_by sizeOf t

theorem nodeOK_of_check {t : RType} (h : nodeCheck t = true) : NodeOK t := by
  unfold nodeCheck at h
  simp only [Bool.and_eq_true, decide_eq_true_eq, List.all_eq_true, Bool.not_eq_true', List.contains_eq_mem,
    decide_eq_false_iff_not] at h
  obtain ⟨⟨⟨⟨⟨⟨⟨⟨h1, h2⟩, h3⟩, -⟩, -⟩, -⟩, -⟩, -⟩, -⟩ := h
  refine ⟨h1, h2, ?_⟩
  split
  · rename_i hp
    simp only [hp, if_true] at h3
    split at h3
    · rename_i n hn; exact ⟨n, hn, by simpa using h3⟩
    · cases h3
  · rename_i hp
    simp only [hp] at h3
    simp only [Bool.false_eq_true, if_false] at h3
    split at h3
    · rename_i hn; exact .inl hn
    · rename_i s hs; exact .inr ⟨s, hs, (aliasOk_iff s).mp h3⟩
    · cases h3

theorem plain_of_check {t : RType} (h : treeCheck t = true) (hb : Bounded t) : Plain t := by
  refine ⟨fun u hu => nodeOK_of_check (treeCheck_sub h hu), fun u hu => ?_, hb, fun u hu k hk => ?_⟩
  · have := treeCheck_sub h hu
    unfold nodeCheck at this
    simp only [Bool.and_eq_true, decide_eq_true_eq] at this
    obtain ⟨⟨⟨⟨⟨⟨⟨⟨h1, -⟩, -⟩, h4⟩, h5⟩, h6⟩, h7⟩, h8⟩, -⟩ := this
    exact realNode_of_atoms h4 h5 h6 h7 h8 h1
  · have := treeCheck_sub h hu
    unfold nodeCheck at this
    simp only [Bool.and_eq_true, List.all_eq_true, Bool.not_eq_true', List.contains_eq_mem,
      decide_eq_false_iff_not] at this
    exact this.2 k hk

theorem wellFormed_of_check {t : RType} (h : treeCheck t = true) (hb : Bounded t) (hn : (definedAliases t).Nodup)
    (hf : ∀ s ∈ names newRegistry, .str s ∉ definedAliases t) : WellFormed (names newRegistry) t :=
  ⟨(plain_of_check h hb).node, hb, hn, hf⟩

/-- C02 is false in general: a union loses its default if it has an attribute of its own. -/
theorem C02_lossy_union_refuted : ¬ C02_statement := by
  intro h
  have hp : Plain lossyUnion := plain_of_check (by decide +kernel) (by simp [lossyUnion, Bounded, BoundedAll])
  obtain ⟨v, t', h1, h2, h3⟩ := h lossyUnion ⟨hp.node, hp.bounded, by decide +kernel, by decide +kernel⟩ hp.real
  have e : toDict true false lossyUnion = .ok (.dict [("type", .str "union"),
      ("comment", .str "kept"), ("types", .list [.str "null", .str "bool"])]) := by decide +kernel
  rw [e] at h1
  cases h1
  have e2 : parse (.dict [("type", .str "union"), ("comment", .str "kept"),
      ("types", .list [.str "null", .str "bool"])]) = .ok (.union [.null {}, .bool {}] { extra := [("comment", .str "kept")] }) := by
    decide +kernel
  rw [e2] at h2
  cases h2
  exact absurd h3 (by decide +kernel)

/-- A struct with an optional field, a list, a map and a reference: canonical, with a user alias. -/
def canonicalStruct : RType :=
  .struct [
    .union [.null {}, .string (.int 10) (.bool true) {}] { extra := [("default", .none), ("name", .str "a")] },
    .list (.int (.int 64) (.bool true) {}) .none (.bool true) { extra := [("name", .str "b")] },
    .map (.string .none (.bool true) {}) (.proxy .none { alias := .str "com.Z" }) { doc := .str "d" }]
    { alias := .str "com.S" }

theorem canonical_struct : Canonical canonicalStruct := by
  intro ts a hs
  have h0 : ∀ u, Sub u canonicalStruct → u.typeName = "union" →
      u = .union [.null {}, .string (.int 10) (.bool true) {}] { extra := [("default", .none), ("name", .str "a")] } := by
    intro u hu hn
    unfold canonicalStruct at hu
    rcases sub_iff.mp hu with rfl | ⟨c, hc, hu⟩
    · simp [RType.typeName] at hn
    · simp only [children, List.mem_cons, List.not_mem_nil, or_false] at hc
      rcases hc with rfl | rfl | rfl
      · rcases sub_iff.mp hu with rfl | ⟨c, hc, hu⟩
        · rfl
        · simp only [children, List.mem_cons, List.not_mem_nil, or_false] at hc
          rcases hc with rfl | rfl <;> (rcases sub_iff.mp hu with rfl | ⟨c, hc, _⟩
                                        · simp [RType.typeName] at hn
                                        · simp [children] at hc)
      · rcases sub_iff.mp hu with rfl | ⟨c, hc, hu⟩
        · simp [RType.typeName] at hn
        · simp only [children, List.mem_cons, List.not_mem_nil, or_false] at hc
          subst hc
          rcases sub_iff.mp hu with rfl | ⟨c, hc, _⟩
          · simp [RType.typeName] at hn
          · simp [children] at hc
      · rcases sub_iff.mp hu with rfl | ⟨c, hc, hu⟩
        · simp [RType.typeName] at hn
        · simp only [children, List.mem_cons, List.not_mem_nil, or_false] at hc
          rcases hc with rfl | rfl <;> (rcases sub_iff.mp hu with rfl | ⟨c, hc, _⟩
                                        · simp [RType.typeName] at hn
                                        · simp [children] at hc)
  have := h0 _ hs rfl
  injection this with h1 h2
  subst h1 h2
  rintro - -
  refine ⟨by simp [Dict.keys], by simp [Dict.get?], .null {}, _, rfl, plainNull_null, ?_, ?_⟩
  · intro u hu
    simp at hu
    subst hu
    simp [IsPlainNull, RType.pyEq]
  · intro _ _ u hu
    simp at hu
    subst hu
    simp [RType.typeName, RType.attrs, Dict.keys]

theorem bounded_struct : Bounded canonicalStruct := by
  simp [canonicalStruct, Bounded, BoundedAll, SizeOK, NumBetween, PyVal.truthy]

/-- The hypotheses of C02 hold for this type, and what is written is compact. -/
example : WellFormed (names newRegistry) canonicalStruct ∧ RealType canonicalStruct ∧ Canonical canonicalStruct ∧
    toDict true false canonicalStruct = .ok (.dict [("type", .str "struct"), ("alias", .str "com.S"),
      ("fields", .list [
        .dict [("type", .str "string"), ("bytes", .int 10), ("name", .str "a"), ("optional", .bool true)],
        .dict [("type", .str "list"), ("name", .str "b"), ("values", .dict [("type", .str "int"), ("bits", .int 64)])],
        .dict [("type", .str "map"), ("doc", .str "d"), ("keys", .str "string"), ("values", .str "com.Z")]])]) := by
  have hp : Plain canonicalStruct := plain_of_check (by decide +kernel) bounded_struct
  exact ⟨⟨hp.node, hp.bounded, by decide +kernel, by decide +kernel⟩, hp.real, canonical_struct, by decide +kernel⟩

/-! ## C03: the default form -/

/-- C03: for every well-formed type without aliases of its own, reading back the default document gives the
type with references in place of the types that built-in aliases stand for. -/
def C03_statement : Prop :=
  ∀ t, WellFormed (names newRegistry) t → RealType t → definedAliases t = [] →
    ∃ v t', toDict true true t = .ok v ∧ parse v = .ok t' ∧ RType.pyEq t' (aliased t) = true

/-- C03 for canonical types without attributes named like a nested type; an alias of the type itself is allowed.
Missing: unions that are not canonical (see C02). -/
theorem C03_default_round_trip_partial (t : RType) (h : WellFormed (names newRegistry) t) (hr : RealType t)
    (hc : Canonical t) (hk : PlainKeys t) (hd : ∀ c ∈ children t, definedAliases c = []) :
    ∃ v t', toDict true true t = .ok v ∧ parse v = .ok t' ∧ RType.pyEq t' (aliased t) = true := by
  have hp : Plain t := ⟨h.1, hr, h.2.1, hk⟩
  obtain ⟨v, h1, h2⟩ := toDict_alias true t hp (fun _ => tidy_of h.1 hc) hd
  obtain ⟨t', h3, h4⟩ := parse_of_reads (h2.read newRegistry (bounded_aliased t h.2.1) (aliased_real hr)
    (aliased_aliases (aliasesOK_of h.1)) (by rw [defined_aliased]; exact h.2.2.1)
    (by rw [defined_aliased]; exact h.2.2.2))
  exact ⟨v, t', h1, h3, h4⟩

/-- C03 for the form with aliases that is not compacted: canonicity is not needed. -/
theorem C03_uncompacted_round_trip_partial (t : RType) (h : WellFormed (names newRegistry) t) (hr : RealType t)
    (hk : PlainKeys t) (hd : ∀ c ∈ children t, definedAliases c = []) :
    ∃ v t', toDict false true t = .ok v ∧ parse v = .ok t' ∧ RType.pyEq t' (aliased t) = true := by
  have hp : Plain t := ⟨h.1, hr, h.2.1, hk⟩
  obtain ⟨v, h1, h2⟩ := toDict_alias false t hp (fun e => by cases e) hd
  obtain ⟨t', h3, h4⟩ := parse_of_reads (h2.read newRegistry (bounded_aliased t h.2.1) (aliased_real hr)
    (aliased_aliases (aliasesOK_of h.1)) (by rw [defined_aliased]; exact h.2.2.1)
    (by rw [defined_aliased]; exact h.2.2.2))
  exact ⟨v, t', h1, h3, h4⟩

/-- C03 is false in general: a union loses its default if it has an attribute of its own. -/
theorem C03_lossy_union_refuted : ¬ C03_statement := by
  intro h
  have hp : Plain lossyUnion := plain_of_check (by decide +kernel) (by simp [lossyUnion, Bounded, BoundedAll])
  obtain ⟨v, t', h1, h2, h3⟩ := h lossyUnion ⟨hp.node, hp.bounded, by decide +kernel, by decide +kernel⟩ hp.real
    (by decide +kernel)
  have e : toDict true true lossyUnion = .ok (.dict [("type", .str "union"),
      ("comment", .str "kept"), ("types", .list [.str "null", .str "bool"])]) := by decide +kernel
  rw [e] at h1
  cases h1
  have e2 : parse (.dict [("type", .str "union"), ("comment", .str "kept"),
      ("types", .list [.str "null", .str "bool"])]) = .ok (.union [.null {}, .bool {}] { extra := [("comment", .str "kept")] }) := by
    decide +kernel
  rw [e2] at h2
  cases h2
  exact absurd h3 (by decide +kernel)

/-- The hypotheses of C03 hold for a type with an alias; the 64-bit integer becomes a reference. -/
example : WellFormed (names newRegistry) canonicalStruct ∧ RealType canonicalStruct ∧ Canonical canonicalStruct ∧
    PlainKeys canonicalStruct ∧ (∀ c ∈ children canonicalStruct, definedAliases c = []) ∧
    aliased canonicalStruct = .struct [
      .union [.null {}, .string (.int 10) (.bool true) {}] { extra := [("default", .none), ("name", .str "a")] },
      .list (reference "int64") .none (.bool true) { extra := [("name", .str "b")] },
      .map (.string .none (.bool true) {}) (.proxy .none { alias := .str "com.Z" }) { doc := .str "d" }]
      { alias := .str "com.S" } := by
  have hp : Plain canonicalStruct := plain_of_check (by decide +kernel) bounded_struct
  exact ⟨⟨hp.node, hp.bounded, by decide +kernel, by decide +kernel⟩, hp.real, canonical_struct, hp.keys,
    by decide +kernel, by decide +kernel⟩

/-! ## C04: `to_dict` does not raise -/

/-- C04: the default form of every well-formed type can be computed. -/
def C04_statement : Prop :=
  ∀ t, WellFormed (names newRegistry) t → RealType t → ∃ v, toDict true true t = .ok v

/-- C04 for canonical types whose nested types define no aliases.  Missing: aliases on nested types and unions
that are not canonical. -/
theorem C04_default_form_partial (t : RType) (h : WellFormed (names newRegistry) t) (hr : RealType t)
    (hc : Canonical t) (hk : PlainKeys t) (hd : ∀ c ∈ children t, definedAliases c = []) :
    ∃ v, toDict true true t = .ok v := by
  obtain ⟨v, -, h1, -⟩ := C03_default_round_trip_partial t h hr hc hk hd
  exact ⟨v, h1⟩

/-- C04 without alias substitution, for canonical types with any aliases. -/
theorem C04_without_aliases_partial (t : RType) (h : WellFormed (names newRegistry) t) (hr : RealType t)
    (hc : Canonical t) : ∃ v, toDict true false t = .ok v := by
  obtain ⟨v, -, h1, -⟩ := C02_canonical_round_trip_partial t h hr hc
  exact ⟨v, h1⟩

/-- C04 for the verbatim form: no restriction on unions or aliases. -/
theorem C04_verbatim_partial (t : RType) (h : WellFormed (names newRegistry) t) (hr : RealType t) :
    ∃ v, toDict false false t = .ok v := by
  obtain ⟨v, -, h1, -⟩ := C01_verbatim_round_trip t h hr
  exact ⟨v, h1⟩

/-- A type with an alias two levels below types without alias. -/
def deepAlias : RType := .list (.list (.int (.int 8) (.bool true) { alias := .str "com.B" }) .none (.bool true) {})
  .none (.bool true) {}

/-- C04 is false in general: an alias two levels below types without alias is registered twice. -/
theorem C04_deep_alias_refuted : ¬ C04_statement := by
  intro h
  have hp : Plain deepAlias := plain_of_check (by decide +kernel)
    (by simp [deepAlias, Bounded, SizeOK, NumBetween, PyVal.truthy])
  obtain ⟨v, h1⟩ := h deepAlias ⟨hp.node, hp.bounded, by decide +kernel, by decide +kernel⟩ hp.real
  have e : toDict true true deepAlias = .error .valueError := by decide +kernel
  rw [e] at h1
  cases h1

/-- A union that has another union as its only member besides null. -/
def nestedUnion : RType :=
  .union [.null {}, .union [.bool {}, .string .none (.bool true) {}] {}] { extra := [("default", .none)] }

/-- C04 also fails without aliases, for a nested union. -/
theorem C04_nested_union_refuted : ¬ C04_statement := by
  intro h
  have hp : Plain nestedUnion := plain_of_check (by decide +kernel)
    (by simp [nestedUnion, Bounded, BoundedAll, SizeOK, PyVal.truthy])
  obtain ⟨v, h1⟩ := h nestedUnion ⟨hp.node, hp.bounded, by decide +kernel, by decide +kernel⟩ hp.real
  have e : toDict true true nestedUnion = .error .assertionError := by decide +kernel
  rw [e] at h1
  cases h1

/-! ## C05: compaction keeps attributes -/

/-- C05: if compaction of a type dictionary returns, the result has all attributes that have a value. -/
def C05_statement : Prop :=
  ∀ (d : Dict) (v : PyVal) (k : String) (x : PyVal), d.keys.Nodup → cleanDict (.dict d) = .ok v →
    k ∈ ["name", "default", "doc", "alias", "logical"] → Dict.get? d k = some x → x ≠ .none →
    ∃ d', v = .dict d' ∧ Dict.get? d' k = some x

theorem get?_update {d e : Dict} {k : String} {x : PyVal} (hn : e.keys.Nodup) (h : Dict.get? e k = some x) :
    Dict.get? (Dict.update d e) k = some x := by
  induction e generalizing d with
  | nil => simp [Dict.get?] at h
  | cons kv e ih =>
    obtain ⟨k', y⟩ := kv
    rw [Dict.update_cons]
    simp only [Dict.keys_cons, List.nodup_cons] at hn
    rw [Dict.get?_cons] at h
    split at h
    · rename_i e1
      subst e1
      cases h
      have aux : ∀ (e d : Dict), k' ∉ e.keys → Dict.get? (Dict.update d e) k' = Dict.get? d k' := by
        intro e
        induction e with
        | nil => intro d _; rfl
        | cons kv e ih =>
          intro d he
          simp only [Dict.keys_cons, List.mem_cons, not_or] at he
          rw [Dict.update_cons, ih _ he.2, Dict.get?_set_ne _ _ (fun e => he.1 e.symm)]
      rw [aux e _ hn.1, Dict.get?_set_self]
    · exact ih hn.2 h

theorem cleanNested_get? {f : PyVal → Except PyErr PyVal} {n : String} {d d' : Dict} {k : String}
    (hk : k ∉ ["values", "keys", "fields", "types"]) (h : cleanNested f n d = .ok d') :
    Dict.get? d' k = Dict.get? d k ∧ (∀ k, k ∈ d'.keys → k ∈ d.keys) ∧ (d.keys.Nodup → d'.keys.Nodup) := by
  have set : ∀ (d : Dict) (k' : String) (w v : PyVal), k' ∈ ["values", "keys", "fields", "types"] →
      Dict.get? d k' = some w → Dict.get? (d.set k' v) k = Dict.get? d k ∧ (d.set k' v).keys = d.keys := by
    intro d k' w v hk' hg
    exact ⟨Dict.get?_set_ne _ _ (fun e => hk (e ▸ hk')), set_keys hg⟩
  by_cases hn : n ∈ ["list", "map", "struct", "union"]
  · simp only [List.mem_cons, List.not_mem_nil, or_false] at hn
    rcases hn with rfl | rfl | rfl | rfl
    · rw [cleanNested_list] at h
      cases hv : Dict.get? d "values" with
      | none => rw [hv] at h; cases h
      | some v =>
        rw [hv] at h
        simp only at h
        obtain ⟨v', h1, h2⟩ := ok_bind h
        cases h2
        obtain ⟨g1, g2⟩ := set d _ _ v' (by simp) hv
        exact ⟨g1, by rw [g2]; exact fun _ h => h, by rw [g2]; exact id⟩
    · rw [cleanNested_map] at h
      cases hv : Dict.get? d "values" with
      | none => rw [hv] at h; cases h
      | some v =>
        rw [hv] at h
        simp only at h
        obtain ⟨v', h1, h2⟩ := ok_bind h
        cases hkk : Dict.get? d "keys" with
        | none => rw [hkk] at h2; cases h2
        | some w =>
          rw [hkk] at h2
          simp only at h2
          obtain ⟨k', h3, h4⟩ := ok_bind h2
          cases h4
          obtain ⟨g1, g2⟩ := set d _ _ v' (by simp) hv
          obtain ⟨g3, g4⟩ := set (d.set "values" v') "keys" w k' (by simp)
            (by rw [Dict.get?_set_ne _ _ (by decide), hkk])
          exact ⟨g3.trans g1, by rw [g4, g2]; exact fun _ h => h, by rw [g4, g2]; exact id⟩
    · rw [cleanNested_struct] at h
      cases hv : Dict.get? d "fields" with
      | none => rw [hv] at h; cases h; exact ⟨rfl, fun _ h => h, id⟩
      | some v =>
        rw [hv] at h
        simp only at h
        obtain ⟨xs, h1, h2⟩ := ok_bind h
        obtain ⟨ys, h3, h4⟩ := ok_bind h2
        cases h4
        obtain ⟨g1, g2⟩ := set d _ _ (.list ys) (by simp) hv
        exact ⟨g1, by rw [g2]; exact fun _ h => h, by rw [g2]; exact id⟩
    · rw [cleanNested_union] at h
      cases hv : Dict.get? d "types" with
      | none => rw [hv] at h; cases h
      | some v =>
        rw [hv] at h
        simp only at h
        obtain ⟨xs, h1, h2⟩ := ok_bind h
        obtain ⟨ys, h3, h4⟩ := ok_bind h2
        cases h4
        obtain ⟨g1, g2⟩ := set d _ _ (.list ys) (by simp) hv
        exact ⟨g1, by rw [g2]; exact fun _ h => h, by rw [g2]; exact id⟩
  · rw [cleanNested_other _ _ hn] at h
    cases h; exact ⟨rfl, fun _ h => h, id⟩

/-- Shortening does not apply to dictionaries with another attribute. -/
theorem shorten_keeps {d : Dict} {v : PyVal} {k : String} {x : PyVal} (hk : k ≠ "type" ∧ k ≠ "types")
    (hg : Dict.get? d k = some x) (h : shorten d = .ok v) : v = .dict d := by
  have two : ∀ (a b : String), a ≠ b → a ∈ d.keys → b ∈ d.keys → d.length ≠ 1 := by
    intro a b hab ha hb hl
    match d, hl with
    | [kv], _ => simp [Dict.keys] at ha hb; exact hab (ha.trans hb.symm)
  have hm := mem_keys_of_get? hg
  unfold shorten at h
  cases ht : Dict.get? d "type" with
  | none => rw [ht] at h; simp at h
  | some ty =>
    have hm2 := mem_keys_of_get? ht
    have hl : (d.length == 1) = false := by simpa using two k "type" hk.1 hm hm2
    rw [ht] at h
    simp only [hl, Bool.false_eq_true, if_false] at h
    split at h
    · rename_i h2
      simp only [Bool.and_eq_true, beq_iff_eq] at h2
      cases hts : Dict.get? d "types" with
      | none => rw [hts] at h; cases h
      | some w =>
        have hm3 := mem_keys_of_get? hts
        exfalso
        match d, h2.2 with
        | [a, b], _ =>
          simp [Dict.keys] at hm hm2 hm3
          rcases hm with h | h <;> rcases hm2 with h' | h' <;> rcases hm3 with h'' | h'' <;> grind
    · cases h; rfl

theorem popStandard_length {d : Dict} (hn : d.keys.Nodup) (h1 : "type" ∈ d.keys) (h2 : "types" ∈ d.keys)
    (hk : ∀ k ∈ d.keys, k ∈ ["type", "types", "name", "default", "doc", "alias", "logical"]) :
    (popStandard d).length = 2 := by
  have hk' : ∀ k, k ∈ (popStandard d).keys ↔ k = "type" ∨ k = "types" := by
    intro k
    unfold popStandard
    simp only [Dict.mem_keys_erase]
    constructor
    · rintro ⟨⟨⟨⟨⟨hm, e1⟩, e2⟩, e3⟩, e4⟩, e5⟩
      have := hk k hm
      simp at this
      grind
    · rintro (rfl | rfl)
      · exact ⟨⟨⟨⟨⟨h1, by decide⟩, by decide⟩, by decide⟩, by decide⟩, by decide⟩
      · exact ⟨⟨⟨⟨⟨h2, by decide⟩, by decide⟩, by decide⟩, by decide⟩, by decide⟩
  have hnd : (popStandard d).keys.Nodup := by
    unfold popStandard
    simp only [Dict.keys_erase]
    exact ((((hn.filter _).filter _).filter _).filter _).filter _
  have l1 := length_le_of_nodup_subset hnd (b := ["type", "types"]) (fun k hm => by simpa using (hk' k).mp hm)
  have l2 := length_le_of_nodup_subset (a := ["type", "types"]) (b := (popStandard d).keys) (by decide)
    (fun k hm => (hk' k).mpr (by simpa using hm))
  simp [Dict.keys] at l1 l2
  omega

theorem sugarAttributes_get? {al df dc lg nm x : PyVal} {k : String} (hx : x ≠ .none)
    (h : (k, x) ∈ [("alias", al), ("default", df), ("doc", dc), ("logical", lg), ("name", nm)]) :
    Dict.get? (sugarAttributes al df dc lg nm) k = some x := by
  apply Dict.get?_of_mem_nodup (sugarAttributes_nodup ..)
  refine List.mem_filter.mpr ⟨?_, ?_⟩
  · simp at h ⊢; grind
  · cases x <;> simp [PyVal.isNone] at hx ⊢

/-- C05 for dictionaries whose type is a name, unless they are a union with a default that also has other attributes
than the standard ones.  Missing: these unions, and `type` given as a list. -/
theorem C05_attributes_kept_partial (d : Dict) (v : PyVal) (k : String) (x : PyVal) (n : String)
    (hn : d.keys.Nodup) (ht : Dict.get? d "type" = some (.str n))
    (hu : n = "union" → "default" ∈ d.keys →
      ∀ k ∈ d.keys, k ∈ ["type", "types", "name", "default", "doc", "alias", "logical"])
    (h : cleanDict (.dict d) = .ok v) (hk : k ∈ ["name", "default", "doc", "alias", "logical"])
    (hg : Dict.get? d k = some x) (hx : x ≠ .none) :
    ∃ d', v = .dict d' ∧ Dict.get? d' k = some x := by
  have hk2 : k ≠ "type" ∧ k ≠ "types" := by constructor <;> (rintro rfl; simp at hk)
  rw [cleanDict_eq] at h
  unfold cleanStep at h
  obtain ⟨d0, h0, h⟩ := ok_bind h
  have hty : Dict.has d "type" = true := by simp [Dict.has, ht]
  simp only [cleanNormalise, hty, if_true] at h0
  cases h0
  have hgd : Dict.getD d "type" .none = .str n := by simp [Dict.getD, ht]
  rw [hgd] at h
  obtain ⟨d1, h1, h⟩ := ok_bind h
  obtain ⟨d2, h2, h⟩ := ok_bind h
  have hdn : (dropDefaults (paramDefaults n) d).keys.Nodup := dropDefaults_nodup hn
  -- the attribute survives the removal of defaults and the cleaning of nested types
  have hpd : ∀ k, k ∈ ["name", "default", "doc", "alias", "logical"] →
      Dict.get? (paramDefaults n) k = .none ∨ Dict.get? (paramDefaults n) k = some .none := by
    intro k hk
    by_cases hb : k ∈ ["alias", "logical", "doc"]
    · exact .inr (paramDefaults_base hb)
    · refine .inl (paramDefaults_free ?_)
      simp at hk hb ⊢
      grind
  have keep : ∀ k y, k ∈ ["name", "default", "doc", "alias", "logical"] → Dict.get? d k = some y → y ≠ .none →
      Dict.get? d1 k = some y := by
    intro k y hk hg hy
    have hk' : k ∉ ["values", "keys", "fields", "types"] := by simp at hk ⊢; grind
    rw [(cleanNested_get? hk' h1).1, get?_drop hn, hg]
    rcases hpd k hk with e | e <;> rw [e]
    have : PyVal.pyEq .none y = false := by cases y <;> simp [PyVal.pyEq] at hy ⊢
    simp [this]
  have hg1 := keep k x hk hg hx
  have hty1 : Dict.get? d1 "type" = some (.str n) := by
    rw [(cleanNested_get? (by simp) h1).1, drop_keep hn (paramDefaults_free (by simp))]; exact ht
  have hn1 : d1.keys.Nodup := (cleanNested_get? (k := "type") (by simp) h1).2.2 hdn
  have hsub : ∀ k, k ∈ d1.keys → k ∈ d.keys := fun k hm =>
    dropDefaults_keys ((cleanNested_get? (k := "type") (by simp) h1).2.1 k hm)
  suffices hs : Dict.get? d2 k = some x from ⟨d2, shorten_keeps hk2 hs h, hs⟩
  -- the optional rewrite
  unfold sugarOptional at h2
  have hgd1 : Dict.getD d1 "type" .none = .str n := by simp [Dict.getD, hty1]
  rw [hgd1] at h2
  split at h2
  · cases h2; exact hg1
  · rename_i hnu
    have hnu : n = "union" := by simpa [PyVal.pyEq] using hnu
    cases hts : Dict.get? d1 "types" with
    | none => rw [hts] at h2; cases h2
    | some types =>
      rw [hts] at h2
      simp only at h2
      split at h2
      · cases h2
      · cases h2; exact hg1
      · split at h2
        · cases h2; exact hg1
        · rename_i hdef
          have hdef : "default" ∈ d1.keys := by
            rw [← Dict.has_iff]; simpa using hdef
          have hks := hu hnu (hsub _ hdef)
          have hlen := popStandard_length hn1 (mem_keys_of_get? hty1) (mem_keys_of_get? hts)
            (fun k hm => hks k (hsub k hm))
          simp only [hlen, beq_self_eq_true, if_true] at h2
          have hattr : Dict.get? (sugarAttributes (d1.getD "alias" .none) (d1.getD "default" .none)
              (d1.getD "doc" .none) (d1.getD "logical" .none) (d1.getD "name" .none)) k = some x := by
            apply sugarAttributes_get? hx
            have e : Dict.getD d1 k .none = x := by simp [Dict.getD, hg1]
            simp only [List.mem_cons, List.not_mem_nil, or_false] at hk
            rcases hk with rfl | rfl | rfl | rfl | rfl <;> rw [e] <;> simp
          split at h2
          · unfold sugarUnion at h2
            split at h2
            · cases h2; exact get?_update (sugarAttributes_nodup ..) hattr
            · cases h2; exact get?_update (sugarAttributes_nodup ..) hattr
            · cases h2
            · cases h2; exact get?_update (sugarAttributes_nodup ..) hattr
          · cases h2

/-- The dictionary of a union with a default and an attribute of its own. -/
def lossyDict : Dict := [("type", .str "union"), ("types", .list [.str "null", .str "bool"]),
  ("default", .bool true), ("doc", .str "kept?"), ("comment", .str "kept")]

/-- C05 is false in general. -/
theorem C05_lossy_union_refuted : ¬ C05_statement := by
  intro h
  have e : cleanDict (.dict lossyDict) = .ok (.dict [("type", .str "union"),
      ("types", .list [.str "null", .str "bool"]), ("comment", .str "kept")]) := by decide +kernel
  obtain ⟨d', h1, h2⟩ := h lossyDict _ "doc" (.str "kept?") (by decide +kernel) e (by simp) (by decide +kernel) (by simp)
  cases h1
  exact absurd h2 (by decide +kernel)

/-- C05 also fails for a `type` given as a list: everything but the members is dropped. -/
theorem C05_type_list_refuted : ¬ C05_statement := by
  intro h
  have e : cleanDict (.dict [("type", .list [.str "union"]), ("types", .list [.str "bool"]), ("doc", .str "d")]) =
      .ok (.list [.str "bool"]) := by decide +kernel
  obtain ⟨d', h1, -⟩ := h _ _ "doc" (.str "d") (by decide +kernel) e (by simp) (by decide +kernel) (by simp)
  cases h1

/-- A union to which the partial theorem applies; all five attributes are kept. -/
example : cleanDict (.dict [("type", .str "union"), ("types", .list [.str "null", .str "bool"]),
      ("default", .bool true), ("doc", .str "d"), ("name", .str "n"), ("alias", .str "a.B"), ("logical", .str "l")]) =
    .ok (.dict [("type", .str "union"), ("types", .list [.str "bool"]), ("alias", .str "a.B"),
      ("default", .bool true), ("doc", .str "d"), ("logical", .str "l"), ("name", .str "n"),
      ("optional", .bool true)]) := by decide +kernel

end Recap
