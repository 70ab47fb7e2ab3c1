import Verif.JsonKeptSpec
import Verif.JsonReadLemmas
import Verif.JsonDataThms
import Verif.JsonSchemaRead
import Verif.CommandsJson
import Verif.CompactRead

/-!
# Lemmas for C152
-/

set_option autoImplicit false

namespace Recap.JsonData

open Json
open Json.Spec (nameOf OptionalField Inside Spans IsReference Without)

variable {refs : String → PyVal → Prop} {live : Registry} {env : Url.Env}

/-! ## Names of types -/

/-- What a string in a list of types is read as. -/
theorem word_read {s : String} {i i' : Ids} {t : RType} (h : Json.parse env (.str s) i = .ok (t, i')) :
    (s = "string" ∧ t = .string .none (.bool true) {}) ∨ (s = "number" ∧ t = .float (.int 64) {}) ∨
      (s = "integer" ∧ t = .int (.int 32) (.bool true) {}) ∨ (s = "boolean" ∧ t = .bool {}) ∨ (s = "null" ∧ t = .null {}) := by
  rw [parse_str] at h
  obtain ⟨e, ids1, h1, h2⟩ := parse_dict_ok h
  have he : e = [] := by simp [extraAttrs, copied, Dict.get?] at h1; exact h1.1
  subst he
  cases h2 with
  | union ht _ => simp [Dict.get?] at ht
  | struct ht hp _ => simp [Dict.get?] at hp
  | list ht hi _ => simp [Dict.get?] at hi
  | leaf _ hl =>
    simp only [parseLeaf, Dict.get?, if_true, Option.some.injEq, PyVal.str.injEq] at hl
    repeat' split at hl
    all_goals first
      | (cases hl; simp_all [parseString, attrsOf, Dict.getD, Dict.get?])
      | simp_all

/-- Whole numbers are numbers. -/
def family (s : String) : String := if s = "integer" then "number" else s

theorem word_family {s : String} {i i' : Ids} {t : RType} (h : Json.parse env (.str s) i = .ok (t, i')) :
    kindOf t = some (family s) := by
  rcases word_read h with ⟨rfl, rfl⟩ | ⟨rfl, rfl⟩ | ⟨rfl, rfl⟩ | ⟨rfl, rfl⟩ | ⟨rfl, rfl⟩ <;> simp [kindOf, family]

theorem word_null {s : String} {i i' : Ids} {t : RType} (h : Json.parse env (.str s) i = .ok (t, i')) :
    t.isNull = true ↔ s = "null" := by
  rcases word_read h with ⟨rfl, rfl⟩ | ⟨rfl, rfl⟩ | ⟨rfl, rfl⟩ | ⟨rfl, rfl⟩ | ⟨rfl, rfl⟩ <;> simp [RType.isNull]

theorem shaped_kind {s : String} {t : RType} {j : PyVal} (h : (s = "string" ∧ ((∃ l v a, t = .string l v a) ∨ ∃ l v a, t = .bytes l v a)) ∨
      (s = "number" ∧ ∃ b a, t = .float b a) ∨ (s = "integer" ∧ ∃ b g a, t = .int b g a) ∨ (s = "boolean" ∧ ∃ a, t = .bool a) ∨
      (s = "null" ∧ ∃ a, t = .null a)) : Shaped live t j ↔ Kind s j := by
  rcases h with ⟨rfl, ⟨l, v, a, rfl⟩ | ⟨l, v, a, rfl⟩⟩ | ⟨rfl, b, a, rfl⟩ | ⟨rfl, b, g, a, rfl⟩ | ⟨rfl, a, rfl⟩ | ⟨rfl, a, rfl⟩
  · exact ⟨fun h => by cases h; exact .string, fun h => by obtain ⟨s, rfl⟩ := kind_string h; exact .string⟩
  · exact ⟨fun h => by cases h; exact .string, fun h => by obtain ⟨s, rfl⟩ := kind_string h; exact .bytes⟩
  · refine ⟨fun h => ?_, fun h => ?_⟩
    · cases h
      · exact .number
      · exact .whole
    · rcases kind_number h with ⟨i, rfl⟩ | ⟨m, e, rfl⟩
      · exact .whole
      · exact .float
  · refine ⟨fun h => ?_, fun h => ?_⟩
    · cases h
      · exact .integer
      · exact .point
    · rcases kind_integer h with ⟨i, rfl⟩ | ⟨q, e, rfl⟩
      · exact .int
      · exact .point
  · exact ⟨fun h => by cases h; exact .boolean, fun h => by obtain ⟨b, rfl⟩ := kind_boolean h; exact .bool⟩
  · exact ⟨fun h => by cases h; exact .null, fun h => by cases kind_null h; exact .null⟩

theorem word_shaped {s : String} {i i' : Ids} {t : RType} (h : Json.parse env (.str s) i = .ok (t, i')) {j : PyVal} :
    Shaped live t j ↔ Kind s j := by
  apply shaped_kind
  rcases word_read h with ⟨rfl, rfl⟩ | ⟨rfl, rfl⟩ | ⟨rfl, rfl⟩ | ⟨rfl, rfl⟩ | ⟨rfl, rfl⟩ <;> simp

theorem words_kinds {ss : List String} {i i' : Ids} {ts : List RType}
    (h : Json.parseAll (Json.parse env) (ss.map .str) i = .ok (ts, i')) : ts.map kindOf = ss.map (fun s => some (family s)) := by
  induction ss generalizing i ts with
  | nil => cases h; rfl
  | cons s ss ih =>
    simp only [List.map_cons, Json.parseAll] at h
    obtain ⟨⟨t, i1⟩, h1, h⟩ := ok_bind h
    obtain ⟨⟨ts', i2⟩, h2, h⟩ := ok_bind h
    cases h
    simp only [List.map_cons, word_family h1, ih h2]

theorem family_nodup {ss : List String} (hn : ss.Nodup) (hi : ¬("integer" ∈ ss ∧ "number" ∈ ss)) :
    (ss.map (fun s => some (family s))).Nodup := by
  rw [List.Nodup, List.pairwise_map]
  refine List.Pairwise.imp_of_mem ?_ hn
  intro a b ha hb hab e
  simp only [family, Option.some.injEq] at e
  split at e <;> split at e <;> simp_all

/-! ## Leaves -/

theorem leaf_read {d e : Dict} {i i' : Ids} {t : RType} (h : parseLeaf env e d i = .ok (t, i'))
    (h1 : "$ref" ∉ Dict.keys d) (h2 : "$dynamicRef" ∉ Dict.keys d) :
    ∃ s, Dict.get? d "type" = some (.str s) ∧
      ((s = "string" ∧ ((∃ l v a, t = .string l v a) ∨ ∃ l v a, t = .bytes l v a)) ∨
      (s = "number" ∧ ∃ b a, t = .float b a) ∨ (s = "integer" ∧ ∃ b g a, t = .int b g a) ∨ (s = "boolean" ∧ ∃ a, t = .bool a) ∨
      (s = "null" ∧ ∃ a, t = .null a)) ∧ t.attrs.alias = (attrsOf e).alias := by
  simp only [parseLeaf, Dict.get?_eq_none_iff.mpr h1, Dict.get?_eq_none_iff.mpr h2] at h
  repeat' split at h
  · rename_i ht
    cases h
    refine ⟨_, ht, .inl ⟨rfl, ?_⟩, ?_⟩
    · unfold parseString
      repeat' split
      · exact .inr ⟨_, _, _, rfl⟩
      all_goals exact .inl ⟨_, _, _, rfl⟩
    · unfold parseString
      repeat' split
      all_goals rfl
  · rename_i ht; cases h; exact ⟨_, ht, .inr (.inl ⟨rfl, _, _, rfl⟩), rfl⟩
  · rename_i ht; cases h; exact ⟨_, ht, .inr (.inr (.inl ⟨rfl, _, _, _, rfl⟩)), rfl⟩
  · rename_i ht; cases h; exact ⟨_, ht, .inr (.inr (.inr (.inl ⟨rfl, _, rfl⟩))), rfl⟩
  · rename_i ht; cases h; exact ⟨_, ht, .inr (.inr (.inr (.inr ⟨rfl, _, rfl⟩))), rfl⟩
  all_goals cases h

/-! ## Fields -/

theorem optional_default {ts : List RType} {x y : Dict} (h : Dict.has x "default" = Dict.has y "default") :
    RType.isOptional ts x = RType.isOptional ts y := by
  simp only [RType.isOptional, h]

theorem shaped_with {t : RType} {j : PyVal} (a : Attrs) (ht : t.isProxy = false)
    (ha : Dict.has a.extra "default" = Dict.has t.attrs.extra "default") (h : Shaped live t j) : Shaped live (t.withAttrs a) j := by
  cases h with
  | null => exact .null
  | bool => exact .bool
  | int => exact .int
  | point => exact .point
  | float => exact .float
  | whole => exact .whole
  | string => exact .string
  | bytes => exact .bytes
  | enum h => exact .enum h
  | list h => exact .list h
  | map h => exact .map h
  | struct h1 h2 h3 => exact .struct h1 h2 h3
  | @union ts t j b h1 h2 h3 =>
    refine .union h1 (fun ho => h2 ?_) h3
    obtain ⟨ts', a', e, ho⟩ := ho
    cases e
    exact ⟨_, _, rfl, (optional_default (x := a.extra) (y := b.extra) ha) ▸ ho⟩
  | reference => cases ht

theorem shaped_without {t : RType} {j : PyVal} {a : Attrs} (ht : t.isProxy = false)
    (ha : Dict.has a.extra "default" = Dict.has t.attrs.extra "default") (h : Shaped live (t.withAttrs a) j) : Shaped live t j := by
  have := shaped_with t.attrs (by rw [isProxy_withAttrs]; exact ht) (by rw [attrs_withAttrs]; exact ha.symm) h
  have e : (t.withAttrs a).withAttrs t.attrs = t := by cases t <;> rfl
  rwa [e] at this

theorem has_named (name : String) (t : RType) :
    Dict.has (Dict.set t.attrs.extra "name" (.str name)) "default" = Dict.has t.attrs.extra "default" := by
  simp only [Dict.has]
  rw [Dict.get?_set_ne]
  decide

theorem shaped_named {t : RType} {j : PyVal} {name : String} (ht : t.isProxy = false) :
    Shaped live (named name t) j ↔ Shaped live t j :=
  ⟨fun h => shaped_without ht (has_named name t) h, fun h => shaped_with _ ht (has_named name t) h⟩

theorem optional_named {t : RType} {name : String} : OptionalField (named name t) ↔ OptionalField t := by
  constructor
  · rintro ⟨ts, a, e, h⟩
    cases t <;> simp only [named, RType.withAttrs] at e <;> try cases e
    exact ⟨_, _, rfl, (optional_default (has_named name (.union _ _))) ▸ h⟩
  · rintro ⟨ts, a, rfl, h⟩
    refine ⟨ts, _, rfl, ?_⟩
    simp only
    rw [optional_default (has_named name (.union ts a))]
    exact h

/-- A type that is not null and no union, or a union of one type that is not null. -/
def Single (t : RType) : Prop :=
  (t.isNull = false ∧ t.isUnion = false ∧ t.isProxy = false) ∨ ∃ t0 a, t = .union [t0] a ∧ t0.isNull = false

theorem not_plain {t : RType} (h : t.isNull = false) : RType.pyEq t (.null {}) = false := by
  cases hp : RType.pyEq t (.null {}) with
  | false => rfl
  | true => rw [Hive.pyEq_null hp] at h; cases h

theorem optional_pair {t : RType} {x : Dict} (h : t.isNull = false) (hd : Dict.has x "default" = true) :
    RType.isOptional [.null {}, t] x = true := by
  have h1 : RType.pyEq (.null {}) (.null {}) = true := plainNull_eq
  simp [RType.isOptional, h1, not_plain h, hd, List.filter]

theorem shaped_pair {t : RType} {a : Attrs} {j : PyVal} (h : t.isNull = false) (hd : Dict.has a.extra "default" = true) :
    Shaped live (.union [.null {}, t] a) j ↔ Shaped live t j := by
  have ho : OptionalField (.union [.null {}, t] a) := ⟨_, _, rfl, optional_pair h hd⟩
  constructor
  · intro hs
    cases hs with
    | union h1 h2 h3 =>
      have := h2 ho
      simp only [List.mem_cons, List.not_mem_nil, or_false] at h1
      rcases h1 with rfl | rfl
      · cases this
      · exact h3
  · exact fun hs => .union (by simp) (fun _ => h) hs

theorem isNull_with (t : RType) (a : Attrs) : (t.withAttrs a).isNull = t.isNull := by cases t <;> rfl

/-- The field for a property that is not required. -/
theorem single_optional {t : RType} (h : Single t) : ∃ u a, optionalField t = .union [.null {}, u] a ∧ u.isNull = false ∧
    Dict.has a.extra "default" = true ∧
    ((t.isUnion = false ∧ t.isProxy = false ∧ (∃ b : Attrs, u = t.withAttrs b ∧ b.alias = t.attrs.alias) ∧ a.alias = .none) ∨
      ∃ b, t = .union [u] b ∧ a.alias = b.alias) := by
  rcases h with ⟨h1, h2, h3⟩ | ⟨t0, a, rfl, h1⟩
  · have hn : t.isNullable = false := by cases t <;> simp_all [RType.isNullable, RType.isNull, RType.isUnion]
    have hm : t.makeNullable = .union [.null {}, t.withAttrs { t.attrs with doc := .none, extra := RType.demoted t.attrs.extra }]
        { doc := t.attrs.doc, extra := RType.promoted t.attrs } := by
      cases t <;> simp_all [RType.makeNullable, RType.isUnion, RType.addNull, RType.isNull, RType.withAttrs]
    have hd : Dict.has (RType.promoted t.attrs) "default" = true := by
      unfold RType.promoted
      split <;> simp [Dict.has, Dict.get?]
    refine ⟨t.withAttrs { t.attrs with doc := .none, extra := RType.demoted t.attrs.extra },
      { doc := t.attrs.doc, extra := RType.promoted t.attrs }, ?_, by rw [isNull_with]; exact h1, hd, .inl ⟨h2, h3, ⟨_, rfl, rfl⟩, rfl⟩⟩
    unfold optionalField
    rw [hn, hm]
    simp only [Bool.false_eq_true, if_false]
    exact if_pos hd
  · have hn : (RType.union [t0] a).isNullable = false := by simp [RType.isNullable, h1]
    have hd : Dict.has (RType.demoted a.extra ++ RType.promoted a) "default" = true := by
      rw [Dict.has_iff]
      simp only [Dict.keys, List.map_append, List.mem_append]
      right
      unfold RType.promoted
      split <;> simp
    refine ⟨t0, { logical := a.logical, alias := a.alias, doc := a.doc, extra := RType.demoted a.extra ++ RType.promoted a }, ?_, h1, hd,
      .inr ⟨a, rfl, rfl⟩⟩
    unfold optionalField
    simp only [hn, Bool.false_eq_true, if_false, RType.makeNullable, RType.addNull, List.any_cons, h1, List.any_nil, Bool.or_false,
      RType.attrs, hd, if_true]

theorem shaped_attrs {t : RType} {j : PyVal} (h2 : t.isUnion = false) (h3 : t.isProxy = false) (b : Attrs) :
    Shaped live (t.withAttrs b) j ↔ Shaped live t j := by
  have leaf : ∀ c, Shaped live (t.withAttrs c) j → ∀ c', Shaped live (t.withAttrs c') j := by
    intro c h c'
    cases t with
    | union => cases h2
    | proxy => cases h3
    | _ =>
      simp only [RType.withAttrs] at h ⊢
      cases h <;> constructor <;> assumption
  have self : t.withAttrs t.attrs = t := by cases t <;> rfl
  constructor
  · intro h; have := leaf _ h t.attrs; rwa [self] at this
  · intro h; rw [← self] at h; exact leaf _ h b

theorem shaped_optional {t : RType} {j : PyVal} (h : Single t) :
    Shaped live (optionalField t) j ↔ Shaped live t j := by
  obtain ⟨u, a, e, hu, hd, hw⟩ := single_optional h
  rw [e, shaped_pair hu hd]
  rcases hw with ⟨h2, h3, ⟨b, rfl, -⟩, -⟩ | ⟨b, rfl, -⟩
  · exact shaped_attrs h2 h3 b
  · refine ⟨fun h => .union (by simp) (fun _ => hu) h, fun h => ?_⟩
    cases h with
    | union h1 _ h3 => cases List.mem_singleton.mp h1; exact h3

theorem optional_single {t : RType} (h : Single t) : OptionalField (optionalField t) := by
  obtain ⟨u, a, e, hu, hd, -⟩ := single_optional h
  rw [e]
  exact ⟨_, _, rfl, optional_pair hu hd⟩

/-- What is read for a schema with one type. -/
theorem oneType_single {v : PyVal} (hv : OneType v) (hr : ∀ d, v = .dict d → "$ref" ∉ Dict.keys d ∧ "$dynamicRef" ∉ Dict.keys d)
    {i i' : Ids} {t : RType} (h : Json.parse env v i = .ok (t, i')) : Single t := by
  obtain ⟨d, s, rfl, hs, ht⟩ := hv
  obtain ⟨e, ids1, -, h2⟩ := parse_dict_ok h
  cases h2 with
  | @union xs ts _ hx hp =>
    rcases ht with ht | ht
    · rw [ht] at hx; cases hx
    · rw [ht] at hx
      cases hx
      simp only [Json.parseAll] at hp
      obtain ⟨⟨u, i1⟩, h1, hp⟩ := ok_bind hp
      cases hp
      refine .inr ⟨u, _, rfl, ?_⟩
      cases hn : u.isNull with
      | false => rfl
      | true => exact absurd ((word_null h1).mp hn) hs
  | struct => exact .inl ⟨rfl, rfl, rfl⟩
  | list => exact .inl ⟨rfl, rfl, rfl⟩
  | leaf hl h =>
    obtain ⟨s', hs', hc, -⟩ := leaf_read h (hr d rfl).1 (hr d rfl).2
    have : s' = s := by
      rcases ht with ht | ht
      · rw [ht] at hs'; cases hs'; rfl
      · exact absurd ht (hl _)
    subst this
    rcases hc with ⟨rfl, ⟨l, v, a, rfl⟩ | ⟨l, v, a, rfl⟩⟩ | ⟨rfl, b, a, rfl⟩ | ⟨rfl, b, g, a, rfl⟩ | ⟨rfl, a, rfl⟩ | ⟨rfl, a, rfl⟩
    all_goals first | exact .inl ⟨rfl, rfl, rfl⟩ | exact absurd rfl hs

/-! ## Reading -/

theorem kept_refs {v : PyVal} (h : Kept v) : ∀ d, v = .dict d → "$ref" ∉ Dict.keys d ∧ "$dynamicRef" ∉ Dict.keys d := by
  intro d e
  cases h with
  | mk h1 h2 => cases e; exact ⟨h1, h2⟩

theorem kept_proxy {v : PyVal} (hk : Kept v) {i i' : Ids} {t : RType} (h : Json.parse env v i = .ok (t, i')) : t.isProxy = false := by
  obtain ⟨h1, h2⟩ : (∃ d, v = .dict d) ∧ ∀ d, v = .dict d → "$ref" ∉ Dict.keys d ∧ "$dynamicRef" ∉ Dict.keys d :=
    ⟨by cases hk; exact ⟨_, rfl⟩, kept_refs hk⟩
  obtain ⟨d, rfl⟩ := h1
  obtain ⟨e, ids1, -, hr⟩ := parse_dict_ok h
  cases hr with
  | union => rfl
  | struct => rfl
  | list => rfl
  | leaf _ hl =>
    obtain ⟨s, -, hc, -⟩ := leaf_read hl (h2 d rfl).1 (h2 d rfl).2
    rcases hc with ⟨rfl, ⟨l, v, a, rfl⟩ | ⟨l, v, a, rfl⟩⟩ | ⟨rfl, b, a, rfl⟩ | ⟨rfl, b, g, a, rfl⟩ | ⟨rfl, a, rfl⟩ | ⟨rfl, a, rfl⟩ <;> rfl

/-- A union that is read from a list of types with null has no default. -/
theorem union_optional {d e : Dict} {ss : List String} {i i1 i2 : Ids} {ts : List RType}
    (he : extraAttrs env (.dict d) i = .ok (e, i1)) (hp : Json.parseAll (Json.parse env) (ss.map .str) i1 = .ok (ts, i2))
    (hd : "default" ∈ Dict.keys d → "null" ∉ ss) (ho : OptionalField (.union ts (attrsOf e))) {t : RType} (ht : t ∈ ts) :
    t.isNull = false := by
  obtain ⟨ts', a', e', ho⟩ := ho
  cases e'
  simp only [RType.isOptional, Bool.and_eq_true] at ho
  have := hd ((extra_default he).mp (Dict.has_iff.mp ho.1.2))
  cases hn : t.isNull with
  | false => rfl
  | true =>
    obtain ⟨x, hx, i, i', h⟩ := parseAll_back hp ht
    obtain ⟨s, hs, rfl⟩ := List.mem_map.mp hx
    rw [(word_null h).mp hn] at hs
    exact absurd hs this

/-- Valid values have the shape of the type that is read. -/
theorem kept_shaped {v : PyVal} (hk : Kept v) : ∀ {i i' : Ids} {t : RType}, Json.parse env v i = .ok (t, i') → ∀ {j : PyVal},
    Valid refs v j → Shaped live t j := by
  induction hk with
  | @mk d h1 h2 h3 h4 h5 h6 ih4 ih5 =>
    intro i i' t h j hj
    obtain ⟨e, ids1, he, hr⟩ := parse_dict_ok h
    cases hr with
    | @union xs ts _ ht hp =>
      obtain ⟨ss, rfl, hn, hf, hd⟩ := h3 _ ht
      obtain ⟨s, hs, hkd⟩ := (valid_get hj ht).type rfl
      obtain ⟨u, hu, i1, i2, hf⟩ := JsonData.parseAll_mem hp hs
      exact .union hu (fun ho => union_optional he hp hd ho hu) ((word_shaped hf).mpr hkd)
    | @list items u _ ht hi hp =>
      obtain ⟨xs, rfl⟩ := kind_array ((valid_get hj ht).type rfl)
      exact .list fun x hx => ih4 _ hi hp ((valid_get hj hi).items rfl xs rfl x hx)
    | leaf _ hl =>
      obtain ⟨s, hs, hc, -⟩ := leaf_read hl h1 h2
      exact (shaped_kind hc).mpr ((valid_get hj hs).type rfl)
    | @struct ps ts _ ht hps hp =>
      obtain ⟨o, rfl⟩ := kind_object ((valid_get hj ht).type rfl)
      have hv := (valid_get hj hps).properties rfl
      rw [Properties, propertiesAll_iff] at hv
      refine .struct (fun f hf => ?_) (fun f hf name w hn hw => ?_) (fun f hf name hn hw => ?_)
      · obtain ⟨name, _, u, l, _, _, _, _, _, rfl⟩ := JsonData.parseProps_mem hp hf
        exact ⟨name, named_name ..⟩
      · obtain ⟨name', prop, u, l, i1, i2, g1, g2, g3, rfl⟩ := JsonData.parseProps_mem hp hf
        rw [named_name] at hn
        cases hn
        have hs : Shaped live u w := ih5 _ _ _ hps g1 g2 (hv _ g1 o w rfl hw)
        have hx := kept_proxy (h5 _ _ _ hps g1) g2
        cases l with
        | true => exact (shaped_named hx).mpr hs
        | false =>
          have hone := oneType_single (h6 _ _ _ hps g1 (fun ha => by have := (asked_iff g3).mp ha; cases this))
            (kept_refs (h5 _ _ _ hps g1)) g2
          simp only [Bool.false_eq_true, if_false]
          exact (shaped_named (optionalField_proxy hx)).mpr ((shaped_optional hone).mpr hs)
      · obtain ⟨name', prop, u, l, i1, i2, g1, g2, g3, rfl⟩ := JsonData.parseProps_mem hp hf
        rw [named_name] at hn
        cases hn
        rw [optional_named]
        cases l with
        | false =>
          simp only [Bool.false_eq_true, if_false]
          exact optional_single (oneType_single (h6 _ _ _ hps g1 (fun ha => by have := (asked_iff g3).mp ha; cases this))
            (kept_refs (h5 _ _ _ hps g1)) g2)
        | true =>
          exfalso
          obtain ⟨r, hreq, hc⟩ := (asked_iff g3).mpr rfl
          have := (valid_get hj hreq).required rfl
          cases r with
          | list xs =>
            simp only [PyVal.containsStr, Except.ok.injEq, List.any_eq_true] at hc
            obtain ⟨x, hx, hxe⟩ := hc
            obtain ⟨m, rfl, hm'⟩ := this o rfl x hx
            simp [PyVal.pyEq] at hxe
            subst hxe
            exact absurd hm' (Dict.get?_eq_none_iff.mp hw)
          | _ => exact this

/-- If only keywords are there that are read, only valid values have the shape of the type. -/
theorem shaped_kept {v : PyVal} (hk : Kept v) (hc : Covered v) : ∀ {i i' : Ids} {t : RType}, Json.parse env v i = .ok (t, i') →
    ∀ {j : PyVal}, Shaped live t j → Valid refs v j := by
  induction hk with
  | @mk d h1 h2 h3 h4 h5 h6 ih4 ih5 =>
    intro i i' t h j hj
    obtain ⟨e, ids1, he, hr⟩ := parse_dict_ok h
    cases hc with
    | mk c1 c2 c3 c4 c5 c6 =>
    rw [valid_iff]
    rintro ⟨k, w⟩ hkw
    have hg := get?_nodup c1 hkw
    have none : ∀ k' ∈ ["enum", "oneOf", "additionalProperties"], k ≠ k' := by
      rintro k' hk' rfl
      exact c2 _ hk' (Dict.has_iff.mp (by simp [Dict.has, hg]))
    have noRef : k ≠ "$ref" := by
      rintro rfl
      exact h1 (Dict.has_iff.mp (by simp [Dict.has, hg]))
    refine ⟨?_, fun e => absurd e (none _ (by simp)), ?_, fun e => absurd e noRef, ?_, fun e => absurd e (none _ (by simp)), ?_,
      fun e => absurd e (none _ (by simp))⟩
    · rintro rfl
      cases hr with
      | @union xs ts _ ht hp =>
        rw [ht] at hg
        cases hg
        obtain ⟨ss, rfl, hn, hf, hd⟩ := h3 _ ht
        cases hj with
        | union g1 g2 g3 =>
          obtain ⟨x, hx, i, i', h⟩ := parseAll_back hp g1
          obtain ⟨s, hs, rfl⟩ := List.mem_map.mp hx
          exact ⟨s, hx, (word_shaped h).mp g3⟩
      | list ht _ _ =>
        rw [ht] at hg; cases hg; cases hj; exact .array
      | struct ht _ _ =>
        rw [ht] at hg; cases hg; cases hj; exact .object
      | leaf _ hl =>
        obtain ⟨s, hs, hc, -⟩ := leaf_read hl h1 h2
        rw [hs] at hg
        cases hg
        exact (shaped_kind hc).mp hj
    · rintro rfl
      obtain ⟨xs, rfl, hxs⟩ := c3 _ hg
      rintro o rfl x hx
      obtain ⟨n, ps, s, rfl, hps, hn⟩ := hxs x hx
      refine ⟨n, rfl, ?_⟩
      cases hr with
      | union ht hp =>
        exfalso
        obtain ⟨ss, rfl, -, -, -⟩ := h3 _ ht
        cases hj with
        | union g1 _ g3 =>
          obtain ⟨x, hx, i, i', h⟩ := parseAll_back hp g1
          obtain ⟨s, hs, rfl⟩ := List.mem_map.mp hx
          rcases word_read h with ⟨-, rfl⟩ | ⟨-, rfl⟩ | ⟨-, rfl⟩ | ⟨-, rfl⟩ | ⟨-, rfl⟩ <;> cases g3
      | list => cases hj
      | leaf _ hl =>
        exfalso
        obtain ⟨s, -, hc, -⟩ := leaf_read hl h1 h2
        rcases hc with ⟨rfl, ⟨l, v, a, rfl⟩ | ⟨l, v, a, rfl⟩⟩ | ⟨rfl, b, a, rfl⟩ | ⟨rfl, b, g, a, rfl⟩ | ⟨rfl, a, rfl⟩ | ⟨rfl, a, rfl⟩ <;> cases hj
      | struct ht hps' hp =>
        rw [hps] at hps'
        cases hps'
        obtain ⟨u, l, i1, i2, g1, g2, g3⟩ := parseProps_back hp hn
        have hl : l = true := (asked_iff g2).mp ⟨_, hg, by simp only [PyVal.containsStr, Except.ok.injEq, List.any_eq_true]; exact ⟨_, hx, by simp [PyVal.pyEq]⟩⟩
        subst hl
        cases hj with
        | struct _ _ s3 =>
          by_cases hm : n ∈ Dict.keys o
          · exact hm
          exfalso
          have := s3 _ g3 n (named_name ..) (Dict.get?_eq_none_iff.mpr hm)
          rw [optional_named] at this
          simp only [if_true] at this
          obtain ⟨ts', a', rfl, ho⟩ := this
          have hkept := h5 _ _ _ hps hn
          cases hkept with
          | mk k1 k2 k3 =>
            obtain ⟨e', ids2, he', hr'⟩ := parse_dict_ok g1
            cases hr' with
            | union ht' hp' =>
              obtain ⟨ss, rfl, -, -, hd⟩ := k3 _ ht'
              have ho' : OptionalField (.union ts' (attrsOf e')) := ⟨_, _, rfl, ho⟩
              have : ∃ u ∈ ts', u.isNull = true := by
                simp only [RType.isOptional, Bool.and_eq_true, List.any_eq_true] at ho
                obtain ⟨⟨⟨u, hu, hp⟩, -⟩, -⟩ := ho
                exact ⟨u, hu, by cases u <;> simp_all [RType.pyEq, RType.isNull]⟩
              obtain ⟨u, hu, hn⟩ := this
              rw [union_optional he' hp' hd ho' hu] at hn
              cases hn
            | leaf _ hl' =>
              obtain ⟨s, -, hc, -⟩ := leaf_read hl' k1 k2
              rcases hc with ⟨_, ⟨_, _, _, e⟩ | ⟨_, _, _, e⟩⟩ | ⟨_, _, _, e⟩ | ⟨_, _, _, _, e⟩ | ⟨_, _, e⟩ | ⟨_, _, e⟩ <;> cases e
    · rintro rfl
      rintro xs rfl x hx
      have hcov := c4 _ hg
      cases hr with
      | list ht hi hp =>
        rw [hg] at hi
        cases hi
        cases hj with
        | list s => exact ih4 _ hg hcov hp (s x hx)
      | union ht hp =>
        exfalso
        obtain ⟨ss, rfl, -, -, -⟩ := h3 _ ht
        cases hj with
        | union g1 _ g3 =>
          obtain ⟨x, hx, i, i', h⟩ := parseAll_back hp g1
          obtain ⟨s, hs, rfl⟩ := List.mem_map.mp hx
          rcases word_read h with ⟨-, rfl⟩ | ⟨-, rfl⟩ | ⟨-, rfl⟩ | ⟨-, rfl⟩ | ⟨-, rfl⟩ <;> cases g3
      | struct => cases hj
      | leaf _ hl =>
        exfalso
        obtain ⟨s, -, hc, -⟩ := leaf_read hl h1 h2
        rcases hc with ⟨rfl, ⟨l, v, a, rfl⟩ | ⟨l, v, a, rfl⟩⟩ | ⟨rfl, b, a, rfl⟩ | ⟨rfl, b, g, a, rfl⟩ | ⟨rfl, a, rfl⟩ | ⟨rfl, a, rfl⟩ <;> cases hj
    · rintro rfl
      obtain ⟨ps, rfl, -⟩ := c5 _ hg
      rw [Properties, propertiesAll_iff]
      rintro ⟨n, s⟩ hn o w rfl hw
      cases hr with
      | struct ht hps hp =>
        rw [hg] at hps
        cases hps
        obtain ⟨u, l, i1, i2, g1, g2, g3⟩ := parseProps_back hp hn
        have hx := kept_proxy (h5 _ _ _ hg hn) g1
        cases hj with
        | struct _ s2 _ =>
          have hs := s2 _ g3 n w (named_name ..) hw
          refine ih5 _ _ _ hg hn (c6 _ _ _ hg hn) g1 ?_
          cases l with
          | true => exact (shaped_named hx).mp hs
          | false =>
            have hone := oneType_single (h6 _ _ _ hg hn (fun ha => by have := (asked_iff g2).mp ha; cases this))
              (kept_refs (h5 _ _ _ hg hn)) g1
            simp only [Bool.false_eq_true, if_false] at hs
            exact (shaped_optional hone).mp ((shaped_named (optionalField_proxy hx)).mp hs)
      | union ht hp =>
        exfalso
        obtain ⟨ss, rfl, -, -, -⟩ := h3 _ ht
        cases hj with
        | union g1 _ g3 =>
          obtain ⟨x, hx, i, i', h⟩ := parseAll_back hp g1
          obtain ⟨s, hs, rfl⟩ := List.mem_map.mp hx
          rcases word_read h with ⟨-, rfl⟩ | ⟨-, rfl⟩ | ⟨-, rfl⟩ | ⟨-, rfl⟩ | ⟨-, rfl⟩ <;> cases g3
      | list => cases hj
      | leaf _ hl =>
        exfalso
        obtain ⟨s, -, hc, -⟩ := leaf_read hl h1 h2
        rcases hc with ⟨rfl, ⟨l, v, a, rfl⟩ | ⟨l, v, a, rfl⟩⟩ | ⟨rfl, b, a, rfl⟩ | ⟨rfl, b, g, a, rfl⟩ | ⟨rfl, a, rfl⟩ | ⟨rfl, a, rfl⟩ <;> cases hj

end Recap.JsonData
