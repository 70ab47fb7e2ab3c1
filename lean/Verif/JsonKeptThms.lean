import Verif.JsonKeptTypes
import Verif.JsonReadThms

/-!
# C152: a JSON Schema that is read and written again keeps its meaning

`C152_same_partial` is about schemas without references (`Kept`) that only have the keywords the converter reads
(`Covered`); `C152_valid_partial` says what remains for schemas with other keywords.
-/

set_option autoImplicit false

namespace Recap.JsonData

open Json
open Url (asciiEnv)
open Json.Spec (nameOf OptionalField Inside Spans IsReference BuiltinOnly Builtin)

variable {refs refs' : String → PyVal → Prop} {live : Registry} {env : Url.Env}

/-- C152.  The same values are valid against a schema and against the one that is written for what is read from it, if it
has no references, only keywords that are read, and no identifiers but its own. -/
theorem C152_same_partial {v : PyVal} {t : RType} {ids ids' : Ids} {d : Dict} {j : PyVal}
    (h : toRecap env v ids = .ok (t, ids')) (hw : fromRecap live t = .ok d) (hr : Interprets refs' d) (hk : Kept v)
    (hc : Covered v) (hid : ∀ e, Part (.dict e) v → "$id" ∈ Dict.keys e → v = .dict e)
    (ha : ∀ s, t.attrs.alias = .str s → s ≠ "" ∧ ¬Builtin (.str s)) : Valid refs' (.dict d) j ↔ Valid refs v j := by
  have hp := toRecap_parse h
  have hb : BuiltinOnly live t := kept_builtin hk hp
  rw [C132_exactly_partial hw (kept_definite hk h hid ha) hr (names_spans hb (kept_names hk hc hp))
    (distinct_spans hb (kept_distinct hk hp))]
  exact ⟨shaped_kept hk hc hp, kept_shaped hk hp⟩

/-- C152.  Whatever other keywords there are, values that are valid against the schema remain valid. -/
theorem C152_valid_partial {v : PyVal} {t : RType} {ids ids' : Ids} {d : Dict} {j : PyVal}
    (h : toRecap env v ids = .ok (t, ids')) (hw : fromRecap live t = .ok d) (hr : Interprets refs' d) (hk : Kept v)
    (hid : ∀ e, Part (.dict e) v → "$id" ∈ Dict.keys e → v = .dict e)
    (ha : ∀ s, t.attrs.alias = .str s → s ≠ "" ∧ ¬Builtin (.str s)) (hj : Valid refs v j) : Valid refs' (.dict d) j := by
  have hp := toRecap_parse h
  have hb : BuiltinOnly live t := kept_builtin hk hp
  have hd : Definite live t := kept_definite hk h hid ha
  obtain ⟨n, s, defs, hs, hx, rfl⟩ := fromRecap_ok hw
  rw [Interprets, defsOf_written (convertF_no_defs hs)] at hr
  have hv := convert_valid (distinct_spans hb (kept_distinct hk hp)) (definite_defined hd hx hr) hs (kept_shaped hk hp hj)
  split
  · exact hv
  · exact (valid_defs (convertF_no_defs hs)).mpr hv

/-- C152.  A schema is written, if there are no identifiers and no property has an empty name. -/
theorem C152_written_partial {v : PyVal} {t : RType} {ids ids' : Ids} (h : toRecap env v ids = .ok (t, ids')) (hk : Kept v)
    (hid : ∀ e, Part (.dict e) v → "$id" ∉ Dict.keys e)
    (hn : ∀ e ps n s, Part (.dict e) v → Dict.get? e "properties" = some (.dict ps) → (n, s) ∈ ps → n ≠ "") :
    ∃ d, fromRecap live t = .ok d := by
  have hp := toRecap_parse h
  have sub : ∀ {u w : RType}, Recap.Spec.Sub u w → (∀ x, Inside x w → ∀ k v a, x ≠ .map k v a) → Inside u w := by
    intro u w hs
    induction hs with
    | refl => exact fun _ => .refl
    | list _ ih => exact fun hm => .list (ih fun x hx => hm x (.list hx))
    | key _ ih => exact fun hm => absurd rfl (hm _ .refl _ _ _)
    | value _ ih => exact fun hm => absurd rfl (hm _ .refl _ _ _)
    | field h _ ih => exact fun hm => .field h (ih fun x hx => hm x (.field h hx))
    | member h _ ih => exact fun hm => .member h (ih fun x hx => hm x (.member h hx))
  refine fromRecap_plain fun u hu => ?_
  have hi : Inside u t := sub hu fun x hx => (kept_no_proxy hk hp hx).2
  exact ⟨(kept_no_proxy hk hp hi).1, kept_aliases hk hp hid hi, (kept_parts hk hp hn hi).1, (kept_parts hk hp hn hi).2⟩

/-! ## An example -/

/-- A schema with an identifier, a list of numbers that can be null, and a property with a default. -/
def basketProps : Dict :=
  [("ids", .dict [("type", .str "array"), ("items", .dict [("type", .list [.str "null", .str "integer"])])]),
   ("note", .dict [("type", .list [.str "string"]), ("default", .str "")])]

/-- The whole schema. -/
def basketDict : Dict :=
  [("$id", .str "http://recap.build/basket"), ("type", .str "object"), ("required", .list [.str "ids"]),
    ("properties", .dict basketProps)]

/-- What is read from it. -/
def basketType : RType :=
  .struct [.list (.union [.null {}, .int (.int 32) (.bool true) {}] {}) .none (.bool true) { extra := [("name", .str "ids")] },
    .union [.null {}, .string .none (.bool true) {}] { extra := [("default", .str ""), ("name", .str "note")] }]
    { alias := .str "build.recap.basket" }

/-- What is written for it. -/
def basketWritten : Dict :=
  [("$ref", .str "#/$defs/build.recap.basket"), ("$defs", .dict [("build.recap.basket", .dict
    [("type", .str "object"), ("properties", .dict
        [("ids", .dict [("type", .str "array"), ("items", .dict [("oneOf", .list [.dict [("type", .str "null")],
          .dict [("type", .str "integer")]])])]),
         ("note", .dict [("default", .str ""), ("type", .str "string")])]),
      ("required", .list [.str "ids"])])])]

theorem basket_read : toRecap asciiEnv (.dict basketDict) [] = .ok (basketType, ["http://recap.build/basket".toList]) := by
  decide +kernel

theorem basket_written : fromRecap live basketType = .ok basketWritten := rfl

/-- A schema with none of these parts. -/
theorem kept_small {d : Dict} (h1 : "$ref" ∉ Dict.keys d) (h2 : "$dynamicRef" ∉ Dict.keys d)
    (h3 : ∀ xs, Dict.get? d "type" = some (.list xs) → ∃ ss : List String, xs = ss.map .str ∧ ss.Nodup ∧
        ¬("integer" ∈ ss ∧ "number" ∈ ss) ∧ ("default" ∈ Dict.keys d → "null" ∉ ss))
    (h4 : Dict.get? d "items" = .none) (h5 : Dict.get? d "properties" = .none) : Kept (.dict d) :=
  .mk h1 h2 h3 (by simp [h4]) (by simp [h5]) (by simp [h5])

theorem basket_kept : Kept (.dict basketDict) := by
  refine .mk (by decide) (by decide) (by simp [basketDict, Dict.get?_cons]) (by simp [basketDict, Dict.get?_cons]) ?_ ?_
  · intro ps n s hp hm
    simp [basketDict, Dict.get?_cons] at hp
    subst hp
    simp only [basketProps, List.mem_cons, List.not_mem_nil, or_false, Prod.mk.injEq] at hm
    rcases hm with ⟨rfl, rfl⟩ | ⟨rfl, rfl⟩
    · refine .mk (by decide) (by decide) (by simp) ?_ (by simp [Dict.get?_cons]) (by simp [Dict.get?_cons])
      intro s hs
      simp [Dict.get?_cons] at hs
      subst hs
      refine kept_small (by decide) (by decide) ?_ (by simp [Dict.get?_cons]) (by simp [Dict.get?_cons])
      intro xs hx
      simp at hx
      subst hx
      exact ⟨["null", "integer"], rfl, by decide, by decide, by decide⟩
    · refine kept_small (by decide) (by decide) ?_ (by simp [Dict.get?_cons]) (by simp [Dict.get?_cons])
      intro xs hx
      simp at hx
      subst hx
      exact ⟨["string"], rfl, by decide, by decide, by decide⟩
  · intro ps n s hp hm hn
    simp [basketDict, Dict.get?_cons] at hp
    subst hp
    simp only [basketProps, List.mem_cons, List.not_mem_nil, or_false, Prod.mk.injEq] at hm
    rcases hm with ⟨rfl, rfl⟩ | ⟨rfl, rfl⟩
    · exact absurd ⟨_, rfl, rfl⟩ hn
    · exact ⟨_, "string", rfl, by decide, .inr rfl⟩

theorem covered_small {d : Dict} (h1 : (Dict.keys d).Nodup) (h2 : ∀ k ∈ ["enum", "oneOf", "additionalProperties"], k ∉ Dict.keys d)
    (h3 : Dict.get? d "required" = .none) (h4 : Dict.get? d "items" = .none) (h5 : Dict.get? d "properties" = .none) :
    Covered (.dict d) :=
  .mk h1 h2 (by simp [h3]) (by simp [h4]) (by simp [h5]) (by simp [h5])

theorem basket_covered : Covered (.dict basketDict) := by
  refine .mk (by decide) (by decide) ?_ (by simp [basketDict, Dict.get?_cons]) ?_ ?_
  · intro r hr
    simp [basketDict, Dict.get?_cons] at hr
    subst hr
    exact ⟨_, rfl, fun x hx => ⟨"ids", basketProps, _, List.mem_singleton.mp hx, rfl, by simp [basketProps]; rfl⟩⟩
  · intro p hp
    simp [basketDict, Dict.get?_cons] at hp
    subst hp
    exact ⟨_, rfl, by decide⟩
  · intro ps n s hp hm
    simp [basketDict, Dict.get?_cons] at hp
    subst hp
    simp only [basketProps, List.mem_cons, List.not_mem_nil, or_false, Prod.mk.injEq] at hm
    rcases hm with ⟨rfl, rfl⟩ | ⟨rfl, rfl⟩
    · refine .mk (by decide) (by decide) (by simp [Dict.get?_cons]) ?_ (by simp [Dict.get?_cons]) (by simp [Dict.get?_cons])
      intro s hs
      simp [Dict.get?_cons] at hs
      subst hs
      exact covered_small (by decide) (by decide) (by simp [Dict.get?_cons]) (by simp [Dict.get?_cons]) (by simp [Dict.get?_cons])
    · exact covered_small (by decide) (by decide) (by simp [Dict.get?_cons]) (by simp [Dict.get?_cons]) (by simp [Dict.get?_cons])

theorem part_small {d : Dict} {v : PyVal} (h4 : Dict.get? d "items" = .none) (h5 : Dict.get? d "properties" = .none)
    (h3 : ∀ xs, Dict.get? d "type" = some (.list xs) → ∃ ss : List String, xs = ss.map .str) (h : Part v (.dict d)) :
    v = .dict d ∨ ∃ s, v = .str s := by
  cases h with
  | refl => exact .inl rfl
  | items h => simp [h4] at h
  | property h => simp [h5] at h
  | alternative h hm hp =>
    obtain ⟨ss, rfl⟩ := h3 _ h
    obtain ⟨s, -, rfl⟩ := List.mem_map.mp hm
    cases hp
    exact .inr ⟨s, rfl⟩

theorem basket_ids : ∀ e, Part (.dict e) (.dict basketDict) → "$id" ∈ Dict.keys e → PyVal.dict basketDict = .dict e := by
  intro e h hi
  cases h with
  | refl => rfl
  | items h => simp [basketDict, Dict.get?_cons] at h
  | alternative h => simp [basketDict, Dict.get?_cons] at h
  | property hp hm h =>
    exfalso
    simp [basketDict, Dict.get?_cons] at hp
    subst hp
    simp only [basketProps, List.mem_cons, List.not_mem_nil, or_false, Prod.mk.injEq] at hm
    rcases hm with ⟨rfl, rfl⟩ | ⟨rfl, rfl⟩
    · cases h with
      | refl => simp [Dict.keys] at hi
      | property h => simp [Dict.get?_cons] at h
      | alternative h => simp at h
      | items hs h =>
        simp [Dict.get?_cons] at hs
        subst hs
        rcases part_small (by simp [Dict.get?_cons]) (by simp [Dict.get?_cons])
          (fun xs hx => by simp at hx; subst hx; exact ⟨["null", "integer"], rfl⟩) h with e | ⟨s, e⟩
        · cases e; simp [Dict.keys] at hi
        · cases e
    · rcases part_small (by simp [Dict.get?_cons]) (by simp [Dict.get?_cons])
          (fun xs hx => by simp at hx; subst hx; exact ⟨["string"], rfl⟩) h with e | ⟨s, e⟩
      · cases e; simp [Dict.keys] at hi
      · cases e

-- the basket is such a schema, and the one that is written for it has a meaning
example : (∃ refs', Interprets refs' basketWritten) ∧ ∀ refs refs' j, Interprets refs' basketWritten →
    (Valid refs' (.dict basketWritten) j ↔ Valid refs (.dict basketDict) j) := by
  have ha : ∀ s, basketType.attrs.alias = .str s → s ≠ "" ∧ ¬Builtin (.str s) := by
    intro s hs
    cases hs
    refine ⟨by decide, ?_⟩
    rintro ⟨s, t, h1, h2⟩
    cases h1
    have : ∀ x ∈ builtinAliases, x.1 ≠ "build.recap.basket" := by decide +kernel
    exact this _ h2 rfl
  exact ⟨C131_interpretation (basket_written (live := [])) (kept_definite basket_kept basket_read basket_ids ha),
    fun refs refs' j hr => C152_same_partial basket_read (basket_written (live := [])) hr basket_kept basket_covered basket_ids ha⟩

/-! ## Schemas that change their meaning -/

theorem one_valid {req : List PyVal} {prop o : Dict} : Valid refs (oneSchema req prop) (.dict o) ↔
    (∀ w, Dict.get? o "f" = some w → Valid refs (.dict prop) w) ∧ ∀ x ∈ req, ∃ n, x = .str n ∧ n ∈ Dict.keys o := by
  rw [oneSchema, valid_iff]
  constructor
  · intro h
    constructor
    · intro w hw
      have := (h ("properties", _) (by simp; rfl)).properties rfl
      rw [Properties, propertiesAll_iff] at this
      exact this _ (List.mem_singleton.mpr rfl) _ w rfl hw
    · have : RequiredOk (.list req) (.dict o) := (h ("required", _) (by simp)).required rfl
      exact this o rfl
  · rintro ⟨h1, h2⟩ kv hm
    simp only [List.mem_cons, List.not_mem_nil, or_false] at hm
    rcases hm with rfl | rfl | rfl
    · exact ⟨fun _ => .object, by simp, by simp, by simp, by simp, by simp, by simp, by simp⟩
    · refine ⟨by simp, by simp, by simp, by simp, by simp, by simp, fun _ => ?_, by simp⟩
      rw [Properties, propertiesAll_iff]
      intro p hp o w e hw
      cases List.mem_singleton.mp hp
      cases e
      exact h1 w hw
    · refine ⟨by simp, by simp, fun _ o e x hx => ?_, by simp, by simp, by simp, by simp, by simp⟩
      cases e
      exact h2 x hx

theorem types_valid {ss : List PyVal} {j : PyVal} : Valid refs (.dict [("type", .list ss)]) j ↔ ∃ s, .str s ∈ ss ∧ Kind s j := by
  rw [valid_iff]
  constructor
  · intro h
    exact (h _ (List.mem_singleton.mpr rfl)).type rfl
  · intro h kv hm
    cases List.mem_singleton.mp hm
    exact ⟨fun _ => h, by simp, by simp, by simp, by simp, by simp, by simp, by simp⟩

/-- A property that is not required but can be null cannot be null afterwards. -/
theorem C152_null_refuted (env : Url.Env) (ids : Ids) (refs refs' : String → PyVal → Prop) (live : Registry) :
    ∃ t d, toRecap env (oneSchema [] [("type", .list [.str "null", .str "string"])]) ids = .ok (t, ids) ∧
      fromRecap live t = .ok d ∧ Valid refs (oneSchema [] [("type", .list [.str "null", .str "string"])]) (.dict [("f", .none)]) ∧
      ¬Valid refs' (.dict d) (.dict [("f", .none)]) := by
  refine ⟨_, _, rfl, rfl, one_valid.mpr ⟨fun w hw => ?_, by simp⟩, fun h => ?_⟩
  · simp at hw
    subst hw
    exact types_valid.mpr ⟨"null", by simp, .null⟩
  · have := (valid_get h (k := "properties") rfl).properties rfl
    rw [Properties, propertiesAll_iff] at this
    have := this _ (List.mem_singleton.mpr rfl) _ .none rfl (by simp)
    obtain ⟨s, hs⟩ := kind_string ((valid_get this (k := "type") rfl).type rfl)
    cases hs

/-- A property that is not required and has two types is required afterwards. -/
theorem C152_types_refuted (env : Url.Env) (ids : Ids) (refs refs' : String → PyVal → Prop) (live : Registry) :
    ∃ t d, toRecap env (oneSchema [] [("type", .list [.str "number", .str "string"])]) ids = .ok (t, ids) ∧
      fromRecap live t = .ok d ∧ Valid refs (oneSchema [] [("type", .list [.str "number", .str "string"])]) (.dict []) ∧
      ¬Valid refs' (.dict d) (.dict []) := by
  refine ⟨_, _, rfl, rfl, one_valid.mpr ⟨fun w hw => by simp at hw, by simp⟩, fun h => ?_⟩
  have := (valid_get h (k := "required") rfl).required rfl
  obtain ⟨n, _, hn⟩ := this [] rfl _ (List.mem_singleton.mpr rfl)
  simp [Dict.keys] at hn

/-- And null is one of its values, which it was not. -/
theorem C152_null_accepted_refuted (env : Url.Env) (ids : Ids) (refs refs' : String → PyVal → Prop) (live : Registry) :
    ∃ t d, toRecap env (oneSchema [] [("type", .list [.str "number", .str "string"])]) ids = .ok (t, ids) ∧
      fromRecap live t = .ok d ∧ Valid refs' (.dict d) (.dict [("f", .none)]) ∧
      ¬Valid refs (oneSchema [] [("type", .list [.str "number", .str "string"])]) (.dict [("f", .none)]) := by
  refine ⟨_, [("type", .str "object"), ("properties", .dict [("f", .dict [("default", .none),
    ("oneOf", .list [.dict [("type", .str "null")], .dict [("type", .str "number")], .dict [("type", .str "string")]])])]),
    ("required", .list [.str "f"])], rfl, rfl, ?_, fun h => ?_⟩
  · refine one_valid (req := [.str "f"]).mpr ⟨fun w hw => ?_, fun x hx => ⟨"f", List.mem_singleton.mp hx, by simp [Dict.keys]⟩⟩
    simp at hw
    subst hw
    refine valid_iff.mpr ?_
    intro kv hm
    simp only [List.mem_cons, List.not_mem_nil, or_false] at hm
    rcases hm with rfl | rfl
    · exact ⟨by simp, by simp, by simp, by simp, by simp, by simp, by simp, by simp⟩
    · refine ⟨by simp, by simp, by simp, by simp, by simp, by simp, by simp, fun _ => ?_⟩
      simp only [OneOf, ExactlyOne, NoneOf]
      refine .inl ⟨valid_type .null (by simp), fun h => ?_, fun h => ?_, trivial⟩
      · rcases kind_number ((valid_get h (k := "type") rfl).type rfl) with ⟨_, h⟩ | ⟨_, _, h⟩ <;> cases h
      · obtain ⟨_, h⟩ := kind_string ((valid_get h (k := "type") rfl).type rfl); cases h
  · obtain ⟨s, hs, hk⟩ := types_valid.mp ((one_valid.mp h).1 .none (by simp))
    simp at hs
    rcases hs with rfl | rfl
    · rcases kind_number hk with ⟨_, h⟩ | ⟨_, _, h⟩ <;> cases h
    · obtain ⟨_, h⟩ := kind_string hk; cases h

/-- Numbers that are whole are not valid afterwards if a property is an integer or a number. -/
theorem C152_numbers_refuted (env : Url.Env) (ids : Ids) (refs refs' : String → PyVal → Prop) (live : Registry) (i : Int) :
    ∃ t d, toRecap env (oneSchema [.str "f"] [("type", .list [.str "number", .str "integer"])]) ids = .ok (t, ids) ∧
      fromRecap live t = .ok d ∧
      Valid refs (oneSchema [.str "f"] [("type", .list [.str "number", .str "integer"])]) (.dict [("f", .int i)]) ∧
      ¬Valid refs' (.dict d) (.dict [("f", .int i)]) := by
  refine ⟨_, _, rfl, rfl, one_valid.mpr ⟨fun w hw => ?_, fun x hx => ⟨"f", List.mem_singleton.mp hx, by simp [Dict.keys]⟩⟩, fun h => ?_⟩
  · simp at hw
    subst hw
    exact types_valid.mpr ⟨"integer", by simp, .integer⟩
  · have := (valid_get h (k := "properties") rfl).properties rfl
    rw [Properties, propertiesAll_iff] at this
    have := this _ (List.mem_singleton.mpr rfl) _ (.int i) rfl (by simp)
    have := (valid_get this (k := "oneOf") rfl).oneOf rfl
    simp only [OneOf, ExactlyOne, NoneOf] at this
    rcases this with ⟨_, h, _⟩ | ⟨h, _⟩
    · exact h (valid_type .integer (by simp))
    · exact h (valid_type .whole (by simp))

/-- Values that are not in the list of allowed ones are valid afterwards. -/
theorem C152_enum_refuted (env : Url.Env) (ids : Ids) (refs refs' : String → PyVal → Prop) (live : Registry)
    (names : List String) (s : String) (hs : s ∉ names) :
    ∃ t d, toRecap env (oneSchema [.str "f"] [("type", .str "string"), ("enum", .list (names.map .str))]) ids = .ok (t, ids) ∧
      fromRecap live t = .ok d ∧ Valid refs' (.dict d) (.dict [("f", .str s)]) ∧
      ¬Valid refs (oneSchema [.str "f"] [("type", .str "string"), ("enum", .list (names.map .str))]) (.dict [("f", .str s)]) := by
  refine ⟨_, _, rfl, rfl, ?_, fun h => ?_⟩
  · refine one_valid (req := [.str "f"]).mpr ⟨fun w hw => ?_, fun x hx => ⟨"f", List.mem_singleton.mp hx, by simp [Dict.keys]⟩⟩
    simp at hw
    subst hw
    exact valid_type .string (by simp)
  · have := (one_valid.mp h).1 (.str s) (by simp)
    have := (valid_get this (k := "enum") (by simp [Dict.get?_cons]; rfl)).enum rfl
    simp only [EnumOk, List.mem_map] at this
    obtain ⟨s', h1, h2⟩ := this
    cases h2
    exact hs h1

/-- C152 does not hold of all schemas. -/
theorem C152_same_refuted (env : Url.Env) : ¬MeaningKept env := by
  intro h
  obtain ⟨t, d, h1, h2, h3, h4⟩ := C152_enum_refuted env [] (fun _ _ => False) (fun _ _ => False) [] [] "a" (by simp)
  refine h4 ((h _ _ _ _ _ _ _ _ ?_ h1 h2 ?_).mp h3)
  · intro e id urn hp hi
    exfalso
    cases hp with
    | refl => simp [Dict.get?_cons] at hi
    | items h => simp [Dict.get?_cons] at h
    | alternative h => simp at h
    | property hp hm hx =>
      simp [Dict.get?_cons] at hp
      subst hp
      cases List.mem_singleton.mp hm
      rcases part_small (by simp [Dict.get?_cons]) (by simp [Dict.get?_cons]) (by simp) hx with e | ⟨s, e⟩
      · cases e; simp [Dict.get?_cons] at hi
      · cases e
  · cases h1
    cases h2
    exact fun alias s he => by cases he

end Recap.JsonData
