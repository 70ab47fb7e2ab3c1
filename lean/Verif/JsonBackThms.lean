import Verif.JsonBackLemmas
import Verif.JsonRefsThms

/-!
# Which JSON values the type has that is read from a JSON Schema with references (C138)
-/

set_option autoImplicit false

namespace Recap.JsonData

open Json
open Url (asciiEnv)
open Json.Spec (Without Inside IsReference)

variable {refs : String → PyVal → Prop} {env : Url.Env}

/-- **C138**, with references.  Every value of the type that a new converter reads is valid against the schema, where a
reference in the type stands for the types in it that have its alias, and one in the schema for the schemas in the document
that have its identifier.  This needs that only the keywords are there that are read, that what is required is a property
without a default, that different identifiers have different aliases, that a property with an identifier and a list of types
is required unless it lists null, and that no property in the value is null.  Missing: other schemas and values, for which
it is false; `$dynamicRef`; and schemas that have to be retrieved. -/
theorem C138_references_partial {v : PyVal} {t : RType} {ids' : Ids} (h : toRecap env v [] = .ok (t, ids'))
    (hl : Located refs v) (hu : Unambiguous env v) (hq : NamedRequired v) (hc : AllClear v) {j : PyVal}
    (hj : CarriesIn t t j) (hn : NoNull j) : Valid refs v j := by
  have hp := toRecap_parse h
  rcases parse_ok_dict hp with ⟨s, rfl⟩ | ⟨d, rfl⟩
  · exfalso
    unfold toRecap at h
    obtain ⟨⟨u, i⟩, h1, h⟩ := ok_bind h
    rw [parse_str] at h1
    obtain ⟨e, ids1, -, h2⟩ := parse_dict_ok h1
    rw [parse_str] at hp
    have := h1.symm.trans hp
    cases this
    cases h2 with
    | union hh _ => simp at hh
    | struct _ hh _ => simp [Dict.get?_cons] at hh
    | list _ hh _ => simp [Dict.get?_cons] at hh
    | leaf _ hh =>
      simp [parseLeaf, Dict.get?_cons] at hh
      repeat' split at hh
      · unfold parseString at hh
        repeat' split at hh
        all_goals (cases hh; cases h)
      all_goals (cases hh; try cases h)
  · exact back_valid hp hl hu hq hc hj hn .refl hp (fun _ h => h) (.refl t) (by simp)

/-- C130 and C138 together: for such schemas, and values whose whole numbers have at most 32 bits, other numbers at most 53
binary digits and no property that is null, being valid and being a value of the type are the same. -/
theorem C138_references_same_partial {v : PyVal} {t : RType} {ids' : Ids} (h : toRecap env v [] = .ok (t, ids'))
    (hw : Without ["$dynamicRef"] v) (hl : Located refs v) (hu : Unambiguous env v) (hq : NamedRequired v) (hc : AllClear v)
    {j : PyVal} (hm : Moderate j) (hn : NoNull j) : CarriesIn t t j ↔ Valid refs v j :=
  ⟨fun hj => C138_references_partial h hl hu hq hc hj hn, fun hj => C130_references_partial h hw hl hj hm⟩

/-! ## The linked list -/

theorem part_scalar {d d' : Dict} (hp : Part (.dict d') (.dict d)) (h1 : Dict.get? d "items" = .none)
    (h2 : Dict.get? d "properties" = .none) (h3 : ∀ xs, Dict.get? d "type" ≠ some (.list xs)) : d' = d := by
  cases hp with
  | refl => rfl
  | items h _ => rw [h1] at h; cases h
  | property h _ _ => rw [h2] at h; cases h
  | alternative h _ _ => exact absurd h (h3 _)

theorem linked_parts {d : Dict} (hp : Part (.dict d) (.dict linkedDict)) :
    d = linkedDict ∨ d = [("type", .str "integer")] ∨ d = [("$ref", .str "http://recap.build/linkedlist.schema.json")] := by
  cases hp with
  | refl => exact .inl rfl
  | items h _ => exact absurd h (by simp [linkedDict, Dict.get?_cons])
  | property h1 h2 h3 =>
    simp [linkedDict, Dict.get?_cons] at h1
    subst h1
    simp at h2
    rcases h2 with ⟨-, rfl⟩ | ⟨-, rfl⟩
    · exact .inr (.inl (part_scalar h3 (by simp [Dict.get?_cons]) (by simp [Dict.get?_cons]) (by simp)))
    · exact .inr (.inr (part_scalar h3 (by simp [Dict.get?_cons]) (by simp [Dict.get?_cons]) (by simp [Dict.get?_cons])))
  | alternative h _ _ => exact absurd h (by simp [linkedDict, Dict.get?_cons])

theorem sameId_refl (s : String) : SameId s s := ⟨s.toList, 0, 0, by simp, by simp⟩

theorem linked_unambiguous : Unambiguous asciiEnv (.dict linkedDict) := by
  intro d d' id id' a h1 h2 h3 h4 _ _
  have key : ∀ {d id}, Part (.dict d) (.dict linkedDict) → Dict.get? d "$id" = some (.str id) →
      id = "http://recap.build/linkedlist.schema.json" := by
    intro d id hp hid
    rcases linked_parts hp with rfl | rfl | rfl
    · simp [linkedDict] at hid; exact hid.symm
    · simp [Dict.get?_cons] at hid
    · simp [Dict.get?_cons] at hid
  rw [key h1 h3, key h2 h4]
  exact sameId_refl _

theorem linked_clear : AllClear (.dict linkedDict) := by
  intro d hp
  rcases linked_parts hp with rfl | rfl | rfl
  · refine ⟨by decide, by decide, by simp [linkedDict, Dict.get?_cons], ?_, by simp [linkedDict, Dict.get?_cons], ?_,
      by intro h; exact absurd h (by decide)⟩
    · intro r hr
      simp [linkedDict, Dict.get?_cons] at hr
      subst hr
      refine ⟨_, rfl, fun x hx => ⟨"value", _, _, List.mem_singleton.mp hx, rfl, List.mem_cons_self, ?_⟩⟩
      rintro ⟨d, e, hd⟩
      cases e
      exact absurd hd (by decide)
    · intro s hs
      simp [linkedDict, Dict.get?_cons] at hs
      subst hs
      refine ⟨_, rfl, fun p hp => ?_⟩
      simp only [List.mem_cons, List.not_mem_nil, or_false] at hp
      rcases hp with rfl | rfl <;> exact ⟨_, rfl⟩
  · exact ⟨by decide, by decide, by simp, by simp [Dict.get?_cons], by simp [Dict.get?_cons], by simp [Dict.get?_cons],
      by intro h; exact absurd h (by decide)⟩
  · exact ⟨by decide, by decide, by simp [Dict.get?_cons], by simp [Dict.get?_cons], by simp [Dict.get?_cons],
      by simp [Dict.get?_cons], by decide⟩

theorem linked_required : NamedRequired (.dict linkedDict) := by
  intro d ps n s xs hp h1 h2 h3 _ _
  exfalso
  rcases linked_parts hp with rfl | rfl | rfl
  · simp [linkedDict, Dict.get?_cons] at h1
    subst h1
    simp at h2
    rcases h2 with ⟨-, rfl⟩ | ⟨-, rfl⟩
    · exact absurd h3 (by decide)
    · exact absurd h3 (by decide)
  · simp [Dict.get?_cons] at h1
  · simp [Dict.get?_cons] at h1

/-- The hypotheses are met by the linked list: a value that is not null is a value of the type exactly if it is one of its
chains, whatever its length, if its numbers are moderate. -/
example {j : PyVal} (hm : Moderate j) (hn : NoNull j) : CarriesIn linkedType linkedType j ↔ Chain j := by
  rw [C138_references_same_partial linked_read
    (by simp [linkedDict, Without, Json.Spec.WithoutPairs, Json.Spec.WithoutAll]) linked_located linked_unambiguous
    linked_required linked_clear hm hn]
  exact linked_valid j

/-! ## References that lead elsewhere -/

/-- Two identifiers with the same alias. -/
def collidingDict : Dict :=
  [("type", .str "object"), ("required", .list [.str "a", .str "b", .str "c"]), ("properties", .dict
      [("a", .dict [("$id", .str "http://recap.build/first-name"), ("type", .str "integer")]),
       ("b", .dict [("$id", .str "http://recap.build/first_name"), ("type", .str "string")]),
       ("c", .dict [("$ref", .str "http://recap.build/first-name")])])]

/-- What is read. -/
def collidingType : RType :=
  .struct
    [.int (.int 32) (.bool true) { alias := .str "build.recap.first.name", extra := [("name", .str "a")] },
     .string .none (.bool true) { alias := .str "build.recap.first.name", extra := [("name", .str "b")] },
     .proxy .none { alias := .str "build.recap.first.name", extra := [("name", .str "c")] }] {}

/-- What the references are to. -/
def collidingRefs (urn : String) (j : PyVal) : Prop :=
  (SameId "http://recap.build/first-name" urn → Kind "integer" j) ∧ (SameId "http://recap.build/first_name" urn → Kind "string" j)

theorem typed_valid {id s : String} {j : PyVal} : Valid refs (.dict [("$id", .str id), ("type", .str s)]) j ↔ Kind s j := by
  simp [Valid, Keywords, TypeOk]

theorem colliding_differ {urn : String} (h1 : SameId "http://recap.build/first-name" urn)
    (h2 : SameId "http://recap.build/first_name" urn) : False := by
  have := (rstripHash_same h1).trans (rstripHash_same h2).symm
  exact absurd this (by decide +kernel)

theorem colliding_located : Located collidingRefs (.dict collidingDict) := by
  intro d id urn hp hid hs j
  have : (d = [("$id", .str "http://recap.build/first-name"), ("type", .str "integer")]) ∨
      (d = [("$id", .str "http://recap.build/first_name"), ("type", .str "string")]) := by
    cases hp with
    | refl => exact absurd hid (by simp [collidingDict, Dict.get?_cons])
    | items h _ => exact absurd h (by simp [collidingDict, Dict.get?_cons])
    | property h1 h2 h3 =>
      simp [collidingDict, Dict.get?_cons] at h1
      subst h1
      simp at h2
      rcases h2 with ⟨-, rfl⟩ | ⟨-, rfl⟩ | ⟨-, rfl⟩
      · exact .inl (part_scalar h3 (by simp [Dict.get?_cons]) (by simp [Dict.get?_cons]) (by simp [Dict.get?_cons]))
      · exact .inr (part_scalar h3 (by simp [Dict.get?_cons]) (by simp [Dict.get?_cons]) (by simp [Dict.get?_cons]))
      · have := part_scalar h3 (by simp [Dict.get?_cons]) (by simp [Dict.get?_cons]) (by simp [Dict.get?_cons])
        subst this
        simp [Dict.get?_cons] at hid
    | alternative h _ _ => exact absurd h (by simp [collidingDict])
  rcases this with rfl | rfl
  · simp at hid
    subst hid
    rw [typed_valid]
    exact ⟨fun h => h.1 hs, fun h => ⟨fun _ => h, fun h' => (colliding_differ hs h').elim⟩⟩
  · simp at hid
    subst hid
    rw [typed_valid]
    exact ⟨fun h => h.2 hs, fun h => ⟨fun h' => (colliding_differ h' hs).elim, fun _ => h⟩⟩

/-- Without different aliases C138 is false: a reference to whole numbers also has the strings of another schema. -/
theorem C138_colliding_refuted : ∃ v t ids' refs j, toRecap asciiEnv v [] = .ok (t, ids') ∧ Located refs v ∧ NoNull j ∧
    CarriesIn t t j ∧ ¬Valid refs v j := by
  refine ⟨.dict collidingDict, collidingType,
    ["http://recap.build/first-name".toList, "http://recap.build/first_name".toList], collidingRefs,
    .dict [("a", .int 1), ("b", .str "x"), ("c", .str "y")], by decide +kernel, colliding_located,
    by simp [NoNull, NoNullPairs], ?_, fun h => ?_⟩
  · refine .struct (fun f hf => ?_) (fun f hf n v hn hv => ?_) (fun f hf n hn hv => ?_)
    · simp only [List.mem_cons, List.not_mem_nil, or_false] at hf
      rcases hf with rfl | rfl | rfl <;> exact ⟨_, rfl⟩
    · simp only [List.mem_cons, List.not_mem_nil, or_false] at hf
      rcases hf with rfl | rfl | rfl
      · cases hn; cases hv; exact .int (by simp [Avro.Spec.IntValue])
      · cases hn; cases hv; exact .string (.inl rfl)
      · cases hn
        cases hv
        exact .reference (u := .string .none (.bool true) { alias := .str "build.recap.first.name", extra := [("name", .str "b")] })
          (.field (List.mem_cons_of_mem _ (List.mem_cons_self ..)) .refl) (by simp [IsReference]) rfl (.string (.inl rfl))
    · simp only [List.mem_cons, List.not_mem_nil, or_false] at hf
      rcases hf with rfl | rfl | rfl <;> (cases hn; simp [Dict.get?_cons] at hv)
  · have hps := (valid_get h (k := "properties") (by simp [collidingDict, Dict.get?_cons]; rfl)).properties rfl
    rw [Properties, propertiesAll_iff] at hps
    have := hps _ (List.mem_cons_of_mem _ (List.mem_cons_of_mem _ (List.mem_cons_self ..))) _ (.str "y") rfl rfl
    obtain ⟨s, hs, hr⟩ := (valid_get this (k := "$ref") rfl).ref rfl
    cases hs
    rcases kind_integer (hr.1 (sameId_refl _)) with ⟨i, h⟩ | ⟨q, e, h⟩ <;> cases h

/-- A property that is not required, has an identifier and a list of types, and a reference to it. -/
def optionalDict : Dict :=
  [("type", .str "object"), ("required", .list [.str "b"]), ("properties", .dict
      [("a", .dict [("$id", .str "http://recap.build/key"), ("type", .list [.str "string", .str "integer"])]),
       ("b", .dict [("type", .str "array"), ("items", .dict [("$ref", .str "http://recap.build/key")])])])]

/-- What is read: null was added where the property is, and with it wherever there is a reference. -/
def optionalType : RType :=
  .struct
    [.union [.null {}, .string .none (.bool true) {}, .int (.int 32) (.bool true) {}]
       { alias := .str "build.recap.key", extra := [("default", .none), ("name", .str "a")] },
     .list (.proxy .none { alias := .str "build.recap.key" }) .none (.bool true) { extra := [("name", .str "b")] }] {}

theorem optional_located : Located (fun _ j => Kind "string" j ∨ Kind "integer" j) (.dict optionalDict) := by
  intro d id urn hp hid hs j
  have hv : ∀ refs, Valid refs (.dict [("$id", .str "http://recap.build/key"),
      ("type", .list [.str "string", .str "integer"])]) j ↔ Kind "string" j ∨ Kind "integer" j := by
    intro refs
    simp [Valid, Keywords, TypeOk]
  have : d = [("$id", .str "http://recap.build/key"), ("type", .list [.str "string", .str "integer"])] := by
    cases hp with
    | refl => exact absurd hid (by simp [optionalDict, Dict.get?_cons])
    | items h _ => exact absurd h (by simp [optionalDict, Dict.get?_cons])
    | property h1 h2 h3 =>
      simp [optionalDict, Dict.get?_cons] at h1
      subst h1
      simp at h2
      rcases h2 with ⟨-, rfl⟩ | ⟨-, rfl⟩
      · cases h3 with
        | refl => rfl
        | items h _ => simp [Dict.get?_cons] at h
        | property h _ _ => simp [Dict.get?_cons] at h
        | alternative h1 h2 h3 =>
          simp [Dict.get?_cons] at h1
          subst h1
          simp at h2
          rcases h2 with rfl | rfl <;> cases h3
      · cases h3 with
        | refl => simp [Dict.get?_cons] at hid
        | items h h' =>
          simp [Dict.get?_cons] at h
          subst h
          have := part_scalar h' (by simp [Dict.get?_cons]) (by simp [Dict.get?_cons]) (by simp [Dict.get?_cons])
          subst this
          simp [Dict.get?_cons] at hid
        | property h _ _ => simp [Dict.get?_cons] at h
        | alternative h _ _ => simp at h
    | alternative h _ _ => exact absurd h (by simp [optionalDict])
  rw [this, hv]

/-- Nor without `NamedRequired`: null is an element of a list although it is not valid there, as the schema of the elements
is also that of a property which is not required. -/
theorem C138_optional_refuted : ∃ v t ids' refs j, toRecap asciiEnv v [] = .ok (t, ids') ∧ Located refs v ∧ NoNull j ∧
    CarriesIn t t j ∧ ¬Valid refs v j := by
  refine ⟨.dict optionalDict, optionalType, ["http://recap.build/key".toList], _,
    .dict [("b", .list [.none])], by decide +kernel, optional_located,
    by simp [NoNull, NoNullPairs, NoNullAll], ?_, fun h => ?_⟩
  · refine .struct (fun f hf => ?_) (fun f hf n v hn hv => ?_) (fun f hf n hn hv => ?_)
    · simp only [List.mem_cons, List.not_mem_nil, or_false] at hf
      rcases hf with rfl | rfl <;> exact ⟨_, rfl⟩
    · simp only [List.mem_cons, List.not_mem_nil, or_false] at hf
      rcases hf with rfl | rfl
      · cases hn; simp [Dict.get?_cons] at hv
      · cases hn
        cases hv
        refine .list fun x hx => ?_
        cases List.mem_singleton.mp hx
        exact .reference (u := .union [.null {}, .string .none (.bool true) {}, .int (.int 32) (.bool true) {}]
            { alias := .str "build.recap.key", extra := [("default", .none), ("name", .str "a")] })
          (.field (List.mem_cons_self ..) .refl) (by simp [IsReference]) rfl (.union (List.mem_cons_self ..) .null)
    · simp only [List.mem_cons, List.not_mem_nil, or_false] at hf
      rcases hf with rfl | rfl
      · decide
      · cases hn; simp at hv
  · have hps := (valid_get h (k := "properties") (by simp [optionalDict, Dict.get?_cons]; rfl)).properties rfl
    rw [Properties, propertiesAll_iff] at hps
    have := hps _ (List.mem_cons_of_mem _ (List.mem_cons_self ..)) _ (.list [.none]) rfl rfl
    have := (valid_get this (k := "items") rfl).items rfl _ rfl .none (by simp)
    obtain ⟨s, hs, hr⟩ := (valid_get this (k := "$ref") rfl).ref rfl
    rcases hr with hr | hr
    · obtain ⟨s, h⟩ := kind_string hr; cases h
    · rcases kind_integer hr with ⟨i, h⟩ | ⟨q, e, h⟩ <;> cases h

end Recap.JsonData
