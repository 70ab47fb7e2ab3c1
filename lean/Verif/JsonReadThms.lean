import Verif.JsonReadLemmas
import Verif.JsonDataThms

/-!
# Which JSON values the type has that is read from a JSON Schema (C138)
-/

set_option autoImplicit false

namespace Recap.JsonData

open Json
open Avro.Spec (IntValue)
open Json.Spec (Without)

/-- C138, without the other keywords of the schema.  The JSON values of the type that is read are exactly those that
are nearly valid against the schema, if there are no references in it. -/
theorem C138_exactly_partial {env : Url.Env} {v : PyVal} {ids ids' : Ids} {t : RType}
    (h : toRecap env v ids = .ok (t, ids')) (hw : Without ["$ref", "$dynamicRef"] v) (live : Registry) (j : PyVal) :
    Carries live true t j ↔ Nearly v j := by
  unfold toRecap at h
  obtain ⟨⟨t', i⟩, hp, h⟩ := ok_bind h
  have : t' = t := by
    simp only at h
    split at h
    · cases h; rfl
    · cases h
  subst this
  exact (nearly_read hp hw).2.2 j

/-- C138.  Every value of the type that is read is valid against the schema, if only the keywords that are read are in
the schema, what is required is a property without a default, there are no references, and no property in the value
is null. -/
theorem C138_only_partial {env : Url.Env} {refs : String → PyVal → Prop} {v : PyVal} {ids ids' : Ids} {t : RType}
    {live : Registry} {j : PyVal} (h : toRecap env v ids = .ok (t, ids')) (hw : Without ["$ref", "$dynamicRef"] v)
    (hu : Understood v) (hj : Carries live true t j) (hn : NoNull j) : Valid refs v j :=
  nearly_valid hu ((C138_exactly_partial h hw live j).mp hj) hn

/-- C130 and C138 together: for such schemas, and values whose whole numbers have at most 32 bits, other numbers at
most 53 binary digits and no property that is null, being valid and being a value of the type are the same. -/
theorem C138_same_partial {env : Url.Env} {refs : String → PyVal → Prop} {v : PyVal} {ids ids' : Ids} {t : RType}
    {j : PyVal} (h : toRecap env v ids = .ok (t, ids')) (hw : Without ["$ref", "$dynamicRef"] v)
    (hu : Understood v) (hm : Moderate j) (hn : NoNull j) (live : Registry) : Carries live true t j ↔ Valid refs v j :=
  ⟨fun hj => C138_only_partial h hw hu hj hn, fun hj => C130_instances_partial h hw hj hm live⟩

theorem orderSchema_understood : Understood orderSchema := by
  have word : ∀ s, Understood (.dict [("type", .str s)]) := fun s =>
    .mk (by simp [Dict.keys]) (by simp [Dict.keys]) (by simp) (by simp [Dict.get?_cons]) (by simp [Dict.get?_cons])
      (by simp [Dict.get?_cons]) (by simp [Dict.get?_cons])
  refine .mk (by decide) (by decide) (by simp) ?_ (by simp [Dict.get?_cons]) (by simp [Dict.get?_cons]) ?_
  · intro r hr
    simp [Dict.get?_cons] at hr
    subst hr
    refine ⟨_, rfl, fun x hx => ⟨"ids", _, _, List.mem_singleton.mp hx, rfl, List.mem_cons_self, ?_⟩⟩
    rintro ⟨d, e, hd⟩
    cases e
    exact absurd hd (by decide)
  · intro ps hps p hp
    simp [Dict.get?_cons] at hps
    subst hps
    simp only [List.mem_cons, List.not_mem_nil, or_false] at hp
    rcases hp with rfl | rfl
    · refine .mk (by decide) (by decide) (by simp) (by simp [Dict.get?_cons]) ?_ (by simp [Dict.get?_cons])
        (by simp [Dict.get?_cons])
      intro v hv
      simp [Dict.get?_cons] at hv
      subst hv
      exact word _
    · refine .mk (by decide) (by decide) ?_ (by simp [Dict.get?_cons]) (by simp [Dict.get?_cons])
        (by simp [Dict.get?_cons]) (by simp [Dict.get?_cons])
      intro xs hxs x hx
      simp at hxs
      subst hxs
      simp at hx
      rcases hx with rfl | rfl
      · exact ⟨_, rfl⟩
      · exact ⟨_, rfl⟩

-- the schema of orders meets the conditions; an order is a value
example (env : Url.Env) (refs : String → PyVal → Prop) : ∃ t ids', toRecap env orderSchema [] = .ok (t, ids') ∧
    (Carries [] true t order ↔ Valid refs orderSchema order) ∧ Carries [] true t order := by
  have hw : Without ["$ref", "$dynamicRef"] orderSchema := by
    simp [orderSchema, Without, Json.Spec.WithoutPairs, Json.Spec.WithoutAll]
  have hm : Moderate order := by
    simp [order, Moderate, ModeratePairs, ModerateAll, IntValue]
    exact ⟨⟨15, 0, by decide, by simp⟩, fun q hq => by omega⟩
  have := C138_same_partial (env := env) (ids := []) (refs := refs) rfl hw orderSchema_understood hm
    (by simp [order, NoNull, NoNullPairs, NoNullAll]) []
  exact ⟨_, _, rfl, this, this.mpr (order_valid refs)⟩

/-! ## Values that are not valid -/

/-- A schema with one property, and what is required. -/
def oneSchema (required : List PyVal) (prop : Dict) : PyVal :=
  .dict [("type", .str "object"), ("properties", .dict [("f", .dict prop)]), ("required", .list required)]

/-- The converse of C130 does not hold of all values: a property that is not required can be null. -/
theorem C138_null_refuted (env : Url.Env) (ids : Ids) (refs : String → PyVal → Prop) (live : Registry) :
    ∃ t, toRecap env (oneSchema [] [("type", .str "string")]) ids = .ok (t, ids) ∧
      Carries live true t (.dict [("f", .none)]) ∧
      ¬Valid refs (oneSchema [] [("type", .str "string")]) (.dict [("f", .none)]) := by
  obtain ⟨t, ht⟩ : ∃ t, toRecap env (oneSchema [] [("type", .str "string")]) ids = .ok (t, ids) := ⟨_, rfl⟩
  refine ⟨t, ht, (C138_exactly_partial ht ?_ live _).mpr ?_, fun h => ?_⟩
  · simp [oneSchema, Without, Json.Spec.WithoutPairs, Json.Spec.WithoutAll]
  · refine .object (by simp [Typed]) (by simp [Dict.get?_cons]; rfl) (fun p hp v hv hn => ?_) (fun p hp hv => ?_)
    · cases List.mem_singleton.mp hp
      simp at hv
      exact absurd ⟨hv.symm, by simp [Asked, Dict.get?_cons, PyVal.containsStr]⟩ hn
    · cases List.mem_singleton.mp hp
      simp at hv
  · have := (valid_get h (k := "properties") (by simp [Dict.get?_cons]; rfl)).properties rfl
    rw [Properties, propertiesAll_iff] at this
    have := this _ (List.mem_singleton.mpr rfl) _ .none rfl (by simp)
    have := (valid_get this (k := "type") (by simp; rfl)).type rfl
    obtain ⟨s, hs⟩ := kind_string this
    cases hs

/-- Nor of all schemas: a required property that has a default can be left out. -/
theorem C138_default_refuted (env : Url.Env) (ids : Ids) (refs : String → PyVal → Prop) (live : Registry) (b : Bool) :
    ∃ t, toRecap env (oneSchema [.str "f"] [("type", .str "boolean"), ("default", .bool b)]) ids = .ok (t, ids) ∧
      Carries live true t (.dict []) ∧
      ¬Valid refs (oneSchema [.str "f"] [("type", .str "boolean"), ("default", .bool b)]) (.dict []) := by
  obtain ⟨t, ht⟩ : ∃ t, toRecap env (oneSchema [.str "f"] [("type", .str "boolean"), ("default", .bool b)]) ids =
    .ok (t, ids) := ⟨_, rfl⟩
  refine ⟨t, ht, (C138_exactly_partial ht ?_ live _).mpr ?_, fun h => ?_⟩
  · simp [oneSchema, Without, Json.Spec.WithoutPairs, Json.Spec.WithoutAll]
  · refine .object (by simp [Typed]) (by simp [Dict.get?_cons]; rfl) (fun p hp v hv hn => ?_) (fun p hp hv => ?_)
    · simp at hv
    · cases List.mem_singleton.mp hp
      exact .inr ⟨_, rfl, by simp [Dict.keys]⟩
  · have := (valid_get h (k := "required") (by simp [Dict.get?_cons]; rfl)).required rfl
    obtain ⟨n, _, hn⟩ := this _ rfl _ (List.mem_singleton.mpr rfl)
    simp [Dict.keys] at hn

theorem without_names (keys names : List String) : Json.Spec.WithoutAll keys (names.map .str) := by
  induction names with
  | nil => simp [Json.Spec.WithoutAll]
  | cons n names ih => simp [Json.Spec.WithoutAll, Without, ih]

/-- Nor with other keywords: all strings are values of the type read from a schema that lists some. -/
theorem C138_enum_refuted (env : Url.Env) (ids : Ids) (refs : String → PyVal → Prop) (live : Registry)
    (names : List String) (s : String) (hs : s ∉ names) :
    ∃ t, toRecap env (oneSchema [] [("type", .str "string"), ("enum", .list (names.map .str))]) ids = .ok (t, ids) ∧
      Carries live true t (.dict [("f", .str s)]) ∧
      ¬Valid refs (oneSchema [] [("type", .str "string"), ("enum", .list (names.map .str))])
        (.dict [("f", .str s)]) := by
  have hp : ∃ t, toRecap env (oneSchema [] [("type", .str "string"), ("enum", .list (names.map .str))]) ids =
    .ok (t, ids) := ⟨_, rfl⟩
  obtain ⟨t, ht⟩ := hp
  refine ⟨t, ht, (C138_exactly_partial ht ?_ live _).mpr ?_, fun h => ?_⟩
  · simp [oneSchema, Without, Json.Spec.WithoutPairs, Json.Spec.WithoutAll, without_names]
  · refine .object (by simp [Typed]) (by simp [Dict.get?_cons]; rfl) (fun p hp v hv hn => ?_) (fun p hp hv => ?_)
    · cases List.mem_singleton.mp hp
      simp at hv
      subst hv
      exact .string (by simp [Typed])
    · cases List.mem_singleton.mp hp
      simp at hv
  · have := (valid_get h (k := "properties") (by simp [Dict.get?_cons]; rfl)).properties rfl
    rw [Properties, propertiesAll_iff] at this
    have := this _ (List.mem_singleton.mpr rfl) _ (.str s) rfl (by simp)
    have := (valid_get this (k := "enum") (by simp [Dict.get?_cons]; rfl)).enum rfl
    simp only [EnumOk, List.mem_map] at this
    obtain ⟨s', h1, h2⟩ := this
    cases h2
    exact hs h1

/-- Nor if names are required that are no property. -/
theorem C138_required_refuted (env : Url.Env) (ids : Ids) (refs : String → PyVal → Prop) (live : Registry)
    (name : String) (hf : name ≠ "f") :
    ∃ t, toRecap env (oneSchema [.str name] [("type", .str "string")]) ids = .ok (t, ids) ∧
      Carries live true t (.dict []) ∧ ¬Valid refs (oneSchema [.str name] [("type", .str "string")]) (.dict []) := by
  have hp : ∃ t, toRecap env (oneSchema [.str name] [("type", .str "string")]) ids = .ok (t, ids) :=
    ⟨_, rfl⟩
  obtain ⟨t, ht⟩ := hp
  refine ⟨t, ht, (C138_exactly_partial ht ?_ live _).mpr ?_, fun h => ?_⟩
  · simp [oneSchema, Without, Json.Spec.WithoutPairs, Json.Spec.WithoutAll]
  · refine .object (by simp [Typed]) (by simp [Dict.get?_cons]; rfl) (fun p hp v hv hn => ?_) (fun p hp hv => ?_)
    · simp at hv
    · cases List.mem_singleton.mp hp
      refine .inl ?_
      rintro ⟨r, hr, hc⟩
      simp [Dict.get?_cons] at hr
      subst hr
      simp [PyVal.containsStr, PyVal.pyEq, Ne.symm hf] at hc
  · have := (valid_get h (k := "required") (by simp [Dict.get?_cons]; rfl)).required rfl
    obtain ⟨n, _, hn⟩ := this _ rfl _ (List.mem_singleton.mpr rfl)
    simp [Dict.keys] at hn

/-- C138 does not hold of all schemas and values. -/
theorem C138_only_refuted (env : Url.Env) : ¬OnlyInstancesHeld env := by
  intro h
  obtain ⟨t, h1, h2, h3⟩ := C138_null_refuted env [] (fun _ _ => False) []
  exact h3 (h _ _ _ _ _ _ _ h1 h2)

end Recap.JsonData
