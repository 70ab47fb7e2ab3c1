import Verif.JsonBackSpec

/-!
# What becomes of the meaning of a JSON Schema that is read and written again (C152)

`Valid` in `JsonDataSpec.lean` says which values are valid against a schema.  Nothing here uses the converter, except the
statement of C152 itself.
-/

set_option autoImplicit false

namespace Recap.JsonData

/-- **C152**: the same values are valid against a JSON Schema and against the one that is written for the type that is read
from it. -/
def MeaningKept (env : Url.Env) : Prop :=
  ∀ (refs refs' : String → PyVal → Prop) (live : Registry) (v : PyVal) (t : RType) (ids' : Json.Ids) (d : Dict) (j : PyVal),
    Located refs v → Json.toRecap env v [] = .ok (t, ids') → Json.fromRecap live t = .ok d → Interprets refs' d →
      (Valid refs' (.dict d) j ↔ Valid refs v j)

/-- The schema has a single type, other than null. -/
def OneType (v : PyVal) : Prop :=
  ∃ d s, v = .dict d ∧ s ≠ "null" ∧ (Dict.get? d "type" = some (.str s) ∨ Dict.get? d "type" = some (.list [.str s]))

/-- Schemas without references, in which properties that are not required have a single type, other than null; in which lists
of types have no type twice and not both `integer` and `number`; and in which no schema with a default lists null. -/
inductive Kept : PyVal → Prop
  | mk {d : Dict} : "$ref" ∉ Dict.keys d → "$dynamicRef" ∉ Dict.keys d →
      (∀ xs, Dict.get? d "type" = some (.list xs) → ∃ ss : List String, xs = ss.map .str ∧ ss.Nodup ∧
        ¬("integer" ∈ ss ∧ "number" ∈ ss) ∧ ("default" ∈ Dict.keys d → "null" ∉ ss)) →
      (∀ s, Dict.get? d "items" = some s → Kept s) →
      (∀ ps n s, Dict.get? d "properties" = some (.dict ps) → (n, s) ∈ ps → Kept s) →
      (∀ ps n s, Dict.get? d "properties" = some (.dict ps) → (n, s) ∈ ps → ¬Asked d n → OneType s) →
      Kept (.dict d)

/-- Schemas with only the keywords that the converter reads: no `enum`, no `oneOf`, no `additionalProperties`; what is
required is a property. -/
inductive Covered : PyVal → Prop
  | mk {d : Dict} : (Dict.keys d).Nodup → (∀ k ∈ ["enum", "oneOf", "additionalProperties"], k ∉ Dict.keys d) →
      (∀ r, Dict.get? d "required" = some r → ∃ xs, r = .list xs ∧ ∀ x ∈ xs, ∃ n ps s, x = .str n ∧
        Dict.get? d "properties" = some (.dict ps) ∧ (n, s) ∈ ps) →
      (∀ s, Dict.get? d "items" = some s → Covered s) →
      (∀ p, Dict.get? d "properties" = some p → ∃ ps, p = .dict ps ∧ (Dict.keys ps).Nodup) →
      (∀ ps n s, Dict.get? d "properties" = some (.dict ps) → (n, s) ∈ ps → Covered s) →
      Covered (.dict d)

end Recap.JsonData
