import Verif.JsonDataSpec

/-!
# Which JSON values the type has that is read from a JSON Schema (C138)

Nothing here uses the converter.
-/

set_option autoImplicit false

namespace Recap.JsonData

open Avro.Spec (IntValue)

/-- **C138**: every value of the type that is read is valid against the schema. -/
def OnlyInstancesHeld (env : Url.Env) : Prop :=
  ∀ (refs : String → PyVal → Prop) (live : Registry) (v : PyVal) (ids ids' : Json.Ids) (t : RType) (j : PyVal),
    Json.toRecap env v ids = .ok (t, ids') → Carries live true t j → Valid refs v j

/-- The schema has this `type`. -/
def Typed (d : Dict) (s : String) : Prop := Dict.get? d "type" = some (.str s)

/-- The name is in `required`. -/
def Asked (d : Dict) (name : String) : Prop := ∃ r, Dict.get? d "required" = some r ∧ r.containsStr name = .ok true

/-- The schema has a default. -/
def HasDefault (v : PyVal) : Prop := ∃ d, v = .dict d ∧ "default" ∈ Dict.keys d

/-- `Nearly v j`: the value is valid against the types, the items, the properties and the required properties in the
schema, whole numbers where only these are valid have at most 32 bits and other numbers 53 binary digits; but
properties that are not required can be null, and required ones can be missing if they have a default.  Other
keywords do not matter, and a name stands for the schema with this type. -/
inductive Nearly : PyVal → PyVal → Prop
  | word {s j} : Nearly (.dict [("type", .str s)]) j → Nearly (.str s) j
  | null {d} : Typed d "null" → Nearly (.dict d) .none
  | boolean {d b} : Typed d "boolean" → Nearly (.dict d) (.bool b)
  | integer {d i} : Typed d "integer" → IntValue 32 true i → Nearly (.dict d) (.int i)
  | point {d} {i : Int} {e} : Typed d "integer" → IntValue 32 true i → Nearly (.dict d) (.float (i * 2 ^ e) e)
  | number {d m e} : Typed d "number" → Significant 53 m → Nearly (.dict d) (.float m e)
  | whole {d i} : Typed d "number" → Significant 53 i → Nearly (.dict d) (.int i)
  | string {d s} : Typed d "string" → Nearly (.dict d) (.str s)
  | array {d items xs} : Typed d "array" → Dict.get? d "items" = some items → (∀ x ∈ xs, Nearly items x) →
      Nearly (.dict d) (.list xs)
  | object {d} {ps o : Dict} : Typed d "object" → Dict.get? d "properties" = some (.dict ps) →
      (∀ p ∈ ps, ∀ v, Dict.get? o (Prod.fst p) = some v → ¬(v = .none ∧ ¬Asked d (Prod.fst p)) → Nearly (Prod.snd p) v) →
      (∀ p ∈ ps, Dict.get? o (Prod.fst p) = .none → ¬Asked d (Prod.fst p) ∨ HasDefault (Prod.snd p)) →
      Nearly (.dict d) (.dict o)
  | alternatives {d xs x j} : Dict.get? d "type" = some (.list xs) → x ∈ xs → Nearly x j → Nearly (.dict d) j

/-- Schemas with only the keywords that the converter reads: no `enum`, no `oneOf`, no `additionalProperties` and no
references; what is required is a property, without a default. -/
inductive Understood : PyVal → Prop
  | mk {d} : (Dict.keys d).Nodup → (∀ k ∈ ["enum", "oneOf", "additionalProperties", "$ref"], k ∉ Dict.keys d) →
      (∀ xs, Dict.get? d "type" = some (.list xs) → ∀ x ∈ xs, ∃ s, x = .str s) →
      (∀ r, Dict.get? d "required" = some r → ∃ xs, r = .list xs ∧ ∀ x ∈ xs, ∃ n ps s, x = .str n ∧
        Dict.get? d "properties" = some (.dict ps) ∧ (n, s) ∈ ps ∧ ¬HasDefault s) →
      (∀ v, Dict.get? d "items" = some v → Understood v) →
      (∀ v, Dict.get? d "properties" = some v → ∃ ps, v = .dict ps) →
      (∀ ps, Dict.get? d "properties" = some (.dict ps) → ∀ p ∈ ps, Understood (Prod.snd p)) →
      Understood (.dict d)

mutual
/-- No property in the value is null. -/
def NoNull : PyVal → Prop
  | .list xs => NoNullAll xs
  | .dict o => NoNullPairs o
  | _ => True
/-- In all values of a list. -/
def NoNullAll : List PyVal → Prop
  | [] => True
  | x :: xs => NoNull x ∧ NoNullAll xs
/-- In all values of an object. -/
def NoNullPairs : List (String × PyVal) → Prop
  | [] => True
  | (_, x) :: o => x ≠ .none ∧ NoNull x ∧ NoNullPairs o
end

end Recap.JsonData
