import Verif.JsonRefsSpec
import Verif.JsonReadSpec

/-!
# Which JSON values the type has that is read from a JSON Schema with references (C138)
-/

set_option autoImplicit false

namespace Recap.JsonData

/-- The alias of the type that is read from a schema with this identifier. -/
def AliasOf (env : Url.Env) (id : String) (a : PyVal) : Prop :=
  ∃ t ids', Json.toRecap env (.dict [("$id", .str id), ("type", .str "object"), ("properties", .dict [])]) [] = .ok (t, ids') ∧
    t.attrs.alias = a

/-- Different identifiers in the document have different aliases. -/
def Unambiguous (env : Url.Env) (v : PyVal) : Prop :=
  ∀ d d' id id' a, Part (.dict d) v → Part (.dict d') v → Dict.get? d "$id" = some (.str id) →
    Dict.get? d' "$id" = some (.str id') → AliasOf env id a → AliasOf env id' a → SameId id id'

/-- A property that has an identifier and a list of types without null is required. -/
def NamedRequired (v : PyVal) : Prop :=
  ∀ d ps n s xs, Part (.dict d) v → Dict.get? d "properties" = some (.dict ps) → (n, .dict s) ∈ ps →
    "$id" ∈ Dict.keys s → Dict.get? s "type" = some (.list xs) → .str "null" ∉ xs → Asked d n

/-- Only the keywords are there that the converter reads; what is required is a property, without a default; beside a
reference there are none of the other keywords. -/
structure Clear (d : Dict) : Prop where
  nodup : (Dict.keys d).Nodup
  other : ∀ k ∈ ["enum", "oneOf", "additionalProperties", "$dynamicRef"], k ∉ Dict.keys d
  types : ∀ xs, Dict.get? d "type" = some (.list xs) → ∀ x ∈ xs, ∃ s, x = .str s
  required : ∀ r, Dict.get? d "required" = some r → ∃ xs, r = .list xs ∧ ∀ x ∈ xs, ∃ n ps s, x = .str n ∧
    Dict.get? d "properties" = some (.dict ps) ∧ (n, s) ∈ ps ∧ ¬HasDefault s
  items : ∀ s, Dict.get? d "items" = some s → ∃ d', s = .dict d'
  properties : ∀ s, Dict.get? d "properties" = some s → ∃ ps, s = .dict ps ∧ ∀ p ∈ ps, ∃ d', Prod.snd p = .dict d'
  alone : "$ref" ∈ Dict.keys d → ∀ k ∈ ["type", "items", "properties", "required"], k ∉ Dict.keys d

/-- All schemas in the document are like this. -/
def AllClear (v : PyVal) : Prop := ∀ d, Part (.dict d) v → Clear d

end Recap.JsonData
