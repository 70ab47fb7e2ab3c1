import Verif.Py

/-!
# Avro schemas

What the Avro specification (version 1.11, "Schema Declaration") calls a schema.  References to named types are left out:
the schemas of tables without aliases have none.  Of default values only nulls are checked.
-/

set_option autoImplicit false

namespace Recap.Avro.Spec

/-- The names of primitive types. -/
def primitives : List String := ["null", "boolean", "int", "long", "float", "double", "bytes", "string"]

/-- A name starts with a letter or underscore and goes on with letters, digits and underscores. -/
def IsName (s : String) : Prop :=
  ∃ c cs, s.toList = c :: cs ∧ (c.isAlpha ∨ c = '_') ∧ ∀ x ∈ cs, x.isAlphanum ∨ x = '_'

/-- What tells the members of a union apart: the name of a type that has one, and else its kind. -/
def kind : PyVal → Option PyVal
  | .str s => some (.str s)
  | .dict d =>
    match Dict.get? d "type" with
    | some (.str s) => if s ∈ ["record", "enum", "fixed"] then Dict.get? d "name" else some (.str s)
    | _ => .none
  | _ => .none

/-- The type is null, or a union that starts with null. -/
def NullFirst : PyVal → Prop
  | .str s => s = "null"
  | .list (.str s :: _) => s = "null"
  | _ => False

mutual
/-- A schema. -/
inductive ValidSchema : PyVal → Prop
  | name {s} : s ∈ primitives → ValidSchema (.str s)
  | primitive {d s} : Dict.get? d "type" = some (.str s) → s ∈ primitives → ValidSchema (.dict d)
  | array {d v} : Dict.get? d "type" = some (.str "array") → Dict.get? d "items" = some v → ValidSchema v →
      ValidSchema (.dict d)
  | map {d v} : Dict.get? d "type" = some (.str "map") → Dict.get? d "values" = some v → ValidSchema v →
      ValidSchema (.dict d)
  | record {d n fs} : Dict.get? d "type" = some (.str "record") → Dict.get? d "name" = some (.str n) → IsName n →
      Dict.get? d "fields" = some (.list fs) → (∀ f ∈ fs, ValidField f) →
      (fs.map (fun f => match f with
        | .dict fd => Dict.get? fd "name"
        | _ => .none)).Nodup → ValidSchema (.dict d)
  | enum {d n ss} : Dict.get? d "type" = some (.str "enum") → Dict.get? d "name" = some (.str n) → IsName n →
      Dict.get? d "symbols" = some (.list ss) → (∀ s ∈ ss, ∃ x, s = .str x ∧ IsName x) → ss.Nodup → ValidSchema (.dict d)
  | fixed {d n k} : Dict.get? d "type" = some (.str "fixed") → Dict.get? d "name" = some (.str n) → IsName n →
      Dict.get? d "size" = some (.int k) → 0 ≤ k → ValidSchema (.dict d)
  | union {vs} : (∀ v ∈ vs, ValidSchema v) → (∀ v ∈ vs, ∀ us, v ≠ .list us) → (vs.map kind).Nodup →
      ValidSchema (.list vs)
/-- A field of a record. -/
inductive ValidField : PyVal → Prop
  | mk {d n v} : Dict.get? d "name" = some (.str n) → IsName n → Dict.get? d "type" = some v → ValidSchema v →
      (Dict.get? d "default" = some .none → NullFirst v) → ValidField (.dict d)
end

/-- The names of the fields of a record, in order. -/
def fieldNames (d : Dict) : List (Option PyVal) :=
  match Dict.get? d "fields" with
  | some (.list fs) => fs.map (fun f => match f with
    | .dict fd => Dict.get? fd "name"
    | _ => .none)
  | _ => []

end Recap.Avro.Spec
