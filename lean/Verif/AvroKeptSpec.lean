import Verif.AvroDataSpec

/-!
# Reading and writing Avro schemas (C154): what is meant

The data of a schema are those of `AvroDataSpec.lean`.
-/

set_option autoImplicit false

namespace Recap.AvroData

open Avro.Spec (Header HasType)
open Values (Val)

/-- `x` is a datum of the schema `v` as a whole: names stand for what is defined in it. -/
def DatumOf (ns : Option String) (v : PyVal) (x : Val) : Prop :=
  ∃ env, (∀ s ns' w, lookup env s = some (ns', w) → Defines ns v s ns' w) ∧ Datum env ns v x

/-- **C154**: the schema that is written for what is read of a schema has the same data. -/
def SameData : Prop :=
  ∀ (v : PyVal) (ns : Option String) (reg reg' : Registry) (t : RType) (d : Dict) (x : Val),
    Avro.toRecap v ns reg = .ok (t, reg') → Avro.fromRecap reg' t = .ok d →
    (DatumOf .none (.dict d) x ↔ DatumOf ns v x)

/-! ## Schemas that keep their data -/

mutual
/-- Without references, without `fixed`, with logical types that apply, and with fields as `SteadyField` says. -/
inductive Steady : Option String → PyVal → Prop
  | name {ns s} : (∃ x, Primitive s x) → Steady ns (.str s)
  | primitive {ns d s} : Anonymous d → HasType d (.str s) → (∃ x, Primitive s x) → Steady ns (.dict d)
  | logical {ns d l} : Dict.get? d "logicalType" = some (.str l) → Applies d l → ¬Is d "fixed" →
      (Is d "bytes" → Dict.get? d "size" = .none) → Steady ns (.dict d)
  | enum {ns d s x q xs} : Header ns d (some (s, x)) q → HasType d (.str "enum") →
      Dict.get? d "symbols" = some (.list xs) → Steady ns (.dict d)
  | array {ns d v} : Anonymous d → HasType d (.str "array") → Dict.get? d "items" = some v → Steady ns v →
      Steady ns (.dict d)
  | map {ns d v} : Anonymous d → HasType d (.str "map") → Dict.get? d "values" = some v → Steady ns v →
      Steady ns (.dict d)
  | record {ns d s x q vs ws} : Header ns d (some (s, x)) q → HasType d (.str "record") →
      Dict.get? d "fields" = some (.list vs) → Fields vs ws → (∀ w ∈ ws, SteadyField q w) → Steady ns (.dict d)
/-- The types of fields: primitive types and unions. -/
inductive SteadyField : Option String → PyVal → Prop
  | fieldName {ns s} : (∃ x, Primitive s x) → SteadyField ns (.str s)
  | fieldPrimitive {ns d s} : Anonymous d → HasType d (.str s) → (∃ x, Primitive s x) → SteadyField ns (.dict d)
  | union {ns vs} : (∀ v ∈ vs, Steady ns v) → SteadyField ns (.list vs)
end

end Recap.AvroData
