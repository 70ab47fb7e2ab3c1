import Verif.ValuesSpec
import Verif.AvroMeans

/-!
# Which data an Avro schema describes (C128)

The data of a schema are taken from the specification of Avro 1.11.  Nothing here uses the converter,
apart from `resolve`, which is how the user of a type finds out what a reference in it refers to.
-/

set_option autoImplicit false

namespace Recap.AvroData

open Avro.Spec (IntValue Header target Other HasType)
open Values (Val)

/-! ## The values of a type with references -/

/-- The value is one that the type describes, where the registry is the one that references use. -/
inductive HoldsIn : Registry → RType → Val → Prop
  | leaf {reg t x} : Recap.Spec.children t = [] → Values.Holds t x → HoldsIn reg t x
  | list {reg t v vs a} : (∀ x ∈ vs, HoldsIn reg t x) → HoldsIn reg (.list t .none v a) (.list vs)
  | map {reg k v ps a} : (∀ p ∈ ps, HoldsIn reg k (Prod.fst p)) → (∀ p ∈ ps, HoldsIn reg v (Prod.snd p)) →
      HoldsIn reg (.map k v a) (.map ps)
  | struct {reg fs vs a} : fs.length = vs.length →
      (∀ (i : Nat) f x, fs[i]? = some f → vs[i]? = some x → HoldsIn reg f x) →
      HoldsIn reg (.struct fs a) (.struct vs)
  | union {reg ts t x a} : t ∈ ts → HoldsIn reg t x → HoldsIn reg (.union ts a) x
  /-- A value of what `resolve` returns. -/
  | reference {reg r a t x} : resolve reg r a = .ok t → HoldsIn (r.getD reg) t x → HoldsIn reg (.proxy r a) x

/-! ## The data of a schema -/

/-- The data of the primitive types.  The length of bytes and strings is a `long`, and a binary format with
fewer bits is contained in one with more. -/
inductive Primitive : String → Val → Prop
  | null : Primitive "null" .null
  | boolean {b} : Primitive "boolean" (.bool b)
  | int {i} : IntValue 32 true i → Primitive "int" (.int i)
  | long {i} : IntValue 64 true i → Primitive "long" (.int i)
  | float {n} : n ≤ 32 → Primitive "float" (.float n)
  | double {n} : n ≤ 64 → Primitive "double" (.float n)
  | bytes {n} : n ≤ 9223372036854775807 → Primitive "bytes" (.bytes n)
  | string {s : String} : s.utf8ByteSize ≤ 9223372036854775807 → Primitive "string" (.str s)

/-- The `type` of a schema. -/
def Is (d : Dict) (s : String) : Prop := Dict.get? d "type" = some (.str s)

/-- The precision and the scale of a decimal. -/
structure Digits (d : Dict) (p q : Nat) : Prop where
  precision : Dict.get? d "precision" = some (.int p)
  scale : Dict.get? d "scale" = some (.int q) ∨ Dict.get? d "scale" = .none ∧ q = 0
  positive : 1 ≤ p
  within : q ≤ p

/-- The logical type applies to the schema; otherwise it has to be ignored. -/
inductive Applies (d : Dict) : String → Prop
  | decimal {p q} : Is d "bytes" → Digits d p q → Applies d "decimal"
  | fixedDecimal {n p q : Nat} : Is d "fixed" → Dict.get? d "size" = some (.int n) → Digits d p q →
      10 ^ p ≤ 2 ^ (8 * n - 1) → Applies d "decimal"
  | uuid : Is d "string" → Applies d "uuid"
  | date : Is d "int" → Applies d "date"
  | timeMillis : Is d "int" → Applies d "time-millis"
  | timeMicros : Is d "long" → Applies d "time-micros"
  | timestampMillis : Is d "long" → Applies d "timestamp-millis"
  | timestampMicros : Is d "long" → Applies d "timestamp-micros"
  | duration : Is d "fixed" → Dict.get? d "size" = some (.int 12) → Applies d "duration"

/-- No logical type applies to the schema. -/
def Unannotated (d : Dict) : Prop := ∀ l, Dict.get? d "logicalType" = some (.str l) → ¬Applies d l

/-- The data of the logical types, apart from durations.  A decimal is stored as the number `u` of which it
is `u / 10 ^ q`. -/
inductive Logical (d : Dict) : String → Val → Prop
  | decimal {p q n s} {m u : Int} : Is d "bytes" → Digits d p q → u * 10 ^ s = m * 10 ^ q → u.natAbs < 10 ^ p →
      n ≤ 9223372036854775807 → IntValue (8 * n) true u → Logical d "decimal" (.decimal m s)
  | fixedDecimal {n p q s} {m u : Int} : Is d "fixed" → Dict.get? d "size" = some (.int (n : Nat)) →
      Digits d p q → u * 10 ^ s = m * 10 ^ q → u.natAbs < 10 ^ p → IntValue (8 * n) true u →
      Logical d "decimal" (.decimal m s)
  | uuid {s : String} : s.utf8ByteSize = 36 → Logical d "uuid" (.str s)
  | date {k} : IntValue 32 true k → Logical d "date" (.date k)
  | timeMillis {k} : IntValue 32 true k → Logical d "time-millis" (.time (k * 1000000))
  | timeMicros {k} : IntValue 64 true k → Logical d "time-micros" (.time (k * 1000))
  | timestampMillis {k} : IntValue 64 true k → Logical d "timestamp-millis" (.instant (k * 1000000))
  | timestampMicros {k} : IntValue 64 true k → Logical d "timestamp-micros" (.instant (k * 1000))

/-- Named definitions: full names with the schemas and the namespaces in which these are. -/
abbrev Env := List (String × Option String × PyVal)

/-- The definition of a name. -/
def lookup : Env → String → Option (Option String × PyVal)
  | [], _ => .none
  | (k, e) :: env, s => if k = s then some e else lookup env s

/-- The schemas of the fields. -/
inductive FieldTypes : List PyVal → List PyVal → Prop
  | nil : FieldTypes [] []
  | cons {d v vs ws} : Dict.get? d "type" = some v → FieldTypes vs ws → FieldTypes (.dict d :: vs) (v :: ws)

/-- `Datum env ns v x`: in the namespace `ns`, `x` is a datum of the schema `v`.  Attributes of a field
other than its `type` do not matter. -/
inductive Datum (env : Env) : Option String → PyVal → Val → Prop
  | primitiveName {ns s x} : Primitive s x → Datum env ns (.str s) x
  | reference {ns s ns' v x} : Other s → lookup env (target ns s) = some (ns', v) → Datum env ns' v x →
      Datum env ns (.str s) x
  | union {ns vs v x} : v ∈ vs → Datum env ns v x → Datum env ns (.list vs) x
  | primitive {ns d s x} : Is d s → Unannotated d → Primitive s x → Datum env ns (.dict d) x
  | logical {ns d l x} : Dict.get? d "logicalType" = some (.str l) → Applies d l → Logical d l x →
      Datum env ns (.dict d) x
  | fixed {ns d} {n : Nat} : Is d "fixed" → Unannotated d → Dict.get? d "size" = some (.int n) →
      Datum env ns (.dict d) (.bytes n)
  | enum {ns d xs s} : Is d "enum" → Dict.get? d "symbols" = some (.list xs) → .str s ∈ xs →
      Datum env ns (.dict d) (.str s)
  | array {ns d v xs} : Is d "array" → Dict.get? d "items" = some v → (∀ x ∈ xs, Datum env ns v x) →
      Datum env ns (.dict d) (.list xs)
  | map {ns d v} {ps : List (Val × Val)} : Is d "map" → Dict.get? d "values" = some v →
      (∀ p ∈ ps, Primitive "string" (Prod.fst p)) → (∀ p ∈ ps, Datum env ns v (Prod.snd p)) →
      Datum env ns (.dict d) (.map ps)
  | record {ns d name q vs ws xs} : Is d "record" → Header ns d name q →
      Dict.get? d "fields" = some (.list vs) → FieldTypes vs ws → ws.length = xs.length →
      (∀ (i : Nat) w x, ws[i]? = some w → xs[i]? = some x → Datum env q w x) →
      Datum env ns (.dict d) (.struct xs)

/-! ## The definitions in a schema -/

/-- `Inside ns v ns' w`: the schema `w`, in the namespace `ns'`, is `v` or inside it. -/
inductive Inside : Option String → PyVal → Option String → PyVal → Prop
  | here {ns v} : Inside ns v ns v
  | member {ns vs v ns' w} : v ∈ vs → Inside ns v ns' w → Inside ns (.list vs) ns' w
  | items {ns d v ns' w} : Is d "array" → Dict.get? d "items" = some v → Inside ns v ns' w →
      Inside ns (.dict d) ns' w
  | values {ns d v ns' w} : Is d "map" → Dict.get? d "values" = some v → Inside ns v ns' w →
      Inside ns (.dict d) ns' w
  | field {ns d name q vs ws v ns' w} : Is d "record" → Header ns d name q →
      Dict.get? d "fields" = some (.list vs) → FieldTypes vs ws → v ∈ ws → Inside q v ns' w →
      Inside ns (.dict d) ns' w

/-- The schema defines, somewhere inside, the full name. -/
def Defines (ns : Option String) (v : PyVal) (s : String) (ns' : Option String) (w : PyVal) : Prop :=
  Inside ns v ns' w ∧ ∃ d x q, w = .dict d ∧ Header ns' d (some (s, x)) q ∧
    (Is d "record" ∨ Is d "enum" ∨ Is d "fixed")

/-- **C128**: every datum of an accepted schema, with the definitions in it, is a value of what is read
of the schema. -/
def DataHeld : Prop :=
  ∀ (v : PyVal) (ns : Option String) (reg reg' : Registry) (t : RType) (env : Env) (x : Val),
    (∀ s ns' w, lookup env s = some (ns', w) → Defines ns v s ns' w) →
    Avro.toRecap v ns reg = .ok (t, reg') → Datum env ns v x → HoldsIn reg' t x

/-! ## What keeps data within their type -/

/-- The schema has no name, and is not in a namespace of its own. -/
structure Anonymous (d : Dict) : Prop where
  name : Dict.get? d "name" = .none
  «namespace» : Dict.get? d "namespace" = .none

/-- The fields have simple names and no logical type of their own. -/
inductive Fields : List PyVal → List PyVal → Prop
  | nil : Fields [] []
  | cons {d x v vs ws} : Dict.get? d "name" = some (.str x) → '.' ∉ x.toList →
      Dict.get? d "namespace" = .none → HasType d v → Fields vs ws → Fields (.dict d :: vs) (v :: ws)

mutual
/-- `Ordered env ns v env'`: in the schema `v`, after the definitions `env`, every name that is used has
been defined completely before it, every logical type applies to its schema, and types with a logical
type are not referred to.  The definitions after `v` are `env'`. -/
inductive Ordered : Env → Option String → PyVal → Env → Prop
  | primitiveName {env ns s} : (∃ x, Primitive s x) → Ordered env ns (.str s) env
  | reference {env ns s} : Other s → (lookup env (target ns s)).isSome → Ordered env ns (.str s) env
  | union {env ns vs env'} : OrderedAll env ns vs env' → Ordered env ns (.list vs) env'
  | primitive {env ns d s} : Anonymous d → HasType d (.str s) → (∃ x, Primitive s x) →
      Ordered env ns (.dict d) env
  | logical {env ns d l} : Dict.get? d "logicalType" = some (.str l) → Applies d l →
      (Is d "bytes" → Dict.get? d "size" = .none) → Ordered env ns (.dict d) env
  | fixed {env ns d s x q} {n : Nat} : Header ns d (some (s, x)) q → HasType d (.str "fixed") →
      Dict.get? d "size" = some (.int n) → n ≤ 9223372036854775807 →
      Ordered env ns (.dict d) (env ++ [(s, ns, .dict d)])
  | enum {env ns d s x q xs} : Header ns d (some (s, x)) q → HasType d (.str "enum") →
      Dict.get? d "symbols" = some (.list xs) → Ordered env ns (.dict d) (env ++ [(s, ns, .dict d)])
  | array {env ns d v env'} : Anonymous d → HasType d (.str "array") → Dict.get? d "items" = some v →
      Ordered env ns v env' → Ordered env ns (.dict d) env'
  | map {env ns d v env'} : Anonymous d → HasType d (.str "map") → Dict.get? d "values" = some v →
      Ordered env ns v env' → Ordered env ns (.dict d) env'
  | record {env ns d s x q vs ws env'} : Header ns d (some (s, x)) q → HasType d (.str "record") →
      Dict.get? d "fields" = some (.list vs) → Fields vs ws → OrderedAll env q ws env' →
      Ordered env ns (.dict d) (env' ++ [(s, ns, .dict d)])
/-- The schemas one after the other. -/
inductive OrderedAll : Env → Option String → List PyVal → Env → Prop
  | nil {env ns} : OrderedAll env ns [] env
  | cons {env ns v vs env' env''} : Ordered env ns v env' → OrderedAll env' ns vs env'' →
      OrderedAll env ns (v :: vs) env''
end

end Recap.AvroData
