import Verif.ValuesSpec
import Verif.JsonSchemaSpec

/-!
# Which JSON values a schema and a type allow (C130, C131, C132)

Validation is that of JSON Schema 2020-12, for the keywords that the converter reads or writes.  Nothing here
uses the converter.

What is simplified:
* a JSON value is what `json.loads` makes of a text, where numbers with a fraction or an exponent are binary
  floating point numbers: `float m e` is `m / 2 ^ e`;
* keywords that neither side uses, such as `minimum`, never make a value invalid.
-/

set_option autoImplicit false

namespace Recap.JsonData

open Avro.Spec (IntValue)
open Values (Fits)
open Json.Spec (nameOf OptionalField defsOf Inside Spans IsReference Builtin)

/-! ## Validation -/

/-- The `type` of a JSON value. -/
inductive Kind : String → PyVal → Prop
  | null : Kind "null" .none
  | boolean {b} : Kind "boolean" (.bool b)
  | integer {i} : Kind "integer" (.int i)
  | point {q : Int} {e} : Kind "integer" (.float (q * 2 ^ e) e)
  | whole {i} : Kind "number" (.int i)
  | number {m e} : Kind "number" (.float m e)
  | string {s} : Kind "string" (.str s)
  | array {xs} : Kind "array" (.list xs)
  | object {o} : Kind "object" (.dict o)

/-- The keyword `type`. -/
def TypeOk : PyVal → PyVal → Prop
  | .str s, j => Kind s j
  | .list xs, j => ∃ s, .str s ∈ xs ∧ Kind s j
  | _, _ => False

/-- The keyword `enum`. -/
def EnumOk : PyVal → PyVal → Prop
  | .list xs, j => j ∈ xs
  | _, _ => False

/-- The keyword `required`. -/
def RequiredOk : PyVal → PyVal → Prop
  | .list xs, j => ∀ o, j = .dict o → ∀ x ∈ xs, ∃ n, x = .str n ∧ n ∈ Dict.keys o
  | _, _ => False

/-- The names among the properties of a schema. -/
def propertyNames (d : Dict) : List String :=
  match Dict.get? d "properties" with
  | some (.dict ps) => Dict.keys ps
  | _ => []

mutual
/-- The value is valid against the schema, where `refs` says which values are valid against a reference. -/
def Valid (refs : String → PyVal → Prop) : PyVal → PyVal → Prop
  | .bool b, _ => b = true
  | .dict d, j => Keywords refs (propertyNames d) d j
  | _, _ => False
termination_by structural v => v
/-- The value is valid against each keyword; `names` are the names among the properties. -/
def Keywords (refs : String → PyVal → Prop) (names : List String) : List (String × PyVal) → PyVal → Prop
  | [], _ => True
  | (k, v) :: kvs, j =>
    (k = "type" → TypeOk v j) ∧
    (k = "enum" → EnumOk v j) ∧
    (k = "required" → RequiredOk v j) ∧
    (k = "$ref" → ∃ s, v = .str s ∧ refs s j) ∧
    (k = "items" → ∀ xs, j = .list xs → ∀ x ∈ xs, Valid refs v x) ∧
    (k = "additionalProperties" → ∀ o, j = .dict o → ∀ kv ∈ o, Prod.fst kv ∉ names → Valid refs v (Prod.snd kv)) ∧
    (k = "properties" → Properties refs v j) ∧
    (k = "oneOf" → OneOf refs v j) ∧
    Keywords refs names kvs j
termination_by structural v => v
/-- The keyword `properties`. -/
def Properties (refs : String → PyVal → Prop) : PyVal → PyVal → Prop
  | .dict ps, j => PropertiesAll refs ps j
  | _, _ => False
termination_by structural v => v
/-- The properties one after the other. -/
def PropertiesAll (refs : String → PyVal → Prop) : List (String × PyVal) → PyVal → Prop
  | [], _ => True
  | (n, s) :: ps, j => (∀ o v, j = .dict o → Dict.get? o n = some v → Valid refs s v) ∧ PropertiesAll refs ps j
termination_by structural v => v
/-- The keyword `oneOf`: valid against exactly one of the schemas. -/
def OneOf (refs : String → PyVal → Prop) : PyVal → PyVal → Prop
  | .list ss, j => ExactlyOne refs ss j
  | _, _ => False
termination_by structural v => v
/-- Valid against one schema and no other. -/
def ExactlyOne (refs : String → PyVal → Prop) : List PyVal → PyVal → Prop
  | [], _ => False
  | s :: ss, j => (Valid refs s j ∧ NoneOf refs ss j) ∨ (¬Valid refs s j ∧ ExactlyOne refs ss j)
termination_by structural v => v
/-- Valid against none of the schemas. -/
def NoneOf (refs : String → PyVal → Prop) : List PyVal → PyVal → Prop
  | [], _ => True
  | s :: ss, j => ¬Valid refs s j ∧ NoneOf refs ss j
termination_by structural v => v
end

/-! ## The values of a type as JSON -/

/-- The binary digits of a floating point format. -/
def digits (bits : Int) : Nat := if bits < 32 then 11 else if bits < 64 then 24 else 53

/-- The number has at most `n` significant binary digits.  The exponent is not limited. -/
def Significant (n : Nat) (m : Int) : Prop := ∃ (q : Int) (k : Nat), q.natAbs < 2 ^ n ∧ m = q * 2 ^ k

/-- The field can be left out: with `all` if it has a default, otherwise if it is optional. -/
def Omissible (all : Bool) (f : RType) : Prop :=
  if all then "default" ∈ Dict.keys f.attrs.extra else OptionalField f

/-- `Carries live all t j`: the JSON value is one of the type, where `live` is the registry that references use.  With `all`, fields that have a default can be left
out and optional values can be null; otherwise only optional fields can be left out, and optional values are not
null.  How bytes are written as a string, and logical types as numbers or strings, is left open. -/
inductive Carries (live : Registry) (all : Bool) : RType → PyVal → Prop
  | null {a} : Carries live all (.null a) .none
  | bool {a b} : Carries live all (.bool a) (.bool b)
  | int {n : Int} {s : Bool} {i a} : IntValue n.toNat s i → Carries live all (.int (.int n) (.bool s) a) (.int i)
  | point {n : Int} {s : Bool} {i e a} : IntValue n.toNat s i →
      Carries live all (.int (.int n) (.bool s) a) (.float (i * 2 ^ e) e)
  | float {n m e a} : Significant (digits n) m → Carries live all (.float (.int n) a) (.float m e)
  | whole {n a i} : Significant (digits n) i → Carries live all (.float (.int n) a) (.int i)
  | string {l v s a} : Fits l s.utf8ByteSize → Carries live all (.string l v a) (.str s)
  | bytes {l v s a} : Carries live all (.bytes l v a) (.str s)
  | enum {xs s a} : .str s ∈ xs → Carries live all (.enum (.list xs) a) (.str s)
  | list {t v vs a} : (∀ x ∈ vs, Carries live all t x) → Carries live all (.list t .none v a) (.list vs)
  | map {k v a} {o : Dict} : (∀ kv ∈ o, Carries live all k (.str (Prod.fst kv))) → (∀ kv ∈ o, Carries live all v (Prod.snd kv)) →
      Carries live all (.map k v a) (.dict o)
  | struct {fs a} {o : Dict} : (∀ f ∈ fs, ∃ n, nameOf f = some (.str n)) →
      (∀ f ∈ fs, ∀ n v, nameOf f = some (.str n) → Dict.get? o n = some v → Carries live all f v) →
      (∀ f ∈ fs, ∀ n, nameOf f = some (.str n) → Dict.get? o n = .none → Omissible all f) →
      Carries live all (.struct fs a) (.dict o)
  | union {ts t j a} : t ∈ ts → (all = true ∨ (OptionalField (.union ts a) → t.isNull = false)) → Carries live all t j →
      Carries live all (.union ts a) j
  | reference {r t j a} : resolve live r a = .ok t → Carries live all t j → Carries live all (.proxy r a) j

/-! ## The claims -/

/-- **C130**: every value that is valid against an accepted schema is one of the type that is read. -/
def InstancesHeld (env : Url.Env) : Prop :=
  ∀ (refs : String → PyVal → Prop) (v : PyVal) (ids ids' : Json.Ids) (t : RType) (j : PyVal),
    Json.toRecap env v ids = .ok (t, ids') → Valid refs v j → ∀ live, Carries live true t j

/-- The references are to the definitions of the schema. -/
def Interprets (refs : String → PyVal → Prop) (d : Dict) : Prop :=
  ∀ alias s, Dict.get? (defsOf d) alias = some s → ∀ j, refs ("#/$defs/" ++ alias) j ↔ Valid refs s j

/-- **C131**: every value of a type is valid against the schema that is written. -/
def ValuesAccepted : Prop :=
  ∀ (refs : String → PyVal → Prop) (live : Registry) (t : RType) (d : Dict) (j : PyVal),
    Json.fromRecap live t = .ok d → Interprets refs d → Carries live true t j → Valid refs (.dict d) j

/-- **C132**: only values of a type are valid against the schema that is written. -/
def OnlyValuesAccepted : Prop :=
  ∀ (refs : String → PyVal → Prop) (live : Registry) (t : RType) (d : Dict) (j : PyVal),
    Json.fromRecap live t = .ok d → Interprets refs d → Valid refs (.dict d) j → Carries live true t j

/-! ## What keeps them within each other -/

/-- `Shaped live t j`: the JSON value is one of the type, apart from the range of numbers, the length of strings and
lists and the keys of maps.  Optional fields can be left out and are not null, other fields are there. -/
inductive Shaped (live : Registry) : RType → PyVal → Prop
  | null {a} : Shaped live (.null a) .none
  | bool {a b} : Shaped live (.bool a) (.bool b)
  | int {n s i a} : Shaped live (.int n s a) (.int i)
  | point {n s a} {i : Int} {e} : Shaped live (.int n s a) (.float (i * 2 ^ e) e)
  | float {n m e a} : Shaped live (.float n a) (.float m e)
  | whole {n a i} : Shaped live (.float n a) (.int i)
  | string {l v s a} : Shaped live (.string l v a) (.str s)
  | bytes {l v s a} : Shaped live (.bytes l v a) (.str s)
  | enum {xs s a} : .str s ∈ xs → Shaped live (.enum (.list xs) a) (.str s)
  | list {t l v vs a} : (∀ x ∈ vs, Shaped live t x) → Shaped live (.list t l v a) (.list vs)
  | map {k v a} {o : Dict} : (∀ kv ∈ o, Shaped live v (Prod.snd kv)) → Shaped live (.map k v a) (.dict o)
  | struct {fs a} {o : Dict} : (∀ f ∈ fs, ∃ n, nameOf f = some (.str n)) →
      (∀ f ∈ fs, ∀ n v, nameOf f = some (.str n) → Dict.get? o n = some v → Shaped live f v) →
      (∀ f ∈ fs, ∀ n, nameOf f = some (.str n) → Dict.get? o n = .none → OptionalField f) →
      Shaped live (.struct fs a) (.dict o)
  | union {ts t j a} : t ∈ ts → (OptionalField (.union ts a) → t.isNull = false) → Shaped live t j →
      Shaped live (.union ts a) j
  | reference {r t j a} : resolve live r a = .ok t → Shaped live t j → Shaped live (.proxy r a) j

/-- Nothing in the type, or in what references in it resolve to, has an alias, and each reference is to a built-in alias
or has attributes of its own. -/
structure Clean (live : Registry) (t : RType) : Prop where
  inlined : ∀ r a, Spans live t (.proxy r a) → Builtin a.alias ∨ a.extra ≠ []
  alias : ∀ u, Spans live t u → ¬IsReference u → u.attrs.alias = .none

/-- What makes it definite what the references in the written schema are to.  Each reference in the type is to a built-in
alias or has attributes of its own, such as the name of a field, and nothing that it resolves to has an alias.  The
aliases in the type are different, are not empty and not built in, and no reference is to one of them. -/
structure Definite (live : Registry) (t : RType) : Prop where
  inlined : ∀ r a, Inside (.proxy r a) t → Builtin a.alias ∨ a.extra ≠ []
  clean : ∀ r a u, Inside (.proxy r a) t → resolve live r a = .ok u → Clean live u
  distinct : (Recap.Spec.definedAliases t).Nodup
  aliases : ∀ u s, Inside u t → ¬IsReference u → u.attrs.alias = .str s → s ≠ "" ∧ ¬Builtin (.str s)
  others : ∀ r a u s, Inside (.proxy r a) t → Inside u t → ¬IsReference u → u.attrs.alias = .str s → a.alias ≠ .str s

/-- The fields of each structure in the type have different names. -/
def NamesDiffer (t : RType) : Prop := ∀ fs a, Inside (.struct fs a) t → (fs.map nameOf).Nodup


mutual
/-- All whole numbers in the value have at most 32 bits, and all numbers with a fraction at most 53 binary
digits. -/
def Moderate : PyVal → Prop
  | .int i => IntValue 32 true i
  | .float m e => Significant 53 m ∧ ∀ q : Int, m = q * 2 ^ e → IntValue 32 true q
  | .list xs => ModerateAll xs
  | .dict o => ModeratePairs o
  | _ => True
/-- In all values of a list. -/
def ModerateAll : List PyVal → Prop
  | [] => True
  | x :: xs => Moderate x ∧ ModerateAll xs
/-- In all values of an object. -/
def ModeratePairs : List (String × PyVal) → Prop
  | [] => True
  | (_, x) :: o => Moderate x ∧ ModeratePairs o
end

/-- What distinguishes the values of a type in JSON. -/
def kindOf : RType → Option String
  | .null _ => some "null"
  | .bool _ => some "boolean"
  | .int .. | .float .. => some "number"
  | .string .. | .bytes .. | .enum .. => some "string"
  | .list .. => some "array"
  | .map .. | .struct .. => some "object"
  | .union .. | .proxy .. => .none

/-- In unions that are not optional, the values of each member are of another kind. -/
inductive Distinct : RType → Prop
  | null {a} : Distinct (.null a)
  | bool {a} : Distinct (.bool a)
  | int {b s a} : Distinct (.int b s a)
  | float {b a} : Distinct (.float b a)
  | string {l v a} : Distinct (.string l v a)
  | bytes {l v a} : Distinct (.bytes l v a)
  | enum {xs a} : Distinct (.enum xs a)
  | reference {r a} : Distinct (.proxy r a)
  | list {t l v a} : Distinct t → Distinct (.list t l v a)
  | map {k v a} : Distinct v → Distinct (.map k v a)
  | struct {fs a} : (∀ f ∈ fs, Distinct f) → Distinct (.struct fs a)
  | optional {ts a} : OptionalField (.union ts a) → (∀ t ∈ ts, Distinct t) → Distinct (.union ts a)
  | union {ts a} : (∀ t ∈ ts, Distinct t) → (∀ t ∈ ts, (kindOf t).isSome) → (ts.map kindOf).Nodup →
      Distinct (.union ts a)

end Recap.JsonData
