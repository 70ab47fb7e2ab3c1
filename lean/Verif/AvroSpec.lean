import Verif.Avro
import Verif.TypesSpec

/-!
# What the properties of the Avro converter mean
-/

set_option autoImplicit false

namespace Recap.Avro.Spec

/-! ## Integers (C60) -/

/-- `v` is a value of the integer type with this many bits. -/
def IntValue (bits : Nat) (signed : Bool) (v : Int) : Prop :=
  if signed then -(2 : Int) ^ (bits - 1) ≤ v ∧ v < (2 : Int) ^ (bits - 1) else 0 ≤ v ∧ v < (2 : Int) ^ bits

/-- The Avro schema can hold the integer `v`: as a 32-bit or 64-bit integer, or as a decimal with
that many digits and no fraction. -/
inductive Holds (d : Dict) (v : Int) : Prop
  | int : Dict.get? d "type" = some (.str "int") → Dict.get? d "logicalType" = .none →
      -2147483648 ≤ v → v ≤ 2147483647 → Holds d v
  | long : Dict.get? d "type" = some (.str "long") → Dict.get? d "logicalType" = .none →
      -9223372036854775808 ≤ v → v ≤ 9223372036854775807 → Holds d v
  | decimal (precision : Nat) : Dict.get? d "type" = some (.str "bytes") →
      Dict.get? d "logicalType" = some (.str "decimal") →
      Dict.get? d "precision" = some (.int precision) → Dict.get? d "scale" = .none →
      -(10 : Int) ^ precision < v → v < (10 : Int) ^ precision → Holds d v

/-! ## Names (C63) -/

/-- The names of Avro's own types. -/
def keywords : List String :=
  ["null", "boolean", "int", "long", "float", "double", "bytes", "string",
   "record", "enum", "array", "map", "fixed"]

/-- The name occurs in the schema as that of a type. -/
inductive Uses : PyVal → String → Prop
  | name {s} : Uses (.str s) s
  | type {d v s} : Dict.get? d "type" = some v → Uses v s → Uses (.dict d) s
  | items {d v s} : Dict.get? d "items" = some v → Uses v s → Uses (.dict d) s
  | values {d v s} : Dict.get? d "values" = some v → Uses v s → Uses (.dict d) s
  | field {d xs x s} : Dict.get? d "fields" = some (.list xs) → x ∈ xs → Uses x s → Uses (.dict d) s
  | member {xs x s} : x ∈ xs → Uses x s → Uses (.list xs) s

/-- `p` is the schema or one of the schemas in it. -/
inductive Part : PyVal → PyVal → Prop
  | refl {v} : Part v v
  | type {d v p} : Dict.get? d "type" = some v → Part v p → Part (.dict d) p
  | items {d v p} : Dict.get? d "items" = some v → Part v p → Part (.dict d) p
  | values {d v p} : Dict.get? d "values" = some v → Part v p → Part (.dict d) p
  | field {d xs x p} : Dict.get? d "fields" = some (.list xs) → x ∈ xs → Part x p → Part (.dict d) p
  | member {xs x p} : x ∈ xs → Part x p → Part (.list xs) p

/-- The schema says that a type in it is also known by this name. -/
def Aliased (v : PyVal) (s : String) : Prop :=
  ∃ d, Part v (.dict d) ∧ ∃ xs, Dict.get? d "aliases" = some (.list xs) ∧ PyVal.str s ∈ xs

/-- The schema has a record, an enum or a fixed type of this name (written schemas have no
namespaces). -/
def Named (v : PyVal) (s : String) : Prop :=
  ∃ d, Part v (.dict d) ∧ Dict.get? d "name" = some (.str s) ∧
    ∃ k ∈ ["record", "enum", "fixed"], Dict.get? d "type" = some (.str k)

/-- `u` is `t` or nested in it, as a value of a list or a map, a field or a member. -/
inductive Inside : RType → RType → Prop
  | refl {t} : Inside t t
  | list {u t l v a} : Inside u t → Inside u (.list t l v a)
  | value {u k v a} : Inside u v → Inside u (.map k v a)
  | field {u t fs a} : t ∈ fs → Inside u t → Inside u (.struct fs a)
  | member {u t ts a} : t ∈ ts → Inside u t → Inside u (.union ts a)

/-- The type is a reference. -/
def IsReference (t : RType) : Prop := ∃ r a, t = .proxy r a

/-- The type itself or one nested in it has the alias `s`. -/
def Defines (t : RType) (s : String) : Prop := ∃ u, Inside u t ∧ ¬ IsReference u ∧ u.attrs.alias = .str s

/-- The alias has a dot; otherwise it is one of those that every registry knows. -/
def Qualified (s : String) : Prop := '.' ∈ s.toList

/-- A reference to a built-in alias, with a name (as record fields have). -/
structure NamedBuiltin (live : Registry) (r : Option (List (String × RType))) (a : Attrs) : Prop where
  alias : ∃ s t, a.alias = .str s ∧ (s, t) ∈ builtinAliases ∧ Registry.find? (r.getD live) s = some t
  keys : (Dict.keys a.extra).Nodup
  name : ∃ n, n ≠ "" ∧ Dict.get? a.extra "name" = some (.str n)

/-! ## The types that Avro can express (C61) -/

/-- A description, a name and a default, if any. -/
structure Info where
  doc : PyVal := .none
  name : Option String := .none
  default : Option PyVal := .none

/-- A description that is given is not empty; a name is not empty and has no dots. -/
structure Info.Proper (i : Info) : Prop where
  doc : i.doc = .none ∨ i.doc.truthy = true
  name : ∀ n, i.name = some n → n ≠ "" ∧ '.' ∉ n.toList

/-- The name and the default, after other attributes.  (The order of attributes does not matter to
Python.) -/
def Info.extra (i : Info) (own : Dict := []) : Dict :=
  own ++ (match i.name with
    | some n => [("name", .str n)]
    | .none => []) ++
  (match i.default with
    | some v => [("default", v)]
    | .none => [])

/-- A logical type, or a reference to `alias`. -/
def Info.plain (i : Info) (logical : PyVal := .none) (own : Dict := []) (alias : PyVal := .none) : Attrs where
  logical := logical
  alias := alias
  doc := i.doc
  extra := i.extra own

/-- The alias of what has a name is this name, in the namespace. -/
def Info.attrs (ns : String) (i : Info) : Attrs :=
  i.plain (alias := match i.name with
    | some n => .str (ns ++ "." ++ n)
    | .none => .none)

/-- The types that Avro can express, in a namespace. -/
inductive Native (ns : String) : RType → Prop
  | null (i : Info) : i.Proper → Native ns (.null (i.attrs ns))
  | boolean (i : Info) : i.Proper → Native ns (.bool (i.attrs ns))
  | int (i : Info) : i.Proper → Native ns (.int (.int 32) (.bool true) (i.attrs ns))
  | long (i : Info) : i.Proper → Native ns (.int (.int 64) (.bool true) (i.attrs ns))
  | float (i : Info) : i.Proper → Native ns (.float (.int 32) (i.attrs ns))
  | double (i : Info) : i.Proper → Native ns (.float (.int 64) (i.attrs ns))
  | bytes (i : Info) : i.Proper → Native ns (.bytes (.int 9223372036854775807) (.bool true) (i.attrs ns))
  | string (i : Info) : i.Proper → Native ns (.string (.int 9223372036854775807) (.bool true) (i.attrs ns))
  | enum (i : Info) (symbols : List PyVal) : i.Proper → Native ns (.enum (.list symbols) (i.attrs ns))
  | array (i : Info) {t} : i.Proper → Native ns t → Native ns (.list t .none (.bool true) (i.attrs ns))
  | map (i : Info) {t} : i.Proper → Native ns t →
      Native ns (.map (.string (.int 9223372036854775807) (.bool true) {}) t (i.attrs ns))
  | record (i : Info) {fs} : i.Proper → (∀ f ∈ fs, Native ns f) → Native ns (.struct fs (i.attrs ns))
  | union (i : Info) {ts} : i.Proper → (∀ t ∈ ts, Native ns t) → Native ns (.union ts (i.attrs ns))
  | reference (i : Info) {s} : i.Proper → Qualified s →
      Native ns (.proxy .none (i.plain (alias := .str s)))
  | decimal (i : Info) (precision : Int) (scale : PyVal) : i.Proper →
      Native ns (.bytes (.int 9223372036854775807) (.bool false)
        (i.plain (.str "build.recap.Decimal") [("precision", .int precision), ("scale", scale)]))
  | uuid (i : Info) : i.Proper →
      Native ns (.string (.int 36) (.bool false) (i.plain (.str "build.recap.UUID")))
  | date (i : Info) : i.Proper →
      Native ns (.int (.int 32) (.bool true) (i.plain (.str "build.recap.Date") [("unit", .str "day")]))
  | timeMillis (i : Info) : i.Proper →
      Native ns (.int (.int 32) (.bool true)
        (i.plain (.str "build.recap.Time") [("unit", .str "millisecond")]))
  | timeMicros (i : Info) : i.Proper →
      Native ns (.int (.int 64) (.bool true)
        (i.plain (.str "build.recap.Time") [("unit", .str "microsecond")]))
  | timestampMillis (i : Info) : i.Proper →
      Native ns (.int (.int 64) (.bool true)
        (i.plain (.str "build.recap.Timestamp") [("unit", .str "millisecond")]))
  | timestampMicros (i : Info) : i.Proper →
      Native ns (.int (.int 64) (.bool true)
        (i.plain (.str "build.recap.Timestamp") [("unit", .str "microsecond")]))

/-- The aliases in the type are distinct, well-formed and new to the registry. -/
def NewAliases (reg : Registry) (t : RType) : Prop :=
  (Recap.Spec.definedAliases t).Nodup ∧
    ∀ s, PyVal.str s ∈ Recap.Spec.definedAliases t → aliasOk s = true ∧ reg.find? s = .none

end Recap.Avro.Spec
