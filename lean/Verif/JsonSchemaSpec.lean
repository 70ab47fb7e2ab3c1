import Verif.JsonSchema

/-!
# What the properties of the JSON Schema converter mean
-/

set_option autoImplicit false

namespace Recap.Json.Spec

open Recap.Url

/-! ## Reading schemas -/

/-- The basic types that can be read. -/
def basic : List String := ["string", "number", "integer", "boolean", "null"]

mutual
/-- None of these keys occurs anywhere in a document. -/
def Without (keys : List String) : PyVal → Prop
  | .list xs => WithoutAll keys xs
  | .dict d => WithoutPairs keys d
  | _ => True
def WithoutAll (keys : List String) : List PyVal → Prop
  | [] => True
  | x :: xs => Without keys x ∧ WithoutAll keys xs
def WithoutPairs (keys : List String) : List (String × PyVal) → Prop
  | [] => True
  | (k, x) :: xs => k ∉ keys ∧ Without keys x ∧ WithoutPairs keys xs
end

/-- The list of required properties can be searched for names. -/
def Searchable : PyVal → Prop
  | .list _ | .str _ | .dict _ => True
  | _ => False

/-- The schemas that can be read, leaving identifiers and references aside: basic types, arrays and
objects whose parts can be read, and lists of alternatives that can be read.  Other keywords are
ignored. -/
inductive Readable : PyVal → Prop
  | name {s} : s ∈ basic → Readable (.str s)
  | scalar {d s} : s ∈ basic → Dict.get? d "type" = some (.str s) → Readable (.dict d)
  | array {d items} : Dict.get? d "type" = some (.str "array") → Dict.get? d "items" = some items →
      Readable items → Readable (.dict d)
  | object {d props} : Dict.get? d "type" = some (.str "object") →
      Dict.get? d "properties" = some (.dict props) → (∀ kv ∈ props, Readable kv.2) →
      (props = [] ∨ ∀ r, Dict.get? d "required" = some r → Searchable r) → Readable (.dict d)
  | alternatives {d xs} : Dict.get? d "type" = some (.list xs) → (∀ x ∈ xs, Readable x) →
      Readable (.dict d)

/-- An object schema. -/
def IsObject (v : PyVal) : Prop := ∃ d, v = .dict d ∧ Dict.get? d "type" = some (.str "object")

/-! ## Required and optional -/

/-- The property is listed as required. -/
def Listed (d : Dict) (name : String) : Prop :=
  ∃ xs, Dict.get? d "required" = some (.list xs) ∧ PyVal.str name ∈ xs

/-- A field that need not be given: it can be null and has a default. -/
def NeedNotBeGiven (t : RType) : Prop :=
  (t.isNull = true ∨ ∃ ts a, t = .union ts a ∧ ∃ m ∈ ts, m.isNull = true) ∧
    "default" ∈ Dict.keys t.attrs.extra

/-- The schema of null alone. -/
def NullSchema (v : PyVal) : Prop :=
  v = .str "null" ∨ ∃ d, v = .dict d ∧ Dict.get? d "type" = some (.str "null")

/-- A schema that accepts null and has a default. -/
def NullWithDefault (v : PyVal) : Prop :=
  ∃ d, v = .dict d ∧ "default" ∈ Dict.keys d ∧
    (NullSchema v ∨ ∃ xs, Dict.get? d "type" = some (.list xs) ∧ ∃ x ∈ xs, NullSchema x)

/-- The name of a field. -/
def nameOf (t : RType) : Option PyVal := Dict.get? t.attrs.extra "name"

/-! ## Written schemas -/

/-- A field is optional: a union of null and one other type, with a default. -/
def OptionalField (t : RType) : Prop := ∃ ts a, t = .union ts a ∧ RType.isOptional ts a.extra = true

/-- The names of the fields that are not optional, in order. -/
def requiredNames (fs : List RType) : List PyVal :=
  (fs.filter (fun f => match f with
    | .union ts a => !RType.isOptional ts a.extra
    | _ => true)).filterMap nameOf

/-- The object schema of a struct with these fields: its properties have the names of the fields,
each once, and those of the fields that are not optional are listed as required. -/
structure ObjectOf (fs : List RType) (o : Dict) : Prop where
  type : Dict.get? o "type" = some (.str "object")
  properties : ∃ props : Dict, Dict.get? o "properties" = some (.dict props) ∧
    (Dict.keys props).Nodup ∧
    ∀ name, name ∈ Dict.keys props ↔ ∃ f ∈ fs, nameOf f = some (.str name)
  required : Dict.get? o "required" =
    if requiredNames fs = [] then .none else some (.list (requiredNames fs))

/-- `o` is the schema, or one of the schemas in it. -/
inductive Place : Dict → Dict → Prop
  | own {d} : Place d d
  | items {d s o} : Dict.get? d "items" = some (.dict s) → Place s o → Place d o
  | values {d s o} : Dict.get? d "additionalProperties" = some (.dict s) → Place s o → Place d o
  | property {d ps n s o} : Dict.get? d "properties" = some (.dict ps) → (n, .dict s) ∈ ps →
      Place s o → Place d o
  | member {d xs s o} : Dict.get? d "oneOf" = some (.list xs) → .dict s ∈ xs → Place s o → Place d o
  | definition {d ds n s o} : Dict.get? d "$defs" = some (.dict ds) → (n, .dict s) ∈ ds →
      Place s o → Place d o

/-- A reference occurs in a schema, at a place where a schema can be. -/
inductive Refers : PyVal → String → Prop
  | own {d r} : Dict.get? d "$ref" = some (.str r) → Refers (.dict d) r
  | items {d s r} : Dict.get? d "items" = some s → Refers s r → Refers (.dict d) r
  | values {d s r} : Dict.get? d "additionalProperties" = some s → Refers s r → Refers (.dict d) r
  | property {d ps n s r} : Dict.get? d "properties" = some (.dict ps) → (n, s) ∈ ps → Refers s r →
      Refers (.dict d) r
  | member {d xs s r} : Dict.get? d "oneOf" = some (.list xs) → s ∈ xs → Refers s r →
      Refers (.dict d) r
  | definition {d ds n s r} : Dict.get? d "$defs" = some (.dict ds) → (n, s) ∈ ds → Refers s r →
      Refers (.dict d) r

/-- Following a reference ends, after finitely many references, at a definition that is no
reference. -/
inductive Ends (defs : Dict) : String → Prop
  | here {a s} : Dict.get? defs a = some (.dict s) → Dict.get? s "$ref" = .none →
      Ends defs ("#/$defs/" ++ a)
  | next {a s r} : Dict.get? defs a = some (.dict s) → Dict.get? s "$ref" = some (.str r) →
      Ends defs r → Ends defs ("#/$defs/" ++ a)

/-- `u` is `t` or nested in it, as a value of a map or a list, a field or a member. -/
inductive Inside : RType → RType → Prop
  | refl {t} : Inside t t
  | list {u t l v a} : Inside u t → Inside u (.list t l v a)
  | value {u k v a} : Inside u v → Inside u (.map k v a)
  | field {u t fs a} : t ∈ fs → Inside u t → Inside u (.struct fs a)
  | member {u t ts a} : t ∈ ts → Inside u t → Inside u (.union ts a)

/-- The type is a reference. -/
def IsReference (t : RType) : Prop := ∃ r a, t = .proxy r a

/-- The alias is that of one of the types that every registry knows. -/
def Builtin (alias : PyVal) : Prop := ∃ s t, alias = .str s ∧ (s, t) ∈ builtinAliases

/-- `u` is `t`, is nested in it, or is nested in what a reference in `t` resolves to. -/
inductive Spans (live : Registry) : RType → RType → Prop
  | refl {t} : Spans live t t
  | list {u t l v a} : Spans live t u → Spans live (.list t l v a) u
  | value {u k v a} : Spans live v u → Spans live (.map k v a) u
  | field {u t fs a} : t ∈ fs → Spans live t u → Spans live (.struct fs a) u
  | member {u t ts a} : t ∈ ts → Spans live t u → Spans live (.union ts a) u
  | target {u t r a} : resolve live r a = .ok t → Spans live t u → Spans live (.proxy r a) u

/-- `t` itself or a type nested in it defines the alias `s`. -/
def Defines (t : RType) (s : String) : Prop :=
  ∃ u, Inside u t ∧ ¬ IsReference u ∧ u.attrs.alias = .str s ∧ s ≠ "" ∧ ¬ Builtin (.str s)

/-- All references in the type are to aliases that every registry knows; none is given an alias of
its own, and the registries know what every registry knows. -/
def BuiltinOnly (live : Registry) (t : RType) : Prop :=
  ∀ r a, Inside (.proxy r a) t → Builtin a.alias ∧ "alias" ∉ Dict.keys a.extra ∧
    ∀ s u, (s, u) ∈ builtinAliases → Registry.find? (r.getD live) s = some u

/-- A reference names one of the definitions. -/
def Resolves (defs : Dict) (r : String) : Prop :=
  ∃ a s, r = "#/$defs/" ++ a ∧ Dict.get? defs a = some (.dict s)

/-- The definitions of a written schema. -/
def defsOf (d : Dict) : Dict :=
  match Dict.get? d "$defs" with
  | some (.dict ds) => ds
  | _ => []

/-! ## The types that JSON Schema can express -/

/-- A description, if any, and a default, if any. -/
structure Info where
  doc : PyVal := .none
  default : Option PyVal := .none

/-- A description that is given is not empty. -/
def Info.Proper (i : Info) : Prop := i.doc = .none ∨ i.doc.truthy = true

/-- The attributes of a type with this description and default and, if it is a field, this name.
(The order of the attributes does not matter to Python.) -/
def Info.attrs (i : Info) (name : Option String) : Attrs where
  doc := i.doc
  extra := (match i.default with
      | some v => [("default", v)]
      | .none => []) ++
    (match name with
      | some n => [("name", .str n)]
      | .none => [])

mutual
/-- The types that JSON Schema can express, without description and default: strings of any
length, 64-bit floats, signed 32-bit integers, booleans, null, lists of any length, and structs
whose fields have distinct names. -/
inductive Native : RType → Prop
  | string : Native (.string .none (.bool true) {})
  | number : Native (.float (.int 64) {})
  | integer : Native (.int (.int 32) (.bool true) {})
  | boolean : Native (.bool {})
  | null : Native (.null {})
  | list {t} (i : Info) : i.Proper → Native t →
      Native (.list (t.withAttrs (i.attrs .none)) .none (.bool true) {})
  | struct {names fs} : NativeFields names fs → names.Nodup → Native (.struct fs {})
/-- Fields with these names: each is required, or optional with a default. -/
inductive NativeFields : List String → List RType → Prop
  | nil : NativeFields [] []
  | required {name t names fs} (i : Info) : name ≠ "" → i.Proper → Native t → NativeFields names fs →
      NativeFields (name :: names) (t.withAttrs (i.attrs (some name)) :: fs)
  | optional {name t names fs} (i : Info) : name ≠ "" → i.Proper → i.default.isSome = true →
      Native t → t.isNull = false → NativeFields names fs →
      NativeFields (name :: names) (.union [.null {}, t] (i.attrs (some name)) :: fs)
end

end Recap.Json.Spec
