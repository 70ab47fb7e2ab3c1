import Verif.ProtobufSpec

/-!
# What a Protobuf file means
-/

set_option autoImplicit false

namespace Recap.Protobuf.Spec

/-- What a type stands for that is part of Protobuf. -/
def scalar (s : String) : Option RType :=
  if s ∈ ["int32", "sint32", "sfixed32"] then some (.int (.int 32) (.bool true) {})
  else if s ∈ ["int64", "sint64", "sfixed64"] then some (.int (.int 64) (.bool true) {})
  else if s ∈ ["uint32", "fixed32"] then some (.int (.int 32) (.bool false) {})
  else if s ∈ ["uint64", "fixed64"] then some (.int (.int 64) (.bool false) {})
  else if s = "float" then some (.float (.int 32) {})
  else if s = "double" then some (.float (.int 64) {})
  else if s = "bool" then some (.bool {})
  else if s = "string" then some (.string (.int (2 ^ 31)) (.bool true) {})
  else if s = "bytes" then some (.bytes (.int (2 ^ 31)) (.bool true) {})
  else if s = "google.protobuf.Timestamp" then some (.int (.int 64) (.bool true)
    { logical := .str "build.recap.Timestamp", extra := [("unit", .str "nanosecond"), ("timezone", .str "UTC")] })
  else if s = "google.protobuf.Duration" then some (.int (.int 64) (.bool true)
    { logical := .str "build.recap.Duration", extra := [("unit", .str "nanosecond")] })
  else if s = "google.protobuf.NullValue" then some (.null {})
  else .none

/-- The full name of a message or an enum that is referred to by `s` in the namespace `ns`. -/
def full (ns s : String) : String := if '.' ∈ s.toList then s else ns ++ "." ++ s

/-- Declarations: the full name, the namespace and the message or enum. -/
abbrev Decls := String → String → Elem → Prop

/-- What a file declares in a namespace.  The names of nested messages and enums are not qualified. -/
def decls (ns : String) (file : List Elem) : Decls :=
  fun s n e => n = ns ∧ Within e file ∧ ∃ m, nameOf e = some m ∧ s = ns ++ "." ++ m

/-- The types that a key of a map can have. -/
def Key : RType → Prop
  | .int .. | .string .. => True
  | _ => False

mutual
/-- `Reads D ns s x t`: in the namespace `ns`, the type with the name `s` is read as `t`, with the additional
attributes `x`.  A message or an enum is read as a reference or as what it is. -/
inductive Reads (D : Decls) : String → String → Dict → RType → Prop
  | scalar {ns s x t} : scalar s = some t →
      Reads D ns s x (t.withAttrs { t.attrs with extra := Dict.update t.attrs.extra x })
  | reference {ns s x r} : scalar s = .none → Reads D ns s x (.proxy r { alias := .str (full ns s), extra := x })
  | message {ns s x ns' n es fs} : scalar s = .none → D (full ns s) ns' (.message n es) → Fields D ns' es fs →
      Reads D ns s x (.struct fs { alias := .str (full ns s), extra := x })
  | enum {ns s x ns' n values} : scalar s = .none → D (full ns s) ns' (.enum n values) →
      Reads D ns s x (.enum (.list (values.map (·.1))) { alias := .str (full ns s), extra := x })
/-- An element of a message is read as a field. -/
inductive FieldReads (D : Decls) : String → Elem → RType → Prop
  | required {ns name k s t} : Reads D ns s [("name", name)] t →
      FieldReads D ns (.field name k s (some .required)) t
  | optional {ns name k s card t} : card = .none ∨ card = some .optional → s ≠ "google.protobuf.NullValue" →
      Reads D ns s [] t →
      FieldReads D ns (.field name k s card) (.union [.null {}, t] { extra := [("default", .none), ("name", name)] })
  | null {ns name k card} : card = .none ∨ card = some .optional →
      FieldReads D ns (.field name k "google.protobuf.NullValue" card)
        (.null { extra := [("default", .none), ("name", name)] })
  | repeated {ns name k s t} : Reads D ns s [] t →
      FieldReads D ns (.field name k s (some .repeated))
        (.union [.null {}, .list t .none (.bool true) {}] { extra := [("default", .none), ("name", name)] })
  | map {ns name k key value t u} : Spec.scalar key = some t → Key t → Reads D ns value [] u →
      FieldReads D ns (.mapField name k key value) (.union [.null {}, .map t u {}]
        { extra := ("default", .none) :: if name = .none then [] else [("name", name)] })
  | oneof {ns name es ts} : Members D ns es ts →
      FieldReads D ns (.oneof name es) (.union (.null {} :: ts) { extra := [("name", name), ("default", .none)] })
/-- The fields of a oneof are read as types. -/
inductive Members (D : Decls) : String → List Elem → List RType → Prop
  | nil {ns} : Members D ns [] []
  | field {ns name k s card t es ts} : Reads D ns s [("name", name)] t → Members D ns es ts →
      Members D ns (.field name k s card :: es) (t :: ts)
  | skip {ns e es ts} : (∀ name k s card, e ≠ .field name k s card) → Members D ns es ts →
      Members D ns (e :: es) ts
/-- The elements of a message are read as fields; only fields, map fields and oneofs are. -/
inductive Fields (D : Decls) : String → List Elem → List RType → Prop
  | nil {ns} : Fields D ns [] []
  | field {ns e t es ts} : FieldReads D ns e t → Fields D ns es ts → Fields D ns (e :: es) (t :: ts)
  | skip {ns e es ts} : label e = .none → Fields D ns es ts → Fields D ns (e :: es) ts
end

mutual
/-- The messages and enums of an element, each after those that are nested in it. -/
def inner : Elem → List Elem
  | .message n es => innerAll es ++ [.message n es]
  | .enum n vs => [.enum n vs]
  | _ => []
/-- The messages and enums of a file. -/
def innerAll : List Elem → List Elem
  | [] => []
  | e :: es => inner e ++ innerAll es
end

/-- The names of messages and enums in a namespace. -/
def fulls (ns : String) (l : List Elem) : List String := (l.filterMap nameOf).map (fun n => ns ++ "." ++ n)

/-- The type `s` of a field, of the values of a map field or of a member of a oneof. -/
inductive RefersTo (es : List Elem) (s : String) : Prop
  | field {name k card} : .field name k s card ∈ es → RefersTo es s
  | value {name k key} : .mapField name k key s ∈ es → RefersTo es s
  | member {name xs m k card} : .oneof name xs ∈ es → .field m k s card ∈ xs → RefersTo es s

/-- The first message. -/
def firstMessage : List Elem → Option (String × List Elem)
  | [] => .none
  | .message n es :: _ => some (n, es)
  | _ :: es => firstMessage es

/-- The converter `c` has been made for a namespace and has read some files, which declare `D`. -/
inductive Has_read : Converter → Decls → Prop
  | new {ns} : Has_read (newConverter ns) (fun _ _ _ => False)
  | read {c c' D file ns t} : Has_read c D → (packageOf file).or c.namespaces.getLast? = some ns →
      toRecap c file = .ok (t, c') → Has_read c' (fun s n e => D s n e ∨ decls ns file s n e)

end Recap.Protobuf.Spec
