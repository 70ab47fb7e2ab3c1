import Verif.ProtobufMeans

/-!
# What round trips through Protobuf keep
-/

set_option autoImplicit false

namespace Recap.Protobuf.Spec

/-- Two lists of the same length, with related elements at each position. -/
inductive Each {α β : Type} (R : α → β → Prop) : List α → List β → Prop
  | nil : Each R [] []
  | cons {x y xs ys} : R x y → Each R xs ys → Each R (x :: xs) (y :: ys)

/-! ## From a file to a file -/

/-- The numeric types of Protobuf and `bool`. -/
def Number (s : String) : Prop :=
  s ∈ ["int32", "sint32", "sfixed32", "int64", "sint64", "sfixed64", "uint32", "fixed32", "uint64", "fixed64", "float",
    "double", "bool"]

/-- A field of a numeric type. -/
def NumberField (e : Elem) : Prop := ∃ name k s card, e = .field name k s card ∧ Number s

/-- A required field of a numeric type or a oneof with several such fields. -/
def Simple (e : Elem) : Prop :=
  (∃ name k s, e = .field name k s (some .required) ∧ Number s) ∨
  ∃ name es, e = .oneof name es ∧ 2 ≤ es.length ∧ ∀ x ∈ es, NumberField x

/-- Fields with the same name whose types are read alike.  Their numbers and cardinalities can differ. -/
inductive SameField : Elem → Elem → Prop
  | mk {name k s card k' s' card'} : scalar s = scalar s' → SameField (.field name k s card) (.field name k' s' card')

/-- The same fields, or oneofs with the same name and the same fields. -/
inductive Same : Elem → Elem → Prop
  | field {e e'} : SameField e e' → Same e e'
  | oneof {name es es'} : Each SameField es es' → Same (.oneof name es) (.oneof name es')

/-! ## From a type to a type -/

/-- The name of a field. -/
def fieldName (t : RType) : Option PyVal := Dict.get? t.attrs.extra "name"

/-- The types of at most 64 bits, and strings and bytes of less than 2 ^ 31 bytes. -/
def Writable : RType → Prop
  | .bool _ => True
  | .int (.int b) (.bool _) _ => b ≤ 64
  | .float (.int b) _ => b ≤ 64
  | .string (.int b) _ _ => b < 2 ^ 31
  | .bytes (.int b) _ _ => b < 2 ^ 31
  | _ => False

/-- The second type is of the same kind and has at least as many bits or bytes. -/
def Wider : RType → RType → Prop
  | .bool _, v => v = .bool {}
  | .int (.int b) s _, v => ∃ w, b ≤ w ∧ v = .int (.int w) s {}
  | .float (.int b) _, v => ∃ w, b ≤ w ∧ v = .float (.int w) {}
  | .string (.int b) _ _, v => ∃ w, b ≤ w ∧ v = .string (.int w) (.bool true) {}
  | .bytes (.int b) _ _, v => ∃ w, b ≤ w ∧ v = .bytes (.int w) (.bool true) {}
  | _, _ => False

/-- The fields that can be written and read: null and the types above under any name, optional ones if the
type has the name of the field, and unions of several of them with names. -/
def RoundField (f : RType) : Prop := ∃ x, fieldName f = some x ∧
  (f.isNull = true ∨ Writable f ∨ ∃ ts a, f = .union ts a ∧
    ((∃ t, members ts = [t] ∧ Writable t ∧ fieldName t = some x) ∨
      2 ≤ (members ts).length ∧ ∀ t ∈ members ts, Writable t ∧ ∃ y, fieldName t = some y))

/-- How a member of a union comes back: wider, under its name. -/
inductive MemberBack : RType → RType → Prop
  | mk {t v x} : fieldName t = some x → Wider t v → MemberBack t (v.withAttrs { extra := [("name", x)] })

/-- How a field comes back: under its name, optional, with a wider type. -/
inductive Back : RType → RType → Prop
  | null {f x} : f.isNull = true → fieldName f = some x →
      Back f (.null { extra := [("default", .none), ("name", x)] })
  | value {f v x} : fieldName f = some x → Wider f v →
      Back f (.union [.null {}, v] { extra := [("default", .none), ("name", x)] })
  | optional {ts a t v x} : fieldName (.union ts a) = some x → members ts = [t] → Wider t v →
      Back (.union ts a) (.union [.null {}, v] { extra := [("default", .none), ("name", x)] })
  | choice {ts a vs x} : fieldName (.union ts a) = some x → Each MemberBack (members ts) vs →
      Back (.union ts a) (.union (.null {} :: vs) { extra := [("name", x), ("default", .none)] })

end Recap.Protobuf.Spec
