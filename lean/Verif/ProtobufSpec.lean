import Verif.Protobuf
import Verif.TypesSpec

/-!
# What the properties of the Protobuf converter mean
-/

set_option autoImplicit false

namespace Recap.Protobuf.Spec

open Recap.Spec (Sub)

/-! ## Files -/

/-- `e` is one of the elements or inside one of the messages among them. -/
inductive Within (e : Elem) : List Elem → Prop
  | here {es} : e ∈ es → Within e es
  | inside {n xs es} : .message n xs ∈ es → Within e xs → Within e es

/-- The name of a message or an enum. -/
def nameOf : Elem → Option String
  | .message n _ => some n
  | .enum n _ => some n
  | _ => .none

/-- `Declares file s e`: `s` is the full name of the message or enum `e`. -/
inductive Declares (file : List Elem) : String → Elem → Prop
  | top {p e n} : .package p ∈ file → e ∈ file → nameOf e = some n → Declares file (p ++ "." ++ n) e
  | nested {q n es e m} : Declares file q (.message n es) → e ∈ es → nameOf e = some m →
      Declares file (q ++ "." ++ m) e

mutual
/-- The field numbers of an element of a message; those of nested messages are not its own. -/
def numbers : Elem → List Int
  | .field _ n _ _ => [n]
  | .mapField _ n _ _ => [n]
  | .oneof _ es => numbersAll es
  | _ => []
/-- The field numbers of elements. -/
def numbersAll : List Elem → List Int
  | [] => []
  | e :: es => numbers e ++ numbersAll es
end

/-- The name of a field, a map field or a oneof. -/
def label : Elem → Option PyVal
  | .field n _ _ _ => some n
  | .mapField n _ _ _ => some n
  | .oneof n _ => some n
  | _ => .none

mutual
/-- The types that an element of a message refers to; those of nested messages are not its own. -/
def types : Elem → List String
  | .field _ _ t _ => [t]
  | .mapField _ _ k v => [k, v]
  | .oneof _ es => typesAll es
  | _ => []
/-- The types that elements refer to. -/
def typesAll : List Elem → List String
  | [] => []
  | e :: es => types e ++ typesAll es
end

/-- The types that are part of Protobuf, among those that the converter writes. -/
def Builtin (s : String) : Prop :=
  s ∈ ["bool", "int32", "int64", "uint32", "uint64", "float", "double", "string", "bytes", "google.protobuf.NullValue"]

/-- The values of the integer types of Protobuf. -/
def Value (s : String) (x : Int) : Prop :=
  (s = "int32" ∧ -2 ^ 31 ≤ x ∧ x < 2 ^ 31) ∨ (s = "int64" ∧ -2 ^ 63 ≤ x ∧ x < 2 ^ 63) ∨
  (s = "uint32" ∧ 0 ≤ x ∧ x < 2 ^ 32) ∨ (s = "uint64" ∧ 0 ≤ x ∧ x < 2 ^ 64)

/-! ## Types -/

/-- The values of a Recap integer type with this number of bits. -/
def Fits (bits : Nat) (signed : Bool) (x : Int) : Prop :=
  if signed then -2 ^ bits ≤ 2 * x ∧ 2 * x < 2 ^ bits else 0 ≤ x ∧ x < 2 ^ bits

/-- The alias is in the package `p` and has the name `n` there. -/
def Alias (a : Attrs) (p n : String) : Prop := a.alias = .str (p ++ "." ++ n) ∧ '.' ∉ n.toList

/-- The struct or enum `u` is in `t`, where its alias is in the package `p` and has the name `n`. -/
def Has (t u : RType) (p n : String) : Prop :=
  Sub u t ∧ ((∃ fs a, u = .struct fs a ∧ Alias a p n) ∨ ∃ symbols a, u = .enum symbols a ∧ Alias a p n)

/-- The package is that of `t`, or that of what is nested in messages for structs in `t`. -/
inductive Reached (t : RType) (p : String) : String → Prop
  | root : Reached t p p
  | nested {q fs a n} : Reached t p q → Sub (.struct fs a) t → Alias a q n → Reached t p (q ++ "." ++ n)

/-- The members of a union that are not null. -/
def members (ts : List RType) : List RType := ts.filter (fun t => !t.isNull)

/-- A type that is written as a oneof: a union with several members that are not null. -/
def Choice (t : RType) : Prop := ∃ ts a, t = .union ts a ∧ 2 ≤ (members ts).length

/-- A type that is written as one field: no list, no map, no union. -/
def Plain : RType → Prop
  | .list .. | .map .. | .union .. => False
  | _ => True

/-- A type whose own name is that of the field: neither a list nor a union with one member besides null. -/
def Labelled : RType → Prop
  | .list .. => False
  | .union ts _ => (members ts).length ≠ 1
  | _ => True

/-- A struct, an enum or a reference with the alias `s` is in `t`. -/
def Names (t : RType) (s : String) : Prop :=
  ∃ u, Sub u t ∧ u.attrs.alias = .str s ∧
    ((∃ fs a, u = .struct fs a) ∨ (∃ symbols a, u = .enum symbols a) ∨ ∃ r a, u = .proxy r a)

/-- The packages of all structs and enums are reached from the package `p`. -/
def AllReached (t : RType) (p : String) : Prop := ∀ u q n, Has t u q n → Reached t p q

end Recap.Protobuf.Spec
