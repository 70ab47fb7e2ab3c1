import Verif.Hive
import Verif.TypesSpec

/-!
# What the properties of the Hive converter mean
-/

set_option autoImplicit false

namespace Recap.Spec

/-- `P` holds of a type and of everything nested in it. -/
def Everywhere (P : RType → Prop) (t : RType) : Prop := ∀ u, Sub u t → P u

/-- If this is a union, it has no union among its members and no two members are equal. -/
def FlatNode (t : RType) : Prop := ∀ ts a, t = .union ts a →
  (∀ m ∈ ts, m.isUnion = false) ∧ ts.Pairwise (fun a b => RType.pyEq a b = false)

/-- The fields of a struct, the elements of a list, the keys and the values of a map are
nullable. -/
def PartsNullable : RType → Prop
  | .struct fs _ => ∀ f ∈ fs, f.isNullable = true
  | .list t _ _ _ => t.isNullable = true
  | .map k v _ => k.isNullable = true ∧ v.isNullable = true
  | _ => True

/-! ## What a Hive type stands for -/

open Hive

/-- The types a value may have: the members of a union, or the type itself. -/
def alternatives : RType → List RType
  | .union ts _ => ts
  | t => [t]

/-- The class of the Recap type for a primitive Hive type, and its attributes. -/
def expected : Primitive → String × List (String × PyVal)
  | .boolean => ("bool", [])
  | .byte => ("int", [("bits", .int 8), ("signed", .bool true)])
  | .short => ("int", [("bits", .int 16), ("signed", .bool true)])
  | .int => ("int", [("bits", .int 32), ("signed", .bool true)])
  | .long => ("int", [("bits", .int 64), ("signed", .bool true)])
  | .float => ("float", [("bits", .int 32)])
  | .double => ("float", [("bits", .int 64)])
  | .void => ("null", [])
  | .string => ("string", [("bytes_", .none), ("variable", .bool true)])
  | .binary => ("bytes", [("bytes_", .int 2147483647), ("variable", .bool true)])
  | .date => ("int", [("bits", .int 32), ("signed", .bool true),
      ("logical", .str "build.recap.Date"), ("unit", .str "day")])
  | .timestamp => ("int", [("bits", .int 64), ("signed", .bool true),
      ("logical", .str "build.recap.Timestamp"), ("unit", .str "nanosecond"),
      ("timezone", .str "UTC")])
  | .timestampLocalTz => ("int", [("bits", .int 64), ("signed", .bool true),
      ("logical", .str "build.recap.Timestamp"), ("unit", .str "nanosecond"),
      ("timezone", .none)])
  | .intervalYearMonth => ("bytes", [("bytes_", .int 12),
      ("logical", .str "build.recap.Interval"), ("unit", .str "month")])
  | .intervalDayTime => ("bytes", [("bytes_", .int 12),
      ("logical", .str "build.recap.Interval"), ("unit", .str "second")])
  | .other => ("unsupported", [])

/-- The type is of the class `e.1` and has attributes equal to those in `e.2`. -/
def Fits (e : String × List (String × PyVal)) (t : RType) : Prop :=
  t.typeName = e.1 ∧ ∀ kv ∈ e.2, ∃ v, attr t kv.1 = some v ∧ PyVal.pyEq v kv.2 = true

/-- The field has this name, this doc, is nullable, and has the default null if it has a choice. -/
def FieldNamed (name : String) (doc : PyVal) (f : RType) : Prop :=
  Dict.get? f.attrs.extra "name" = some (.str name) ∧ f.attrs.doc = doc ∧
    f.isNullable = true ∧ (f.isUnion = true → Dict.get? f.attrs.extra "default" = some .none)

mutual
/-- The Recap type `t` allows what the Hive type allows: it has an alternative of the right class,
with the right attributes, and with parts that mirror the parts of the Hive type. -/
def Mirrors : HType → RType → Prop
  | .prim c, t => ∃ u ∈ alternatives t, Fits (expected c) u
  | .decimal p s, t => ∃ u ∈ alternatives t, Fits ("bytes", [("bytes_", .int 16),
      ("variable", .bool false), ("logical", .str "build.recap.Decimal"), ("precision", .int p),
      ("scale", .int s)]) u
  | .varchar n, t => ∃ u ∈ alternatives t, Fits ("string",
      [("bytes_", .int n), ("variable", .bool true)]) u
  | .char n, t => ∃ u ∈ alternatives t, Fits ("string",
      [("bytes_", .int n), ("variable", .bool false)]) u
  | .list e, t => ∃ e' l v a, .list e' l v a ∈ alternatives t ∧ Mirrors e e'
  | .map k v, t => ∃ k' v' a, .map k' v' a ∈ alternatives t ∧ Mirrors k k' ∧ Mirrors v v'
  | .union hs, t => MirrorsAll hs t
  | .struct fs, t => ∃ gs a, .struct gs a ∈ alternatives t ∧ MirrorsFields fs gs
/-- `t` allows what any of the Hive types allows. -/
def MirrorsAll : List HType → RType → Prop
  | [], _ => True
  | h :: hs, t => Mirrors h t ∧ MirrorsAll hs t
/-- Field by field, in order and with the same names. -/
def MirrorsFields : List (String × HType) → List RType → Prop
  | [], gs => gs = []
  | (n, h) :: fs, gs => ∃ g gs', gs = g :: gs' ∧ FieldNamed n .none g ∧ Mirrors h g ∧
      MirrorsFields fs gs'
end

/-- The doc of a column: its comment, unless that is empty. -/
def docOf : Option String → PyVal
  | some c => if c = "" then .none else .str c
  | .none => .none

/-- Column by column, in order, with the same names and with the comments as docs. -/
def MirrorsColumns : List HColumn → List RType → Prop
  | [], gs => gs = []
  | c :: cs, gs => ∃ g gs', gs = g :: gs' ∧ FieldNamed c.name (docOf c.comment) g ∧
      Mirrors c.type g ∧ MirrorsColumns cs gs'

mutual
/-- The Hive types that Recap can represent: no unknown primitive type, and no decimal with
more than 38 digits. -/
def Supported : HType → Prop
  | .prim c => c ≠ .other
  | .decimal p _ => p ≤ 38
  | .varchar _ | .char _ => True
  | .list e => Supported e
  | .map k v => Supported k ∧ Supported v
  | .union hs => SupportedAll hs
  | .struct fs => SupportedFields fs
def SupportedAll : List HType → Prop
  | [] => True
  | h :: hs => Supported h ∧ SupportedAll hs
def SupportedFields : List (String × HType) → Prop
  | [] => True
  | (_, h) :: fs => Supported h ∧ SupportedFields fs
end

end Recap.Spec
