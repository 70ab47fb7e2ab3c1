import Verif.BigQuery
import Verif.TypesSpec
import Verif.Hive

/-!
# What the properties of the BigQuery converter mean
-/

set_option autoImplicit false

namespace Recap.Spec

open BigQuery

/-- The type names of records. -/
def IsRecord (fieldType : String) : Prop := fieldType = "RECORD" ∨ fieldType = "STRUCT"

/-- The type names of the other supported fields, with the class of Recap type for them. -/
def scalarClass : List (String × String) :=
  [("STRING", "string"), ("JSON", "string"), ("BYTES", "bytes"), ("INT64", "int"),
    ("INTEGER", "int"), ("INT", "int"), ("SMALLINT", "int"), ("TINYINT", "int"),
    ("BYTEINT", "int"), ("FLOAT", "float"), ("FLOAT64", "float"), ("BOOLEAN", "bool"),
    ("TIMESTAMP", "int"), ("DATETIME", "int"), ("TIME", "int"), ("DATE", "int"),
    ("NUMERIC", "bytes"), ("DECIMAL", "bytes"), ("BIGNUMERIC", "bytes"), ("BIGDECIMAL", "bytes")]

/-- BigQuery's documented limits on the digits of decimal types. -/
def decimalDigits : List (String × Nat) :=
  [("NUMERIC", 38), ("DECIMAL", 38), ("BIGNUMERIC", 76), ("BIGDECIMAL", 76)]

/-- The units of the types for times and dates. -/
def timeUnits : List (String × String × String) :=
  [("TIMESTAMP", "build.recap.Timestamp", "microsecond"),
    ("DATETIME", "build.recap.Timestamp", "microsecond"),
    ("TIME", "build.recap.Time", "microsecond"), ("DATE", "build.recap.Date", "day")]

/-- `u` describes the values of a field with this type name, length, precision and scale. -/
structure Describes (fieldType : String) (maxLength precision scale : PyVal) (u : RType) :
    Prop where
  /-- The class of type. -/
  known : (fieldType, u.typeName) ∈ scalarClass
  /-- Strings and bytes are limited by the declared length, if any. -/
  text : fieldType ∈ ["STRING", "JSON"] → ∃ a, u = .string maxLength (.bool true) a
  bytes : fieldType = "BYTES" → ∃ a, u = .bytes maxLength (.bool true) a
  /-- Numbers have 64 bits, integers are signed. -/
  int : u.typeName = "int" → fieldType ∉ timeUnits.map (·.1) →
    ∃ a, u = .int (.int 64) (.bool true) a
  float : u.typeName = "float" → ∃ a, u = .float (.int 64) a
  /-- Decimals have the declared precision and scale, or the largest precision and scale 0. -/
  decimal : ∀ n, (fieldType, n) ∈ decimalDigits →
    u.attrs.logical = .str "build.recap.Decimal" ∧
    Dict.get? u.attrs.extra "precision" =
      some (if precision.truthy then precision else .int n) ∧
    Dict.get? u.attrs.extra "scale" = some (if scale.truthy then scale else .int 0)
  /-- Times and dates have their logical type and unit. -/
  time : ∀ l unit, (fieldType, l, unit) ∈ timeUnits →
    u.attrs.logical = .str l ∧ Dict.get? u.attrs.extra "unit" = some (.str unit)
  /-- Other fields have no logical type. -/
  plain : fieldType ∉ decimalDigits.map (·.1) → fieldType ∉ timeUnits.map (·.1) →
    u.attrs.logical = .none

/-- `u` is the type of one value of a field with the type `t` and this mode: the elements of a
repeated field, the other alternative of a nullable one. -/
def ValueType (mode : String) (t u : RType) : Prop :=
  if mode = "REPEATED" then ∃ l v a, t = .list u l v a
  else if mode = "NULLABLE" then ∃ a, t = .union [.null {}, u] a
  else t = u

mutual
/-- The type `t` keeps what the field says: its name and description, whether it is nullable or
repeated, its default, and the type of its values; for a record, the same for each of its fields,
in order. -/
def Keeps : Field → RType → Prop
  | .mk fieldType mode name description dflt maxLength precision scale fields, t =>
    Dict.get? t.attrs.extra "name" = (if name.truthy then some name else .none) ∧
    t.attrs.doc = (if description.truthy then description else .none) ∧
    Dict.get? t.attrs.extra "default" =
      (if dflt.truthy then some dflt else if mode = "NULLABLE" then some .none else .none) ∧
    (t.isNullable = true ↔ mode = "NULLABLE") ∧
    ∃ u, ValueType mode t u ∧
      ((∃ fs a, u = .struct fs a ∧ IsRecord fieldType ∧ KeepsAll fields fs) ∨
       Describes fieldType maxLength precision scale u)
/-- The same for a list of fields, in order. -/
def KeepsAll : List Field → List RType → Prop
  | [], ts => ts = []
  | f :: fs, ts => ∃ t ts', ts = t :: ts' ∧ Keeps f t ∧ KeepsAll fs ts'
end

mutual
/-- All type names in the field are supported. -/
def Known : Field → Prop
  | .mk fieldType _ _ _ _ _ _ _ fields =>
    (IsRecord fieldType ∧ KnownAll fields) ∨ fieldType ∈ scalarClass.map (·.1)
def KnownAll : List Field → Prop
  | [] => True
  | f :: fs => Known f ∧ KnownAll fs
end

mutual
/-- Lengths are absent or between 1 and 2^63 - 1. -/
def GoodLengths : Field → Prop
  | .mk _ _ _ _ _ maxLength _ _ fields =>
    (maxLength = .none ∨ NumBetween maxLength 1 (2 ^ 63 - 1)) ∧ GoodLengthsAll fields
def GoodLengthsAll : List Field → Prop
  | [] => True
  | f :: fs => GoodLengths f ∧ GoodLengthsAll fs
end

mutual
/-- Declared precisions are within BigQuery's limits. -/
def GoodPrecisions : Field → Prop
  | .mk fieldType _ _ _ _ _ precision _ fields =>
    (∀ n, (fieldType, n) ∈ decimalDigits →
      precision.truthy = false ∨ ∃ p : Int, precision = .int p ∧ p ≤ n) ∧ GoodPrecisionsAll fields
def GoodPrecisionsAll : List Field → Prop
  | [] => True
  | f :: fs => GoodPrecisions f ∧ GoodPrecisionsAll fs
end

/-- If this is a decimal, its bytes can hold every number with as many digits as its precision,
as a signed integer. -/
def DecimalFits (t : RType) : Prop :=
  ∀ b v a, t = .bytes b v a → a.logical = .str "build.recap.Decimal" →
    ∃ n p : Int, b = .int n ∧ Dict.get? a.extra "precision" = some (.int p) ∧
      10 ^ p.toNat ≤ 2 ^ (8 * n - 1).toNat

mutual
/-- Declared lengths of Hive types lie between 1 and 2^63 - 1. -/
def GoodHive : Hive.HType → Prop
  | .varchar n => 1 ≤ n ∧ n ≤ 2 ^ 63 - 1
  | .char n => 1 ≤ n ∧ n ≤ 2 ^ 63 - 1
  | .map k v => GoodHive k ∧ GoodHive v
  | .list e => GoodHive e
  | .union ts => GoodHiveAll ts
  | .struct fs => GoodHiveFields fs
  | _ => True
def GoodHiveAll : List Hive.HType → Prop
  | [] => True
  | t :: ts => GoodHive t ∧ GoodHiveAll ts
def GoodHiveFields : List (String × Hive.HType) → Prop
  | [] => True
  | f :: fs => GoodHive f.2 ∧ GoodHiveFields fs
end

end Recap.Spec
