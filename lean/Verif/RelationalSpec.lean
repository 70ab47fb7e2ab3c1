import Verif.Relational
import Verif.TypesSpec

/-!
# What the relational properties mean

A small vocabulary for the statements of C48 to C55 and C75 to C79, written without the
helpers of the model.
-/

set_option autoImplicit false

namespace Recap.Spec

open Relational

/-- The column is declared nullable: `IS_NULLABLE` is `YES` in any letter case. -/
def DeclaredNullable (cm : CaseMap) (col : Dict) : Prop :=
  ∃ s, Dict.get? col "IS_NULLABLE" = some (.str s) ∧ cm.upper s = "YES"

/-- The data type of a column, in lower case. -/
def DataType (cm : CaseMap) (col : Dict) (dt : String) : Prop :=
  ∃ s, Dict.get? col "DATA_TYPE" = some (.str s) ∧ dt = cm.lower s

/-- `s` starts with `p`. -/
def Starts (p s : String) : Prop := ∃ r, s.toList = p.toList ++ r

/-- `p` occurs in `s`. -/
def Occurs (p s : String) : Prop := ∃ a b, s.toList = a ++ p.toList ++ b

/-- Every type object in the tree passes `validate()`. -/
def AllValid (t : RType) : Prop := ∀ u, Sub u t → u.validate = .ok ()

/-- `t` and `u` are the same type up to the attributes common to all types. -/
def SameBody (t u : RType) : Prop := ∃ a, t = u.withAttrs a

/-- SQLite's rules for the affinity of a column, in order: a declared type that contains `INT`
is INTEGER; else `CHAR`, `CLOB` or `TEXT` make it TEXT; else `BLOB` or no declared type make
it BLOB; else `REAL`, `FLOA` or `DOUB` make it REAL; else it is NUMERIC
(https://www.sqlite.org/datatype3.html, section 3.1). -/
inductive HasAffinity (s : String) : Affinity → Prop
  | integer : Occurs "INT" s → HasAffinity s .integer
  | text : ¬Occurs "INT" s → (Occurs "CHAR" s ∨ Occurs "CLOB" s ∨ Occurs "TEXT" s) →
      HasAffinity s .text
  | blob : ¬Occurs "INT" s → ¬(Occurs "CHAR" s ∨ Occurs "CLOB" s ∨ Occurs "TEXT" s) →
      (Occurs "BLOB" s ∨ s = "") → HasAffinity s .blob
  | real : ¬Occurs "INT" s → ¬(Occurs "CHAR" s ∨ Occurs "CLOB" s ∨ Occurs "TEXT" s) →
      ¬(Occurs "BLOB" s ∨ s = "") → (Occurs "REAL" s ∨ Occurs "FLOA" s ∨ Occurs "DOUB" s) →
      HasAffinity s .real
  | numeric : ¬Occurs "INT" s → ¬(Occurs "CHAR" s ∨ Occurs "CLOB" s ∨ Occurs "TEXT" s) →
      ¬(Occurs "BLOB" s ∨ s = "") → ¬(Occurs "REAL" s ∨ Occurs "FLOA" s ∨ Occurs "DOUB" s) →
      HasAffinity s .numeric

/-- The declared type of a SQLite column; no declared type counts as the empty string. -/
def Declared (v : PyVal) (s : String) : Prop := v = .str s ∨ (v = .none ∧ s = "")

/-- The number of decimal places of a second that a unit can express. -/
def decimalPlaces : String → Option Int
  | "second" => some 0
  | "millisecond" => some 3
  | "microsecond" => some 6
  | "nanosecond" => some 9
  | _ => .none

/-- The unit of a time type can express fractions of a second with `p` decimal places. -/
def FineEnough (p : Int) (t : RType) : Prop :=
  ∃ u k, Dict.get? t.attrs.extra "unit" = some (.str u) ∧ decimalPlaces u = some k ∧ p ≤ k

/-- `n` lists around `e`. -/
inductive NestedLists (e : RType) : Nat → RType → Prop
  | zero : NestedLists e 0 e
  | succ {n t l v a} : NestedLists e n t → NestedLists e (n + 1) (.list t l v a)

/-- A length in bytes that `validate()` accepts. -/
def GoodLength (v : PyVal) : Prop := ∃ n, v = .int n ∧ 1 ≤ n ∧ n ≤ 9223372036854775807

/-- The column properties give the lengths that `validate()` needs: a length that is present
is between 1 and 2^63 - 1, and it is present for types of fixed length. -/
def GoodColumn (cm : CaseMap) (d : Dialect) (c : Dict) : Prop :=
  ∀ octet, Dict.get? c "CHARACTER_OCTET_LENGTH" = some octet →
    match d with
    | .mysql => GoodLength octet ∨ (octet = .none ∧ ∀ dt, DataType cm c dt →
        ¬Starts "char" dt ∧ dt ≠ "enum" ∧ dt ≠ "set" ∧ ¬Starts "binary" dt)
    | .snowflake => GoodLength octet ∨ octet = .none ∨ octet = .int 0
    | .sqlite => GoodLength octet ∨ octet = .none ∨ octet = .int 0
    | .postgresql _ =>
        (GoodLength octet ∨ (octet = .none ∧ ∀ dt, DataType cm c dt →
          ¬Starts "char" dt ∨ Starts "character varying" dt)) ∧
        ∀ dt, DataType cm c dt → Starts "bit" dt → ¬Starts "bit varying" dt →
          ∃ m, Dict.get? c "CHARACTER_MAXIMUM_LENGTH" = some m ∧ GoodLength m

/-- The type of a column, which is the field itself or, for a nullable column, the other
member of its union with null. -/
def ColumnType (f t : RType) : Prop := f = t ∨ ∃ a, f = .union [.null {}, t] a

end Recap.Spec
