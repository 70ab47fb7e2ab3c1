import Verif.ValuesSpec
import Verif.AvroDataSpec
import Verif.TypesState

/-!
# What PostgreSQL stores in a column with an array (C142)
-/

set_option autoImplicit false

namespace Recap.PgArrays

open Recap.Relational Recap.Values Recap.Spec
open Recap.AvroData (HoldsIn)
open Recap.Avro.Spec (IntValue)

/-- The values of the types that arrays can have, by the name of the type in `pg_type` (PostgreSQL documentation,
chapter 8). A field has at most 1 GiB, a bit string 83886080 bits. -/
inductive Element : String → Val → Prop
  | int2 {i} : IntValue 16 true i → Element "int2" (.int i)
  | int4 {i} : IntValue 32 true i → Element "int4" (.int i)
  | int8 {i} : IntValue 64 true i → Element "int8" (.int i)
  | float4 : Element "float4" (.float 32)
  | float8 : Element "float8" (.float 64)
  | bool {b} : Element "bool" (.bool b)
  | text {s : String} : s.utf8ByteSize ≤ 1073741824 → Element "text" (.str s)
  | varchar {s : String} : s.utf8ByteSize ≤ 1073741824 → Element "varchar" (.str s)
  | bpchar {s : String} : s.utf8ByteSize ≤ 1073741824 → Element "bpchar" (.str s)
  | json {s : String} : s.utf8ByteSize ≤ 1073741824 → Element "json" (.str s)
  | jsonb {s : String} : s.utf8ByteSize ≤ 1073741824 → Element "jsonb" (.str s)
  | uuid {s : String} : s.utf8ByteSize = 36 → Element "uuid" (.str s)
  | bytea {n} : n ≤ 1073741824 → Element "bytea" (.bytes n)
  | bit {n} : n ≤ 10485760 → Element "bit" (.bytes n)
  | varbit {n} : n ≤ 10485760 → Element "varbit" (.bytes n)
  | numeric {m s} : s ≤ 16383 → Element "numeric" (.decimal m s)
  | timestamp {ns} : -210866803200000000000 ≤ ns → ns < 9224318016000000000000 → Element "timestamp" (.instant ns)
  | timestamptz {ns} : -210866803200000000000 ≤ ns → ns < 9224318016000000000000 → Element "timestamptz" (.instant ns)

/-- The types whose arrays the converter reads. -/
def readTypes : List String :=
  ["int4", "int8", "float4", "float8", "text", "varchar", "json", "jsonb", "uuid", "bytea", "bit"]

/-- The others. -/
def otherTypes : List String := ["int2", "bool", "bpchar", "varbit", "numeric", "timestamp", "timestamptz"]

/-- The values of an array with `n` dimensions. -/
def Dimensions (elem : Val → Prop) : Nat → Val → Prop
  | 0, x => elem x
  | n + 1, x => ∃ xs, x = .list xs ∧ ∀ y ∈ xs, Dimensions elem n y

/-- The column is an array of the type. `information_schema` says so with `DATA_TYPE` and `UDT_NAME`. -/
def ArrayOf (cm : CaseMap) (c : Dict) (e : String) : Prop :=
  DataType cm c "array" ∧ Dict.get? c "UDT_NAME" = some (.str ("_" ++ e))

/-- What PostgreSQL stores in a column with an array: one with any number of dimensions up to six, whatever is declared,
with elements that can be null. -/
def StoredArray (cm : CaseMap) (c : Dict) (x : Val) : Prop :=
  (x = .null ∧ DeclaredNullable cm c) ∨
    ∃ e n, ArrayOf cm c e ∧ 1 ≤ n ∧ n ≤ 6 ∧ Dimensions (fun y => y = .null ∨ Element e y) n x

/-- **C142**: every array that is stored in a column is a value of the field for the column, also after other tables
have been read. -/
def ArraysHeld (cm : CaseMap) (cfg : PgConfig) : Prop :=
  ∀ (cols : List Dict) (reg reg' reg'' : Registry) (fs : List RType) (a : Attrs) (i : Nat) (c : Dict) (f : RType) (x : Val),
    (Dialect.postgresql cfg).toRecap cm cols reg = (.ok (.struct fs a), reg') → cols[i]? = some c → fs[i]? = some f →
    Grows reg' reg'' → StoredArray cm c x → HoldsIn reg'' f x

/-- `lower()` does not change the names of the types. -/
def Lower (cm : CaseMap) : Prop :=
  ∀ e ∈ readTypes ++ otherTypes, cm.lower e = e ∧ cm.lower ("_" ++ e) = "_" ++ e

end Recap.PgArrays
