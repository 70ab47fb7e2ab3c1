import Verif.PgArraysSpec
import Verif.JsonDataSpec
import Verif.JsonSchema

/-!
# The rows of a table as JSON (C143)
-/

set_option autoImplicit false

namespace Recap.Rows

open Recap.Relational Recap.Values Recap.Spec Recap.PgArrays
open Recap.JsonData (Valid Interprets)

/-- `Written x j`: the JSON value is how the value is written. Byte strings and numbers with a fraction in the decimal
system are strings, points in time, days and times are whole numbers of some unit; this is how Recap says that they are
represented. A binary floating point number that is whole can be written without a fraction. -/
inductive Written : Val → PyVal → Prop
  | null : Written .null .none
  | bool {b} : Written (.bool b) (.bool b)
  | int {i} : Written (.int i) (.int i)
  | float {n m e} : Written (.float n) (.float m e)
  | whole {n i} : Written (.float n) (.int i)
  | decimal {m s t} : Written (.decimal m s) (.str t)
  | str {s} : Written (.str s) (.str s)
  | bytes {n t} : Written (.bytes n) (.str t)
  | instant {ns k} : Written (.instant ns) (.int k)
  | date {d k} : Written (.date d) (.int k)
  | time {ns k} : Written (.time ns) (.int k)
  | list {xs : List Val} {js : List PyVal} : xs.length = js.length →
      (∀ (i : Nat) x j, xs[i]? = some x → js[i]? = some j → Written x j) → Written (.list xs) (.list js)

/-- The database stores the value in the column. In PostgreSQL it can be an array. -/
def InColumn (cm : CaseMap) (d : Dialect) (c : Dict) (x : Val) : Prop :=
  Stored cm d c x ∨ ((∃ cfg, d = .postgresql cfg) ∧ StoredArray cm c x)

/-- The database stores the row in the table with these columns. -/
def StoredRow (cm : CaseMap) (d : Dialect) (cols : List Dict) (xs : List Val) : Prop :=
  cols.length = xs.length ∧ ∀ (i : Nat) c x, cols[i]? = some c → xs[i]? = some x → InColumn cm d c x

/-- `RowObject leave cols xs o`: the JSON object is the row. If `leave`, columns that are null are left out, otherwise
they are null. -/
def RowObject (leave : Bool) (cols : List Dict) (xs : List Val) (o : Dict) : Prop :=
  ∀ (i : Nat) c x, cols[i]? = some c → xs[i]? = some x → ∃ n, Dict.get? c "COLUMN_NAME" = some (.str n) ∧
    ((leave = true ∧ x = .null ∧ Dict.get? o n = .none) ∨
      (¬(leave = true ∧ x = .null) ∧ ∃ j, Dict.get? o n = some j ∧ Written x j))

/-- **C143**: every row of a table, as a JSON object, is valid against the JSON Schema that is written for the type that
is read from the table. -/
def RowsAccepted (cm : CaseMap) (d : Dialect) (leave : Bool) : Prop :=
  ∀ (cols : List Dict) (reg live : Registry) (t : RType) (schema : Dict) (refs : String → PyVal → Prop) (xs : List Val)
    (o : Dict), d.toRecap cm cols reg = (.ok t, live) → Json.fromRecap live t = .ok schema → Interprets refs schema →
    StoredRow cm d cols xs → RowObject leave cols xs o → Valid refs (.dict schema) (.dict o)

/-- The array has the dimensions that are declared for the column. -/
def Enforced (cm : CaseMap) (d : Dialect) (c : Dict) (x : Val) : Prop :=
  ∀ cfg, d = .postgresql cfg → DataType cm c "array" → ∃ (e : String) (n : Nat), e ∈ readTypes ++ otherTypes ∧ ArrayOf cm c e ∧
    Dict.get? c "ATTNDIMS" = some (.int (n + 1)) ∧
    (x = .null ∨ Dimensions (fun y => y = .null ∨ Element e y) (n + 1) x)

/-- The storage class of a value in SQLite goes with the column's affinity, which is not NUMERIC. Text and byte strings
are both written as strings. -/
inductive Agrees (cm : CaseMap) (c : Dict) : Val → Prop
  | null : ¬ColumnAffinity cm c .numeric → Agrees cm c .null
  | int {i} : ColumnAffinity cm c .integer → Agrees cm c (.int i)
  | real {n} : ColumnAffinity cm c .real → Agrees cm c (.float n)
  | text {s} : ColumnAffinity cm c .text ∨ ColumnAffinity cm c .blob → Agrees cm c (.str s)
  | blob {n} : ColumnAffinity cm c .text ∨ ColumnAffinity cm c .blob → Agrees cm c (.bytes n)

/-- It does not: numbers in a column for byte strings, text or byte strings in a column for numbers. -/
inductive Disagrees (cm : CaseMap) (c : Dict) : Val → Prop
  | int {i} : ColumnAffinity cm c .blob → Disagrees cm c (.int i)
  | real {n} : ColumnAffinity cm c .blob → Disagrees cm c (.float n)
  | text {s} : ColumnAffinity cm c .integer ∨ ColumnAffinity cm c .real → Disagrees cm c (.str s)
  | blob {n} : ColumnAffinity cm c .integer ∨ ColumnAffinity cm c .real → Disagrees cm c (.bytes n)

/-- The tables that the theorems are on: the rows of the catalog are dictionaries that Python has, and the columns have
names. No column of SQLite has NUMERIC affinity, and the dimensions of arrays in PostgreSQL are declared and
enforced. -/
structure Plain (cm : CaseMap) (d : Dialect) (cols : List Dict) : Prop where
  real : ∀ c ∈ cols, Real (.dict c)
  name : ∀ c ∈ cols, ∃ n, n ≠ "" ∧ Dict.get? c "COLUMN_NAME" = some (.str n)
  affinity : d = .sqlite → ∀ c ∈ cols, ¬ColumnAffinity cm c .numeric
  array : ∀ cfg, d = .postgresql cfg → ∀ c ∈ cols, DataType cm c "array" → cfg.enforce = true ∧
    ∃ n : Nat, Dict.get? c "ATTNDIMS" = some (.int (n + 1))

end Recap.Rows
