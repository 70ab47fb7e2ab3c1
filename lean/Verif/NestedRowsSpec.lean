import Verif.RowsSpec
import Verif.CommandsSpec

/-!
# The rows of BigQuery and Hive tables as JSON (C147)

Their values can be made of others: records, arrays, maps, structures and unions.
-/

set_option autoImplicit false

namespace Recap.NestedRows

open Recap.Values Recap.Spec
open Recap.Rows (Written)
open Recap.Commands.Spec (NamedAll FieldNames)
open Recap.JsonData (Valid Interprets)

/-! ## BigQuery -/

/-- The name of a column. -/
def columnName : BigQuery.Field → PyVal
  | .mk _ _ name _ _ _ _ _ _ => name

mutual
/-- `BigQueryCell leave f x j`: the JSON value is how the value of a column, or of a field of a record, is written. -/
inductive BigQueryCell (leave : Bool) : BigQuery.Field → Val → PyVal → Prop
  | null {f} : BigQueryCell leave f .null .none
  | single {ft m n d df l p s fs x j} : m ≠ "REPEATED" → x ≠ .null → BigQueryItem leave (.mk ft m n d df l p s fs) x j →
      BigQueryCell leave (.mk ft m n d df l p s fs) x j
  | repeated {ft n d df l p s fs} {xs : List Val} {js : List PyVal} : xs.length = js.length →
      (∀ (i : Nat) x j, xs[i]? = some x → js[i]? = some j → BigQueryItem leave (.mk ft "REPEATED" n d df l p s fs) x j) →
      BigQueryCell leave (.mk ft "REPEATED" n d df l p s fs) (.list xs) (.list js)
/-- A value, or an element of an array for a column with mode `REPEATED`. A record is an object with the names of its
fields. If `leave`, fields that are null are left out, otherwise they are null. -/
inductive BigQueryItem (leave : Bool) : BigQuery.Field → Val → PyVal → Prop
  | leaf {f x j} : Written x j → BigQueryItem leave f x j
  | record {ft m n d df l p s fs vs} {o : Dict} :
      (∀ (i : Nat) f x, fs[i]? = some f → vs[i]? = some x → ∃ n, columnName f = .str n) →
      (∀ (i : Nat) f x n, fs[i]? = some f → vs[i]? = some x → columnName f = .str n →
        (Dict.get? o n = .none ↔ leave = true ∧ x = .null)) →
      (∀ (i : Nat) f x n j, fs[i]? = some f → vs[i]? = some x → columnName f = .str n → Dict.get? o n = some j →
        BigQueryCell leave f x j) →
      BigQueryItem leave (.mk ft m n d df l p s fs) (.struct vs) (.dict o)
end

/-- A row is like a record of all columns. -/
def bigQueryRow (fields : List BigQuery.Field) : BigQuery.Field :=
  .mk "RECORD" "REQUIRED" .none .none .none .none .none .none fields

/-- **C147** for BigQuery: every row of a table, as a JSON object, is valid against the JSON Schema that is written for
the type that is read from the table. All columns and fields have names, as BigQuery requires. -/
def BigQueryRowsAccepted (leave : Bool) : Prop :=
  ∀ (fields : List BigQuery.Field) (t : RType) (live : Registry) (schema : Dict) (refs : String → PyVal → Prop) (x : Val)
    (j : PyVal), NamedAll fields → BigQuery.toRecap fields = .ok t → Json.fromRecap live t = .ok schema →
    Interprets refs schema → BigQueryElement (fun _ _ => True) (bigQueryRow fields) x →
    BigQueryItem leave (bigQueryRow fields) x j → Valid refs (.dict schema) j

/-! ## Hive -/

/-- `HiveWritten leave t x j`: the JSON value is how the value of the type is written. A structure is an object with the
names of its fields; if `leave`, fields that are null are left out, otherwise they are null. A map is an object; how keys
are written as strings is left open. A value of a union is written like that of its member. -/
inductive HiveWritten (leave : Bool) : Hive.HType → Val → PyVal → Prop
  | null {t} : HiveWritten leave t .null .none
  | prim {c x j} : Written x j → HiveWritten leave (.prim c) x j
  | decimal {p q x j} : Written x j → HiveWritten leave (.decimal p q) x j
  | varchar {n x j} : Written x j → HiveWritten leave (.varchar n) x j
  | char {n x j} : Written x j → HiveWritten leave (.char n) x j
  | map {k v} {ps : List (Val × Val)} {o : Dict} : ps.length = o.length →
      (∀ (i : Nat) p kv, ps[i]? = some p → o[i]? = some kv → HiveWritten leave v (Prod.snd p) (Prod.snd kv)) →
      HiveWritten leave (.map k v) (.map ps) (.dict o)
  | list {e} {xs : List Val} {js : List PyVal} : xs.length = js.length →
      (∀ (i : Nat) x j, xs[i]? = some x → js[i]? = some j → HiveWritten leave e x j) →
      HiveWritten leave (.list e) (.list xs) (.list js)
  | union {ts t x j} : t ∈ ts → HiveWritten leave t x j → HiveWritten leave (.union ts) x j
  | struct {fs vs} {o : Dict} :
      (∀ (i : Nat) f x, fs[i]? = some f → vs[i]? = some x → (Dict.get? o (Prod.fst f) = .none ↔ leave = true ∧ x = .null)) →
      (∀ (i : Nat) f x j, fs[i]? = some f → vs[i]? = some x → Dict.get? o (Prod.fst f) = some j →
        HiveWritten leave (Prod.snd f) x j) →
      HiveWritten leave (.struct fs) (.struct vs) (.dict o)

/-- A row is like a structure of all columns. -/
def hiveRow (table : Hive.HTable) : Hive.HType := .struct (table.columns.map fun c => (c.name, c.type))

/-- **C147** for Hive: every row of a table, as a JSON object, is valid against the JSON Schema that is written for the
type that is read from the table. All columns and fields have names, as Hive requires. -/
def HiveRowsAccepted (leave : Bool) : Prop :=
  ∀ (table : Hive.HTable) (t : RType) (live : Registry) (schema : Dict) (refs : String → PyVal → Prop) (x : Val)
    (j : PyVal), FieldNames (· ≠ "") (hiveRow table) → Hive.toRecap table = .ok t → Json.fromRecap live t = .ok schema →
    Interprets refs schema → HiveStored (fun _ _ => True) (hiveRow table) x → x ≠ .null →
    HiveWritten leave (hiveRow table) x j → Valid refs (.dict schema) j

/-- The type has no unions and no part of type `void`, apart from keys of maps. -/
inductive Common : Hive.HType → Prop
  | prim {c} : c ≠ .void → Common (.prim c)
  | decimal {p q} : Common (.decimal p q)
  | varchar {n} : Common (.varchar n)
  | char {n} : Common (.char n)
  | map {k v} : Common v → Common (.map k v)
  | list {e} : Common e → Common (.list e)
  | struct {fs} : (∀ f ∈ fs, Common (Prod.snd f)) → Common (.struct fs)

/-- No element of a list and no value of a map in the value is null. -/
inductive Solid : Val → Prop
  | null : Solid .null
  | bool {b} : Solid (.bool b)
  | int {i} : Solid (.int i)
  | float {n} : Solid (.float n)
  | decimal {m s} : Solid (.decimal m s)
  | str {s} : Solid (.str s)
  | bytes {n} : Solid (.bytes n)
  | instant {n} : Solid (.instant n)
  | date {n} : Solid (.date n)
  | time {n} : Solid (.time n)
  | list {vs} : (∀ x ∈ vs, x ≠ .null) → (∀ x ∈ vs, Solid x) → Solid (.list vs)
  | map {ps} : (∀ p ∈ ps, Prod.snd p ≠ .null) → (∀ p ∈ ps, Solid (Prod.snd p)) → Solid (.map ps)
  | struct {vs} : (∀ x ∈ vs, Solid x) → Solid (.struct vs)

end Recap.NestedRows
