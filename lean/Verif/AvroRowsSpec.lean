import Verif.RowsSpec
import Verif.NestedRowsSpec
import Verif.AvroWriteSpec

/-!
# The rows of a table as Avro data (C149)

What is in a table is from `ValuesSpec.lean`, what the data of a schema are from `AvroDataSpec.lean`.
Nothing here uses the converters.
-/

set_option autoImplicit false

namespace Recap.AvroRows

open Relational Values Recap.Spec
open Recap.Rows (StoredRow)
open AvroData (Datum)
open NestedRows (bigQueryRow hiveRow)

/-- **C149** for a relational database: every row of a table is a datum of the Avro schema that is written for the type
that is read from the table. -/
def RowsAreData (cm : CaseMap) (d : Dialect) : Prop :=
  ∀ (cols : List Dict) (reg live : Registry) (t : RType) (schema : Dict) (xs : List Val),
    d.toRecap cm cols reg = (.ok t, live) → Avro.fromRecap live t = .ok schema → StoredRow cm d cols xs →
    Datum [] .none (.dict schema) (.struct xs)

/-- **C149** for BigQuery. -/
def BigQueryRowsAreData : Prop :=
  ∀ (fields : List BigQuery.Field) (live : Registry) (t : RType) (schema : Dict) (x : Val),
    BigQuery.toRecap fields = .ok t → Avro.fromRecap live t = .ok schema →
    BigQueryElement (fun _ _ => True) (bigQueryRow fields) x → Datum [] .none (.dict schema) x

/-- **C149** for Hive. -/
def HiveRowsAreData : Prop :=
  ∀ (table : Hive.HTable) (live : Registry) (t : RType) (schema : Dict) (x : Val),
    Hive.toRecap table = .ok t → Avro.fromRecap live t = .ok schema →
    HiveStored (fun _ _ => True) (hiveRow table) x → x ≠ .null → Datum [] .none (.dict schema) x

/-! ## Relational databases: which columns -/

/-- Data types of columns that can be `NOT NULL` or not. -/
def directTypes : Dialect → List String
  | .mysql => ["bigint", "int", "mediumint", "smallint", "tinyint", "year", "double", "float", "char", "varchar", "tinytext",
      "text", "mediumtext", "longtext", "enum", "set", "json", "varbinary", "tinyblob", "blob", "mediumblob", "longblob"]
  | .postgresql _ => ["bigint", "integer", "smallint", "double precision", "real", "boolean", "text", "character varying",
      "character", "json", "jsonb", "uuid", "bytea", "bit varying"]
  | .snowflake => ["float", "boolean", "text", "binary"]
  | .sqlite => []

/-- Dates, times and points in time. -/
def pointTypes : Dialect → List String
  | .mysql => ["timestamp", "datetime"]
  | .postgresql _ => ["timestamp without time zone", "timestamp with time zone"]
  | .snowflake => ["date", "timestamp_ntz", "timestamp_ltz", "timestamp_tz", "time"]
  | .sqlite => []

/-- Numbers with a fraction in the decimal system. -/
def numberTypes : Dialect → List String
  | .mysql => ["decimal"]
  | .postgresql _ => ["numeric"]
  | .snowflake => ["number"]
  | .sqlite => []

/-- Byte strings of a fixed length, enums, and arrays; where their dimensions are enforced, at least one is declared. -/
inductive InlineColumn (cm : CaseMap) : Dialect → Dict → Prop
  | fixed {c dt} : DataType cm c dt → dt ∈ ["binary", "bit"] → InlineColumn cm .mysql c
  | bit {cfg c} : DataType cm c "bit" → InlineColumn cm (.postgresql cfg) c
  | enum {cfg c} : DataType cm c "user-defined" → InlineColumn cm (.postgresql cfg) c
  | array {cfg c} : DataType cm c "array" →
      (cfg.enforce = true → ∃ n : Nat, Dict.get? c "ATTNDIMS" = some (.int (n + 1))) → InlineColumn cm (.postgresql cfg) c

/-- The columns whose values are data of what is written for them: dates, times, points in time and decimals only if the
column can be null, and decimals only with digits as Avro has them. -/
inductive Expressible (cm : CaseMap) (d : Dialect) (c : Dict) : Prop
  | sqlite : d = .sqlite → Expressible cm d c
  | direct {dt} : DataType cm c dt → dt ∈ directTypes d → Expressible cm d c
  | point {dt} : DeclaredNullable cm c → DataType cm c dt → dt ∈ pointTypes d → Expressible cm d c
  | number {dt} {p q : Nat} : DeclaredNullable cm c → DataType cm c dt → dt ∈ numberTypes d →
      Dict.get? c "NUMERIC_PRECISION" = some (.int p) → Dict.get? c "NUMERIC_SCALE" = some (.int q) → 1 ≤ p → q ≤ p →
      Expressible cm d c
  | enum {cfg} : d = .postgresql cfg → DeclaredNullable cm c → DataType cm c "user-defined" → Expressible cm d c

/-- What keeps a value within the type of its column, for each database (see C126). -/
def Within (cm : CaseMap) (d : Dialect) (c : Dict) (x : Val) : Prop :=
  match d with
  | .mysql => ∀ i, x = .int i → ¬Unsigned c
  | .postgresql _ => (∀ ns, x = .instant ns → ns ≤ 9223372036854775807000) ∧
      ∀ m s, x = .decimal m s → ∃ p : Nat, Dict.get? c "NUMERIC_PRECISION" = some (.int p) ∧ p ≤ 76
  | .snowflake => (∀ ns, x = .instant ns → -9223372036854775808 ≤ ns ∧ ns ≤ 9223372036854775807) ∧
      ∀ ns, x = .time ns → ns ≤ 2147483647
  | .sqlite => SQLiteFits cm c x

/-! ## BigQuery: which columns -/

/-- Types of BigQuery without logical type. -/
def plainTypes : List String := ["STRING", "JSON", "BYTES", "INTEGER", "INT64", "FLOAT", "FLOAT64", "BOOLEAN"]

/-- Dates, times and points in time. -/
def pointsOfBigQuery : List String := ["TIMESTAMP", "DATETIME", "DATE", "TIME"]

/-- Numbers with a fraction in the decimal system. -/
def numbersOfBigQuery : List String := ["NUMERIC", "BIGNUMERIC"]

/-- The columns of BigQuery whose values are data of what is written for them. -/
inductive BigQueryExpressible : BigQuery.Field → Prop
  | plain {ft m n d df l p s fs} : ft ∈ plainTypes → m ≠ "REPEATED" → BigQueryExpressible (.mk ft m n d df l p s fs)
  | point {ft n d df l p s fs} : ft ∈ pointsOfBigQuery →
      BigQueryExpressible (.mk ft "NULLABLE" n d df l p s fs)
  | number {ft n d df l fs} {p q : Nat} {s : PyVal} : ft ∈ numbersOfBigQuery → 1 ≤ p → q ≤ p →
      s = .int q ∨ s = .none ∧ q = 0 → BigQueryExpressible (.mk ft "NULLABLE" n d df l (.int p) s fs)
  | record {ft n d df l p s fs} : ft ∈ ["RECORD", "STRUCT"] → (∀ f ∈ fs, BigQueryExpressible f) →
      BigQueryExpressible (.mk ft "NULLABLE" n d df l p s fs)

/-! ## Hive: which columns -/

/-- The types of Hive whose values are data of what is written for them. -/
inductive HiveExpressible : Hive.HType → Prop
  | prim {c} : c ∉ [.intervalYearMonth, .intervalDayTime] → HiveExpressible (.prim c)
  | decimal {p q : Nat} : 1 ≤ p → q ≤ p → HiveExpressible (.decimal p q)
  | varchar {n} : HiveExpressible (.varchar n)
  | char {n} : HiveExpressible (.char n)
  | struct {fs} : (∀ f ∈ fs, HiveExpressible (Prod.snd f)) → HiveExpressible (.struct fs)
  | union {ts} : (∀ t ∈ ts, HiveExpressible t) → HiveExpressible (.union ts)
  | voids : HiveExpressible (.list (.prim .void))

end Recap.AvroRows
