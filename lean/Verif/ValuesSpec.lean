import Verif.RelationalSpec
import Verif.AvroSpec
import Verif.BigQuery
import Verif.Hive

/-!
# Which values a type and a column hold (C126)

First the values of a Recap type, as the documentation of Recap's types describes them.  Then the
values that each database allows in a column, taken from the documentation of the databases.
Nothing here uses the converters.
-/

set_option autoImplicit false

namespace Recap.Values

open Relational Recap.Spec
open Avro.Spec (IntValue)

/-- A value in a cell of a table.  Numbers with a fraction are `m / 10^s`; points in time are
nanoseconds since 1970-01-01, dates are days since then, times of day are nanoseconds since midnight;
a binary floating point number is known by the number of bits of its format and a byte string by its
length. -/
inductive Val where
  | null
  | bool (b : Bool)
  | int (i : Int)
  | float (bits : Int)
  | decimal (m : Int) (s : Nat)
  | str (s : String)
  | bytes (n : Nat)
  | instant (ns : Int)
  | date (days : Int)
  | time (ns : Int)
  | list (vs : List Val)
  | map (ps : List (Val × Val))
  | struct (vs : List Val)

/-! ## The values of a type -/

/-- A length of `n` bytes is within the limit `l`, if there is one. -/
def Fits (l : PyVal) (n : Nat) : Prop := l = .none ∨ ∃ k : Int, l = .int k ∧ n ≤ k

/-- The nanoseconds in a unit of time. -/
def nanoseconds : String → Option Int
  | "second" => some 1000000000
  | "millisecond" => some 1000000
  | "microsecond" => some 1000
  | "nanosecond" => some 1
  | _ => .none

/-- The value is one that the type describes. -/
inductive Holds : RType → Val → Prop
  | null {a} : Holds (.null a) .null
  | bool {a b} : Holds (.bool a) (.bool b)
  /-- Integers of `n` bits. -/
  | int {n : Int} {s : Bool} {i a} : a.logical = .none → IntValue n.toNat s i →
      Holds (.int (.int n) (.bool s) a) (.int i)
  /-- A format with fewer bits is contained in one with more. -/
  | float {n m a} : m ≤ n → Holds (.float (.int n) a) (.float m)
  /-- The length of a string is that of its UTF-8 form, in bytes. -/
  | string {l v s a} : a.logical = .none → Fits l s.utf8ByteSize → Holds (.string l v a) (.str s)
  /-- A UUID in its canonical form. -/
  | uuid {l v} {s : String} {a} : a.logical = .str "build.recap.UUID" → s.utf8ByteSize = 36 →
      Fits l s.utf8ByteSize → Holds (.string l v a) (.str s)
  | bytes {l v n a} : a.logical = .none → Fits l n → Holds (.bytes l v a) (.bytes n)
  /-- `m / 10^s` is `u / 10^q`, where `u` has at most `p` digits and is stored in `k` bytes. -/
  | decimal {k : Int} {v a} {p q : Nat} {m : Int} {s : Nat} {u : Int} :
      a.logical = .str "build.recap.Decimal" →
      Dict.get? a.extra "precision" = some (.int p) → Dict.get? a.extra "scale" = some (.int q) →
      u * 10 ^ s = m * 10 ^ q → u.natAbs < 10 ^ p → IntValue (8 * k).toNat true u →
      Holds (.bytes (.int k) v a) (.decimal m s)
  /-- A number of units since 1970. -/
  | instant {n : Int} {a u per k} : a.logical = .str "build.recap.Timestamp" →
      Dict.get? a.extra "unit" = some (.str u) → nanoseconds u = some per → IntValue n.toNat true k →
      Holds (.int (.int n) (.bool true) a) (.instant (k * per))
  | date {n : Int} {a k} : a.logical = .str "build.recap.Date" →
      Dict.get? a.extra "unit" = some (.str "day") → IntValue n.toNat true k →
      Holds (.int (.int n) (.bool true) a) (.date k)
  | time {n : Int} {a u per k} : a.logical = .str "build.recap.Time" →
      Dict.get? a.extra "unit" = some (.str u) → nanoseconds u = some per → IntValue n.toNat true k →
      Holds (.int (.int n) (.bool true) a) (.time (k * per))
  | enum {xs s a} : .str s ∈ xs → Holds (.enum (.list xs) a) (.str s)
  | list {t v vs a} : (∀ x ∈ vs, Holds t x) → Holds (.list t .none v a) (.list vs)
  | map {k v ps a} : (∀ p ∈ ps, Holds k (Prod.fst p)) → (∀ p ∈ ps, Holds v (Prod.snd p)) →
      Holds (.map k v a) (.map ps)
  | struct {fs vs a} : fs.length = vs.length →
      (∀ (i : Nat) f x, fs[i]? = some f → vs[i]? = some x → Holds f x) → Holds (.struct fs a) (.struct vs)
  | union {ts t x a} : t ∈ ts → Holds t x → Holds (.union ts a) x

/-! ## The values in a column -/

/-- A point in time with at most `p` decimal places of a second. -/
def Decimals (p : Nat) (ns : Int) : Prop := ∃ k : Int, ns = k * 10 ^ (9 - p)

/-- A point in time in the years 1 to 9999. -/
def CommonEra (ns : Int) : Prop := -62135596800000000000 ≤ ns ∧ ns < 253402300800000000000

/-- A day in the years 1 to 9999. -/
def CommonDay (d : Int) : Prop := -719162 ≤ d ∧ d ≤ 2932896

/-- A time of day. -/
def OfDay (ns : Int) : Prop := 0 ≤ ns ∧ ns < 86400000000000

/-- The column is declared `UNSIGNED`, which MySQL shows in `COLUMN_TYPE` only. -/
def Unsigned (c : Dict) : Prop := ∃ s, Dict.get? c "COLUMN_TYPE" = some (.str s) ∧ Occurs "unsigned" s

/-- The integer types of MySQL. -/
def mysqlInts : List (String × Nat) :=
  [("bigint", 64), ("int", 32), ("mediumint", 24), ("smallint", 16), ("tinyint", 8)]

/-- What MySQL stores in a column, by the names that `DATA_TYPE` has in its information schema
(MySQL 8.0 reference manual, chapter 11). -/
inductive MySQL (cm : CaseMap) (c : Dict) : Val → Prop
  | null : DeclaredNullable cm c → MySQL cm c .null
  | signed {dt n i} : DataType cm c dt → (dt, n) ∈ mysqlInts → ¬Unsigned c → IntValue n true i →
      MySQL cm c (.int i)
  | unsigned {dt n i} : DataType cm c dt → (dt, n) ∈ mysqlInts → Unsigned c → IntValue n false i →
      MySQL cm c (.int i)
  | double : DataType cm c "double" → MySQL cm c (.float 64)
  | float : DataType cm c "float" → MySQL cm c (.float 32)
  | text {dt n s} : DataType cm c dt →
      dt ∈ ["char", "varchar", "tinytext", "text", "mediumtext", "longtext", "enum", "set"] →
      Dict.get? c "CHARACTER_OCTET_LENGTH" = some (.int n) → (s.utf8ByteSize : Int) ≤ n → MySQL cm c (.str s)
  | json {s} : DataType cm c "json" → Dict.get? c "CHARACTER_OCTET_LENGTH" = some .none → MySQL cm c (.str s)
  | binary {dt n} {k : Nat} : DataType cm c dt →
      dt ∈ ["binary", "varbinary", "tinyblob", "blob", "mediumblob", "longblob"] →
      Dict.get? c "CHARACTER_OCTET_LENGTH" = some (.int n) → (k : Int) ≤ n → MySQL cm c (.bytes k)
  | bit {k} : DataType cm c "bit" → k ≤ 8 → MySQL cm c (.bytes k)
  | instant {dt} {p : Nat} {ns} : DataType cm c dt → dt ∈ ["timestamp", "datetime"] →
      Dict.get? c "DATETIME_PRECISION" = some (.int p) → p ≤ 6 → Decimals p ns → CommonEra ns →
      MySQL cm c (.instant ns)
  | decimal {p q : Nat} {m : Int} : DataType cm c "decimal" →
      Dict.get? c "NUMERIC_PRECISION" = some (.int p) → Dict.get? c "NUMERIC_SCALE" = some (.int q) →
      p ≤ 65 → m.natAbs < 10 ^ p → MySQL cm c (.decimal m q)
  | year {i} : DataType cm c "year" → i = 0 ∨ 1901 ≤ i ∧ i ≤ 2155 → MySQL cm c (.int i)

/-- The integer types of PostgreSQL. -/
def pgInts : List (String × Nat) := [("bigint", 64), ("integer", 32), ("smallint", 16)]

/-- What PostgreSQL stores in a column that is not an array (PostgreSQL documentation, chapter 8).
Points in time are in the years 4713 BC to 294276 AD. -/
inductive PostgreSQL (cm : CaseMap) (c : Dict) : Val → Prop
  | null : DeclaredNullable cm c → PostgreSQL cm c .null
  | int {dt n i} : DataType cm c dt → (dt, n) ∈ pgInts → IntValue n true i → PostgreSQL cm c (.int i)
  | double : DataType cm c "double precision" → PostgreSQL cm c (.float 64)
  | real : DataType cm c "real" → PostgreSQL cm c (.float 32)
  | bool {b} : DataType cm c "boolean" → PostgreSQL cm c (.bool b)
  | text {dt n s} : DataType cm c dt → dt ∈ ["text", "character varying", "character"] →
      Dict.get? c "CHARACTER_OCTET_LENGTH" = some (.int n) → (s.utf8ByteSize : Int) ≤ n →
      PostgreSQL cm c (.str s)
  | json {dt s} : DataType cm c dt → dt ∈ ["json", "jsonb"] →
      Dict.get? c "CHARACTER_OCTET_LENGTH" = some .none → PostgreSQL cm c (.str s)
  | uuid {s : String} : DataType cm c "uuid" → s.utf8ByteSize = 36 → PostgreSQL cm c (.str s)
  | bytea {n} : DataType cm c "bytea" → n ≤ 1073741824 → PostgreSQL cm c (.bytes n)
  | varbit {n} : DataType cm c "bit varying" → n ≤ 10485760 → PostgreSQL cm c (.bytes n)
  | bit {m : Nat} {n} : DataType cm c "bit" → Dict.get? c "CHARACTER_MAXIMUM_LENGTH" = some (.int m) →
      m ≤ 83886080 → n = (m + 7) / 8 → PostgreSQL cm c (.bytes n)
  | instant {dt} {p : Nat} {ns} : DataType cm c dt →
      dt ∈ ["timestamp without time zone", "timestamp with time zone"] →
      Dict.get? c "DATETIME_PRECISION" = some (.int p) → p ≤ 6 → Decimals p ns →
      -210866803200000000000 ≤ ns → ns < 9224318016000000000000 → PostgreSQL cm c (.instant ns)
  | numeric {p q : Nat} {m : Int} : DataType cm c "numeric" →
      Dict.get? c "NUMERIC_PRECISION" = some (.int p) → Dict.get? c "NUMERIC_SCALE" = some (.int q) →
      p ≤ 1000 → m.natAbs < 10 ^ p → PostgreSQL cm c (.decimal m q)
  | free {s : Nat} {m : Int} : DataType cm c "numeric" →
      Dict.get? c "NUMERIC_PRECISION" = some .none → Dict.get? c "NUMERIC_SCALE" = some .none →
      s ≤ 16383 → PostgreSQL cm c (.decimal m s)
  | enum {xs s} : DataType cm c "user-defined" → Dict.get? c "ENUM_VALUES" = some (.list xs) →
      .str s ∈ xs → PostgreSQL cm c (.str s)

/-- What Snowflake stores in a column, by the names that `DATA_TYPE` has in its information schema
(Snowflake SQL data types reference). -/
inductive Snowflake (cm : CaseMap) (c : Dict) : Val → Prop
  | null : DeclaredNullable cm c → Snowflake cm c .null
  | float : DataType cm c "float" → Snowflake cm c (.float 64)
  | bool {b} : DataType cm c "boolean" → Snowflake cm c (.bool b)
  | number {p q : Nat} {m : Int} : DataType cm c "number" →
      Dict.get? c "NUMERIC_PRECISION" = some (.int p) → Dict.get? c "NUMERIC_SCALE" = some (.int q) →
      1 ≤ p → p ≤ 38 → m.natAbs < 10 ^ p → Snowflake cm c (.decimal m q)
  | text {n s} : DataType cm c "text" → Dict.get? c "CHARACTER_OCTET_LENGTH" = some (.int n) →
      (s.utf8ByteSize : Int) ≤ n → Snowflake cm c (.str s)
  | binary {n} {k : Nat} : DataType cm c "binary" → Dict.get? c "CHARACTER_OCTET_LENGTH" = some (.int n) →
      (k : Int) ≤ n → Snowflake cm c (.bytes k)
  | date {d} : DataType cm c "date" → CommonDay d → Snowflake cm c (.date d)
  | instant {dt ns} : DataType cm c dt → dt ∈ ["timestamp_ntz", "timestamp_ltz", "timestamp_tz"] →
      CommonEra ns → Snowflake cm c (.instant ns)
  | time {ns} : DataType cm c "time" → OfDay ns → Snowflake cm c (.time ns)

/-- The declared type of the SQLite column has the affinity. -/
def ColumnAffinity (cm : CaseMap) (c : Dict) (a : Affinity) : Prop :=
  ∃ ty s, Dict.get? c "TYPE" = some ty ∧ Declared ty s ∧ HasAffinity (cm.upper s) a

/-- What SQLite stores in a column (https://www.sqlite.org/datatype3.html, section 3): the affinity only
changes numbers into text for TEXT and integers into floating point numbers for REAL; otherwise any
value can be in any column.  That text which looks like a number is stored as a number, if the affinity
is INTEGER, REAL or NUMERIC, is left out.  Strings and blobs have at most 2^31 - 1 bytes. -/
inductive SQLite (cm : CaseMap) (c : Dict) : Val → Prop
  | null : DeclaredNullable cm c → SQLite cm c .null
  | int {i} : ¬ColumnAffinity cm c .text → ¬ColumnAffinity cm c .real → IntValue 64 true i → SQLite cm c (.int i)
  | real : ¬ColumnAffinity cm c .text → SQLite cm c (.float 64)
  | text {s : String} : s.utf8ByteSize ≤ 2147483647 → SQLite cm c (.str s)
  | blob {n} : n ≤ 2147483647 → SQLite cm c (.bytes n)

/-- A length of `n` bytes is within the length in the declared type, if it has one. -/
def WithinDeclared (c : Dict) (n : Nat) : Prop :=
  Dict.get? c "CHARACTER_OCTET_LENGTH" = some .none ∨
    ∃ k : Int, Dict.get? c "CHARACTER_OCTET_LENGTH" = some (.int k) ∧ n ≤ k

/-- What keeps a value of SQLite within its type: its storage class is that of the column's affinity,
and it respects the declared length or number of bits; a column of NUMERIC affinity takes all values. -/
inductive SQLiteFits (cm : CaseMap) (c : Dict) : Val → Prop
  | null : SQLiteFits cm c .null
  | int {i} : ColumnAffinity cm c .integer → SQLiteFits cm c (.int i)
  | real {n} : ColumnAffinity cm c .real →
      (Dict.get? c "NUMERIC_PRECISION" = some .none ∨
        ∃ p, Dict.get? c "NUMERIC_PRECISION" = some (.int p) ∧ 23 < p) → SQLiteFits cm c (.float n)
  | text {s} : ColumnAffinity cm c .text → WithinDeclared c s.utf8ByteSize → SQLiteFits cm c (.str s)
  | blob {n} : ColumnAffinity cm c .blob → WithinDeclared c n → SQLiteFits cm c (.bytes n)
  | numeric {v} : ColumnAffinity cm c .numeric → SQLiteFits cm c v

/-- The database stores the value in the column. -/
def Stored (cm : CaseMap) : Dialect → Dict → Val → Prop
  | .mysql => MySQL cm
  | .postgresql _ => PostgreSQL cm
  | .snowflake => Snowflake cm
  | .sqlite => SQLite cm

/-- **C126 for a database**: every value that the database stores in a column of a table is a value of
the type of the field for that column. -/
def ColumnsHeld (cm : CaseMap) (d : Dialect) : Prop :=
  ∀ (cols : List Dict) (reg reg' : Registry) (fs : List RType) (a : Attrs) (i : Nat) (c : Dict) (f : RType) (v : Val),
    d.toRecap cm cols reg = (.ok (.struct fs a), reg') → cols[i]? = some c → fs[i]? = some f →
    Stored cm d c v → Holds f v

/-! ## BigQuery -/

/-- The values of the types other than records.  The length of a `STRING` counts characters. -/
inductive BigQueryScalar : BigQuery.Field → Val → Prop
  | string {m n d df p s fs x} : BigQueryScalar (.mk "STRING" m n d df .none p s fs) (.str x)
  | stringMax {m n d df p s fs} {l : Int} {x : String} : (x.length : Int) ≤ l →
      BigQueryScalar (.mk "STRING" m n d df (.int l) p s fs) (.str x)
  | json {m n d df p s fs x} : BigQueryScalar (.mk "JSON" m n d df .none p s fs) (.str x)
  | bytes {m n d df l p s fs k} : Fits l k → BigQueryScalar (.mk "BYTES" m n d df l p s fs) (.bytes k)
  | int {ft m n d df l p s fs i} : ft ∈ ["INTEGER", "INT64"] → IntValue 64 true i →
      BigQueryScalar (.mk ft m n d df l p s fs) (.int i)
  | float {ft m n d df l p s fs} : ft ∈ ["FLOAT", "FLOAT64"] →
      BigQueryScalar (.mk ft m n d df l p s fs) (.float 64)
  | bool {m n d df l p s fs b} : BigQueryScalar (.mk "BOOLEAN" m n d df l p s fs) (.bool b)
  | instant {ft m n d df l p s fs ns} : ft ∈ ["TIMESTAMP", "DATETIME"] → Decimals 6 ns → CommonEra ns →
      BigQueryScalar (.mk ft m n d df l p s fs) (.instant ns)
  | date {m n d df l p s fs x} : CommonDay x → BigQueryScalar (.mk "DATE" m n d df l p s fs) (.date x)
  | time {m n d df l p s fs ns} : Decimals 6 ns → OfDay ns →
      BigQueryScalar (.mk "TIME" m n d df l p s fs) (.time ns)
  /-- `NUMERIC` has 29 digits before and 9 after the point. -/
  | numeric {m n d df l fs} {x : Int} : x.natAbs < 10 ^ 38 →
      BigQueryScalar (.mk "NUMERIC" m n d df l .none .none fs) (.decimal x 9)
  /-- `NUMERIC(p)`. -/
  | numericP {m n d df l fs} {p : Nat} {x : Int} : 1 ≤ p → p ≤ 29 → x.natAbs < 10 ^ p →
      BigQueryScalar (.mk "NUMERIC" m n d df l (.int p) .none fs) (.decimal x 0)
  /-- `NUMERIC(p, q)`. -/
  | numericPS {m n d df l fs} {p q : Nat} {x : Int} : 1 ≤ p → p ≤ 38 → x.natAbs < 10 ^ p →
      BigQueryScalar (.mk "NUMERIC" m n d df l (.int p) (.int q) fs) (.decimal x q)
  /-- `BIGNUMERIC` has 38 digits after the point and at least 38 before it. -/
  | bignumeric {m n d df l fs} {x : Int} : x.natAbs < 10 ^ 76 →
      BigQueryScalar (.mk "BIGNUMERIC" m n d df l .none .none fs) (.decimal x 38)
  | bignumericP {m n d df l fs} {p : Nat} {x : Int} : 1 ≤ p → p ≤ 38 → x.natAbs < 10 ^ p →
      BigQueryScalar (.mk "BIGNUMERIC" m n d df l (.int p) .none fs) (.decimal x 0)
  | bignumericPS {m n d df l fs} {p q : Nat} {x : Int} : 1 ≤ p → p ≤ 76 → x.natAbs < 10 ^ p →
      BigQueryScalar (.mk "BIGNUMERIC" m n d df l (.int p) (.int q) fs) (.decimal x q)

mutual
/-- What BigQuery stores in a column or in a field of a record (BigQuery data types reference).  `ok`
restricts the values that are not records or arrays. -/
inductive BigQueryStored (ok : BigQuery.Field → Val → Prop) : BigQuery.Field → Val → Prop
  | null {ft n d df l p s fs} : BigQueryStored ok (.mk ft "NULLABLE" n d df l p s fs) .null
  | single {ft m n d df l p s fs x} : m ≠ "REPEATED" → BigQueryElement ok (.mk ft m n d df l p s fs) x →
      BigQueryStored ok (.mk ft m n d df l p s fs) x
  | repeated {ft n d df l p s fs vs} :
      (∀ x ∈ vs, BigQueryElement ok (.mk ft "REPEATED" n d df l p s fs) x) →
      BigQueryStored ok (.mk ft "REPEATED" n d df l p s fs) (.list vs)
/-- A value, or an element of an array for a column with mode `REPEATED`. -/
inductive BigQueryElement (ok : BigQuery.Field → Val → Prop) : BigQuery.Field → Val → Prop
  | leaf {f x} : BigQueryScalar f x → ok f x → BigQueryElement ok f x
  | record {ft m n d df l p s fs vs} : ft ∈ ["RECORD", "STRUCT"] → fs.length = vs.length →
      (∀ (i : Nat) f x, fs[i]? = some f → vs[i]? = some x → BigQueryStored ok f x) →
      BigQueryElement ok (.mk ft m n d df l p s fs) (.struct vs)
end

/-- What keeps a value of BigQuery within its type: a string with a declared length has no characters
of several bytes, a time of day fits into 32 bits of microseconds, and the digits of a number are
declared. -/
inductive BigQueryFits : BigQuery.Field → Val → Prop
  | other {f x} : (∀ s, x ≠ .str s) → (∀ ns, x ≠ .time ns) → (∀ m s, x ≠ .decimal m s) → BigQueryFits f x
  | string {ft m n d df p s fs x} : BigQueryFits (.mk ft m n d df .none p s fs) (.str x)
  | narrow {f} {x : String} : x.utf8ByteSize = x.length → BigQueryFits f (.str x)
  | time {f ns} : ns ≤ 2147483647000 → BigQueryFits f (.time ns)
  | decimal {ft m n d df l s fs x k} {p : Int} : BigQueryFits (.mk ft m n d df l (.int p) s fs) (.decimal x k)

/-! ## Hive -/

/-- The values of Hive's primitive types (Hive language manual, types).  The types of intervals cannot
be those of columns. -/
inductive HivePrimitive : Hive.Primitive → Val → Prop
  | bool {b} : HivePrimitive .boolean (.bool b)
  | byte {i} : IntValue 8 true i → HivePrimitive .byte (.int i)
  | short {i} : IntValue 16 true i → HivePrimitive .short (.int i)
  | int {i} : IntValue 32 true i → HivePrimitive .int (.int i)
  | long {i} : IntValue 64 true i → HivePrimitive .long (.int i)
  | float : HivePrimitive .float (.float 32)
  | double : HivePrimitive .double (.float 64)
  | string {s} : HivePrimitive .string (.str s)
  | binary {n} : n ≤ 2147483647 → HivePrimitive .binary (.bytes n)
  | date {d} : CommonDay d → HivePrimitive .date (.date d)
  | timestamp {ns} : CommonEra ns → HivePrimitive .timestamp (.instant ns)
  | timestampLocalTz {ns} : CommonEra ns → HivePrimitive .timestampLocalTz (.instant ns)

/-- What Hive stores in a column of the type.  `ok` restricts the values that are not made of others.
The length of a `VARCHAR` or a `CHAR` counts characters. -/
inductive HiveStored (ok : Hive.HType → Val → Prop) : Hive.HType → Val → Prop
  | null {t} : HiveStored ok t .null
  | prim {c x} : HivePrimitive c x → ok (.prim c) x → HiveStored ok (.prim c) x
  | decimal {p q : Nat} {m : Int} : p ≤ 38 → m.natAbs < 10 ^ p → HiveStored ok (.decimal p q) (.decimal m q)
  | varchar {n s} : (s.length : Int) ≤ n → ok (.varchar n) (.str s) → HiveStored ok (.varchar n) (.str s)
  | char {n s} : (s.length : Int) ≤ n → ok (.char n) (.str s) → HiveStored ok (.char n) (.str s)
  | map {k v ps} : (∀ p ∈ ps, HiveStored ok k (Prod.fst p)) → (∀ p ∈ ps, HiveStored ok v (Prod.snd p)) →
      HiveStored ok (.map k v) (.map ps)
  | list {e vs} : (∀ x ∈ vs, HiveStored ok e x) → HiveStored ok (.list e) (.list vs)
  | union {ts t x} : t ∈ ts → HiveStored ok t x → HiveStored ok (.union ts) x
  | struct {fs vs} : fs.length = vs.length →
      (∀ (i : Nat) f x, fs[i]? = some f → vs[i]? = some x → HiveStored ok (Prod.snd f) x) →
      HiveStored ok (.struct fs) (.struct vs)

/-- What keeps a value of Hive within its type: a point in time fits into 64 bits of nanoseconds, and a
string with a declared length has no characters of several bytes. -/
inductive HiveFits : Hive.HType → Val → Prop
  | other {t x} : (∀ s, x ≠ .str s) → (∀ ns, x ≠ .instant ns) → HiveFits t x
  | string {x} : HiveFits (.prim .string) (.str x)
  | narrow {t} {x : String} : x.utf8ByteSize = x.length → HiveFits t (.str x)
  | instant {t ns} : -9223372036854775808 ≤ ns → ns ≤ 9223372036854775807 → HiveFits t (.instant ns)

end Recap.Values
