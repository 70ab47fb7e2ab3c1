import Verif.Types

/-!
# The converters for relational databases

Model of `recap/converters/dbapi.py`, `mysql.py`, `postgresql.py`, `snowflake.py` and
`sqlite.py`.

A column is a Python `dict` of column properties.  A converter may have state (the
PostgreSQL converter keeps a type registry), so `_parse_type` is a function of the column and
the state, and the state is returned even when an exception is raised.

What is simplified:
* `str.upper` and `str.lower` are a parameter, so that the theorems hold whatever the Unicode
  tables say; only that they keep the empty string is assumed;
* the recursion limit of the interpreter is not modelled: `_create_n_dimension_list` with a
  negative or fractional count, which never ends, raises `unmodelled`;
* `int(s)` of a string with non-ASCII characters and `ceil(n / 8)` for `|n| ≥ 2^53` raise
  `unmodelled`.
-/

set_option autoImplicit false

namespace Recap.Relational

open RType

/-- Python's `str.upper` and `str.lower`. -/
structure CaseMap where
  upper : String → String
  lower : String → String
  upper_empty : upper "" = ""
  lower_empty : lower "" = ""

/-- The case maps restricted to ASCII, used in concrete examples. -/
def asciiCase : CaseMap where
  upper s := String.ofList (s.toList.map Char.toUpper)
  lower s := String.ofList (s.toList.map Char.toLower)
  upper_empty := by decide +kernel
  lower_empty := by decide +kernel

/-- `column[key]`. -/
def item (col : Dict) (key : String) : Except PyErr PyVal :=
  match Dict.get? col key with
  | some v => .ok v
  | .none => .error .keyError

/-- `v.f()` for a method `f` that only strings have. -/
def strMethod (f : String → String) : PyVal → Except PyErr String
  | .str s => .ok (f s)
  | _ => .error .attributeError

/-- `v or d`. -/
def orElse (v d : PyVal) : PyVal := if v.truthy then v else d

/-- `s.startswith(p)`. -/
def startsWith (s p : String) : Bool := p.toList.isPrefixOf s.toList

/-- `p in s` for strings. -/
def contains (s p : String) : Bool := isInfix p.toList s.toList

/-- `t.extra_attrs[key] = v`. -/
def setExtra (t : RType) (key : String) (v : PyVal) : RType :=
  t.withAttrs { t.attrs with extra := Dict.set t.attrs.extra key v }

/-! ## `DbapiConverter` -/

/-- `_parse_type(column)` of a converter with state `σ` (dbapi.py 28-30). -/
abbrev Parser (σ : Type) := Dict → σ → Except PyErr RType × σ

/-- The body of the loop of `to_recap` after the call of `_parse_type` (dbapi.py 13-22). -/
def fieldOf (cm : CaseMap) (col : Dict) (base : RType) : Except PyErr RType := do
  let n ← item col "IS_NULLABLE"
  let n ← strMethod cm.upper n
  let nullable := n == "YES"
  let base := if nullable then makeNullable base else base
  let dflt ← item col "COLUMN_DEFAULT"
  let base := if !dflt.isNone || nullable then setExtra base "default" dflt else base
  let name ← item col "COLUMN_NAME"
  pure (setExtra base "name" name)

/-- The loop of `to_recap` (dbapi.py 10-24). -/
def fieldsOf {σ : Type} (cm : CaseMap) (parse : Parser σ) :
    List Dict → σ → Except PyErr (List RType) × σ
  | [], st => (.ok [], st)
  | c :: cs, st =>
    match parse c st with
    | (.error e, st) => (.error e, st)
    | (.ok base, st) =>
      match fieldOf cm c base with
      | .error e => (.error e, st)
      | .ok f =>
        match fieldsOf cm parse cs st with
        | (.error e, st) => (.error e, st)
        | (.ok fs, st) => (.ok (f :: fs), st)

/-- `to_recap(columns)` (dbapi.py 9-26). -/
def toRecap {σ : Type} (cm : CaseMap) (parse : Parser σ) (cols : List Dict) (st : σ) :
    Except PyErr RType × σ :=
  match fieldsOf cm parse cols st with
  | (.error e, st) => (.error e, st)
  | (.ok fs, st) => (.ok (.struct fs {}), st)

/-- ASCII white space, as removed by `str.strip()` and skipped by `int()`. -/
def isSpace (c : Char) : Bool :=
  c = ' ' || (9 ≤ c.toNat && c.toNat ≤ 13) || (28 ≤ c.toNat && c.toNat ≤ 31)

/-- `s.strip()`, ASCII white space only. -/
def strip (s : List Char) : List Char :=
  ((s.dropWhile isSpace).reverse.dropWhile isSpace).reverse

/-- The digits of an integer literal, with single underscores between them. -/
def digits (acc : Nat) (afterDigit : Bool) : List Char → Option Nat
  | [] => if afterDigit then some acc else .none
  | c :: cs =>
    if c.isDigit then digits (10 * acc + (c.toNat - 48)) true cs
    else if c = '_' && afterDigit then digits acc false cs
    else .none

/-- `int(s)` for a string. -/
def intOfStr (s : String) : Except PyErr Int :=
  if s.toList.any (fun c => 128 ≤ c.toNat) then .error .unmodelled else
  let r := match strip s.toList with
    | '-' :: cs => (digits 0 false cs).map (fun n => -(n : Int))
    | '+' :: cs => (digits 0 false cs).map (fun n => (n : Int))
    | cs => (digits 0 false cs).map (fun n => (n : Int))
  match r with
  | some i => .ok i
  | .none => .error .valueError

/-- `int(v)`. -/
def toInt : PyVal → Except PyErr Int
  | .int i => .ok i
  | .bool b => .ok (boolInt b)
  | .float m e => .ok (m.tdiv (2 ^ e))
  | .str s => intOfStr s
  | _ => .error .typeError

/-- The shortest text up to a closing parenthesis, if no line break comes before it
(`(.*?)\)` in dbapi.py 36). -/
def upToParen : List Char → Option (List Char)
  | [] => .none
  | c :: cs =>
    if c = ')' then some []
    else if c = '\n' then .none
    else (upToParen cs).map (c :: ·)

/-- `re.search(r"\((.*?)\)", s)` and its first group (dbapi.py 36). -/
def searchParens : List Char → Option (List Char)
  | [] => .none
  | c :: cs =>
    if c = '(' then
      match upToParen cs with
      | some g => some g
      | .none => searchParens cs
    else searchParens cs

/-- `s.split(",")`. -/
def splitComma : List Char → List (List Char)
  | [] => [[]]
  | c :: cs =>
    if c = ',' then [] :: splitComma cs
    else match splitComma cs with
      | [] => [[c]]
      | w :: ws => (c :: w) :: ws

/-- `_parse_parameters(col_type)` (dbapi.py 32-39). -/
def parseParameters (s : String) : Option (List PyVal) :=
  (searchParens s.toList).map
    (fun g => (splitComma g).map (fun w => .str (String.ofList (strip w))))

/-- `_get_time_unit(params)` (dbapi.py 41-48). -/
def getTimeUnit (params : Option (List PyVal)) : Except PyErr (Option String) :=
  match params with
  | some (u :: _) => do
    let n ← toInt u
    if n = 0 then pure (some "second")
    else if n ≤ 3 then pure (some "millisecond")
    else if n ≤ 6 then pure (some "microsecond")
    else pure .none
  | _ => pure .none

/-- An integer type with a logical type and a unit, as built at mysql.py 61-65,
postgresql.py 83-87, snowflake.py 64, 68-72 and 76. -/
def timeType (bits : Int) (logical unit : String) : RType :=
  .int (.int bits) (.bool true) { logical := .str logical, extra := [("unit", .str unit)] }

/-- A decimal, as built at mysql.py 67-73, postgresql.py 89-95 and snowflake.py 38-44. -/
def decimalType (bytes : Int) (precision scale : PyVal) : RType :=
  .bytes (.int bytes) (.bool false)
    { logical := .str "build.recap.Decimal", extra := [("precision", precision), ("scale", scale)] }

/-! ## MySQL -/

/-- The `if` chain of `MysqlConverter._parse_type` (mysql.py 14-82).  The two tests of
`precision` at lines 29 and 32 are one test here. -/
def mysqlType (dt : String) (octet precision scale : PyVal) (col : Dict) : Except PyErr RType :=
  if dt == "bigint" then .ok (.int (.int 64) (.bool true) {})
  else if ["int", "integer"].contains dt then .ok (.int (.int 32) (.bool true) {})
  else if dt == "mediumint" then .ok (.int (.int 24) (.bool true) {})
  else if dt == "smallint" then .ok (.int (.int 16) (.bool true) {})
  else if dt == "tinyint" then .ok (.int (.int 8) (.bool true) {})
  else if dt == "double" then .ok (.float (.int 64) {})
  else if dt == "float" then
    (precision.gtInt 23).map (fun g => .float (.int (if g then 64 else 32)) {})
  else if ["text", "json", "mediumtext", "longtext", "tinytext"].contains dt
      || startsWith dt "varchar" then
    .ok (.string octet (.bool true) {})
  else if startsWith dt "char" || ["enum", "set"].contains dt then
    .ok (.string octet (.bool false) {})
  else if ["blob", "mediumblob", "longblob", "tinyblob"].contains dt
      || startsWith dt "varbinary" then
    .ok (.bytes octet (.bool true) {})
  else if startsWith dt "binary" then .ok (.bytes octet (.bool false) {})
  else if startsWith dt "bit" then .ok (.bytes (.int 8) (.bool false) {})
  else if startsWith dt "timestamp" || startsWith dt "datetime" then do
    let p ← item col "DATETIME_PRECISION"
    let u ← getTimeUnit (some [p])
    pure (timeType 64 "build.recap.Timestamp" (u.getD "microsecond"))
  else if ["dec", "decimal", "numeric"].contains dt then .ok (decimalType 32 precision scale)
  else if dt == "year" then .ok (.int (.int 16) (.bool false) {})
  else .error .valueError

/-- `MysqlConverter._parse_type` (mysql.py 8-82). -/
def mysqlParse (cm : CaseMap) (col : Dict) : Except PyErr RType := do
  let dt ← strMethod cm.lower (← item col "DATA_TYPE")
  let octet ← item col "CHARACTER_OCTET_LENGTH"
  let precision ← item col "NUMERIC_PRECISION"
  let scale ← item col "NUMERIC_SCALE"
  mysqlType dt octet precision scale col

/-! ## Snowflake -/

/-- The `if` chain of `SnowflakeConverter._parse_type` (snowflake.py 12-78). -/
def snowflakeType (dt : String) (octet : PyVal) (col : Dict) : Except PyErr RType :=
  if ["float", "float4", "float8", "double", "double precision", "real"].contains dt then
    .ok (.float (.int 64) {})
  else if dt == "boolean" then .ok (.bool {})
  else if ["number", "decimal", "numeric", "int", "integer", "bigint", "smallint", "tinyint",
        "byteint"].contains dt
      || startsWith dt "number" || startsWith dt "decimal" || startsWith dt "numeric" then do
    let precision ← item col "NUMERIC_PRECISION"
    let scale ← item col "NUMERIC_SCALE"
    pure (decimalType 16 (orElse precision (.int 38)) (orElse scale (.int 0)))
  else if startsWith dt "varchar" || startsWith dt "string" || startsWith dt "text"
      || startsWith dt "nvarchar" || startsWith dt "nvarchar2" || startsWith dt "char varying"
      || startsWith dt "nchar varying" then
    .ok (.string (orElse octet (.int 16777216)) (.bool true) {})
  else if startsWith dt "char" || startsWith dt "nchar" || startsWith dt "character" then
    .ok (.string (orElse octet (.int 1)) (.bool true) {})
  else if ["binary", "varbinary", "blob"].contains dt then
    .ok (.bytes (orElse octet (.int 8388608)) (.bool true) {})
  else if dt == "date" then .ok (timeType 32 "build.recap.Date" "day")
  else if startsWith dt "timestamp" || startsWith dt "datetime" then do
    let u ← getTimeUnit (parseParameters dt)
    pure (timeType 64 "build.recap.Timestamp" (u.getD "nanosecond"))
  else if startsWith dt "time" then do
    let u ← getTimeUnit (parseParameters dt)
    pure (timeType 32 "build.recap.Time" (u.getD "nanosecond"))
  else .error .valueError

/-- `SnowflakeConverter._parse_type` (snowflake.py 8-80). -/
def snowflakeParse (cm : CaseMap) (col : Dict) : Except PyErr RType := do
  let dt ← strMethod cm.lower (← item col "DATA_TYPE")
  let octet ← item col "CHARACTER_OCTET_LENGTH"
  snowflakeType dt octet col

/-! ## SQLite -/

/-- `SQLITE_MAX_LENGTH` (sqlite.py 16). -/
def sqliteMax : PyVal := .int 2147483647

/-- `SQLiteAffinity` (sqlite.py 19-29). -/
inductive Affinity where
  | integer | real | text | blob | numeric
deriving DecidableEq, Repr

/-- `SQLiteConverter.get_affinity` (sqlite.py 66-90). -/
def getAffinity (cm : CaseMap) (columnType : PyVal) : Except PyErr Affinity := do
  let t ← strMethod cm.upper (orElse columnType (.str ""))
  if t = "" then pure .blob
  else if contains t "INT" then pure .integer
  else if contains t "CHAR" || contains t "TEXT" || contains t "CLOB" then pure .text
  else if contains t "BLOB" then pure .blob
  else if contains t "REAL" || contains t "FLOA" || contains t "DOUB" then pure .real
  else pure .numeric

/-- `SQLiteConverter._parse_type` (sqlite.py 33-64).  The last case of the `match` cannot be
reached. -/
def sqliteParse (cm : CaseMap) (col : Dict) : Except PyErr RType := do
  let _ ← item col "COLUMN_NAME"
  let columnType ← item col "TYPE"
  let octet ← item col "CHARACTER_OCTET_LENGTH"
  let precision ← item col "NUMERIC_PRECISION"
  match ← getAffinity cm columnType with
  | .integer => pure (.int (.int 64) (.bool true) {})
  | .real =>
    if precision.truthy then
      (precision.gtInt 23).map (fun g => .float (.int (if g then 64 else 32)) {})
    else pure (.float (.int 64) {})
  | .text => pure (.string (orElse octet sqliteMax) (.bool true) {})
  | .blob => pure (.bytes (orElse octet sqliteMax) (.bool true) {})
  | .numeric =>
    pure (.union
      [.null {}, .int (.int 64) (.bool true) {}, .float (.int 64) {},
        .string sqliteMax (.bool true) {}, .bytes sqliteMax (.bool true) {}] {})

/-! ## PostgreSQL -/

/-- `MAX_FIELD_SIZE` (postgresql.py 20). -/
def pgMax : Int := 1073741824

/-- The constructor arguments of `PostgresqlConverter` (postgresql.py 29-33). -/
structure PgConfig where
  enforce : Bool := false
  ns : String := "_root"

/-- `ceil(v / 8)` (postgresql.py 78).  For `|n| < 2^53` the float quotient is exact. -/
def ceilDiv8 : PyVal → Except PyErr PyVal
  | .int i => if i.natAbs < 2 ^ 53 then .ok (.int (-((-i) / 8))) else .error .unmodelled
  | .bool b => .ok (.int (boolInt b))
  | .float m e => .ok (.int (-((-m) / 2 ^ (e + 3))))
  | _ => .error .typeError

/-- The local variables of `PostgresqlConverter._parse_type` (postgresql.py 42-47). -/
structure PgProps where
  name : PyVal
  dataType : String
  octet : PyVal
  maxLength : PyVal
  udt : String
  ndims : PyVal

/-- Reading the column properties (postgresql.py 42-47). -/
def pgProps (cm : CaseMap) (col : Dict) : Except PyErr PgProps := do
  let name ← item col "COLUMN_NAME"
  let dt ← strMethod cm.lower (← item col "DATA_TYPE")
  let octet ← item col "CHARACTER_OCTET_LENGTH"
  let maxLength ← item col "CHARACTER_MAXIMUM_LENGTH"
  let udt ← strMethod cm.lower (orElse (← item col "UDT_NAME") (.str ""))
  let ndims ← item col "ATTNDIMS"
  pure { name := name, dataType := dt, octet := octet, maxLength := maxLength, udt := udt,
         ndims := ndims }

/-- The `if` chain of `PostgresqlConverter._parse_type` without the case of arrays
(postgresql.py 49-95 and 142-147). -/
def pgScalar (dt : String) (octet maxLength : PyVal) (col : Dict) : Except PyErr RType :=
  if ["bigint", "int8", "bigserial", "serial8"].contains dt then
    .ok (.int (.int 64) (.bool true) {})
  else if ["integer", "int", "int4", "serial", "serial4"].contains dt then
    .ok (.int (.int 32) (.bool true) {})
  else if ["smallint", "smallserial", "serial2"].contains dt then
    .ok (.int (.int 16) (.bool true) {})
  else if ["double precision", "float8"].contains dt then .ok (.float (.int 64) {})
  else if ["real", "float4"].contains dt then .ok (.float (.int 32) {})
  else if dt == "boolean" then .ok (.bool {})
  else if ["text", "json", "jsonb"].contains dt || startsWith dt "character varying"
      || startsWith dt "varchar" then
    .ok (.string octet (.bool true) {})
  else if startsWith dt "char" then .ok (.string octet (.bool false) {})
  else if dt == "uuid" then
    .ok (.string (.int 36) (.bool false) { logical := .str "build.recap.UUID" })
  else if dt == "bytea" || startsWith dt "bit varying" then
    .ok (.bytes (.int pgMax) (.bool true) {})
  else if startsWith dt "bit" then
    (ceilDiv8 maxLength).map (fun b => .bytes b (.bool false) {})
  else if startsWith dt "timestamp" then do
    let p ← item col "DATETIME_PRECISION"
    let u ← getTimeUnit (some [p])
    pure (timeType 64 "build.recap.Timestamp" (u.getD "microsecond"))
  else if startsWith dt "decimal" || startsWith dt "numeric" then do
    let precision ← item col "NUMERIC_PRECISION"
    let scale ← item col "NUMERIC_SCALE"
    pure (decimalType 32 precision scale)
  else if dt == "user-defined" then do
    let symbols ← item col "ENUM_VALUES"
    if symbols.truthy then pure (.enum symbols {}) else .error .valueError
  else .error .valueError

/-- The column properties for the elements of an array (postgresql.py 103-117). -/
def pgElement (dataType : String) : Dict :=
  [("COLUMN_NAME", .none), ("DATA_TYPE", .str dataType),
    ("CHARACTER_OCTET_LENGTH", .int pgMax), ("CHARACTER_MAXIMUM_LENGTH", .int (pgMax * 8)),
    ("UDT_NAME", .none), ("ATTNDIMS", .int 0)]

/-- `s.lstrip("_")`. -/
def lstripUnderscore (s : String) : String := String.ofList (s.toList.dropWhile (· == '_'))

/-- `s.replace(".", "_")`. -/
def replaceDots (s : String) : String :=
  String.ofList (s.toList.map (fun c => if c = '.' then '_' else c))

/-- `_create_n_dimension_list` for a natural number of dimensions (postgresql.py 151-160). -/
def nDimList (base : RType) : Nat → RType
  | 0 => .union [.null {}, base] {}
  | n + 1 => .list (nDimList base n) .none (.bool true) {}

/-- `_create_n_dimension_list` (postgresql.py 151-160).  For a negative or fractional count
the recursion never ends. -/
def createNDim (base : RType) : PyVal → Except PyErr RType
  | .int i => if i < 0 then .error .unmodelled else .ok (nDimList base i.toNat)
  | .bool b => .ok (nDimList base (boolInt b).toNat)
  | .float _ _ => .error .unmodelled
  | _ => .error .typeError

/-- The self-referencing list for an array column (postgresql.py 122-141). -/
def selfList (alias : String) (value : RType) : RType :=
  .list (.union [value, .proxy .none { alias := .str alias }] {}) .none (.bool true)
    { alias := .str alias }

/-- The case of an array without enforced dimensions (postgresql.py 122-141). -/
def pgSelfArray (cfg : PgConfig) (name : PyVal) (value : RType) (reg : Registry) :
    Except PyErr RType × Registry :=
  match name with
  | .str s =>
    let t := selfList (cfg.ns ++ "." ++ replaceDots s) value
    match reg.registerAlias t with
    | .error e => (.error e, reg)
    | .ok reg => (.ok t, reg)
  | _ => (.error .attributeError, reg)

/-- `PostgresqlConverter._parse_type` (postgresql.py 41-149), with fuel for the recursion at
line 102.  The state is `self.registry`. -/
def pgParseFuel (cm : CaseMap) (cfg : PgConfig) : Nat → Parser Registry
  | 0, _, reg => (.error .fuel, reg)
  | n + 1, col, reg =>
    match pgProps cm col with
    | .error e => (.error e, reg)
    | .ok p =>
      if p.dataType = "array" then
        match pgParseFuel cm cfg n (pgElement (lstripUnderscore p.udt)) reg with
        | (.error e, reg) => (.error e, reg)
        | (.ok value, reg) =>
          if cfg.enforce then (createNDim value p.ndims, reg)
          else pgSelfArray cfg p.name value reg
      else (pgScalar p.dataType p.octet p.maxLength col, reg)

/-- `PostgresqlConverter._parse_type`.  The element of an element has the data type `""`, so
the recursion stops at depth three. -/
def pgParse (cm : CaseMap) (cfg : PgConfig) : Parser Registry := pgParseFuel cm cfg 3

/-! ## All dialects -/

/-- The four converters. -/
inductive Dialect where
  | mysql
  | snowflake
  | sqlite
  | postgresql (cfg : PgConfig)

/-- `_parse_type` of a converter without state. -/
def stateless (parse : Dict → Except PyErr RType) : Parser Registry := fun col reg =>
  (parse col, reg)

/-- `_parse_type` of each converter.  Only PostgreSQL uses the registry. -/
def Dialect.parse (cm : CaseMap) : Dialect → Parser Registry
  | mysql => stateless (mysqlParse cm)
  | snowflake => stateless (snowflakeParse cm)
  | sqlite => stateless (sqliteParse cm)
  | postgresql cfg => pgParse cm cfg

/-- `converter.to_recap(columns)`, with the state of the converter before and after. -/
def Dialect.toRecap (cm : CaseMap) (d : Dialect) (cols : List Dict) (reg : Registry) :
    Except PyErr RType × Registry :=
  Relational.toRecap cm (d.parse cm) cols reg

end Recap.Relational
