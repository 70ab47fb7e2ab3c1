import Verif.SqliteClient
import Verif.Clients

/-!
# Listing the tables of a database and reading them

Model of `ls` and `schema` of the SQLite client against a database file, of those of the client of a
Confluent registry against a registry, and of the queries that `ls_tables` and `schema` of the other
relational clients send to `information_schema`.

What is simplified: of a database file only the objects with columns (tables and views) and the rows
that `PRAGMA table_info` gives for them are modelled; of SQLite's grammar only how the text between
the parentheses of the `PRAGMA` is read.  Texts that could end the statement early (`)`) or begin a
comment (`--`, `/*`) are refused as `unmodelled`, and no theorem speaks about them.
-/

set_option autoImplicit false

namespace Recap.Listed

open Recap.Url Recap.Relational

/-! ## SQLite -/

/-- A table or a view of a database file, with the rows that `PRAGMA table_info` gives for it. -/
structure Object where
  name : Chars
  isTable : Bool
  rows : List Dict

/-- `SELECT name FROM sqlite_schema WHERE type='table'` (sqlite.py 75-78). -/
def sqliteLs (file : List Object) : List Chars := (file.filter (·.isTable)).map (·.name)

/-- `_table_exists(table)` (sqlite.py 143-148): the comparison is exact. -/
def tableExists (file : List Object) (table : Chars) : Bool :=
  file.any (fun o => o.isTable && o.name == table)

/-- What reading a table can raise. -/
inductive ReadErr where
  /-- `ValueError`: the table does not exist. -/
  | missing
  /-- `sqlite3.OperationalError`: the statement is not SQL. -/
  | syntaxError
  /-- An exception of the converter. -/
  | converter (e : PyErr)
  /-- Not modelled. -/
  | unmodelled
deriving DecidableEq, Repr

/-- A character that an identifier of SQL can begin with (SQLite, tokenize.c). -/
def idStart (c : Char) : Bool := c.isAlpha || c == '_' || 128 ≤ c.toNat

/-- A character of an identifier. -/
def idChar (c : Char) : Bool := c.isAlphanum || c == '_' || c == '$' || 128 ≤ c.toNat

/-- White space of SQL. -/
def sqlSpace (c : Char) : Bool := c == ' ' || c == '\t' || c == '\n' || c == '\r' || c == '\x0c'

/-- What follows the name must be the closing parenthesis: white space is skipped, anything else is
an error. -/
def closes : Chars → Except ReadErr Unit
  | [] => .ok ()
  | c :: cs =>
    if sqlSpace c then closes cs
    else if c == ')' || c == '-' || c == '/' then .error .unmodelled
    else .error .syntaxError

/-- The text of a quoted name, in which a doubled quote stands for itself, and what follows it.
Without a closing quote the statement is not SQL. -/
def quoted (q : Char) : Chars → Except ReadErr (Chars × Chars)
  | [] => .error .syntaxError
  | [c] => if c == q then .ok ([], []) else .error .syntaxError
  | c :: d :: cs =>
    if c == q then
      if d == q then do
        let (name, rest) ← quoted q cs
        pure (q :: name, rest)
      else .ok ([], d :: cs)
    else do
      let (name, rest) ← quoted q (d :: cs)
      pure (c :: name, rest)

/-- The name that SQLite reads between the parentheses of `PRAGMA table_info({table});`
(sqlite.py 89): an identifier that is not a reserved word, a quoted name, or an integer. -/
def pragmaName (reserved : Chars → Bool) (text : Chars) : Except ReadErr Chars :=
  match text with
  | [] => .error .syntaxError
  | c :: cs =>
    if c == '"' || c == '`' || c == '\'' then do
      let (name, rest) ← quoted c cs
      closes rest
      pure name
    else if idStart c then
      let word := text.takeWhile idChar
      if reserved word then .error .syntaxError
      else do
        closes (text.dropWhile idChar)
        pure word
    else if c.isDigit then
      if text.all Char.isDigit then .ok text else .error .unmodelled
    else .error .unmodelled

/-- ASCII letters are compared without regard to case. -/
def sameName (a b : Chars) : Bool := a.map Char.toLower == b.map Char.toLower

/-- The rows of `PRAGMA table_info(name)`: those of the table or view with that name, and none when
there is no such object. -/
def tableInfo (file : List Object) (name : Chars) : List Dict :=
  match file.find? (fun o => sameName o.name name) with
  | some o => o.rows
  | .none => []

/-- `SQLiteClient.schema(table)` (sqlite.py 80-97). -/
def sqliteRead (cm : CaseMap) (reserved : Chars → Bool) (file : List Object) (table : Chars) :
    Except ReadErr RType :=
  if tableExists file table then do
    let name ← pragmaName reserved table
    match sqliteSchema cm (tableInfo file name) with
    | .ok t => .ok t
    | .error e => .error (.converter e)
  else .error .missing

/-! ## A Confluent registry -/

/-- The latest schemas of a registry, by subject. -/
abbrev Subjects (σ : Type) := List (Chars × σ)

/-- `get_subjects()` (confluent_registry.py 60-61). -/
def subjects {σ : Type} (reg : Subjects σ) : List Chars := reg.map (·.1)

/-- `get_latest_version(subject)` of the subject that `schema(subject)` asks for
(confluent_registry.py 63-66); nothing when the registry has no such subject. -/
def latest {σ : Type} (reg : Subjects σ) (subject : Chars) : Option σ :=
  reg.lookup (Clients.subjectOf subject)

/-! ## `information_schema` -/

/-- A row of `information_schema.columns`: the table it belongs to and the row. -/
structure Column where
  catalog : String
  schema : String
  table : String
  row : Dict

/-- The rows of `information_schema` that the clients ask for: of `tables`, and of `columns` in the
order of `ordinal_position`. -/
structure InfoSchema where
  tables : List (String × String × String)
  columns : List Column

/-- `ls_tables(catalog, schema)` (dbapi.py 75-86), and the other levels left out. -/
def namesOf (db : InfoSchema) : Clients.Listing → List String
  | .tables catalog schema =>
    (db.tables.filter (fun t => t.1 == catalog && t.2.1 == schema)).map (·.2.2)
  | _ => []

/-- The rows that `schema(catalog, schema, table)` selects (dbapi.py 88-100), with the arguments in
the order of the placeholders. -/
def rowsOf (db : InfoSchema) : Clients.Source → List Dict
  | .table (.str catalog) (.str schema) (.str table) =>
    (db.columns.filter (fun c => c.table == table && c.schema == schema &&
      c.catalog == catalog)).map (·.row)
  | _ => []

end Recap.Listed
