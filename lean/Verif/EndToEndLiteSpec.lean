import Verif.EndToEndSpec
import Verif.ListedSpec
import Verif.Listed
import Verif.ClientsThms4

/-!
# From the URL of a table of SQLite to its rows (C150)

What a client of SQLite is told about a file is from `Listed.lean`: a file has tables and views, and `PRAGMA table_info`
gives rows for them.  Here the rows are those of declared columns.
-/

set_option autoImplicit false

namespace Recap.EndToEnd

open Recap.Url Recap.Url.Spec Recap.Clients Recap.Clients.Spec Recap.Commands Recap.Commands.Spec Recap.Relational
open Recap.JsonText Recap.JsonText.Spec Recap.Values Recap.Spec Recap.Listed
open Recap.JsonData (Valid Interprets)
open Recap.Rows (Written)
open Recap.Avro.Spec (IntValue)

/-- A column as it is declared.  `key` is its position in the primary key, from 1, or 0. -/
structure LiteColumn where
  name : String
  type : String
  notNull : Bool := false
  default : Option String := .none
  key : Nat := 0

/-- A table as it is declared. -/
structure LiteTable where
  name : String
  columns : List LiteColumn
  withoutRowid : Bool := false

/-- A database file.  Of a view only its name is of interest. -/
structure LiteFile where
  tables : List LiteTable
  views : List String

/-- The row of `PRAGMA table_info` for a column (https://www.sqlite.org/pragma.html#pragma_table_info). -/
def LiteColumn.info (c : LiteColumn) (cid : Nat) : Dict :=
  [("CID", .int cid), ("NAME", .str c.name), ("TYPE", .str c.type), ("NOTNULL", .int (if c.notNull then 1 else 0)),
    ("DFLT_VALUE", match c.default with | some s => .str s | .none => .none), ("PK", .int c.key)]

/-- What a client is told about a table. -/
def LiteTable.object (t : LiteTable) : Object :=
  ⟨t.name.toList, true, t.columns.mapIdx fun i c => c.info i⟩

/-- What a client is told about a file. -/
def LiteFile.objects (f : LiteFile) : List Object :=
  f.tables.map LiteTable.object ++ f.views.map fun v => ⟨v.toList, false, []⟩

/-- The client of Recap for SQLite opens these files: what it makes of a table is what `sqliteRead` makes of the file.
`reserved` are the reserved words of SQLite. -/
def BehindLite (cm : CaseMap) (reserved : Chars → Bool) (files : String → LiteFile) (w : World) : Prop :=
  ∀ kwargs file table, Dict.get? kwargs "database" = some (.str file) →
    match sqliteRead cm reserved (files file).objects table.toList with
    | .ok t => w.type .sqlite kwargs (.sqliteTable (.str table)) = .ok (t, newRegistry)
    | .error _ => ∃ e, w.type .sqlite kwargs (.sqliteTable (.str table)) = .error e

/-- The URL `sqlite:///…/file/table` of a table whose name is an ordinary identifier, and the configured URLs: they are
written as URLs are, and those for SQLite have no query and no fragment. -/
structure OrdinaryLite (s : System) (confs : List Parts) (file : List Chars) (table : String) : Prop where
  urls : s.urls = confs.map render
  known : ∀ c ∈ confs, Url.Spec.WellFormed s.env c
  plain : ∀ c ∈ confs, c.scheme = "sqlite".toList → c.query = [] ∧ c.fragment = []
  nonempty : file ≠ []
  names : GoodNames (file ++ [table.toList])
  fileUrl : Url.Spec.WellFormed s.env (sqliteUrl file)
  url : Url.Spec.WellFormed s.env (sqliteUrl (file ++ [table.toList]))
  identifier : Listed.Spec.Ordinary table.toList

/-- A column can be null unless it is declared NOT NULL, or is in the primary key of a table WITHOUT ROWID, or is the only
column of the primary key and declared INTEGER.  Any other column of a primary key can be null
(https://www.sqlite.org/lang_createtable.html, section 3.5). -/
def CanBeNull (cm : CaseMap) (t : LiteTable) (c : LiteColumn) : Prop :=
  c.notNull = false ∧ (c.key = 0 ∨ t.withoutRowid = false ∧
    ¬(cm.upper c.type = "INTEGER" ∧ ∀ d ∈ t.columns, d.key = 0 ∨ d = c))

/-- What is stored in a column of a table, as in `Values.SQLite`. -/
inductive LiteStored (cm : CaseMap) (t : LiteTable) (c : LiteColumn) : Val → Prop
  | null : CanBeNull cm t c → LiteStored cm t c .null
  | int {i} : ¬HasAffinity (cm.upper c.type) .text → ¬HasAffinity (cm.upper c.type) .real → IntValue 64 true i →
      LiteStored cm t c (.int i)
  | real : ¬HasAffinity (cm.upper c.type) .text → LiteStored cm t c (.float 64)
  | text {s : String} : s.utf8ByteSize ≤ 2147483647 → LiteStored cm t c (.str s)
  | blob {n} : n ≤ 2147483647 → LiteStored cm t c (.bytes n)

/-- The row is one that the table can have. -/
def LiteRow (cm : CaseMap) (t : LiteTable) (xs : List Val) : Prop :=
  t.columns.length = xs.length ∧ ∀ (i : Nat) c x, t.columns[i]? = some c → xs[i]? = some x → LiteStored cm t c x

/-- The JSON object is the row.  If `leave`, columns that are null are left out, otherwise they are null. -/
def LiteObject (leave : Bool) (t : LiteTable) (xs : List Val) (o : Dict) : Prop :=
  ∀ (i : Nat) c x, t.columns[i]? = some c → xs[i]? = some x →
    (leave = true ∧ x = .null ∧ Dict.get? o c.name = .none) ∨
      (¬(leave = true ∧ x = .null) ∧ ∃ j, Dict.get? o c.name = some j ∧ Written x j)

/-- What SQLite guarantees about a file and, beyond that, that all columns of the table have a name. -/
structure SoundLite (f : LiteFile) (t : LiteTable) : Prop where
  distinct : Listed.Spec.Distinct f.objects
  named : ∀ c ∈ t.columns, c.name ≠ ""

/-- The value goes with the affinity of its column, which is not NUMERIC. -/
inductive LiteAgrees (cm : CaseMap) (c : LiteColumn) : Val → Prop
  | null : LiteAgrees cm c .null
  | int {i} : HasAffinity (cm.upper c.type) .integer → LiteAgrees cm c (.int i)
  | real {n} : HasAffinity (cm.upper c.type) .real → LiteAgrees cm c (.float n)
  | text {s} : HasAffinity (cm.upper c.type) .text ∨ HasAffinity (cm.upper c.type) .blob → LiteAgrees cm c (.str s)
  | blob {n} : HasAffinity (cm.upper c.type) .text ∨ HasAffinity (cm.upper c.type) .blob → LiteAgrees cm c (.bytes n)

/-- **C150** for SQLite: what `recap schema` prints as JSON Schema for the URL of a table is a JSON text of a schema
against which all rows of that table are valid. -/
def LitePrintedForRows (F : Floats) (cm : CaseMap) (reserved : Chars → Bool) (leave : Bool) : Prop :=
  ∀ (files : String → LiteFile) (s : System) (confs : List Parts) (file : List Chars) (table : String) (p : Printed),
    BehindLite cm reserved files s.world → OrdinaryLite s confs file table →
    recapSchema F s (render (sqliteUrl (file ++ [table.toList]))) .json = .ok p →
    ∀ t ∈ (files (String.ofList (joinWith '/' file))).tables, t.name = table →
      SoundLite (files (String.ofList (joinWith '/' file))) t →
      ∃ text js, p = .text text ∧ IsJson F (.dict js) text ∧ (∀ v, IsJson F v text → v = .dict js) ∧
        ∀ refs xs o, Interprets refs js → LiteRow cm t xs → LiteObject leave t xs o → Valid refs (.dict js) (.dict o)

end Recap.EndToEnd
