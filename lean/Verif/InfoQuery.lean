import Verif.Relational

/-!
# The query for the columns of a MySQL or Snowflake table

Model of `schema` of the clients for MySQL and Snowflake: the query on `information_schema.columns`, and what is made
of its rows.

What is simplified: of the view, a row has the names of the table it belongs to, its position, and the other cells by
the name of the column of the view; a position is a number and the names are never null.
-/

set_option autoImplicit false

namespace Recap.InfoQuery

open Recap.Relational

/-- A row of `information_schema.columns`; `cell` gives the cells by the name of the column of the view in capitals. -/
structure InfoRow where
  catalog : String
  schema : String
  table : String
  position : Int
  cell : String → PyVal

/-- The view of a server: the names of its columns, in capitals and in their order, how the server spells them in
`cursor.description`, and the rows. -/
structure View where
  names : List String
  spelling : String → String
  rows : List InfoRow

/-- Which rows the condition of the query selects (clients/dbapi.py 94-96), where `same` is how the server compares
names.  The arguments are in the order of the placeholders (99). -/
def selected (same : String → String → Bool) (view : View) (table schema catalog : String) : List InfoRow :=
  view.rows.filter fun r => same r.table table && same r.schema schema && same r.catalog catalog

/-- What `cursor.fetchall()` can return: the rows that are selected, in the order of `ordinal_position`
(clients/dbapi.py 97).  The order of the rows of the view, and of rows with the same position, is the server's choice. -/
structure Answer (same : String → String → Bool) (view : View) (catalog schema table : String) (out : List InfoRow) : Prop where
  rows : out.Perm (selected same view table schema catalog)
  order : out.Pairwise fun a b => a.position ≤ b.position

/-- `[name[0].upper() for name in cursor.description]` (clients/dbapi.py 102). -/
def headers (cm : CaseMap) (view : View) : List String := view.names.map fun n => cm.upper (view.spelling n)

/-- `dict(zip(names, row))` (clients/dbapi.py 105): of keys that occur twice the last value counts, at the first place. -/
def zipDict (names : List String) (row : List PyVal) : Dict :=
  (names.zip row).foldl (fun d kv => Dict.set d kv.1 kv.2) []

/-- The dictionary for a row of the result of `SELECT *` (clients/dbapi.py 92, 105). -/
def rowDict (cm : CaseMap) (view : View) (r : InfoRow) : Dict := zipDict (headers cm view) (view.names.map r.cell)

/-- `schema(catalog, schema, table)` of the client for a dialect, for the rows that the server returned
(clients/dbapi.py 88-106). -/
def clientSchema (cm : CaseMap) (d : Dialect) (view : View) (out : List InfoRow) (reg : Registry) :
    Except PyErr RType × Registry :=
  d.toRecap cm (out.map (rowDict cm view)) reg

/-- `MYSQL_CATALOG_NAME` (clients/mysql.py 10). -/
def mysqlCatalog : String := "def"

/-- What the server can return to `schema(schema, table)` of the MySQL client (clients/mysql.py 70-71). -/
def MysqlAnswer (same : String → String → Bool) (view : View) (schema table : String) (out : List InfoRow) : Prop :=
  Answer same view mysqlCatalog schema table out

end Recap.InfoQuery
