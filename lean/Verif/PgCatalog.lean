import Verif.Relational

/-!
# Reading a table of PostgreSQL from the catalogs

Model of the query that `PostgresqlClient.schema` sends (postgresql.py 87-131), against the catalogs of a database.

The rows of a catalog are lists.  The order of the rows of a query is that of `ORDER BY` only, and the order in which
`array_agg` collects labels is not specified: both are arbitrary here.

What is simplified: of the catalogs only the columns that the query and the view `information_schema.columns` use are
modelled, and of the view only those that the client or the converter uses; what the view derives from type modifiers
(lengths, digits and precisions) is given with the attribute.
-/

set_option autoImplicit false

namespace Recap.PgCatalog

open Recap.Relational

/-! ## The catalogs -/

/-- A row of `pg_namespace`: a schema. -/
structure Namespace where
  oid : Nat
  name : String

/-- A row of `pg_class`: a table, a view, an index and so on.  `shown` says whether `relkind` is one of those that
the view `information_schema.columns` shows (tables, views, foreign and partitioned tables). -/
structure Class where
  oid : Nat
  name : String
  ns : Nat
  shown : Bool

/-- A row of `pg_type`.  `kind` is `typtype`, `base` is `typbasetype`, `array` says whether it is an array type,
`builtin` is the name that `format_type` gives to a type of the schema `pg_catalog`. -/
structure Typ where
  oid : Nat
  name : String
  kind : String
  base : Nat
  array : Bool
  notNull : Bool
  builtin : Option String
deriving DecidableEq

/-- A row of `pg_attribute`: a column of a table.  `visible` says whether the user has a privilege for it. -/
structure Attribute where
  rel : Nat
  name : String
  typ : Nat
  num : Int
  ndims : Int
  dropped : Bool
  visible : Bool
  notNull : Bool
  default : PyVal
  maxLength : PyVal
  octetLength : PyVal
  numericPrecision : PyVal
  numericScale : PyVal
  datetimePrecision : PyVal
deriving DecidableEq

/-- A row of `pg_enum`: a label of an enum. -/
structure Label where
  typ : Nat
  label : String
  order : Int

/-- The catalogs of a database. -/
structure Database where
  name : String
  namespaces : List Namespace
  classes : List Class
  attributes : List Attribute
  types : List Typ
  labels : List Label

/-! ## `information_schema.columns` -/

/-- A row of `information_schema.columns`. -/
structure Col where
  catalog : String
  schema : String
  table : String
  name : String
  position : Int
  default : PyVal
  nullable : Bool
  dataType : String
  udtName : String
  attr : Attribute
deriving DecidableEq

/-- The type under a domain, and otherwise the type itself. -/
def underlying (db : Database) (t : Typ) : Typ :=
  if t.kind = "d" then (db.types.find? (fun b => b.oid = t.base)).getD t else t

/-- `data_type` (information_schema.sql of PostgreSQL). -/
def dataType (t : Typ) : String :=
  if t.array then "ARRAY" else t.builtin.getD "USER-DEFINED"

/-- The row of the view for a column. -/
def viewRow (db : Database) (a : Attribute) (c : Class) (n : Namespace) (t : Typ) : Col :=
  { catalog := db.name, schema := n.name, table := c.name, name := a.name, position := a.num, default := a.default,
    nullable := !(a.notNull || (t.kind == "d" && t.notNull)), dataType := dataType (underlying db t),
    udtName := (underlying db t).name, attr := a }

/-- The view `information_schema.columns` of PostgreSQL. -/
def columnsView (db : Database) : List Col :=
  db.attributes.flatMap fun a => db.classes.flatMap fun c => db.namespaces.flatMap fun n => db.types.flatMap fun t =>
    if a.rel = c.oid ∧ c.ns = n.oid ∧ a.typ = t.oid ∧ 0 < a.num ∧ a.dropped = false ∧ c.shown = true ∧ a.visible = true then
      [viewRow db a c n t]
    else []

/-! ## The query -/

/-- `LEFT JOIN`: the rows that match, or nothing if no row does. -/
def leftJoin {α : Type} (l : List α) (p : α → Bool) : List (Option α) :=
  match l.filter p with
  | [] => [.none]
  | x :: xs => (x :: xs).map some

/-- `SELECT enumtypid, array_agg(enumlabel) … GROUP BY enumtypid` (postgresql.py 111-117): one row for each type, with
its labels in any order. -/
structure Groups (labels : List Label) (gs : List (Nat × List String)) : Prop where
  once : gs.Pairwise (fun g h => g.1 ≠ h.1)
  types : ∀ typ, (∃ g ∈ gs, g.1 = typ) ↔ ∃ l ∈ labels, l.typ = typ
  all : ∀ g ∈ gs, g.2.Perm ((labels.filter (fun l => l.typ = g.1)).map (·.label))

/-- A row of the result. -/
structure Row where
  col : Col
  ndims : Int
  enumValues : Option (List String)
deriving DecidableEq

/-- `FROM`, `JOIN` and `WHERE` (postgresql.py 95-120). -/
def joined (db : Database) (gs : List (Nat × List String)) (catalog schema table : String) : List Row :=
  (columnsView db).flatMap fun i =>
    db.namespaces.flatMap fun n => db.classes.flatMap fun c => db.attributes.flatMap fun a =>
      if n.name = i.schema ∧ c.name = i.table ∧ c.ns = n.oid ∧ a.rel = c.oid ∧ a.name = i.name ∧
          i.table = table ∧ i.schema = schema ∧ i.catalog = catalog then
        (leftJoin db.types (fun t => t.oid == a.typ && t.kind == "e")).flatMap fun t =>
          (leftJoin gs (fun g => some g.1 == t.map (·.oid))).map fun g =>
            { col := i, ndims := a.ndims, enumValues := g.map (·.2) }
      else []

/-- The rows that `fetchall()` can return: `ORDER BY ordinal_position ASC` (postgresql.py 121). -/
def Answer (db : Database) (catalog schema table : String) (rows : List Row) : Prop :=
  ∃ gs, Groups db.labels gs ∧ rows.Perm (joined db gs catalog schema table) ∧
    rows.Pairwise (fun r s => r.col.position ≤ s.col.position)

/-- `dict(zip(names, row))` (postgresql.py 125-129), as far as the converter uses it. -/
def Row.dict (r : Row) : Dict :=
  [("TABLE_CATALOG", .str r.col.catalog), ("TABLE_SCHEMA", .str r.col.schema), ("TABLE_NAME", .str r.col.table),
    ("COLUMN_NAME", .str r.col.name), ("ORDINAL_POSITION", .int r.col.position), ("COLUMN_DEFAULT", r.col.default),
    ("IS_NULLABLE", .str (if r.col.nullable then "YES" else "NO")), ("DATA_TYPE", .str r.col.dataType),
    ("CHARACTER_MAXIMUM_LENGTH", r.col.attr.maxLength), ("CHARACTER_OCTET_LENGTH", r.col.attr.octetLength),
    ("NUMERIC_PRECISION", r.col.attr.numericPrecision), ("NUMERIC_SCALE", r.col.attr.numericScale),
    ("DATETIME_PRECISION", r.col.attr.datetimePrecision), ("UDT_NAME", .str r.col.udtName),
    ("ATTNDIMS", .int r.ndims),
    ("ENUM_VALUES", match r.enumValues with | .none => .none | some ls => .list (ls.map .str))]

/-- What `PostgresqlClient.schema(catalog, schema, table)` does with the rows (postgresql.py 126-130). -/
def pgSchema (cm : CaseMap) (cfg : PgConfig) (rows : List Row) (reg : Registry) : Except PyErr RType × Registry :=
  (Dialect.postgresql cfg).toRecap cm (rows.map Row.dict) reg

end Recap.PgCatalog
