import Verif.PgCatalog
import Verif.ValuesSpec

/-!
# Which columns a table of PostgreSQL has (C140)
-/

set_option autoImplicit false

namespace Recap.PgCatalog.Spec

open Recap.Relational Recap.Values

/-- What PostgreSQL guarantees about its catalogs: identifiers are unique, and what they refer to is there. -/
structure WellFormed (db : Database) : Prop where
  namespaces : db.namespaces.Pairwise (fun n m => n.oid ≠ m.oid ∧ n.name ≠ m.name)
  classes : db.classes.Pairwise (fun c d => c.oid ≠ d.oid ∧ ¬(c.ns = d.ns ∧ c.name = d.name))
  attributes : db.attributes.Pairwise (fun a b => ¬(a.rel = b.rel ∧ a.name = b.name) ∧ ¬(a.rel = b.rel ∧ a.num = b.num))
  types : db.types.Pairwise (fun t u => t.oid ≠ u.oid)
  typed : ∀ a ∈ db.attributes, a.dropped = false → ∃ t ∈ db.types, t.oid = a.typ

/-- The attribute is a column of the table, and the user may see it. -/
def ColumnOf (db : Database) (schema table : String) (a : Attribute) : Prop :=
  a ∈ db.attributes ∧ 0 < a.num ∧ a.dropped = false ∧ a.visible = true ∧
    ∃ c ∈ db.classes, ∃ n ∈ db.namespaces, a.rel = c.oid ∧ c.shown = true ∧ c.ns = n.oid ∧ n.name = schema ∧ c.name = table

/-- The columns of the table, in their order. -/
structure Columns (db : Database) (schema table : String) (as : List Attribute) : Prop where
  order : as.Pairwise (fun a b => a.num < b.num)
  all : ∀ a, a ∈ as ↔ ColumnOf db schema table a

/-- What `lower()` and `upper()` do to the words that the view uses. -/
def Plain (cm : CaseMap) : Prop :=
  cm.lower "USER-DEFINED" = "user-defined" ∧ cm.upper "YES" = "YES" ∧ cm.upper "NO" = "NO"

/-- The type of the column is an enum that a user has made. -/
def IsEnum (db : Database) (a : Attribute) : Prop :=
  ∃ t ∈ db.types, t.oid = a.typ ∧ t.kind = "e" ∧ t.array = false ∧ t.builtin = .none

/-- `s` is a label of the enum that is the type of the column. -/
def IsLabel (db : Database) (a : Attribute) (s : String) : Prop := ∃ l ∈ db.labels, l.typ = a.typ ∧ l.label = s

/-- The column can be null: neither it nor the domain that is its type is `NOT NULL`. -/
def MayBeNull (db : Database) (a : Attribute) : Prop :=
  a.notNull = false ∧ ∀ t ∈ db.types, t.oid = a.typ → t.kind = "d" → t.notNull = false

/-- The type of the column is one that a user has made, but not an enum: a composite type, a range, the type of an
extension, or a domain over such a type or over an enum. -/
def IsOther (db : Database) (a : Attribute) : Prop :=
  ∃ t ∈ db.types, t.oid = a.typ ∧ t.kind ≠ "e" ∧ (underlying db t).array = false ∧ (underlying db t).builtin = .none

/-- The labels of the enum in their order. -/
structure Ordered (db : Database) (a : Attribute) (ls : List Label) : Prop where
  order : ls.Pairwise (fun l m => l.order < m.order)
  all : ∀ l, l ∈ ls ↔ l ∈ db.labels ∧ l.typ = a.typ

/-- **C140**: the type that is read of a table has one field for each column of the table, in the order of the columns
and with their names, the fields for columns that can be null are nullable, and the field for a column with an enum has
its labels, in their order. -/
def TablesRead (cm : CaseMap) (cfg : PgConfig) : Prop :=
  ∀ (db : Database) (schema table : String) (rows : List Row) (reg reg' : Registry) (t : RType),
    WellFormed db → Answer db db.name schema table rows → pgSchema cm cfg rows reg = (.ok t, reg') →
    ∃ as fs, Columns db schema table as ∧ t = .struct fs {} ∧ fs.length = as.length ∧
      ∀ (i : Nat) a f, as[i]? = some a → fs[i]? = some f →
        Dict.get? f.attrs.extra "name" = some (.str a.name) ∧
        (MayBeNull db a → f.isNullable = true) ∧
        (IsEnum db a → a.notNull = true → ∀ ls, Ordered db a ls → ∃ attrs, f = .enum (.list (ls.map (.str ·.label))) attrs)

end Recap.PgCatalog.Spec
