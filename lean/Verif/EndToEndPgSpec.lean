import Verif.EndToEndSpec
import Verif.PgCatalogSpec

/-!
# From the URL of a table of PostgreSQL to its rows (C150)

What is in the catalogs of a database is from `PgCatalog.lean` and `PgCatalogSpec.lean`.
-/

set_option autoImplicit false

namespace Recap.EndToEnd

open Recap.Url Recap.Url.Spec Recap.Clients Recap.Clients.Spec Recap.Commands Recap.Commands.Spec Recap.Relational
open Recap.JsonText Recap.JsonText.Spec
open Recap.PgCatalog (Database Attribute Typ Label underlying dataType pgSchema Answer)
open Recap.PgCatalog.Spec (MayBeNull ColumnOf)

/-- The client of Recap for PostgreSQL talks to these servers: for the arguments of its driver, `dbs` is the database that
it is connected to.  The converter has the settings that are the default. -/
def BehindPg (cm : CaseMap) (dbs : Dict → Database) (w : World) : Prop :=
  ∀ kwargs catalog schema table, ∃ rows, Answer (dbs kwargs) catalog schema table rows ∧
    w.type .postgresql kwargs (.table (.str catalog) (.str schema) (.str table)) =
      match pgSchema cm {} rows newRegistry with
      | (.ok t, live) => .ok (t, live)
      | (.error e, _) => .error e

/-- The driver is connected to the database whose name it is given. -/
def Connected (dbs : Dict → Database) : Prop :=
  ∀ kwargs n, Dict.get? kwargs "dbname" = some (.str n) → (dbs kwargs).name = n

/-- The URL is that of a table: `postgresql://…/database/schema/table`. -/
structure PgTableUrl (u : Parts) (catalog schema table : String) : Prop where
  scheme : u.scheme = "postgresql".toList
  path : pieces u.path = [catalog.toList, schema.toList, table.toList]
  dot : catalog ≠ "."

/-- What PostgreSQL guarantees about its catalogs: C140's guarantees; a column has a name and its numbers are values, and
no type that is not an array is called one. -/
structure SoundPg (cm : CaseMap) (db : Database) : Prop where
  wellFormed : PgCatalog.Spec.WellFormed db
  plain : PgCatalog.Spec.Plain cm
  named : ∀ a ∈ db.attributes, a.name ≠ ""
  real : ∀ a ∈ db.attributes, Recap.Spec.Real a.default ∧ Recap.Spec.Real a.maxLength ∧ Recap.Spec.Real a.octetLength ∧
    Recap.Spec.Real a.numericPrecision ∧ Recap.Spec.Real a.numericScale ∧ Recap.Spec.Real a.datetimePrecision
  types : ∀ t ∈ db.types, ∀ s, t.builtin = some s → cm.lower s ≠ "array"

/-- `ShownAs db a c`: `c` is what the server says about the column. -/
structure ShownAs (db : Database) (a : Attribute) (c : Dict) : Prop where
  name : Dict.get? c "COLUMN_NAME" = some (.str a.name)
  default : Dict.get? c "COLUMN_DEFAULT" = some a.default
  nullable : MayBeNull db a → Dict.get? c "IS_NULLABLE" = some (.str "YES")
  required : ¬MayBeNull db a → Dict.get? c "IS_NULLABLE" = some (.str "NO")
  type : ∀ t ∈ db.types, t.oid = a.typ → Dict.get? c "DATA_TYPE" = some (.str (dataType (underlying db t)))
  typeName : ∀ t ∈ db.types, t.oid = a.typ → Dict.get? c "UDT_NAME" = some (.str (underlying db t).name)
  maxLength : Dict.get? c "CHARACTER_MAXIMUM_LENGTH" = some a.maxLength
  octetLength : Dict.get? c "CHARACTER_OCTET_LENGTH" = some a.octetLength
  precision : Dict.get? c "NUMERIC_PRECISION" = some a.numericPrecision
  scale : Dict.get? c "NUMERIC_SCALE" = some a.numericScale
  fraction : Dict.get? c "DATETIME_PRECISION" = some a.datetimePrecision
  dims : Dict.get? c "ATTNDIMS" = some (.int a.ndims)
  labels : ∀ t ∈ db.types, t.oid = a.typ → t.kind = "e" → (∃ l ∈ db.labels, l.typ = a.typ) →
    ∃ ls : List String, Dict.get? c "ENUM_VALUES" = some (.list (ls.map .str)) ∧
      ls.Perm ((db.labels.filter (fun l => l.typ = a.typ)).map (·.label))
  noLabels : (∀ t ∈ db.types, t.oid = a.typ → t.kind ≠ "e") → Dict.get? c "ENUM_VALUES" = some .none

/-- `PgTable db … cols`: `cols` is what the server says about the columns of the table, in their order. -/
def PgTable (db : Database) (schema table : String) (cols : List Dict) : Prop :=
  ∃ as, PgCatalog.Spec.Columns db schema table as ∧ cols.length = as.length ∧
    ∀ (i : Nat) a c, as[i]? = some a → cols[i]? = some c → ShownAs db a c

/-- The type of no column of the table is an array type or a domain over one. -/
def NoArrays (db : Database) (schema table : String) : Prop :=
  ∀ a, ColumnOf db schema table a → ∀ t ∈ db.types, t.oid = a.typ → (underlying db t).array = false

/-- **C150** for PostgreSQL: what `recap schema` prints as JSON Schema for the URL of a table is a JSON text of a schema
against which all rows of that table are valid. -/
def PgPrintedForRows (F : Floats) (cm : CaseMap) (leave : Bool) : Prop :=
  ∀ (dbs : Dict → Database) (s : System) (confs : List Parts) (u : Parts) (catalog schema table : String) (p : Printed),
    BehindPg cm dbs s.world → Connected dbs → Ordinary s confs u → PgTableUrl u catalog schema table →
    recapSchema F s (render u) .json = .ok p →
    ∃ kwargs, Connects confs u .postgresql kwargs ∧ (dbs kwargs).name = catalog ∧
      (SoundPg cm (dbs kwargs) →
        ∃ cols text js, PgTable (dbs kwargs) schema table cols ∧ p = .text text ∧ IsJson F (.dict js) text ∧
          (∀ v, IsJson F v text → v = .dict js) ∧ RowsValid cm (.postgresql {}) leave cols js)

end Recap.EndToEnd
