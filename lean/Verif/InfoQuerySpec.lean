import Verif.InfoQuery
import Verif.RelationalSpec

/-!
# Which columns a MySQL or Snowflake table has (C146)

Nothing here uses the client or the converter.
-/

set_option autoImplicit false

namespace Recap.InfoQuery.Spec

open Recap.Relational

/-- The names of a table. -/
structure Names where
  catalog : String
  schema : String
  table : String

/-- The row is that of a column of the table. -/
def ColumnOf (view : View) (n : Names) (r : InfoRow) : Prop :=
  r ∈ view.rows ∧ r.catalog = n.catalog ∧ r.schema = n.schema ∧ r.table = n.table

/-- The columns of the table, in their order. -/
structure Columns (view : View) (n : Names) (cs : List InfoRow) : Prop where
  order : cs.Pairwise fun a b => a.position < b.position
  all : ∀ r, r ∈ cs ↔ ColumnOf view n r

/-- What a server guarantees about its view: the columns of the view have different names, and two columns of a table have
different positions. -/
structure WellFormed (view : View) : Prop where
  names : view.names.Nodup
  positions : view.rows.Pairwise fun a b =>
    ¬(a.catalog = b.catalog ∧ a.schema = b.schema ∧ a.table = b.table ∧ a.position = b.position)

/-- For this server, these names are those of the table `n` and of no other. -/
def Means (same : String → String → Bool) (view : View) (catalog schema table : String) (n : Names) : Prop :=
  ∀ r ∈ view.rows, (same r.table table = true ∧ same r.schema schema = true ∧ same r.catalog catalog = true) ↔
    (r.catalog = n.catalog ∧ r.schema = n.schema ∧ r.table = n.table)

/-- The names of the columns of the view are in capitals if the server's spelling is put in capitals. -/
def Capitals (cm : CaseMap) (view : View) : Prop := ∀ n ∈ view.names, cm.upper (view.spelling n) = n

/-- The column alone, as a dictionary with its cells. -/
def cells (view : View) (r : InfoRow) : Dict := view.names.map fun n => (n, r.cell n)

end Recap.InfoQuery.Spec
