import Verif.CliSpec
import Verif.ClientsThms
import Verif.InfoQuerySpec
import Verif.RowsSpec
import Verif.AvroRowsSpec

/-!
# From the URL of a table to its rows (C150)

A user asks for the URL of a table and uses what is printed on the rows of that table.  What servers have in their
`information_schema` is from `InfoQuerySpec.lean`, what is stored in a table from `ValuesSpec.lean`, what is valid from
`JsonDataSpec.lean` and `AvroDataSpec.lean`.
-/

set_option autoImplicit false

namespace Recap.EndToEnd

open Recap.Url Recap.Url.Spec Recap.Clients Recap.Clients.Spec Recap.Commands Recap.Commands.Spec Recap.Relational
open Recap.InfoQuery Recap.InfoQuery.Spec Recap.JsonText Recap.JsonText.Spec
open Recap.JsonData (Valid Interprets)
open Recap.Rows (StoredRow RowObject)
open Recap.AvroData (Datum)

/-- The servers that can be reached: for a client and the arguments of its driver, what the server shows of its
`information_schema.columns`, and how it compares names. -/
structure Servers where
  view : Client → Dict → View
  same : Client → Dict → String → String → Bool

/-- The dialect of the servers that a client talks to. -/
inductive Speaks : Client → Dialect → Prop
  | mysql : Speaks .mysql .mysql
  | snowflake : Speaks .snowflake .snowflake

/-- The clients of Recap talk to these servers: what a client makes of a table is what its converter makes of an answer of
the server. -/
def Behind (cm : CaseMap) (S : Servers) (w : World) : Prop :=
  ∀ c d, Speaks c d → ∀ kwargs catalog schema table, ∃ out,
    Answer (S.same c kwargs) (S.view c kwargs) catalog schema table out ∧
    w.type c kwargs (.table (.str catalog) (.str schema) (.str table)) =
      match clientSchema cm d (S.view c kwargs) out newRegistry with
      | (.ok t, live) => .ok (t, live)
      | (.error e, _) => .error e

/-- The URL is that of a table: `mysql://…/schema/table` or `snowflake://…/catalog/schema/table`. -/
inductive TableUrl (u : Parts) : Client → String → String → String → Prop
  | mysql {schema table} : u.scheme = "mysql".toList → pieces u.path = [schema.toList, table.toList] → schema ≠ "." →
      TableUrl u .mysql "def" schema table
  | snowflake {catalog schema table} : u.scheme = "snowflake".toList →
      pieces u.path = [catalog.toList, schema.toList, table.toList] → catalog ≠ "." →
      TableUrl u .snowflake catalog schema table

/-- The URL and the configured URLs are written as URLs are, the URL has a host, and their queries do not replace what is
in the rest of the URL. -/
structure Ordinary (s : System) (confs : List Parts) (u : Parts) : Prop where
  args : ∀ k ∈ mysqlCore, k ∈ s.mysqlArgs
  urls : s.urls = confs.map render
  known : ∀ c ∈ confs, Url.Spec.WellFormed s.env c
  url : Url.Spec.WellFormed s.env u
  host : u.host ≠ .name []
  query : Silent s.env reserved u.query
  queries : ∀ c ∈ confs, Silent s.env reserved c.query

/-- The driver is asked to connect to the host and the port of the URL, with the credentials that are configured for it,
or with its own. -/
structure Connects (confs : List Parts) (u : Parts) (c : Client) (kwargs : Dict) : Prop where
  host : GivenHost kwargs (hostKey c) u.host
  port : GivenPort kwargs u.port
  credentials : GivenCredentials kwargs (credentials confs (databaseUrl u))

/-- What a server guarantees about its view: C146's guarantees; a column has a name, and a row consists of values. -/
structure Sound (cm : CaseMap) (view : View) : Prop where
  wellFormed : InfoQuery.Spec.WellFormed view
  capitals : Capitals cm view
  named : "COLUMN_NAME" ∈ view.names
  name : ∀ r ∈ view.rows, ∃ n, n ≠ "" ∧ r.cell "COLUMN_NAME" = .str n
  real : ∀ r ∈ view.rows, ∀ n ∈ view.names, Recap.Spec.Real (r.cell n)

/-- `TableOf S kwargs … cols`: for the server, the names are those of a table, and `cols` are the columns of that table in
their order, with what the server says about each. -/
def TableOf (S : Servers) (c : Client) (kwargs : Dict) (catalog schema table : String) (cols : List Dict) : Prop :=
  ∃ n rows, Means (S.same c kwargs) (S.view c kwargs) catalog schema table n ∧ Columns (S.view c kwargs) n rows ∧
    cols = rows.map (cells (S.view c kwargs))

/-- All rows of a table with these columns, as JSON objects, are valid against the schema.  If `leave`, columns that are
null are left out of the object, otherwise they are null. -/
def RowsValid (cm : CaseMap) (d : Dialect) (leave : Bool) (cols : List Dict) (js : Dict) : Prop :=
  ∀ refs xs o, Interprets refs js → StoredRow cm d cols xs → RowObject leave cols xs o → Valid refs (.dict js) (.dict o)

/-- **C150**: what `recap schema` prints as JSON Schema for the URL of a table is a JSON text of a schema against which
all rows of that table are valid: of the table with these names on the server that the URL names. -/
def PrintedForRows (F : Floats) (cm : CaseMap) (leave : Bool) : Prop :=
  ∀ (S : Servers) (s : System) (confs : List Parts) (u : Parts) (c : Client) (d : Dialect) (catalog schema table : String)
    (p : Printed), Behind cm S s.world → Ordinary s confs u → TableUrl u c catalog schema table → Speaks c d →
    recapSchema F s (render u) .json = .ok p →
    ∃ kwargs, Connects confs u c kwargs ∧
      ∀ cols, Sound cm (S.view c kwargs) → TableOf S c kwargs catalog schema table cols →
        ∃ text js, p = .text text ∧ IsJson F (.dict js) text ∧ (∀ v, IsJson F v text → v = .dict js) ∧
          RowsValid cm d leave cols js

/-- The same for the gateway, for which a URL must be configured: what it answers if JSON Schema is asked for. -/
def AnsweredForRows (cm : CaseMap) (leave : Bool) : Prop :=
  ∀ (S : Servers) (s : System) (confs : List Parts) (u : Parts) (c : Client) (d : Dialect) (catalog schema table : String)
    (o : Output), Behind cm S s.world → Ordinary s confs u → TableUrl u c catalog schema table → Speaks c d →
    getSchema s (render u) (some "application/schema+json") = .ok o →
    ∃ kwargs, Connects confs u c kwargs ∧
      ∀ cols, Sound cm (S.view c kwargs) → TableOf S c kwargs catalog schema table cols →
        ∃ js, o = .dict js ∧ RowsValid cm d leave cols js

/-- The same in Avro: all rows of the table are data of the schema. -/
def AvroForRows (cm : CaseMap) : Prop :=
  ∀ (S : Servers) (s : System) (confs : List Parts) (u : Parts) (c : Client) (d : Dialect) (catalog schema table : String)
    (o : Output), Behind cm S s.world → Ordinary s confs u → TableUrl u c catalog schema table → Speaks c d →
    getSchema s (render u) (some "application/avro+json") = .ok o →
    ∃ kwargs, Connects confs u c kwargs ∧
      ∀ cols xs, Sound cm (S.view c kwargs) → TableOf S c kwargs catalog schema table cols → StoredRow cm d cols xs →
        ∃ schema, o = .dict schema ∧ Datum [] .none (.dict schema) (.struct xs)

end Recap.EndToEnd
