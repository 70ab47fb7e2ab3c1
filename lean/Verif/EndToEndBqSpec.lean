import Verif.EndToEndSpec
import Verif.NestedRowsSpec

/-!
# From the URL of a table of BigQuery to its rows (C150)

What is stored in a table of BigQuery is from `ValuesSpec.lean`, how rows are written as JSON from `NestedRowsSpec.lean`.
-/

set_option autoImplicit false

namespace Recap.EndToEnd

open Recap.Url Recap.Url.Spec Recap.Clients Recap.Clients.Spec Recap.Commands Recap.Commands.Spec
open Recap.JsonText Recap.JsonText.Spec Recap.Values Recap.Spec
open Recap.JsonData (Valid Interprets)
open Recap.NestedRows (bigQueryRow BigQueryItem)

/-- The tables of BigQuery, by project, dataset and name. -/
abbrev BqTables := String → String → String → Option (List BigQuery.Field)

/-- The client of Recap for BigQuery sees these tables: what it makes of one is what its converter makes of the fields. -/
def BehindBq (tables : BqTables) (w : World) : Prop :=
  ∀ kwargs project dataset table,
    match tables project dataset table with
    | some fields => w.type .bigquery kwargs (.bigqueryTable (.str project) (.str dataset) (.str table)) =
        (BigQuery.toRecap fields).map (·, newRegistry)
    | .none => ∃ e, w.type .bigquery kwargs (.bigqueryTable (.str project) (.str dataset) (.str table)) = .error e

/-- The URL is that of a table: `bigquery:///project/dataset/table`. -/
structure BqTableUrl (u : Parts) (project dataset table : String) : Prop where
  scheme : u.scheme = "bigquery".toList
  path : pieces u.path = [project.toList, dataset.toList, table.toList]

/-- The URL and the configured URLs are written as URLs are, and their queries do not replace what is in the rest of the
URL. -/
structure OrdinaryBq (s : System) (confs : List Parts) (u : Parts) : Prop where
  urls : s.urls = confs.map render
  known : ∀ c ∈ confs, Url.Spec.WellFormed s.env c
  url : Url.Spec.WellFormed s.env u
  query : Silent s.env reserved u.query
  queries : ∀ c ∈ confs, Silent s.env reserved c.query

mutual
/-- The properties of a field are values. -/
def RealField : BigQuery.Field → Prop
  | .mk _ _ name description dflt maxLength precision scale fields =>
    (Real name ∧ Real description ∧ Real dflt ∧ Real maxLength ∧ Real precision ∧ Real scale) ∧ RealFields fields
/-- The same for a list of fields. -/
def RealFields : List BigQuery.Field → Prop
  | [] => True
  | f :: fs => RealField f ∧ RealFields fs
end

/-- All rows of a table with these fields, as JSON objects, are valid against the schema.  If `leave`, columns and fields
that are null are left out of the object, otherwise they are null. -/
def BqRowsValid (leave : Bool) (fields : List BigQuery.Field) (js : Dict) : Prop :=
  ∀ refs x j, Interprets refs js → BigQueryElement (fun _ _ => True) (bigQueryRow fields) x →
    BigQueryItem leave (bigQueryRow fields) x j → Valid refs (.dict js) j

/-- **C150** for BigQuery: what `recap schema` prints as JSON Schema for the URL of a table is a JSON text of a schema
against which all rows of that table are valid. -/
def BqPrintedForRows (F : Floats) (leave : Bool) : Prop :=
  ∀ (tables : BqTables) (s : System) (confs : List Parts) (u : Parts) (project dataset table : String) (p : Printed),
    BehindBq tables s.world → OrdinaryBq s confs u → BqTableUrl u project dataset table →
    recapSchema F s (render u) .json = .ok p →
    ∃ fields, tables project dataset table = some fields ∧
      (NamedAll fields → RealFields fields →
        ∃ text js, p = .text text ∧ IsJson F (.dict js) text ∧ (∀ v, IsJson F v text → v = .dict js) ∧
          BqRowsValid leave fields js)

/-- The same for the gateway, for which `bigquery:///` must be configured. -/
def BqAnsweredForRows (leave : Bool) : Prop :=
  ∀ (tables : BqTables) (s : System) (confs : List Parts) (u : Parts) (project dataset table : String) (o : Output),
    BehindBq tables s.world → OrdinaryBq s confs u → BqTableUrl u project dataset table →
    getSchema s (render u) (some "application/schema+json") = .ok o →
    ∃ fields, tables project dataset table = some fields ∧
      (NamedAll fields → ∃ js, o = .dict js ∧ BqRowsValid leave fields js)

end Recap.EndToEnd
