import Verif.EndToEndBqSpec
import Verif.EndToEndThms
import Verif.ClientsThms3
import Verif.NestedRowsThms
import Verif.CommandsRecapBig

/-! # C150 for BigQuery -/

set_option autoImplicit false

namespace Recap.EndToEnd

open Recap.Url Recap.Url.Spec Recap.Clients Recap.Clients.Spec Recap.Commands Recap.Commands.Spec
open Recap.JsonText Recap.JsonText.Spec Recap.Values Recap.Spec
open Recap.JsonData (Valid Interprets)
open Recap.NestedRows (bigQueryRow BigQueryItem columnName C147_bigquery C147_bigquery_null_refuted)
open Recap.AvroRows (BigQueryExpressible C149_bigquery_partial)
open Recap.AvroData (Datum)
open Recap.Relational (bind_ok)
open Recap.Json (aliasDefs_plain)

/-! ## The types of the columns consist of values -/

theorem realType_iff {t : RType} : RealType t ↔ RealNode t ∧ ∀ c ∈ children t, RealType c := by
  constructor
  · intro h
    refine ⟨h t .refl, fun c hc u hu => h u ?_⟩
    cases t <;> simp only [children, List.mem_cons, List.not_mem_nil, or_false] at hc
    · subst hc; exact .list hu
    · rcases hc with rfl | rfl
      · exact .key hu
      · exact .value hu
    · exact .field hc hu
    · exact .member hc hu
  · rintro ⟨h1, h2⟩ u hu
    cases hu with
    | refl => exact h1
    | list hu => exact h2 _ (by simp [children]) u hu
    | key hu => exact h2 _ (by simp [children]) u hu
    | value hu => exact h2 _ (by simp [children]) u hu
    | field hm hu => exact h2 _ hm u hu
    | member hm hu => exact h2 _ hm u hu

theorem realType_with {t : RType} (h : RealType t) {a : Attrs} (h1 : Real a.logical) (h2 : Real a.alias) (h3 : Real a.doc)
    (h4 : RealDict a.extra) : RealType (t.withAttrs a) := by
  have h := realType_iff.mp h
  have ea : (t.withAttrs a).attrs = a := by cases t <;> rfl
  have ec : children (t.withAttrs a) = children t := by cases t <;> rfl
  have ep : Spec.params (t.withAttrs a) = Spec.params t := by cases t <;> rfl
  refine realType_iff.mpr ⟨?_, by rw [ec]; exact h.2⟩
  unfold RealNode
  rw [ea, ep]
  exact ⟨h1, h2, h3, h4, h.1.2.2.2.2⟩

theorem real_extra {t : RType} (h : RealType t) (k : String) {v : PyVal} (hv : Real v) : RealType (BigQuery.setExtra t k v) := by
  have hn := (realType_iff.mp h).1
  exact realType_with h hn.1 hn.2.1 hn.2.2.1 (RealDict.set hn.2.2.2.1 k hv)

theorem real_doc {t : RType} (h : RealType t) {v : PyVal} (hv : Real v) : RealType (BigQuery.setDoc t v) := by
  have hn := (realType_iff.mp h).1
  exact realType_with h hn.1 hn.2.1 hv hn.2.2.2.1

theorem decorate_real {mode : String} {name description dflt : PyVal} {u : RType} (hn : Real name) (hd : Real description)
    (hv : Real dflt) (hr : RealType u) (hb : Relational.Bare u) (hu : u.isNullable = false) (hnu : ∀ ts a, u ≠ .union ts a) :
    RealType (BigQuery.decorate mode name description dflt u) := by
  have e : BigQuery.decorate mode name description dflt u =
      (let t := BigQuery.wrap mode u
       let t := if name.truthy then BigQuery.setExtra t "name" name else t
       let t := if description.truthy then BigQuery.setDoc t description else t
       if dflt.truthy then BigQuery.setExtra t "default" dflt else t) := rfl
  have hw : RealType (BigQuery.wrap mode u) := by
    by_cases h1 : mode = "REPEATED"
    · subst h1
      refine realType_iff.mpr ⟨⟨trivial, trivial, trivial, ⟨.nil, trivial⟩, ?_⟩, ?_⟩
      · show ∀ kv ∈ Spec.params (.list u .none (.bool true) {}), Real kv.2
        simp [Spec.params, Real]
      · intro c hc
        cases List.mem_singleton.mp hc
        exact hr
    · by_cases h2 : mode = "NULLABLE"
      · subst h2
        rw [BigQuery.wrap_nullable hb hu hnu]
        refine realType_iff.mpr ⟨⟨trivial, trivial, trivial, real_one trivial, by simp [Spec.params]⟩, ?_⟩
        intro c hc
        simp only [children, List.mem_cons, List.not_mem_nil, or_false] at hc
        rcases hc with rfl | rfl
        · refine realType_iff.mpr ⟨⟨trivial, trivial, trivial, ⟨.nil, trivial⟩, by simp [Spec.params]⟩, by simp [children]⟩
        · exact hr
      · rw [BigQuery.wrap_other h1 h2]; exact hr
  rw [e]
  generalize BigQuery.wrap mode u = t at hw
  have s1 : RealType (if name.truthy then BigQuery.setExtra t "name" name else t) := by
    split
    · exact real_extra hw _ hn
    · exact hw
  simp only
  generalize (if name.truthy then BigQuery.setExtra t "name" name else t) = t1 at s1
  have s2 : RealType (if description.truthy then BigQuery.setDoc t1 description else t1) := by
    split
    · exact real_doc s1 hd
    · exact s1
  generalize (if description.truthy then BigQuery.setDoc t1 description else t1) = t2 at s2
  split
  · exact real_extra s2 _ hv
  · exact s2

mutual
theorem field_real : ∀ (f : BigQuery.Field) (t : RType), BigQuery.fieldOf f = .ok t → RealField f → RealType t
  | .mk fieldType mode name description dflt maxLength precision scale fields, t, h, hf => by
    rw [RealField] at hf
    obtain ⟨⟨r1, r2, r3, r4, r5, r6⟩, hs⟩ := hf
    rw [BigQuery.fieldOf] at h
    split at h
    · obtain ⟨fs, h1, h⟩ := bind_ok h
      cases h
      have ih := fields_real fields fs h1 hs
      exact decorate_real r1 r2 r3 (realType_iff.mpr ⟨⟨trivial, trivial, trivial, ⟨.nil, trivial⟩, by simp [Spec.params]⟩, ih⟩)
        ⟨rfl, rfl, rfl⟩ rfl (fun _ _ h => nomatch h)
    · obtain ⟨u, h1, h⟩ := bind_ok h
      cases h
      have hl := BigQuery.scalar_leafy r4 r5 r6 _ h1
      refine decorate_real r1 r2 r3 (realType_iff.mpr ⟨⟨hl.logical, by rw [hl.alias]; trivial, by rw [hl.doc]; trivial,
        realDict_iff.mpr ⟨hl.nodup, hl.real⟩, hl.params⟩, by rw [hl.leaf]; simp⟩) (BigQuery.scalar_fresh h1).1
        (BigQuery.scalar_fresh h1).2.1 hl.union
theorem fields_real : ∀ (fs : List BigQuery.Field) (ts : List RType), BigQuery.fieldsOf fs = .ok ts → RealFields fs →
    ∀ t ∈ ts, RealType t
  | [], ts, h, _ => by
    rw [BigQuery.fieldsOf] at h
    cases h
    simp
  | f :: fs, ts, h, hf => by
    rw [RealFields] at hf
    rw [BigQuery.fieldsOf] at h
    obtain ⟨t, h1, h⟩ := bind_ok h
    obtain ⟨us, h2, h⟩ := bind_ok h
    cases h
    have i1 := field_real f t h1 hf.1
    have i2 := fields_real fs us h2 hf.2
    intro u hu
    rcases List.mem_cons.mp hu with rfl | hu
    · exact i1
    · exact i2 u hu
end

/-- The JSON Schema of a table of BigQuery is a value. -/
theorem bq_real {fields : List BigQuery.Field} {t : RType} {live : Registry} {js : Dict} (ht : BigQuery.toRecap fields = .ok t)
    (hn : NamedAll fields) (hr : RealFields fields) (hs : Json.fromRecap live t = .ok js) : Real (.dict js) := by
  unfold BigQuery.toRecap at ht
  obtain ⟨ts, h1, ht⟩ := bind_ok ht
  cases ht
  have hw := NestedRows.bigquery_writable h1 hn
  unfold Json.fromRecap at hs
  obtain ⟨d', h2, hs⟩ := ok_bind hs
  rw [aliasDefs_plain _ hw] at hs
  cases hs
  refine convert_real _ _ _ _ ?_ (fun u hu => (hw u hu).proxy) h2
  exact realType_iff.mpr ⟨⟨trivial, trivial, trivial, ⟨.nil, trivial⟩, by simp [Spec.params]⟩, fields_real _ _ h1 hr⟩

/-! ## What is shown for the URL of a table -/

theorem bq_reads {s : System} {confs : List Parts} {u : Parts} {project dataset table : String} {strict : Bool}
    {r : Client × Dict × Source} (ho : OrdinaryBq s confs u) (hu : BqTableUrl u project dataset table)
    (h : reading s.env s.mysqlArgs s.urls (render u) strict = .ok r) :
    r = (.bigquery, [], .bigqueryTable (.str project) (.str dataset) (.str table)) := by
  unfold reading at h
  obtain ⟨⟨conn, args⟩, h1, h⟩ := bind_ok h
  obtain ⟨⟨c, kwargs⟩, h2, h⟩ := bind_ok h
  obtain ⟨src, h3, h⟩ := bind_ok h
  cases h
  rw [ho.urls] at h1
  have h4 := C46_bigquery_partial s.env s.mysqlArgs confs u strict conn args "schema" ho.known ho.url hu.scheme ho.query
    ho.queries h1
  rw [h4] at h2
  cases h2
  rw [parse_bigquery ho.url hu.scheme ho.query, if_pos (.inr rfl), hu.path] at h1
  cases hc : unsafeUrl s.env (confs.map render) (render bigqueryRoot) strict with
  | error e => rw [hc] at h1; cases h1
  | ok conn' =>
    rw [hc] at h1
    cases h1
    cases h3
    simp [str]

theorem bq_shown {tables : BqTables} {s : System} {confs : List Parts} {u : Parts} {project dataset table : String}
    {strict : Bool} {f : Format} {o : Output} (hb : BehindBq tables s.world) (ho : OrdinaryBq s confs u)
    (hu : BqTableUrl u project dataset table) (h : Commands.schema s (render u) f strict = .ok o) :
    ∃ fields t, tables project dataset table = some fields ∧ BigQuery.toRecap fields = .ok t ∧ Shows newRegistry t f o := by
  obtain ⟨c', kw, src, t, live, h1, h2, h3⟩ := schema_iff.mp h
  cases bq_reads ho hu h1
  have := hb [] project dataset table
  cases hf : tables project dataset table with
  | none =>
    rw [hf] at this
    obtain ⟨e, he⟩ := this
    rw [he] at h2
    cases h2
  | some fields =>
    rw [hf] at this
    rw [this] at h2
    cases ht : BigQuery.toRecap fields with
    | error e => rw [ht] at h2; cases h2
    | ok t' =>
      rw [ht] at h2
      cases h2
      exact ⟨fields, t, rfl, ht, h3⟩

/-! ## The theorems -/

/-- **C150** for BigQuery and `recap schema`: if columns and fields that are null are left out, all rows of the table are
valid against what is printed, for all tables with records and arrays to any depth. -/
theorem C150_bigquery_printed {F : Floats} (hF : Lawful F) : BqPrintedForRows F true := by
  intro tables s confs u project dataset table p hb ho hu h
  unfold recapSchema cliSchema at h
  obtain ⟨o, h1, h⟩ := bind_ok h
  cases h
  obtain ⟨fields, t, hf, ht, hsh⟩ := bq_shown hb ho hu h1
  refine ⟨fields, hf, fun hn hr => ?_⟩
  cases hsh with
  | json hj =>
    have hreal := printed hF (bq_real ht hn hr hj)
    exact ⟨_, _, rfl, hreal, fun v hv => C122_unambiguous hv hreal,
      fun refs x j hi hx hw => C147_bigquery _ _ _ _ refs x j hn ht hj hi hx hw⟩

/-- **C150** for BigQuery and the gateway. -/
theorem C150_bigquery_answered : BqAnsweredForRows true := by
  intro tables s confs u project dataset table o hb ho hu h
  rw [getSchema_asks .json, respond_ok] at h
  obtain ⟨fields, t, hf, ht, hsh⟩ := bq_shown hb ho hu h
  refine ⟨fields, hf, fun hn => ?_⟩
  cases hsh with
  | json hj => exact ⟨_, rfl, fun refs x j hi hx hw => C147_bigquery _ _ _ _ refs x j hn ht hj hi hx hw⟩

/-- **C150** for BigQuery in Avro, for columns that are `BigQueryExpressible` and values that are within the type that is
read for their column (partial): see C149 for what is missing. -/
theorem C150_bigquery_avro_partial (tables : BqTables) (s : System) (confs : List Parts) (u : Parts)
    (project dataset table : String) (o : Output) (hb : BehindBq tables s.world) (ho : OrdinaryBq s confs u)
    (hu : BqTableUrl u project dataset table) (h : getSchema s (render u) (some "application/avro+json") = .ok o) :
    ∃ fields schema, tables project dataset table = some fields ∧ o = .dict schema ∧
      ∀ x, (∀ f ∈ fields, BigQueryExpressible f) → BigQueryElement BigQueryFits (bigQueryRow fields) x →
        Datum [] .none (.dict schema) x := by
  rw [getSchema_asks .avro, respond_ok] at h
  obtain ⟨fields, t, hf, ht, hsh⟩ := bq_shown hb ho hu h
  cases hsh with
  | avro ha => exact ⟨fields, _, hf, rfl, fun x he hx => C149_bigquery_partial ht ha hx he⟩

/-! ## A table and a URL -/

/-- `id INT64 NOT NULL, note STRING(20)`. -/
def bqNotes : List BigQuery.Field :=
  [.mk "INTEGER" "REQUIRED" (.str "id") .none .none .none .none .none [],
   .mk "STRING" "NULLABLE" (.str "note") .none .none (.int 20) .none .none []]

/-- There are two tables, `shop.sales.orders` and `shop.sales.notes`. -/
def bqTables : BqTables := fun p d t =>
  if p = "shop" ∧ d = "sales" then
    if t = "orders" then some NestedRows.orders else if t = "notes" then some bqNotes else .none
  else .none

/-- `bigquery:///`. -/
def bqRoot : Parts := { bigqueryRoot with path := "/".toList }

/-- Recap, with `bigquery:///` configured. -/
def bqSystem : System where
  env := asciiEnv
  mysqlArgs := mysqlCore
  urls := [render bqRoot]
  world := {
    children := fun _ _ _ => .ok []
    type := fun c _ src =>
      match c, src with
      | .bigquery, .bigqueryTable (.str p) (.str d) (.str t) =>
        match bqTables p d t with
        | some fields => (BigQuery.toRecap fields).map (·, newRegistry)
        | .none => .error .valueError
      | _, _ => .error .valueError }

theorem bq_behind : BehindBq bqTables bqSystem.world := by
  intro kwargs p d t
  cases h : bqTables p d t with
  | none => exact ⟨.valueError, by simp only [bqSystem, h]⟩
  | some fields => simp only [bqSystem, h]

/-- `bigquery:///shop/sales/orders`. -/
def bqTable : Parts := { bigqueryRoot with path := "/shop/sales/orders".toList }

theorem bq_ordinary : OrdinaryBq bqSystem [bqRoot] bqTable where
  urls := rfl
  known := by
    intro c hc
    cases List.mem_singleton.mp hc
    constructor <;> decide +kernel
  url := by constructor <;> decide +kernel
  query := by decide +kernel
  queries := by
    intro c hc
    cases List.mem_singleton.mp hc
    decide +kernel

theorem bq_url : BqTableUrl bqTable "shop" "sales" "orders" := ⟨by decide +kernel, by decide +kernel⟩

theorem bq_named : NamedAll NestedRows.orders := by simp [NestedRows.orders, NamedAll, Named]

theorem bq_values : RealFields NestedRows.orders := by simp [NestedRows.orders, RealFields, RealField, Real]

/-- The hypotheses are met by a request for the URL of the table. -/
example {F : Floats} (hF : Lawful F) : ∃ p text js, recapSchema F bqSystem (render bqTable) .json = .ok p ∧
    p = .text text ∧ IsJson F (.dict js) text ∧ BqRowsValid true NestedRows.orders js := by
  obtain ⟨p, h⟩ : ∃ p, recapSchema F bqSystem (render bqTable) .json = .ok p := ⟨_, rfl⟩
  obtain ⟨fields, hf, g⟩ := C150_bigquery_printed hF bqTables bqSystem _ bqTable _ _ _ p bq_behind bq_ordinary bq_url h
  cases hf
  obtain ⟨text, js, e, hj, -, hv⟩ := g bq_named bq_values
  exact ⟨p, text, js, h, e, hj, hv⟩

example : ∃ o, getSchema bqSystem (render bqTable) (some "application/schema+json") = .ok o := ⟨_, rfl⟩

/-- `bigquery:///shop/sales/notes`. -/
def bqNotesTable : Parts := { bigqueryRoot with path := "/shop/sales/notes".toList }

/-- In Avro, the row `(7, NULL)` is a datum of what is answered for the other table. -/
example : ∃ schema, getSchema bqSystem (render bqNotesTable) (some "application/avro+json") = .ok (.dict schema) ∧
    Datum [] .none (.dict schema) (.struct [.int 7, .null]) := by
  obtain ⟨o, h⟩ : ∃ o, getSchema bqSystem (render bqNotesTable) (some "application/avro+json") = .ok o := ⟨_, rfl⟩
  obtain ⟨fields, schema, hf, e, g⟩ := C150_bigquery_avro_partial bqTables bqSystem [bqRoot] bqNotesTable "shop" "sales" "notes" o
    bq_behind ⟨rfl, bq_ordinary.known, by constructor <;> decide +kernel, by decide +kernel, bq_ordinary.queries⟩
    ⟨by decide +kernel, by decide +kernel⟩ h
  subst e
  cases hf
  refine ⟨schema, h, g _ ?_ ?_⟩
  · intro f hf
    simp only [bqNotes, List.mem_cons, List.not_mem_nil, or_false] at hf
    rcases hf with rfl | rfl <;> exact .plain (by simp [AvroRows.plainTypes]) (by decide)
  · refine .record (by simp) rfl fun i g x hg hx => ?_
    match i, hg, hx with
    | 0, hg, hx =>
      cases hg; cases hx
      exact .single (by decide) (.leaf (.int (by simp) (by simp only [Avro.Spec.IntValue]; decide +kernel)) (.other nofun nofun nofun))
    | 1, hg, hx => cases hg; cases hx; exact .null

/-- **C150 does not hold of BigQuery if null is written as null**: the row `(7, NULL, [])` of the table, with null for the
note, is not valid against what is printed. -/
theorem C150_bigquery_refuted {F : Floats} (hF : Lawful F) : ¬BqPrintedForRows F false := by
  intro hall
  obtain ⟨p, h⟩ : ∃ p, recapSchema F bqSystem (render bqTable) .json = .ok p := ⟨_, rfl⟩
  obtain ⟨fields, hf, g⟩ := hall bqTables bqSystem _ bqTable _ _ _ p bq_behind bq_ordinary bq_url h
  cases hf
  obtain ⟨text, js, e, hj, hun, hv⟩ := g bq_named bq_values
  obtain ⟨fields, hf, g'⟩ := C150_bigquery_printed hF bqTables bqSystem _ bqTable _ _ _ p bq_behind bq_ordinary bq_url h
  cases hf
  unfold recapSchema cliSchema at h
  obtain ⟨o, h1, h⟩ := bind_ok h
  cases h
  obtain ⟨fields, t, hf, ht, hsh⟩ := bq_shown bq_behind bq_ordinary bq_url h1
  cases hf
  cases hsh with
  | json hj' =>
    cases e
    cases hun _ (printed hF (bq_real ht bq_named bq_values hj'))
    refine C147_bigquery_null_refuted NestedRows.orders t newRegistry js (fun _ _ => False)
      [("id", .int 7), ("note", .none), ("items", .list [])] _ "note" bq_named (by simp [NestedRows.orders, columnName]) ht hj'
      (List.mem_cons_of_mem _ List.mem_cons_self) rfl rfl rfl (hv _ (.struct [.int 7, .null, .list []]) _ ?_ ?_ ?_)
    · intro alias s hs
      cases ht
      cases hj'
      cases hs
    · refine .record (by simp) rfl fun i g x hg hx => ?_
      match i, hg, hx with
      | 0, hg, hx =>
        cases hg; cases hx
        exact .single (by decide) (.leaf (.int (by simp) (by simp only [Avro.Spec.IntValue]; decide +kernel)) trivial)
      | 1, hg, hx => cases hg; cases hx; exact .null
      | 2, hg, hx =>
        cases hg; cases hx
        exact .repeated (by simp)
    · refine .record (fun i g x hg hx => ?_) (fun i g x n hg hx hn => ?_) (fun i g x n j hg hx hn hj => ?_)
      · match i, hg, hx with
        | 0, hg, hx => cases hg; exact ⟨_, rfl⟩
        | 1, hg, hx => cases hg; exact ⟨_, rfl⟩
        | 2, hg, hx => cases hg; exact ⟨_, rfl⟩
      · match i, hg, hx with
        | 0, hg, hx => cases hg; cases hx; cases hn; simp [Dict.get?]
        | 1, hg, hx => cases hg; cases hx; cases hn; simp [Dict.get?]
        | 2, hg, hx => cases hg; cases hx; cases hn; simp [Dict.get?]
      · match i, hg, hx with
        | 0, hg, hx => cases hg; cases hx; cases hn; cases hj; exact .single (by decide) nofun (.leaf .int)
        | 1, hg, hx => cases hg; cases hx; cases hn; cases hj; exact .null
        | 2, hg, hx => cases hg; cases hx; cases hn; cases hj; exact .repeated rfl (by simp)

end Recap.EndToEnd
