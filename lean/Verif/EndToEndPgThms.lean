import Verif.EndToEndPgSpec
import Verif.EndToEndThms
import Verif.PgCatalogThms

/-! # C150 for PostgreSQL -/

set_option autoImplicit false

namespace Recap.EndToEnd

open Recap.Url Recap.Url.Spec Recap.Clients Recap.Clients.Spec Recap.Commands Recap.Commands.Spec Recap.Relational
open Recap.JsonText Recap.JsonText.Spec Recap.Spec
open Recap.JsonData (Valid Interprets)
open Recap.Rows (StoredRow RowObject C143_rows_partial C143_null_refuted)
open Recap.AvroRows (Expressible Within C149_rows_partial)
open Recap.AvroData (Datum)
open Recap.PgArrays (Lower lower_ascii)
open Recap.PgCatalog (Database Attribute Typ Label Row underlying dataType pgSchema Answer Describes answer_rows type_eq Groups C140_rows)
open Recap.PgCatalog.Spec (MayBeNull ColumnOf Columns)

/-- What is returned for a column is what the server says about it. -/
theorem shownAs {db : Database} (hw : PgCatalog.Spec.WellFormed db) {gs : List (Nat × List String)} (hg : Groups db.labels gs)
    {r : Row} {a : Attribute} {t : Typ} (h : Describes db gs r a t) (hn : r.col.nullable = true ↔ MayBeNull db a) :
    ShownAs db a r.dict := by
  have uniq : ∀ u ∈ db.types, u.oid = a.typ → u = t := fun u hu ho => type_eq hw hu h.mem (ho.trans h.typ.symm)
  have ha := h.attr
  refine ⟨?_, ?_, ?_, ?_, ?_, ?_, ?_, ?_, ?_, ?_, ?_, ?_, ?_, ?_⟩
  · show some (PyVal.str r.col.name) = _
    rw [h.name]
  · show some r.col.default = _
    rw [h.default]
  · intro hm
    show some (PyVal.str (if r.col.nullable then "YES" else "NO")) = _
    rw [if_pos (hn.mpr hm)]
  · intro hm
    show some (PyVal.str (if r.col.nullable then "YES" else "NO")) = _
    rw [if_neg (fun e => hm (hn.mp e))]
  · intro u hu ho
    show some (PyVal.str r.col.dataType) = _
    rw [h.dataType, uniq u hu ho]
  · intro u hu ho
    show some (PyVal.str r.col.udtName) = _
    rw [h.udtName, uniq u hu ho]
  · show some r.col.attr.maxLength = _
    rw [ha]
  · show some r.col.attr.octetLength = _
    rw [ha]
  · show some r.col.attr.numericPrecision = _
    rw [ha]
  · show some r.col.attr.numericScale = _
    rw [ha]
  · show some r.col.attr.datetimePrecision = _
    rw [ha]
  · show some (PyVal.int r.ndims) = _
    rw [h.ndims]
  · intro u hu ho hk hl
    cases uniq u hu ho
    obtain ⟨g, hgm, hgt⟩ := (hg.types a.typ).mpr hl
    refine ⟨g.2, ?_, ?_⟩
    · show some (match r.enumValues with | .none => PyVal.none | some xs => .list (xs.map .str)) = _
      rw [h.labels hk g hgm hgt]
    · have := hg.all g hgm
      rwa [hgt] at this
  · intro hno
    show some (match r.enumValues with | .none => PyVal.none | some xs => .list (xs.map .str)) = _
    rw [h.other (hno t h.mem h.typ)]

theorem underlying_mem {db : Database} {t : Typ} (h : t ∈ db.types) : underlying db t ∈ db.types := by
  unfold underlying
  split
  · cases hf : db.types.find? (fun b => b.oid = t.base) with
    | none => simpa using h
    | some b => simpa using List.mem_of_find?_eq_some hf
  · exact h

/-- What is returned for a table is what the server says about its columns, and it is as C143 wants it. -/
theorem pg_columns {cm : CaseMap} {db : Database} {schema table : String} {rows : List Row} (hs : SoundPg cm db)
    (h : Answer db db.name schema table rows) :
    PgTable db schema table (rows.map Row.dict) ∧
      (∀ c ∈ rows.map Row.dict, Real (.dict c)) ∧
      (∀ c ∈ rows.map Row.dict, ∃ n, n ≠ "" ∧ Dict.get? c "COLUMN_NAME" = some (.str n)) ∧
      (NoArrays db schema table → ∀ c ∈ rows.map Row.dict, ¬DataType cm c "array") := by
  obtain ⟨as, h1, h2, h3⟩ := C140_rows db schema table rows hs.wellFormed h
  obtain ⟨gs, hg, as', g1, g2, g3⟩ := answer_rows hs.wellFormed h
  obtain rfl : as' = as := PgCatalog.columns_eq g1 h1
  have key : ∀ r ∈ rows, ∃ a t, ColumnOf db schema table a ∧ Describes db gs r a t := by
    intro r hr
    obtain ⟨i, hi, rfl⟩ := List.mem_iff_getElem.mp hr
    obtain ⟨t, ht⟩ := g3 i _ (as'[i]'(by omega)) (List.getElem?_eq_getElem hi) (List.getElem?_eq_getElem _)
    exact ⟨_, t, (g1.all _).mp (List.getElem_mem _), ht⟩
  refine ⟨⟨as', g1, by simpa using g2, fun i a c ha hc => ?_⟩, fun c hc => ?_, fun c hc => ?_, fun hno c hc => ?_⟩
  · rw [List.getElem?_map] at hc
    cases hr : rows[i]? with
    | none => rw [hr] at hc; cases hc
    | some r =>
      rw [hr] at hc
      cases hc
      obtain ⟨t, ht⟩ := g3 i r a hr ha
      exact shownAs hs.wellFormed hg ht (h3 i r a hr ha).2.2.2.1
  · obtain ⟨r, hr, rfl⟩ := List.mem_map.mp hc
    obtain ⟨a, t, ⟨hm, -⟩, ht⟩ := key r hr
    obtain ⟨r1, r2, r3, r4, r5, r6⟩ := hs.real a hm
    refine realDict_iff.mpr ⟨by simp [Row.dict, Dict.keys], ?_⟩
    simp only [Row.dict, List.mem_cons, List.not_mem_nil, or_false, forall_eq_or_imp, forall_eq, ht.attr, ht.default, r1, r2, r3,
      r4, r5, r6, Real, true_and]
    split
    · trivial
    · exact real_list.mpr (by simp [Real])
  · obtain ⟨r, hr, rfl⟩ := List.mem_map.mp hc
    obtain ⟨a, t, ⟨hm, -⟩, ht⟩ := key r hr
    refine ⟨a.name, hs.named a hm, ?_⟩
    show some (PyVal.str r.col.name) = _
    rw [ht.name]
  · obtain ⟨r, hr, rfl⟩ := List.mem_map.mp hc
    obtain ⟨a, t, hm, ht⟩ := key r hr
    rintro ⟨s, e, hl⟩
    have e' : some (PyVal.str r.col.dataType) = some (.str s) := e
    simp only [Option.some.injEq, PyVal.str.injEq] at e'
    subst e'
    rw [ht.dataType, dataType, hno a hm t ht.mem ht.typ] at hl
    simp only [Bool.false_eq_true, if_false] at hl
    cases hb : (underlying db t).builtin with
    | none =>
      rw [hb] at hl
      have := hs.plain.1
      simp only [Option.getD_none] at hl
      rw [this] at hl
      exact absurd hl (by decide)
    | some x =>
      rw [hb] at hl
      exact hs.types _ (underlying_mem ht.mem) x hb hl.symm

/-- What is read for the URL of a table. -/
theorem pg_reads {s : System} {confs : List Parts} {u : Parts} {catalog schema table : String} {strict : Bool}
    (ho : Ordinary s confs u) (hu : PgTableUrl u catalog schema table) :
    (if strict = true ∧ chosen confs (databaseUrl u) = .none then
      reading s.env s.mysqlArgs s.urls (render u) strict = .error .valueError
    else ∃ kwargs, reading s.env s.mysqlArgs s.urls (render u) strict =
        .ok (.postgresql, kwargs, .table (.str catalog) (.str schema) (.str table)) ∧ Connects confs u .postgresql kwargs ∧
        Dict.get? kwargs "dbname" = some (.str catalog)) := by
  have ht : ∀ x : String, text x.toList = .str x := fun x => by simp [text]
  rw [ho.urls]
  have := C87_postgresql s.env s.mysqlArgs confs u strict _ _ _ _ ho.args ho.known ho.url hu.scheme ho.host hu.path
    (fun e => hu.dot (String.toList_inj.mp (by rw [e]; rfl))) ho.query ho.queries
  split
  · next hc => rw [if_pos hc] at this; exact this
  · next hc =>
    rw [if_neg hc] at this
    obtain ⟨kwargs, e, a1, a2, a3, a4⟩ := this
    rw [ht, ht, ht] at e
    rw [ht] at a4
    exact ⟨kwargs, e, ⟨a1, a2, a3⟩, a4⟩

/-- What is shown for the URL of a table is made of the columns of that table. -/
theorem pg_shown {cm : CaseMap} {dbs : Dict → Database} {s : System} {confs : List Parts} {u : Parts}
    {catalog schema table : String} {strict : Bool} {f : Format} {o : Output} (hb : BehindPg cm dbs s.world)
    (hcon : Connected dbs) (ho : Ordinary s confs u) (hu : PgTableUrl u catalog schema table)
    (h : Commands.schema s (render u) f strict = .ok o) :
    ∃ kwargs, Connects confs u .postgresql kwargs ∧ (dbs kwargs).name = catalog ∧ (SoundPg cm (dbs kwargs) →
      ∃ cols, PgTable (dbs kwargs) schema table cols ∧
        (NoArrays (dbs kwargs) schema table → Rows.Plain cm (.postgresql {}) cols ∧ ∀ c ∈ cols, ¬DataType cm c "array") ∧
        ∃ t live, (Dialect.postgresql {}).toRecap cm cols newRegistry = (.ok t, live) ∧ Shows live t f o) := by
  obtain ⟨c', kw, src, t, live, h1, h2, h3⟩ := schema_iff.mp h
  have hr := pg_reads (strict := strict) ho hu
  split at hr
  · rw [hr] at h1; cases h1
  · obtain ⟨kwargs, e, hk, hdb⟩ := hr
    rw [e] at h1
    simp only [Except.ok.injEq, Prod.mk.injEq] at h1
    obtain ⟨rfl, rfl, rfl⟩ := h1
    have hname := hcon _ _ hdb
    refine ⟨_, hk, hname, fun hs => ?_⟩
    obtain ⟨rows, ha, hw⟩ := hb kwargs catalog schema table
    rw [← hname] at ha
    obtain ⟨g1, g2, g3, g4⟩ := pg_columns hs ha
    refine ⟨_, g1, fun hno => ⟨⟨g2, g3, nofun, fun cfg _ c hc hd => absurd hd (g4 hno c hc)⟩, g4 hno⟩, ?_⟩
    rw [hw] at h2
    unfold pgSchema at h2
    split at h2
    · next t' live' e' => cases h2; exact ⟨_, _, e', h3⟩
    · cases h2

theorem pg_rows_valid {cm : CaseMap} {cols : List Dict} {t : RType} {live : Registry} {js : Dict}
    (hcm : Lower cm) (hp : Rows.Plain cm (.postgresql {}) cols) (hno : ∀ c ∈ cols, ¬DataType cm c "array")
    (ht : (Dialect.postgresql {}).toRecap cm cols newRegistry = (.ok t, live))
    (hs : Json.fromRecap live t = .ok js) : RowsValid cm (.postgresql {}) true cols js := by
  intro refs xs o hr hx ho
  exact C143_rows_partial cm _ cols newRegistry live t js refs xs o hcm ht hs hr hx ho hp nofun
    fun i c x hc _ cfg _ hd => absurd hd (hno c (List.mem_of_getElem? hc))

/-- **C150** for PostgreSQL and `recap schema`, if columns that are null are left out (partial).  Missing: tables with
arrays, of which nothing is said with the settings that the client has (`C143_array_refuted`). -/
theorem C150_pg_printed_partial {F : Floats} (hF : Lawful F) (cm : CaseMap) (hcm : Lower cm) (dbs : Dict → Database)
    (s : System) (confs : List Parts) (u : Parts) (catalog schema table : String) (p : Printed) (hb : BehindPg cm dbs s.world)
    (hcon : Connected dbs) (ho : Ordinary s confs u) (hu : PgTableUrl u catalog schema table)
    (h : recapSchema F s (render u) .json = .ok p) :
    ∃ kwargs, Connects confs u .postgresql kwargs ∧ (dbs kwargs).name = catalog ∧
      (SoundPg cm (dbs kwargs) → NoArrays (dbs kwargs) schema table →
        ∃ cols text js, PgTable (dbs kwargs) schema table cols ∧ p = .text text ∧ IsJson F (.dict js) text ∧
          (∀ v, IsJson F v text → v = .dict js) ∧ RowsValid cm (.postgresql {}) true cols js) := by
  unfold recapSchema cliSchema at h
  obtain ⟨o, h1, h⟩ := bind_ok h
  cases h
  obtain ⟨kwargs, hk, hname, h2⟩ := pg_shown hb hcon ho hu h1
  refine ⟨kwargs, hk, hname, fun hs hno => ?_⟩
  obtain ⟨cols, hc, hp, t, live, ht, hsh⟩ := h2 hs
  obtain ⟨hp, ha⟩ := hp hno
  cases hsh with
  | json hj =>
    have hreal := printed hF (table_real ht hp hj)
    exact ⟨cols, _, _, hc, rfl, hreal, fun v hv => C122_unambiguous hv hreal, pg_rows_valid hcm hp ha ht hj⟩

/-- **C150** for PostgreSQL and the gateway, if columns that are null are left out (partial).  Missing: tables with
arrays. -/
theorem C150_pg_answered_partial (cm : CaseMap) (hcm : Lower cm) (dbs : Dict → Database)
    (s : System) (confs : List Parts) (u : Parts) (catalog schema table : String) (o : Output) (hb : BehindPg cm dbs s.world)
    (hcon : Connected dbs) (ho : Ordinary s confs u) (hu : PgTableUrl u catalog schema table)
    (h : getSchema s (render u) (some "application/schema+json") = .ok o) :
    ∃ kwargs, Connects confs u .postgresql kwargs ∧ (dbs kwargs).name = catalog ∧
      (SoundPg cm (dbs kwargs) → NoArrays (dbs kwargs) schema table →
        ∃ cols js, PgTable (dbs kwargs) schema table cols ∧ o = .dict js ∧ RowsValid cm (.postgresql {}) true cols js) := by
  rw [getSchema_asks .json, respond_ok] at h
  obtain ⟨kwargs, hk, hname, h2⟩ := pg_shown hb hcon ho hu h
  refine ⟨kwargs, hk, hname, fun hs hno => ?_⟩
  obtain ⟨cols, hc, hp, t, live, ht, hsh⟩ := h2 hs
  obtain ⟨hp, ha⟩ := hp hno
  cases hsh with
  | json hj => exact ⟨cols, _, hc, rfl, pg_rows_valid hcm hp ha ht hj⟩

/-- **C150** for PostgreSQL in Avro, for columns that are `Expressible` and values that are within the type that is read
for their column (partial): see C149 for what is missing. -/
theorem C150_pg_avro_partial (cm : CaseMap) (dbs : Dict → Database)
    (s : System) (confs : List Parts) (u : Parts) (catalog schema table : String) (o : Output) (hb : BehindPg cm dbs s.world)
    (hcon : Connected dbs) (ho : Ordinary s confs u) (hu : PgTableUrl u catalog schema table)
    (h : getSchema s (render u) (some "application/avro+json") = .ok o) :
    ∃ kwargs, Connects confs u .postgresql kwargs ∧ (dbs kwargs).name = catalog ∧
      (SoundPg cm (dbs kwargs) → ∃ cols schema', PgTable (dbs kwargs) schema table cols ∧ o = .dict schema' ∧
        ∀ xs, StoredRow cm (.postgresql {}) cols xs → (∀ c ∈ cols, Expressible cm (.postgresql {}) c) →
          (∀ (i : Nat) c x, cols[i]? = some c → xs[i]? = some x → Within cm (.postgresql {}) c x) →
          Datum [] .none (.dict schema') (.struct xs)) := by
  rw [getSchema_asks .avro, respond_ok] at h
  obtain ⟨kwargs, hk, hname, h2⟩ := pg_shown hb hcon ho hu h
  refine ⟨kwargs, hk, hname, fun hs => ?_⟩
  obtain ⟨cols, hc, -, t, live, ht, hsh⟩ := h2 hs
  cases hsh with
  | avro ha => exact ⟨cols, _, hc, rfl, fun xs hx he hw => C149_rows_partial ht ha hx he hw⟩

/-! ## A server and a URL -/

/-- A database with two tables. -/
def sales (name : String) : Database where
  name := name
  namespaces := [⟨2200, "public"⟩]
  classes := [⟨60, "orders", 2200, true⟩, ⟨70, "notes", 2200, true⟩]
  types := [⟨20, "int8", "b", 0, false, false, some "bigint"⟩, ⟨1009, "_text", "b", 0, true, false, .none⟩]
  labels := []
  attributes := [PgCatalog.shop.column 60 "id" 20 1 0 true, PgCatalog.shop.column 60 "parent" 20 2 0 false,
    PgCatalog.shop.column 70 "tags" 1009 1 1 true]

/-- What is returned for a table. -/
def salesRows (name catalog schema table : String) : List Row := PgCatalog.joined (sales name) [] catalog schema table

theorem sales_answer (name catalog schema table : String) :
    Answer (sales name) catalog schema table (salesRows name catalog schema table) := by
  refine ⟨[], ⟨.nil, by simp [sales], by simp⟩, .refl _, ?_⟩
  simp only [salesRows, PgCatalog.joined, PgCatalog.columnsView, sales, PgCatalog.viewRow, PgCatalog.leftJoin, PgCatalog.shop.column,
    List.flatMap_cons, List.flatMap_nil, List.append_nil]
  by_cases h : "orders" = table ∧ "public" = schema ∧ name = catalog
  · obtain ⟨rfl, rfl, rfl⟩ := h
    simp
  · by_cases h' : "notes" = table ∧ "public" = schema ∧ name = catalog
    · obtain ⟨rfl, rfl, rfl⟩ := h'
      simp
    · simp [h, h']

/-- The database that the driver is connected to. -/
def connected (kwargs : Dict) : String :=
  match Dict.get? kwargs "dbname" with
  | some (.str n) => n
  | _ => "postgres"

/-- Recap, with a configured URL and a server on which all databases are like this. -/
def salesSystem : System where
  env := asciiEnv
  mysqlArgs := mysqlCore
  urls := [render fullUrl]
  world := {
    children := fun _ _ _ => .ok []
    type := fun c kwargs src =>
      match c, src with
      | .postgresql, .table (.str catalog) (.str schema) (.str table) =>
        match pgSchema asciiCase {} (salesRows (connected kwargs) catalog schema table) newRegistry with
        | (.ok t, live) => .ok (t, live)
        | (.error e, _) => .error e
      | _, _ => .error .valueError }

theorem sales_behind : BehindPg asciiCase (fun kwargs => sales (connected kwargs)) salesSystem.world :=
  fun kwargs catalog schema table => ⟨_, sales_answer (connected kwargs) catalog schema table, rfl⟩

theorem sales_connected : Connected (fun kwargs => sales (connected kwargs)) := by
  intro kwargs n h
  simp [sales, connected, h]

theorem sales_ordinary : Ordinary salesSystem [fullUrl] pgTable where
  args := by simp [salesSystem]
  urls := rfl
  known := by
    intro c hc
    cases List.mem_singleton.mp hc
    exact fullUrl_wf
  url := pgTable_wf
  host := by decide +kernel
  query := by decide +kernel
  queries := by
    intro c hc
    cases List.mem_singleton.mp hc
    decide +kernel

theorem sales_url : PgTableUrl pgTable "sales" "public" "orders" :=
  ⟨by decide +kernel, by decide +kernel, by decide⟩

theorem sales_sound (name : String) : SoundPg asciiCase (sales name) where
  wellFormed := by
    refine ⟨by simp [sales], by simp [sales], by simp [sales, PgCatalog.shop.column], by simp [sales], ?_⟩
    intro a ha _
    simp only [sales, List.mem_cons, List.not_mem_nil, or_false] at ha
    rcases ha with rfl | rfl | rfl
    · exact ⟨_, List.mem_cons_self, rfl⟩
    · exact ⟨_, List.mem_cons_self, rfl⟩
    · exact ⟨_, List.mem_cons_of_mem _ List.mem_cons_self, rfl⟩
  plain := by refine ⟨?_, ?_, ?_⟩ <;> decide +kernel
  named := by simp [sales, PgCatalog.shop.column]
  real := by simp [sales, PgCatalog.shop.column, Real]
  types := by
    intro t ht s hs
    simp only [sales, List.mem_cons, List.not_mem_nil, or_false] at ht
    rcases ht with rfl | rfl <;> cases hs
    decide +kernel

theorem sales_noArrays (name : String) : NoArrays (sales name) "public" "orders" := by
  rintro a ⟨ha, -, -, -, c, hc, n, hn, h1, -, -, -, h2⟩ t ht ho
  simp only [sales, List.mem_cons, List.not_mem_nil, or_false] at ha hc ht
  rcases ht with rfl | rfl
  · rfl
  · rcases ha with rfl | rfl | rfl
    · cases ho
    · cases ho
    · rcases hc with rfl | rfl
      · cases h1
      · exact absurd h2 (by decide)

theorem sales_types {name : String} {t : Typ} (ht : t ∈ (sales name).types) : t.notNull = false := by
  simp only [sales, List.mem_cons, List.not_mem_nil, or_false] at ht
  rcases ht with rfl | rfl <;> rfl

/-- The columns of the table. -/
theorem sales_columns (name : String) : Columns (sales name) "public" "orders"
    [PgCatalog.shop.column 60 "id" 20 1 0 true, PgCatalog.shop.column 60 "parent" 20 2 0 false] := by
  refine ⟨by simp [PgCatalog.shop.column], fun a => ?_⟩
  simp only [ColumnOf, sales, List.mem_cons, List.not_mem_nil, or_false, exists_eq_left]
  constructor
  · rintro (rfl | rfl) <;> simp [PgCatalog.shop.column]
  · rintro ⟨rfl | rfl | rfl, -, -, -, c, rfl | rfl, h⟩ <;> simp [PgCatalog.shop.column] at h ⊢

/-- What is printed for `postgresql://db.example.com:5432/sales/public/orders` is a schema against which all rows of the
table are valid, of which `{"id": 1}` is one. -/
example {F : Floats} (hF : Lawful F) : ∃ p text js, recapSchema F salesSystem (render pgTable) .json = .ok p ∧
    p = .text text ∧ IsJson F (.dict js) text ∧ ∀ refs, Interprets refs js → Valid refs (.dict js) (.dict [("id", .int 1)]) := by
  obtain ⟨p, h⟩ : ∃ p, recapSchema F salesSystem (render pgTable) .json = .ok p := ⟨_, rfl⟩
  obtain ⟨kwargs, -, hn, g⟩ := C150_pg_printed_partial hF asciiCase lower_ascii _ salesSystem _ pgTable "sales" "public" "orders" p
    sales_behind sales_connected sales_ordinary sales_url h
  obtain ⟨cols, text, js, ⟨as, hc, hl, hsh⟩, e, hj, -, hv⟩ := g (sales_sound _) (sales_noArrays _)
  obtain rfl := PgCatalog.columns_eq hc (sales_columns _)
  match cols, hl with
  | [c, d], _ =>
    have h1 := hsh 0 _ c rfl rfl
    have h2 := hsh 1 _ d rfl rfl
    refine ⟨p, text, js, h, e, hj, fun refs hr => hv refs [.int 1, .null] _ hr ⟨rfl, fun i c' x hc' hx => .inl ?_⟩ ?_⟩
    · match i, hc', hx with
      | 0, hc', hx =>
        cases hc'; cases hx
        exact .int (dt := "bigint") (n := 64) ⟨"bigint", h1.type _ List.mem_cons_self rfl, by decide +kernel⟩ (by decide)
          (by simp only [Avro.Spec.IntValue]; decide +kernel)
      | 1, hc', hx =>
        cases hc'; cases hx
        exact .null ⟨"YES", h2.nullable ⟨rfl, fun t ht _ _ => sales_types ht⟩, by decide +kernel⟩
      | _ + 2, hc', _ => cases hc'
    · intro i c' x hc' hx
      match i, hc', hx with
      | 0, hc', hx =>
        cases hc'; cases hx
        exact ⟨"id", h1.name, .inr ⟨nofun, _, rfl, .int⟩⟩
      | 1, hc', hx =>
        cases hc'; cases hx
        exact ⟨"parent", h2.name, .inl ⟨rfl, rfl, rfl⟩⟩
      | _ + 2, hc', _ => cases hc'

/-- The hypotheses of `C150_pg_answered_partial` and `C150_pg_avro_partial` are met by the same request. -/
example : (∃ o, getSchema salesSystem (render pgTable) (some "application/schema+json") = .ok o) ∧
    ∃ o, getSchema salesSystem (render pgTable) (some "application/avro+json") = .ok o := ⟨⟨_, rfl⟩, _, rfl⟩

/-- The URL of the table with an array. -/
def notesTable : Parts := { pgTable with path := "/sales/public/notes".toList }

theorem notes_ordinary : Ordinary salesSystem [fullUrl] notesTable where
  args := by simp [salesSystem]
  urls := rfl
  known := sales_ordinary.known
  url := by constructor <;> decide +kernel
  host := by decide +kernel
  query := by decide +kernel
  queries := sales_ordinary.queries

/-- The columns of the table with an array. -/
theorem notes_columns (name : String) : Columns (sales name) "public" "notes"
    [PgCatalog.shop.column 70 "tags" 1009 1 1 true] := by
  refine ⟨by simp, fun a => ?_⟩
  simp only [ColumnOf, sales, List.mem_cons, List.not_mem_nil, or_false, exists_eq_left]
  constructor
  · rintro rfl; simp [PgCatalog.shop.column]
  · rintro ⟨rfl | rfl | rfl, -, -, -, c, rfl | rfl, h⟩ <;> simp [PgCatalog.shop.column] at h ⊢

/-- What is printed for it: the definition of the column refers to itself. -/
def notesSchema : Dict :=
  [("type", .str "object"), ("properties", .dict [("tags", .dict [("$ref", .str "#/$defs/_root.tags")])]),
    ("required", .list [.str "tags"]), ("$defs", .dict [("_root.tags", .dict [("$ref", .str "#/$defs/_root.tags")])])]

/-- **C150 does not hold of PostgreSQL**: the client does not enforce the dimensions of arrays, and what is printed for a
table with an array says nothing about it.  With one reading of the references nothing is valid. -/
theorem C150_pg_refuted {F : Floats} (hF : Lawful F) (leave : Bool) : ¬PgPrintedForRows F asciiCase leave := by
  intro hall
  have h : recapSchema F salesSystem (render notesTable) .json = .ok (.text (dumps F .pretty (.dict notesSchema))) := rfl
  obtain ⟨kwargs, -, hn, g⟩ := hall _ salesSystem _ notesTable "sales" "public" "notes" _ sales_behind sales_connected
    notes_ordinary ⟨by decide +kernel, by decide +kernel, by decide⟩ h
  obtain ⟨cols, text, js, ⟨as, hc, hl, hsh⟩, e, hj, hun, hv⟩ := g (sales_sound _)
  obtain rfl := PgCatalog.columns_eq hc (notes_columns _)
  cases e
  cases hun _ (printed hF (show Real (.dict notesSchema) by simp [notesSchema, Real, RealPairs, RealAll]))
  match cols, hl with
  | [c], _ =>
    have h1 := hsh 0 _ c rfl rfl
    have hr : Interprets (fun _ _ => False) notesSchema := by
      intro alias s hs j
      simp only [false_iff]
      intro hv
      have hs' : s = .dict [("$ref", .str "#/$defs/_root.tags")] := by
        have : Dict.get? [("_root.tags", PyVal.dict [("$ref", .str "#/$defs/_root.tags")])] alias = some s := hs
        rw [Dict.get?_cons] at this
        split at this
        · cases this; rfl
        · cases this
      subst hs'
      obtain ⟨_, _, h⟩ := (JsonData.valid_get hv (k := "$ref") rfl).ref rfl
      exact h
    have hdim : PgArrays.Dimensions (fun y => y = .null ∨ PgArrays.Element "text" y) 1 (.list [.null]) := by
      refine ⟨_, rfl, ?_⟩
      simp only [List.mem_cons, List.not_mem_nil, or_false]
      rintro y rfl
      exact .inl rfl
    have hx : StoredRow asciiCase (.postgresql {}) [c] [.list [.null]] := by
      refine ⟨rfl, fun i c' x hc' hx => .inr ⟨⟨_, rfl⟩, .inr ⟨"text", 1, ?_, by omega, by omega, ?_⟩⟩⟩
      · match i, hc', hx with
        | 0, hc', hx =>
          cases hc'; cases hx
          exact ⟨⟨"ARRAY", h1.type _ (List.mem_cons_of_mem _ List.mem_cons_self) rfl, by decide +kernel⟩,
            h1.typeName _ (List.mem_cons_of_mem _ List.mem_cons_self) rfl⟩
      · match i, hc', hx with
        | 0, hc', hx => cases hc'; cases hx; exact hdim
    have ho : RowObject leave [c] [.list [.null]] [("tags", .list [.none])] := by
      intro i c' x hc' hx
      match i, hc', hx with
      | 0, hc', hx =>
        cases hc'; cases hx
        refine ⟨"tags", h1.name, .inr ⟨nofun, _, rfl, .list rfl fun i x j hx hj => ?_⟩⟩
        match i, hx, hj with
        | 0, hx, hj => cases hx; cases hj; exact .null
    have := hv _ _ _ hr hx ho
    have := (JsonData.valid_get this (k := "properties") rfl).properties rfl
    rw [JsonData.Properties, JsonData.propertiesAll_iff] at this
    have := this _ (List.mem_singleton.mpr rfl) _ _ rfl rfl
    obtain ⟨_, _, h⟩ := (JsonData.valid_get this (k := "$ref") rfl).ref rfl
    exact h

end Recap.EndToEnd
