import Verif.AvroRowsNested
import Verif.NestedRowsLemmas

/-!
# C149: the rows of a table are data of the Avro schema that is written for it
-/

set_option autoImplicit false

namespace Recap.AvroRows

open Relational Values Recap.Spec RType
open AvroWrite AvroData
open PgArrays (StoredArray)
open Recap.Rows (StoredRow InColumn)

/-! ## Relational databases -/

/-- **C149.**  Every row of a table is a datum.  What is missing: columns other than `Expressible` ones
(`C149_required_refuted`, `C149_inline_refuted`), and values that are not within the type that is read for their
column (C126). -/
theorem C149_rows_partial {cm : CaseMap} {d : Dialect} {cols : List Dict} {reg live : Registry} {t : RType} {schema : Dict}
    {xs : List Val} (ht : d.toRecap cm cols reg = (.ok t, live)) (hs : Avro.fromRecap live t = .ok schema)
    (hx : StoredRow cm d cols xs) (he : ∀ c ∈ cols, Expressible cm d c)
    (hw : ∀ (i : Nat) c x, cols[i]? = some c → xs[i]? = some x → Within cm d c x) :
    Datum [] .none (.dict schema) (.struct xs) := by
  obtain ⟨fs, rfl, hf⟩ := toRecap_ok ht
  obtain ⟨hl, hi⟩ := fieldsOf_index hf
  have hcol : ∀ (i : Nat) f, fs[i]? = some f → ∃ c, cols[i]? = some c := fun i f h => by
    have := (List.getElem?_eq_some_iff.mp h).1
    exact ⟨_, List.getElem?_eq_getElem (by omega)⟩
  refine C129_values_partial (.struct rfl (.inl fun v hv => by cases hv) fun f hf => ?_) hs
    (.struct (by rw [hl]; exact hx.1) fun i f x hf hx' => ?_)
  · obtain ⟨i, hf⟩ := List.mem_iff_getElem?.mp hf
    obtain ⟨c, hc⟩ := hcol i f hf
    obtain ⟨b, s, s', hb, hf⟩ := hi i c f hc hf
    exact column_field (dialect_column hb (he c (List.mem_of_getElem? hc))) hf
  · obtain ⟨c, hc⟩ := hcol i f hf
    obtain ⟨b, s, s', hb, hf⟩ := hi i c f hc hf
    refine fieldOf_holds hf ?_
    rcases hx.2 i c x hc hx' with h | ⟨⟨cfg, rfl⟩, h⟩
    · exact dialect_holds hb h (hw i c x hc hx')
    · rcases h with h | ⟨e, n, h, -⟩
      · exact .inl h
      · exact absurd h.1 (expressible_array (he c (List.mem_of_getElem? hc)))

/-- **C149 does not hold: dates, times, decimals.**  If a table has a column `NOT NULL` with a date, a time, a point in
time or a decimal, no row of it is a datum of what is written for the table. -/
theorem C149_required_refuted {cm : CaseMap} {d : Dialect} {cols : List Dict} {reg live : Registry} {t : RType} {schema : Dict}
    {xs : List Val} {c : Dict} {dt : String} (ht : d.toRecap cm cols reg = (.ok t, live))
    (hs : Avro.fromRecap live t = .ok schema) (hx : StoredRow cm d cols xs) (hc : c ∈ cols) (hn : ¬DeclaredNullable cm c)
    (hd : DataType cm c dt) (hdt : dt ∈ pointTypes d ++ numberTypes d) : ¬Datum [] .none (.dict schema) (.struct xs) := by
  intro hdat
  obtain ⟨fs, rfl, hf⟩ := toRecap_ok ht
  obtain ⟨hl, hi⟩ := fieldsOf_index hf
  obtain ⟨i, hc⟩ := List.mem_iff_getElem?.mp hc
  obtain ⟨f, hf⟩ : ∃ f, fs[i]? = some f :=
    ⟨_, List.getElem?_eq_getElem (by have := (List.getElem?_eq_some_iff.mp hc).1; omega)⟩
  obtain ⟨b, s, s', hb, hfb⟩ := hi i c f hc hf
  obtain ⟨l, hlog⟩ := dialect_annotated hb hd hdt
  rw [← field_logical hn hfb] at hlog
  obtain ⟨n, q, ys, e, h⟩ := struct_datum hs hdat
  cases e
  obtain ⟨v, D, w, y, h1, h2, h3, h4, h5⟩ := h i f hf
  have hy := annotated_datum hlog h1 h2 h3 h5
  rcases hx.2 i c y hc h4 with h | ⟨⟨cfg, rfl⟩, h⟩
  · rcases stored_point h hd hdt hn with ⟨_, rfl⟩ | ⟨_, rfl⟩ | ⟨_, rfl⟩ | ⟨_, _, rfl⟩ <;> simp at hy
  · rcases h with h | ⟨e, n, h, -⟩
    · exact hn h.2
    · cases dataType_unique h.1 hd
      simp [pointTypes, numberTypes] at hdt

/-- **C149 does not hold: byte strings of a fixed length, enums, arrays.**  If a table has such a column that is
`NOT NULL`, the schema that is written for the table has no data at all. -/
theorem C149_inline_refuted {cm : CaseMap} {d : Dialect} {cols : List Dict} {reg live : Registry} {t : RType} {schema : Dict}
    {c : Dict} (ht : d.toRecap cm cols reg = (.ok t, live)) (hs : Avro.fromRecap live t = .ok schema) (hc : c ∈ cols)
    (hn : ¬DeclaredNullable cm c) (hin : InlineColumn cm d c) (env : Env) (ns : Option String) (x : Val) :
    ¬Datum env ns (.dict schema) x := by
  obtain ⟨fs, rfl, hf⟩ := toRecap_ok ht
  obtain ⟨hl, hi⟩ := fieldsOf_index hf
  obtain ⟨i, hc⟩ := List.mem_iff_getElem?.mp hc
  obtain ⟨f, hf⟩ : ∃ f, fs[i]? = some f :=
    ⟨_, List.getElem?_eq_getElem (by have := (List.getElem?_eq_some_iff.mp hc).1; omega)⟩
  obtain ⟨b, s, s', hb, hfb⟩ := hi i c f hc hf
  exact C129_inline_refuted (List.mem_of_getElem? hf) (field_inline hn hfb (inline_base hb hin)) hs env ns x

/-- **C149 does not hold: elements.**  If the dimensions of arrays are enforced and a column can be null and is declared with
one dimension, a row that is a datum has null or the empty array in the column: the elements of any other array have no
schema. -/
theorem C149_elements_refuted {cm : CaseMap} {cfg : PgConfig} {cols : List Dict} {reg live : Registry} {t : RType} {schema : Dict}
    {xs : List Val} {i : Nat} {c : Dict} {y : Val} (ht : (Dialect.postgresql cfg).toRecap cm cols reg = (.ok t, live))
    (hs : Avro.fromRecap live t = .ok schema) (hc : cols[i]? = some c) (hn : DeclaredNullable cm c)
    (hd : DataType cm c "array") (he : cfg.enforce = true) (h1 : Dict.get? c "ATTNDIMS" = some (.int 1))
    (hy : xs[i]? = some y) (hx : Datum [] .none (.dict schema) (.struct xs)) : y = .null ∨ y = .list [] := by
  obtain ⟨fs, rfl, hf⟩ := toRecap_ok ht
  obtain ⟨hl, hi⟩ := fieldsOf_index hf
  obtain ⟨f, hf⟩ : ∃ f, fs[i]? = some f :=
    ⟨_, List.getElem?_eq_getElem (by have := (List.getElem?_eq_some_iff.mp hc).1; omega)⟩
  obtain ⟨b, s, s', hb, hfb⟩ := hi i c f hc hf
  obtain ⟨v, rfl⟩ := enforced_base hb hd he h1
  obtain ⟨a, a', rfl⟩ := nullable_list hn hfb
  obtain ⟨n, q, ys, e, h⟩ := struct_datum hs hx
  cases e
  obtain ⟨w0, D, w, y', g1, g2, g3, g4, g5⟩ := h i _ hf
  cases hy.symm.trans g4
  exact optional_list g1 g2 g3 g5

/-! ## BigQuery -/

/-- **C149** for BigQuery: every row of a table is a datum.  What is missing: arrays and records that are `REQUIRED`
(`C149_bigquery_inline_refuted`), dates, times and numbers that are `REQUIRED` (`C149_bigquery_required_refuted`), and
values that are not within the type that is read for their column (C126). -/
theorem C149_bigquery_partial {fields : List BigQuery.Field} {live : Registry} {t : RType} {schema : Dict} {x : Val}
    (ht : BigQuery.toRecap fields = .ok t) (hs : Avro.fromRecap live t = .ok schema)
    (hx : BigQueryElement BigQueryFits (NestedRows.bigQueryRow fields) x) (he : ∀ f ∈ fields, BigQueryExpressible f) :
    Datum [] .none (.dict schema) x := by
  unfold BigQuery.toRecap at ht
  obtain ⟨ts, h1, ht⟩ := bind_ok ht
  cases ht
  refine C129_values_partial (.struct rfl (.inl fun v hv => by cases hv) (bigquery_fields fields ts h1 he)) hs ?_
  obtain ⟨hl, hi⟩ := bq_fields fields ts h1
  unfold NestedRows.bigQueryRow at hx
  cases hx with
  | leaf h => exact (scalar_record h rfl (by simp)).elim
  | record _ hlen h =>
    refine .struct (by omega) fun i f y hf hy => ?_
    have hlt := (List.getElem?_eq_some_iff.mp hf).1
    exact hi i _ f (List.getElem?_eq_getElem (by omega)) hf y (h i _ y (List.getElem?_eq_getElem (by omega)) hy)

/-- **C149 does not hold: arrays and records.**  If a table has a column with mode `REPEATED`, or a record that cannot be
null, the schema that is written for the table has no data at all. -/
theorem C149_bigquery_inline_refuted {fields : List BigQuery.Field} {live : Registry} {t : RType} {schema : Dict}
    {ft mode : String} {n d df l p s : PyVal} {fs : List BigQuery.Field} (ht : BigQuery.toRecap fields = .ok t)
    (hs : Avro.fromRecap live t = .ok schema) (hf : .mk ft mode n d df l p s fs ∈ fields)
    (hi : mode = "REPEATED" ∨ ft ∈ ["RECORD", "STRUCT"] ∧ mode ≠ "NULLABLE") (env : Env) (ns : Option String) (x : Val) :
    ¬Datum env ns (.dict schema) x := by
  unfold BigQuery.toRecap at ht
  obtain ⟨ts, h1, ht⟩ := bind_ok ht
  cases ht
  obtain ⟨u, hu, h2⟩ := bigquery_read h1 hf
  exact C129_inline_refuted hu (bigquery_inline h2 hi) hs env ns x

/-- **C149 does not hold: dates, times, numbers.**  If a table has a column with a date, a time, a point in time or a number
that is `REQUIRED`, no row of it is a datum of what is written for the table. -/
theorem C149_bigquery_required_refuted {fields : List BigQuery.Field} {live : Registry} {t : RType} {schema : Dict} {x : Val}
    {ft mode : String} {n d df l p s : PyVal} {fs : List BigQuery.Field} (ht : BigQuery.toRecap fields = .ok t)
    (hs : Avro.fromRecap live t = .ok schema) (hx : BigQueryElement (fun _ _ => True) (NestedRows.bigQueryRow fields) x)
    (hf : .mk ft mode n d df l p s fs ∈ fields) (hm : mode ∉ ["NULLABLE", "REPEATED"])
    (hft : ft ∈ pointsOfBigQuery ++ numbersOfBigQuery) : ¬Datum [] .none (.dict schema) x := by
  intro hdat
  unfold BigQuery.toRecap at ht
  obtain ⟨ts, h1, ht⟩ := bind_ok ht
  cases ht
  obtain ⟨i, hf⟩ := List.mem_iff_getElem?.mp hf
  obtain ⟨u, hu, h2⟩ := bigquery_index fields ts h1 i _ hf
  obtain ⟨k, hlog⟩ := bigquery_required h2 hm hft
  obtain ⟨m, q, ys, rfl, h⟩ := struct_datum hs hdat
  obtain ⟨v, D, w, y, g1, g2, g3, g4, g5⟩ := h i u hu
  have hy := annotated_datum hlog g1 g2 g3 g5
  unfold NestedRows.bigQueryRow at hx
  cases hx with
  | leaf h => exact (scalar_record h rfl (by simp)).elim
  | record _ hlen h =>
    rcases stored_required (h i _ y hf g4) hm hft with ⟨_, rfl⟩ | ⟨_, rfl⟩ | ⟨_, rfl⟩ | ⟨_, _, rfl⟩ <;> simp at hy

/-! ## Hive -/

/-- A name with a dot has a last one. -/
theorem last_dot : ∀ (l : List Char), '.' ∈ l → ∃ p x, l = p ++ '.' :: x ∧ '.' ∉ x
  | [], h => by cases h
  | c :: l, h => by
    by_cases hl : '.' ∈ l
    · obtain ⟨p, x, rfl, hx⟩ := last_dot l hl
      exact ⟨c :: p, x, rfl, hx⟩
    · rcases List.mem_cons.mp h with rfl | h
      · exact ⟨[], l, rfl, hl⟩
      · exact absurd h hl

theorem table_named {s : String} {a : Attrs} (hs : Dict.get? a.extra "name" = some (.str s))
    (hn : ∀ x, s = "." ++ x → '.' ∈ x.toList) : Named a := by
  by_cases h : '.' ∈ s.toList
  · obtain ⟨p, x, hp, hx⟩ := last_dot _ h
    have e : s = String.ofList p ++ "." ++ String.ofList x := by
      apply String.toList_injective
      simp [hp]
    refine .inr (.inr ⟨String.ofList p, String.ofList x, e ▸ hs, by simpa using hx, fun h0 => ?_⟩)
    rw [h0] at e
    exact hx (by simpa using hn (String.ofList x) (by simpa using e))
  · exact .inr (.inl ⟨s, hs, h⟩)

/-- **C149** for Hive: every row of a table is a datum.  What is missing: lists of anything but `void`
(`C149_hive_lists_refuted`), maps, names of tables whose only dot is the first character, and values that are not within the type that is read for their column (C126). -/
theorem C149_hive_partial {table : Hive.HTable} {live : Registry} {t : RType} {schema : Dict} {x : Val}
    (ht : Hive.toRecap table = .ok t) (hs : Avro.fromRecap live t = .ok schema)
    (hx : HiveStored HiveFits (NestedRows.hiveRow table) x) (hx0 : x ≠ .null) (hn : ∀ x, table.name = "." ++ x → '.' ∈ x.toList)
    (he : ∀ c ∈ table.columns, HiveExpressible c.type) : Datum [] .none (.dict schema) x := by
  unfold Hive.toRecap at ht
  obtain ⟨ts, h1, ht⟩ := bind_ok ht
  cases ht
  refine C129_values_partial (.struct rfl (table_named rfl hn) (hive_rows _ ts h1 he)) hs ?_
  obtain ⟨hl, hi⟩ := hive_columns table.columns ts h1
  unfold NestedRows.hiveRow at hx
  cases hx with
  | null => exact absurd rfl hx0
  | struct hlen h =>
    rw [List.length_map] at hlen
    refine .struct (by omega) fun i f y hf hy => ?_
    have hlt := (List.getElem?_eq_some_iff.mp hf).1
    have hc : table.columns[i]? = some (table.columns[i]'(by omega)) := List.getElem?_eq_getElem _
    refine hi i _ f hc hf y (h i ((table.columns[i]'(by omega)).name, _) y ?_ hy)
    rw [List.getElem?_map, hc]
    rfl

/-- **C149 does not hold: lists.**  If a column of a table is a list of anything but `void`, a row that is a datum has null
or the empty list in the column. -/
theorem C149_hive_lists_refuted {table : Hive.HTable} {live : Registry} {t : RType} {schema : Dict} {xs : List Val} {i : Nat}
    {c : Hive.HColumn} {e : Hive.HType} {y : Val} (ht : Hive.toRecap table = .ok t) (hs : Avro.fromRecap live t = .ok schema)
    (hc : table.columns[i]? = some c) (he : c.type = .list e) (hv : e ≠ .prim .void) (hy : xs[i]? = some y)
    (hx : Datum [] .none (.dict schema) (.struct xs)) : y = .null ∨ y = .list [] := by
  unfold Hive.toRecap at ht
  obtain ⟨ts, h1, ht⟩ := bind_ok ht
  cases ht
  obtain ⟨hl, hi⟩ := NestedRows.parseColumns_index h1
  obtain ⟨f, hf⟩ : ∃ f, ts[i]? = some f :=
    ⟨_, List.getElem?_eq_getElem (by have := (List.getElem?_eq_some_iff.mp hc).1; omega)⟩
  have h2 := hi i c f hc hf
  rw [he, Hive.parse] at h2
  obtain ⟨u, h3, h2⟩ := bind_ok h2
  obtain ⟨us, a, rfl⟩ := hive_union h3 hv
  cases h2
  obtain ⟨n, q, ys, e, h⟩ := struct_datum hs hx
  cases e
  obtain ⟨w0, D, w, y', g1, g2, g3, g4, g5⟩ := h i _ hf
  cases hy.symm.trans g4
  exact optional_list g1 g2 g3 g5

/-! ## The full statements fail -/

/-- A row with one column. -/
theorem one_stored {cm : CaseMap} {d : Dialect} {c : Dict} {x : Val} (h : Stored cm d c x) : StoredRow cm d [c] [x] := by
  refine ⟨rfl, fun i c' x' hc hx => ?_⟩
  match i, hc, hx with
  | 0, hc, hx => cases hc; cases hx; exact .inl h

/-- `d DATETIME NOT NULL`, for MySQL. -/
def atMysql : Dict := sqlColumn "d" "datetime" "NO" .none .none .none (.int 6)

/-- `d TIMESTAMP NOT NULL`, for PostgreSQL. -/
def atPostgresql : Dict := pgColumn "d" "timestamp without time zone" "timestamp" "NO" .none (.int 0)

/-- `d DATE NOT NULL`, for Snowflake. -/
def onSnowflake : Dict := sqlColumn "d" "DATE" "NO" .none .none .none .none

theorem required {c : Dict} (h : Dict.get? c "IS_NULLABLE" = some (.str "NO")) : ¬DeclaredNullable asciiCase c := by
  rintro ⟨s, hs, hu⟩
  cases h.symm.trans hs
  revert hu
  decide +kernel

/-- **C149 does not hold of MySQL, PostgreSQL and Snowflake**: of the tables with a required date or point in time. -/
theorem C149_rows_refuted : ¬RowsAreData asciiCase .mysql ∧ (∀ cfg, ¬RowsAreData asciiCase (.postgresql cfg)) ∧
    ¬RowsAreData asciiCase .snowflake := by
  refine ⟨fun h => ?_, fun cfg h => ?_, fun h => ?_⟩
  · have hd : DataType asciiCase atMysql "datetime" := ⟨"datetime", rfl, by decide +kernel⟩
    have hs : StoredRow asciiCase .mysql [atMysql] [.instant 0] :=
      one_stored (.instant (p := 6) hd (by simp) rfl (by omega) ⟨0, rfl⟩ (by simp [CommonEra]))
    exact C149_required_refuted (d := .mysql) (cols := [atMysql]) (reg := newRegistry) rfl rfl hs (List.mem_cons_self ..) (required rfl) hd
      (by simp [pointTypes]) (h _ newRegistry _ _ _ _ rfl rfl hs)
  · have hd : DataType asciiCase atPostgresql "timestamp without time zone" := ⟨_, rfl, by decide +kernel⟩
    have hs : StoredRow asciiCase (.postgresql cfg) [atPostgresql] [.instant 0] :=
      one_stored (.instant (p := 6) hd (by simp) rfl (by omega) ⟨0, rfl⟩ (by omega) (by omega))
    exact C149_required_refuted (d := .postgresql cfg) (cols := [atPostgresql]) (reg := newRegistry) rfl rfl hs (List.mem_cons_self ..)
      (required rfl) hd (by simp [pointTypes]) (h _ newRegistry _ _ _ _ rfl rfl hs)
  · have hd : DataType asciiCase onSnowflake "date" := ⟨"DATE", rfl, by decide +kernel⟩
    have hs : StoredRow asciiCase .snowflake [onSnowflake] [.date 0] := one_stored (.date hd (by simp [CommonDay]))
    exact C149_required_refuted (d := .snowflake) (cols := [onSnowflake]) (reg := newRegistry) rfl rfl hs (List.mem_cons_self ..)
      (required rfl) hd (by simp [pointTypes]) (h _ newRegistry _ _ _ _ rfl rfl hs)

/-- `n INTEGER NOT NULL`, for SQLite. -/
def anInteger : Dict := liteColumn "n" (.str "INTEGER") "NO" .none .none

theorem long_text {s t : String} (h : Primitive s (.str t)) (hs : s = "long") : False := by
  generalize hx : Val.str t = x at h
  cases h <;> simp at hs hx

/-- **C149 does not hold of SQLite**: a column for integers can have text in it. -/
theorem C149_sqlite_refuted : ¬RowsAreData asciiCase .sqlite := by
  intro h
  have := h [anInteger] newRegistry _ _ _ [.str "x"] rfl rfl (one_stored (.text (by decide +kernel)))
  obtain ⟨n, q, ys, e, h⟩ := struct_datum (live := newRegistry) (fs := [.int (.int 64) (.bool true) { extra := [("name", .str "n")] }]) (a := {})
    rfl this
  cases e
  obtain ⟨v, D, w, y, h1, h2, h3, h4, h5⟩ := h 0 _ rfl
  cases h4
  cases n with
  | zero => cases h1
  | succ n =>
    have e : Avro.convertF newRegistry (n + 1) (.int (.int 64) (.bool true) { extra := [("name", .str "n")] }) =
        .ok (.dict [("name", .str "n"), ("type", .str "long")]) := by
      unfold Avro.convertF
      rfl
    rw [e] at h1
    cases h1
    cases h2
    cases h3
    have key : ∀ s, Datum [] q (.str s) (.str "x") → s = "long" → False := by
      intro s hs e
      cases hs with
      | primitiveName h => exact long_text h e
      | reference _ h => cases h
    exact key _ h5 rfl

/-- `a ARRAY<INT64>`, for BigQuery. -/
def anArray : List BigQuery.Field := [.mk "INTEGER" "REPEATED" (.str "a") .none .none .none .none .none []]

/-- `a ARRAY<INT>`, for Hive. -/
def aList : Hive.HTable := { name := "t", columns := [{ name := "a", type := .list (.prim .int) }] }

/-- **C149 does not hold of BigQuery and Hive**: of the tables with an array of integers. -/
theorem C149_nested_refuted : ¬BigQueryRowsAreData ∧ ¬HiveRowsAreData := by
  refine ⟨fun h => ?_, fun h => ?_⟩
  · refine C149_bigquery_inline_refuted (fields := anArray) (live := newRegistry) rfl rfl (List.mem_cons_self ..) (.inl rfl) [] .none
      (.struct [.list []]) (h anArray newRegistry _ _ _ rfl rfl (.record (by simp) rfl fun i g x hg hx => ?_))
    match i, hg, hx with
    | 0, hg, hx => cases hg; cases hx; exact .repeated nofun
    | _ + 1, hg, _ => cases hg
  · have hst : HiveStored (fun _ _ => True) (NestedRows.hiveRow aList) (.struct [.list [.int 1]]) := by
      refine .struct rfl fun i g x hg hx => ?_
      match i, hg, hx with
      | 0, hg, hx =>
        cases hg; cases hx
        refine .list fun y hy => ?_
        cases List.mem_singleton.mp hy
        exact .prim (.int (by simp [Avro.Spec.IntValue])) trivial
    have := C149_hive_lists_refuted (table := aList) (live := newRegistry) (i := 0) (xs := [.list [.int 1]]) rfl rfl rfl rfl nofun rfl
      (h _ newRegistry _ _ _ rfl rfl hst nofun)
    simp at this

/-! ## Cases that meet the hypotheses -/

/-- `(id BIGINT NOT NULL, price DECIMAL(10, 0), at DATETIME)`, for MySQL. -/
def sales : List Dict :=
  [sqlColumn "id" "bigint" "NO" .none .none (.int 19) .none, sqlColumn "price" "decimal" "YES" .none .none (.int 10) .none,
    sqlColumn "at" "datetime" "YES" .none .none .none (.int 6)]

/-- Its schema. -/
def salesSchema : Dict :=
  [("type", .str "record"), ("fields", .list [
    .dict [("name", .str "id"), ("type", .str "long")],
    .dict [("name", .str "price"), ("default", .none), ("type", .list [.str "null",
      .dict [("type", .str "bytes"), ("logicalType", .str "decimal"), ("precision", .int 10), ("scale", .int 0)]])],
    .dict [("name", .str "at"), ("default", .none), ("type", .list [.str "null",
      .dict [("type", .str "long"), ("logicalType", .str "timestamp-micros")]])]])]

/-- The row `(7, 12, NULL)` is a datum of the schema. -/
example : ∃ t live, Dialect.mysql.toRecap asciiCase sales newRegistry = (.ok t, live) ∧
    Avro.fromRecap live t = .ok salesSchema ∧ Datum [] .none (.dict salesSchema) (.struct [.int 7, .decimal 12 0, .null]) := by
  have d1 : DataType asciiCase (sqlColumn "id" "bigint" "NO" .none .none (.int 19) .none) "bigint" := ⟨_, rfl, by decide +kernel⟩
  have d2 : DataType asciiCase (sqlColumn "price" "decimal" "YES" .none .none (.int 10) .none) "decimal" := ⟨_, rfl, by decide +kernel⟩
  have d3 : DataType asciiCase (sqlColumn "at" "datetime" "YES" .none .none .none (.int 6)) "datetime" := ⟨_, rfl, by decide +kernel⟩
  have hu : ∀ c ∈ sales, ¬Unsigned c := by
    intro c hc
    simp only [sales, List.mem_cons, List.not_mem_nil, or_false] at hc
    rcases hc with rfl | rfl | rfl <;> rintro ⟨s, hs, -⟩ <;> cases hs
  have key : ∀ t live, Dialect.mysql.toRecap asciiCase sales newRegistry = (.ok t, live) →
      Avro.fromRecap live t = .ok salesSchema → Datum [] .none (.dict salesSchema) (.struct [.int 7, .decimal 12 0, .null]) := by
    intro t live ht hs
    refine C149_rows_partial ht hs ⟨rfl, fun i c x hc hx => .inl ?_⟩ (fun c hc => ?_)
      fun i c x hc hx j hj => hu c (List.mem_of_getElem? hc)
    · match i, hc, hx with
      | 0, hc, hx =>
        cases hc; cases hx
        exact .signed (n := 64) d1 (by decide) (hu _ (List.mem_cons_self ..)) (by simp [Avro.Spec.IntValue])
      | 1, hc, hx =>
        cases hc; cases hx
        exact .decimal (p := 10) (q := 0) d2 rfl rfl (by omega) (by decide)
      | 2, hc, hx =>
        cases hc; cases hx
        exact .null ⟨"YES", rfl, by decide +kernel⟩
    · simp only [sales, List.mem_cons, List.not_mem_nil, or_false] at hc
      rcases hc with rfl | rfl | rfl
      · exact .direct d1 (by simp [directTypes])
      · exact .number (p := 10) (q := 0) ⟨"YES", rfl, by decide +kernel⟩ d2 (by simp [numberTypes]) rfl rfl (by omega) (by omega)
      · exact .point ⟨"YES", rfl, by decide +kernel⟩ d3 (by simp [pointTypes])
  exact ⟨_, _, rfl, rfl, key _ _ rfl rfl⟩

/-- A MySQL table with the column `b BINARY(4) NOT NULL` has a schema, which has no data. -/
example : ∃ t live schema, Dialect.mysql.toRecap asciiCase [sqlColumn "b" "binary" "NO" .none (.int 4) .none .none] newRegistry = (.ok t, live) ∧
    Avro.fromRecap live t = .ok schema ∧ ∀ x, ¬Datum [] .none (.dict schema) x :=
  ⟨_, _, _, rfl, rfl, fun x => C149_inline_refuted (d := .mysql) (cm := asciiCase) (cols := [sqlColumn "b" "binary" "NO" .none (.int 4) .none .none])
    (reg := newRegistry) (c := sqlColumn "b" "binary" "NO" .none (.int 4) .none .none) rfl rfl (List.mem_singleton.mpr rfl) (required rfl)
    (.fixed (dt := "binary") ⟨"binary", rfl, by decide +kernel⟩ (by simp)) [] .none x⟩

/-- A PostgreSQL table with the column `tags TEXT[]`. -/
def tagged : List Dict := [pgColumn "tags" "ARRAY" "_text" "YES" .none (.int 1)]

/-- It has a schema, of which the row with the array of one text is not a datum. -/
example : ∃ t live schema, (Dialect.postgresql { enforce := true }).toRecap asciiCase tagged newRegistry = (.ok t, live) ∧
    Avro.fromRecap live t = .ok schema ∧ StoredRow asciiCase (.postgresql { enforce := true }) tagged [.list [.str "a"]] ∧
    ¬Datum [] .none (.dict schema) (.struct [.list [.str "a"]]) := by
  have hd : DataType asciiCase (pgColumn "tags" "ARRAY" "_text" "YES" .none (.int 1)) "array" := ⟨"ARRAY", rfl, by decide +kernel⟩
  have key : ∀ t live schema, (Dialect.postgresql { enforce := true }).toRecap asciiCase tagged newRegistry = (.ok t, live) →
      Avro.fromRecap live t = .ok schema → ¬Datum [] .none (.dict schema) (.struct [.list [.str "a"]]) := by
    intro t live schema ht hs hx
    have := C149_elements_refuted (i := 0) ht hs rfl ⟨"YES", rfl, by decide +kernel⟩ hd rfl rfl rfl hx
    simp at this
  refine ⟨_, _, _, rfl, rfl, ⟨rfl, fun i c x hc hx => ?_⟩, key _ _ _ rfl rfl⟩
  match i, hc, hx with
  | 0, hc, hx =>
    cases hc; cases hx
    refine .inr ⟨⟨_, rfl⟩, .inr ⟨"text", 1, ⟨hd, rfl⟩, by omega, by omega, _, rfl, fun y hy => ?_⟩⟩
    cases List.mem_singleton.mp hy
    exact .inr (.text (by decide +kernel))

/-- `id INT64 NOT NULL, item STRUCT<sku STRING(10) NOT NULL, price NUMERIC(10)>`, for BigQuery. -/
def orders : List BigQuery.Field :=
  [.mk "INTEGER" "REQUIRED" (.str "id") .none .none .none .none .none [],
   .mk "RECORD" "NULLABLE" (.str "item") .none .none .none .none .none
     [.mk "STRING" "REQUIRED" (.str "sku") .none .none (.int 10) .none .none [],
      .mk "NUMERIC" "NULLABLE" (.str "price") .none .none .none (.int 10) .none []]]

/-- The row `(7, ("a", 12))` is a datum of the schema. -/
example : ∃ t schema, BigQuery.toRecap orders = .ok t ∧ Avro.fromRecap newRegistry t = .ok schema ∧
    Datum [] .none (.dict schema) (.struct [.int 7, .struct [.str "a", .decimal 12 0]]) := by
  refine ⟨_, _, rfl, rfl, C149_bigquery_partial (fields := orders) (live := newRegistry) rfl rfl
    (.record (by simp) rfl fun i f x hf hx => ?_) fun f hf => ?_⟩
  · match i, hf, hx with
    | 0, hf, hx =>
      cases hf; cases hx
      exact .single (by decide) (.leaf (.int (by simp) (by simp [Avro.Spec.IntValue])) (.other nofun nofun nofun))
    | 1, hf, hx =>
      cases hf; cases hx
      refine .single (by decide) (.record (by simp) rfl fun i f x hf hx => ?_)
      match i, hf, hx with
      | 0, hf, hx => cases hf; cases hx; exact .single (by decide) (.leaf (.stringMax (by decide +kernel)) (.narrow (by decide +kernel)))
      | 1, hf, hx =>
        cases hf; cases hx
        exact .single (by decide) (.leaf (.numericP (p := 10) (by omega) (by omega) (by decide)) .decimal)
  · simp only [orders, List.mem_cons, List.not_mem_nil, or_false] at hf
    rcases hf with rfl | rfl
    · exact .plain (by simp [plainTypes]) (by decide)
    · refine .record (by simp) fun f hf => ?_
      simp only [List.mem_cons, List.not_mem_nil, or_false] at hf
      rcases hf with rfl | rfl
      · exact .plain (by simp [plainTypes]) (by decide)
      · exact .number (p := 10) (q := 0) (by simp [numbersOfBigQuery]) (by omega) (by omega) (.inr ⟨rfl, rfl⟩)

/-- `id BIGINT, who STRUCT<name: VARCHAR(20), born: DATE>, tag UNIONTYPE<INT, VARCHAR(5)>, gap ARRAY<VOID>`, for Hive. -/
def visits : Hive.HTable :=
  { name := "shop.visits", columns := [{ name := "id", type := .prim .long },
      { name := "who", type := .struct [("name", .varchar 20), ("born", .prim .date)] },
      { name := "tag", type := .union [.prim .int, .varchar 5] }, { name := "gap", type := .list (.prim .void) }] }

/-- The row `(7, ("Ada", NULL), "x", [NULL, NULL])` is a datum of the schema. -/
example : ∃ t schema, Hive.toRecap visits = .ok t ∧ Avro.fromRecap newRegistry t = .ok schema ∧
    Datum [] .none (.dict schema) (.struct [.int 7, .struct [.str "Ada", .null], .str "x", .list [.null, .null]]) := by
  refine ⟨_, _, rfl, rfl, C149_hive_partial (table := visits) (live := newRegistry) rfl rfl
    (.struct rfl fun i f x hf hx => ?_) nofun (fun x hx => by have := congrArg (fun s => s.toList.head?) hx; simp [visits] at this) fun c hc => ?_⟩
  · match i, hf, hx with
    | 0, hf, hx => cases hf; cases hx; exact .prim (.long (by simp [Avro.Spec.IntValue])) (.other nofun nofun)
    | 1, hf, hx =>
      cases hf; cases hx
      refine .struct rfl fun i f x hf hx => ?_
      match i, hf, hx with
      | 0, hf, hx => cases hf; cases hx; exact .varchar (by decide +kernel) (.narrow (by decide +kernel))
      | 1, hf, hx => cases hf; cases hx; exact .null
    | 2, hf, hx =>
      cases hf; cases hx
      exact .union (List.mem_cons_of_mem _ (List.mem_cons_self ..)) (.varchar (by decide +kernel) (.narrow (by decide +kernel)))
    | 3, hf, hx =>
      cases hf; cases hx
      refine .list fun y hy => ?_
      simp only [List.mem_cons, List.not_mem_nil, or_false, or_self] at hy
      subst hy
      exact .null
  · simp only [visits, List.mem_cons, List.not_mem_nil, or_false] at hc
    rcases hc with rfl | rfl | rfl | rfl
    · exact .prim (by simp)
    · refine .struct fun f hf => ?_
      simp only [List.mem_cons, List.not_mem_nil, or_false] at hf
      rcases hf with rfl | rfl
      · exact .varchar
      · exact .prim (by simp)
    · refine .union fun t ht => ?_
      simp only [List.mem_cons, List.not_mem_nil, or_false] at ht
      rcases ht with rfl | rfl
      · exact .prim (by simp)
      · exact .varchar
    · exact .voids

end Recap.AvroRows
