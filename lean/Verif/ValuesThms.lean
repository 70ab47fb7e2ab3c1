import Verif.ValuesNested
import Verif.BigQueryThms

/-!
# C126: every value in a column is a value of its type

`ValuesSpec.lean` says which values a Recap type has and which values each database stores in a column.
The `_partial` theorems say which of the stored values are values of the type of the field; the
`_refuted` theorems show values that are not.
-/

set_option autoImplicit false

namespace Recap

open Relational Spec Values RType
open Avro.Spec (IntValue)

/-! ## Relational databases -/

theorem held_of_parse {cm : CaseMap} {d : Dialect} {cols : List Dict} {reg reg' : Registry} {fs : List RType} {a : Attrs}
    {i : Nat} {c : Dict} {f : RType} {v : Val} (h : d.toRecap cm cols reg = (.ok (.struct fs a), reg'))
    (hc : cols[i]? = some c) (hf : fs[i]? = some f)
    (hp : ∀ b s s', d.parse cm c s = (.ok b, s') → (v = .null ∧ DeclaredNullable cm c) ∨ Holds b v) : Holds f v := by
  obtain ⟨fs', h2, h1⟩ := toRecap_ok h
  cases h2
  obtain ⟨b, s, s', h3, h4⟩ := (fieldsOf_index h1).2 i c f hc hf
  exact fieldOf_holds h4 (hp b s s' h3)

/-- **C126 for MySQL.**  What is missing: integers in columns declared `UNSIGNED`. -/
theorem C126_mysql_partial (cm : CaseMap) (cols : List Dict) (reg reg' : Registry) (fs : List RType) (a : Attrs)
    (i : Nat) (c : Dict) (f : RType) (v : Val)
    (h : Dialect.mysql.toRecap cm cols reg = (.ok (.struct fs a), reg')) (hc : cols[i]? = some c) (hf : fs[i]? = some f)
    (hv : Stored cm .mysql c v) (hu : ∀ i, v = .int i → ¬Unsigned c) : Holds f v := by
  refine held_of_parse h hc hf (fun b s s' hp => ?_)
  simp only [Dialect.parse, stateless, Prod.mk.injEq] at hp
  exact mysql_holds hp.1 hu hv

/-- **C126 for PostgreSQL.**  What is missing: numbers without a declared number of digits or with
more than 76, points in time after the year 294246, and arrays. -/
theorem C126_postgresql_partial (cm : CaseMap) (cfg : PgConfig) (cols : List Dict) (reg reg' : Registry)
    (fs : List RType) (a : Attrs) (i : Nat) (c : Dict) (f : RType) (v : Val)
    (h : (Dialect.postgresql cfg).toRecap cm cols reg = (.ok (.struct fs a), reg')) (hc : cols[i]? = some c)
    (hf : fs[i]? = some f) (hv : Stored cm (.postgresql cfg) c v)
    (hi : ∀ ns, v = .instant ns → ns ≤ 9223372036854775807000)
    (hd : ∀ m s, v = .decimal m s → ∃ p : Nat, Dict.get? c "NUMERIC_PRECISION" = some (.int p) ∧ p ≤ 76) :
    Holds f v :=
  held_of_parse h hc hf (fun _ _ _ hp => pg_holds hp ⟨hi, hd⟩ hv)

/-- **C126 for Snowflake.**  What is missing: points in time before 1677 and after 2262, and times of day
later than 2.147483647 seconds after midnight. -/
theorem C126_snowflake_partial (cm : CaseMap) (cols : List Dict) (reg reg' : Registry) (fs : List RType) (a : Attrs)
    (i : Nat) (c : Dict) (f : RType) (v : Val)
    (h : Dialect.snowflake.toRecap cm cols reg = (.ok (.struct fs a), reg')) (hc : cols[i]? = some c)
    (hf : fs[i]? = some f) (hv : Stored cm .snowflake c v)
    (hi : ∀ ns, v = .instant ns → -9223372036854775808 ≤ ns ∧ ns ≤ 9223372036854775807)
    (ht : ∀ ns, v = .time ns → ns ≤ 2147483647) : Holds f v := by
  refine held_of_parse h hc hf (fun b s s' hp => ?_)
  simp only [Dialect.parse, stateless, Prod.mk.injEq] at hp
  exact snowflake_holds hp.1 ⟨hi, ht⟩ hv

/-- **C126 for SQLite.**  What is missing: values of a storage class other than that of the column's
affinity, and values that ignore the length or the precision of the declared type. -/
theorem C126_sqlite_partial (cm : CaseMap) (cols : List Dict) (reg reg' : Registry) (fs : List RType) (a : Attrs)
    (i : Nat) (c : Dict) (f : RType) (v : Val)
    (h : Dialect.sqlite.toRecap cm cols reg = (.ok (.struct fs a), reg')) (hc : cols[i]? = some c)
    (hf : fs[i]? = some f) (hv : Stored cm .sqlite c v) (hs : SQLiteFits cm c v) : Holds f v := by
  refine held_of_parse h hc hf (fun b s s' hp => ?_)
  simp only [Dialect.parse, stateless, Prod.mk.injEq] at hp
  exact sqlite_holds hp.1 hs hv

/-! ### Values that are lost -/

theorem not_held {cm : CaseMap} {d : Dialect} {c : Dict} {f : RType} {reg reg' : Registry} {v : Val}
    (h : d.toRecap cm [c] reg = (.ok (.struct [f] {}), reg')) (hv : Stored cm d c v) (hn : ¬Holds f v) :
    ¬ColumnsHeld cm d :=
  fun hh => hn (hh [c] reg reg' [f] {} 0 c f v h rfl rfl hv)

/-- A MySQL column `n TINYINT UNSIGNED NOT NULL`. -/
def unsignedColumn : Dict :=
  sqlColumn "n" "tinyint" "NO" .none .none (.int 3) .none ++ [("COLUMN_TYPE", .str "tinyint unsigned")]

/-- **C126 does not hold of MySQL**: the field for a `TINYINT UNSIGNED` column is a signed integer of 8
bits, which 200 is not. -/
theorem C126_mysql_refuted : ¬ColumnsHeld asciiCase .mysql := by
  refine not_held (c := unsignedColumn) (v := .int 200) (reg := newRegistry)
    (f := .int (.int 8) (.bool true) { extra := [("name", .str "n")] }) (reg' := newRegistry) rfl
    (.unsigned (dt := "tinyint") (n := 8) ⟨"tinyint", rfl, by decide +kernel⟩ (by decide)
      ⟨"tinyint unsigned", rfl, "tinyint ".toList, [], by decide +kernel⟩ (by simp only [IntValue]; decide +kernel)) ?_
  intro h
  cases h with
  | int _ hi =>
    simp only [IntValue] at hi
    revert hi
    decide +kernel

/-- A PostgreSQL column `x NUMERIC NOT NULL`. -/
def numericColumn : Dict :=
  [("COLUMN_NAME", .str "x"), ("DATA_TYPE", .str "numeric"), ("IS_NULLABLE", .str "NO"), ("COLUMN_DEFAULT", .none),
    ("CHARACTER_OCTET_LENGTH", .none), ("CHARACTER_MAXIMUM_LENGTH", .none), ("UDT_NAME", .str "numeric"),
    ("ATTNDIMS", .int 0), ("NUMERIC_PRECISION", .none), ("NUMERIC_SCALE", .none)]

/-- **C126 does not hold of PostgreSQL**: the type of the field for a `NUMERIC` column is a decimal
without a number of digits and a scale, so that no number is one of its values. -/
theorem C126_postgresql_refuted (cfg : PgConfig) : ¬ColumnsHeld asciiCase (.postgresql cfg) := by
  refine not_held (c := numericColumn) (v := .decimal 15 1) (reg := newRegistry)
    (f := .bytes (.int 32) (.bool false)
      { logical := .str "build.recap.Decimal", extra := [("precision", .none), ("scale", .none), ("name", .str "x")] }) (reg' := newRegistry) rfl
    (.free ⟨"numeric", rfl, by decide +kernel⟩ rfl rfl (by decide)) ?_
  intro h
  cases h with
  | decimal _ hp => cases hp

/-- A point in time in the year 294276 is in a `TIMESTAMP` column of PostgreSQL and does not fit into 64
bits of microseconds. -/
theorem C126_postgresql_timestamp_refuted (cfg : PgConfig) : ¬ColumnsHeld asciiCase (.postgresql cfg) := by
  refine not_held (c := pgColumn "t" "timestamp without time zone" "timestamp" "NO" .none (.int 0))
    (v := .instant 9224318000000000000000) (reg := newRegistry)
    (f := .int (.int 64) (.bool true)
      { logical := .str "build.recap.Timestamp", extra := [("unit", .str "microsecond"), ("name", .str "t")] }) (reg' := newRegistry) rfl
    (.instant (dt := "timestamp without time zone") (p := 6) ⟨"timestamp without time zone", rfl, by decide +kernel⟩
      (by decide) rfl (by decide)
      ⟨9224318000000000000, by decide +kernel⟩ (by decide) (by decide)) ?_
  intro h
  obtain ⟨u, per, k, hu, hp, hi, hk⟩ := instant_inv h
  cases hu
  cases hp
  have := intValue_64.mp hi
  omega

/-- **C126 does not hold of Snowflake**: 2300-01-01 is in a `TIMESTAMP_NTZ` column and does not fit into 64
bits of nanoseconds. -/
theorem C126_snowflake_refuted : ¬ColumnsHeld asciiCase .snowflake := by
  refine not_held (c := sqlColumn "t" "TIMESTAMP_NTZ" "NO" .none .none .none (.int 9))
    (v := .instant 10413792000000000000) (reg := newRegistry)
    (f := .int (.int 64) (.bool true)
      { logical := .str "build.recap.Timestamp", extra := [("unit", .str "nanosecond"), ("name", .str "t")] })
    (reg' := newRegistry) rfl
    (.instant (dt := "timestamp_ntz") ⟨"TIMESTAMP_NTZ", rfl, by decide +kernel⟩ (by decide) ⟨by decide, by decide⟩) ?_
  intro h
  obtain ⟨u, per, k, hu, hp, hi, hk⟩ := instant_inv h
  cases hu
  cases hp
  have := intValue_64.mp hi
  omega

/-- **C126 does not hold of SQLite**: the text `abc` can be in a column declared `INTEGER`, whose field is
an integer. -/
theorem C126_sqlite_refuted : ¬ColumnsHeld asciiCase .sqlite := by
  refine not_held (c := liteColumn "n" (.str "INTEGER") "NO" .none .none) (v := .str "abc") (reg := newRegistry)
    (f := .int (.int 64) (.bool true) { extra := [("name", .str "n")] }) (reg' := newRegistry) rfl
    (.text (by decide +kernel)) ?_
  intro h
  cases h

/-- Nor does a declared length limit what is in a column: a text of eleven bytes can be in a column
declared `VARCHAR(10)`. -/
theorem C126_sqlite_length_refuted : ¬ColumnsHeld asciiCase .sqlite := by
  refine not_held (c := liteColumn "s" (.str "VARCHAR(10)") "NO" (.int 10) .none) (v := .str "hello world")
    (reg := newRegistry) (f := .string (.int 10) (.bool true) { extra := [("name", .str "s")] })
    (reg' := newRegistry) rfl (.text (by decide +kernel)) ?_
  intro h
  cases h with
  | uuid hl => cases hl
  | string _ hf =>
    rcases hf with hf | ⟨k, hk, hl⟩
    · cases hf
    · cases hk
      revert hl
      decide +kernel

/-! ### Cases that meet the hypotheses -/

/-- A nullable MySQL column `price DECIMAL(10, 0)` and the number 1234567890 in it. -/
example : Holds
    (.union [.null {}, .bytes (.int 32) (.bool false)
        { logical := .str "build.recap.Decimal", extra := [("precision", .int 10), ("scale", .int 0)] }]
      { extra := [("default", .none), ("name", .str "price")] }) (.decimal 1234567890 0) := by
  refine C126_mysql_partial asciiCase [sqlColumn "price" "decimal" "YES" .none .none (.int 10) .none] newRegistry newRegistry
    _ _ 0 _ _ _ rfl rfl rfl (.decimal (p := 10) (q := 0) ⟨"decimal", rfl, by decide +kernel⟩ rfl rfl (by decide) (by decide)) ?_
  intro i h
  cases h

/-- A nullable PostgreSQL column of timestamps with six decimal places, and null and 2024-01-01 in it. -/
example : ∃ f, ((Dialect.postgresql {}).toRecap asciiCase
      [pgColumn "t" "timestamp with time zone" "timestamptz" "YES" .none (.int 0)] newRegistry).1 = .ok (.struct [f] {}) ∧
    Holds f .null ∧ Holds f (.instant 1704067200000001000) := by
  refine ⟨_, rfl, ?_, ?_⟩
  · exact C126_postgresql_partial asciiCase {} [pgColumn "t" "timestamp with time zone" "timestamptz" "YES" .none (.int 0)]
      newRegistry newRegistry _ {} 0 _ _ _ rfl rfl rfl (.null ⟨"YES", rfl, by decide +kernel⟩) (by simp) (by simp)
  · exact C126_postgresql_partial asciiCase {} [pgColumn "t" "timestamp with time zone" "timestamptz" "YES" .none (.int 0)]
      newRegistry newRegistry _ {} 0 _ _ _ rfl rfl rfl
      (.instant (dt := "timestamp with time zone") (p := 6) ⟨_, rfl, by decide +kernel⟩ (by decide) rfl (by decide)
        ⟨1704067200000001, by decide +kernel⟩ (by decide) (by decide))
      (by rintro ns h; cases h; decide) (by simp)

/-- A Snowflake column of dates, and 9999-12-31 in it. -/
example : ∃ f, (Dialect.snowflake.toRecap asciiCase [sqlColumn "d" "DATE" "NO" .none .none .none .none] newRegistry).1 =
      .ok (.struct [f] {}) ∧ Holds f (.date 2932896) := by
  refine ⟨_, rfl, ?_⟩
  exact C126_snowflake_partial asciiCase [sqlColumn "d" "DATE" "NO" .none .none .none .none]
    newRegistry newRegistry _ {} 0 _ _ _ rfl rfl rfl (.date ⟨"DATE", rfl, by decide +kernel⟩ ⟨by decide, by decide⟩)
    (by simp) (by simp)

/-- A SQLite column with the type `DECIMAL`, which has the affinity NUMERIC, and a text in it. -/
example : ∃ f, (Dialect.sqlite.toRecap asciiCase [liteColumn "x" (.str "DECIMAL") "NO" .none .none] newRegistry).1 =
      .ok (.struct [f] {}) ∧ Holds f (.str "abc") := by
  refine ⟨_, rfl, ?_⟩
  have hn : ∀ p : String, contains "DECIMAL" p = false → ¬Occurs p "DECIMAL" := by
    intro p hp ho
    rw [(contains_iff _ _).mpr ho] at hp
    cases hp
  have hu : asciiCase.upper "DECIMAL" = "DECIMAL" := by decide +kernel
  refine C126_sqlite_partial asciiCase [liteColumn "x" (.str "DECIMAL") "NO" .none .none]
    newRegistry newRegistry _ {} 0 _ _ _ rfl rfl rfl (.text (by decide +kernel)) (.numeric ⟨_, "DECIMAL", rfl, .inl rfl, ?_⟩)
  rw [hu]
  refine .numeric (hn _ (by decide +kernel)) ?_ ?_ ?_
  · rintro (h | h | h) <;> exact hn _ (by decide +kernel) h
  · rintro (h | h)
    · exact hn _ (by decide +kernel) h
    · revert h; decide
  · rintro (h | h | h) <;> exact hn _ (by decide +kernel) h

/-! ## BigQuery -/

/-- **C126 for BigQuery.**  What is missing: `NUMERIC` and `BIGNUMERIC` without parameters, strings with a
declared length that have characters of several bytes, and times of day after 00:35:47.483647. -/
theorem C126_bigquery_partial (fields : List BigQuery.Field) (fs : List RType) (a : Attrs) (i : Nat)
    (c : BigQuery.Field) (f : RType) (v : Val) (h : BigQuery.toRecap fields = .ok (.struct fs a))
    (hc : fields[i]? = some c) (hf : fs[i]? = some f) (hv : BigQueryStored BigQueryFits c v) : Holds f v := by
  unfold BigQuery.toRecap at h
  obtain ⟨fs', h1, h⟩ := bind_ok h
  cases h
  exact (bq_fields fields _ h1).2 i c f hc hf v hv

/-- A row of `ordersFields`: an array with one record, whose second field is null. -/
example (fs : List RType) (a : Attrs) (f : RType) (h : BigQuery.toRecap ordersFields = .ok (.struct fs a))
    (hf : fs[1]? = some f) : Holds f (.list [.struct [.str "A-1", .null], .struct [.null, .decimal 1999 2]]) := by
  refine C126_bigquery_partial ordersFields fs a 1 _ f _ h rfl hf (.repeated (fun x hx => ?_))
  simp only [List.mem_cons, List.not_mem_nil, or_false] at hx
  rcases hx with rfl | rfl
  · refine .record (by decide) rfl (fun i g y hg hy => ?_)
    match i, hg, hy with
    | 0, hg, hy =>
      cases hg; cases hy
      exact .single (by decide) (.leaf (.stringMax (by decide +kernel)) (.narrow (by decide +kernel)))
    | 1, hg, hy => cases hg; cases hy; exact .null
    | _ + 2, hg, _ => simp at hg
  · refine .record (by decide) rfl (fun i g y hg hy => ?_)
    match i, hg, hy with
    | 0, hg, hy => cases hg; cases hy; exact .null
    | 1, hg, hy =>
      cases hg; cases hy
      exact .single (by decide) (.leaf (.numericPS (p := 10) (q := 2) (by decide) (by decide) (by decide)) .decimal)
    | _ + 2, hg, _ => simp at hg

/-- **C126 for BigQuery**, in full: every value that BigQuery stores is a value of the type. -/
def BigQueryHeld : Prop :=
  ∀ (fields : List BigQuery.Field) (fs : List RType) (a : Attrs) (i : Nat) (c : BigQuery.Field) (f : RType) (v : Val),
    BigQuery.toRecap fields = .ok (.struct fs a) → fields[i]? = some c → fs[i]? = some f →
    BigQueryStored (fun _ _ => True) c v → Holds f v

theorem bq_not_held {c : BigQuery.Field} {f : RType} {v : Val} (h : BigQuery.toRecap [c] = .ok (.struct [f] {}))
    (hm : BigQueryStored (fun _ _ => True) c v) (hn : ¬Holds f v) : ¬BigQueryHeld :=
  fun hh => hn (hh [c] [f] {} 0 c f v h rfl rfl hm)

/-- **C126 does not hold of BigQuery**: `NUMERIC` without parameters has nine digits after the point, and
the type for it has none, so that 1.5 is not one of its values. -/
theorem C126_bigquery_refuted : ¬BigQueryHeld := by
  refine bq_not_held (c := .mk "NUMERIC" "REQUIRED" (.str "x") .none .none .none .none .none [])
    (f := .bytes (.int 16) (.bool false) { logical := .str "build.recap.Decimal", extra := [("precision", .int 38), ("scale", .int 0), ("name", .str "x")] })
    (v := .decimal 1500000000 9) rfl (.single (by decide) (.leaf (.numeric (by decide)) trivial)) ?_
  intro h
  obtain ⟨p, q, u, hp, hq, hu, -⟩ := decimal_inv h
  have hq' : q = 0 := by
    simp [Dict.get?] at hq
    omega
  subst hq'
  omega

/-- The length of a `STRING(1)` is one character, that of the type one byte: `é` is not a value of it. -/
theorem C126_bigquery_string_refuted : ¬BigQueryHeld := by
  refine bq_not_held (c := .mk "STRING" "REQUIRED" (.str "s") .none .none (.int 1) .none .none [])
    (f := .string (.int 1) (.bool true) { extra := [("name", .str "s")] }) (v := .str "é") rfl
    (.single (by decide) (.leaf (.stringMax (by decide +kernel)) trivial)) ?_
  intro h
  cases h with
  | uuid hl => cases hl
  | string _ hf =>
    rcases hf with hf | ⟨k, hk, hl⟩
    · cases hf
    · cases hk
      revert hl
      decide +kernel

/-! ## Hive -/

/-- **C126 for Hive.**  What is missing: points in time before 1677 and after 2262, and strings with a
declared length that have characters of several bytes. -/
theorem C126_hive_partial (table : Hive.HTable) (fs : List RType) (a : Attrs) (i : Nat) (c : Hive.HColumn) (f : RType)
    (v : Val) (h : Hive.toRecap table = .ok (.struct fs a)) (hc : table.columns[i]? = some c) (hf : fs[i]? = some f)
    (hv : HiveStored HiveFits c.type v) : Holds f v := by
  unfold Hive.toRecap at h
  obtain ⟨fs', h1, h⟩ := bind_ok h
  cases h
  exact (hive_columns table.columns _ h1).2 i c f hc hf v hv

/-- A table with a union of an integer, a date and an array of maps, and a value for it. -/
example (fs : List RType) (a : Attrs) (f : RType)
    (h : Hive.toRecap { name := "t", columns := [{ name := "u", type := .union [.prim .int, .union [.prim .date, .prim .int,
      .list (.map (.prim .string) (.decimal 10 2))]] }] } = .ok (.struct fs a)) (hf : fs[0]? = some f) :
    Holds f (.list [.null, .map [(.str "total", .decimal 1999 2)]]) := by
  refine C126_hive_partial _ fs a 0 _ f _ h rfl hf
    (.union (List.mem_cons_of_mem _ (List.mem_cons_self ..)) (.union (t := .list (.map (.prim .string) (.decimal 10 2)))
      (by simp) (.list (fun x hx => ?_))))
  simp only [List.mem_cons, List.not_mem_nil, or_false] at hx
  rcases hx with rfl | rfl
  · exact .null
  · refine .map (fun p hp => ?_) (fun p hp => ?_) <;> cases List.mem_singleton.mp hp
    · exact .prim .string .string
    · exact .decimal (p := 10) (q := 2) (by decide) (by decide)

/-- **C126 for Hive**, in full. -/
def HiveHeld : Prop :=
  ∀ (table : Hive.HTable) (fs : List RType) (a : Attrs) (i : Nat) (c : Hive.HColumn) (f : RType) (v : Val),
    Hive.toRecap table = .ok (.struct fs a) → table.columns[i]? = some c → fs[i]? = some f →
    HiveStored (fun _ _ => True) c.type v → Holds f v

/-- **C126 does not hold of Hive**: 2300-01-01 is in a `TIMESTAMP` column and does not fit into 64 bits of
nanoseconds. -/
theorem C126_hive_refuted : ¬HiveHeld := by
  intro hh
  have h := hh { name := "t", columns := [{ name := "x", type := .prim .timestamp }] }
    [.union [.null {}, .int (.int 64) (.bool true)
        { logical := .str "build.recap.Timestamp", extra := [("unit", .str "nanosecond"), ("timezone", .str "UTC")] }]
      { extra := [("default", .none), ("name", .str "x")] }] { extra := [("name", .str "t")] } 0 _ _
    (.instant 10413792000000000000) rfl rfl rfl (.prim (.timestamp ⟨by decide, by decide⟩) trivial)
  cases h with
  | union hm h =>
    simp only [List.mem_cons, List.not_mem_nil, or_false] at hm
    rcases hm with rfl | rfl
    · cases h
    · obtain ⟨u, per, k, hu, hp, hi, hk⟩ := instant_inv h
      cases hu
      cases hp
      have := intValue_64.mp hi
      omega

end Recap
