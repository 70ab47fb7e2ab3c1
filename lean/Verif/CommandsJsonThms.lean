import Verif.CommandsThms
import Verif.CommandsJsonMore

/-! # Tables as JSON Schema: C116 -/

set_option autoImplicit false

namespace Recap.Commands

open Recap.Relational Recap.Spec Recap.Commands.Spec
open Recap.Json (Writable isOptionalField fromRecap_plain plain_struct listed_iff)
open Recap.Json.Spec (nameOf)

/-- The schema of a struct of writable fields. -/
theorem object_schema {fs : List RType} {a : Attrs} {live : Registry} {column required : String → Prop}
    (ha : a.alias = .none) (hw : ∀ f ∈ fs, Everywhere Writable f)
    (hn : ∀ f ∈ fs, ∃ n, n ≠ "" ∧ nameOf f = some (.str n))
    (h1 : ∀ n, (∃ f ∈ fs, nameOf f = some (.str n)) ↔ column n)
    (h2 : ∀ n, (∃ f ∈ fs, nameOf f = some (.str n) ∧ isOptionalField f = false) ↔ required n) :
    ∃ o, convert live (.struct fs a) .json = .ok (.dict o) ∧ ObjectSchema o column required := by
  obtain ⟨o, ho⟩ := fromRecap_plain (live := live) (plain_struct hw ha hn)
  have hobj := Json.C68_struct (live := live) (by intro s e; rw [ha] at e; cases e) ho
  refine ⟨o, convert_iff.mpr (.json ho), hobj.type, ?_, ?_⟩
  · obtain ⟨ps, h3, h4, h5⟩ := hobj.properties
    exact ⟨ps, h3, h4, fun n => (h5 n).trans (h1 n)⟩
  · intro n
    exact (listed_iff hobj n).trans (h2 n)

/-- **C116** for relational databases (partial): the schema has a property for each column, and requires those that
are not nullable.  Missing: SQLite columns of NUMERIC affinity and arrays of PostgreSQL whose dimensions are not enforced,
for which the property is false, see below. -/
theorem C116_relational_partial (cm : CaseMap) (d : Dialect) (cols : List Dict) (t : RType) (reg live : Registry)
    (h : d.toRecap cm cols reg = (.ok t, live)) (hreal : ∀ c ∈ cols, Real (.dict c))
    (hname : ∀ c ∈ cols, ∃ n, n ≠ "" ∧ Dict.get? c "COLUMN_NAME" = some (.str n))
    (hnum : d = .sqlite → ∀ c ∈ cols, ∀ v, Dict.get? c "TYPE" = some (.str v) → ¬HasAffinity (cm.upper v) .numeric)
    (harr : ∀ cfg, d = .postgresql cfg → ∀ c ∈ cols, DataType cm c "array" → cfg.enforce = true ∧
      Dict.get? c "ATTNDIMS" ≠ some (.int 0) ∧ Dict.get? c "ATTNDIMS" ≠ some (.bool false)) :
    ∃ o, convert live t .json = .ok (.dict o) ∧ ObjectSchema o
      (fun n => ∃ c ∈ cols, Dict.get? c "COLUMN_NAME" = some (.str n))
      (fun n => ∃ c ∈ cols, Dict.get? c "COLUMN_NAME" = some (.str n) ∧ ¬DeclaredNullable cm c) := by
  obtain ⟨fs, rfl, h'⟩ := toRecap_ok h
  obtain ⟨hl, hi⟩ := fieldsOf_index h'
  have key : ∀ (i : Nat) c f, cols[i]? = some c → fs[i]? = some f → Everywhere Writable f ∧
      nameOf f = Dict.get? c "COLUMN_NAME" ∧ (isOptionalField f = true ↔ DeclaredNullable cm c) := by
    intro i c f hc hf
    have hm : c ∈ cols := List.mem_of_getElem? hc
    obtain ⟨b, s, s', h1, h2⟩ := hi i c f hc hf
    refine field_plain (parse_shape (hreal _ hm) ?_ h1) ?_ h2
    · intro cfg e he ha
      rw [(harr cfg e c hm ha).1] at he
      cases he
    · cases hb : b.isNullable with
      | false => rfl
      | true =>
        rcases parse_nonNull h1 hb with ⟨e, v, hv, ha⟩ | ⟨cfg, e, he, ha, hz⟩
        · exact absurd ha (hnum e c hm v hv)
        · obtain ⟨-, h1, h2⟩ := harr cfg e c hm ha
          rcases hz with hz | hz
          · exact absurd hz h1
          · exact absurd hz h2
  have of_field : ∀ f ∈ fs, ∃ c ∈ cols, Everywhere Writable f ∧
      nameOf f = Dict.get? c "COLUMN_NAME" ∧ (isOptionalField f = true ↔ DeclaredNullable cm c) := by
    intro f hf
    obtain ⟨i, hi', hfi⟩ := List.mem_iff_getElem.mp hf
    have hc : cols[i]? = some (cols[i]'(by omega)) := List.getElem?_eq_getElem _
    exact ⟨_, List.getElem_mem _, key i _ f hc (by rw [List.getElem?_eq_getElem hi', hfi])⟩
  have of_col : ∀ c ∈ cols, ∃ f ∈ fs,
      nameOf f = Dict.get? c "COLUMN_NAME" ∧ (isOptionalField f = true ↔ DeclaredNullable cm c) := by
    intro c hc
    obtain ⟨i, hi', hci⟩ := List.mem_iff_getElem.mp hc
    have hf : fs[i]? = some (fs[i]'(by omega)) := List.getElem?_eq_getElem _
    exact ⟨_, List.getElem_mem _, (key i c _ (by rw [List.getElem?_eq_getElem hi', hci]) hf).2⟩
  refine object_schema rfl ?_ ?_ ?_ ?_
  · intro f hf
    obtain ⟨c, -, h1, -⟩ := of_field f hf
    exact h1
  · intro f hf
    obtain ⟨c, hc, -, h2, -⟩ := of_field f hf
    rw [h2]
    exact hname c hc
  · intro n
    constructor
    · rintro ⟨f, hf, e⟩
      obtain ⟨c, hc, -, h2, -⟩ := of_field f hf
      exact ⟨c, hc, by rw [← h2, e]⟩
    · rintro ⟨c, hc, e⟩
      obtain ⟨f, hf, h2, -⟩ := of_col c hc
      exact ⟨f, hf, by rw [h2, e]⟩
  · intro n
    constructor
    · rintro ⟨f, hf, e, ho⟩
      obtain ⟨c, hc, -, h2, h3⟩ := of_field f hf
      exact ⟨c, hc, by rw [← h2, e], fun hd => by rw [h3.mpr hd] at ho; cases ho⟩
    · rintro ⟨c, hc, e, hd⟩
      obtain ⟨f, hf, h2, h3⟩ := of_col c hc
      refine ⟨f, hf, by rw [h2, e], ?_⟩
      cases ho : isOptionalField f with
      | false => rfl
      | true => exact absurd (h3.mp ho) hd

/-- **C116** for BigQuery: the schema has a property for each column, and requires those that are not nullable. -/
theorem C116_bigquery (fields : List BigQuery.Field) (t : RType) (live : Registry)
    (h : BigQuery.toRecap fields = .ok t) (hn : NamedAll fields) :
    ∃ o, convert live t .json = .ok (.dict o) ∧ ObjectSchema o
      (fun n => ∃ f ∈ fields, f.name = .str n) (fun n => ∃ f ∈ fields, f.name = .str n ∧ f.mode ≠ "NULLABLE") := by
  unfold BigQuery.toRecap at h
  obtain ⟨fs, h1, h⟩ := Relational.bind_ok h
  cases h
  obtain ⟨of_col, of_field⟩ := BigQuery.fieldsOf_mem h1
  have hnm := BigQuery.namedAll_mem hn
  refine object_schema rfl ?_ ?_ ?_ ?_
  · intro t ht
    obtain ⟨f, hf, e⟩ := of_field t ht
    exact (BigQuery.fieldOf_writable f t e (hnm f hf)).1
  · intro t ht
    obtain ⟨f, hf, e⟩ := of_field t ht
    exact (BigQuery.fieldOf_writable f t e (hnm f hf)).2.1
  · intro n
    constructor
    · rintro ⟨t, ht, e'⟩
      obtain ⟨f, hf, e⟩ := of_field t ht
      have := (BigQuery.fieldOf_writable f t e (hnm f hf)).2.2.1
      rw [e'] at this
      exact ⟨f, hf, by injection this with this; exact this.symm⟩
    · rintro ⟨f, hf, e'⟩
      obtain ⟨t, ht, e⟩ := of_col f hf
      exact ⟨t, ht, by rw [(BigQuery.fieldOf_writable f t e (hnm f hf)).2.2.1, e']⟩
  · intro n
    constructor
    · rintro ⟨t, ht, e', ho⟩
      obtain ⟨f, hf, e⟩ := of_field t ht
      obtain ⟨-, -, this, hopt⟩ := BigQuery.fieldOf_writable f t e (hnm f hf)
      rw [e'] at this
      exact ⟨f, hf, by injection this with this; exact this.symm, fun hm => by rw [hopt.mpr hm] at ho; cases ho⟩
    · rintro ⟨f, hf, e', hm⟩
      obtain ⟨t, ht, e⟩ := of_col f hf
      obtain ⟨-, -, this, hopt⟩ := BigQuery.fieldOf_writable f t e (hnm f hf)
      refine ⟨t, ht, by rw [this, e'], ?_⟩
      cases ho : isOptionalField t with
      | false => rfl
      | true => exact absurd (hopt.mp ho) hm

/-- **C116** for Hive (partial): the schema has a property for each column and requires none.  Missing: columns of type
void and unions, for which the property is false, see below. -/
theorem C116_hive_partial (table : Hive.HTable) (t : RType) (live : Registry) (h : Hive.toRecap table = .ok t)
    (hn : ∀ c ∈ table.columns, c.name ≠ "" ∧ FieldNames (· ≠ "") c.type)
    (hc : ∀ c ∈ table.columns, c.type ≠ .prim .void ∧ ∀ ts, c.type ≠ .union ts) :
    ∃ o, convert live t .json = .ok (.dict o) ∧ ObjectSchema o
      (fun n => ∃ c ∈ table.columns, c.name = n) (fun _ => False) := by
  obtain ⟨fs, h1, rfl⟩ := hive_ok h
  obtain ⟨of_col, of_field⟩ := Hive.parseColumns_mem h1
  have hall := Hive.parseColumns_h (P := fun _ => True) (N := (· ≠ "")) trivial _ _ h1 (fun _ _ => trivial) hn
  refine object_schema rfl ?_ ?_ ?_ ?_
  · exact fun f hf => Hive.hpiece_writable (hall f hf).2.1
  · exact fun f hf => (hall f hf).1.2
  · intro n
    constructor
    · rintro ⟨t, ht, e'⟩
      obtain ⟨c, hc, e⟩ := of_field t ht
      have := Hive.parse_nameOf (Hive.given_column ..) e
      rw [e'] at this
      exact ⟨c, hc, by simpa [Hive.columnAttrs, Dict.get?] using this.symm⟩
    · rintro ⟨c, hc, rfl⟩
      obtain ⟨t, ht, e⟩ := of_col c hc
      exact ⟨t, ht, by rw [Hive.parse_nameOf (Hive.given_column ..) e]; rfl⟩
  · intro n
    refine iff_of_false ?_ id
    rintro ⟨t, ht, -, ho⟩
    obtain ⟨c, hm, e⟩ := of_field t ht
    rw [Hive.parse_optional (hc c hm).1 (hc c hm).2 e] at ho
    cases ho

/-- The hypotheses hold for a PostgreSQL table with a nullable column and an array of two dimensions. -/
example : ∃ t live o, (Dialect.postgresql { enforce := true }).toRecap asciiCase
      [pgColumn "a" "int4" "int4" "YES" .none (.int 0), pgColumn "m" "ARRAY" "_int4" "NO" .none (.int 2)] newRegistry =
        (.ok t, live) ∧ convert live t .json = .ok (.dict o) ∧ Json.Spec.Listed o "m" ∧ ¬Json.Spec.Listed o "a" := by
  have hmem : ∀ c ∈ [pgColumn "a" "int4" "int4" "YES" .none (.int 0), pgColumn "m" "ARRAY" "_int4" "NO" .none (.int 2)],
      c = pgColumn "a" "int4" "int4" "YES" .none (.int 0) ∨ c = pgColumn "m" "ARRAY" "_int4" "NO" .none (.int 2) := by simp
  obtain ⟨o, h1, h2⟩ := C116_relational_partial asciiCase (.postgresql { enforce := true })
    [pgColumn "a" "int4" "int4" "YES" .none (.int 0), pgColumn "m" "ARRAY" "_int4" "NO" .none (.int 2)]
    (.struct [.union [.null {}, .int (.int 32) (.bool true) {}] { extra := [("default", .none), ("name", .str "a")] },
      .list (.list (.union [.null {}, .int (.int 32) (.bool true) {}] {}) .none (.bool true) {}) .none (.bool true)
        { extra := [("name", .str "m")] }] {}) newRegistry newRegistry
    (by decide +kernel)
    (by intro c hc; rcases hmem c hc with rfl | rfl <;> simp [pgColumn, Real, RealPairs])
    (by intro c hc; rcases hmem c hc with rfl | rfl
        · exact ⟨"a", by decide, rfl⟩
        · exact ⟨"m", by decide, rfl⟩)
    (fun h => nomatch h)
    (by
      rintro cfg ⟨⟩ c hc ha
      rcases hmem c hc with rfl | rfl
      · obtain ⟨s, hs, he⟩ := ha
        cases hs
        exact absurd he (by decide +kernel)
      · exact ⟨rfl, by decide +kernel, by decide +kernel⟩)
  refine ⟨_, _, o, by decide +kernel, h1, (h2.required "m").mpr ⟨_, List.mem_cons_of_mem _ (List.mem_cons_self ..), rfl, ?_⟩, ?_⟩
  · rintro ⟨s, hs, he⟩
    cases hs
    exact absurd he (by decide +kernel)
  · intro hl
    obtain ⟨c, hc, hn, hd⟩ := (h2.required "a").mp hl
    rcases hmem c hc with rfl | rfl
    · exact hd ⟨"YES", rfl, by decide +kernel⟩
    · exact absurd hn (by decide +kernel)

/-- The hypotheses hold for a BigQuery table with a repeated record. -/
example : ∃ t, BigQuery.toRecap [.mk "RECORD" "REPEATED" (.str "r") (.str "doc") .none .none .none .none
      [.mk "STRING" "NULLABLE" (.str "s") .none .none (.int 20) .none .none []]] = .ok t ∧
    NamedAll [.mk "RECORD" "REPEATED" (.str "r") (.str "doc") .none .none .none .none
      [.mk "STRING" "NULLABLE" (.str "s") .none .none (.int 20) .none .none []]] :=
  ⟨_, rfl, by simp [NamedAll, Named]⟩

/-- The hypotheses hold for a Hive table with a union in a struct. -/
example : ∃ t, Hive.toRecap { name := "t", columns :=
      [{ name := "c", type := .struct [("u", .union [.prim .date, .list (.varchar 20)])], comment := some "doc" }] } = .ok t ∧
    FieldNames (· ≠ "") (.struct [("u", .union [.prim .date, .list (.varchar 20)])]) :=
  ⟨_, rfl, by simp [FieldNames, FieldNamesIn, FieldNamesAll]⟩

/-- **C116 is false for SQLite.**  A nullable column of NUMERIC affinity is required. -/
theorem C116_sqlite_refuted : ∃ c t live o, Dialect.sqlite.toRecap asciiCase [c] newRegistry = (.ok t, live) ∧
    Dict.get? c "COLUMN_NAME" = some (.str "price") ∧ DeclaredNullable asciiCase c ∧
    convert live t .json = .ok (.dict o) ∧ Json.Spec.Listed o "price" :=
  ⟨liteColumn "price" (.str "DECIMAL") "YES" .none .none, _, _, _, rfl, rfl, ⟨"YES", rfl, by decide +kernel⟩, rfl,
    [.str "price"], rfl, by simp⟩

/-- **C116 is false for Hive.**  All columns of Hive are nullable, but those of type void and those of a union of two
types are required. -/
theorem C116_hive_refuted : ∃ table t o, Hive.toRecap table = .ok t ∧
    table.columns.map (·.name) = ["n", "u"] ∧ convert newRegistry t .json = .ok (.dict o) ∧
    Json.Spec.Listed o "n" ∧ Json.Spec.Listed o "u" :=
  ⟨{ name := "t", columns := [{ name := "n", type := .prim .void }, { name := "u", type := .union [.prim .int, .prim .string] }] },
    _, _, rfl, rfl, rfl, ⟨[.str "n", .str "u"], rfl, by simp⟩, ⟨[.str "n", .str "u"], rfl, by simp⟩⟩

/-- **C116 is false for PostgreSQL.**  With the default settings, the schema of an array refers to a definition that
is nothing but a reference to itself, so that no value has it. -/
theorem C116_postgresql_refuted : ∃ t live o ps defs,
    (Dialect.postgresql {}).toRecap asciiCase [pgColumn "m" "ARRAY" "_int4" "NO" .none (.int 1)] newRegistry = (.ok t, live) ∧
    convert live t .json = .ok (.dict o) ∧ Dict.get? o "properties" = some (.dict ps) ∧
    Dict.get? ps "m" = some (.dict [("$ref", .str "#/$defs/_root.m")]) ∧ Dict.get? o "$defs" = some (.dict defs) ∧
    Dict.get? defs "_root.m" = some (.dict [("$ref", .str "#/$defs/_root.m")]) :=
  ⟨_, _, _, _, _, rfl, rfl, rfl, rfl, rfl, rfl⟩

end Recap.Commands
