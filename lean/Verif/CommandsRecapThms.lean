import Verif.CommandsThms
import Verif.CommandsRecapHive
import Verif.CommandsRecapFree

/-! # Tables in Recap's own format: C115 -/

set_option autoImplicit false

namespace Recap.Commands

open Recap.Relational Recap.Spec Recap.Commands.Spec

/-- **C115** for tables that are converted to types without aliases: Recap's format shows them, and what it shows
reads back as the type, with references for the types that built-in aliases stand for. -/
theorem shown_table {t : RType} {live : Registry} (hb : Bounded t) (h : Shown t) (hs : ∃ fs a, t = .struct fs a) :
    ∃ d t', convert live t .recap = .ok (.dict d) ∧ parse (.dict d) = .ok t' ∧ RType.pyEq t' (aliased t) = true := by
  obtain ⟨v, t', h1, h2, h3, h4⟩ := shown_round_trip h hb
  obtain ⟨fs, a, rfl⟩ := hs
  simp only [aliased] at h2
  obtain ⟨d, rfl⟩ := h2.struct_dict
  exact ⟨d, t', convert_iff.mpr (.recap h1), h3, h4⟩

/-- The same for types with aliases that are kept apart. -/
theorem faithful_table {t : RType} {live : Registry} (h : Faithful t) (hs : ∃ fs a, t = .struct fs a) :
    ∃ d t', convert live t .recap = .ok (.dict d) ∧ parse (.dict d) = .ok t' ∧ RType.pyEq t' (aliased t) = true := by
  obtain ⟨v, h1, h2, -⟩ := Nested.toDict_nested true t h.plain (fun _ => tidy_of h.wellFormed.1 h.canonical)
    h.wellFormed.2.2.1 h.wellFormed.2.2.2 h.separate
  obtain ⟨v', t', g1, g2, g3⟩ := C03_nested_round_trip_partial t h.wellFormed h.real h.canonical h.keys h.separate
  rw [h1] at g1
  cases g1
  obtain ⟨fs, a, rfl⟩ := hs
  simp only [aliased] at h2
  obtain ⟨d, rfl⟩ := h2.struct_dict
  exact ⟨d, t', convert_iff.mpr (.recap h1), g2, g3⟩

/-- **C115** for relational databases (partial): all tables whose lengths lie in the documented range, with arrays of
PostgreSQL of either kind. -/
theorem C115_relational_partial (cm : CaseMap) (d : Dialect) (cols : List Dict) (t : RType) (reg live : Registry)
    (h : d.toRecap cm cols reg = (.ok t, live)) (hgood : ∀ c ∈ cols, GoodColumn cm d c)
    (hreal : ∀ c ∈ cols, Real (.dict c)) (hname : ∀ c ∈ cols, Dict.get? c "COLUMN_NAME" ≠ some .none) :
    ∃ d t', convert live t .recap = .ok (.dict d) ∧ parse (.dict d) = .ok t' ∧ RType.pyEq t' (aliased t) = true := by
  have hv := C51_all_valid_partial cm d cols reg live t h hgood
  obtain ⟨fs, rfl, h'⟩ := toRecap_ok h
  have other : (∀ cfg, d = .postgresql cfg → cfg.enforce = false → False) → _ := fun hd => by
    obtain ⟨hl, hi⟩ := fieldsOf_index h'
    refine shown_table (live := live) (bounded_of_valid _ hv) (shown_struct ?_) ⟨fs, {}, rfl⟩
    intro f hf
    obtain ⟨i, hi', hfi⟩ := List.mem_iff_getElem.mp hf
    have hc : cols[i]? = some (cols[i]'(by omega)) := List.getElem?_eq_getElem _
    have hm : cols[i]'(by omega) ∈ cols := List.getElem_mem _
    obtain ⟨b, s, s', h1, h2⟩ := hi i _ f hc (by rw [List.getElem?_eq_getElem hi', hfi])
    exact field_shown (hreal _ hm) (hname _ hm) (parse_shape (hreal _ hm) (fun cfg e he => (hd cfg e he).elim) h1) h2
  cases d with
  | postgresql cfg =>
    by_cases he : cfg.enforce = false
    · exact faithful_table (free_faithful he hreal hname h' (bounded_of_valid _ hv)) ⟨fs, {}, rfl⟩
    · exact other (fun cfg' e h => by cases e; exact he h)
  | _ => exact other (fun _ e => nomatch e)

/-- **C115** for BigQuery (partial): a table without descriptions of nullable fields.  With them it is false, see below. -/
theorem C115_bigquery_partial (fields : List BigQuery.Field) (t : RType) (live : Registry)
    (h : BigQuery.toRecap fields = .ok t) (hg : GoodLengthsAll fields) (hu : UndocumentedAll fields) :
    ∃ d t', convert live t .recap = .ok (.dict d) ∧ parse (.dict d) = .ok t' ∧ RType.pyEq t' (aliased t) = true := by
  have hv := C83_bigquery_valid fields t h hg
  unfold BigQuery.toRecap at h
  obtain ⟨fs, h1, h⟩ := Relational.bind_ok h
  cases h
  exact shown_table (bounded_of_valid _ hv) (shown_struct (BigQuery.fieldsOf_shown _ _ h1 hu)) ⟨fs, {}, rfl⟩

/-- **C115** for Hive (partial): a table without comments on its columns.  With them it is false, see below. -/
theorem C115_hive_partial (table : Hive.HTable) (t : RType) (live : Registry) (h : Hive.toRecap table = .ok t)
    (hg : ∀ c ∈ table.columns, GoodHive c.type) (hc : ∀ c ∈ table.columns, c.comment = .none ∨ c.comment = some "") :
    ∃ d t', convert live t .recap = .ok (.dict d) ∧ parse (.dict d) = .ok t' ∧ RType.pyEq t' (aliased t) = true := by
  have hv := C83_hive_valid table t h hg
  obtain ⟨fs, h1, rfl⟩ := hive_ok h
  refine shown_table (bounded_of_valid _ hv) ?_ ⟨fs, _, rfl⟩
  have hs := Hive.parseColumns_shown _ _ h1 (fun c hm => by
    rcases hc c hm with e | e <;> rw [e] <;> rfl)
  exact shown_iff.mpr ⟨piece_of rfl rfl trivial trivial (by simp [RType.attrs, Dict.keys])
    (by simp [RType.attrs, Dict.keys]) (by simp [RType.attrs, Real]) (by simp [Spec.params]) (fun _ _ h => nomatch h), hs⟩

/-- The hypotheses hold for a MySQL table with the columns `c CHAR(3) NOT NULL` and `n VARCHAR(20) DEFAULT 'x'`. -/
example : ∃ t live d t', Dialect.mysql.toRecap asciiCase
      [sqlColumn "c" "char" "NO" .none (.int 3) .none .none, sqlColumn "n" "varchar" "YES" (.str "x") (.int 20) .none .none]
        newRegistry = (.ok t, live) ∧ (t.attrs = {} ∧ (children t).length = 2) ∧
    convert live t .recap = .ok (.dict d) ∧ parse (.dict d) = .ok t' ∧ RType.pyEq t' (aliased t) = true := by
  obtain ⟨d, t', h⟩ := C115_relational_partial asciiCase .mysql
      [sqlColumn "c" "char" "NO" .none (.int 3) .none .none, sqlColumn "n" "varchar" "YES" (.str "x") (.int 20) .none .none]
      _ newRegistry newRegistry rfl
    (by
      intro c hc
      simp only [List.mem_cons, List.not_mem_nil, or_false] at hc
      rcases hc with rfl | rfl <;> intro o ho <;> cases ho
      · exact .inl ⟨3, rfl, by omega, by omega⟩
      · exact .inl ⟨20, rfl, by omega, by omega⟩)
    (by
      intro c hc
      simp only [List.mem_cons, List.not_mem_nil, or_false] at hc
      rcases hc with rfl | rfl <;> simp [sqlColumn, Real, RealPairs])
    (by
      intro c hc
      simp only [List.mem_cons, List.not_mem_nil, or_false] at hc
      rcases hc with rfl | rfl <;> simp [sqlColumn])
  exact ⟨_, _, d, t', rfl, ⟨rfl, rfl⟩, h⟩

/-- The hypotheses hold for a PostgreSQL table with the columns `id int4`, `m int4[]` and `n int4[] NOT NULL`, with
default settings. -/
example : ∃ t live d t', (Dialect.postgresql {}).toRecap asciiCase
      [pgColumn "id" "int4" "int4" "NO" .none (.int 0), pgColumn "m" "ARRAY" "_int4" "YES" .none (.int 1),
        pgColumn "n" "ARRAY" "_int4" "NO" .none (.int 2)] newRegistry = (.ok t, live) ∧
    definedAliases t = [.str "_root.m", .str "_root.n"] ∧
    convert live t .recap = .ok (.dict d) ∧ parse (.dict d) = .ok t' ∧ RType.pyEq t' (aliased t) = true := by
  have hmem : ∀ c ∈ [pgColumn "id" "int4" "int4" "NO" .none (.int 0), pgColumn "m" "ARRAY" "_int4" "YES" .none (.int 1),
      pgColumn "n" "ARRAY" "_int4" "NO" .none (.int 2)], c = pgColumn "id" "int4" "int4" "NO" .none (.int 0) ∨
        c = pgColumn "m" "ARRAY" "_int4" "YES" .none (.int 1) ∨ c = pgColumn "n" "ARRAY" "_int4" "NO" .none (.int 2) := by
    simp
  obtain ⟨d, t', h⟩ := C115_relational_partial asciiCase (.postgresql {}) [pgColumn "id" "int4" "int4" "NO" .none (.int 0),
      pgColumn "m" "ARRAY" "_int4" "YES" .none (.int 1), pgColumn "n" "ARRAY" "_int4" "NO" .none (.int 2)]
      _ newRegistry _ rfl
    (by
      have e1 : asciiCase.lower "int4" = "int4" := by decide +kernel
      have e2 : asciiCase.lower "ARRAY" = "array" := by decide +kernel
      intro c hc
      rcases hmem c hc with rfl | rfl | rfl <;> intro o ho <;> cases ho <;>
        refine ⟨.inr ⟨rfl, ?_⟩, ?_⟩ <;> rintro dt ⟨s, hs, he⟩ <;> cases hs <;> simp only [e1, e2] at he <;> subst he
      all_goals first
        | exact .inl (fun ⟨r, h⟩ => by simp at h)
        | exact fun ⟨r, h⟩ => by simp at h)
    (by intro c hc; rcases hmem c hc with rfl | rfl | rfl <;> simp [pgColumn, Real, RealPairs])
    (by intro c hc; rcases hmem c hc with rfl | rfl | rfl <;> simp [pgColumn])
  exact ⟨_, _, d, t', rfl, rfl, h⟩

/-- The hypotheses hold for a BigQuery table with a record that is repeated and documented, with a nullable
field in it. -/
example : ∃ t, BigQuery.toRecap [.mk "RECORD" "REPEATED" (.str "r") (.str "doc") .none .none .none .none
      [.mk "STRING" "NULLABLE" (.str "s") .none .none (.int 20) .none .none []]] = .ok t ∧
    GoodLengthsAll [.mk "RECORD" "REPEATED" (.str "r") (.str "doc") .none .none .none .none
      [.mk "STRING" "NULLABLE" (.str "s") .none .none (.int 20) .none .none []]] ∧
    UndocumentedAll [.mk "RECORD" "REPEATED" (.str "r") (.str "doc") .none .none .none .none
      [.mk "STRING" "NULLABLE" (.str "s") .none .none (.int 20) .none .none []]] :=
  ⟨_, rfl, by simp [GoodLengthsAll, GoodLengths, NumBetween],
    by simp [UndocumentedAll, Undocumented, Real, PyVal.truthy]⟩

/-- The hypotheses hold for a Hive table with a list in a union. -/
example : ∃ t, Hive.toRecap { name := "t", columns :=
      [{ name := "c", type := .union [.prim .date, .list (.varchar 20)] }] } = .ok t ∧ GoodHive (.union [.prim .date, .list (.varchar 20)]) :=
  ⟨_, rfl, by simp [GoodHive, GoodHiveAll]⟩

/-- **C115 is false for nullable columns with descriptions.**  The command shows the description of a nullable BigQuery
column, but whoever reads the schema gets a column without it: the description belongs to the alternative that is not
null. -/
theorem C115_bigquery_refuted : ∃ fields t d ts a ts' a',
    BigQuery.toRecap fields = .ok t ∧ t = .struct [.union ts a] {} ∧ a.doc = .str "how many" ∧
    convert newRegistry t .recap = .ok (.dict d) ∧ parse (.dict d) = .ok (.struct [.union ts' a'] {}) ∧
    a'.doc = .none ∧ RType.pyEq (.struct [.union ts' a'] {}) (aliased t) = false :=
  ⟨[.mk "INT64" "NULLABLE" (.str "n") (.str "how many") .none .none .none .none []], _, _, _, _,
    [.null {}, .proxy .none { alias := .str "int64", doc := .str "how many" }],
    { extra := [("name", .str "n"), ("default", .none)] }, rfl, rfl, rfl, rfl, rfl, rfl, by decide +kernel⟩

/-- **C115 is false for columns with comments**, in the same way, for Hive. -/
theorem C115_hive_refuted : ∃ table t d ts a b ts' a',
    Hive.toRecap table = .ok t ∧ t = .struct [.union ts a] b ∧ a.doc = .str "how many" ∧
    convert newRegistry t .recap = .ok (.dict d) ∧ parse (.dict d) = .ok (.struct [.union ts' a'] b) ∧
    a'.doc = .none ∧ RType.pyEq (.struct [.union ts' a'] b) (aliased t) = false :=
  ⟨{ name := "t", columns := [{ name := "n", type := .prim .long, comment := some "how many" }] }, _, _, _, _, _,
    [.null {}, .proxy .none { alias := .str "int64", doc := .str "how many" }],
    { extra := [("name", .str "n"), ("default", .none)] }, rfl, rfl, rfl, rfl, rfl, rfl, by decide +kernel⟩

end Recap.Commands
