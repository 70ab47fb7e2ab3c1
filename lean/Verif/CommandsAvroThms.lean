import Verif.CommandsThms
import Verif.CommandsAvroUnion

/-! # Tables as Avro: C117 -/

set_option autoImplicit false

namespace Recap.Commands

open Recap.Relational Recap.Spec Recap.Commands.Spec
open Recap.Avro.Spec (ValidSchema IsName fieldNames)

/-- **C117 is false for relational databases**, whatever the table: what is written has no name, so that it is no Avro
schema. -/
theorem C117_relational_refuted (cm : CaseMap) (d : Dialect) (cols : List Dict) (t : RType) (reg live : Registry)
    (h : d.toRecap cm cols reg = (.ok t, live)) :
    ¬∃ o, convert live t .avro = .ok (.dict o) ∧ ValidSchema (.dict o) := by
  rintro ⟨o, h1, h2⟩
  obtain ⟨fs, rfl, -⟩ := toRecap_ok h
  cases convert_iff.mp h1 with
  | avro h1 => exact Avro.bare_struct_invalid h1 h2

/-- **C117 is false for BigQuery**, whatever the table. -/
theorem C117_bigquery_refuted (fields : List BigQuery.Field) (t : RType) (live : Registry)
    (h : BigQuery.toRecap fields = .ok t) : ¬∃ o, convert live t .avro = .ok (.dict o) ∧ ValidSchema (.dict o) := by
  rintro ⟨o, h1, h2⟩
  unfold BigQuery.toRecap at h
  obtain ⟨fs, -, h⟩ := Relational.bind_ok h
  cases h
  cases convert_iff.mp h1 with
  | avro h1 => exact Avro.bare_struct_invalid h1 h2

/-- There are tables, and something is written for them. -/
example : ∃ t live o, Dialect.mysql.toRecap asciiCase [sqlColumn "id" "BIGINT" "NO" .none .none (.int 19) .none] newRegistry =
    (.ok t, live) ∧ convert live t .avro = .ok (.dict o) ∧ fieldNames o = [some (.str "id")] :=
  ⟨_, _, _, rfl, rfl, rfl⟩

example : ∃ t o, BigQuery.toRecap [.mk "INT64" "REQUIRED" (.str "id") .none .none .none .none .none []] = .ok t ∧
    convert newRegistry t .avro = .ok (.dict o) ∧ fieldNames o = [some (.str "id")] :=
  ⟨_, _, rfl, rfl, rfl⟩

/-- **C117** for Hive (partial): a table is written as an Avro schema exactly if its columns are among those of
`AvroOptions`.  False for the others. -/
theorem C117_hive_partial (table : Hive.HTable) (t : RType) (live : Registry) (h : Hive.toRecap table = .ok t)
    (hn : IsName table.name) (hc : ∀ c ∈ table.columns, IsName c.name) (hd : (table.columns.map (·.name)).Nodup) :
    ((∃ o, convert live t .avro = .ok (.dict o) ∧ ValidSchema (.dict o)) ↔ ∀ c ∈ table.columns, AvroOptions c.type) ∧
    ∀ o, convert live t .avro = .ok (.dict o) → ValidSchema (.dict o) →
      Dict.get? o "type" = some (.str "record") ∧ Dict.get? o "name" = some (.str table.name) ∧
      fieldNames o = table.columns.map (fun c => some (.str c.name)) := by
  have hne : table.name ≠ "" := by
    intro e
    obtain ⟨c, cs, h, -⟩ := hn
    rw [e] at h
    cases h
  obtain ⟨fs, h1, rfl⟩ := hive_ok h
  obtain ⟨a1, a2⟩ := Hive.columns_written (live := live) (l := weightReg 0 live) (n := weightAll (weightReg 0 live) fs) h1 hc
    (fun t ht => Hive.weightAll_mem ht)
  have hconv : ∀ o, convert live (.struct fs { extra := [("name", .str table.name)] }) .avro = .ok (.dict o) ↔
      ∃ vs, Avro.convertAll (Avro.convertF live (weightAll (weightReg 0 live) fs)) fs = .ok vs ∧
        o = [("name", .str table.name), ("type", .str "record"), ("fields", .list (vs.map Avro.fieldSchema))] := by
    intro o
    have hdesc : Avro.describe { extra := [("name", .str table.name)] } = .ok [("name", .str table.name)] := by
      simp [Avro.describe, Avro.aliasesOf, PyVal.truthy, Avro.nameOf, Dict.get?, Avro.copied, Avro.docOf, hne, bind, Except.bind,
        pure, Except.pure]
    have hfuel : weight (weightReg 0 live) (.struct fs { extra := [("name", .str table.name)] }) =
        weightAll (weightReg 0 live) fs + 1 := by simp only [weight]; omega
    have e : Avro.fromRecap live (.struct fs { extra := [("name", .str table.name)] }) =
        (Avro.convertAll (Avro.convertF live (weightAll (weightReg 0 live) fs)) fs).map (fun vs =>
          [("name", .str table.name), ("type", .str "record"), ("fields", .list (vs.map Avro.fieldSchema))]) := by
      unfold Avro.fromRecap
      rw [hfuel, Avro.convertF]
      simp only [RType.attrs, hdesc, bind, Except.bind]
      cases Avro.convertAll (Avro.convertF live (weightAll (weightReg 0 live) fs)) fs <;> rfl
    constructor
    · intro h
      cases convert_iff.mp h with
      | avro h =>
        rw [e] at h
        cases hv : Avro.convertAll (Avro.convertF live (weightAll (weightReg 0 live) fs)) fs with
        | error x => rw [hv] at h; cases h
        | ok vs => rw [hv] at h; cases h; exact ⟨vs, rfl, rfl⟩
    · rintro ⟨vs, h, rfl⟩
      exact convert_iff.mpr (.avro (by rw [e, h]; rfl))
  have names : ∀ {vs : List PyVal}, (vs.map Avro.fieldSchema).map Hive.written? = table.columns.map (fun c => some (.str c.name)) →
      fieldNames [("name", .str table.name), ("type", .str "record"), ("fields", .list (vs.map Avro.fieldSchema))] =
        table.columns.map (fun c => some (.str c.name)) := fun h => h
  have invert : ∀ {o : Dict}, convert live (.struct fs { extra := [("name", .str table.name)] }) .avro = .ok (.dict o) →
      ValidSchema (.dict o) → ∀ c ∈ table.columns, AvroOptions c.type := by
    intro o h2 h3
    obtain ⟨vs, h4, rfl⟩ := (hconv _).mp h2
    refine a2 vs h4 ?_
    cases h3 with
    | primitive k1 k2 => cases k1; exact absurd k2 (by decide)
    | array k1 => simp [Dict.get?] at k1
    | map k1 => simp [Dict.get?] at k1
    | record k1 k2 k3 k4 k5 => cases k4; exact k5
    | enum k1 => simp [Dict.get?] at k1
    | fixed k1 => simp [Dict.get?] at k1
  refine ⟨⟨fun ⟨o, h2, h3⟩ => invert h2 h3, ?_⟩, ?_⟩
  · intro ha
    obtain ⟨vs, h4, h5, h6⟩ := a1 ha
    refine ⟨_, (hconv _).mpr ⟨vs, h4, rfl⟩, .record rfl rfl hn rfl h5 ?_⟩
    have : ((vs.map Avro.fieldSchema).map Hive.written?).Nodup := by
      rw [h6, show (fun c : Hive.HColumn => some (PyVal.str c.name)) = (fun s => some (PyVal.str s)) ∘ (·.name) from rfl,
        ← List.map_map]
      exact List.Pairwise.map _ (fun a b hab e => hab (by simpa using e)) hd
    exact this
  · intro o h2 h3
    obtain ⟨vs, h4, h5, h6⟩ := a1 (invert h2 h3)
    obtain ⟨ws, h7, rfl⟩ := (hconv _).mp h2
    rw [h4] at h7
    cases h7
    exact ⟨rfl, rfl, names h6⟩

/-- A table with a documented column, a decimal, a list, and a union in a union, which allows the same type twice. -/
def avroTable : Hive.HTable where
  name := "t"
  columns := [{ name := "a", type := .prim .long, comment := some "doc" }, { name := "b", type := .decimal 10 2 },
    { name := "c", type := .list (.prim .void) },
    { name := "d", type := .union [.prim .date, .union [.prim .date, .varchar 5, .prim .void], .prim .long] }]

/-- The hypotheses hold for this table, which is written. -/
example : ∃ t, Hive.toRecap avroTable = .ok t ∧ ∃ o, convert newRegistry t .avro = .ok (.dict o) ∧ ValidSchema (.dict o) := by
  have hn : ∀ s ∈ ["t", "a", "b", "c", "d"], IsName s := by
    intro s hs
    simp only [List.mem_cons, List.not_mem_nil, or_false] at hs
    rcases hs with rfl | rfl | rfl | rfl | rfl <;> exact ⟨_, _, rfl, .inl (by decide), by simp⟩
  refine ⟨_, rfl, ((C117_hive_partial avroTable _ newRegistry rfl (hn _ (by simp [avroTable])) ?_ ?_).1).mpr ?_⟩
  · simp only [avroTable, List.mem_cons, List.not_mem_nil, or_false, forall_eq_or_imp, forall_eq]
    exact ⟨hn _ (by simp), hn _ (by simp), hn _ (by simp), hn _ (by simp)⟩
  · decide
  · simp only [avroTable, List.mem_cons, List.not_mem_nil, or_false, forall_eq_or_imp, forall_eq]
    refine ⟨?_, ?_, ?_, ?_⟩
    · simp [AvroOptions, AvroColumn, options]
    · simp [AvroOptions, AvroColumn, options]
    · simp [AvroOptions, AvroColumn, options]
    · have e : options 0 (.union [.prim .date, .union [.prim .date, .varchar 5, .prim .void], .prim .long]) =
          [(.prim .date, 1), (.prim .date, 2), (.varchar 5, 2), (.prim .long, 1)] := by simp [options, optionsAll]
      unfold AvroOptions
      rw [e]
      simp only [List.mem_cons, List.not_mem_nil, or_false, forall_eq_or_imp, forall_eq]
      simp [AvroColumn, avroKind]

/-- **C117 is false for Hive.**  A table with a column of type string is not written at all. -/
theorem C117_hive_refuted : ∃ table t, Hive.toRecap table = .ok t ∧
    table.columns.map (fun c => (c.name, c.type)) = [("s", .prim .string)] ∧
    convert newRegistry t .avro = .error .valueError :=
  ⟨{ name := "t", columns := [{ name := "s", type := .prim .string }] }, _, rfl, rfl, rfl⟩

/-- **C117 is false for Hive unions.**  A union of a long and a timestamp is not written; that of an int and a date, and
that of a list with itself inside another union, are written as unions with two types of one kind, which Avro does not
have. -/
theorem C117_union_refuted :
    (∃ t, Hive.toRecap { name := "t", columns := [{ name := "u", type := .union [.prim .long, .prim .timestamp] }] } = .ok t ∧
      convert newRegistry t .avro = .error .valueError) ∧
    ∀ h ∈ [Hive.HType.union [.prim .int, .prim .date], .union [.list (.prim .void), .union [.list (.prim .void)]]],
      ∃ t o, Hive.toRecap { name := "t", columns := [{ name := "u", type := h }] } = .ok t ∧
        convert newRegistry t .avro = .ok (.dict o) ∧ ¬ValidSchema (.dict o) := by
  refine ⟨⟨_, rfl, rfl⟩, ?_⟩
  have hn : ∀ s ∈ ["t", "u"], IsName s := by
    intro s hs
    simp only [List.mem_cons, List.not_mem_nil, or_false] at hs
    rcases hs with rfl | rfl <;> exact ⟨_, _, rfl, .inl (by decide), by simp⟩
  have key : ∀ (h : Hive.HType) (t : RType) (o : Dict), Hive.toRecap { name := "t", columns := [{ name := "u", type := h }] } = .ok t →
      convert newRegistry t .avro = .ok (.dict o) → ¬AvroOptions h → ¬ValidSchema (.dict o) := by
    intro h t o h1 h2 h3 h4
    have := ((C117_hive_partial _ t newRegistry h1 (hn _ (by simp)) (by simpa using hn "u" (by simp)) (by simp)).1).mp ⟨o, h2, h4⟩
    exact h3 (by simpa using this)
  simp only [List.mem_cons, List.not_mem_nil, or_false, forall_eq_or_imp, forall_eq]
  refine ⟨⟨_, _, rfl, rfl, ?_⟩, ⟨_, _, rfl, rfl, ?_⟩⟩
  · refine key (.union [.prim .int, .prim .date]) _ _ rfl rfl ?_
    simp [AvroOptions, AvroColumn, options, optionsAll, avroKind]
  · refine key (.union [.list (.prim .void), .union [.list (.prim .void)]]) _ _ rfl rfl ?_
    simp [AvroOptions, AvroColumn, options, optionsAll, avroKind]

end Recap.Commands
