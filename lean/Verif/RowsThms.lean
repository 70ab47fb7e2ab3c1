import Verif.RowsLemmas

/-!
# The rows of a table are valid against the JSON Schema that is written for it (C143)
-/

set_option autoImplicit false

namespace Recap.Rows

open Recap.Relational Recap.Values Recap.Spec Recap.PgArrays
open Recap.JsonData
open Recap.Avro.Spec (IntValue)
open Recap.Json.Spec (nameOf OptionalField)

theorem null_declared {cm : CaseMap} {d : Dialect} {c : Dict} (h : InColumn cm d c .null) : DeclaredNullable cm c := by
  rcases h with h | ⟨-, ⟨-, h⟩ | ⟨e, n, -, hn, -, hx⟩⟩
  · cases d <;> cases h <;> assumption
  · exact h
  · cases n with
    | zero => omega
    | succ n => obtain ⟨xs, h, -⟩ := hx; cases h

/-- A value of a column has the form of the column's type. -/
theorem column_shaped {cm : CaseMap} {d : Dialect} {c : Dict} {s s' live : Registry} {b : RType} {x : Val} {j : PyVal}
    (hcm : Lower cm) (h : d.parse cm c s = (.ok b, s')) (hx : InColumn cm d c x) (hn : x ≠ .null) (hw : Written x j)
    (hq : d = .sqlite → Agrees cm c x) (he : Enforced cm d c x)
    (ha : ∀ cfg, d = .postgresql cfg → DataType cm c "array" → cfg.enforce = true) : Shaped live b j := by
  cases d with
  | mysql =>
    simp only [Dialect.parse, stateless, Prod.mk.injEq] at h
    rcases hx with hx | ⟨⟨_, e⟩, -⟩
    · exact mysql_shaped h.1 hx hn hw
    · cases e
  | snowflake =>
    simp only [Dialect.parse, stateless, Prod.mk.injEq] at h
    rcases hx with hx | ⟨⟨_, e⟩, -⟩
    · exact snowflake_shaped h.1 hx hn hw
    · cases e
  | sqlite =>
    simp only [Dialect.parse, stateless, Prod.mk.injEq] at h
    exact sqlite_shaped h.1 (hq rfl) hn hw
  | postgresql cfg =>
    by_cases hd : DataType cm c "array"
    · obtain ⟨e, n, hm, hae, hk0, hx'⟩ := he cfg rfl hd
      have hdim := hx'.resolve_left hn
      obtain ⟨v, hv, ⟨-, -, k, hk, hk'⟩ | ⟨he', -⟩⟩ := array_parse hcm hm hae h
      · rw [hk0] at hk
        cases hk
        obtain ⟨m, rfl, hm'⟩ := createNDim_ok hk'
        obtain rfl : m = n + 1 := by
          rcases hm' with h | ⟨h, -⟩ | ⟨h, -⟩
          · simp only [PyVal.int.injEq] at h; omega
          · cases h
          · cases h
        have mono : ∀ k y, Dimensions (fun y => y = .null ∨ Element e y) k y →
            Dimensions (fun y => y = .null ∨ Holds v y) k y := by
          intro k
          induction k with
          | zero => exact fun y hy => hy.imp id fun hy => element_holds hv hy
          | succ k ih =>
            rintro y ⟨xs, rfl, hxs⟩
            exact ⟨xs, rfl, fun z hz => ih z (hxs z hz)⟩
        exact nDim_shaped (pgScalar_simple _ _ _ _ _ hv) _ _ _ (mono _ _ hdim) hw
      · rw [ha cfg rfl hd] at he'
        cases he'
    · rcases hx with hx | ⟨-, ⟨e, -⟩ | ⟨e, n, hae, -⟩⟩
      · exact pg_shaped h hx hn hw
      · exact absurd e hn
      · exact absurd hae.1 hd

/-- **C143, the part that holds.** Every row of a table, with the columns left out that are null, is valid against the
schema. Missing are rows in which null is written, columns of SQLite with NUMERIC affinity or values that do not go with
the affinity, and arrays of PostgreSQL unless the dimensions are enforced and the array has those that are declared. -/
theorem C143_rows_partial (cm : CaseMap) (d : Dialect) (cols : List Dict) (reg live : Registry) (t : RType) (schema : Dict)
    (refs : String → PyVal → Prop) (xs : List Val) (o : Dict) (hcm : Lower cm)
    (h : d.toRecap cm cols reg = (.ok t, live)) (hs : Json.fromRecap live t = .ok schema) (hr : Interprets refs schema)
    (hx : StoredRow cm d cols xs) (ho : RowObject true cols xs o) (hp : Plain cm d cols)
    (hq : d = .sqlite → ∀ (i : Nat) c x, cols[i]? = some c → xs[i]? = some x → Agrees cm c x)
    (he : ∀ (i : Nat) c x, cols[i]? = some c → xs[i]? = some x → Enforced cm d c x) :
    Valid refs (.dict schema) (.dict o) := by
  obtain ⟨fs, rfl, -⟩ := toRecap_ok h
  refine (table_valid h hp hs hr).1 ?_
  obtain ⟨-, hl, hi⟩ := table_fields h hp
  have key : ∀ f ∈ fs, ∃ n, nameOf f = some (.str n) ∧ ((∃ v, Dict.get? o n = some v ∧ Shaped live f v) ∨
      Dict.get? o n = .none ∧ OptionalField f) := by
    intro f hf
    obtain ⟨i, hi', hfi⟩ := List.mem_iff_getElem.mp hf
    have hlen := hx.1
    have hci : cols[i]? = some (cols[i]'(by omega)) := List.getElem?_eq_getElem _
    have hxi : xs[i]? = some (xs[i]'(by omega)) := List.getElem?_eq_getElem _
    generalize cols[i]'(by omega) = c at hci
    generalize xs[i]'(by omega) = x at hxi
    obtain ⟨b, s, s', h1, h2, h3, h4⟩ := hi i c f hci (by rw [List.getElem?_eq_getElem hi', hfi])
    obtain ⟨-, hname, hopt⟩ := field_plain h3 h4 h2
    obtain ⟨n, hn, hcase⟩ := ho i c x hci hxi
    refine ⟨n, hname.trans hn, ?_⟩
    rcases hcase with ⟨-, rfl, hno⟩ | ⟨hnn, j, hj, hw⟩
    · exact .inr ⟨hno, optional_iff.mpr (hopt.mpr (null_declared (hx.2 i c _ hci hxi)))⟩
    · refine .inl ⟨j, hj, (field_shaped h3 h4 h2).mpr ?_⟩
      exact column_shaped hcm h1 (hx.2 i c x hci hxi) (fun e => hnn ⟨rfl, e⟩) hw (fun e => hq e i c x hci hxi)
        (he i c x hci hxi) fun cfg e ha => (hp.array cfg e c (List.mem_of_getElem? hci) ha).1
  refine .struct ?_ ?_ ?_
  · intro f hf
    obtain ⟨n, hn, -⟩ := key f hf
    exact ⟨n, hn⟩
  · intro f hf n v hn hv
    obtain ⟨n', hn', ⟨v', hv', hsh⟩ | ⟨hno, -⟩⟩ := key f hf
    · rw [hn] at hn'
      cases hn'
      rw [hv] at hv'
      cases hv'
      exact hsh
    · rw [hn] at hn'
      cases hn'
      rw [hv] at hno
      cases hno
  · intro f hf n hn hv
    obtain ⟨n', hn', ⟨v', hv', -⟩ | ⟨-, hopt⟩⟩ := key f hf
    · rw [hn] at hn'
      cases hn'
      rw [hv] at hv'
      cases hv'
    · exact hopt

/-- What is valid has, for each column, either no value or one with the form of the column's type. -/
theorem valid_column {cm : CaseMap} {d : Dialect} {cols : List Dict} {reg live : Registry} {t : RType} {schema : Dict}
    {refs : String → PyVal → Prop} {o : Dict} (h : d.toRecap cm cols reg = (.ok t, live))
    (hs : Json.fromRecap live t = .ok schema) (hr : Interprets refs schema) (hp : Plain cm d cols)
    (hd : (cols.map (fun c => Dict.get? c "COLUMN_NAME")).Nodup) (hv : Valid refs (.dict schema) (.dict o))
    {c : Dict} {n : String} {j : PyVal} (hc : c ∈ cols) (hn : Dict.get? c "COLUMN_NAME" = some (.str n))
    (hj : Dict.get? o n = some j) :
    ∃ b s s', d.parse cm c s = (.ok b, s') ∧ BaseShape b ∧ b.isNullable = false ∧ Shaped live b j := by
  obtain ⟨fs, rfl, -⟩ := toRecap_ok h
  have hsh := (table_valid h hp hs hr).2 hd hv
  obtain ⟨-, hl, hi⟩ := table_fields h hp
  obtain ⟨i, hi', hci⟩ := List.mem_iff_getElem.mp hc
  obtain ⟨b, s, s', h1, h2, h3, h4⟩ := hi i c (fs[i]'(by omega)) (by rw [List.getElem?_eq_getElem hi', hci])
    (List.getElem?_eq_getElem _)
  obtain ⟨-, hname, -⟩ := field_plain h3 h4 h2
  refine ⟨b, s, s', h1, h3, h4, (field_shaped h3 h4 h2).mp ?_⟩
  cases hsh with
  | struct _ h6 _ => exact h6 _ (List.getElem_mem _) n j (hname.trans hn) hj

/-- **C143 does not hold: null.** A row in which null is written for a column is never valid, also if the column can be
null. -/
theorem C143_null_refuted (cm : CaseMap) (d : Dialect) (cols : List Dict) (reg live : Registry) (t : RType) (schema : Dict)
    (refs : String → PyVal → Prop) (xs : List Val) (o : Dict) (i : Nat) (h : d.toRecap cm cols reg = (.ok t, live))
    (hs : Json.fromRecap live t = .ok schema) (hr : Interprets refs schema) (hp : Plain cm d cols)
    (hd : (cols.map (fun c => Dict.get? c "COLUMN_NAME")).Nodup) (hl : cols.length = xs.length)
    (ho : RowObject false cols xs o) (hi : xs[i]? = some .null) : ¬Valid refs (.dict schema) (.dict o) := by
  intro hv
  obtain ⟨c, hc⟩ : ∃ c, cols[i]? = some c := by
    obtain ⟨h1, -⟩ := List.getElem?_eq_some_iff.mp hi
    exact ⟨_, List.getElem?_eq_getElem (by omega)⟩
  obtain ⟨n, hn, ⟨e, -⟩ | ⟨-, j, hj, hw⟩⟩ := ho i c _ hc hi
  · cases e
  · cases hw
    obtain ⟨b, s, s', -, h3, h4, h5⟩ := valid_column h hs hr hp hd hv (List.mem_of_getElem? hc) hn hj
    cases h3 with
    | leafy h6 h7 =>
      cases h5 with
      | null => exact absurd h7.notNull (by simp [RType.isNull])
      | union => exact h7.notUnion _ _ rfl
      | reference => cases h6.proxy
    | numeric => cases h4
    | array k h6 h7 =>
      cases k with
      | zero => cases h4
      | succ k => cases h5

/-- **C143 does not hold of SQLite**: a row with a number in a column of BLOB affinity, or text or bytes in one of INTEGER
or REAL affinity, is never valid. -/
theorem C143_affinity_refuted (cm : CaseMap) (cols : List Dict) (reg live : Registry) (t : RType) (schema : Dict)
    (refs : String → PyVal → Prop) (leave : Bool) (xs : List Val) (o : Dict) (i : Nat) (c : Dict) (x : Val)
    (h : Dialect.sqlite.toRecap cm cols reg = (.ok t, live)) (hs : Json.fromRecap live t = .ok schema)
    (hr : Interprets refs schema) (hp : Plain cm .sqlite cols)
    (hd : (cols.map (fun c => Dict.get? c "COLUMN_NAME")).Nodup) (ho : RowObject leave cols xs o)
    (hc : cols[i]? = some c) (hx : xs[i]? = some x) (ha : Disagrees cm c x) : ¬Valid refs (.dict schema) (.dict o) := by
  intro hv
  obtain ⟨n, hn, ⟨-, rfl, -⟩ | ⟨-, j, hj, hw⟩⟩ := ho i c _ hc hx
  · cases ha
  · obtain ⟨b, s, s', h1, -, -, h5⟩ := valid_column h hs hr hp hd hv (List.mem_of_getElem? hc) hn hj
    simp only [Dialect.parse, stateless, Prod.mk.injEq] at h1
    obtain ⟨ty, r, a, k, p, h1, h2, h3, -, -, h⟩ := sqliteParse_ok h1.1
    have number : ColumnAffinity cm c .integer ∨ ColumnAffinity cm c .real → ∀ u, j ≠ .str u := by
      rintro (ha | ha) u rfl
      · cases affinity_of h1 h2 h3 ha
        cases h
        cases h5
      · cases affinity_of h1 h2 h3 ha
        rcases h with ⟨-, -, rfl⟩ | ⟨-, rfl⟩ <;> cases h5
    cases ha with
    | int ha =>
      cases affinity_of h1 h2 h3 ha
      cases h
      cases hw
      cases h5
    | real ha =>
      cases affinity_of h1 h2 h3 ha
      cases h
      cases hw <;> cases h5
    | text ha =>
      cases hw
      exact number ha _ rfl
    | blob ha =>
      cases hw
      exact number ha _ rfl

/-- A SQLite column `n NUMERIC NOT NULL`. -/
def numberColumn : Dict := liteColumn "n" (.str "NUMERIC") "NO" .none .none

/-- The schema for its table. -/
def numberSchema : Dict :=
  [("type", .str "object"),
    ("properties", .dict [("n", .dict [("oneOf", .list [.dict [("type", .str "null")], .dict [("type", .str "integer")],
      .dict [("type", .str "number")], .dict [("type", .str "string")],
      .dict [("type", .str "string"), ("format", .str "byte")]])])]),
    ("required", .list [.str "n"])]

/-- **C143 does not hold of SQLite**: in the schema for a column of NUMERIC affinity, whole numbers and strings each
match two of the alternatives. No row with a whole number, text or bytes is valid. -/
theorem C143_numeric_refuted (leave : Bool) (refs : String → PyVal → Prop) (x : Val) (o : Dict)
    (hx : (∃ i, x = .int i) ∨ (∃ s, x = .str s) ∨ ∃ n, x = .bytes n) (ho : RowObject leave [numberColumn] [x] o) :
    ∃ t live, Dialect.sqlite.toRecap asciiCase [numberColumn] newRegistry = (.ok t, live) ∧
      Json.fromRecap live t = .ok numberSchema ∧ ¬Valid refs (.dict numberSchema) (.dict o) := by
  refine ⟨_, _, rfl, rfl, fun h => ?_⟩
  obtain ⟨n, hn, hcase⟩ := ho 0 _ _ rfl rfl
  cases hn
  obtain ⟨j, hj, hw⟩ : ∃ j, Dict.get? o "n" = some j ∧ Written x j := by
    rcases hcase with ⟨-, rfl, -⟩ | ⟨-, j, hj⟩
    · rcases hx with ⟨_, e⟩ | ⟨_, e⟩ | ⟨_, e⟩ <;> cases e
    · exact ⟨j, hj⟩
  have := (valid_get h (k := "properties") rfl).properties rfl
  rw [Properties, propertiesAll_iff] at this
  have := this _ (List.mem_singleton.mpr rfl) _ j rfl hj
  have := (valid_iff.mp this _ (List.mem_singleton.mpr rfl)).oneOf rfl
  simp only [OneOf, ExactlyOne, NoneOf] at this
  have hkind : (∃ i, j = .int i) ∨ ∃ u, j = .str u := by
    rcases hx with ⟨i, rfl⟩ | ⟨u, rfl⟩ | ⟨k, rfl⟩
    · cases hw; exact .inl ⟨_, rfl⟩
    · cases hw; exact .inr ⟨_, rfl⟩
    · cases hw; exact .inr ⟨_, rfl⟩
  rcases hkind with ⟨i, rfl⟩ | ⟨u, rfl⟩
  · have h1 : Valid refs (.dict [("type", .str "integer")]) (.int i) := valid_type .integer (by simp)
    have h2 : Valid refs (.dict [("type", .str "number")]) (.int i) := valid_type .whole (by simp)
    grind
  · have h1 : Valid refs (.dict [("type", .str "string")]) (.str u) := valid_type .string (by simp)
    have h2 : Valid refs (.dict [("type", .str "string"), ("format", .str "byte")]) (.str u) := by
      simp [Valid, Keywords, TypeOk, Kind.string]
    grind

/-- **C143 does not hold of PostgreSQL with the settings that are the default**: the schema for an array refers to itself
and says nothing about it. One reading of the references is that nothing is valid. -/
theorem C143_array_refuted : ∃ t live schema refs, (Dialect.postgresql {}).toRecap asciiCase [tags] newRegistry = (.ok t, live) ∧
    Json.fromRecap live t = .ok schema ∧ Interprets refs schema ∧
    ∀ leave xs o, StoredRow asciiCase (.postgresql {}) [tags] xs → RowObject leave [tags] xs o → ¬Valid refs (.dict schema) (.dict o) := by
  refine ⟨_, _, [("type", .str "object"), ("properties", .dict [("tags", .dict [("$ref", .str "#/$defs/_root.tags")])]),
    ("required", .list [.str "tags"]), ("$defs", .dict [("_root.tags", .dict [("$ref", .str "#/$defs/_root.tags")])])],
    fun _ _ => False, rfl, rfl, ?_, ?_⟩
  · intro alias s hs j
    simp only [false_iff]
    intro hv
    have hs' : s = .dict [("$ref", .str "#/$defs/_root.tags")] := by
      have : Dict.get? [("_root.tags", PyVal.dict [("$ref", .str "#/$defs/_root.tags")])] alias = some s := hs
      rw [Dict.get?_cons] at this
      split at this
      · cases this; rfl
      · cases this
    subst hs'
    obtain ⟨_, _, h⟩ := (valid_get hv (k := "$ref") rfl).ref rfl
    exact h
  · intro leave xs o hx ho hv
    obtain ⟨n, hn, hcase⟩ := ho 0 tags (xs[0]'(by have := hx.1; simp at this; omega)) rfl (List.getElem?_eq_getElem _)
    cases hn
    rcases hcase with ⟨-, -, hno⟩ | ⟨-, j, hj, -⟩
    · have := (valid_get hv (k := "required") rfl).required rfl
      obtain ⟨n, h1, hn⟩ := this o rfl _ (List.mem_singleton.mpr rfl)
      cases h1
      rw [← Dict.has_iff, Dict.has, hno] at hn
      cases hn
    · have := (valid_get hv (k := "properties") rfl).properties rfl
      rw [Properties, propertiesAll_iff] at this
      have := this _ (List.mem_singleton.mpr rfl) _ j rfl hj
      obtain ⟨_, _, h⟩ := (valid_get this (k := "$ref") rfl).ref rfl
      exact h

/-! ## Examples -/

/-- A MySQL table `(id BIGINT UNSIGNED NOT NULL, name VARCHAR(20))`. -/
def people : List Dict :=
  [sqlColumn "id" "bigint" "NO" .none .none (.int 20) .none ++ [("COLUMN_TYPE", .str "bigint unsigned")],
    sqlColumn "name" "varchar" "YES" .none (.int 80) .none .none]

/-- Its schema. -/
def peopleSchema : Dict :=
  [("type", .str "object"),
    ("properties", .dict [("id", .dict [("type", .str "integer")]),
      ("name", .dict [("default", .none), ("type", .str "string")])]),
    ("required", .list [.str "id"])]

theorem people_plain : Plain asciiCase .mysql people where
  real := by
    intro c hc
    simp only [people, List.mem_cons, List.not_mem_nil, or_false] at hc
    rcases hc with rfl | rfl <;> simp [sqlColumn, Real, RealPairs]
  name := by
    intro c hc
    simp only [people, List.mem_cons, List.not_mem_nil, or_false] at hc
    rcases hc with rfl | rfl
    · exact ⟨"id", by decide, rfl⟩
    · exact ⟨"name", by decide, rfl⟩
  affinity := nofun
  array := nofun

/-- The row `(2^63, NULL)` is stored. -/
theorem people_stored : StoredRow asciiCase .mysql people [.int 9223372036854775808, .null] := by
  refine ⟨rfl, fun i c x hc hx => .inl ?_⟩
  match i, hc, hx with
  | 0, hc, hx =>
    cases hc; cases hx
    exact .unsigned (dt := "bigint") (n := 64) ⟨"bigint", rfl, by decide +kernel⟩ (by decide)
      ⟨"bigint unsigned", rfl, "bigint ".toList, [], by decide +kernel⟩ (by simp only [IntValue]; decide +kernel)
  | 1, hc, hx =>
    cases hc; cases hx
    exact .null ⟨"YES", rfl, by decide +kernel⟩
  | _ + 2, hc, _ => cases hc

/-- `{"id": 9223372036854775808}` is valid, and `{"id": 9223372036854775808, "name": null}` is not. -/
example (refs : String → PyVal → Prop) : ∃ t live, Dialect.mysql.toRecap asciiCase people newRegistry = (.ok t, live) ∧
    Json.fromRecap live t = .ok peopleSchema ∧ Valid refs (.dict peopleSchema) (.dict [("id", .int 9223372036854775808)]) ∧
    ¬Valid refs (.dict peopleSchema) (.dict [("id", .int 9223372036854775808), ("name", .none)]) := by
  have hr : Interprets refs peopleSchema := fun alias s hs => by cases hs
  refine ⟨_, _, rfl, rfl, ?_, ?_⟩
  · refine C143_rows_partial asciiCase .mysql people newRegistry _ _ _ refs _ _ lower_ascii rfl rfl hr people_stored ?_
      people_plain nofun (fun i c x _ _ => nofun)
    intro i c x hc hx
    match i, hc, hx with
    | 0, hc, hx =>
      cases hc; cases hx
      exact ⟨"id", rfl, .inr ⟨nofun, _, rfl, .int⟩⟩
    | 1, hc, hx =>
      cases hc; cases hx
      exact ⟨"name", rfl, .inl ⟨rfl, rfl, rfl⟩⟩
    | _ + 2, hc, _ => cases hc
  · refine C143_null_refuted asciiCase .mysql people newRegistry _ _ _ refs [.int 9223372036854775808, .null] _ 1 rfl rfl hr
      people_plain (by decide +kernel) rfl ?_ rfl
    intro i c x hc hx
    match i, hc, hx with
    | 0, hc, hx =>
      cases hc; cases hx
      exact ⟨"id", rfl, .inr ⟨nofun, _, rfl, .int⟩⟩
    | 1, hc, hx =>
      cases hc; cases hx
      exact ⟨"name", rfl, .inr ⟨nofun, _, rfl, .null⟩⟩
    | _ + 2, hc, _ => cases hc

/-- A PostgreSQL table with a column `tags text[] NOT NULL`, with enforced dimensions: `{a,NULL}` is valid as
`["a", null]`. -/
example (refs : String → PyVal → Prop) : ∃ t live schema,
    (Dialect.postgresql { enforce := true }).toRecap asciiCase [tags] newRegistry = (.ok t, live) ∧
    Json.fromRecap live t = .ok schema ∧ Valid refs (.dict schema) (.dict [("tags", .list [.str "a", .none])]) := by
  refine ⟨_, _, _, rfl, rfl, ?_⟩
  have hdim : Dimensions (fun y => y = .null ∨ Element "text" y) 1 (.list [.str "a", .null]) := by
    refine ⟨_, rfl, ?_⟩
    simp only [List.mem_cons, List.not_mem_nil, or_false]
    rintro y (rfl | rfl)
    · exact .inr (.text (by decide +kernel))
    · exact .inl rfl
  refine C143_rows_partial asciiCase (.postgresql { enforce := true }) [tags] newRegistry _ _ _ refs
    [.list [.str "a", .null]] _ lower_ascii rfl rfl (fun alias s hs => by cases hs) ⟨rfl, ?_⟩ ?_ ?_ nofun ?_
  · intro i c x hc hx
    match i, hc, hx with
    | 0, hc, hx =>
      cases hc; cases hx
      exact .inr ⟨⟨_, rfl⟩, .inr ⟨"text", 1, tags_array, by omega, by omega, hdim⟩⟩
  · intro i c x hc hx
    match i, hc, hx with
    | 0, hc, hx =>
      cases hc; cases hx
      refine ⟨"tags", rfl, .inr ⟨nofun, _, rfl, .list rfl ?_⟩⟩
      intro i x j hx hj
      match i, hx, hj with
      | 0, hx, hj => cases hx; cases hj; exact .str
      | 1, hx, hj => cases hx; cases hj; exact .null
  · refine ⟨?_, ?_, nofun, ?_⟩
    · intro c hc
      cases List.mem_singleton.mp hc
      simp [tags, pgColumn, Real, RealPairs]
    · intro c hc
      cases List.mem_singleton.mp hc
      exact ⟨"tags", by decide, rfl⟩
    · rintro cfg ⟨⟩ c hc -
      cases List.mem_singleton.mp hc
      exact ⟨rfl, 0, rfl⟩
  · intro i c x hc hx
    match i, hc, hx with
    | 0, hc, hx =>
      cases hc; cases hx
      exact fun cfg _ _ => ⟨"text", 0, by decide, tags_array, rfl, .inr hdim⟩

/-- A SQLite table with a column `n INTEGER`: a row with text is not valid. -/
example (refs : String → PyVal → Prop) (s : String) : ∃ t live schema,
    Dialect.sqlite.toRecap asciiCase [liteColumn "n" (.str "INTEGER") "YES" .none .none] newRegistry = (.ok t, live) ∧
    Json.fromRecap live t = .ok schema ∧ ¬Valid refs (.dict schema) (.dict [("n", .str s)]) := by
  have hint : ColumnAffinity asciiCase (liteColumn "n" (.str "INTEGER") "YES" .none .none) .integer :=
    ⟨.str "INTEGER", "INTEGER", rfl, .inl rfl, .integer ⟨[], "EGER".toList, by decide +kernel⟩⟩
  refine ⟨_, _, _, rfl, rfl, ?_⟩
  refine C143_affinity_refuted asciiCase [liteColumn "n" (.str "INTEGER") "YES" .none .none] newRegistry _ _ _ refs true
    [.str s] _ 0 _ (.str s) rfl rfl (fun alias s hs => by cases hs) ?_ (by decide +kernel) ?_ rfl rfl (.text (.inl hint))
  · refine ⟨?_, ?_, ?_, nofun⟩
    · intro c hc
      cases List.mem_singleton.mp hc
      simp [liteColumn, Real, RealPairs]
    · intro c hc
      cases List.mem_singleton.mp hc
      exact ⟨"n", by decide, rfl⟩
    · rintro - c hc ⟨ty, r, h1, h2, h3⟩
      cases List.mem_singleton.mp hc
      cases h1
      rcases h2 with h2 | ⟨h2, -⟩
      · cases h2
        cases h3 with
        | numeric h _ _ _ => exact h ⟨[], "EGER".toList, by decide +kernel⟩
      · cases h2
  · intro i c x hc hx
    match i, hc, hx with
    | 0, hc, hx =>
      cases hc; cases hx
      exact ⟨"n", rfl, .inr ⟨nofun, _, rfl, .str⟩⟩

/-- **C143 does not hold of any database if null is written.** -/
theorem C143_written_refuted (d : Dialect) : ¬RowsAccepted asciiCase d false := by
  have key : ∀ (c : Dict) t live schema, d.toRecap asciiCase [c] newRegistry = (.ok t, live) →
      Json.fromRecap live t = .ok schema → Json.Spec.defsOf schema = [] → Real (.dict c) → Dict.get? c "COLUMN_NAME" = some (.str "n") →
      (d = .sqlite → ¬ColumnAffinity asciiCase c .numeric) → (∀ cfg, d = .postgresql cfg → ¬DataType asciiCase c "array") →
      Stored asciiCase d c .null → ¬RowsAccepted asciiCase d false := by
    intro c t live schema h hs hd hreal hn hq ha hst hall
    have hr : Interprets (fun _ _ => False) schema := fun alias s he => by rw [hd] at he; cases he
    have hp : Plain asciiCase d [c] := by
      refine ⟨?_, ?_, ?_, ?_⟩
      · intro c hc; cases List.mem_singleton.mp hc; exact hreal
      · intro c hc; cases List.mem_singleton.mp hc; exact ⟨"n", by decide, hn⟩
      · intro e c hc; cases List.mem_singleton.mp hc; exact hq e
      · intro cfg e c hc hx; cases List.mem_singleton.mp hc; exact absurd hx (ha cfg e)
    have ho : RowObject false [c] [.null] [("n", .none)] := by
      intro i c' x hc hx
      match i, hc, hx with
      | 0, hc, hx =>
        cases hc; cases hx
        exact ⟨"n", hn, .inr ⟨nofun, _, rfl, .null⟩⟩
    refine C143_null_refuted asciiCase d [c] newRegistry live t schema _ [.null] _ 0 h hs hr hp (by simp) rfl ho rfl
      (hall _ _ _ _ _ _ _ _ h hs hr ⟨rfl, ?_⟩ ho)
    intro i c' x hc hx
    match i, hc, hx with
    | 0, hc, hx =>
      cases hc; cases hx
      exact .inl hst
  cases d with
  | mysql =>
    exact key (sqlColumn "n" "int" "YES" .none .none (.int 10) .none) _ _ _ rfl rfl rfl
      (by simp [sqlColumn, Real, RealPairs]) rfl nofun nofun (.null ⟨"YES", rfl, by decide +kernel⟩)
  | postgresql cfg =>
    refine key (pgColumn "n" "integer" "int4" "YES" .none (.int 0)) _ _ _ rfl rfl rfl
      (by simp [pgColumn, Real, RealPairs]) rfl nofun ?_ (.null ⟨"YES", rfl, by decide +kernel⟩)
    rintro _ - ⟨s, hs, he⟩
    cases hs
    revert he
    decide +kernel
  | snowflake =>
    exact key (sqlColumn "n" "FLOAT" "YES" .none .none .none .none) _ _ _ rfl rfl rfl
      (by simp [sqlColumn, Real, RealPairs]) rfl nofun nofun (.null ⟨"YES", rfl, by decide +kernel⟩)
  | sqlite =>
    refine key (liteColumn "n" (.str "INTEGER") "YES" .none .none) _ _ _ rfl rfl rfl
      (by simp [liteColumn, Real, RealPairs]) rfl ?_ nofun (.null ⟨"YES", rfl, by decide +kernel⟩)
    rintro - ⟨ty, r, h1, h2, h3⟩
    cases h1
    rcases h2 with h2 | ⟨h2, -⟩
    · cases h2
      cases h3 with
      | numeric h _ _ _ => exact h ⟨[], "EGER".toList, by decide +kernel⟩
    · cases h2

/-- **C143 does not hold of SQLite and PostgreSQL**, also if null is left out. -/
theorem C143_rows_refuted : ¬RowsAccepted asciiCase .sqlite true ∧ ¬RowsAccepted asciiCase (.postgresql {}) true := by
  constructor
  · intro hall
    have ho : RowObject true [numberColumn] [.int 1] [("n", .int 1)] := by
      intro i c x hc hx
      match i, hc, hx with
      | 0, hc, hx =>
        cases hc; cases hx
        exact ⟨"n", rfl, .inr ⟨nofun, _, rfl, .int⟩⟩
    obtain ⟨t, live, h1, h2, h3⟩ := C143_numeric_refuted true (fun _ _ => False) _ _ (.inl ⟨1, rfl⟩) ho
    refine h3 (hall _ _ _ _ _ _ _ _ h1 h2 (fun alias s hs => by cases hs) ⟨rfl, ?_⟩ ho)
    have none : ∀ a, a ≠ Affinity.numeric → ¬ColumnAffinity asciiCase numberColumn a := by
      intro a ha h
      have hno : ∀ {p}, contains "NUMERIC" p = false → ¬Occurs p "NUMERIC" := fun h h' => by
        rw [(contains_iff _ _).mpr h'] at h; cases h
      have hu : asciiCase.upper "NUMERIC" = "NUMERIC" := by decide +kernel
      refine ha (affinity_of (v := .str "NUMERIC") (r := "NUMERIC") rfl rfl ?_ h).symm
      rw [hu]
      refine .numeric (hno (by decide +kernel)) ?_ ?_ ?_
      · rintro (h | h | h) <;> exact hno (by decide +kernel) h
      · rintro (h | h)
        · exact hno (by decide +kernel) h
        · revert h; decide +kernel
      · rintro (h | h | h) <;> exact hno (by decide +kernel) h
    intro i c x hc hx
    match i, hc, hx with
    | 0, hc, hx =>
      cases hc; cases hx
      exact .inl (.int (none _ nofun) (none _ nofun) (by simp only [IntValue]; decide +kernel))
  · intro hall
    obtain ⟨t, live, schema, refs, h1, h2, h3, h4⟩ := C143_array_refuted
    have ho : RowObject true [tags] [.list []] [("tags", .list [])] := by
      intro i c x hc hx
      match i, hc, hx with
      | 0, hc, hx =>
        cases hc; cases hx
        exact ⟨"tags", rfl, .inr ⟨nofun, _, rfl, .list rfl (fun i x j hx => by cases hx)⟩⟩
    have hst : StoredRow asciiCase (.postgresql {}) [tags] [.list []] := by
      refine ⟨rfl, ?_⟩
      intro i c x hc hx
      match i, hc, hx with
      | 0, hc, hx =>
        cases hc; cases hx
        exact .inr ⟨⟨_, rfl⟩, .inr ⟨"text", 1, tags_array, by omega, by omega, [], rfl, nofun⟩⟩
    exact h4 _ _ _ hst ho (hall _ _ _ _ _ _ _ _ h1 h2 h3 hst ho)

end Recap.Rows
