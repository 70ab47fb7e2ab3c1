import Verif.NestedRowsLemmas

/-!
# The rows of BigQuery and Hive tables are valid against the JSON Schema that is written for them (C147)
-/

set_option autoImplicit false

namespace Recap.NestedRows

open RType Recap.Values Recap.Spec Recap.Rows
open Recap.JsonData
open Recap.Avro.Spec (IntValue)
open Recap.Json (Writable convertF)
open Recap.Json.Spec (nameOf OptionalField)
open Recap.Commands.Spec (Named NamedAll FieldNames)
open Recap.Relational (bind_ok)

/-! ## BigQuery -/

theorem bigquery_writable {fields : List BigQuery.Field} {ts : List RType} (h : BigQuery.fieldsOf fields = .ok ts)
    (hn : NamedAll fields) : Everywhere Writable (.struct ts {}) := by
  have := BigQuery.fieldsOf_writable fields ts h hn
  exact Json.plain_struct (fun f hf => (this f hf).1) rfl (fun f hf => (this f hf).2)

/-- **C147** for BigQuery: every row, with null left out, is valid, for all tables with records and arrays to any depth. -/
theorem C147_bigquery : BigQueryRowsAccepted true := by
  intro fields t live schema refs x j hn ht hs hr hx hj
  unfold BigQuery.toRecap at ht
  obtain ⟨ts, h1, ht⟩ := bind_ok ht
  cases ht
  have hc := fields_cell live fields ts h1 hn
  have hl := fieldsOf_length h1
  have hw := bigquery_writable h1 hn
  have hsh : Shaped live (.struct ts {}) j := record_shaped rfl (by simp) hn hl
    (fun i f t hf ht => ⟨(hc i f t hf ht).1, (hc i f t hf ht).2.2⟩) hx hj
  refine shaped_valid hs (noReference hw) (by rw [noAlias hw]; exact .nil) ?_ hr ?_ hsh
  · intro u s hu _ ha
    rw [(hw u (inside_sub hu)).alias] at ha
    cases ha
  · refine .struct fun f hf => ?_
    obtain ⟨i, hi, rfl⟩ := List.getElem_of_mem hf
    exact (hc i _ _ (List.getElem?_eq_getElem (by omega)) (List.getElem?_eq_getElem hi)).2.1

theorem bigquery_pair {f : BigQuery.Field} {t : RType} (h : BigQuery.fieldOf f = .ok t) (hm : f.mode = "NULLABLE") : Pair t := by
  obtain ⟨ft, mode, n, d, df, l, p, s, fields⟩ := f
  rw [BigQuery.fieldOf] at h
  have fin : ∀ {u : RType}, Decorated mode u (BigQuery.decorate mode n d df u) → u.isNull = false → u.isProxy = false →
      (∀ ts a, u ≠ .union ts a) → Pair (BigQuery.decorate mode n d df u) := by
    intro u hd h1 h2 h3
    rcases hd with ⟨-, a, e, h4⟩ | ⟨h4, -⟩ | ⟨h4, -⟩
    · rw [e]; exact pair_of h3 h2 h1 h4
    · exact absurd (hm.symm.trans h4) (by decide)
    · exact absurd hm h4
  split at h
  · obtain ⟨ts, h1, h⟩ := bind_ok h
    cases h
    exact fin (decorated ⟨rfl, rfl, rfl⟩ rfl (fun _ _ h => nomatch h)) rfl rfl (fun _ _ h => nomatch h)
  · obtain ⟨u, h1, h⟩ := bind_ok h
    cases h
    obtain ⟨hb, hnn, hu, -⟩ := BigQuery.scalar_fresh h1
    obtain ⟨hnl, hp, -⟩ := scalar_leaf h1
    exact fin (decorated hb hnn hu) hnl hp hu

/-- **C147 does not hold: null.** An object that has null for a column which can be null is never valid, for all tables of
BigQuery whose columns have different names. -/
theorem C147_bigquery_null_refuted (fields : List BigQuery.Field) (t : RType) (live : Registry) (schema : Dict)
    (refs : String → PyVal → Prop) (o : Dict) (f : BigQuery.Field) (n : String) (hn : NamedAll fields)
    (hd : (fields.map columnName).Nodup) (ht : BigQuery.toRecap fields = .ok t) (hs : Json.fromRecap live t = .ok schema)
    (hf : f ∈ fields) (hm : f.mode = "NULLABLE") (hnm : columnName f = .str n) (ho : Dict.get? o n = some .none) :
    ¬Valid refs (.dict schema) (.dict o) := by
  intro hv
  unfold BigQuery.toRecap at ht
  obtain ⟨ts, h1, ht⟩ := bind_ok ht
  cases ht
  have hw := bigquery_writable h1 hn
  have hl := fieldsOf_length h1
  have hc := fields_cell live fields ts h1 hn
  have hname : ∀ (i : Nat) g u, fields[i]? = some g → ts[i]? = some u → nameOf u = some (columnName g) := by
    intro i g u hg hu
    obtain ⟨-, -, w1, -⟩ := BigQuery.fieldOf_writable _ _ (hc i g u hg hu).1 (BigQuery.namedAll_mem hn _ (List.mem_of_getElem? hg))
    rw [w1]
    cases g
    rfl
  have hnd : (ts.map nameOf).Nodup := by
    have e : ts.map nameOf = (fields.map columnName).map some := by
      refine List.ext_getElem? fun i => ?_
      simp only [List.getElem?_map, Option.map_map]
      by_cases hi : i < fields.length
      · have e1 : fields[i]? = some fields[i] := List.getElem?_eq_getElem hi
        have e2 : ts[i]? = some (ts[i]'(by omega)) := List.getElem?_eq_getElem _
        rw [e1, e2]
        simp [hname i _ _ e1 e2]
      · rw [List.getElem?_eq_none (by omega), List.getElem?_eq_none (by omega)]
        rfl
    rw [e]
    exact List.Pairwise.map _ (fun a b h e => h (Option.some.inj e)) hd
  obtain ⟨i, hi, rfl⟩ := List.getElem_of_mem hf
  have e1 : fields[i]? = some fields[i] := List.getElem?_eq_getElem hi
  have e2 : ts[i]? = some (ts[i]'(by omega)) := List.getElem?_eq_getElem _
  have hp := bigquery_pair (hc i _ _ e1 e2).1 hm
  obtain ⟨k, d, hk, hv⟩ := property_valid hw hnd hs hv (List.getElem_mem (by omega : i < ts.length))
    ((hname i _ _ e1 e2).trans (by rw [hnm])) ho
  obtain ⟨-, -, -, -, -, -, -, -, hne⟩ := pair_valid hp
    ((Hive.everywhere_iff.mp hw).2 _ (by simp [children])) hk hv
  exact hne rfl

/-! ## Hive -/

theorem hive_writable {table : Hive.HTable} {ts : List RType} (h : Hive.parseColumns table.columns = .ok ts)
    (hn : FieldNames (· ≠ "") (hiveRow table)) (a : Attrs) (ha : a.alias = .none) : Everywhere Writable (.struct ts a) := by
  have hn' : ∀ c ∈ table.columns, c.name ≠ "" ∧ FieldNames (· ≠ "") c.type := by
    have key : ∀ cs : List Hive.HColumn, Commands.Spec.FieldNamesIn (· ≠ "") (cs.map fun c => (c.name, c.type)) →
        ∀ c ∈ cs, c.name ≠ "" ∧ FieldNames (· ≠ "") c.type := by
      intro cs
      induction cs with
      | nil => simp
      | cons c cs ih =>
        intro h
        simp only [List.map_cons, Commands.Spec.FieldNamesIn] at h
        intro c' hc'
        rcases List.mem_cons.mp hc' with rfl | hc'
        · exact h.1
        · exact ih h.2 c' hc'
    exact key _ hn
  have := Hive.parseColumns_h (P := fun _ => True) (N := (· ≠ "")) trivial _ _ h (fun _ _ => trivial) hn'
  exact Json.plain_struct (fun f hf => Hive.hpiece_writable (this f hf).2.1) ha (fun f hf => (this f hf).1.2)

/-- The columns of a table. -/
theorem hive_columns (live : Registry) {table : Hive.HTable} {ts : List RType} (h : Hive.parseColumns table.columns = .ok ts) :
    ts.length = table.columns.length ∧ ∀ (i : Nat) c t, table.columns[i]? = some c → ts[i]? = some t →
      Hive.parse (Hive.columnAttrs c.name c.comment) c.type = .ok t ∧ nameOf t = some (.str c.name) ∧
      (Common c.type → Reads live c.type t) := by
  obtain ⟨hl, hi⟩ := parseColumns_index h
  refine ⟨hl, fun i c t hc ht => ?_⟩
  have e := hi i c t hc ht
  exact ⟨e, by rw [Hive.parse_nameOf (Hive.given_column ..) e]; rfl, fun hcm => reads_common live hcm (Hive.given_column ..) e⟩

/-- **C147** for Hive (partial): every row, with null left out, is valid, for all tables with lists, maps and structures to
any depth.  Missing: columns with unions or `void` in their type, and null as an element of a list or a value of a map, for
which it is false, see below. -/
theorem C147_hive_partial (table : Hive.HTable) (t : RType) (live : Registry) (schema : Dict) (refs : String → PyVal → Prop)
    (x : Val) (j : PyVal) (hn : FieldNames (· ≠ "") (hiveRow table)) (ht : Hive.toRecap table = .ok t)
    (hs : Json.fromRecap live t = .ok schema) (hr : Interprets refs schema)
    (hx : HiveStored (fun _ _ => True) (hiveRow table) x) (hx0 : x ≠ .null) (hj : HiveWritten true (hiveRow table) x j)
    (hc : ∀ c ∈ table.columns, Common c.type) (hsol : Solid x) : Valid refs (.dict schema) j := by
  unfold Hive.toRecap at ht
  obtain ⟨ts, h1, ht⟩ := bind_ok ht
  cases ht
  obtain ⟨hl, hi⟩ := hive_columns live h1
  have hw := hive_writable h1 hn { extra := [("name", .str table.name)] } rfl
  have hsh : Shaped live (.struct ts { extra := [("name", .str table.name)] }) j := by
    unfold hiveRow at hx hj
    refine struct_shaped (by simpa using hl) ?_ hx hsol hx0 hj
    intro i f t hf ht
    rw [List.getElem?_map] at hf
    obtain ⟨c, hc', rfl⟩ := Option.map_eq_some_iff.mp hf
    obtain ⟨-, e2, e3⟩ := hi i c t hc' ht
    exact ⟨e2, e3 (hc c (List.mem_of_getElem? hc'))⟩
  refine shaped_valid hs (noReference hw) (by rw [noAlias hw]; exact .nil) ?_ hr ?_ hsh
  · intro u s hu _ ha
    rw [(hw u (inside_sub hu)).alias] at ha
    cases ha
  · refine .struct fun f hf => ?_
    obtain ⟨i, hi', rfl⟩ := List.getElem_of_mem hf
    have e1 : table.columns[i]? = some (table.columns[i]'(by omega)) := List.getElem?_eq_getElem _
    exact ((hi i _ _ e1 (List.getElem?_eq_getElem hi')).2.2 (hc _ (List.getElem_mem _))).distinct

/-- What is valid has, for a column, a value that is valid against the schema for the type that is read for it. -/
theorem hive_property {table : Hive.HTable} {t : RType} {live : Registry} {schema : Dict} {refs : String → PyVal → Prop} {o : Dict}
    {c : Hive.HColumn} {v : PyVal} (hn : FieldNames (· ≠ "") (hiveRow table)) (hd : (table.columns.map (·.name)).Nodup)
    (ht : Hive.toRecap table = .ok t) (hs : Json.fromRecap live t = .ok schema) (hc : c ∈ table.columns)
    (ho : Dict.get? o c.name = some v) (hv : Valid refs (.dict schema) (.dict o)) :
    ∃ u n d, Hive.parse (Hive.columnAttrs c.name c.comment) c.type = .ok u ∧ Everywhere Writable u ∧
      convertF live n true u = .ok d ∧ Valid refs (.dict d) v ∧ (Common c.type → Reads live c.type u) := by
  unfold Hive.toRecap at ht
  obtain ⟨ts, h1, ht⟩ := bind_ok ht
  cases ht
  obtain ⟨hl, hi⟩ := hive_columns live h1
  have hw := hive_writable h1 hn { extra := [("name", .str table.name)] } rfl
  have hnd : (ts.map nameOf).Nodup := by
    have e : ts.map nameOf = (table.columns.map (·.name)).map (fun n => some (.str n)) := by
      refine List.ext_getElem? fun i => ?_
      simp only [List.getElem?_map, Option.map_map]
      by_cases hi' : i < table.columns.length
      · have e1 : table.columns[i]? = some table.columns[i] := List.getElem?_eq_getElem hi'
        have e2 : ts[i]? = some (ts[i]'(by omega)) := List.getElem?_eq_getElem _
        rw [e1, e2]
        simp [(hi i _ _ e1 e2).2.1]
      · rw [List.getElem?_eq_none (by omega), List.getElem?_eq_none (by omega)]
        rfl
    rw [e]
    exact List.Pairwise.map _ (fun a b h e => h (by injection e with e; injection e)) hd
  obtain ⟨i, hi', rfl⟩ := List.getElem_of_mem hc
  have e1 : table.columns[i]? = some table.columns[i] := List.getElem?_eq_getElem hi'
  have e2 : ts[i]? = some (ts[i]'(by omega)) := List.getElem?_eq_getElem _
  obtain ⟨g1, g2, g3⟩ := hi i _ _ e1 e2
  obtain ⟨n, d, hk, hv⟩ := property_valid hw hnd hs hv (List.getElem_mem (by omega : i < ts.length)) g2 ho
  exact ⟨_, n, d, g1, (Hive.everywhere_iff.mp hw).2 _ (by simp [children]), hk, hv, g3⟩

/-- **C147 does not hold: null.** An object that has null for a column is never valid, for all tables of Hive whose columns
have different names, unless the column is a union or void. -/
theorem C147_hive_null_refuted (table : Hive.HTable) (t : RType) (live : Registry) (schema : Dict)
    (refs : String → PyVal → Prop) (o : Dict) (c : Hive.HColumn) (hn : FieldNames (· ≠ "") (hiveRow table))
    (hd : (table.columns.map (·.name)).Nodup) (ht : Hive.toRecap table = .ok t) (hs : Json.fromRecap live t = .ok schema)
    (hc : c ∈ table.columns) (hcm : Common c.type) (ho : Dict.get? o c.name = some .none) :
    ¬Valid refs (.dict schema) (.dict o) := by
  intro hv
  obtain ⟨u, n, d, -, hw, hk, hv, hr⟩ := hive_property hn hd ht hs hc ho hv
  obtain ⟨-, -, -, -, -, -, -, -, hne⟩ := pair_valid (hr hcm).pair hw hk hv
  exact hne rfl

/-- **C147 does not hold: elements.** An object in which a list has a null element is never valid, for all tables of Hive
whose columns have different names and all types of elements without unions and voids: the element cannot be left out, and
the schema does not admit null. -/
theorem C147_hive_elements_refuted (table : Hive.HTable) (t : RType) (live : Registry) (schema : Dict)
    (refs : String → PyVal → Prop) (o : Dict) (c : Hive.HColumn) (e : Hive.HType) (js : List PyVal)
    (hn : FieldNames (· ≠ "") (hiveRow table)) (hd : (table.columns.map (·.name)).Nodup) (ht : Hive.toRecap table = .ok t)
    (hs : Json.fromRecap live t = .ok schema) (hc : c ∈ table.columns) (he : c.type = .list e) (hcm : Common e)
    (ho : Dict.get? o c.name = some (.list js)) (hjs : .none ∈ js) : ¬Valid refs (.dict schema) (.dict o) := by
  intro hv
  obtain ⟨u, n, d, hp, hw, hk, hv, hr⟩ := hive_property hn hd ht hs hc ho hv
  rw [he] at hp hr
  rw [Hive.parse] at hp
  obtain ⟨w, h1, hp⟩ := bind_ok hp
  have hre := reads_common live hcm Hive.given_empty h1
  obtain ⟨b, a, n', d', e1, hwb, hk', hv', -⟩ := pair_valid (hr (.list hcm)).pair hw hk hv
  obtain ⟨b1, b2, e2, -⟩ := finish_pair (b := .list w .none (.bool true) (Hive.columnAttrs c.name c.comment)) rfl rfl
  obtain rfl : b = .list w .none (.bool true) b1 := by
    have : Hive.finish (.list w .none (.bool true) (Hive.columnAttrs c.name c.comment)) = u := by
      injection hp
    rw [e2, e1] at this
    simp only [RType.union.injEq, List.cons.injEq, and_true, true_and] at this
    exact this.1.symm
  obtain ⟨n2, d2, h2, heq⟩ := convert_definition (defined_writable (refs := refs) (live := live) hwb) hk'
  rw [heq] at hv'
  cases n2 with
  | zero => cases h2
  | succ m =>
    simp only [convertF, Bool.false_eq_true, if_false] at h2
    obtain ⟨d3, h3, h2⟩ := ok_bind h2
    cases h2
    have hv' := (valid_describe (by simp [Dict.keys])).mp hv'
    have hnone := (valid_get hv' (k := "items") rfl).items rfl js rfl .none hjs
    obtain ⟨-, -, -, -, -, -, -, -, hne⟩ := pair_valid hre.pair
      ((Hive.everywhere_iff.mp hwb).2 _ (by simp [children])) h3 hnone
    exact hne rfl

/-- A table with the column `u uniontype<a,b>`. -/
def unionTable (a b : Hive.Primitive) : Hive.HTable :=
  { name := "t", columns := [{ name := "u", type := .union [.prim a, .prim b] }] }

/-- The schema that is written for it. -/
def unionSchema (a b : String) : Dict :=
  [("type", .str "object"),
   ("properties", .dict [("u", .dict [("default", .none),
     ("oneOf", .list [.dict [("type", .str "null")], .dict [("type", .str a)], .dict [("type", .str b)]])])]),
   ("required", .list [.str "u"])]

/-- **C147 does not hold: unions.** A column `uniontype<int,string>` is required, so that no object is valid for a row in
which it is null and left out. -/
theorem C147_hive_union_refuted (refs : String → PyVal → Prop) (j : PyVal)
    (hj : HiveWritten true (hiveRow (unionTable .int .string)) (.struct [.null]) j) :
    ∃ t, Hive.toRecap (unionTable .int .string) = .ok t ∧ Json.fromRecap newRegistry t = .ok (unionSchema "integer" "string") ∧
      ¬Valid refs (.dict (unionSchema "integer" "string")) j := by
  refine ⟨_, rfl, rfl, fun hv => ?_⟩
  cases hj with
  | struct h1 h2 =>
    have hno := (h1 0 _ _ rfl rfl).mpr ⟨rfl, rfl⟩
    obtain ⟨n, e, hn⟩ := (valid_get hv (k := "required") rfl).required rfl _ rfl _ (List.mem_singleton.mpr rfl)
    cases e
    rw [← Dict.has_iff, Dict.has] at hn
    have hno : Dict.get? _ "u" = .none := hno
    rw [hno] at hn
    cases hn

/-- **C147 does not hold: numbers in unions.** No object is valid for a row in which a column `uniontype<int,double>` has an
integer, since the schemas of both members admit it and exactly one has to. -/
theorem C147_hive_overlap_refuted (leave : Bool) (refs : String → PyVal → Prop) (i : Int) (j : PyVal)
    (hj : HiveWritten leave (hiveRow (unionTable .int .double)) (.struct [.int i]) j) :
    ∃ t, Hive.toRecap (unionTable .int .double) = .ok t ∧ Json.fromRecap newRegistry t = .ok (unionSchema "integer" "number") ∧
      ¬Valid refs (.dict (unionSchema "integer" "number")) j := by
  refine ⟨_, rfl, rfl, fun hv => ?_⟩
  cases hj with
  | @struct _ _ o h1 h2 =>
    obtain ⟨v, hv'⟩ : ∃ v, Dict.get? o "u" = some v := by
      cases e : Dict.get? o "u" with
      | none => cases ((h1 0 _ _ rfl rfl).mp e).2
      | some v => exact ⟨v, rfl⟩
    obtain rfl : v = .int i := by
      cases h2 0 _ _ _ rfl rfl hv' with
      | union hm hw =>
        simp only [List.mem_cons, List.not_mem_nil, or_false] at hm
        rcases hm with rfl | rfl <;> cases hw with
        | prim h => cases h; rfl
    have := (valid_get hv (k := "properties") rfl).properties rfl
    rw [Properties, propertiesAll_iff] at this
    have := this _ (List.mem_singleton.mpr rfl) _ _ rfl hv'
    have := (valid_get this (k := "oneOf") rfl).oneOf rfl
    simp only [OneOf, ExactlyOne, NoneOf] at this
    have k1 : Valid refs (.dict [("type", .str "integer")]) (.int i) := valid_type .integer (by simp)
    have k2 : Valid refs (.dict [("type", .str "number")]) (.int i) := valid_type .whole (by simp)
    grind

/-- A table with the column `n int`. -/
def oneColumn : Hive.HTable := { name := "t", columns := [{ name := "n", type := .prim .int }] }

/-- So the full statements fail: for BigQuery if null is written, for Hive in both cases. -/
theorem C147_refuted : ¬BigQueryRowsAccepted false ∧ ∀ leave, ¬HiveRowsAccepted leave := by
  refine ⟨fun h => ?_, fun leave h => ?_⟩
  · have hn : NamedAll [.mk "INTEGER" "NULLABLE" (.str "n") .none .none .none .none .none []] := by simp [NamedAll, Named]
    refine C147_bigquery_null_refuted _ _ newRegistry _ (fun _ _ => False) [("n", .none)] _ "n" hn (by simp) rfl rfl
      (List.mem_singleton.mpr rfl) rfl rfl rfl (h _ _ newRegistry _ _ (.struct [.null]) _ hn rfl rfl (fun _ _ hs => by cases hs) ?_ ?_)
    · refine .record (by simp) rfl fun i g x hg hx => ?_
      match i, hg, hx with
      | 0, hg, hx => cases hg; cases hx; exact .null
    · refine .record (fun i g x hg hx => ?_) (fun i g x n hg hx hn => ?_) (fun i g x n j hg hx hn hj => ?_)
      · match i, hg, hx with
        | 0, hg, hx => cases hg; cases hx; exact ⟨"n", rfl⟩
      · match i, hg, hx with
        | 0, hg, hx => cases hg; cases hx; cases hn; simp [Dict.get?]
      · match i, hg, hx with
        | 0, hg, hx => cases hg; cases hx; cases hn; cases hj; exact .null
  · cases leave with
    | true =>
      have hj : HiveWritten true (hiveRow (unionTable .int .string)) (.struct [.null]) (.dict []) := by
        refine .struct (fun i g x hg hx => ?_) (fun i g x j hg hx hj => by cases hj)
        match i, hg, hx with
        | 0, hg, hx => cases hg; cases hx; exact ⟨fun _ => ⟨rfl, rfl⟩, fun _ => rfl⟩
      obtain ⟨t, h1, h2, h3⟩ := C147_hive_union_refuted (fun _ _ => False) _ hj
      refine h3 (h _ _ _ _ _ (.struct [.null]) _ ?_ h1 h2 (fun _ _ hs => by cases hs) ?_ (by simp) hj)
      · simp [unionTable, hiveRow, FieldNames, Commands.Spec.FieldNamesIn, Commands.Spec.FieldNamesAll]
      · refine .struct rfl fun i g x hg hx => ?_
        match i, hg, hx with
        | 0, hg, hx => cases hg; cases hx; exact .null
    | false =>
      have hj : HiveWritten false (hiveRow oneColumn) (.struct [.null]) (.dict [("n", .none)]) := by
        refine .struct (fun i g x hg hx => ?_) (fun i g x j hg hx hj => ?_)
        · match i, hg, hx with
          | 0, hg, hx => cases hg; cases hx; simp [Dict.get?]
        · match i, hg, hx with
          | 0, hg, hx => cases hg; cases hx; cases hj; exact .null
      have hn : FieldNames (· ≠ "") (hiveRow oneColumn) := by
        simp [oneColumn, hiveRow, FieldNames, Commands.Spec.FieldNamesIn]
      refine C147_hive_null_refuted oneColumn _ newRegistry _ (fun _ _ => False) _ _ hn (by simp [oneColumn]) rfl rfl
        (List.mem_singleton.mpr rfl) (.prim (by simp)) rfl (h _ _ newRegistry _ _ (.struct [.null]) _ hn rfl rfl (fun _ _ hs => by cases hs) ?_ (by simp) hj)
      refine .struct rfl fun i g x hg hx => ?_
      match i, hg, hx with
      | 0, hg, hx => cases hg; cases hx; exact .null

/-! ## Concrete cases -/

/-- `id INT64 NOT NULL, note STRING, items ARRAY<STRUCT<sku STRING NOT NULL, price NUMERIC>>`. -/
def orders : List BigQuery.Field :=
  [.mk "INTEGER" "REQUIRED" (.str "id") .none .none .none .none .none [],
   .mk "STRING" "NULLABLE" (.str "note") .none .none .none .none .none [],
   .mk "RECORD" "REPEATED" (.str "items") .none .none .none .none .none
     [.mk "STRING" "REQUIRED" (.str "sku") .none .none .none .none .none [],
      .mk "NUMERIC" "NULLABLE" (.str "price") .none .none .none .none .none []]]

/-- The row `(7, NULL, [("a", 12.5)])` is `{"id": 7, "items": [{"sku": "a", "price": "12.5"}]}`, which is valid. -/
example (refs : String → PyVal → Prop) : ∃ t schema, BigQuery.toRecap orders = .ok t ∧
    Json.fromRecap newRegistry t = .ok schema ∧
    Valid refs (.dict schema) (.dict [("id", .int 7), ("items", .list [.dict [("sku", .str "a"), ("price", .str "12.5")]])]) := by
  refine ⟨_, _, rfl, rfl, ?_⟩
  refine C147_bigquery orders _ newRegistry _ refs
    (.struct [.int 7, .null, .list [.struct [.str "a", .decimal 12500000000 9]]]) _
    (by simp [orders, NamedAll, Named]) rfl rfl (fun _ _ hs => by cases hs) ?_ ?_
  · refine .record (by simp) rfl fun i g x hg hx => ?_
    match i, hg, hx with
    | 0, hg, hx =>
      cases hg; cases hx
      exact .single (by decide) (.leaf (.int (by simp) (by simp only [IntValue]; decide +kernel)) trivial)
    | 1, hg, hx => cases hg; cases hx; exact .null
    | 2, hg, hx =>
      cases hg; cases hx
      refine .repeated fun x hx => ?_
      cases List.mem_singleton.mp hx
      refine .record (by simp) rfl fun i g x hg hx => ?_
      match i, hg, hx with
      | 0, hg, hx => cases hg; cases hx; exact .single (by decide) (.leaf .string trivial)
      | 1, hg, hx => cases hg; cases hx; exact .single (by decide) (.leaf (.numeric (by decide +kernel)) trivial)
  · refine .record (fun i g x hg hx => ?_) (fun i g x n hg hx hn => ?_) (fun i g x n j hg hx hn hj => ?_)
    · match i, hg, hx with
      | 0, hg, hx => cases hg; exact ⟨_, rfl⟩
      | 1, hg, hx => cases hg; exact ⟨_, rfl⟩
      | 2, hg, hx => cases hg; exact ⟨_, rfl⟩
    · match i, hg, hx with
      | 0, hg, hx => cases hg; cases hx; cases hn; simp [Dict.get?]
      | 1, hg, hx => cases hg; cases hx; cases hn; simp [Dict.get?]
      | 2, hg, hx => cases hg; cases hx; cases hn; simp [Dict.get?]
    · match i, hg, hx with
      | 0, hg, hx => cases hg; cases hx; cases hn; cases hj; exact .single (by decide) nofun (.leaf .int)
      | 1, hg, hx => cases hg; cases hx; cases hn; cases hj
      | 2, hg, hx =>
        cases hg; cases hx; cases hn; cases hj
        refine .repeated rfl fun i x j hx hj => ?_
        match i, hx, hj with
        | 0, hx, hj =>
          cases hx; cases hj
          refine .record (fun i g x hg hx => ?_) (fun i g x n hg hx hn => ?_) (fun i g x n j hg hx hn hj => ?_)
          · match i, hg, hx with
            | 0, hg, hx => cases hg; exact ⟨_, rfl⟩
            | 1, hg, hx => cases hg; exact ⟨_, rfl⟩
          · match i, hg, hx with
            | 0, hg, hx => cases hg; cases hx; cases hn; simp [Dict.get?]
            | 1, hg, hx => cases hg; cases hx; cases hn; simp [Dict.get?]
          · match i, hg, hx with
            | 0, hg, hx => cases hg; cases hx; cases hn; cases hj; exact .single (by decide) nofun (.leaf .str)
            | 1, hg, hx => cases hg; cases hx; cases hn; cases hj; exact .single (by decide) nofun (.leaf .decimal)

/-- `tags array<string>, m map<string,struct<x:int>>`. -/
def nested : Hive.HTable :=
  { name := "t", columns := [{ name := "tags", type := .list (.prim .string) },
      { name := "m", type := .map (.prim .string) (.struct [("x", .prim .int)]) }] }

/-- `{"tags": ["a"], "m": {"k": {}}}`, for a row with an `x` that is null, is valid. -/
example (refs : String → PyVal → Prop) : ∃ t schema, Hive.toRecap nested = .ok t ∧
    Json.fromRecap newRegistry t = .ok schema ∧
    Valid refs (.dict schema) (.dict [("tags", .list [.str "a"]), ("m", .dict [("k", .dict [])])]) := by
  refine ⟨_, _, rfl, rfl, ?_⟩
  refine C147_hive_partial nested _ newRegistry _ refs
    (.struct [.list [.str "a"], .map [(.str "k", .struct [.null])]]) _ ?_ rfl rfl (fun _ _ hs => by cases hs) ?_ nofun ?_ ?_ ?_
  · simp [nested, hiveRow, FieldNames, Commands.Spec.FieldNamesIn]
  · refine .struct rfl fun i g x hg hx => ?_
    match i, hg, hx with
    | 0, hg, hx =>
      cases hg; cases hx
      refine .list fun x hx => ?_
      cases List.mem_singleton.mp hx
      exact .prim .string trivial
    | 1, hg, hx =>
      cases hg; cases hx
      refine .map (fun x hx => ?_) (fun x hx => ?_)
      · cases List.mem_singleton.mp hx
        exact .prim .string trivial
      · cases List.mem_singleton.mp hx
        refine .struct rfl fun i g x hg hx => ?_
        match i, hg, hx with
        | 0, hg, hx => cases hg; cases hx; exact .null
  · refine .struct (fun i g x hg hx => ?_) (fun i g x j hg hx hj => ?_)
    · match i, hg, hx with
      | 0, hg, hx => cases hg; cases hx; simp [Dict.get?]
      | 1, hg, hx => cases hg; cases hx; simp [Dict.get?]
    · match i, hg, hx with
      | 0, hg, hx =>
        cases hg; cases hx; cases hj
        refine .list rfl fun i x j hx hj => ?_
        match i, hx, hj with
        | 0, hx, hj => cases hx; cases hj; exact .prim .str
      | 1, hg, hx =>
        cases hg; cases hx; cases hj
        refine .map rfl fun i p kv hp hkv => ?_
        match i, hp, hkv with
        | 0, hp, hkv =>
          cases hp; cases hkv
          refine .struct (fun i g x hg hx => ?_) (fun i g x j hg hx hj => by cases hj)
          match i, hg, hx with
          | 0, hg, hx => cases hg; cases hx; exact ⟨fun _ => ⟨rfl, rfl⟩, fun _ => rfl⟩
  · simp only [nested, List.mem_cons, List.not_mem_nil, or_false]
    rintro c (rfl | rfl)
    · exact .list (.prim (by simp))
    · exact .map (.struct fun f hf => by cases List.mem_singleton.mp hf; exact .prim (by simp))
  · refine .struct fun x hx => ?_
    simp only [List.mem_cons, List.not_mem_nil, or_false] at hx
    rcases hx with rfl | rfl
    · exact .list (by simp) (by simp only [List.mem_singleton]; rintro x rfl; exact .str)
    · refine .map (by simp) ?_
      simp only [List.mem_singleton]
      rintro p rfl
      refine .struct ?_
      simp only [List.mem_singleton]
      rintro x rfl
      exact .null

/-- `{"tags": ["a", null]}` is not valid. -/
example (refs : String → PyVal → Prop) : ∃ t schema, Hive.toRecap nested = .ok t ∧
    Json.fromRecap newRegistry t = .ok schema ∧ ¬Valid refs (.dict schema) (.dict [("tags", .list [.str "a", .none])]) := by
  refine ⟨_, _, rfl, rfl, ?_⟩
  exact C147_hive_elements_refuted nested _ newRegistry _ refs _ _ (.prim .string) _
    (by simp [nested, hiveRow, FieldNames, Commands.Spec.FieldNamesIn]) (by simp [nested]) rfl rfl
    (List.mem_cons_self ..) rfl (.prim (by simp)) rfl (by simp)

end Recap.NestedRows
