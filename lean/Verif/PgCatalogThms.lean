import Verif.PgCatalogLemmas
import Verif.RelationalThms
import Verif.ValuesLemmas

/-!
# A table of PostgreSQL is read with exactly its columns (C140)
-/

set_option autoImplicit false

namespace Recap.PgCatalog

open Recap.Relational Recap.PgCatalog.Spec Recap.Values

/-! ## The rows -/

/-- **C140, the rows that the query returns.** One for each column of the table, in the order of the columns, with the
name, the default and the dimensions of that column. The row of a column with an enum has all labels of the enum, each
as often as the enum has it, in some order; no other row has labels. -/
theorem C140_rows (db : Database) (schema table : String) (rows : List Row) (hw : WellFormed db)
    (h : Answer db db.name schema table rows) :
    ∃ as, Columns db schema table as ∧ rows.length = as.length ∧
      ∀ (i : Nat) r a, rows[i]? = some r → as[i]? = some a →
        r.col.name = a.name ∧ r.col.default = a.default ∧ r.ndims = a.ndims ∧ (r.col.nullable = true ↔ MayBeNull db a) ∧
        ∀ t ∈ db.types, t.oid = a.typ →
          (t.kind ≠ "e" → r.enumValues = .none) ∧
          (t.kind = "e" → (r.enumValues.getD []).Perm ((db.labels.filter (fun l => l.typ = a.typ)).map (·.label))) := by
  obtain ⟨gs, hg, as, h1, h2, h3⟩ := answer_rows hw h
  refine ⟨as, h1, h2, fun i r a hr ha => ?_⟩
  obtain ⟨t, ht⟩ := h3 i r a hr ha
  have uniq : ∀ u ∈ db.types, u.oid = a.typ → u = t := fun u hu ho => type_eq hw hu ht.mem (ho.trans ht.typ.symm)
  refine ⟨ht.name, ht.default, ht.ndims, ?_, fun u hu ho => ?_⟩
  · rw [ht.nullable]
    constructor
    · intro h
      simp only [Bool.not_eq_true', Bool.or_eq_false_iff, Bool.and_eq_false_iff, beq_eq_false_iff_ne] at h
      refine ⟨h.1, fun u hu ho hk => ?_⟩
      rw [uniq u hu ho] at hk ⊢
      exact h.2.resolve_left fun h => h hk
    · rintro ⟨h4, h5⟩
      simp only [Bool.not_eq_true', Bool.or_eq_false_iff, Bool.and_eq_false_iff, beq_eq_false_iff_ne]
      refine ⟨h4, ?_⟩
      by_cases hk : t.kind = "d"
      · exact .inr (h5 t ht.mem ht.typ hk)
      · exact .inl hk
  · rw [uniq u hu ho]
    refine ⟨ht.other, fun hk => ?_⟩
    by_cases hgs : ∃ g ∈ gs, g.1 = a.typ
    · obtain ⟨g, hg1, hg2⟩ := hgs
      rw [ht.labels hk g hg1 hg2]
      have := hg.all g hg1
      rw [hg2] at this
      exact this
    · rw [ht.noLabels fun g hg1 hg2 => hgs ⟨g, hg1, hg2⟩]
      have hn : db.labels.filter (fun l => l.typ = a.typ) = [] := by
        rw [List.filter_eq_nil_iff]
        intro l hl hl'
        exact hgs ((hg.types a.typ).mpr ⟨l, hl, of_decide_eq_true hl'⟩)
      rw [hn]
      exact .nil

/-! ## The type -/

/-- **C140, the part that holds.** The type that is read of a table has one field for each column of the table, in the
order of the columns and with their names. The field for a column that can be null is nullable, and the field for one
that cannot be is not, unless dimensions are enforced and the column has none. The strings that the field for a column
with an enum has are the labels of the enum. -/
theorem C140_table_partial (cm : CaseMap) (cfg : PgConfig) (db : Database) (schema table : String) (rows : List Row)
    (reg reg' : Registry) (t : RType) (hcm : Plain cm) (hw : WellFormed db) (h : Answer db db.name schema table rows)
    (ht : pgSchema cm cfg rows reg = (.ok t, reg')) :
    ∃ as fs, Columns db schema table as ∧ t = .struct fs {} ∧ fs.length = as.length ∧
      ∀ (i : Nat) a f, as[i]? = some a → fs[i]? = some f →
        Dict.get? f.attrs.extra "name" = some (.str a.name) ∧
        (MayBeNull db a → f.isNullable = true) ∧
        (cfg.enforce = false ∨ a.ndims ≠ 0 ∨ IsEnum db a → f.isNullable = true → MayBeNull db a) ∧
        (IsEnum db a → ∀ s, Holds f (.str s) ↔ IsLabel db a s) := by
  obtain ⟨hlow, hyes, hno⟩ := hcm
  obtain ⟨as, h1, h2, h3⟩ := C140_rows db schema table rows hw h
  obtain ⟨gs, hg, as', g1, g2, g3⟩ := answer_rows hw h
  obtain rfl : as' = as := columns_eq g1 h1
  obtain ⟨fs, rfl, h4, h5⟩ := C48_fields_match_columns cm _ _ _ _ _ ht
  rw [List.length_map] at h4
  refine ⟨as', fs, h1, rfl, h4.trans h2, fun i a f ha hf => ?_⟩
  obtain ⟨r, hr⟩ : ∃ r, rows[i]? = some r := by
    have := (List.getElem?_eq_some_iff.mp ha).1
    exact ⟨_, List.getElem?_eq_getElem (by omega)⟩
  have hc : (rows.map Row.dict)[i]? = some r.dict := by rw [List.getElem?_map, hr]; rfl
  obtain ⟨k1, k2, k3, k4, k5⟩ := h3 i r a hr ha
  obtain ⟨u, hu⟩ := g3 i r a hr ha
  obtain ⟨name, n1, n2⟩ := h5 i _ f hc hf
  obtain ⟨m1, m2⟩ := C49_nullability_partial cm _ _ _ _ fs _ ht i _ f hc hf
  have hname : name = .str a.name := by
    have : Dict.get? r.dict "COLUMN_NAME" = some (.str r.col.name) := rfl
    rw [n1, Option.some.injEq] at this
    rw [this, k1]
  have hnull : Recap.Spec.DeclaredNullable cm r.dict ↔ MayBeNull db a := by
    rw [← k4]
    have : Dict.get? r.dict "IS_NULLABLE" = some (.str (if r.col.nullable then "YES" else "NO")) := rfl
    constructor
    · rintro ⟨s, hs, hs'⟩
      rw [this, Option.some.injEq] at hs
      cases hs
      split at hs'
      · assumption
      · rw [hno] at hs'
        exact absurd hs' (by decide)
    · intro hn
      refine ⟨_, this, ?_⟩
      rw [if_pos hn]
      exact hyes
  have hkind : IsEnum db a → u.kind = "e" ∧ dataType (underlying db u) = "USER-DEFINED" := by
    rintro ⟨w, w1, w2, w3, w4, w5⟩
    rw [type_eq hw w1 hu.mem (w2.trans hu.typ.symm)] at w3 w4 w5
    refine ⟨w3, ?_⟩
    have : underlying db u = u := if_neg (by rw [w3]; decide)
    rw [this]
    unfold dataType
    rw [w4, w5]
    rfl
  refine ⟨hname ▸ n2, fun hn => m1 (hnull.mpr hn), fun hd hn => ?_, fun he s => ?_⟩
  · rcases m2 hn with m | ⟨m, -⟩ | ⟨cfg', m, me, md, mn⟩
    · exact hnull.mp m
    · cases m
    · cases m
      rcases hd with hd | hd | hd
      · rw [hd] at me; cases me
      · have : Dict.get? r.dict "ATTNDIMS" = some (.int r.ndims) := rfl
        rw [this, k3] at mn
        rcases mn with mn | mn
        · simp only [Option.some.injEq, PyVal.int.injEq] at mn; exact absurd mn hd
        · cases mn
      · obtain ⟨s, hs, hs'⟩ := md
        have : Dict.get? r.dict "DATA_TYPE" = some (.str r.col.dataType) := rfl
        rw [this, hu.dataType, (hkind hd).2, Option.some.injEq] at hs
        cases hs
        rw [hlow] at hs'
        exact absurd hs' (by decide)
  · obtain ⟨he1, he2⟩ := hkind he
    obtain ⟨fs', heq, hfs⟩ := toRecap_ok ht
    cases heq
    obtain ⟨b, st, st', hb1, hb2⟩ := (fieldsOf_index hfs).2 i _ f hc hf
    obtain ⟨p, hp, hcase⟩ := pgParse_ok hb1
    obtain ⟨-, ⟨d, hd, hd'⟩, -⟩ := pgProps_ok hp
    have : Dict.get? r.dict "DATA_TYPE" = some (.str r.col.dataType) := rfl
    rw [this, hu.dataType, he2, Option.some.injEq] at hd
    cases hd
    rw [hlow] at hd'
    rcases hcase with ⟨-, -, hcase⟩ | ⟨hcase, -⟩
    · rw [hd'] at hcase
      obtain ⟨ls, hls, rfl⟩ := pgScalar_enum hcase
      have hmem : s ∈ ls ↔ IsLabel db a s := by
        have := (k5 u hu.mem hu.typ).2 he1
        rw [hls, Option.getD_some] at this
        rw [this.mem_iff]
        simp only [List.mem_map, List.mem_filter, decide_eq_true_eq, IsLabel]
        constructor
        · rintro ⟨l, ⟨h1, h2⟩, h3⟩; exact ⟨l, h1, h2, h3⟩
        · rintro ⟨l, h1, h2, h3⟩; exact ⟨l, ⟨h1, h2⟩, h3⟩
      rw [← hmem]
      exact enum_field hb2
    · rw [hd'] at hcase
      exact absurd hcase (by decide)

/-- **C140, types that are not read.** A table with a column of a type that a user has made is read only if the type is
an enum with a label: a composite type, a domain over an enum and the type of an extension are not. -/
theorem C140_types_refuted (cm : CaseMap) (cfg : PgConfig) (db : Database) (schema table : String) (rows : List Row)
    (reg : Registry) (a : Attribute) (hcm : Plain cm) (hw : WellFormed db) (h : Answer db db.name schema table rows)
    (ha : ColumnOf db schema table a)
    (ho : IsOther db a ∨ (IsEnum db a ∧ ∀ s, ¬IsLabel db a s)) (t : RType) : (pgSchema cm cfg rows reg).1 ≠ .ok t := by
  intro ht
  obtain ⟨gs, hg, as, g1, g2, g3⟩ := answer_rows hw h
  obtain ⟨i, hi, hia⟩ := List.getElem_of_mem ((g1.all a).mpr ha)
  have ht' : pgSchema cm cfg rows reg = (.ok t, (pgSchema cm cfg rows reg).2) := by rw [← ht]
  obtain ⟨fs, rfl, hfs⟩ := toRecap_ok ht'
  obtain ⟨hl, hidx⟩ := fieldsOf_index hfs
  rw [List.length_map] at hl
  obtain ⟨r, hr⟩ : ∃ r, rows[i]? = some r := ⟨_, List.getElem?_eq_getElem (by omega)⟩
  obtain ⟨f, hf⟩ : ∃ f, fs[i]? = some f := ⟨_, List.getElem?_eq_getElem (by omega)⟩
  obtain ⟨u, hu⟩ := g3 i r a hr (by rw [List.getElem?_eq_getElem hi, hia])
  obtain ⟨b, st, st', hb1, hb2⟩ := hidx i r.dict f (by rw [List.getElem?_map, hr]; rfl) hf
  obtain ⟨p, hp, hcase⟩ := pgParse_ok hb1
  obtain ⟨-, ⟨d, hd, hd'⟩, -⟩ := pgProps_ok hp
  obtain ⟨w3, w4⟩ : r.enumValues = .none ∧ r.col.dataType = "USER-DEFINED" := by
    rcases ho with ⟨w, w1, w2, w3, w4, w5⟩ | ⟨⟨w, w1, w2, w3, w4, w5⟩, w6⟩
    · rw [type_eq hw w1 hu.mem (w2.trans hu.typ.symm)] at w3 w4 w5
      exact ⟨hu.other w3, by rw [hu.dataType, dataType, w4, w5]; rfl⟩
    · rw [type_eq hw w1 hu.mem (w2.trans hu.typ.symm)] at w3 w4 w5
      refine ⟨hu.noLabels fun g hg1 hg2 => ?_, ?_⟩
      · obtain ⟨l, hl, hl'⟩ := (hg.types a.typ).mp ⟨g, hg1, hg2⟩
        exact w6 _ ⟨l, hl, hl', rfl⟩
      · have : underlying db u = u := if_neg (by rw [w3]; decide)
        rw [hu.dataType, this, dataType, w4, w5]
        rfl
  have : Dict.get? r.dict "DATA_TYPE" = some (.str r.col.dataType) := rfl
  rw [this, w4, Option.some.injEq] at hd
  cases hd
  rw [hcm.1] at hd'
  rcases hcase with ⟨-, -, hcase⟩ | ⟨hcase, -⟩
  · rw [hd'] at hcase
    obtain ⟨ls, hls, rfl⟩ := pgScalar_enum hcase
    rw [w3] at hls
    cases hls
  · rw [hd'] at hcase
    exact absurd hcase (by decide)

/-! ## A database -/

/-- A database with a table that has an enum, a list and a column that was dropped. -/
def shop : Database :=
  { name := "shop",
    namespaces := [⟨11, "pg_catalog"⟩, ⟨2200, "public"⟩, ⟨3000, "old"⟩],
    classes := [⟨50, "orders", 3000, true⟩, ⟨60, "orders", 2200, true⟩, ⟨61, "orders_pkey", 2200, false⟩],
    types := [⟨20, "int8", "b", 0, false, false, some "bigint"⟩, ⟨1016, "_int8", "b", 0, true, false, .none⟩,
      ⟨90, "state", "e", 0, false, false, .none⟩, ⟨91, "checked", "d", 90, false, true, .none⟩],
    labels := [⟨90, "new", 1⟩, ⟨90, "sent", 2⟩],
    attributes := [column 50 "id" 20 1 0 true, column 60 "state" 90 3 0 true, column 60 "id" 20 1 0 true,
      { column 60 "gone" 0 2 0 false with dropped := true }, column 60 "lines" 1016 4 1 false,
      column 60 "ctid" 20 (-1) 0 true, column 61 "id" 20 1 0 false] }
where
  /-- A column. -/
  column (rel : Nat) (name : String) (typ : Nat) (num ndims : Int) (notNull : Bool) : Attribute :=
    { rel := rel, name := name, typ := typ, num := num, ndims := ndims, dropped := false, visible := true,
      notNull := notNull, default := .none, maxLength := .none, octetLength := .none, numericPrecision := .int 64,
      numericScale := .int 0, datetimePrecision := .none }

theorem shop_wellFormed : WellFormed shop := by
  refine ⟨?_, ?_, ?_, ?_, ?_⟩
  · simp [shop]
  · simp [shop]
  · simp [shop, shop.column]
  · simp [shop]
  · intro a ha hd
    simp only [shop, List.mem_cons, List.not_mem_nil, or_false] at ha
    rcases ha with rfl | rfl | rfl | rfl | rfl | rfl | rfl <;> first
      | exact ⟨_, List.mem_cons_self, rfl⟩
      | exact ⟨_, List.mem_cons_of_mem _ List.mem_cons_self, rfl⟩
      | exact ⟨_, List.mem_cons_of_mem _ (List.mem_cons_of_mem _ List.mem_cons_self), rfl⟩
      | cases hd

/-- The rows for the table, with the labels in the order that is given. -/
def shopRows (labels : List String) : List Row :=
  [row (shop.column 60 "id" 20 1 0 true) ⟨20, "int8", "b", 0, false, false, some "bigint"⟩ .none,
    row (shop.column 60 "state" 90 3 0 true) ⟨90, "state", "e", 0, false, false, .none⟩ (some labels),
    row (shop.column 60 "lines" 1016 4 1 false) ⟨1016, "_int8", "b", 0, true, false, .none⟩ .none]
where
  /-- A row. -/
  row (a : Attribute) (t : Typ) (labels : Option (List String)) : Row :=
    { col := viewRow shop a ⟨60, "orders", 2200, true⟩ ⟨2200, "public"⟩ t, ndims := a.ndims, enumValues := labels }

theorem shop_answer (labels : List String) (h : labels.Perm ["new", "sent"]) :
    Answer shop "shop" "public" "orders" (shopRows labels) := by
  refine ⟨[(90, labels)], ⟨?_, ?_, ?_⟩, ?_, ?_⟩
  · simp
  · intro typ
    simp only [exists_eq_left, shop, List.mem_cons, List.not_mem_nil, or_false]
    constructor
    · rintro rfl; exact ⟨_, .inl rfl, rfl⟩
    · rintro ⟨l, rfl | rfl, rfl⟩ <;> rfl
  · intro g hg
    rw [List.mem_singleton.mp hg]
    exact h
  · have : joined shop [(90, labels)] "shop" "public" "orders" =
        [(shopRows labels)[1]'(by simp [shopRows]), (shopRows labels)[0]'(by simp [shopRows]),
          (shopRows labels)[2]'(by simp [shopRows])] := by
      rfl
    rw [this]
    exact .swap _ _ _
  · simp [shopRows, shopRows.row, viewRow, shop.column]

theorem ascii_plain : Plain asciiCase := by unfold Plain; decide +kernel

/-- The type that is read, with the labels in the order that is given. -/
def shopType (labels : List String) : RType :=
  .struct [.int (.int 64) (.bool true) { extra := [("name", .str "id")] },
    .enum (.list (labels.map .str)) { extra := [("name", .str "state")] },
    .union [.null {}, selfList "_root.lines" (.int (.int 64) (.bool true) {})]
      { extra := [("default", .none), ("name", .str "lines")] }] {}

theorem shop_read {labels : List String} (h : labels = ["new", "sent"] ∨ labels = ["sent", "new"]) :
    (pgSchema asciiCase {} (shopRows labels) newRegistry).1 = .ok (shopType labels) := by
  rcases h with rfl | rfl <;> decide +kernel

/-- The hypotheses of `C140_rows` and `C140_table_partial` hold of the table. -/
example : ∃ reg, WellFormed shop ∧ Answer shop shop.name "public" "orders" (shopRows ["sent", "new"]) ∧
    pgSchema asciiCase {} (shopRows ["sent", "new"]) newRegistry = (.ok (shopType ["sent", "new"]), reg) :=
  ⟨(pgSchema asciiCase {} (shopRows ["sent", "new"]) newRegistry).2, shop_wellFormed, shop_answer _ (.swap _ _ _),
    Prod.ext (shop_read (by simp)) rfl⟩

example : ColumnOf shop "public" "orders" (shop.column 60 "state" 90 3 0 true) ∧
    IsEnum shop (shop.column 60 "state" 90 3 0 true) ∧ IsLabel shop (shop.column 60 "state" 90 3 0 true) "sent" ∧
    MayBeNull shop (shop.column 60 "lines" 1016 4 1 false) := by
  refine ⟨⟨by simp [shop], by decide, rfl, rfl, _, List.mem_cons_of_mem _ List.mem_cons_self, _,
    List.mem_cons_of_mem _ List.mem_cons_self, rfl, rfl, rfl, rfl, rfl⟩, ⟨_, List.mem_cons_of_mem _ (List.mem_cons_of_mem _
    List.mem_cons_self), rfl, rfl, rfl, rfl⟩, ⟨_, List.mem_cons_of_mem _ List.mem_cons_self, rfl, rfl⟩, rfl, ?_⟩
  intro t ht ho hk
  simp only [shop, List.mem_cons, List.not_mem_nil, or_false] at ht
  rcases ht with rfl | rfl | rfl | rfl
  · cases ho
  · exact absurd hk (by decide)
  · cases ho
  · cases ho

/-- The hypotheses of `C140_types_refuted` hold of the same database if the column has the domain. -/
example : IsOther { shop with attributes := [shop.column 60 "state" 91 1 0 true] } (shop.column 60 "state" 91 1 0 true) :=
  ⟨⟨91, "checked", "d", 90, false, true, .none⟩,
    List.mem_cons_of_mem _ (List.mem_cons_of_mem _ (List.mem_cons_of_mem _ List.mem_cons_self)), rfl, by decide, rfl, rfl⟩

/-! ## What does not hold -/

/-- **C140 does not hold: the order of the labels.** The query collects the labels of an enum without an order, so the
same table of the same database can be read with different types. -/
theorem C140_order_refuted : ∃ rows rows' t t', Answer shop "shop" "public" "orders" rows ∧
    Answer shop "shop" "public" "orders" rows' ∧ (pgSchema asciiCase {} rows newRegistry).1 = .ok t ∧
    (pgSchema asciiCase {} rows' newRegistry).1 = .ok t' ∧ t.pyEq t' = false :=
  ⟨_, _, _, _, shop_answer ["new", "sent"] (.refl _), shop_answer ["sent", "new"] (.swap _ _ _), shop_read (by simp),
    shop_read (by simp), by decide +kernel⟩

/-- **C140 does not hold.** -/
theorem C140_tables_refuted : ¬TablesRead asciiCase {} := by
  intro h
  obtain ⟨as, fs, h1, h2, h3, h4⟩ := h shop "public" "orders" (shopRows ["sent", "new"]) newRegistry
    (pgSchema asciiCase {} (shopRows ["sent", "new"]) newRegistry).2 (shopType ["sent", "new"]) shop_wellFormed
    (shop_answer _ (.swap _ _ _)) (Prod.ext (shop_read (by simp)) rfl)
  have hst : shop.column 60 "state" 90 3 0 true ∈ as :=
    (h1.all _).mpr ⟨by simp [shop], by decide, rfl, rfl, _, List.mem_cons_of_mem _ List.mem_cons_self, _,
      List.mem_cons_of_mem _ List.mem_cons_self, rfl, rfl, rfl, rfl, rfl⟩
  obtain ⟨i, hi, hia⟩ := List.getElem_of_mem hst
  have ha : as[i]? = some (shop.column 60 "state" 90 3 0 true) := by rw [List.getElem?_eq_getElem hi, hia]
  unfold shopType at h2
  injection h2 with h2
  subst h2
  have hord : Ordered shop (shop.column 60 "state" 90 3 0 true) [⟨90, "new", 1⟩, ⟨90, "sent", 2⟩] := by
    refine ⟨by simp, fun l => ⟨fun h => ⟨h, ?_⟩, fun h => h.1⟩⟩
    simp only [List.mem_cons, List.not_mem_nil, or_false] at h
    rcases h with rfl | rfl <;> rfl
  match i, ha with
  | 0, ha => exact absurd (h4 0 _ _ ha rfl).1 (by decide +kernel)
  | 1, ha =>
    obtain ⟨attrs, h6⟩ := (h4 1 _ _ ha rfl).2.2
      ⟨_, List.mem_cons_of_mem _ (List.mem_cons_of_mem _ List.mem_cons_self), rfl, rfl, rfl, rfl⟩ rfl _ hord
    injection h6 with h6 _
    exact absurd h6 (by decide +kernel)
  | 2, ha => exact absurd (h4 2 _ _ ha rfl).1 (by decide +kernel)
  | i + 3, ha =>
    have := (List.getElem?_eq_some_iff.mp ha).1
    simp only [List.length_cons, List.length_nil] at h3
    omega

end Recap.PgCatalog
