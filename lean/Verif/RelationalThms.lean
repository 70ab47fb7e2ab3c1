import Verif.RelationalLemmas

/-!
# Properties of the relational converters (C48 to C55)

`d.toRecap cm cols reg` is `converter.to_recap(columns)` for a converter of dialect `d` whose
registry is `reg`.  All theorems hold for every converter state `reg`.
-/

set_option autoImplicit false

namespace Recap

open RType Relational Spec

/-- A PostgreSQL column as `information_schema` gives it. -/
def pgColumn (name dataType udt nullable : String) (dflt ndims : PyVal) : Dict :=
  [("COLUMN_NAME", .str name), ("DATA_TYPE", .str dataType), ("IS_NULLABLE", .str nullable),
    ("COLUMN_DEFAULT", dflt), ("CHARACTER_OCTET_LENGTH", .none),
    ("CHARACTER_MAXIMUM_LENGTH", .none), ("UDT_NAME", .str udt), ("ATTNDIMS", ndims),
    ("NUMERIC_PRECISION", .int 10), ("NUMERIC_SCALE", .int 0), ("DATETIME_PRECISION", .int 6),
    ("ENUM_VALUES", .none)]

/-- A MySQL or Snowflake column. -/
def sqlColumn (name dataType nullable : String) (dflt octet precision dtPrecision : PyVal) : Dict :=
  [("COLUMN_NAME", .str name), ("DATA_TYPE", .str dataType), ("IS_NULLABLE", .str nullable),
    ("COLUMN_DEFAULT", dflt), ("CHARACTER_OCTET_LENGTH", octet),
    ("NUMERIC_PRECISION", precision), ("NUMERIC_SCALE", .int 0),
    ("DATETIME_PRECISION", dtPrecision)]

/-- A SQLite column as `SQLiteClient` passes it on. -/
def liteColumn (name : String) (type : PyVal) (nullable : String) (octet precision : PyVal) : Dict :=
  [("NAME", .str name), ("TYPE", type), ("COLUMN_NAME", .str name), ("IS_NULLABLE", .str nullable),
    ("COLUMN_DEFAULT", .none), ("NUMERIC_PRECISION", precision), ("NUMERIC_SCALE", .none),
    ("CHARACTER_OCTET_LENGTH", octet)]

/-! ## C48 -/

/-- **C48.** A converted table is a struct with one field per column, in column order, and
each field is named after its column. -/
theorem C48_fields_match_columns (cm : CaseMap) (d : Dialect) (cols : List Dict)
    (reg reg' : Registry) (t : RType) (h : d.toRecap cm cols reg = (.ok t, reg')) :
    ∃ fs, t = .struct fs {} ∧ fs.length = cols.length ∧
      ∀ (i : Nat) c f, cols[i]? = some c → fs[i]? = some f →
        ∃ name, Dict.get? c "COLUMN_NAME" = some name ∧
          Dict.get? f.attrs.extra "name" = some name := by
  obtain ⟨fs, rfl, h'⟩ := toRecap_ok h
  obtain ⟨hl, hi⟩ := fieldsOf_index h'
  refine ⟨fs, rfl, hl, ?_⟩
  intro i c f hc hf
  obtain ⟨b, s, s', -, h2⟩ := hi i c f hc hf
  obtain ⟨n, dflt, name, -, -, h3, rfl⟩ := fieldOf_ok h2
  exact ⟨name, h3, by rw [attrs_setExtra]; exact Dict.get?_set_self _ _ _⟩

example : (Dialect.mysql.toRecap asciiCase
    [sqlColumn "id" "BIGINT" "NO" .none .none (.int 19) .none,
      sqlColumn "at" "timestamp" "YES" (.str "now()") .none .none (.int 3)] newRegistry).1 =
    .ok (.struct
      [.int (.int 64) (.bool true) { extra := [("name", .str "id")] },
        .union [.null {}, timeType 64 "build.recap.Timestamp" "millisecond"]
          { extra := [("default", .str "now()"), ("name", .str "at")] }] {}) := by
  decide +kernel

/-! ## C49 -/

/-- **C49, the part that holds.**  A nullable column gives a nullable field.  A field that is
nullable comes from a nullable column, except for SQLite columns of NUMERIC affinity and, with
enforced dimensions, PostgreSQL arrays of zero dimensions: these are nullable even if the
column is not. -/
theorem C49_nullability_partial (cm : CaseMap) (d : Dialect) (cols : List Dict)
    (reg reg' : Registry) (fs : List RType) (a : Attrs)
    (h : d.toRecap cm cols reg = (.ok (.struct fs a), reg'))
    (i : Nat) (c : Dict) (f : RType) (hc : cols[i]? = some c) (hf : fs[i]? = some f) :
    (DeclaredNullable cm c → f.isNullable = true) ∧
      (f.isNullable = true → DeclaredNullable cm c ∨
        (d = .sqlite ∧ ∃ v s, Dict.get? c "TYPE" = some (.str v) ∧ s = cm.upper v ∧
          HasAffinity s .numeric) ∨
        (∃ cfg, d = .postgresql cfg ∧ cfg.enforce = true ∧ DataType cm c "array" ∧
          (Dict.get? c "ATTNDIMS" = some (.int 0) ∨
            Dict.get? c "ATTNDIMS" = some (.bool false)))) := by
  obtain ⟨fs', heq, h⟩ := toRecap_ok h
  injection heq with heq _
  subst heq
  obtain ⟨-, hi⟩ := fieldsOf_index h
  obtain ⟨b, s, s', h1, h2⟩ := hi i c f hc hf
  obtain ⟨n, dflt, name, h3, -, -, rfl⟩ := fieldOf_ok h2
  have hn : (setExtra
        (if !dflt.isNone || cm.upper n == "YES" then
          setExtra (if cm.upper n == "YES" then makeNullable b else b) "default" dflt
         else (if cm.upper n == "YES" then makeNullable b else b)) "name" name).isNullable =
      (if cm.upper n == "YES" then makeNullable b else b).isNullable := by
    rw [isNullable_setExtra]
    split
    · rw [isNullable_setExtra]
    · rfl
  rw [hn]
  constructor
  · rintro ⟨n', h3', hy⟩
    rw [h3] at h3'
    cases h3'
    rw [hy]
    exact isNullable_makeNullable b
  · intro hb
    by_cases hy : cm.upper n = "YES"
    · exact .inl ⟨n, h3, hy⟩
    · right
      rw [if_neg (by simpa using hy)] at hb
      cases d with
      | mysql =>
        simp only [Dialect.parse, stateless, Prod.mk.injEq] at h1
        rw [(mysqlParse_simple _ _ _ h1.1).nonNull] at hb
        cases hb
      | snowflake =>
        simp only [Dialect.parse, stateless, Prod.mk.injEq] at h1
        rw [(snowflakeParse_simple _ _ _ h1.1).nonNull] at hb
        cases hb
      | sqlite =>
        simp only [Dialect.parse, stateless, Prod.mk.injEq] at h1
        obtain ⟨v, r, af, octet, precision, hv, hr, haf, -, -, ht⟩ := sqliteParse_ok h1.1
        left
        refine ⟨rfl, ?_⟩
        cases af
        · subst ht; cases hb
        · rcases ht with ⟨-, -, rfl⟩ | ⟨-, rfl⟩ <;> cases hb
        · subst ht; cases hb
        · subst ht; cases hb
        · rcases declared_of_orElse hr with ⟨-, rfl⟩ | ⟨-, rfl⟩
          · exact ⟨r, _, hv, rfl, haf⟩
          · rw [cm.upper_empty] at haf
            cases haf
            rename_i h _
            exact absurd (Or.inr rfl) h
      | postgresql cfg =>
        right
        refine ⟨cfg, rfl, ?_⟩
        obtain ⟨p, hp, ⟨-, -, h⟩ | ⟨ha, v, -, hv, ⟨he, -, h⟩ | ⟨-, s, -, rfl, -⟩⟩⟩ :=
          pgParse_ok h1
        · rw [(pgScalar_simple _ _ _ _ _ h).nonNull] at hb
          cases hb
        · obtain ⟨-, hdt, -, -, -, hd⟩ := pgProps_ok hp
          rw [ha] at hdt
          refine ⟨he, hdt, ?_⟩
          obtain ⟨k, rfl, hk⟩ := createNDim_ok h
          cases k with
          | succ k => cases hb
          | zero =>
            rcases hk with hk | ⟨-, hk⟩ | ⟨hk, -⟩
            · exact .inl (by rw [hd, hk]; rfl)
            · cases hk
            · exact .inr (by rw [hd, hk])
        · cases hb

example : (Dialect.snowflake.toRecap asciiCase
    [sqlColumn "a" "varchar" "Yes" .none .none .none .none,
      sqlColumn "b" "varchar" "no" .none .none .none .none] newRegistry).1 =
    .ok (.struct
      [.union [.null {}, .string (.int 16777216) (.bool true) {}]
          { extra := [("default", .none), ("name", .str "a")] },
        .string (.int 16777216) (.bool true) { extra := [("name", .str "b")] }] {}) := by
  decide +kernel

/-- **C49 is false.** A SQLite column `NUMERIC NOT NULL` gives a nullable field. -/
theorem C49_not_null_refuted :
    ∃ c f, (Dialect.sqlite.toRecap asciiCase [c] newRegistry).1 = .ok (.struct [f] {}) ∧
      Dict.get? c "IS_NULLABLE" = some (.str "NO") ∧ f.isNullable = true :=
  ⟨liteColumn "price" (.str "DECIMAL") "NO" .none .none,
    .union [.null {}, .int (.int 64) (.bool true) {}, .float (.int 64) {},
      .string sqliteMax (.bool true) {}, .bytes sqliteMax (.bool true) {}]
      { extra := [("name", .str "price")] }, by decide +kernel, by decide +kernel, by decide⟩

/-! ## C50 -/

/-- **C50.** A field has a `default` attribute exactly when its column is nullable or has a
default, and the attribute is then the default of the column. -/
theorem C50_defaults (cm : CaseMap) (d : Dialect) (cols : List Dict)
    (reg reg' : Registry) (fs : List RType) (a : Attrs)
    (h : d.toRecap cm cols reg = (.ok (.struct fs a), reg'))
    (i : Nat) (c : Dict) (f : RType) (hc : cols[i]? = some c) (hf : fs[i]? = some f) :
    ∃ dflt, Dict.get? c "COLUMN_DEFAULT" = some dflt ∧
      ((DeclaredNullable cm c ∨ dflt ≠ .none) → Dict.get? f.attrs.extra "default" = some dflt) ∧
      (¬(DeclaredNullable cm c ∨ dflt ≠ .none) → Dict.get? f.attrs.extra "default" = .none) := by
  obtain ⟨fs', heq, h⟩ := toRecap_ok h
  injection heq with heq _
  subst heq
  obtain ⟨-, hi⟩ := fieldsOf_index h
  obtain ⟨b, s, s', h1, h2⟩ := hi i c f hc hf
  obtain ⟨n, dflt, name, h3, h4, -, rfl⟩ := fieldOf_ok h2
  have hd : (!dflt.isNone || cm.upper n == "YES") = true ↔ (DeclaredNullable cm c ∨ dflt ≠ .none) := by
    simp only [DeclaredNullable, h3, Option.some.injEq, PyVal.str.injEq, Bool.or_eq_true,
      Bool.not_eq_true', beq_iff_eq]
    constructor
    · rintro (h | h)
      · right; rintro rfl; cases h
      · exact .inl ⟨n, rfl, h⟩
    · rintro (⟨_, rfl, h⟩ | h)
      · exact .inr h
      · left; cases dflt <;> first | rfl | exact absurd rfl h
  refine ⟨dflt, h4, ?_, ?_⟩
  · intro hx
    rw [if_pos (hd.mpr hx), attrs_setExtra]
    simp only
    rw [Dict.get?_set_ne _ _ (by decide), attrs_setExtra]
    exact Dict.get?_set_self _ _ _
  · intro hx
    have hy : ¬(cm.upper n == "YES") = true := by
      intro hy; exact hx (hd.mp (by rw [hy]; simp))
    rw [if_neg (fun e => hx (hd.mp e)), if_neg hy, attrs_setExtra]
    simp only
    rw [Dict.get?_set_ne _ _ (by decide)]
    exact (parse_bare h1).default

example : ((Dialect.postgresql {}).toRecap asciiCase
    [pgColumn "a" "int4" "int4" "NO" (.str "7") (.int 0),
      pgColumn "b" "int4" "int4" "NO" .none (.int 0),
      pgColumn "c" "int4" "int4" "YES" .none (.int 0)] newRegistry).1 =
    .ok (.struct
      [.int (.int 32) (.bool true) { extra := [("default", .str "7"), ("name", .str "a")] },
        .int (.int 32) (.bool true) { extra := [("name", .str "b")] },
        .union [.null {}, .int (.int 32) (.bool true) {}]
          { extra := [("default", .none), ("name", .str "c")] }] {}) := by
  decide +kernel

/-! ## C51 -/

theorem dataType_unique {cm : CaseMap} {c : Dict} {a b : String} (ha : DataType cm c a)
    (hb : DataType cm c b) : a = b := by
  obtain ⟨x, hx, rfl⟩ := ha
  obtain ⟨y, hy, rfl⟩ := hb
  rw [hx] at hy
  cases hy
  rfl

theorem parse_valid {cm : CaseMap} {d : Dialect} {c : Dict} {s s' : Registry} {b : RType}
    (hg : GoodColumn cm d c) (h : d.parse cm c s = (.ok b, s')) : AllValid b := by
  have nots : ∀ {dt p : String}, ¬Starts p dt → startsWith dt p = false := by
    intro dt p hn
    exact Bool.eq_false_iff.mpr (fun e => hn ((startsWith_iff _ _).mp e))
  cases d with
  | mysql =>
    simp only [Dialect.parse, stateless, Prod.mk.injEq] at h
    have h := h.1
    refine allValid_leaf (mysqlParse_simple _ _ _ h).leaf ?_
    unfold mysqlParse at h
    obtain ⟨v, h1, h⟩ := bind_ok h
    obtain ⟨dt, h2, h⟩ := bind_ok h
    obtain ⟨octet, h3, h⟩ := bind_ok h
    obtain ⟨precision, h4, h⟩ := bind_ok h
    obtain ⟨scale, h5, h⟩ := bind_ok h
    obtain ⟨r, rfl, rfl⟩ := strMethod_ok h2
    refine mysqlType_valid _ _ _ ?_ _ h
    rcases hg octet (item_ok h3) with hl | ⟨rfl, hf⟩
    · exact .inl hl
    · obtain ⟨f1, f2, f3, f4⟩ := hf _ ⟨r, item_ok h1, rfl⟩
      exact .inr ⟨rfl, nots f1, by simp [f2, f3], nots f4⟩
  | snowflake =>
    simp only [Dialect.parse, stateless, Prod.mk.injEq] at h
    have h := h.1
    refine allValid_leaf (snowflakeParse_simple _ _ _ h).leaf ?_
    unfold snowflakeParse at h
    obtain ⟨v, h1, h⟩ := bind_ok h
    obtain ⟨dt, h2, h⟩ := bind_ok h
    obtain ⟨octet, h3, h⟩ := bind_ok h
    exact snowflakeType_valid _ _ (hg octet (item_ok h3)) _ h
  | sqlite =>
    simp only [Dialect.parse, stateless, Prod.mk.injEq] at h
    obtain ⟨v, r, af, octet, precision, -, -, -, ho, -, ht⟩ := sqliteParse_ok h.1
    have hl : checkSize (orElse octet sqliteMax) (.bool true) = .ok () :=
      checkSize_good (orElse_good (by omega) (hg octet ho)) _
    cases af
    · subst ht; exact allValid_leaf rfl rfl
    · rcases ht with ⟨-, -, rfl⟩ | ⟨-, rfl⟩ <;> exact allValid_leaf rfl rfl
    · subst ht; exact allValid_leaf rfl hl
    · subst ht; exact allValid_leaf rfl hl
    · subst ht
      refine allValid_union ?_
      intro t ht
      simp only [List.mem_cons, List.not_mem_nil, or_false] at ht
      rcases ht with rfl | rfl | rfl | rfl | rfl <;> exact allValid_leaf rfl rfl
  | postgresql cfg =>
    obtain ⟨p, hp, hcase⟩ := pgParse_ok h
    obtain ⟨-, hdt, ho, hmx, -, -⟩ := pgProps_ok hp
    rcases hcase with ⟨-, -, h⟩ | ⟨-, v, -, hv, hcase⟩
    · refine allValid_leaf (pgScalar_simple _ _ _ _ _ h).leaf ?_
      obtain ⟨g1, g2⟩ := hg p.octet ho
      refine pgScalar_valid _ ?_ ?_ _ h
      · rcases g1 with hl | ⟨e, hf⟩
        · exact .inl hl
        · refine .inr ⟨e, ?_⟩
          rcases hf _ hdt with hf | hf
          · exact .inl (nots hf)
          · exact .inr ((startsWith_iff _ _).mpr hf)
      · intro b1 b2
        obtain ⟨m, hm, hgm⟩ := g2 _ hdt ((startsWith_iff _ _).mp b1)
          (fun e => by rw [(startsWith_iff _ _).mpr e] at b2; cases b2)
        rw [hmx] at hm
        cases hm
        exact hgm
    · have hvv : AllValid v := by
        refine allValid_leaf (pgScalar_simple _ _ _ _ _ hv).leaf ?_
        exact pgScalar_valid _ (.inl ⟨pgMax, rfl, by decide, by decide⟩)
          (fun _ _ => ⟨pgMax * 8, rfl, by decide, by decide⟩) _ hv
      rcases hcase with ⟨-, -, h⟩ | ⟨-, s, -, rfl, -⟩
      · obtain ⟨k, rfl, -⟩ := createNDim_ok h
        exact allValid_nDim hvv k
      · exact allValid_selfList hvv _

/-- **C51, the part that holds.**  If the lengths in the column properties are between 1 and
2^63 - 1, and are present where the type has a fixed length, then every type object in the
converted table passes `validate()`, at every depth.  For Snowflake and SQLite a missing or zero
length is fine too. -/
theorem C51_all_valid_partial (cm : CaseMap) (d : Dialect) (cols : List Dict)
    (reg reg' : Registry) (t : RType) (h : d.toRecap cm cols reg = (.ok t, reg'))
    (hgood : ∀ c ∈ cols, GoodColumn cm d c) : AllValid t := by
  obtain ⟨fs, rfl, h'⟩ := toRecap_ok h
  obtain ⟨hl, hi⟩ := fieldsOf_index h'
  refine allValid_struct ?_
  intro f hf
  obtain ⟨i, hi', hfi⟩ := List.mem_iff_getElem.mp hf
  have hc : cols[i]? = some (cols[i]'(by omega)) := List.getElem?_eq_getElem _
  obtain ⟨b, s, s', h1, h2⟩ := hi i _ f hc (by rw [List.getElem?_eq_getElem hi', hfi])
  exact allValid_fieldOf (parse_valid (hgood _ (List.getElem_mem _)) h1) h2

example : GoodColumn asciiCase .mysql (sqlColumn "c" "char" "NO" .none (.int 3) .none .none) := by
  intro o ho
  cases ho
  exact .inl ⟨3, rfl, by omega, by omega⟩

example : GoodColumn asciiCase (.postgresql {}) (pgColumn "c" "text" "text" "NO" .none (.int 0)) := by
  intro o ho
  cases ho
  have dt : ∀ dt, DataType asciiCase (pgColumn "c" "text" "text" "NO" .none (.int 0)) dt →
      dt = "text" := by
    rintro dt ⟨s, hs, rfl⟩
    cases hs
    decide +kernel
  refine ⟨.inr ⟨rfl, fun d hd => .inl ?_⟩, fun d hd hs => ?_⟩
  · rw [dt d hd, ← startsWith_iff]
    decide
  · rw [dt d hd, ← startsWith_iff] at hs
    exact absurd hs (by decide)

/-- **C51 is false.** MySQL allows `CHAR(0)`, whose octet length is 0; the converted type does
not pass `validate()`. -/
theorem C51_zero_length_refuted :
    ∃ c t, (Dialect.mysql.toRecap asciiCase [c] newRegistry).1 = .ok t ∧
      t.validate = .error .valueError :=
  ⟨sqlColumn "c" "char" "NO" .none (.int 0) .none .none,
    .struct [.string (.int 0) (.bool false) { extra := [("name", .str "c")] }] {},
    by decide +kernel, by decide +kernel⟩

/-! ## C52 -/

theorem getTimeUnit_cases (p : Int) : getTimeUnit (some [.int p]) = .ok
    (if p = 0 then some "second" else if p ≤ 3 then some "millisecond"
      else if p ≤ 6 then some "microsecond" else .none) := by
  simp only [getTimeUnit, toInt, bind, Except.bind, pure, Except.pure]
  split
  · rfl
  · split
    · rfl
    · split <;> rfl

theorem fine_timeType {p k : Int} {b : Int} {l u : String} (hk : decimalPlaces u = some k)
    (hp : p ≤ k) : FineEnough p (timeType b l u) := ⟨u, k, rfl, hk, hp⟩

theorem fine_precision {p : Int} (hp : p ≤ 6) (x : String) {b : Int} {l : String} {u : Option String}
    (h : getTimeUnit (some [.int p]) = .ok u) : FineEnough p (timeType b l (u.getD x)) := by
  rw [getTimeUnit_cases] at h
  injection h with h
  subst h
  by_cases h0 : p = 0
  · rw [if_pos h0]; exact fine_timeType (k := 0) rfl (by omega)
  · rw [if_neg h0]
    by_cases h3 : p ≤ 3
    · rw [if_pos h3]; exact fine_timeType (k := 3) rfl h3
    · rw [if_neg h3, if_pos hp]; exact fine_timeType (k := 6) rfl hp

theorem fine_setExtra {p : Int} {t : RType} {k : String} {v : PyVal} (hk : k ≠ "unit")
    (h : FineEnough p t) : FineEnough p (setExtra t k v) := by
  obtain ⟨u, n, h1, h2⟩ := h
  refine ⟨u, n, ?_, h2⟩
  rw [attrs_setExtra]
  exact (Dict.get?_set_ne _ _ hk).trans h1

theorem logical_setExtra (t : RType) (k : String) (v : PyVal) :
    (setExtra t k v).attrs.logical = t.attrs.logical := by
  rw [attrs_setExtra]

theorem setExtra_ne_union {t : RType} (h : ∀ ts a, t ≠ .union ts a) (k : String) (v : PyVal) :
    ∀ ts a, setExtra t k v ≠ .union ts a := by
  cases t <;> first | exact absurd rfl (h _ _) | (intro ts a e; cases e)

/-- From the type of a column to its field. -/
theorem fine_field {cm : CaseMap} {c : Dict} {b f t : RType} {p : Int} {L : PyVal → Prop}
    (hL : ¬L .none) (hs : Simple b) (hb : L b.attrs.logical → FineEnough p b)
    (hf : fieldOf cm c b = .ok f) (ht : ColumnType f t)
    (hl : L t.attrs.logical) : FineEnough p t := by
  rcases fieldOf_shape hs.toBare hs.nonNull hs.notUnion hf with
    ⟨n, rfl⟩ | ⟨v, n, rfl⟩ | ⟨v, n, rfl⟩
  · rcases ht with rfl | ⟨a, ha⟩
    · rw [logical_setExtra] at hl
      exact fine_setExtra (by decide) (hb hl)
    · exact absurd ha (setExtra_ne_union hs.notUnion _ _ _ _)
  · rcases ht with rfl | ⟨a, ha⟩
    · rw [logical_setExtra, logical_setExtra] at hl
      exact fine_setExtra (by decide) (fine_setExtra (by decide) (hb hl))
    · exact absurd ha (setExtra_ne_union (setExtra_ne_union hs.notUnion _ _) _ _ _ _)
  · rcases ht with rfl | ⟨a, ha⟩
    · exact absurd hl hL
    · injection ha with ha _
      simp only [List.cons.injEq, and_true, true_and] at ha
      subst ha
      exact hb hl

theorem mysqlType_fine {dt : String} {o q s : PyVal} {c : Dict} {p : Int}
    (hc : Dict.get? c "DATETIME_PRECISION" = some (.int p)) (hp : p ≤ 6) :
    Yields (fun t => t.attrs.logical = .str "build.recap.Timestamp" → FineEnough p t)
      (mysqlType dt o q s c) := by
  unfold mysqlType
  branches
  all_goals first
    | (intro h; simp [attrs, decimalType] at h; done)
    | (intro h
       rename_i v hv u hu
       have := item_ok hv
       rw [hc] at this
       cases this
       exact fine_precision hp _ hu)

theorem pgScalar_fine {dt : String} {o m : PyVal} {c : Dict} {p : Int}
    (hc : Dict.get? c "DATETIME_PRECISION" = some (.int p)) (hp : p ≤ 6) :
    Yields (fun t => t.attrs.logical = .str "build.recap.Timestamp" → FineEnough p t)
      (pgScalar dt o m c) := by
  unfold pgScalar
  branches
  all_goals first
    | (intro h; simp [attrs, decimalType] at h; done)
    | (intro h
       rename_i v hv u hu
       have := item_ok hv
       rw [hc] at this
       cases this
       exact fine_precision hp _ hu)

theorem pgElement_untimed (dt e : String) (o m : PyVal) :
    Yields (fun t => t.attrs.logical ≠ .str "build.recap.Timestamp")
      (pgScalar dt o m (pgElement e)) := by
  unfold pgScalar
  branches
  all_goals first
    | (intro h; simp [attrs, decimalType] at h; done)
    | (rename_i hv _ _; cases hv)

/-- **C52, MySQL and PostgreSQL, the part that holds.**  A timestamp column of fractional-second
precision `p ≤ 6` gets a unit that can express `p` decimal places. -/
theorem C52_timestamp_precision_partial (cm : CaseMap) (d : Dialect)
    (hd : d = .mysql ∨ ∃ cfg, d = .postgresql cfg) (cols : List Dict)
    (reg reg' : Registry) (fs : List RType) (a : Attrs)
    (h : d.toRecap cm cols reg = (.ok (.struct fs a), reg'))
    (i : Nat) (c : Dict) (f t : RType) (hc : cols[i]? = some c) (hf : fs[i]? = some f)
    (ht : ColumnType f t) (hl : t.attrs.logical = .str "build.recap.Timestamp")
    (p : Int) (hp : Dict.get? c "DATETIME_PRECISION" = some (.int p)) (h6 : p ≤ 6) :
    FineEnough p t := by
  obtain ⟨fs', heq, h⟩ := toRecap_ok h
  injection heq with heq _
  subst heq
  obtain ⟨-, hi⟩ := fieldsOf_index h
  obtain ⟨b, s, s', h1, h2⟩ := hi i c f hc hf
  rcases hd with rfl | ⟨cfg, rfl⟩
  · simp only [Dialect.parse, stateless, Prod.mk.injEq] at h1
    have h1 := h1.1
    refine fine_field (L := (· = .str "build.recap.Timestamp")) (by simp)
      (mysqlParse_simple _ _ _ h1) ?_ h2 ht hl
    unfold mysqlParse at h1
    obtain ⟨_, -, h1⟩ := bind_ok h1
    obtain ⟨_, -, h1⟩ := bind_ok h1
    obtain ⟨_, -, h1⟩ := bind_ok h1
    obtain ⟨_, -, h1⟩ := bind_ok h1
    obtain ⟨_, -, h1⟩ := bind_ok h1
    exact mysqlType_fine hp h6 _ h1
  · obtain ⟨q, -, ⟨-, -, h1⟩ | ⟨-, v, -, hv, hcase⟩⟩ := pgParse_ok h1
    · exact fine_field (L := (· = .str "build.recap.Timestamp")) (by simp)
        (pgScalar_simple _ _ _ _ _ h1) (pgScalar_fine hp h6 _ h1) h2 ht hl
    · have hne := pgElement_untimed _ _ _ _ _ hv
      have hs := pgScalar_simple _ _ _ _ _ hv
      have hlist : ∀ w l x y, b = .list w l x y → y.logical = .none → Bare b → FineEnough p t := by
        rintro w l x y rfl hy hbare
        exfalso
        rcases fieldOf_shape hbare rfl (by intro _ _ e; cases e) h2 with
          ⟨n, rfl⟩ | ⟨v, n, rfl⟩ | ⟨v, n, rfl⟩
        · rcases ht with rfl | ⟨a, ha⟩
          · rw [logical_setExtra] at hl; simp [attrs, hy] at hl
          · cases ha
        · rcases ht with rfl | ⟨a, ha⟩
          · rw [logical_setExtra, logical_setExtra] at hl; simp [attrs, hy] at hl
          · cases ha
        · rcases ht with rfl | ⟨a, ha⟩
          · cases hl
          · injection ha with ha _
            simp only [List.cons.injEq, and_true, true_and] at ha
            subst ha
            simp [attrs, hy] at hl
      rcases hcase with ⟨-, -, hk⟩ | ⟨-, s, -, rfl, -⟩
      · obtain ⟨k, rfl, -⟩ := createNDim_ok hk
        cases k with
        | zero =>
          obtain ⟨x, rfl⟩ := fieldOf_union rfl h2
          rcases ht with rfl | ⟨a, ha⟩
          · cases hl
          · injection ha with ha _
            simp only [List.cons.injEq, and_true, true_and] at ha
            subst ha
            exact absurd hl hne
        | succ k => exact hlist _ _ _ _ rfl rfl (bare_nDim v (k + 1))
      · exact hlist _ _ _ _ rfl rfl ⟨rfl, rfl, rfl⟩

example : ((Dialect.postgresql {}).toRecap asciiCase
    [pgColumn "at" "timestamp without time zone" "timestamp" "YES" .none (.int 0)]
    newRegistry).1 =
    .ok (.struct [.union [.null {}, timeType 64 "build.recap.Timestamp" "microsecond"]
      { extra := [("default", .none), ("name", .str "at")] }] {}) := by
  decide +kernel

/-- **C52 is false** for precisions above 6, for MySQL and PostgreSQL: the fallback is
microseconds.  (Both databases limit the precision to 6.) -/
theorem C52_nanoseconds_refuted :
    ∃ c t, (Dialect.mysql.toRecap asciiCase [c] newRegistry).1 = .ok (.struct [t] {}) ∧
      Dict.get? c "DATETIME_PRECISION" = some (.int 9) ∧ ¬FineEnough 9 t := by
  refine ⟨sqlColumn "at" "datetime" "NO" .none .none .none (.int 9),
    setExtra (timeType 64 "build.recap.Timestamp" "microsecond") "name" (.str "at"),
    by decide +kernel, by decide +kernel, ?_⟩
  rintro ⟨u, k, h1, h2, h3⟩
  cases h1
  cases h2
  omega

/-- The data type `name(p)` of a Snowflake time column: no parenthesis before the parameter,
and one digit in it. -/
def TimeParameter (dt : String) (p : Nat) : Prop :=
  p < 10 ∧ ∃ pre post : List Char, '(' ∉ pre ∧
    dt.toList = pre ++ '(' :: Char.ofNat (48 + p) :: ')' :: post

theorem searchParens_skip {pre : List Char} (h : '(' ∉ pre) (rest : List Char) :
    searchParens (pre ++ rest) = searchParens rest := by
  induction pre with
  | nil => rfl
  | cons c cs ih =>
    simp only [List.mem_cons, not_or] at h
    rw [List.cons_append, searchParens, if_neg (Ne.symm h.1), ih h.2]

theorem parameter_unit {dt : String} {p : Nat} (h : TimeParameter dt p) :
    getTimeUnit (parseParameters dt) = getTimeUnit (some [.int p]) := by
  obtain ⟨hp, pre, post, hpre, hdt⟩ := h
  have h1 : parseParameters dt = some [.str (String.ofList [Char.ofNat (48 + p)])] := by
    unfold parseParameters
    rw [hdt, searchParens_skip hpre]
    have : ∀ n < 10, (searchParens ('(' :: Char.ofNat (48 + n) :: ')' :: post)) =
        some [Char.ofNat (48 + n)] := by
      intro n hn
      have e1 : Char.ofNat (48 + n) ≠ ')' := by revert n; decide
      have e2 : Char.ofNat (48 + n) ≠ '\n' := by revert n; decide
      simp [searchParens, upToParen, e1, e2]
    rw [this p hp]
    have fin : ∀ n < 10, Option.map (fun g => List.map (fun w => PyVal.str (String.ofList (strip w)))
        (splitComma g)) (some [Char.ofNat (48 + n)]) =
        some [.str (String.ofList [Char.ofNat (48 + n)])] := by decide +kernel
    exact fin p hp
  have fin : ∀ n < 10, getTimeUnit (some [.str (String.ofList [Char.ofNat (48 + n)])]) =
      getTimeUnit (some [.int n]) := by decide +kernel
  rw [h1]
  exact fin p hp

theorem no_parameter {dt : String} (h : '(' ∉ dt.toList) : parseParameters dt = .none := by
  have := searchParens_skip h []
  rw [List.append_nil] at this
  rw [parseParameters, this]
  rfl

theorem fine_snowflake {dt : String} {p : Nat} (hp : TimeParameter dt p ∨ ('(' ∉ dt.toList ∧ p = 9))
    {u : Option String} (hu : getTimeUnit (parseParameters dt) = .ok u) (b : Int) (l : String) :
    FineEnough p (timeType b l (u.getD "nanosecond")) := by
  rcases hp with hp | ⟨hp, rfl⟩
  · rw [parameter_unit hp] at hu
    by_cases h6 : (p : Int) ≤ 6
    · exact fine_precision h6 _ hu
    · rw [getTimeUnit_cases, if_neg (by omega), if_neg (by omega), if_neg h6] at hu
      cases hu
      exact fine_timeType (k := 9) rfl (by have := hp.1; omega)
  · rw [no_parameter hp] at hu
    cases hu
    exact fine_timeType (k := 9) rfl (by omega)

theorem snowflakeType_fine {dt : String} {o : PyVal} {c : Dict} {p : Nat}
    (hp : TimeParameter dt p ∨ ('(' ∉ dt.toList ∧ p = 9)) :
    Yields (fun t => (t.attrs.logical = .str "build.recap.Timestamp" ∨
      t.attrs.logical = .str "build.recap.Time") → FineEnough p t) (snowflakeType dt o c) := by
  unfold snowflakeType
  branches
  all_goals first
    | (intro h; simp [attrs, decimalType] at h; done)
    | (intro h; simp [attrs, timeType] at h; done)
    | (intro h
       rename_i u hu
       exact fine_snowflake hp hu _ _)

/-- **C52, Snowflake.**  A timestamp or time column gets a unit that can express all decimal
places of its fractional-second precision, which is at most 9 in Snowflake; without a precision
the unit is the nanosecond. -/
theorem C52_snowflake_precision (cm : CaseMap) (cols : List Dict)
    (reg reg' : Registry) (fs : List RType) (a : Attrs)
    (h : Dialect.snowflake.toRecap cm cols reg = (.ok (.struct fs a), reg'))
    (i : Nat) (c : Dict) (f t : RType) (hc : cols[i]? = some c) (hf : fs[i]? = some f)
    (ht : ColumnType f t)
    (hl : t.attrs.logical = .str "build.recap.Timestamp" ∨ t.attrs.logical = .str "build.recap.Time")
    (dt : String) (hdt : DataType cm c dt) (p : Nat)
    (hp : TimeParameter dt p ∨ ('(' ∉ dt.toList ∧ p = 9)) : FineEnough p t := by
  obtain ⟨fs', heq, h⟩ := toRecap_ok h
  injection heq with heq _
  subst heq
  obtain ⟨-, hi⟩ := fieldsOf_index h
  obtain ⟨b, s, s', h1, h2⟩ := hi i c f hc hf
  simp only [Dialect.parse, stateless, Prod.mk.injEq] at h1
  have h1 := h1.1
  refine fine_field (L := fun l => l = .str "build.recap.Timestamp" ∨ l = .str "build.recap.Time")
    (by simp) (snowflakeParse_simple _ _ _ h1) ?_ h2 ht hl
  unfold snowflakeParse at h1
  obtain ⟨_, h3, h1⟩ := bind_ok h1
  obtain ⟨_, h4, h1⟩ := bind_ok h1
  obtain ⟨_, -, h1⟩ := bind_ok h1
  obtain ⟨r, rfl, rfl⟩ := strMethod_ok h4
  have := dataType_unique hdt ⟨r, item_ok h3, rfl⟩
  subst this
  exact snowflakeType_fine hp _ h1

example : TimeParameter "timestamp_ntz(7)" 7 :=
  ⟨by omega, "timestamp_ntz".toList, [], by decide, by decide⟩

example : (Dialect.snowflake.toRecap asciiCase
    [sqlColumn "a" "TIMESTAMP_NTZ(3)" "NO" .none .none .none .none,
      sqlColumn "b" "TIME(7)" "NO" .none .none .none .none] newRegistry).1 =
    .ok (.struct
      [setExtra (timeType 64 "build.recap.Timestamp" "millisecond") "name" (.str "a"),
        setExtra (timeType 32 "build.recap.Time" "nanosecond") "name" (.str "b")] {}) := by
  decide +kernel

/-! ## C53 -/

theorem nested_nDim (v : RType) : ∀ n, NestedLists (.union [.null {}, v] {}) n (nDimList v n)
  | 0 => .zero
  | n + 1 => .succ (nested_nDim v n)

/-- **C53.**  With enforced dimensions, the type of an array column of `n` dimensions is exactly
`n` lists around a nullable element, which is not itself a list.  The field is that type, with
the name and default of the column, or its union with null. -/
theorem C53_dimensions (cm : CaseMap) (cfg : PgConfig) (he : cfg.enforce = true) (cols : List Dict)
    (reg reg' : Registry) (fs : List RType) (a : Attrs)
    (h : (Dialect.postgresql cfg).toRecap cm cols reg = (.ok (.struct fs a), reg'))
    (i : Nat) (c : Dict) (f : RType) (hc : cols[i]? = some c) (hf : fs[i]? = some f)
    (hdt : DataType cm c "array") (n : Int) (hn : Dict.get? c "ATTNDIMS" = some (.int n)) :
    ∃ (k : Nat) (t e : RType), n = k ∧ NestedLists (.union [.null {}, e] {}) k t ∧
      children e = [] ∧ (SameBody f t ∨ ∃ x, f = .union [.null {}, t] x) := by
  obtain ⟨fs', heq, h⟩ := toRecap_ok h
  injection heq with heq _
  subst heq
  obtain ⟨-, hi⟩ := fieldsOf_index h
  obtain ⟨b, s, s', h1, h2⟩ := hi i c f hc hf
  obtain ⟨p, hp, hcase⟩ := pgParse_ok h1
  obtain ⟨-, hpd, -, -, -, hnd⟩ := pgProps_ok hp
  have hd := dataType_unique hpd hdt
  rw [hn] at hnd
  injection hnd with hnd
  rcases hcase with ⟨hne, -⟩ | ⟨-, v, -, hv, hcase⟩
  · exact absurd hd hne
  · rcases hcase with ⟨-, -, hk⟩ | ⟨hf', -⟩
    · obtain ⟨k, rfl, hk'⟩ := createNDim_ok hk
      refine ⟨k, _, v, ?_, nested_nDim v k, (pgScalar_simple _ _ _ _ _ hv).leaf, ?_⟩
      · rcases hk' with e | ⟨e, -⟩ | ⟨e, -⟩
        · rw [e] at hnd; cases hnd; rfl
        · rw [e] at hnd; cases hnd
        · rw [e] at hnd; cases hnd
      · cases k with
        | zero =>
          obtain ⟨x, rfl⟩ := fieldOf_union rfl h2
          exact .inl ⟨_, rfl⟩
        | succ k =>
          rcases fieldOf_shape (bare_nDim v (k + 1)) rfl (by intro _ _ e; cases e) h2 with
            ⟨n, rfl⟩ | ⟨v, n, rfl⟩ | ⟨v, n, rfl⟩
          · exact .inl ⟨_, rfl⟩
          · exact .inl ⟨_, rfl⟩
          · exact .inr ⟨_, rfl⟩
    · rw [he] at hf'; cases hf'

example : ((Dialect.postgresql { enforce := true }).toRecap asciiCase
    [pgColumn "m" "ARRAY" "_int4" "NO" .none (.int 2)] newRegistry).1 =
    .ok (.struct [.list (.list (.union [.null {}, .int (.int 32) (.bool true) {}] {})
      .none (.bool true) {}) .none (.bool true) { extra := [("name", .str "m")] }] {}) := by
  decide +kernel

/-! ## C55 -/

/-- **C55.**  A SQLite column gets the affinity of its declared type by SQLite's rules, and the
type for that affinity. -/
theorem C55_affinity (cm : CaseMap) (col : Dict) (t : RType) (h : sqliteParse cm col = .ok t) :
    ∃ v s af octet precision, Dict.get? col "TYPE" = some v ∧
      (v = .str s ∨ (v.truthy = false ∧ s = "")) ∧
      HasAffinity (cm.upper s) af ∧
      Dict.get? col "CHARACTER_OCTET_LENGTH" = some octet ∧
      Dict.get? col "NUMERIC_PRECISION" = some precision ∧
      match af with
      | .integer => t = .int (.int 64) (.bool true) {}
      | .real => t = .float (.int 64) {} ∨
          (t = .float (.int 32) {} ∧ precision.truthy = true ∧ precision.gtInt 23 = .ok false)
      | .text => ∃ n, t = .string n (.bool true) {} ∧
          ((octet.truthy = true ∧ n = octet) ∨ (octet.truthy = false ∧ n = .int 2147483647))
      | .blob => ∃ n, t = .bytes n (.bool true) {} ∧
          ((octet.truthy = true ∧ n = octet) ∨ (octet.truthy = false ∧ n = .int 2147483647))
      | .numeric => t = .union
          [.null {}, .int (.int 64) (.bool true) {}, .float (.int 64) {},
            .string (.int 2147483647) (.bool true) {},
            .bytes (.int 2147483647) (.bool true) {}] {} := by
  obtain ⟨v, r, af, octet, precision, h1, h2, h3, h4, h5, h6⟩ := sqliteParse_ok h
  have hs : v = .str r ∨ (v.truthy = false ∧ r = "") := by
    rcases declared_of_orElse h2 with ⟨-, h⟩ | h
    · exact .inl h
    · exact .inr h
  have ho : (octet.truthy = true ∧ orElse octet sqliteMax = octet) ∨
      (octet.truthy = false ∧ orElse octet sqliteMax = .int 2147483647) := by
    unfold orElse
    cases octet.truthy
    · exact .inr ⟨rfl, rfl⟩
    · exact .inl ⟨rfl, rfl⟩
  refine ⟨v, r, af, octet, precision, h1, hs, h3, h4, h5, ?_⟩
  cases af
  · exact h6
  · rcases h6 with ⟨h7, h8, h9⟩ | ⟨-, h9⟩
    · exact .inr ⟨h9, h7, h8⟩
    · exact .inl h9
  · exact ⟨_, h6, ho⟩
  · exact ⟨_, h6, ho⟩
  · exact h6

/-- A declared type has one affinity. -/
theorem affinity_unique {s : String} {a b : Affinity} (ha : HasAffinity s a)
    (hb : HasAffinity s b) : a = b := by
  cases ha <;> cases hb <;> first | rfl | contradiction

/-- **C55, the converse.**  Every declared type gets a type: conversion of a column whose
properties are present, with a missing or integer precision, does not fail. -/
theorem C55_total (cm : CaseMap) (col : Dict) (name octet v precision : PyVal)
    (h1 : Dict.get? col "COLUMN_NAME" = some name)
    (h2 : Dict.get? col "TYPE" = some v) (hv : v = .none ∨ ∃ s, v = .str s)
    (h3 : Dict.get? col "CHARACTER_OCTET_LENGTH" = some octet)
    (h4 : Dict.get? col "NUMERIC_PRECISION" = some precision)
    (hp : precision = .none ∨ ∃ n, precision = .int n) : ∃ t, sqliteParse cm col = .ok t := by
  have ha : ∃ a, getAffinity cm v = .ok a := by
    have : ∃ r, orElse v (.str "") = .str r := by
      rcases hv with rfl | ⟨s, rfl⟩
      · exact ⟨"", rfl⟩
      · unfold orElse; split <;> exact ⟨_, rfl⟩
    obtain ⟨r, hr⟩ := this
    unfold getAffinity
    rw [hr]
    simp only [strMethod, bind, Except.bind, pure, Except.pure]
    repeat' split
    all_goals exact ⟨_, rfl⟩
  obtain ⟨a, ha⟩ := ha
  unfold sqliteParse
  simp only [item, h1, h2, h3, h4, ha, bind, Except.bind, pure, Except.pure]
  cases a
  case real =>
    rcases hp with rfl | ⟨n, rfl⟩
    · exact ⟨_, rfl⟩
    · simp only [PyVal.gtInt, Except.map]
      split <;> exact ⟨_, rfl⟩
  all_goals exact ⟨_, rfl⟩

example : HasAffinity "FLOATING POINT" .integer :=
  .integer ⟨"FLOATING PO".toList, [], by decide⟩

example : sqliteParse asciiCase (liteColumn "x" (.str "Double Precision") "NO" .none .none) =
    .ok (.float (.int 64) {}) := by decide +kernel

end Recap
