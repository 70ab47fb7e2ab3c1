import Verif.RowsSpec
import Verif.PgArraysThms
import Verif.JsonDataThms
import Verif.CommandsJsonThms
import Verif.CompactFaithful

/-!
# Lemmas on the rows of a table as JSON
-/

set_option autoImplicit false

namespace Recap.Rows

open Recap.Relational Recap.Values Recap.Spec Recap.PgArrays
open Recap.JsonData
open Recap.Avro.Spec (IntValue)
open Recap.Json.Spec (nameOf OptionalField Inside IsReference Builtin BuiltinOnly)
open Recap.Json (Writable isOptionalField)
open Recap.Hive (everywhere_iff)

/-! ## Values of columns -/

/-- Values that are written alike. -/
inductive Alike : Val → Val → Prop
  | refl {x} : Alike x x
  | int {i k} : Alike (.int i) (.int k)
  | instant {i k} : Alike (.instant i) (.instant k)
  | time {i k} : Alike (.time i) (.time k)
  | decimal {m s n t} : Alike (.decimal m s) (.decimal n t)

theorem holds_shaped {live : Registry} {b : RType} {x y : Val} {j : PyVal} (hl : children b = [])
    (hu : ∀ ts a, b ≠ .union ts a) (h : Holds b x) (ha : Alike x y) (hw : Written y j) : Shaped live b j := by
  cases h with
  | null => cases ha; cases hw; exact .null
  | bool => cases ha; cases hw; exact .bool
  | int => cases ha <;> cases hw <;> exact .int
  | float =>
    cases ha
    cases hw
    · exact .float
    · exact .whole
  | string => cases ha; cases hw; exact .string
  | uuid => cases ha; cases hw; exact .string
  | bytes => cases ha; cases hw; exact .bytes
  | decimal => cases ha <;> cases hw <;> exact .bytes
  | instant => cases ha <;> cases hw <;> exact .int
  | date => cases ha; cases hw; exact .int
  | time => cases ha <;> cases hw <;> exact .int
  | enum h => cases ha; cases hw; exact .enum h
  | list => simp [children] at hl
  | map => simp [children] at hl
  | struct => cases ha; cases hw
  | union => exact absurd rfl (hu _ _)

theorem alike_null {x y : Val} (h : Alike x y) : x = .null ↔ y = .null := by
  cases h <;> simp

/-- What MySQL stores in a column has the form of the column's type. -/
theorem mysql_shaped {cm : CaseMap} {c : Dict} {b : RType} {x : Val} {j : PyVal} {live : Registry}
    (h : mysqlParse cm c = .ok b) (hx : MySQL cm c x) (hn : x ≠ .null) (hw : Written x j) : Shaped live b j := by
  have hs := mysqlParse_simple _ _ _ h
  by_cases hu : (∃ i, x = .int i) ∧ Unsigned c
  · obtain ⟨⟨i, rfl⟩, hu⟩ := hu
    cases hw
    unfold mysqlParse at h
    obtain ⟨_, h1, h⟩ := bind_ok h
    obtain ⟨_, h2, h⟩ := bind_ok h
    obtain ⟨o, h3, h⟩ := bind_ok h
    obtain ⟨p, h4, h⟩ := bind_ok h
    obtain ⟨s, h5, h⟩ := bind_ok h
    obtain ⟨r, rfl, rfl⟩ := strMethod_ok h2
    have hdt : DataType cm c (cm.lower r) := ⟨r, item_ok h1, rfl⟩
    generalize cm.lower r = dt at h hdt
    cases hx with
    | signed _ _ hn _ => exact absurd hu hn
    | unsigned hd hm _ _ =>
      cases dataType_unique hdt hd
      rw [mysqlInts_type hm] at h
      cases h
      exact .int
    | year hd _ =>
      cases dataType_unique hdt hd
      cases h
      exact .int
  · rcases mysql_holds h (fun i e hu' => hu ⟨⟨i, e⟩, hu'⟩) hx with ⟨e, -⟩ | hh
    · exact absurd e hn
    · exact holds_shaped hs.leaf hs.notUnion hh .refl hw

/-- What PostgreSQL stores in a column that is no array has the form of the column's type. -/
theorem pg_shaped {cm : CaseMap} {cfg : PgConfig} {c : Dict} {reg reg' : Registry} {b : RType} {x : Val} {j : PyVal}
    {live : Registry} (h : pgParse cm cfg c reg = (.ok b, reg')) (hx : PostgreSQL cm c x) (hn : x ≠ .null)
    (hw : Written x j) : Shaped live b j := by
  have numeric : DataType cm c "numeric" → ∀ {t}, j = .str t → Shaped live b j := by
    rintro hd t rfl
    obtain ⟨o, m, ho, hmx, h⟩ := pg_scalar h hd (by decide)
    obtain ⟨p, h3, h⟩ := bind_ok (show (do
      let precision ← item c "NUMERIC_PRECISION"
      let scale ← item c "NUMERIC_SCALE"
      pure (decimalType 32 precision scale)) = Except.ok b from h)
    obtain ⟨q, h4, h⟩ := bind_ok h
    cases h
    exact .bytes
  have hs : ∀ {dt}, DataType cm c dt → dt ≠ "array" → Simple b := fun hd hne =>
    have ⟨_, _, _, _, h⟩ := pg_scalar h hd hne
    pgScalar_simple _ _ _ _ _ h
  have key : ∀ {dt y}, DataType cm c dt → dt ≠ "array" → PostgreSQL cm c y → PostgreSQLFits c y → Alike y x →
      Shaped live b j := fun hd hne hy hf ha => by
    rcases pg_holds h hf hy with ⟨e, -⟩ | hh
    · exact absurd ((alike_null ha).mp e) hn
    · exact holds_shaped (hs hd hne).leaf (hs hd hne).notUnion hh ha hw
  have hx' := hx
  cases hx with
  | null => exact absurd rfl hn
  | int hd hm hi => exact key hd (pgInts_type hm .none .none []).1 hx' ⟨by simp, by simp⟩ .refl
  | double hd => exact key hd (by decide) hx' ⟨by simp, by simp⟩ .refl
  | real hd => exact key hd (by decide) hx' ⟨by simp, by simp⟩ .refl
  | bool hd => exact key hd (by decide) hx' ⟨by simp, by simp⟩ .refl
  | text hd hm _ _ =>
    refine key hd ?_ hx' ⟨by simp, by simp⟩ .refl
    rintro rfl
    exact absurd hm (by decide)
  | json hd hm _ =>
    refine key hd ?_ hx' ⟨by simp, by simp⟩ .refl
    rintro rfl
    exact absurd hm (by decide)
  | uuid hd _ => exact key hd (by decide) hx' ⟨by simp, by simp⟩ .refl
  | bytea hd _ => exact key hd (by decide) hx' ⟨by simp, by simp⟩ .refl
  | varbit hd _ => exact key hd (by decide) hx' ⟨by simp, by simp⟩ .refl
  | bit hd _ _ _ => exact key hd (by decide) hx' ⟨by simp, by simp⟩ .refl
  | instant hd hm hp hp6 _ _ _ =>
    refine key (y := .instant 0) hd ?_ (.instant hd hm hp hp6 ⟨0, by simp⟩ (by omega) (by omega)) ⟨?_, by simp⟩ .instant
    · rintro rfl
      exact absurd hm (by decide)
    · intro ns e
      cases e
      omega
  | numeric hd _ _ _ _ => cases hw; exact numeric hd rfl
  | free hd _ _ _ => cases hw; exact numeric hd rfl
  | enum hd _ _ => exact key hd (by decide) hx' ⟨by simp, by simp⟩ .refl

/-- What Snowflake stores in a column has the form of the column's type. -/
theorem snowflake_shaped {cm : CaseMap} {c : Dict} {b : RType} {x : Val} {j : PyVal} {live : Registry}
    (h : snowflakeParse cm c = .ok b) (hx : Snowflake cm c x) (hn : x ≠ .null) (hw : Written x j) : Shaped live b j := by
  have hs := snowflakeParse_simple _ _ _ h
  have key : ∀ {y}, Snowflake cm c y → SnowflakeFits y → Alike y x → Shaped live b j := fun hy hf ha => by
    rcases snowflake_holds h hf hy with ⟨e, -⟩ | hh
    · exact absurd ((alike_null ha).mp e) hn
    · exact holds_shaped hs.leaf hs.notUnion hh ha hw
  have hx' := hx
  cases hx with
  | null => exact absurd rfl hn
  | instant hd hm hc =>
    refine key (y := .instant 0) (.instant hd hm ⟨by decide, by decide⟩) ⟨?_, by simp⟩ .instant
    intro ns e
    cases e
    omega
  | time hd _ =>
    refine key (y := .time 0) (.time hd ⟨by decide, by decide⟩) ⟨by simp, ?_⟩ .time
    intro ns e
    cases e
    omega
  | _ => exact key hx' ⟨by simp, by simp⟩ .refl

/-- What SQLite stores in a column, if it is of the column's affinity, has the form of the column's type. -/
theorem sqlite_shaped {cm : CaseMap} {c : Dict} {b : RType} {x : Val} {j : PyVal} {live : Registry}
    (h : sqliteParse cm c = .ok b) (hf : Agrees cm c x) (hn : x ≠ .null) (hw : Written x j) : Shaped live b j := by
  obtain ⟨ty, r, a, o, p, h1, h2, h3, h4, h5, h⟩ := sqliteParse_ok h
  cases hf with
  | null => exact absurd rfl hn
  | int ha =>
    cases affinity_of h1 h2 h3 ha
    cases h
    cases hw
    exact .int
  | real ha =>
    cases affinity_of h1 h2 h3 ha
    have : ∃ n, b = .float n {} := by
      rcases h with ⟨-, -, rfl⟩ | ⟨-, rfl⟩
      · exact ⟨_, rfl⟩
      · exact ⟨_, rfl⟩
    obtain ⟨n, rfl⟩ := this
    cases hw
    · exact .float
    · exact .whole
  | text ha =>
    cases hw
    rcases ha with ha | ha
    · cases affinity_of h1 h2 h3 ha
      cases h
      exact .string
    · cases affinity_of h1 h2 h3 ha
      cases h
      exact .bytes
  | blob ha =>
    cases hw
    rcases ha with ha | ha
    · cases affinity_of h1 h2 h3 ha
      cases h
      exact .string
    · cases affinity_of h1 h2 h3 ha
      cases h
      exact .bytes

/-- An array with the declared dimensions. -/
theorem nDim_shaped {v : RType} {live : Registry} (hs : Simple v) : ∀ (n : Nat) (x : Val) (j : PyVal),
    Dimensions (fun y => y = .null ∨ Holds v y) n x → Written x j → Shaped live (nDimList v n) j
  | 0, x, j, hx, hw => by
    have no : ∀ t, ¬OptionalField (.union [.null {}, t] {}) := by
      rintro t ⟨ts, a, e, h⟩
      cases e
      simp [RType.isOptional, Dict.has] at h
    rcases hx with rfl | hx
    · cases hw
      exact .union (List.mem_cons_self ..) (fun h => absurd h (no _)) .null
    · exact .union (List.mem_cons_of_mem _ (List.mem_cons_self ..)) (fun h => absurd h (no _))
        (holds_shaped hs.leaf hs.notUnion hx .refl hw)
  | n + 1, x, j, hx, hw => by
    obtain ⟨xs, rfl, hx⟩ := hx
    cases hw with
    | @list _ js hl h =>
      refine .list fun y hy => ?_
      obtain ⟨i, hi, rfl⟩ := List.getElem_of_mem hy
      refine nDim_shaped hs n (xs[i]'(by omega)) _ (hx _ (List.getElem_mem _)) (h i _ _ ?_ ?_)
      · exact List.getElem?_eq_getElem _
      · exact List.getElem?_eq_getElem _

/-! ## Fields -/

theorem shaped_withAttrs {live : Registry} {t : RType} {j : PyVal} {a : Attrs} (hu : ∀ ts a, t ≠ .union ts a)
    (hp : t.isProxy = false) (h : Shaped live t j) : Shaped live (t.withAttrs a) j := by
  cases h with
  | null => exact .null
  | bool => exact .bool
  | int => exact .int
  | point => exact .point
  | float => exact .float
  | whole => exact .whole
  | string => exact .string
  | bytes => exact .bytes
  | enum h => exact .enum h
  | list h => exact .list h
  | map h => exact .map h
  | struct h1 h2 h3 => exact .struct h1 h2 h3
  | union => exact absurd rfl (hu _ _)
  | reference => cases hp

theorem withAttrs_union {t : RType} {a : Attrs} (hu : ∀ ts a, t ≠ .union ts a) : ∀ ts b, t.withAttrs a ≠ .union ts b := by
  intro ts b e
  cases t <;> first | exact hu _ _ rfl | cases e

theorem withAttrs_proxy {t : RType} {a : Attrs} : (t.withAttrs a).isProxy = t.isProxy := by cases t <;> rfl

theorem withAttrs_attrs {t : RType} {a : Attrs} : (t.withAttrs a).withAttrs t.attrs = t := by cases t <;> rfl

theorem shaped_setExtra {live : Registry} {t : RType} {j : PyVal} {k : String} {v : PyVal} (hu : ∀ ts a, t ≠ .union ts a)
    (hp : t.isProxy = false) : Shaped live (setExtra t k v) j ↔ Shaped live t j := by
  refine ⟨fun h => ?_, shaped_withAttrs hu hp⟩
  have := shaped_withAttrs (a := t.attrs) (withAttrs_union hu) (withAttrs_proxy.trans hp) h
  rwa [withAttrs_attrs] at this

theorem base_proxy {b : RType} (hb : BaseShape b) : b.isProxy = false := by
  cases hb with
  | leafy h _ => exact h.proxy
  | numeric => rfl
  | array k h _ => cases k <;> rfl

theorem optional_iff {f : RType} : OptionalField f ↔ isOptionalField f = true := by
  constructor
  · rintro ⟨ts, a, rfl, h⟩
    exact h
  · intro h
    cases f <;> first | exact ⟨_, _, rfl, h⟩ | cases h

/-- The field for a column has the form of the column's type. -/
theorem field_shaped {cm : CaseMap} {c : Dict} {b f : RType} {live : Registry} {j : PyVal} (hb : BaseShape b)
    (hn : b.isNullable = false) (h : fieldOf cm c b = .ok f) : Shaped live f j ↔ Shaped live b j := by
  have hopt := (field_plain hb hn h).2.2
  obtain ⟨n, dflt, name, h3, hd, hm, rfl⟩ := fieldOf_ok h
  obtain ⟨hbare, hu⟩ := hb.bare hn
  have hp := base_proxy hb
  by_cases hy : (cm.upper n == "YES") = true
  · have ho := hopt.mpr ⟨n, h3, by simpa using hy⟩
    rw [if_pos hy, if_pos (by rw [hy]; simp), makeNullable_bare hbare hn hu] at ho ⊢
    obtain ⟨a', e⟩ : ∃ a', setExtra (setExtra (.union [.null {}, b] { extra := [("default", .none)] })
        "default" dflt) "name" name = .union [.null {}, b] a' := ⟨_, rfl⟩
    rw [e] at ho ⊢
    constructor
    · intro h
      cases h with
      | union hm h1 h2 =>
        rcases List.mem_cons.mp hm with rfl | hm
        · exact absurd (h1 (optional_iff.mpr ho)) (by simp [RType.isNull])
        · cases List.mem_singleton.mp hm
          exact h2
    · exact fun h => .union (List.mem_cons_of_mem _ (List.mem_cons_self ..)) (fun _ => isNull_of_nonNull hn) h
  · rw [if_neg hy]
    split
    · exact (shaped_setExtra (withAttrs_union hu) (withAttrs_proxy.trans hp)).trans (shaped_setExtra hu hp)
    · exact shaped_setExtra hu hp

theorem distinct_withAttrs {t : RType} {a : Attrs} (hu : ∀ ts a, t ≠ .union ts a) (h : Distinct t) : Distinct (t.withAttrs a) := by
  cases h with
  | null => exact .null
  | bool => exact .bool
  | int => exact .int
  | float => exact .float
  | string => exact .string
  | bytes => exact .bytes
  | enum => exact .enum
  | list h => exact .list h
  | map h => exact .map h
  | struct h => exact .struct h
  | optional => exact absurd rfl (hu _ _)
  | union => exact absurd rfl (hu _ _)
  | reference => exact .reference

theorem distinct_leaf {t : RType} (hl : children t = []) (hu : ∀ ts a, t ≠ .union ts a) : Distinct t := by
  cases t with
  | list => simp [children] at hl
  | map => simp [children] at hl
  | struct fs a =>
    simp only [children] at hl
    subst hl
    exact .struct (by simp)
  | union => exact absurd rfl (hu _ _)
  | null => exact .null
  | bool => exact .bool
  | int => exact .int
  | float => exact .float
  | string => exact .string
  | bytes => exact .bytes
  | enum => exact .enum
  | proxy => exact .reference

theorem kind_leaf {t : RType} (hu : ∀ ts a, t ≠ .union ts a) (hp : t.isProxy = false) (hn : t.isNull = false) :
    ∃ s, kindOf t = some s ∧ s ≠ "null" := by
  cases t with
  | union => exact absurd rfl (hu _ _)
  | proxy => cases hp
  | null => cases hn
  | _ => exact ⟨_, rfl, by decide⟩

theorem distinct_nDim {v : RType} (h : Leafy v) (hs : Simple v) : ∀ k, Distinct (nDimList v k)
  | 0 => by
    obtain ⟨s, h1, h2⟩ := kind_leaf hs.notUnion h.proxy hs.notNull
    refine .union ?_ ?_ ?_
    · simp only [List.mem_cons, List.not_mem_nil, or_false, forall_eq_or_imp, forall_eq]
      exact ⟨.null, distinct_leaf hs.leaf hs.notUnion⟩
    · simp only [List.mem_cons, List.not_mem_nil, or_false, forall_eq_or_imp, forall_eq, h1]
      exact ⟨rfl, rfl⟩
    · have h3 : kindOf (.null {}) = some "null" := rfl
      simp [h1, h3, Ne.symm h2]
  | k + 1 => .list (distinct_nDim h hs k)

theorem distinct_base {b : RType} (hb : BaseShape b) (hn : b.isNullable = false) : Distinct b := by
  cases hb with
  | leafy h1 h2 => exact distinct_leaf h1.leaf h1.union
  | numeric => cases hn
  | array k h1 h2 => exact distinct_nDim h1 h2 k

theorem field_distinct {cm : CaseMap} {c : Dict} {b f : RType} (hb : BaseShape b)
    (hn : b.isNullable = false) (h : fieldOf cm c b = .ok f) : Distinct f := by
  have hopt := (field_plain hb hn h).2.2
  obtain ⟨n, dflt, name, h3, hd, hm, rfl⟩ := fieldOf_ok h
  obtain ⟨hbare, hu⟩ := hb.bare hn
  have hdb := distinct_base hb hn
  by_cases hy : (cm.upper n == "YES") = true
  · have ho := hopt.mpr ⟨n, h3, by simpa using hy⟩
    rw [if_pos hy, if_pos (by rw [hy]; simp), makeNullable_bare hbare hn hu] at ho ⊢
    obtain ⟨a', e⟩ : ∃ a', setExtra (setExtra (.union [.null {}, b] { extra := [("default", .none)] })
        "default" dflt) "name" name = .union [.null {}, b] a' := ⟨_, rfl⟩
    rw [e] at ho ⊢
    refine .optional (optional_iff.mpr ho) ?_
    simp only [List.mem_cons, List.not_mem_nil, or_false, forall_eq_or_imp, forall_eq]
    exact ⟨.null, hdb⟩
  · rw [if_neg hy]
    split
    · exact distinct_withAttrs (withAttrs_union hu) (distinct_withAttrs hu hdb)
    · exact distinct_withAttrs hu hdb

/-! ## Schemas -/

theorem inside_sub {u t : RType} (h : Inside u t) : Sub u t := by
  induction h with
  | refl => exact .refl
  | list _ ih => exact .list ih
  | value _ ih => exact .value ih
  | field hm _ ih => exact .field hm ih
  | member hm _ ih => exact .member hm ih

/-- C131 with the forms of values. -/
theorem shaped_valid {refs : String → PyVal → Prop} {live : Registry} {t : RType} {d : Dict} {j : PyVal}
    (h : Json.fromRecap live t = .ok d) (hb : BuiltinOnly live t) (hn : (definedAliases t).Nodup)
    (hw : ∀ u s, Inside u t → ¬ IsReference u → u.attrs.alias = .str s → s ≠ "" ∧ ¬ Builtin (.str s))
    (hr : Interprets refs d) (hk : Distinct t) (hj : Shaped live t j) : Valid refs (.dict d) j := by
  obtain ⟨n, s, defs, hs, hd, rfl⟩ := Json.fromRecap_ok h
  rw [Interprets, Json.defsOf_written (Json.convertF_no_defs hs)] at hr
  have hv := convert_valid (distinct_spans hb hk) (definite_defined (builtin_definite hb hn hw) hd hr) hs hj
  split
  · exact hv
  · exact (valid_defs (Json.convertF_no_defs hs)).mpr hv

/-- The type is not a struct with fields. -/
def Flat (t : RType) : Prop := ∀ fs a, t = .struct fs a → fs = []

theorem flat_leaf {t : RType} (h : children t = []) : Everywhere Flat t :=
  everywhere_iff.mpr ⟨by rintro fs a rfl; simpa [children] using h, by simp [h]⟩

theorem flat_withAttrs {t : RType} {a : Attrs} (h : Everywhere Flat t) : Everywhere Flat (t.withAttrs a) := by
  rw [everywhere_iff] at h ⊢
  refine ⟨?_, by have := h.2; cases t <;> exact this⟩
  intro fs b e
  cases t <;> first | exact h.1 _ _ (by cases e; rfl) | cases e

theorem flat_pair {t : RType} {a : Attrs} (h : Everywhere Flat t) : Everywhere Flat (.union [.null {}, t] a) := by
  rw [everywhere_iff]
  refine ⟨by (intro fs b e; cases e), ?_⟩
  simp only [children, List.mem_cons, List.not_mem_nil, or_false, forall_eq_or_imp, forall_eq]
  exact ⟨flat_leaf rfl, h⟩

theorem flat_nDim {v : RType} (h : children v = []) : ∀ k, Everywhere Flat (nDimList v k)
  | 0 => flat_pair (flat_leaf h)
  | k + 1 => everywhere_iff.mpr ⟨by (intro fs b e; cases e), by
      simp only [nDimList, children, List.mem_singleton, forall_eq]; exact flat_nDim h k⟩

theorem field_flat {cm : CaseMap} {c : Dict} {b f : RType} (hb : BaseShape b)
    (hn : b.isNullable = false) (h : fieldOf cm c b = .ok f) : Everywhere Flat f := by
  have hf : Everywhere Flat b := by
    cases hb with
    | leafy h _ => exact flat_leaf h.leaf
    | numeric => cases hn
    | array k hv _ => exact flat_nDim hv.leaf k
  obtain ⟨n, dflt, name, h3, hd, hm, rfl⟩ := fieldOf_ok h
  obtain ⟨hbare, hu⟩ := hb.bare hn
  refine flat_withAttrs ?_
  by_cases hy : (cm.upper n == "YES") = true
  · rw [if_pos hy, if_pos (by rw [hy]; simp), makeNullable_bare hbare hn hu]
    exact flat_withAttrs (flat_pair hf)
  · rw [if_neg hy]
    split
    · exact flat_withAttrs hf
    · exact hf

theorem noAlias {t : RType} (h : Everywhere Writable t) : definedAliases t = [] := by
  by_cases hd : definedAliases t = []
  · exact hd
  · obtain ⟨u, hu, -, ha⟩ := defined_hasAlias hd
    exact absurd (h u hu).alias ha

theorem noReference {live : Registry} {t : RType} (h : Everywhere Writable t) : BuiltinOnly live t := by
  intro r a hi
  have := (h _ (inside_sub hi)).proxy
  cases this

/-- The fields of a table. -/
theorem table_fields {cm : CaseMap} {d : Dialect} {cols : List Dict} {reg live : Registry} {fs : List RType} {a : Attrs}
    (h : d.toRecap cm cols reg = (.ok (.struct fs a), live)) (hc : Plain cm d cols) :
    a = {} ∧ cols.length = fs.length ∧ ∀ (i : Nat) c f, cols[i]? = some c → fs[i]? = some f →
      ∃ b s s', d.parse cm c s = (.ok b, s') ∧ fieldOf cm c b = .ok f ∧ BaseShape b ∧ b.isNullable = false := by
  obtain ⟨fs', e, h'⟩ := toRecap_ok h
  cases e
  obtain ⟨hl, hi⟩ := fieldsOf_index h'
  refine ⟨rfl, hl.symm, fun i c f hci hf => ?_⟩
  obtain ⟨b, s, s', h1, h2⟩ := hi i c f hci hf
  have hm : c ∈ cols := List.mem_of_getElem? hci
  refine ⟨b, s, s', h1, h2, parse_shape (hc.real _ hm) ?_ h1, ?_⟩
  · intro cfg e he ha
    rw [(hc.array cfg e c hm ha).1] at he
    cases he
  · cases hb : b.isNullable with
    | false => rfl
    | true =>
      rcases parse_nonNull h1 hb with ⟨e, v, hv, ha⟩ | ⟨cfg, e, he, ha, hz⟩
      · exact absurd ⟨_, _, hv, .inl rfl, ha⟩ (hc.affinity e c hm)
      · obtain ⟨-, n, h1⟩ := hc.array cfg e c hm ha
        rw [h1] at hz
        rcases hz with hz | hz
        · simp only [Option.some.injEq, PyVal.int.injEq] at hz
          omega
        · cases hz

/-- What is valid against the schema for a table. -/
theorem table_valid {cm : CaseMap} {d : Dialect} {cols : List Dict} {reg live : Registry} {fs : List RType} {a : Attrs}
    {schema : Dict} {refs : String → PyVal → Prop} {j : PyVal}
    (h : d.toRecap cm cols reg = (.ok (.struct fs a), live)) (hc : Plain cm d cols)
    (hs : Json.fromRecap live (.struct fs a) = .ok schema) (hr : Interprets refs schema) :
    (Shaped live (.struct fs a) j → Valid refs (.dict schema) j) ∧
      ((cols.map (fun c => Dict.get? c "COLUMN_NAME")).Nodup → Valid refs (.dict schema) j → Shaped live (.struct fs a) j) := by
  obtain ⟨rfl, hl, hi⟩ := table_fields h hc
  have of_field : ∀ f ∈ fs, ∃ c ∈ cols, ∃ b, fieldOf cm c b = .ok f ∧ BaseShape b ∧ b.isNullable = false := by
    intro f hf
    obtain ⟨i, hi', hfi⟩ := List.mem_iff_getElem.mp hf
    obtain ⟨b, s, s', -, h2, h3, h4⟩ := hi i (cols[i]'(by omega)) f (List.getElem?_eq_getElem _)
      (by rw [List.getElem?_eq_getElem hi', hfi])
    exact ⟨_, List.getElem_mem _, b, h2, h3, h4⟩
  have hw : Everywhere Writable (.struct fs {}) := by
    refine Json.plain_struct ?_ rfl ?_
    · intro f hf
      obtain ⟨c, -, b, h2, h3, h4⟩ := of_field f hf
      exact (field_plain h3 h4 h2).1
    · intro f hf
      obtain ⟨c, hcm, b, h2, h3, h4⟩ := of_field f hf
      rw [(field_plain h3 h4 h2).2.1]
      exact hc.name c hcm
  have hno : ∀ u s, Inside u (.struct fs {}) → ¬ IsReference u → u.attrs.alias = .str s → s ≠ "" ∧ ¬ Builtin (.str s) := by
    intro u s hu _ ha
    rw [(hw u (inside_sub hu)).alias] at ha
    cases ha
  have hnd : (definedAliases (.struct fs {})).Nodup := by rw [noAlias hw]; exact .nil
  constructor
  · intro hj
    have hdist : Distinct (.struct fs {}) := .struct fun f hf => by
      obtain ⟨c, -, b, h2, h3, h4⟩ := of_field f hf
      exact field_distinct h3 h4 h2
    exact shaped_valid hs (noReference hw) hnd hno hr hdist hj
  · intro hn
    refine C132_only_partial hs (builtin_definite (noReference hw) hnd hno) hr
      (names_spans (noReference hw) fun fs' a' hin => ?_)
    cases hin with
    | refl =>
      have : fs.map nameOf = cols.map (fun c => Dict.get? c "COLUMN_NAME") := by
        refine List.ext_getElem (by simp [hl]) fun i h1 h2 => ?_
        simp only [List.getElem_map]
        obtain ⟨b, s, s', -, h3, h4, h5⟩ := hi i _ _ (List.getElem?_eq_getElem (by simpa using h2))
          (List.getElem?_eq_getElem (by simpa using h1))
        exact (field_plain h4 h5 h3).2.1
      rw [this]
      exact hn
    | field hm hin =>
      obtain ⟨c, -, b, h2, h3, h4⟩ := of_field _ hm
      rw [field_flat h3 h4 h2 _ (inside_sub hin) fs' a' rfl]
      exact .nil

end Recap.Rows
