import Verif.BigQuerySpec
import Verif.RelationalThms2
import Verif.HiveThms

/-!
# Properties of the BigQuery converter, and of decimals in all converters for databases
-/

set_option autoImplicit false

namespace Recap

open RType Spec BigQuery

/-- A schema used in the examples. -/
def ordersFields : List BigQuery.Field :=
  [.mk "INTEGER" "REQUIRED" (.str "id") (.str "key") .none .none .none .none [],
    .mk "RECORD" "REPEATED" (.str "items") .none .none .none .none .none
      [.mk "STRING" "NULLABLE" (.str "sku") .none (.str "'x'") (.int 20) .none .none [],
        .mk "NUMERIC" "NULLABLE" (.str "price") .none .none .none (.int 10) (.int 2) []]]

/-- Its conversion. -/
def ordersType : RType := .struct
    [.int (.int 64) (.bool true) { doc := .str "key", extra := [("name", .str "id")] },
      .list (.struct
        [.union [.null {}, .string (.int 20) (.bool true) {}]
            { extra := [("default", .str "'x'"), ("name", .str "sku")] },
          .union [.null {}, .bytes (.int 16) (.bool false)
              { logical := .str "build.recap.Decimal",
                extra := [("precision", .int 10), ("scale", .int 2)] }]
            { extra := [("default", .none), ("name", .str "price")] }] {})
        .none (.bool true) { extra := [("name", .str "items")] }] {}

theorem orders_ok : BigQuery.toRecap ordersFields = .ok ordersType := by decide +kernel

namespace BigQuery

open Relational (Bare makeNullable_bare bind_ok)

/-- Proves `Describes` for a literal type name. -/
macro "describe" : tactic => `(tactic|
  (constructor <;> simp [scalarClass, typeName, decimalDigits, timeUnits, attrs, Dict.get?, orElse]))

theorem withAttrs_withAttrs (t : RType) (a b : Attrs) :
    (t.withAttrs a).withAttrs b = t.withAttrs b := by cases t <;> rfl

/-- The effect of the last three assignments of the loop body. -/
def Annotated (name description dflt : PyVal) (t u : RType) : Prop :=
  ∃ x : Attrs, u = t.withAttrs x ∧
    x.doc = (if description.truthy then description else t.attrs.doc) ∧
    Dict.get? x.extra "name" = (if name.truthy then some name else Dict.get? t.attrs.extra "name") ∧
    Dict.get? x.extra "default" =
      (if dflt.truthy then some dflt else Dict.get? t.attrs.extra "default") ∧
    (∀ k, k ≠ "name" → k ≠ "default" → Dict.get? x.extra k = Dict.get? t.attrs.extra k) ∧
    x.logical = t.attrs.logical ∧ x.alias = t.attrs.alias

/-- The type before the last three assignments. -/
def wrap (mode : String) (t : RType) : RType :=
  let t := if mode == "REPEATED" then .list t .none (.bool true) {} else t
  if mode == "NULLABLE" then makeNullable t else t

theorem decorate_annotated (mode : String) (name description dflt : PyVal) (t : RType) :
    Annotated name description dflt (wrap mode t) (decorate mode name description dflt t) := by
  have e : decorate mode name description dflt t =
    (let t := wrap mode t
     let t := if name.truthy then setExtra t "name" name else t
     let t := if description.truthy then setDoc t description else t
     if dflt.truthy then setExtra t "default" dflt else t) := rfl
  rw [e]
  generalize wrap mode t = w
  have hne : ("name" : String) ≠ "default" := by decide
  have hne' : ("default" : String) ≠ "name" := by decide
  by_cases h1 : name.truthy = true <;> by_cases h2 : description.truthy = true <;>
    by_cases h3 : dflt.truthy = true <;>
    simp only [h1, h2, h3, if_true, if_false, Bool.false_eq_true, setExtra, setDoc,
      withAttrs_withAttrs, Hive.attrs_withAttrs]
  all_goals first
    | refine ⟨_, rfl, ?_⟩
    | refine ⟨w.attrs, (Relational.withAttrs_self w).symm, ?_⟩
  all_goals
    simp only [h1, h2, h3, if_true, if_false, Bool.false_eq_true, Dict.get?_set_self,
      Dict.get?_set_ne _ _ hne, Dict.get?_set_ne _ _ hne', true_and, and_true, and_self]
  all_goals
    intro k hk hk'
    have k1 : ∀ d v, Dict.get? (Dict.set d "name" v) k = Dict.get? d k :=
      fun d v => Dict.get?_set_ne d v (Ne.symm hk)
    have k2 : ∀ d v, Dict.get? (Dict.set d "default" v) k = Dict.get? d k :=
      fun d v => Dict.get?_set_ne d v (Ne.symm hk')
    simp only [k1, k2]

theorem wrap_repeated (t : RType) : wrap "REPEATED" t = .list t .none (.bool true) {} := rfl

theorem wrap_nullable {t : RType} (hb : Bare t) (hn : t.isNullable = false)
    (hu : ∀ ts a, t ≠ .union ts a) :
    wrap "NULLABLE" t = .union [.null {}, t] { extra := [("default", .none)] } :=
  makeNullable_bare hb hn hu

theorem wrap_other {mode : String} (h1 : mode ≠ "REPEATED") (h2 : mode ≠ "NULLABLE") (t : RType) :
    wrap mode t = t := by
  simp [wrap, h1, h2]

theorem scalar_fresh {ft : String} {l p s : PyVal} {t : RType} (h : scalar ft l p s = .ok t) :
    Bare t ∧ t.isNullable = false ∧ (∀ ts a, t ≠ .union ts a) ∧ Describes ft l p s t := by
  have any : ∀ {xs : List String}, xs.contains ft = true → ft ∈ xs := by simp
  unfold scalar at h
  repeat' split at h
  all_goals first
    | cases h; done
    | (cases h
       refine ⟨⟨rfl, rfl, rfl⟩, rfl, (by intro _ _ h; cases h), ?_⟩
       rename_i hf
       first
         | (have hf := eq_of_beq hf
            subst hf
            describe)
         | (have hf := any hf
            simp only [List.mem_cons, List.not_mem_nil, or_false] at hf
            first
              | (rcases hf with hf | hf | hf | hf | hf | hf <;> (subst hf; describe); done)
              | (rcases hf with hf | hf <;> (subst hf; describe); done)))

theorem scalar_known {ft : String} {l p s : PyVal} :
    (∃ t, scalar ft l p s = .ok t) ↔ ft ∈ scalarClass.map (·.1) := by
  constructor
  · rintro ⟨t, h⟩
    exact List.mem_map.mpr ⟨_, (scalar_fresh h).2.2.2.known, rfl⟩
  · intro h
    simp only [scalarClass, List.map_cons, List.map_nil, List.mem_cons, List.not_mem_nil,
      or_false] at h
    rcases h with rfl | rfl | rfl | rfl | rfl | rfl | rfl | rfl | rfl | rfl | rfl | rfl | rfl |
      rfl | rfl | rfl | rfl | rfl | rfl | rfl <;> exact ⟨_, rfl⟩

theorem scalar_error {ft : String} {l p s : PyVal} {e : PyErr} (h : scalar ft l p s = .error e) :
    e = .valueError := by
  unfold scalar at h
  repeat' split at h
  all_goals cases h
  rfl

theorem isRecord_iff {ft : String} : ["RECORD", "STRUCT"].contains ft = true ↔ IsRecord ft := by
  simp [IsRecord]

theorem describes_withAttrs {ft : String} {l p s : PyVal} {u : RType} {x : Attrs}
    (h : Describes ft l p s u)
    (he : ∀ k, k ≠ "name" → k ≠ "default" → Dict.get? x.extra k = Dict.get? u.attrs.extra k)
    (hl : x.logical = u.attrs.logical) : Describes ft l p s (u.withAttrs x) := by
  have ht : (u.withAttrs x).typeName = u.typeName := by cases u <;> rfl
  have ha : (u.withAttrs x).attrs = x := Hive.attrs_withAttrs u x
  constructor
  · rw [ht]; exact h.known
  · intro hf
    obtain ⟨a, rfl⟩ := h.text hf
    exact ⟨x, rfl⟩
  · intro hf
    obtain ⟨a, rfl⟩ := h.bytes hf
    exact ⟨x, rfl⟩
  · intro h1 h2
    obtain ⟨a, rfl⟩ := h.int (ht ▸ h1) h2
    exact ⟨x, rfl⟩
  · intro h1
    obtain ⟨a, rfl⟩ := h.float (ht ▸ h1)
    exact ⟨x, rfl⟩
  · intro n hn
    rw [ha, hl, he _ (by decide) (by decide), he _ (by decide) (by decide)]
    exact h.decimal n hn
  · intro l' unit hn
    rw [ha, hl, he _ (by decide) (by decide)]
    exact h.time l' unit hn
  · intro h1 h2
    rw [ha, hl]
    exact h.plain h1 h2

/-- What the attributes of a field say. -/
theorem decorate_keeps {mode : String} {name description dflt : PyVal} {u t : RType}
    (hb : Bare u) (hn : u.isNullable = false) (hu : ∀ ts a, u ≠ .union ts a)
    (h : decorate mode name description dflt u = t) :
    Dict.get? t.attrs.extra "name" = (if name.truthy then some name else .none) ∧
    t.attrs.doc = (if description.truthy then description else .none) ∧
    Dict.get? t.attrs.extra "default" =
      (if dflt.truthy then some dflt else if mode = "NULLABLE" then some .none else .none) ∧
    (t.isNullable = true ↔ mode = "NULLABLE") ∧
    ∃ u', ValueType mode t u' ∧ (∃ x, u' = u.withAttrs x) ∧
      ∀ ft l p s, Describes ft l p s u → Describes ft l p s u' := by
  obtain ⟨x, rfl', h1, h2, h3, h4, h5, -⟩ := h ▸ decorate_annotated mode name description dflt u
  subst rfl'
  simp only [Hive.attrs_withAttrs]
  by_cases hr : mode = "REPEATED"
  · subst hr
    rw [wrap_repeated] at h1 h2 h3 ⊢
    refine ⟨h2, h1, h3, by simp [withAttrs, isNullable], u, ?_, ⟨u.attrs,
      (Relational.withAttrs_self u).symm⟩, fun _ _ _ _ h => h⟩
    simp only [ValueType, if_true]
    exact ⟨_, _, _, rfl⟩
  · by_cases hm : mode = "NULLABLE"
    · subst hm
      rw [wrap_nullable hb hn hu] at h1 h2 h3 ⊢
      refine ⟨h2, h1, h3, by simp [withAttrs, isNullable, isNull], u, ?_,
        ⟨u.attrs, (Relational.withAttrs_self u).symm⟩, fun _ _ _ _ h => h⟩
      rw [ValueType, if_neg hr, if_pos rfl]
      exact ⟨_, rfl⟩
    · rw [wrap_other hr hm] at h1 h2 h3 ⊢
      rw [hb.name] at h2
      rw [hb.doc] at h1
      rw [hb.default] at h3
      refine ⟨h2, h1, by simpa [hm] using h3, ?_, _, ?_, ⟨x, rfl⟩, ?_⟩
      · simp only [hm, iff_false]
        cases u <;> simp_all [withAttrs, isNullable]
      · rw [ValueType, if_neg hr, if_neg hm]
      · intro ft l p s hd
        rw [wrap_other hr hm] at h4 h5
        exact describes_withAttrs hd h4 h5

mutual
theorem fieldOf_keeps : ∀ (f : Field) (t : RType), fieldOf f = .ok t → Keeps f t
  | .mk ft mode name desc dflt l p s fields, t, h => by
    rw [fieldOf] at h
    rw [Keeps]
    split at h
    · rename_i hr
      obtain ⟨fs, h1, h⟩ := bind_ok h
      cases h
      obtain ⟨k1, k2, k3, k4, u, k5, ⟨x, rfl⟩, -⟩ := decorate_keeps (u := .struct fs {})
        (name := name) (description := desc) (dflt := dflt) (mode := mode)
        ⟨rfl, rfl, rfl⟩ rfl (by intro _ _ h; cases h) rfl
      exact ⟨k1, k2, k3, k4, _, k5, .inl ⟨fs, x, rfl, isRecord_iff.mp hr, fieldsOf_keeps _ _ h1⟩⟩
    · obtain ⟨v, h1, h⟩ := bind_ok h
      cases h
      obtain ⟨g1, g2, g3, g4⟩ := scalar_fresh h1
      obtain ⟨k1, k2, k3, k4, u, k5, ⟨x, rfl⟩, k6⟩ := decorate_keeps
        (name := name) (description := desc) (dflt := dflt) (mode := mode) g1 g2 g3 rfl
      exact ⟨k1, k2, k3, k4, _, k5, .inr (k6 _ _ _ _ g4)⟩
theorem fieldsOf_keeps : ∀ (fs : List Field) (ts : List RType), fieldsOf fs = .ok ts → KeepsAll fs ts
  | [], ts, h => by
    rw [fieldsOf] at h
    cases h
    rw [KeepsAll]
  | f :: fs, ts, h => by
    rw [fieldsOf] at h
    obtain ⟨t, h1, h⟩ := bind_ok h
    obtain ⟨ts', h2, h⟩ := bind_ok h
    cases h
    rw [KeepsAll]
    exact ⟨t, ts', rfl, fieldOf_keeps f t h1, fieldsOf_keeps fs ts' h2⟩
end

mutual
theorem fieldOf_known : ∀ f : Field, (∃ t, fieldOf f = .ok t) ↔ Known f
  | .mk ft mode name desc dflt l p s fields => by
    rw [fieldOf, Known, ← fieldsOf_known fields, ← isRecord_iff]
    split
    · rename_i hr
      have hs : ft ∉ scalarClass.map (·.1) := by
        rcases isRecord_iff.mp hr with rfl | rfl <;> decide
      simp only [hr, hs, true_and, or_false]
      exact Hive.bind_ok_iff
    · rename_i hr
      simp only [hr, Bool.false_eq_true, false_and, false_or, ← scalar_known (l := l) (p := p) (s := s)]
      exact Hive.bind_ok_iff
theorem fieldsOf_known : ∀ fs : List Field, (∃ ts, fieldsOf fs = .ok ts) ↔ KnownAll fs
  | [] => by
    rw [fieldsOf, KnownAll]
    exact ⟨fun _ => trivial, fun _ => ⟨_, rfl⟩⟩
  | f :: fs => by
    rw [fieldsOf, KnownAll, ← fieldOf_known f, ← fieldsOf_known fs]
    constructor
    · rintro ⟨ts, h⟩
      obtain ⟨t, h1, h⟩ := bind_ok h
      obtain ⟨ts', h2, h⟩ := bind_ok h
      exact ⟨⟨t, h1⟩, ⟨ts', h2⟩⟩
    · rintro ⟨⟨t, h1⟩, ⟨ts, h2⟩⟩
      exact ⟨t :: ts, by rw [h1, h2]; rfl⟩
end

mutual
theorem fieldOf_error : ∀ (f : Field) (e : PyErr), fieldOf f = .error e → e = .valueError
  | .mk ft mode name desc dflt l p s fields, e, h => by
    rw [fieldOf] at h
    split at h
    · cases hf : fieldsOf fields with
      | error e' => rw [hf] at h; cases h; exact fieldsOf_error _ _ hf
      | ok fs => rw [hf] at h; cases h
    · cases hf : scalar ft l p s with
      | error e' => rw [hf] at h; cases h; exact scalar_error hf
      | ok fs => rw [hf] at h; cases h
theorem fieldsOf_error : ∀ (fs : List Field) (e : PyErr), fieldsOf fs = .error e → e = .valueError
  | [], e, h => by rw [fieldsOf] at h; cases h
  | f :: fs, e, h => by
    rw [fieldsOf] at h
    cases hf : fieldOf f with
    | error e' => rw [hf] at h; cases h; exact fieldOf_error _ _ hf
    | ok t =>
      cases hs : fieldsOf fs with
      | error e' => rw [hf, hs] at h; cases h; exact fieldsOf_error _ _ hs
      | ok ts => rw [hf, hs] at h; cases h
end

theorem checkSize_between {v w : PyVal} (h : NumBetween v 1 (2 ^ 63 - 1)) :
    checkSize v w = .ok () := by
  cases v with
  | int n =>
    exact Relational.checkSize_good ⟨n, rfl, h.1, by have := h.2; omega⟩ w
  | bool b => cases b <;> simp [NumBetween] at h; simp [checkSize, PyVal.isNone]; rfl
  | float m e =>
    obtain ⟨h1, h2⟩ := h
    simp only [checkSize, PyVal.isNone, Bool.and_false, Bool.false_eq_true, if_false, checkRange,
      PyVal.ltInt, PyVal.gtInt, bind, Except.bind]
    rw [if_neg (by simp; omega), if_neg (by simp at h2 ⊢; omega)]
    rfl
  | _ => exact h.elim

theorem scalar_valid {ft : String} {l p s : PyVal} {t : RType} (h : scalar ft l p s = .ok t)
    (hl : l = .none ∨ NumBetween l 1 (2 ^ 63 - 1)) : AllValid t := by
  have hc : checkSize l (.bool true) = .ok () := by
    rcases hl with rfl | hl
    · rfl
    · exact checkSize_between hl
  unfold scalar at h
  repeat' split at h
  all_goals first
    | cases h; done
    | (cases h; exact Relational.allValid_leaf rfl (by first | exact hc | rfl))

theorem decorate_valid {mode : String} {name description dflt : PyVal} {t : RType}
    (h : AllValid t) : AllValid (decorate mode name description dflt t) := by
  obtain ⟨x, e, -⟩ := decorate_annotated mode name description dflt t
  rw [e, Relational.allValid_withAttrs]
  simp only [wrap]
  repeat' split
  · exact Relational.allValid_makeNullable (Relational.allValid_list h)
  · exact Relational.allValid_makeNullable h
  · exact Relational.allValid_list h
  · exact h

mutual
theorem fieldOf_valid : ∀ (f : Field) (t : RType), fieldOf f = .ok t → GoodLengths f → AllValid t
  | .mk ft mode name desc dflt l p s fields, t, h, hg => by
    rw [GoodLengths] at hg
    rw [fieldOf] at h
    split at h
    · obtain ⟨fs, h1, h⟩ := bind_ok h
      cases h
      exact decorate_valid (Relational.allValid_struct (fieldsOf_valid _ _ h1 hg.2))
    · obtain ⟨v, h1, h⟩ := bind_ok h
      cases h
      exact decorate_valid (scalar_valid h1 hg.1)
theorem fieldsOf_valid : ∀ (fs : List Field) (ts : List RType), fieldsOf fs = .ok ts →
    GoodLengthsAll fs → ∀ t ∈ ts, AllValid t
  | [], ts, h, _, t, ht => by
    rw [fieldsOf] at h
    cases h
    cases ht
  | f :: fs, ts, h, hg, t, ht => by
    rw [GoodLengthsAll] at hg
    rw [fieldsOf] at h
    obtain ⟨t', h1, h⟩ := bind_ok h
    obtain ⟨ts', h2, h⟩ := bind_ok h
    cases h
    rcases List.mem_cons.mp ht with rfl | ht
    · exact fieldOf_valid f _ h1 hg.1
    · exact fieldsOf_valid fs ts' h2 hg.2 t ht
end

end BigQuery

/-! ## C56 -/

/-- **C56.**  Every field of a converted BigQuery schema keeps its name, description, default and
mode, and records are kept field by field at every depth. -/
theorem C56_fields_kept (fields : List BigQuery.Field) (t : RType)
    (h : BigQuery.toRecap fields = .ok t) : ∃ fs, t = .struct fs {} ∧ KeepsAll fields fs := by
  unfold BigQuery.toRecap at h
  obtain ⟨fs, h1, h⟩ := Relational.bind_ok h
  cases h
  exact ⟨fs, rfl, fieldsOf_keeps _ _ h1⟩

example : ∃ t, BigQuery.toRecap ordersFields = .ok t := ⟨_, orders_ok⟩

/-! ## C84: which schemas can be converted -/

/-- **C84.**  Exactly the schemas whose type names are all known, at every depth, can be
converted. -/
theorem C84_known_schemas (fields : List BigQuery.Field) :
    (∃ t, BigQuery.toRecap fields = .ok t) ↔ KnownAll fields := by
  rw [← fieldsOf_known]
  exact Hive.bind_ok_iff

/-- **C84.**  The other schemas raise a `ValueError`. -/
theorem C84_only_value_error (fields : List BigQuery.Field) (e : PyErr)
    (h : BigQuery.toRecap fields = .error e) : e = .valueError := by
  unfold BigQuery.toRecap at h
  cases hf : fieldsOf fields with
  | error e' => rw [hf] at h; cases h; exact fieldsOf_error _ _ hf
  | ok fs => rw [hf] at h; cases h

example : BigQuery.toRecap [.mk "RECORD" "NULLABLE" (.str "r") .none .none .none .none .none
    [.mk "GEOGRAPHY" "NULLABLE" (.str "g") .none .none .none .none .none []]] =
      .error .valueError := by decide +kernel

/-! ## C83: validity -/

/-- **C83 for BigQuery.**  A converted schema passes `validate()` at every depth if its lengths
lie in the documented range. -/
theorem C83_bigquery_valid (fields : List BigQuery.Field) (t : RType)
    (h : BigQuery.toRecap fields = .ok t) (hg : GoodLengthsAll fields) : AllValid t := by
  unfold BigQuery.toRecap at h
  obtain ⟨fs, h1, h⟩ := Relational.bind_ok h
  cases h
  exact Relational.allValid_struct (fieldsOf_valid _ _ h1 hg)

example : GoodLengthsAll ordersFields := by
  simp [ordersFields, GoodLengthsAll, GoodLengths, NumBetween]

/-! ## C78 for BigQuery -/

/-- **C78 does not hold of BigQuery**: a `TIME` field becomes a signed 32 bit count of
microseconds, which overflows after about 36 minutes. -/
theorem C78_bigquery_refuted :
    ∃ t, BigQuery.scalar "TIME" .none .none .none = .ok t ∧
      t.attrs.logical = .str "build.recap.Time" ∧ ¬HoldsTimeOfDay t := by
  refine ⟨_, rfl, rfl, ?_⟩
  rintro ⟨bits, k, x, u, h1, h2, h3, h4⟩
  simp only [RType.int.injEq, PyVal.int.injEq] at h1
  obtain ⟨hb, -, rfl⟩ := h1
  cases h2
  have hk : k = 6 := by
    simp only [decimalPlaces, Option.some.injEq] at h3
    omega
  have hb' : bits = 32 := by omega
  subst hk hb'
  revert h4
  decide

end Recap
