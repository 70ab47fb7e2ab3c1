import Verif.CommandsRecapHive
import Verif.JsonSchemaWriteThms
import Verif.Sealed

/-! # Tables as JSON Schema: helper lemmas for C116 -/

set_option autoImplicit false

namespace Recap.Json

open RType Recap.Spec Recap.Json.Spec
open Recap.Hive (everywhere_iff everywhere_leaf children_withAttrs attrs_withAttrs)

/-- A type object that can be written on its own. -/
structure Writable (t : RType) : Prop where
  proxy : t.isProxy = false
  alias : t.attrs.alias = .none
  nulls : ∀ ts a, t = .union ts a → ∀ m ∈ ts, m.isNull = true → m = .null {}
  names : ∀ fs a, t = .struct fs a → ∀ f ∈ fs, ∃ n, n ≠ "" ∧ nameOf f = some (.str n)

theorem convertAll_total {f : RType → Except PyErr Dict} : ∀ {ts : List RType}, (∀ t ∈ ts, ∃ d, f t = .ok d) →
    ∃ ds, convertAll f ts = .ok ds
  | [], _ => ⟨[], rfl⟩
  | t :: ts, h => by
    obtain ⟨d, hd⟩ := h t (by simp)
    obtain ⟨ds, hds⟩ := convertAll_total (fun u hu => h u (List.mem_cons_of_mem _ hu))
    exact ⟨_, by simp only [convertAll, hd, hds, bind, Except.bind, pure, Except.pure]; rfl⟩

theorem convertFields_total {f : RType → Except PyErr Dict} : ∀ {ts : List RType} {ps : Dict} {rs : List PyVal},
    (∀ t ∈ ts, ∃ n, n ≠ "" ∧ nameOf t = some (.str n)) → (∀ t ∈ ts, ∃ d, f t = .ok d) →
    ∃ x, convertFields f ts ps rs = .ok x
  | [], ps, rs, _, _ => ⟨(ps, rs), rfl⟩
  | t :: ts, ps, rs, hn, h => by
    obtain ⟨d, hd⟩ := h t (by simp)
    obtain ⟨n, hne, hn'⟩ := hn t (by simp)
    unfold nameOf at hn'
    obtain ⟨x, hx⟩ := convertFields_total (f := f) (ts := ts) (ps := Dict.set ps n (.dict d))
      (rs := if isOptionalField t then rs else rs ++ [.str n])
      (fun u hu => hn u (List.mem_cons_of_mem _ hu)) (fun u hu => h u (List.mem_cons_of_mem _ hu))
    exact ⟨x, by simp only [convertFields, hn', if_neg hne, hd, bind, Except.bind, hx]⟩

theorem isNull_of_plain {m : RType} (h : pyEq m (.null {}) = true) : m.isNull = true := Hive.pyEq_null h

theorem optional_other {ts : List RType} {x : Dict} (hn : ∀ m ∈ ts, m.isNull = true → m = .null {})
    (h : isOptional ts x = true) : ∃ u, u ∈ ts ∧ ts.filter (fun t => !t.isNull) = [u] := by
  have e : ts.filter (fun t => !t.isNull) = ts.filter (fun t => !pyEq t (.null {})) := by
    apply List.filter_congr
    intro m hm
    cases h' : m.isNull with
    | true => rw [hn m hm h']; rfl
    | false =>
      cases h'' : pyEq m (.null {}) with
      | true => rw [isNull_of_plain h''] at h'; cases h'
      | false => rfl
  simp only [isOptional, Bool.and_eq_true, beq_iff_eq] at h
  have hl := h.2
  rw [← e] at hl
  obtain ⟨u, hu⟩ := List.length_eq_one_iff.mp hl
  exact ⟨u, (List.mem_filter.mp (by rw [hu]; simp : u ∈ ts.filter (fun t => !t.isNull))).1, hu⟩

theorem ownAlias_plain {t : RType} (h : t.attrs.alias = .none) : ownAlias t = .none := by
  cases t <;> simp only [ownAlias, RType.attrs] at h ⊢ <;> rw [h]

theorem convertF_total {live : Registry} (l : Nat) : ∀ (n : Nat) (b : Bool) (t : RType),
    weight l t ≤ n → Everywhere Writable t → ∃ d, convertF live n b t = .ok d := by
  intro n
  induction n with
  | zero => intro b t hw; have := weight_pos l t; omega
  | succ n ih =>
    intro b t hw h
    obtain ⟨hp, hc⟩ := everywhere_iff.mp h
    have ho : (if b then ownAlias t else .none) = .none := by
      cases b
      · rfl
      · exact ownAlias_plain hp.alias
    cases t with
    | union ts a =>
      simp only [weight] at hw
      have hm : ∀ t ∈ ts, ∃ d, convertF live n true t = .ok d := fun t ht =>
        ih true t (by have := weight_mem (l := l) t ht; omega) (hc t ht)
      cases hopt : isOptional ts a.extra with
      | true =>
        obtain ⟨u, hu, hf⟩ := optional_other (hp.nulls ts a rfl) hopt
        obtain ⟨d, hd⟩ := hm u hu
        exact ⟨_, by simp only [convertF, ho, hopt, if_true, hf, hd, bind, Except.bind, pure, Except.pure]; rfl⟩
      | false =>
        obtain ⟨d, hd⟩ := convertAll_total hm
        exact ⟨_, by simp only [convertF, ho, hopt, Bool.false_eq_true, if_false, hd, bind, Except.bind, pure, Except.pure]; rfl⟩
    | struct fs a =>
      simp only [weight] at hw
      have hm : ∀ t ∈ fs, ∃ d, convertF live n true t = .ok d := fun t ht =>
        ih true t (by have := weight_mem (l := l) t ht; omega) (hc t ht)
      obtain ⟨⟨ps, rs⟩, hx⟩ := convertFields_total (ps := []) (rs := []) (hp.names fs a rfl) hm
      exact ⟨_, by simp only [convertF, ho, hx, bind, Except.bind, pure, Except.pure]; rfl⟩
    | list t l' v a =>
      simp only [weight] at hw
      obtain ⟨d, hd⟩ := ih true t (by omega) (hc t (by simp [children]))
      exact ⟨_, by simp only [convertF, ho, hd, bind, Except.bind, pure, Except.pure]; rfl⟩
    | map k v a =>
      simp only [weight] at hw
      obtain ⟨d, hd⟩ := ih true v (by omega) (hc v (by simp [children]))
      exact ⟨_, by simp only [convertF, ho, hd, bind, Except.bind, pure, Except.pure]; rfl⟩
    | proxy r a => cases hp.proxy
    | _ => exact ⟨_, by simp only [convertF, ho]; rfl⟩

theorem ownDefs_plain {f : Bool → RType → Except PyErr Dict} {t : RType} (h : t.attrs.alias = .none) :
    ownDefs f t = .ok [] := by
  unfold ownDefs
  rw [h]
  rfl

mutual
theorem aliasDefs_plain {f : Bool → RType → Except PyErr Dict} : ∀ t : RType, Everywhere Writable t →
    aliasDefs f t = .ok []
  | .struct fs a, h => by
    obtain ⟨hp, hc⟩ := everywhere_iff.mp h
    simp only [aliasDefs, ownDefs_plain hp.alias, aliasDefsAll_plain fs hc, bind, Except.bind]
  | .union fs a, h => by
    obtain ⟨hp, hc⟩ := everywhere_iff.mp h
    simp only [aliasDefs, ownDefs_plain hp.alias, aliasDefsAll_plain fs hc, bind, Except.bind]
  | .list t l v a, h => by
    obtain ⟨hp, hc⟩ := everywhere_iff.mp h
    simp only [aliasDefs, ownDefs_plain hp.alias, aliasDefs_plain t (hc t (by simp [children])), bind, Except.bind, pure,
      Except.pure]
    rfl
  | .map k v a, h => by
    obtain ⟨hp, hc⟩ := everywhere_iff.mp h
    simp only [aliasDefs, ownDefs_plain hp.alias, aliasDefs_plain v (hc v (by simp [children])), bind, Except.bind, pure,
      Except.pure]
    rfl
  | .null a, h => by simp only [aliasDefs]; exact ownDefs_plain (everywhere_iff.mp h).1.alias
  | .bool a, h => by simp only [aliasDefs]; exact ownDefs_plain (everywhere_iff.mp h).1.alias
  | .int b s a, h => by simp only [aliasDefs]; exact ownDefs_plain (everywhere_iff.mp h).1.alias
  | .float b a, h => by simp only [aliasDefs]; exact ownDefs_plain (everywhere_iff.mp h).1.alias
  | .string b s a, h => by simp only [aliasDefs]; exact ownDefs_plain (everywhere_iff.mp h).1.alias
  | .bytes b s a, h => by simp only [aliasDefs]; exact ownDefs_plain (everywhere_iff.mp h).1.alias
  | .enum s a, h => by simp only [aliasDefs]; exact ownDefs_plain (everywhere_iff.mp h).1.alias
  | .proxy r a, h => by simp only [aliasDefs]; exact ownDefs_plain (everywhere_iff.mp h).1.alias
theorem aliasDefsAll_plain {f : Bool → RType → Except PyErr Dict} : ∀ ts : List RType,
    (∀ t ∈ ts, Everywhere Writable t) → aliasDefsAll f ts [] = .ok []
  | [], _ => rfl
  | t :: ts, h => by
    simp only [aliasDefsAll, aliasDefs_plain t (h t (by simp)), bind, Except.bind]
    exact aliasDefsAll_plain ts (fun u hu => h u (List.mem_cons_of_mem _ hu))
end

/-- A plain type is written. -/
theorem fromRecap_plain {live : Registry} {t : RType} (h : Everywhere Writable t) : ∃ d, fromRecap live t = .ok d := by
  obtain ⟨d, hd⟩ := convertF_total (live := live) (weightReg 0 live) _ true t (Nat.le_refl _) h
  exact ⟨d, by simp only [fromRecap, hd, aliasDefs_plain t h, bind, Except.bind, pure, Except.pure]; rfl⟩

/-! ## Writable types -/

theorem plain_withAttrs {t : RType} {x : Attrs} (h : Everywhere Writable t) (hx : x.alias = .none) :
    Everywhere Writable (t.withAttrs x) := by
  obtain ⟨hp, hc⟩ := everywhere_iff.mp h
  refine everywhere_iff.mpr ⟨⟨by rw [proxy_withAttrs]; exact hp.proxy, by rw [attrs_withAttrs]; exact hx, ?_, ?_⟩,
    by rw [children_withAttrs]; exact hc⟩
  · intro ts a e
    cases t <;> cases e
    exact hp.nulls _ _ rfl
  · intro ts a e
    cases t <;> cases e
    exact hp.names _ _ rfl

theorem plain_leaf {t : RType} (hc : children t = []) (ha : t.attrs.alias = .none) (hp : t.isProxy = false) :
    Everywhere Writable t := by
  refine everywhere_leaf ⟨hp, ha, ?_, ?_⟩ hc
  · rintro ts a rfl m hm; simp only [children] at hc; subst hc; cases hm
  · rintro ts a rfl m hm; simp only [children] at hc; subst hc; cases hm

theorem plain_list {t : RType} {l v : PyVal} {a : Attrs} (h : Everywhere Writable t) (ha : a.alias = .none) :
    Everywhere Writable (.list t l v a) :=
  everywhere_iff.mpr ⟨⟨rfl, ha, fun _ _ h => (nomatch h), fun _ _ h => (nomatch h)⟩, by simpa [children] using h⟩

theorem plain_union {ts : List RType} {a : Attrs} (h : ∀ t ∈ ts, Everywhere Writable t) (ha : a.alias = .none)
    (hn : ∀ t ∈ ts, t.isNull = false) : Everywhere Writable (.union (.null {} :: ts) a) := by
  refine everywhere_iff.mpr ⟨⟨rfl, ha, ?_, fun _ _ h => (nomatch h)⟩, ?_⟩
  · intro us b e m hm h'
    cases e
    rcases List.mem_cons.mp hm with rfl | hm
    · rfl
    · rw [hn m hm] at h'; cases h'
  · intro m hm
    rcases List.mem_cons.mp hm with rfl | hm
    · exact plain_leaf rfl rfl rfl
    · exact h m hm

theorem plain_struct {fs : List RType} {a : Attrs} (h : ∀ t ∈ fs, Everywhere Writable t) (ha : a.alias = .none)
    (hn : ∀ f ∈ fs, ∃ n, n ≠ "" ∧ nameOf f = some (.str n)) : Everywhere Writable (.struct fs a) :=
  everywhere_iff.mpr ⟨⟨rfl, ha, fun _ _ h => (nomatch h), fun gs b e => by cases e; exact hn⟩, h⟩

/-! ## Required columns -/

theorem mem_requiredNames {fs : List RType} {n : String} :
    PyVal.str n ∈ requiredNames fs ↔ ∃ f ∈ fs, nameOf f = some (.str n) ∧ isOptionalField f = false := by
  have e : ∀ f : RType, (match f with
      | .union ts a => !isOptional ts a.extra
      | _ => true) = true ↔ isOptionalField f = false := by
    intro f; cases f <;> simp [isOptionalField]
  simp only [requiredNames, List.mem_filterMap, List.mem_filter]
  constructor
  · rintro ⟨f, ⟨h1, h2⟩, h3⟩; exact ⟨f, h1, h3, (e f).mp h2⟩
  · rintro ⟨f, h1, h3, h2⟩; exact ⟨f, ⟨h1, (e f).mpr h2⟩, h3⟩

theorem listed_iff {fs : List RType} {o : Dict} (h : ObjectOf fs o) (n : String) :
    Listed o n ↔ ∃ f ∈ fs, nameOf f = some (.str n) ∧ isOptionalField f = false := by
  rw [← mem_requiredNames, Listed, h.required]
  by_cases e : requiredNames fs = []
  · rw [if_pos e, e]; simp
  · rw [if_neg e]; simp

theorem optional_pair {u : RType} {a : Attrs} (hu : u.isNull = false) (hd : Dict.has a.extra "default" = true) :
    isOptionalField (.union [.null {}, u] a) = true := by
  have hp : pyEq u (.null {}) = false := by
    cases h : pyEq u (.null {}) with
    | true => rw [isNull_of_plain h] at hu; cases hu
    | false => rfl
  have hq : pyEq (.null {}) (.null {}) = true := rfl
  simp [isOptionalField, isOptional, hp, hq, hd]

end Recap.Json

namespace Recap.Relational

open RType Spec
open Recap.Json
open Recap.Hive (everywhere_iff)
open Recap.Json.Spec (nameOf)

/-- The types of columns that are nullable on their own. -/
theorem parse_nonNull {cm : CaseMap} {d : Dialect} {c : Dict} {s s' : Registry} {b : RType}
    (h1 : d.parse cm c s = (.ok b, s')) (hb : b.isNullable = true) :
    (d = .sqlite ∧ ∃ v, Dict.get? c "TYPE" = some (.str v) ∧ HasAffinity (cm.upper v) .numeric) ∨
      (∃ cfg, d = .postgresql cfg ∧ cfg.enforce = true ∧ DataType cm c "array" ∧
        (Dict.get? c "ATTNDIMS" = some (.int 0) ∨ Dict.get? c "ATTNDIMS" = some (.bool false))) := by
  cases d with
  | mysql =>
    simp only [Dialect.parse, stateless, Prod.mk.injEq] at h1
    rw [(mysqlParse_simple _ _ _ h1.1).nonNull] at hb
    cases hb
  | snowflake =>
    simp only [Dialect.parse, stateless, Prod.mk.injEq] at h1
    rw [(snowflakeParse_simple _ _ _ h1.1).nonNull] at hb
    cases hb
  | sqlite =>
    simp only [Dialect.parse, stateless, Prod.mk.injEq] at h1
    obtain ⟨v, r, af, octet, precision, hv, hr, haf, -, -, ht⟩ := sqliteParse_ok h1.1
    left
    refine ⟨rfl, ?_⟩
    cases af
    · subst ht; cases hb
    · rcases ht with ⟨-, -, rfl⟩ | ⟨-, rfl⟩ <;> cases hb
    · subst ht; cases hb
    · subst ht; cases hb
    · rcases declared_of_orElse hr with ⟨-, rfl⟩ | ⟨-, rfl⟩
      · exact ⟨r, hv, haf⟩
      · rw [cm.upper_empty] at haf
        cases haf
        rename_i h _
        exact absurd (Or.inr rfl) h
  | postgresql cfg =>
    right
    refine ⟨cfg, rfl, ?_⟩
    obtain ⟨p, hp, ⟨-, -, h⟩ | ⟨ha, v, -, hv, ⟨he, -, h⟩ | ⟨-, s, -, rfl, -⟩⟩⟩ := pgParse_ok h1
    · rw [(pgScalar_simple _ _ _ _ _ h).nonNull] at hb
      cases hb
    · obtain ⟨-, hdt, -, -, -, hd⟩ := pgProps_ok hp
      rw [ha] at hdt
      refine ⟨he, hdt, ?_⟩
      obtain ⟨k, rfl, hk⟩ := createNDim_ok h
      cases k with
      | succ k => cases hb
      | zero =>
        rcases hk with hk | ⟨-, hk⟩ | ⟨hk, -⟩
        · exact .inl (by rw [hd, hk]; rfl)
        · cases hk
        · exact .inr (by rw [hd, hk])
    · cases hb

theorem _root_.Recap.Leafy.plain {t : RType} (h : Leafy t) : Everywhere Writable t := plain_leaf h.leaf h.alias h.proxy

theorem Simple.notNull {t : RType} (h : Simple t) : t.isNull = false := by
  have := h.nonNull
  cases t <;> simp_all [RType.isNullable, isNull]

theorem plain_nDim {v : RType} (hv : Leafy v) (hs : Simple v) : ∀ k, Everywhere Writable (nDimList v k)
  | 0 => plain_union (fun t ht => by rw [List.mem_singleton.mp ht]; exact hv.plain) rfl
      (fun t ht => by rw [List.mem_singleton.mp ht]; exact hs.notNull)
  | k + 1 => plain_list (plain_nDim hv hs k) rfl

theorem BaseShape.plain {b : RType} (h : BaseShape b) : Everywhere Writable b := by
  cases h with
  | leafy h1 h2 => exact h1.plain
  | numeric =>
    refine plain_union ?_ rfl (by simp [isNull])
    simp only [List.mem_cons, List.not_mem_nil, or_false, forall_eq_or_imp, forall_eq]
    exact ⟨plain_leaf rfl rfl rfl, plain_leaf rfl rfl rfl, plain_leaf rfl rfl rfl, plain_leaf rfl rfl rfl⟩
  | array k h1 h2 => exact plain_nDim h1 h2 k

theorem plain_setExtra {t : RType} {k : String} {v : PyVal} (h : Everywhere Writable t) : Everywhere Writable (setExtra t k v) :=
  plain_withAttrs h (everywhere_iff.mp h).1.alias

theorem BaseShape.bare {b : RType} (h : BaseShape b) (hn : b.isNullable = false) :
    Bare b ∧ (∀ ts a, b ≠ .union ts a) := by
  cases h with
  | leafy h1 h2 => exact ⟨h2.toBare, h1.union⟩
  | numeric => cases hn
  | array k h1 h2 =>
    cases k with
    | zero => cases hn
    | succ k => exact ⟨bare_nDim _ _, fun _ _ h => nomatch h⟩

theorem isNull_of_nonNull {b : RType} (hn : b.isNullable = false) : b.isNull = false := by
  cases b <;> simp_all [RType.isNullable, isNull]

theorem isOptionalField_setExtra {t : RType} {k : String} {v : PyVal} (h : ∀ ts a, t ≠ .union ts a) :
    isOptionalField (setExtra t k v) = false := by
  cases t <;> first | rfl | exact absurd rfl (h _ _)

/-- The field for a column whose type is not nullable on its own. -/
theorem field_plain {cm : CaseMap} {c : Dict} {b f : RType} (hb : BaseShape b) (hn : b.isNullable = false)
    (h : fieldOf cm c b = .ok f) :
    Everywhere Writable f ∧ nameOf f = Dict.get? c "COLUMN_NAME" ∧
      (isOptionalField f = true ↔ DeclaredNullable cm c) := by
  obtain ⟨n, dflt, name, h3, hd, hm, rfl⟩ := fieldOf_ok h
  obtain ⟨hbare, hu⟩ := hb.bare hn
  have hp := hb.plain
  have hname : ∀ t : RType, nameOf (setExtra t "name" name) = some name := by
    intro t
    unfold nameOf
    rw [attrs_setExtra]
    exact Dict.get?_set_self _ _ _
  rw [hname, hm]
  by_cases hy : (cm.upper n == "YES") = true
  · rw [if_pos hy, if_pos (by rw [hy]; simp), makeNullable_bare hbare hn hu]
    have hpl : Everywhere Writable (.union [.null {}, b] { extra := [("default", .none)] }) :=
      plain_union (by simpa using hp) rfl (by simpa using isNull_of_nonNull hn)
    refine ⟨plain_setExtra (plain_setExtra hpl), rfl, ?_⟩
    refine iff_of_true ?_ ⟨n, h3, by simpa using hy⟩
    exact optional_pair (isNull_of_nonNull hn) rfl
  · rw [if_neg hy]
    have hnd : ¬ DeclaredNullable cm c := by
      rintro ⟨n', h3', h⟩
      rw [h3] at h3'
      cases h3'
      exact hy (by simpa using h)
    split
    · refine ⟨plain_setExtra (plain_setExtra hp), rfl, iff_of_false ?_ hnd⟩
      rw [isOptionalField_setExtra]
      · simp
      · intro ts a e
        cases b <;> first | exact hu _ _ rfl | cases e
    · refine ⟨plain_setExtra hp, rfl, iff_of_false ?_ hnd⟩
      rw [isOptionalField_setExtra hu]
      simp

end Recap.Relational
