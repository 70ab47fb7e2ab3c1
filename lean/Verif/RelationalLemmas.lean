import Verif.Relational
import Verif.RelationalSpec
import Verif.CompactAlias

/-! Helper lemmas about the relational converters. -/

set_option autoImplicit false

namespace Recap.Relational

open RType Spec

theorem item_ok {col : Dict} {k : String} {v : PyVal} (h : item col k = .ok v) :
    Dict.get? col k = some v := by
  unfold item at h
  split at h
  · cases h; assumption
  · cases h

theorem strMethod_ok {f : String → String} {v : PyVal} {s : String} (h : strMethod f v = .ok s) :
    ∃ r, v = .str r ∧ f r = s := by
  cases v <;> simp_all [strMethod]

theorem bind_ok {α β : Type} {x : Except PyErr α} {f : α → Except PyErr β} {b : β}
    (h : (x >>= f) = .ok b) : ∃ a, x = .ok a ∧ f a = .ok b := by
  cases x with
  | error e => cases h
  | ok a => exact ⟨a, rfl, h⟩

theorem map_ok {α β : Type} {x : Except PyErr α} {f : α → β} {b : β}
    (h : x.map f = .ok b) : ∃ a, x = .ok a ∧ f a = b := by
  cases x with
  | error e => cases h
  | ok a => exact ⟨a, rfl, by simpa [Except.map] using h⟩

/-- Every result of a computation has a property. -/
def Yields {α : Type} (P : α → Prop) (x : Except PyErr α) : Prop := ∀ a, x = .ok a → P a

theorem Yields.ite {α : Type} {P : α → Prop} {c : Prop} [Decidable c] {x y : Except PyErr α}
    (hx : c → Yields P x) (hy : ¬c → Yields P y) : Yields P (if c then x else y) := by
  split
  · exact hx (by assumption)
  · exact hy (by assumption)

theorem Yields.ok {α : Type} {P : α → Prop} {a : α} (h : P a) : Yields P (.ok a) := by
  intro b hb; cases hb; exact h

theorem Yields.pure {α : Type} {P : α → Prop} {a : α} (h : P a) :
    Yields P (Pure.pure a : Except PyErr α) := Yields.ok h

theorem Yields.error {α : Type} {P : α → Prop} {e : PyErr} : Yields P (.error e) := by
  intro b hb; cases hb

theorem Yields.bind {α β : Type} {P : β → Prop} {x : Except PyErr α} {f : α → Except PyErr β}
    (h : ∀ a, x = .ok a → Yields P (f a)) : Yields P (x >>= f) := by
  intro b hb
  obtain ⟨a, ha, hb⟩ := bind_ok hb
  exact h a ha b hb

theorem Yields.map {α β : Type} {P : β → Prop} {x : Except PyErr α} {f : α → β}
    (h : ∀ a, x = .ok a → P (f a)) : Yields P (x.map f) := by
  intro b hb
  obtain ⟨a, ha, rfl⟩ := map_ok hb
  exact h a ha

/-- Follow all branches of a computation. -/
macro "branches" : tactic => `(tactic| repeat' with_reducible first
  | refine Yields.ite (fun _ => ?_) (fun _ => ?_)
  | apply Yields.ok
  | apply Yields.pure
  | apply Yields.error
  | refine Yields.bind (fun _ _ => ?_)
  | refine Yields.map (fun _ _ => ?_))

/-- Everything that a successful `fieldOf` says. -/
theorem fieldOf_ok {cm : CaseMap} {col : Dict} {base f : RType}
    (h : fieldOf cm col base = .ok f) :
    ∃ n dflt name, Dict.get? col "IS_NULLABLE" = some (.str n) ∧
      Dict.get? col "COLUMN_DEFAULT" = some dflt ∧ Dict.get? col "COLUMN_NAME" = some name ∧
      f = setExtra
        (if !dflt.isNone || cm.upper n == "YES" then
          setExtra (if cm.upper n == "YES" then makeNullable base else base) "default" dflt
         else (if cm.upper n == "YES" then makeNullable base else base)) "name" name := by
  unfold fieldOf at h
  obtain ⟨v, h1, h⟩ := bind_ok h
  obtain ⟨u, h2, h⟩ := bind_ok h
  obtain ⟨n, rfl, rfl⟩ := strMethod_ok h2
  obtain ⟨dflt, h3, h⟩ := bind_ok h
  obtain ⟨name, h4, h⟩ := bind_ok h
  simp only [pure, Except.pure] at h
  exact ⟨n, dflt, name, item_ok h1, item_ok h3, item_ok h4, by injection h with h; exact h.symm⟩

theorem fieldsOf_cons {σ : Type} {cm : CaseMap} {parse : Parser σ} {c : Dict} {cs : List Dict}
    {st st' : σ} {fs : List RType} (h : fieldsOf cm parse (c :: cs) st = (.ok fs, st')) :
    ∃ b st₁ f fs', parse c st = (.ok b, st₁) ∧ fieldOf cm c b = .ok f ∧
      fieldsOf cm parse cs st₁ = (.ok fs', st') ∧ fs = f :: fs' := by
  unfold fieldsOf at h
  split at h
  · cases h
  · rename_i b st₁ h1
    split at h
    · cases h
    · rename_i f h2
      split at h
      · cases h
      · rename_i fs' st₂ h3
        cases h
        exact ⟨b, st₁, f, fs', h1, h2, h3, rfl⟩

/-- The fields of a converted table, one by one. -/
theorem fieldsOf_index {σ : Type} {cm : CaseMap} {parse : Parser σ} :
    ∀ {cols : List Dict} {st st' : σ} {fs : List RType},
      fieldsOf cm parse cols st = (.ok fs, st') →
      fs.length = cols.length ∧ ∀ (i : Nat) c f, cols[i]? = some c → fs[i]? = some f →
        ∃ b s s', parse c s = (.ok b, s') ∧ fieldOf cm c b = .ok f
  | [], st, st', fs, h => by
    simp only [fieldsOf] at h
    cases h
    exact ⟨rfl, by simp⟩
  | c :: cs, st, st', fs, h => by
    obtain ⟨b, st₁, f, fs', h1, h2, h3, rfl⟩ := fieldsOf_cons h
    obtain ⟨hl, hi⟩ := fieldsOf_index h3
    refine ⟨by simp [hl], ?_⟩
    intro i c' f' hc hf
    cases i with
    | zero =>
      simp only [List.getElem?_cons_zero, Option.some.injEq] at hc hf
      subst hc hf
      exact ⟨b, st, st₁, h1, h2⟩
    | succ i =>
      simp only [List.getElem?_cons_succ] at hc hf
      exact hi i c' f' hc hf

theorem toRecap_ok {σ : Type} {cm : CaseMap} {parse : Parser σ} {cols : List Dict} {st st' : σ}
    {t : RType} (h : toRecap cm parse cols st = (.ok t, st')) :
    ∃ fs, t = .struct fs {} ∧ fieldsOf cm parse cols st = (.ok fs, st') := by
  unfold toRecap at h
  split at h
  · cases h
  · rename_i fs st₁ h1
    cases h
    exact ⟨fs, rfl, h1⟩

theorem attrs_setExtra (t : RType) (k : String) (v : PyVal) :
    (setExtra t k v).attrs = { t.attrs with extra := Dict.set t.attrs.extra k v } := by
  unfold setExtra
  cases t <;> rfl

theorem isNullable_setExtra (t : RType) (k : String) (v : PyVal) :
    (setExtra t k v).isNullable = t.isNullable := by
  cases t <;> rfl

theorem isNullable_makeNullable (t : RType) : (makeNullable t).isNullable = true := by
  have h : ∀ ts : List RType, (addNull ts).any isNull = true := by
    intro ts
    unfold addNull
    split
    · assumption
    · simp [isNull]
  cases t <;> simp [makeNullable, isNullable, h]

/-- The types that the dialects choose: no alias, doc, default or name. -/
structure Bare (t : RType) : Prop where
  doc : t.attrs.doc = .none
  default : Dict.get? t.attrs.extra "default" = .none
  name : Dict.get? t.attrs.extra "name" = .none

/-- A simple type: nothing below it, not nullable, no alias. -/
structure Simple (t : RType) : Prop extends Bare t where
  alias : t.attrs.alias = .none
  nonNull : t.isNullable = false
  leaf : children t = []
  notUnion : ∀ ts a, t ≠ .union ts a

theorem simple_timeType (b : Int) (l u : String) : Simple (timeType b l u) :=
  ⟨⟨rfl, rfl, rfl⟩, rfl, rfl, rfl, by intro _ _ h; cases h⟩

theorem simple_decimalType (b : Int) (p s : PyVal) : Simple (decimalType b p s) :=
  ⟨⟨rfl, rfl, rfl⟩, rfl, rfl, rfl, by intro _ _ h; cases h⟩

theorem mysqlType_simple (dt : String) (o p s : PyVal) (col : Dict) :
    Yields Simple (mysqlType dt o p s col) := by
  unfold mysqlType
  branches
  all_goals exact ⟨⟨rfl, rfl, rfl⟩, rfl, rfl, rfl, by intro _ _ h; cases h⟩

theorem snowflakeType_simple (dt : String) (o : PyVal) (col : Dict) :
    Yields Simple (snowflakeType dt o col) := by
  unfold snowflakeType
  branches
  all_goals exact ⟨⟨rfl, rfl, rfl⟩, rfl, rfl, rfl, by intro _ _ h; cases h⟩

theorem pgScalar_simple (dt : String) (o m : PyVal) (col : Dict) :
    Yields Simple (pgScalar dt o m col) := by
  unfold pgScalar
  branches
  all_goals exact ⟨⟨rfl, rfl, rfl⟩, rfl, rfl, rfl, by intro _ _ h; cases h⟩

/-! ### Strings -/

theorem isInfix_iff (p : List Char) : ∀ s : List Char, isInfix p s = true ↔ ∃ a b, s = a ++ p ++ b
  | [] => by
    simp only [isInfix, List.isEmpty_iff]
    constructor
    · rintro rfl; exact ⟨[], [], rfl⟩
    · rintro ⟨a, b, h⟩
      have := congrArg List.length h
      simp only [List.length_nil, List.length_append] at this
      exact List.length_eq_zero_iff.mp (by omega)
  | c :: cs => by
    simp only [isInfix, Bool.or_eq_true, List.isPrefixOf_iff_prefix, isInfix_iff p cs]
    constructor
    · rintro (⟨r, h⟩ | ⟨a, b, h⟩)
      · exact ⟨[], r, by simp [h]⟩
      · exact ⟨c :: a, b, by simp [h]⟩
    · rintro ⟨a, b, h⟩
      cases a with
      | nil => exact .inl ⟨b, by simpa using h.symm⟩
      | cons x a =>
        simp only [List.cons_append, List.cons.injEq] at h
        exact .inr ⟨a, b, h.2⟩

theorem contains_iff (s p : String) : contains s p = true ↔ Occurs p s := isInfix_iff _ _

theorem startsWith_iff (s p : String) : startsWith s p = true ↔ Starts p s := by
  simp only [startsWith, List.isPrefixOf_iff_prefix, Starts, List.IsPrefix]
  constructor <;> rintro ⟨r, h⟩ <;> exact ⟨r, h.symm⟩

theorem not_occurs_empty (p : String) (h : p.toList ≠ []) : ¬Occurs p "" := by
  rintro ⟨a, b, h'⟩
  have := congrArg List.length h'
  simp only [String.toList_empty, List.length_nil, List.length_append] at this
  exact h (List.length_eq_zero_iff.mp (by omega))

/-- The declared type that `get_affinity` looks at. -/
theorem declared_of_orElse {v : PyVal} {r : String} (h : orElse v (.str "") = .str r) :
    (v.truthy = true ∧ v = .str r) ∨ (v.truthy = false ∧ r = "") := by
  unfold orElse at h
  split at h
  · exact .inl ⟨by assumption, h⟩
  · rename_i hv; cases h; exact .inr ⟨Bool.eq_false_iff.mpr hv, rfl⟩

theorem getAffinity_ok {cm : CaseMap} {v : PyVal} {a : Affinity} (h : getAffinity cm v = .ok a) :
    ∃ r, orElse v (.str "") = .str r ∧ HasAffinity (cm.upper r) a := by
  unfold getAffinity at h
  obtain ⟨t, h1, h⟩ := bind_ok h
  obtain ⟨r, h2, rfl⟩ := strMethod_ok h1
  refine ⟨r, h2, ?_⟩
  have none : ∀ p : String, p.toList ≠ [] → cm.upper r = "" → ¬Occurs p (cm.upper r) := by
    intro p hp e; rw [e]; exact not_occurs_empty p hp
  split at h
  · rename_i e
    cases h
    refine .blob (none _ (by decide) e) ?_ (.inr e)
    rintro (h | h | h)
    · exact none _ (by decide) e h
    · exact none _ (by decide) e h
    · exact none _ (by decide) e h
  · rename_i e
    have ci := fun p => contains_iff (cm.upper r) p
    split at h
    · cases h; exact .integer (by grind)
    · split at h
      · cases h; exact .text (by grind) (by grind)
      · split at h
        · cases h; exact .blob (by grind) (by grind) (by grind)
        · split at h
          · cases h; exact .real (by grind) (by grind) (by grind) (by grind)
          · cases h; exact .numeric (by grind) (by grind) (by grind) (by grind)

/-! ### What the dialects produce -/

theorem mysqlParse_simple (cm : CaseMap) (col : Dict) : Yields Simple (mysqlParse cm col) := by
  unfold mysqlParse
  branches
  exact mysqlType_simple _ _ _ _ _

theorem snowflakeParse_simple (cm : CaseMap) (col : Dict) :
    Yields Simple (snowflakeParse cm col) := by
  unfold snowflakeParse
  branches
  exact snowflakeType_simple _ _ _

/-- What SQLite columns become. -/
theorem sqliteParse_ok {cm : CaseMap} {col : Dict} {t : RType} (h : sqliteParse cm col = .ok t) :
    ∃ v r a octet precision, Dict.get? col "TYPE" = some v ∧ orElse v (.str "") = .str r ∧
      HasAffinity (cm.upper r) a ∧ Dict.get? col "CHARACTER_OCTET_LENGTH" = some octet ∧
      Dict.get? col "NUMERIC_PRECISION" = some precision ∧
      match a with
      | .integer => t = .int (.int 64) (.bool true) {}
      | .real => (precision.truthy = true ∧ precision.gtInt 23 = .ok false ∧
            t = .float (.int 32) {}) ∨
          ((precision.truthy = false ∨ precision.gtInt 23 = .ok true) ∧ t = .float (.int 64) {})
      | .text => t = .string (orElse octet sqliteMax) (.bool true) {}
      | .blob => t = .bytes (orElse octet sqliteMax) (.bool true) {}
      | .numeric => t = .union
          [.null {}, .int (.int 64) (.bool true) {}, .float (.int 64) {},
            .string sqliteMax (.bool true) {}, .bytes sqliteMax (.bool true) {}] {} := by
  unfold sqliteParse at h
  obtain ⟨_, -, h⟩ := bind_ok h
  obtain ⟨v, h1, h⟩ := bind_ok h
  obtain ⟨octet, h2, h⟩ := bind_ok h
  obtain ⟨precision, h3, h⟩ := bind_ok h
  obtain ⟨a, h4, h⟩ := bind_ok h
  obtain ⟨r, h5, h6⟩ := getAffinity_ok h4
  refine ⟨v, r, a, octet, precision, item_ok h1, h5, h6, item_ok h2, item_ok h3, ?_⟩
  cases a with
  | real =>
    simp only at h ⊢
    split at h
    · rename_i hp
      obtain ⟨g, hg, rfl⟩ := map_ok h
      cases g
      · exact .inl ⟨hp, hg, rfl⟩
      · exact .inr ⟨.inr hg, rfl⟩
    · rename_i hp
      cases h
      exact .inr ⟨.inl (Bool.eq_false_iff.mpr hp), rfl⟩
  | _ => cases h; rfl

theorem sqliteParse_bare (cm : CaseMap) (col : Dict) : Yields Bare (sqliteParse cm col) := by
  intro t h
  obtain ⟨v, r, a, octet, precision, -, -, -, -, -, h⟩ := sqliteParse_ok h
  cases a
  · subst h; exact ⟨rfl, rfl, rfl⟩
  · rcases h with ⟨-, -, rfl⟩ | ⟨-, rfl⟩ <;> exact ⟨rfl, rfl, rfl⟩
  · subst h; exact ⟨rfl, rfl, rfl⟩
  · subst h; exact ⟨rfl, rfl, rfl⟩
  · subst h; exact ⟨rfl, rfl, rfl⟩

theorem pgProps_ok {cm : CaseMap} {col : Dict} {p : PgProps} (h : pgProps cm col = .ok p) :
    Dict.get? col "COLUMN_NAME" = some p.name ∧ DataType cm col p.dataType ∧
      Dict.get? col "CHARACTER_OCTET_LENGTH" = some p.octet ∧
      Dict.get? col "CHARACTER_MAXIMUM_LENGTH" = some p.maxLength ∧
      (∃ u r, Dict.get? col "UDT_NAME" = some u ∧ orElse u (.str "") = .str r ∧
        p.udt = cm.lower r) ∧
      Dict.get? col "ATTNDIMS" = some p.ndims := by
  unfold pgProps at h
  obtain ⟨name, h1, h⟩ := bind_ok h
  obtain ⟨dt, h2, h⟩ := bind_ok h
  obtain ⟨dt', h2', h⟩ := bind_ok h
  obtain ⟨o, h3, h⟩ := bind_ok h
  obtain ⟨m, h4, h⟩ := bind_ok h
  obtain ⟨u, h5, h⟩ := bind_ok h
  obtain ⟨u', h5', h⟩ := bind_ok h
  obtain ⟨n, h6, h⟩ := bind_ok h
  cases h
  obtain ⟨s, rfl, rfl⟩ := strMethod_ok h2'
  obtain ⟨r, h5'', rfl⟩ := strMethod_ok h5'
  exact ⟨item_ok h1, ⟨s, item_ok h2, rfl⟩, item_ok h3, item_ok h4,
    ⟨u, r, item_ok h5, h5'', rfl⟩, item_ok h6⟩

theorem pgProps_element (cm : CaseMap) (e : String) :
    pgProps cm (pgElement e) = .ok
      { name := .none, dataType := cm.lower e, octet := .int pgMax,
        maxLength := .int (pgMax * 8), udt := "", ndims := .int 0 } := by
  rw [show ("" : String) = cm.lower "" from cm.lower_empty.symm]
  rfl

/-- Elements of arrays are never arrays. -/
theorem pgParse_element (cm : CaseMap) (cfg : PgConfig) (e : String) (reg : Registry) :
    pgParseFuel cm cfg 2 (pgElement e) reg =
      if cm.lower e = "array" then (.error .valueError, reg)
      else (pgScalar (cm.lower e) (.int pgMax) (.int (pgMax * 8)) (pgElement e), reg) := by
  rw [pgParseFuel, pgProps_element]
  simp only
  split
  · rw [show lstripUnderscore "" = "" by decide, pgParseFuel, pgProps_element]
    simp only [cm.lower_empty]
    rfl
  · rfl

/-- What PostgreSQL columns become. -/
theorem pgParse_ok {cm : CaseMap} {cfg : PgConfig} {col : Dict} {reg reg' : Registry} {t : RType}
    (h : pgParse cm cfg col reg = (.ok t, reg')) :
    ∃ p, pgProps cm col = .ok p ∧
      ((p.dataType ≠ "array" ∧ reg' = reg ∧
          pgScalar p.dataType p.octet p.maxLength col = .ok t) ∨
        (p.dataType = "array" ∧ ∃ v, cm.lower (lstripUnderscore p.udt) ≠ "array" ∧
          pgScalar (cm.lower (lstripUnderscore p.udt)) (.int pgMax) (.int (pgMax * 8))
            (pgElement (lstripUnderscore p.udt)) = .ok v ∧
          ((cfg.enforce = true ∧ reg' = reg ∧ createNDim v p.ndims = .ok t) ∨
            (cfg.enforce = false ∧ ∃ s, p.name = .str s ∧
              t = selfList (cfg.ns ++ "." ++ replaceDots s) v ∧
              reg.registerAlias t = .ok reg')))) := by
  unfold pgParse at h
  rw [pgParseFuel] at h
  split at h
  · cases h
  · rename_i p hp
    refine ⟨p, hp, ?_⟩
    split at h
    · rename_i ha
      refine .inr ⟨ha, ?_⟩
      rw [pgParse_element] at h
      split at h
      · cases h
      · rename_i v r' hv
        split at hv
        · cases hv
        · rename_i hne
          simp only [Prod.mk.injEq] at hv
          obtain ⟨hv, rfl⟩ := hv
          refine ⟨v, hne, hv, ?_⟩
          split at h
          · rename_i he
            simp only [Prod.mk.injEq] at h
            exact .inl ⟨he, h.2.symm, h.1⟩
          · rename_i he
            refine .inr ⟨by simpa using he, ?_⟩
            unfold pgSelfArray at h
            split at h
            · rename_i s hs
              refine ⟨s, hs, ?_⟩
              simp only at h
              split at h
              · cases h
              · rename_i r hr
                cases h
                exact ⟨rfl, hr⟩
            · cases h
    · rename_i ha
      simp only [Prod.mk.injEq] at h
      exact .inl ⟨ha, h.2.symm, h.1⟩

theorem bare_nDim (v : RType) (n : Nat) : Bare (nDimList v n) := by
  cases n <;> exact ⟨rfl, rfl, rfl⟩

theorem createNDim_ok {v t : RType} {n : PyVal} (h : createNDim v n = .ok t) :
    ∃ k : Nat, t = nDimList v k ∧ (n = .int k ∨ (n = .bool true ∧ k = 1) ∨
      (n = .bool false ∧ k = 0)) := by
  cases n with
  | int i =>
    simp only [createNDim] at h
    split at h
    · cases h
    · cases h
      exact ⟨i.toNat, rfl, .inl (by rw [Int.toNat_of_nonneg (by omega)])⟩
  | bool b =>
    simp only [createNDim] at h
    cases h
    cases b
    · exact ⟨0, rfl, .inr (.inr ⟨rfl, rfl⟩)⟩
    · exact ⟨1, rfl, .inr (.inl ⟨rfl, rfl⟩)⟩
  | _ => cases h

theorem pgParse_bare {cm : CaseMap} {cfg : PgConfig} {col : Dict} {reg reg' : Registry} {t : RType}
    (h : pgParse cm cfg col reg = (.ok t, reg')) : Bare t := by
  obtain ⟨p, -, ⟨-, -, h⟩ | ⟨-, v, -, hv, ⟨-, -, h⟩ | ⟨-, s, -, rfl, -⟩⟩⟩ := pgParse_ok h
  · exact (pgScalar_simple _ _ _ _ _ h).toBare
  · obtain ⟨k, rfl, -⟩ := createNDim_ok h
    exact bare_nDim v k
  · exact ⟨rfl, rfl, rfl⟩

theorem parse_bare {cm : CaseMap} {d : Dialect} {col : Dict} {reg reg' : Registry} {t : RType}
    (h : d.parse cm col reg = (.ok t, reg')) : Bare t := by
  cases d with
  | mysql =>
    simp only [Dialect.parse, stateless, Prod.mk.injEq] at h
    exact (mysqlParse_simple _ _ _ h.1).toBare
  | snowflake =>
    simp only [Dialect.parse, stateless, Prod.mk.injEq] at h
    exact (snowflakeParse_simple _ _ _ h.1).toBare
  | sqlite =>
    simp only [Dialect.parse, stateless, Prod.mk.injEq] at h
    exact sqliteParse_bare _ _ _ h.1
  | postgresql cfg => exact pgParse_bare h

/-! ### Fields -/

theorem addNull_single {t : RType} (h : t.isNullable = false) : addNull [t] = [.null {}, t] := by
  cases t <;> simp_all [addNull, isNull, isNullable]

theorem demoted_bare {t : RType} (h : Bare t) : demoted t.attrs.extra = t.attrs.extra := by
  unfold demoted
  have h1 := Dict.get?_eq_none_iff.mp h.default
  have h2 := Dict.get?_eq_none_iff.mp h.name
  rw [Dict.erase_of_not_mem h1, Dict.erase_of_not_mem h2]

theorem withAttrs_self (t : RType) : t.withAttrs t.attrs = t := by cases t <;> rfl

/-- Making a bare type nullable wraps it unchanged. -/
theorem makeNullable_bare {t : RType} (h : Bare t) (hn : t.isNullable = false)
    (hu : ∀ ts a, t ≠ .union ts a) :
    makeNullable t = .union [.null {}, t] { extra := [("default", .none)] } := by
  have h1 : makeNullable t = .union (addNull [t.withAttrs
      { t.attrs with doc := .none, extra := demoted t.attrs.extra }])
      { doc := t.attrs.doc, extra := promoted t.attrs } := by
    cases t <;> first | rfl | exact absurd rfl (hu _ _)
  have h2 : ({ t.attrs with doc := .none, extra := demoted t.attrs.extra } : Attrs) = t.attrs := by
    rw [demoted_bare h, ← h.doc]
  have h3 : promoted t.attrs = [("default", .none)] := by
    simp only [promoted, h.name, Dict.getD, h.default, Option.getD_none]
  rw [h2, withAttrs_self, addNull_single hn, h3, h.doc] at h1
  exact h1

/-- A field is the type of its column with more attributes, or a union with null. -/
theorem fieldOf_shape {cm : CaseMap} {col : Dict} {base f : RType} (hb : Bare base)
    (hn : base.isNullable = false) (hu : ∀ ts a, base ≠ .union ts a)
    (h : fieldOf cm col base = .ok f) :
    (∃ n, f = setExtra base "name" n) ∨
      (∃ v n, f = setExtra (setExtra base "default" v) "name" n) ∨
      ∃ v n, f = .union [.null {}, base] { extra := [("default", v), ("name", n)] } := by
  obtain ⟨n, dflt, name, -, -, -, rfl⟩ := fieldOf_ok h
  by_cases hy : (cm.upper n == "YES") = true
  · rw [if_pos hy, if_pos (by rw [hy]; simp), makeNullable_bare hb hn hu]
    exact .inr (.inr ⟨_, _, rfl⟩)
  · rw [if_neg hy]
    split
    · exact .inr (.inl ⟨_, _, rfl⟩)
    · exact .inl ⟨_, rfl⟩

/-- The field for a union that has a null member already. -/
theorem fieldOf_union {cm : CaseMap} {col : Dict} {ts : List RType} {a : Attrs} {f : RType}
    (hn : ts.any isNull = true) (h : fieldOf cm col (.union ts a) = .ok f) :
    ∃ x, f = .union ts { a with extra := x } := by
  obtain ⟨n, dflt, name, -, -, -, rfl⟩ := fieldOf_ok h
  have hm : makeNullable (.union ts a) =
      .union ts { a with extra := demoted a.extra ++ promoted a } := by
    simp only [makeNullable, addNull, hn, if_true]
  by_cases hy : (cm.upper n == "YES") = true
  · rw [if_pos hy, hm]
    split <;> exact ⟨_, rfl⟩
  · rw [if_neg hy]
    split <;> exact ⟨_, rfl⟩

/-! ### Validity -/

theorem checkSize_good {o : PyVal} (h : GoodLength o) (v : PyVal) : checkSize o v = .ok () := by
  obtain ⟨n, rfl, h1, h2⟩ := h
  simp only [checkSize, PyVal.isNone, Bool.and_false, Bool.false_eq_true, if_false, checkRange,
    PyVal.ltInt, PyVal.gtInt, bind, Except.bind]
  rw [if_neg (by simp; omega), if_neg (by simp; omega)]
  rfl

theorem checkSize_none : checkSize .none (.bool true) = .ok () := rfl

theorem validate_withAttrs (t : RType) (a : Attrs) : (t.withAttrs a).validate = t.validate := by
  cases t <;> rfl

theorem children_withAttrs (t : RType) (a : Attrs) : children (t.withAttrs a) = children t := by
  cases t <;> rfl

theorem allValid_iff {t : RType} :
    AllValid t ↔ t.validate = .ok () ∧ ∀ c ∈ children t, AllValid c := by
  constructor
  · intro h
    refine ⟨h t .refl, fun c hc u hu => h u (sub_iff.mpr (.inr ⟨c, hc, hu⟩))⟩
  · rintro ⟨h1, h2⟩ u hu
    rcases sub_iff.mp hu with rfl | ⟨c, hc, hu⟩
    · exact h1
    · exact h2 c hc u hu

theorem allValid_withAttrs {t : RType} (a : Attrs) : AllValid (t.withAttrs a) ↔ AllValid t := by
  rw [allValid_iff, validate_withAttrs, children_withAttrs, ← allValid_iff]

theorem allValid_setExtra {t : RType} (k : String) (v : PyVal) :
    AllValid (setExtra t k v) ↔ AllValid t := allValid_withAttrs _

theorem allValid_null (a : Attrs) : AllValid (.null a) :=
  allValid_iff.mpr ⟨rfl, by simp [children]⟩

theorem allValid_addNull {ts : List RType} (h : ∀ t ∈ ts, AllValid t) :
    ∀ t ∈ addNull ts, AllValid t := by
  unfold addNull
  split
  · exact h
  · intro t ht
    rcases List.mem_cons.mp ht with rfl | ht
    · exact allValid_null _
    · exact h t ht

theorem allValid_union {ts : List RType} {a : Attrs} (h : ∀ t ∈ ts, AllValid t) :
    AllValid (.union ts a) := allValid_iff.mpr ⟨rfl, h⟩

theorem allValid_makeNullable {t : RType} (h : AllValid t) : AllValid (makeNullable t) := by
  have single : ∀ a, ∀ u ∈ [t.withAttrs a], AllValid u := by
    intro a u hu
    rw [List.mem_singleton.mp hu]
    exact (allValid_withAttrs a).mpr h
  cases t with
  | union ts a =>
    exact allValid_union (allValid_addNull (allValid_iff.mp h).2)
  | _ => exact allValid_union (allValid_addNull (single _))

theorem allValid_fieldOf {cm : CaseMap} {col : Dict} {base f : RType} (hb : AllValid base)
    (h : fieldOf cm col base = .ok f) : AllValid f := by
  obtain ⟨n, dflt, name, -, -, -, rfl⟩ := fieldOf_ok h
  rw [allValid_setExtra]
  have : AllValid (if (cm.upper n == "YES") = true then base.makeNullable else base) := by
    split
    · exact allValid_makeNullable hb
    · exact hb
  split
  · exact (allValid_setExtra _ _).mpr this
  · exact this

theorem allValid_leaf {t : RType} (h : children t = []) (hv : t.validate = .ok ()) :
    AllValid t := allValid_iff.mpr ⟨hv, by simp [h]⟩

theorem validateList_ok {ts : List RType} (h : ∀ t ∈ ts, t.validate = .ok ()) :
    validateList ts = .ok () := by
  induction ts with
  | nil => rfl
  | cons t ts ih =>
    simp only [validateList, h t (List.mem_cons_self ..), bind, Except.bind]
    exact ih (fun u hu => h u (List.mem_cons_of_mem _ hu))

theorem allValid_struct {fs : List RType} {a : Attrs} (h : ∀ f ∈ fs, AllValid f) :
    AllValid (.struct fs a) :=
  allValid_iff.mpr ⟨by
    simp only [validate]; exact validateList_ok (fun f hf => h f hf f .refl), h⟩

theorem allValid_list {t : RType} {a : Attrs} (h : AllValid t) :
    AllValid (.list t .none (.bool true) a) :=
  allValid_iff.mpr ⟨by
    simp only [validate, checkSize_none, bind, Except.bind]; exact h t .refl, by
    simpa [children] using h⟩

theorem allValid_nDim {v : RType} (h : AllValid v) : ∀ n, AllValid (nDimList v n)
  | 0 => allValid_union (by
      intro t ht
      rcases List.mem_cons.mp ht with rfl | ht
      · exact allValid_null _
      · rw [List.mem_singleton.mp ht]; exact h)
  | n + 1 => allValid_list (allValid_nDim h n)

theorem allValid_selfList {v : RType} (h : AllValid v) (s : String) : AllValid (selfList s v) :=
  allValid_list (allValid_union (by
    intro t ht
    rcases List.mem_cons.mp ht with rfl | ht
    · exact h
    · rw [List.mem_singleton.mp ht]; exact allValid_leaf rfl rfl))

theorem mysqlType_valid {dt : String} {o : PyVal} (p s : PyVal) (col : Dict)
    (h : GoodLength o ∨ (o = .none ∧ startsWith dt "char" = false ∧
      ["enum", "set"].contains dt = false ∧ startsWith dt "binary" = false)) :
    Yields (fun t => t.validate = .ok ()) (mysqlType dt o p s col) := by
  have var : checkSize o (.bool true) = .ok () := by
    rcases h with h | ⟨rfl, -⟩
    · exact checkSize_good h _
    · rfl
  unfold mysqlType
  branches
  all_goals first
    | rfl
    | exact var
    | (rename_i g hg; cases g <;> rfl)
    | (rcases h with h | ⟨-, h1, h2, h3⟩
       · exact checkSize_good h _
       · simp_all)

theorem orElse_good {o : PyVal} {n : Int} (hn : 1 ≤ n ∧ n ≤ 9223372036854775807)
    (h : GoodLength o ∨ o = .none ∨ o = .int 0) : GoodLength (orElse o (.int n)) := by
  rcases h with ⟨k, rfl, h1, h2⟩ | rfl | rfl
  · have : (PyVal.int k).truthy = true := by simp [PyVal.truthy]; omega
    rw [orElse, if_pos this]
    exact ⟨k, rfl, h1, h2⟩
  · exact ⟨n, rfl, hn⟩
  · exact ⟨n, rfl, hn⟩

theorem snowflakeType_valid (dt : String) {o : PyVal} (col : Dict)
    (h : GoodLength o ∨ o = .none ∨ o = .int 0) :
    Yields (fun t => t.validate = .ok ()) (snowflakeType dt o col) := by
  unfold snowflakeType
  branches
  all_goals first
    | rfl
    | exact checkSize_good (orElse_good (by omega) h) _

theorem ceilDiv8_good {m b : PyVal} (h : GoodLength m) (hb : ceilDiv8 m = .ok b) :
    GoodLength b := by
  obtain ⟨n, rfl, h1, h2⟩ := h
  simp only [ceilDiv8] at hb
  split at hb
  · cases hb
    exact ⟨_, rfl, by omega, by omega⟩
  · cases hb

theorem pgScalar_valid {dt : String} {o m : PyVal} (col : Dict)
    (h : GoodLength o ∨ (o = .none ∧ (startsWith dt "char" = false ∨
      startsWith dt "character varying" = true)))
    (hm : startsWith dt "bit" = true → startsWith dt "bit varying" = false → GoodLength m) :
    Yields (fun t => t.validate = .ok ()) (pgScalar dt o m col) := by
  have var : checkSize o (.bool true) = .ok () := by
    rcases h with h | ⟨rfl, -⟩
    · exact checkSize_good h _
    · rfl
  unfold pgScalar
  branches
  all_goals first
    | rfl
    | exact var
    | (refine checkSize_good (ceilDiv8_good (hm ?_ ?_) (by assumption)) _ <;> simp_all)
    | (rcases h with h | ⟨-, h1⟩
       · exact checkSize_good h _
       · simp_all)

end Recap.Relational
