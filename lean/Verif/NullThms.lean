import Verif.EqLemmas

/-! # Equality and nullability: C12 – C17 -/

namespace Recap

open Spec

/-! ## C12 -/

/-- C12: `==` on types is reflexive. -/
theorem C12_eq_reflexive (t : RType) (h : RealType t) : RType.pyEq t t = true :=
  RType.pyEq_refl t h

/-- C12: `==` on types is symmetric. -/
theorem C12_eq_symmetric (t u : RType) (ht : RealType t) (hu : RealType u) :
    RType.pyEq t u = RType.pyEq u t := by
  cases h : RType.pyEq t u with
  | true => exact (RType.pyEq_symm t u ht hu h).symm
  | false =>
    cases h' : RType.pyEq u t with
    | false => rfl
    | true => rw [RType.pyEq_symm u t hu ht h'] at h; cases h

/-- C12: `==` on types is transitive. -/
theorem C12_eq_transitive (t u w : RType) (h1 : RType.pyEq t u = true) (h2 : RType.pyEq u w = true) :
    RType.pyEq t w = true :=
  RType.pyEq_trans t u w h1 h2

theorem realType_leaf {t : RType} (h : RealNode t) (hc : children t = []) : RealType t := by
  intro u hu
  cases hu with
  | refl => exact h
  | list => simp [children] at hc
  | key => simp [children] at hc
  | value => simp [children] at hc
  | field hm _ => simp [children] at hc; subst hc; cases hm
  | member hm _ => simp [children] at hc; subst hc; cases hm

/-- Two different objects that are `==`: `True == 1` and the order of attributes is ignored. -/
example : let t : RType := .int (.int 1) (.bool true) { extra := [("a", .none), ("b", .int 0)] }
    let u : RType := .int (.bool true) (.int 1) { extra := [("b", .bool false), ("a", .none)] }
    RealType t ∧ RealType u ∧ t ≠ u ∧ RType.pyEq t u = true := by
  refine ⟨realType_leaf ?_ rfl, realType_leaf ?_ rfl, by decide +kernel, by decide +kernel⟩ <;>
    simp [RealNode, RType.attrs, Real, RealPairs, params]

/-! ## C13 -/

theorem attrsEq_iff {a b : Attrs} (ha : RealAttrs a) (hb : RealAttrs b) :
    RType.attrsEq a b = true ↔ SameAttrs a b := by
  have h1 := ha.2.2.2
  have h2 := hb.2.2.2
  simp only [Real] at h1 h2
  unfold RType.attrsEq SameAttrs
  simp only [Bool.and_eq_true, dictEq_iff h1.1 h2.1, and_assoc]

/-- C13: two types are `==` exactly if they have the same class, agree on every attribute, the
class-specific ones included, and their nested types are `==` one by one. -/
theorem C13_equality_characterised (t u : RType) (ht : RealType t) (hu : RealType u) :
    RType.pyEq t u = true ↔
      t.typeName = u.typeName ∧ SameAttrs t.attrs u.attrs ∧
      Pairwise₂ (fun p q => p.1 = q.1 ∧ PyVal.pyEq p.2 q.2 = true) (params t) (params u) ∧
      Pairwise₂ (fun x y => RType.pyEq x y = true) (children t) (children u) := by
  rw [← attrsEq_iff ht.attrs hu.attrs]
  cases t <;> cases u <;>
    simp only [RType.pyEq, RType.typeName, RType.attrs, params, children, Pairwise₂,
      Bool.and_eq_true, pyEqList_iff, Bool.false_eq_true, String.reduceEq, false_and, true_and,
      and_true, and_assoc]
  all_goals grind

/-- C13: types of different classes are never `==`. -/
theorem C13_different_classes_differ (t u : RType) (h : t.typeName ≠ u.typeName) :
    RType.pyEq t u = false := by
  cases t <;> cases u <;> simp_all [RType.pyEq, RType.typeName]

example : RType.pyEq (.int (.int 32) (.bool true) {}) (.float (.int 32) {}) = false := by
  decide +kernel

/-! ## C14 -/

theorem demoted_eq (d : Dict) :
    RType.demoted d = d.filter (fun kv => kv.1 ≠ "default" ∧ kv.1 ≠ "name") := by
  unfold RType.demoted Dict.erase
  rw [List.filter_filter]
  congr 1
  funext kv
  by_cases h1 : kv.1 = "default" <;> by_cases h2 : kv.1 = "name" <;> simp_all

theorem addNull_any (ts : List RType) : (RType.addNull ts).any RType.isNull = true := by
  unfold RType.addNull
  split
  · assumption
  · simp [RType.isNull]

theorem get?_filter_key {d : Dict} {p : String → Bool} {k : String} (hk : p k = true) :
    Dict.get? (d.filter (fun kv => p kv.1)) k = Dict.get? d k := by
  induction d with
  | nil => rfl
  | cons kv d ih =>
    obtain ⟨k', v⟩ := kv
    simp only [List.filter_cons]
    by_cases h : k' = k
    · subst h; simp [hk, Dict.get?_cons]
    · cases hp : p k' <;> simp [Dict.get?_cons, h, ih]

theorem get?_filter_key_false {d : Dict} {p : String → Bool} {k : String} (hk : p k = false) :
    Dict.get? (d.filter (fun kv => p kv.1)) k = .none := by
  rw [Dict.get?_eq_none_iff]
  intro hm
  obtain ⟨kv, hkv, e⟩ := List.mem_map.mp hm
  have := (List.mem_filter.mp hkv).2
  simp only [e, hk] at this
  cases this

theorem get?_demoted (d : Dict) (k : String) : Dict.get? (RType.demoted d) k =
    if k = "default" ∨ k = "name" then .none else Dict.get? d k := by
  unfold RType.demoted
  rw [Dict.get?_erase, Dict.get?_erase]
  by_cases h1 : k = "default" <;> by_cases h2 : k = "name"
  all_goals simp only [h1, h2, eq_comm (b := k), reduceIte, or_self, or_true, true_or, ite_self]

theorem promoted_keys {a : Attrs} {kv : String × PyVal} (h : kv ∈ RType.promoted a) :
    kv.1 = "default" ∨ kv.1 = "name" := by
  unfold RType.promoted at h
  simp only at h
  split at h
  · simp only [List.cons_append, List.nil_append, List.mem_cons, List.not_mem_nil, or_false] at h
    rcases h with rfl | rfl <;> simp
  · simp only [List.mem_cons, List.not_mem_nil, or_false] at h
    subst h; simp

theorem promoted_nodup (a : Attrs) : (Dict.keys (RType.promoted a)).Nodup := by
  unfold RType.promoted
  simp only
  split <;> simp

theorem get?_promoted (a : Attrs) (k : String) : Dict.get? (RType.promoted a) k =
    if k = "default" then some (Dict.getD a.extra "default" .none)
    else if k = "name" then Dict.get? a.extra "name" else .none := by
  unfold RType.promoted
  cases h : Dict.get? a.extra "name" with
  | none =>
    simp only [Dict.get?]
    by_cases h1 : k = "default"
    · simp [h1]
    · have : ¬ "default" = k := fun e => h1 e.symm
      simp [h1, this]
  | some n =>
    simp only [List.cons_append, List.nil_append, Dict.get?]
    by_cases h1 : k = "default"
    · simp [h1]
    · have : ¬ "default" = k := fun e => h1 e.symm
      by_cases h2 : k = "name"
      · subst h2; simp
      · have h3 : ¬ "name" = k := fun e => h2 e.symm
        simp [h1, h2, this, h3]

/-- C14: the result is a union with a null member that carries the doc, the name and the default
of the original (`None` if it had no default). -/
theorem C14_make_nullable_promotes (t : RType) :
    ∃ ts a, t.makeNullable = .union ts a ∧ (∃ n ∈ ts, IsNullType n) ∧
      a.doc = t.attrs.doc ∧
      Dict.get? a.extra "name" = Dict.get? t.attrs.extra "name" ∧
      Dict.get? a.extra "default" = some ((Dict.get? t.attrs.extra "default").getD .none) := by
  have key : ∀ ts : List RType, ∃ n ∈ RType.addNull ts, IsNullType n := by
    intro ts
    have := addNull_any ts
    obtain ⟨n, hn, hn'⟩ := List.any_eq_true.mp this
    refine ⟨n, hn, ?_⟩
    cases n <;> simp [RType.isNull] at hn'
    exact ⟨_, rfl⟩
  cases t with
  | union ts a =>
    refine ⟨_, _, rfl, key ts, rfl, ?_, ?_⟩
    · simp only [Dict.get?_append, get?_demoted, get?_promoted]; simp [RType.attrs]
    · simp only [Dict.get?_append, get?_demoted, get?_promoted]; simp [RType.attrs, Dict.getD]
  | _ =>
    refine ⟨_, _, rfl, key _, rfl, ?_, ?_⟩
    · simp only [get?_promoted]; simp [RType.attrs]
    · simp only [get?_promoted]; simp [RType.attrs, Dict.getD]

/-- C14: a type that is neither null nor a union becomes the second member, without the
attributes that moved to the union, after a plain null; the union has no alias, no logical type and
no attribute besides the doc, the name and the default. -/
theorem C14_make_nullable_wraps (t : RType) (hu : t.typeName ≠ "union") (hn : t.typeName ≠ "null") :
    ∃ a, t.makeNullable = .union [.null {}, bare t] a ∧ a.alias = .none ∧ a.logical = .none ∧
      ∀ kv ∈ a.extra, kv.1 = "default" ∨ kv.1 = "name" := by
  cases t <;> simp only [RType.typeName, ne_eq, not_true_eq_false] at hu hn
  all_goals
    simp only [RType.makeNullable, bare, RType.attrs, RType.withAttrs, demoted_eq, RType.addNull,
      List.any_cons, List.any_nil, RType.isNull, Bool.or_self, Bool.false_eq_true, if_false]
    exact ⟨_, rfl, rfl, rfl, fun kv h => promoted_keys h⟩

/-- C14: a union keeps its members, its alias, its logical type and its other attributes; a null
is put in front if there was none. -/
theorem C14_make_nullable_union (ts : List RType) (a : Attrs) :
    ∃ ts' a', RType.makeNullable (.union ts a) = .union ts' a' ∧
      ((∃ n ∈ ts, IsNullType n) ∧ ts' = ts ∨ (¬ ∃ n ∈ ts, IsNullType n) ∧ ts' = .null {} :: ts) ∧
      a'.alias = a.alias ∧ a'.logical = a.logical ∧
      ∀ k, k ≠ "default" → Dict.get? a'.extra k = Dict.get? a.extra k := by
  have key : ts.any RType.isNull = true ↔ ∃ n ∈ ts, IsNullType n := by
    rw [List.any_eq_true]
    constructor
    · rintro ⟨n, hn, h⟩
      refine ⟨n, hn, ?_⟩
      cases n <;> simp [RType.isNull] at h
      exact ⟨_, rfl⟩
    · rintro ⟨n, hn, a, rfl⟩; exact ⟨_, hn, rfl⟩
  refine ⟨_, _, rfl, ?_, rfl, rfl, ?_⟩
  · unfold RType.addNull
    by_cases h : ts.any RType.isNull = true
    · exact .inl ⟨key.mp h, by simp [h]⟩
    · exact .inr ⟨fun h' => h (key.mpr h'), by simp [h]⟩
  · intro k hk
    simp only [Dict.get?_append, get?_demoted, get?_promoted, hk, false_or, if_false]
    by_cases h : k = "name"
    · simp [h]
    · simp only [h, if_false]
      split <;> simp_all

example : RType.makeNullable (.int (.int 32) (.bool true) { doc := .str "d", extra := [("name", .str "n"), ("x", .int 1)] })
    = .union [.null {}, .int (.int 32) (.bool true) { extra := [("x", .int 1)] }]
      { doc := .str "d", extra := [("default", .none), ("name", .str "n")] } := by decide +kernel

/-! ## C15 -/

/-- C15 is false: `make_nullable` takes the default and the name away from its receiver. -/
theorem C15_receiver_changes_refuted :
    ¬ ∀ t : RType, RealType t → RType.pyEq t.afterMakeNullable t = true := by
  intro h
  have := h (.int (.int 32) (.bool true) { extra := [("name", .str "n")] })
    (realType_leaf (by simp [RealNode, RType.attrs, Real, RealPairs, params]) rfl)
  revert this
  decide +kernel

/-- C15 is also false without a name and a default: a union that is not nullable gains a null. -/
theorem C15_receiver_union_changes_refuted :
    RType.pyEq (RType.afterMakeNullable (.union [.bool {}] {})) (.union [.bool {}] {}) = false := by
  decide +kernel

/-- C15, the part that holds: the receiver is unchanged exactly if it has no default, no name, and
is not a union without a null member. -/
theorem C15_receiver_unchanged_partial (t : RType) :
    t.afterMakeNullable = t ↔
      Dict.get? t.attrs.extra "default" = .none ∧ Dict.get? t.attrs.extra "name" = .none ∧
      (∀ ts a, t = .union ts a → ∃ n ∈ ts, IsNullType n) := by
  have hd : ∀ d : Dict, RType.demoted d = d ↔
      Dict.get? d "default" = .none ∧ Dict.get? d "name" = .none := by
    intro d
    constructor
    · intro h
      rw [← h]
      simp [get?_demoted]
    · rintro ⟨h1, h2⟩
      rw [Dict.get?_eq_none_iff] at h1 h2
      unfold RType.demoted
      rw [Dict.erase_of_not_mem h1, Dict.erase_of_not_mem h2]
  have ha : ∀ (a : Attrs) (d : Dict), ({ a with extra := d } : Attrs) = a ↔ d = a.extra := by
    intro a d
    constructor
    · intro h; rw [← h]
    · intro h; rw [h]
  cases t with
  | union ts a =>
    simp only [RType.afterMakeNullable, RType.attrs, RType.union.injEq, ha, hd]
    have : RType.addNull ts = ts ↔ ∃ n ∈ ts, IsNullType n := by
      unfold RType.addNull
      by_cases h : ts.any RType.isNull = true
      · simp only [h, if_true, true_iff]
        obtain ⟨n, hn, h⟩ := List.any_eq_true.mp h
        refine ⟨n, hn, ?_⟩
        cases n <;> simp [RType.isNull] at h
        exact ⟨_, rfl⟩
      · simp only [h, Bool.false_eq_true, if_false]
        constructor
        · intro e; have := congrArg List.length e; simp at this
        · rintro ⟨n, hn, a, rfl⟩
          exact absurd (List.any_eq_true.mpr ⟨_, hn, rfl⟩) h
    rw [this]
    constructor
    · rintro ⟨h1, h2, h3⟩
      refine ⟨h2, h3, ?_⟩
      rintro ts' a' ⟨rfl, rfl⟩
      exact h1
    · rintro ⟨h1, h2, h3⟩
      exact ⟨h3 _ _ ⟨rfl, rfl⟩, h1, h2⟩
  | _ => simp [RType.afterMakeNullable, RType.attrs, RType.withAttrs, ha, hd]

/-! ## C16 -/

/-- C16 is false as stated: a nullable union without a default gains one. -/
theorem C16_nullable_union_changes_refuted :
    ¬ ∀ t : RType, RealType t → t.isNullable = true → RType.pyEq t.makeNullable t = true := by
  intro h
  have hr : RealType (.union [.null {}, .bool {}] {}) := by
    intro u hu
    cases hu with
    | refl => simp [RealNode, RType.attrs, Real, RealPairs, params]
    | member hm hs =>
      simp only [List.mem_cons, List.not_mem_nil, or_false] at hm
      rcases hm with rfl | rfl <;> cases hs <;> simp [RealNode, RType.attrs, Real, RealPairs, params]
  have := h _ hr (by decide +kernel)
  revert this
  decide +kernel

/-- C16, the part that holds for every type: the second `make_nullable` changes nothing. -/
theorem C16_make_nullable_idempotent_partial (t : RType) :
    t.makeNullable.makeNullable = t.makeNullable := by
  have hadd : ∀ ts, RType.addNull (RType.addNull ts) = RType.addNull ts := by
    intro ts
    have := addNull_any ts
    generalize RType.addNull ts = us at this
    simp [RType.addNull, this]
  have key : ∀ (e : Dict) (a : Attrs) (b : Attrs), b.extra = RType.demoted e ++ RType.promoted a →
      RType.demoted b.extra ++ RType.promoted b = b.extra := by
    intro e a b hb
    have h1 : RType.demoted b.extra = RType.demoted e := by
      rw [hb, demoted_eq, demoted_eq, List.filter_append, List.filter_filter]
      have : (RType.promoted a).filter (fun kv => decide (kv.1 ≠ "default" ∧ kv.1 ≠ "name")) = [] := by
        rw [List.filter_eq_nil_iff]
        intro kv hkv
        rcases promoted_keys hkv with h | h <;> simp [h]
      rw [this]
      simp only [List.append_nil, ← Bool.decide_and, and_self]
    have h2 : RType.promoted b = RType.promoted a := by
      unfold RType.promoted
      have e1 : Dict.get? b.extra "name" = Dict.get? a.extra "name" := by
        rw [hb, Dict.get?_append, get?_demoted, get?_promoted]; simp
      have e2 : Dict.getD b.extra "default" .none = Dict.getD a.extra "default" .none := by
        unfold Dict.getD
        rw [hb, Dict.get?_append, get?_demoted, get?_promoted]; simp [Dict.getD]
      rw [e1, e2]
    rw [h1, h2, hb]
  cases t with
  | union ts a =>
    simp only [RType.makeNullable, hadd]
    congr 1
    simp only [Attrs.mk.injEq, true_and]
    exact key a.extra a { logical := a.logical, alias := a.alias, doc := a.doc, extra := _ } rfl
  | _ =>
    simp only [RType.makeNullable, hadd]
    congr 1
    simp only [Attrs.mk.injEq, true_and]
    simp only [RType.attrs]
    rename_i a
    exact key [] a { doc := a.doc, extra := RType.promoted a } (by simp [RType.demoted])

/-- C16: a nullable union that has a default is `==` to what `make_nullable` returns for it. -/
theorem C16_nullable_with_default_partial (ts : List RType) (a : Attrs)
    (hr : RealType (.union ts a)) (hn : RType.isNullable (.union ts a) = true)
    (hd : Dict.get? a.extra "default" ≠ .none) :
    RType.pyEq (RType.makeNullable (.union ts a)) (.union ts a) = true := by
  simp only [RType.makeNullable, RType.pyEq, Bool.and_eq_true]
  simp only [RType.isNullable] at hn
  constructor
  · have ha := hr.attrs
    simp only [RType.attrs] at ha
    have hnd := ha.2.2.2
    simp only [Real] at hnd
    have hkd : (Dict.keys (RType.demoted a.extra ++ RType.promoted a)).Nodup := by
      rw [Dict.keys_append, List.nodup_append]
      refine ⟨?_, ?_, ?_⟩
      · unfold RType.demoted
        rw [Dict.keys_erase, Dict.keys_erase]
        exact List.Pairwise.filter _ (List.Pairwise.filter _ hnd.1)
      · exact promoted_nodup a
      · intro x hx y hy e
        subst e
        have h1 : x ≠ "default" ∧ x ≠ "name" := by
          unfold RType.demoted at hx
          rw [Dict.mem_keys_erase, Dict.mem_keys_erase] at hx
          exact ⟨hx.1.2, hx.2⟩
        obtain ⟨kv, hkv, rfl⟩ := List.mem_map.mp hy
        rcases promoted_keys hkv with h | h
        · exact h1.1 h
        · exact h1.2 h
    unfold RType.attrsEq
    simp only [Bool.and_eq_true, dictEq_iff hkd hnd.1]
    refine ⟨⟨⟨pyEq_refl _ ha.1, pyEq_refl _ ha.2.1⟩, pyEq_refl _ ha.2.2.1⟩, ?_⟩
    intro k
    have : Dict.get? (RType.demoted a.extra ++ RType.promoted a) k = Dict.get? a.extra k := by
      rw [Dict.get?_append, get?_demoted, get?_promoted]
      by_cases h1 : k = "default"
      · subst h1
        cases h : Dict.get? a.extra "default" with
        | none => exact absurd h hd
        | some v => simp [Dict.getD, h]
      · by_cases h2 : k = "name"
        · subst h2; simp
        · simp only [h1, h2, or_self, if_false]
          split <;> simp_all
    rw [this]
    cases h : Dict.get? a.extra k with
    | none => simp [OptEq]
    | some v =>
      simp only [OptEq]
      exact pyEq_refl v (hnd.2.mem _ (Dict.mem_of_get? h))
  · simp only [RType.addNull, hn, if_true]
    exact RType.pyEqList_refl ts (fun c hc => hr.child (by simpa [children] using hc))

/-! ## C17 -/

/-- C17: `is_nullable()` holds exactly for null types and for unions with a null member. -/
theorem C17_is_nullable (t : RType) :
    t.isNullable = true ↔ IsNullType t ∨ ∃ ts a, t = .union ts a ∧ ∃ n ∈ ts, IsNullType n := by
  cases t with
  | union ts a =>
    simp only [RType.isNullable, List.any_eq_true]
    constructor
    · rintro ⟨n, hn, h⟩
      refine .inr ⟨ts, a, rfl, n, hn, ?_⟩
      cases n <;> simp [RType.isNull] at h
      exact ⟨_, rfl⟩
    · rintro (⟨_, h⟩ | ⟨ts', a', h, n, hn, b, rfl⟩)
      · cases h
      · cases h; exact ⟨_, hn, rfl⟩
  | null a => simp [RType.isNullable, IsNullType]
  | _ => simp [RType.isNullable, IsNullType]

/-- C17: `is_optional` holds exactly for unions with a default, a plain null, and exactly one
member that is not a plain null. -/
theorem C17_is_optional (ts : List RType) (a : Attrs) (hr : ∀ t ∈ ts, RealType t) :
    RType.isOptional ts a.extra = true ↔
      (∃ v, Dict.get? a.extra "default" = some v) ∧ (∃ n ∈ ts, IsPlainNull n) ∧
      ∃ pre t post, ts = pre ++ t :: post ∧ ¬ IsPlainNull t ∧
        (∀ x ∈ pre, IsPlainNull x) ∧ (∀ x ∈ post, IsPlainNull x) := by
  have hnull : RealType (.null {}) :=
    realType_leaf (by simp [RealNode, RType.attrs, Real, RealPairs, params]) rfl
  have h1 : (ts.any (fun t => RType.pyEq (.null {}) t)) = true ↔ ∃ n ∈ ts, IsPlainNull n := by
    rw [List.any_eq_true]
    constructor
    · rintro ⟨n, hn, h⟩; exact ⟨n, hn, RType.pyEq_symm _ _ hnull (hr n hn) h⟩
    · rintro ⟨n, hn, h⟩; exact ⟨n, hn, RType.pyEq_symm _ _ (hr n hn) hnull h⟩
  have h2 : Dict.has a.extra "default" = true ↔ ∃ v, Dict.get? a.extra "default" = some v := by
    unfold Dict.has; rw [Option.isSome_iff_exists]
  have h3 : ∀ ts : List RType,
      ((ts.filter (fun t => !RType.pyEq t (.null {}))).length == 1) = true ↔
      ∃ pre t post, ts = pre ++ t :: post ∧ ¬ IsPlainNull t ∧
        (∀ x ∈ pre, IsPlainNull x) ∧ (∀ x ∈ post, IsPlainNull x) := by
    intro ts
    simp only [beq_iff_eq]
    constructor
    · intro h
      induction ts with
      | nil => simp at h
      | cons x xs ih =>
        by_cases hx : IsPlainNull x
        · have hx' : RType.pyEq x (.null {}) = true := hx
          simp only [List.filter_cons, hx', Bool.not_true, Bool.false_eq_true, if_false] at h
          obtain ⟨pre, t, post, rfl, ht, hp, hq⟩ := ih h
          refine ⟨x :: pre, t, post, by simp, ht, ?_, hq⟩
          intro y hy
          rcases List.mem_cons.mp hy with rfl | hy
          · exact hx
          · exact hp y hy
        · have hx' : RType.pyEq x (.null {}) = false := by
            cases h' : RType.pyEq x (.null {}) with
            | false => rfl
            | true => exact absurd h' hx
          simp only [List.filter_cons, hx', Bool.not_false, if_true, List.length_cons,
            Nat.add_eq_right, List.length_eq_zero_iff] at h
          refine ⟨[], x, xs, by simp, hx, by simp, ?_⟩
          intro y hy
          have := List.filter_eq_nil_iff.mp h y hy
          simpa [IsPlainNull] using this
    · rintro ⟨pre, t, post, rfl, ht, hp, hq⟩
      have e1 : pre.filter (fun t => !RType.pyEq t (.null {})) = [] := by
        rw [List.filter_eq_nil_iff]; intro y hy; simpa [IsPlainNull] using hp y hy
      have e2 : post.filter (fun t => !RType.pyEq t (.null {})) = [] := by
        rw [List.filter_eq_nil_iff]; intro y hy; simpa [IsPlainNull] using hq y hy
      have e3 : RType.pyEq t (.null {}) = false := by
        cases h' : RType.pyEq t (.null {}) with
        | false => rfl
        | true => exact absurd h' ht
      simp [List.filter_append, List.filter_cons, e1, e2, e3]
  unfold RType.isOptional
  simp only [Bool.and_eq_true, h1, h2, h3 ts]
  constructor
  · rintro ⟨⟨a, b⟩, c⟩; exact ⟨b, a, c⟩
  · rintro ⟨b, a, c⟩; exact ⟨⟨a, b⟩, c⟩

/-- C17 with C14: making a type that is neither null nor a union nullable gives an optional. -/
theorem C17_made_nullable_is_optional (t : RType) (hu : t.typeName ≠ "union")
    (hn : t.typeName ≠ "null") :
    ∃ ts a, t.makeNullable = .union ts a ∧ RType.isOptional ts a.extra = true := by
  obtain ⟨a, ha, -⟩ := C14_make_nullable_wraps t hu hn
  obtain ⟨ts', a', h', -, -, -, hd⟩ := C14_make_nullable_promotes t
  rw [ha] at h'
  cases h'
  refine ⟨_, _, ha, ?_⟩
  have : RType.pyEq (bare t) (.null {}) = false := by
    cases t <;> simp_all [bare, RType.pyEq, RType.typeName, RType.withAttrs]
  have hnn : RType.pyEq (.null {}) (.null {}) = true := by decide +kernel
  simp [RType.isOptional, Dict.has, hd, List.filter_cons, this, hnn]

example : RType.isOptional [.null {}, .bool {}] [("default", .none)] = true := by decide +kernel
example : RType.isOptional [.null {}, .bool {}, .bool {}] [("default", .none)] = false := by
  decide +kernel

end Recap
