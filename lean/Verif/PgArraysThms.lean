import Verif.PgArraysSpec
import Verif.RelationalThms2
import Verif.ValuesLemmas

/-!
# Arrays of PostgreSQL are values of the type that is read (C142)
-/

set_option autoImplicit false

namespace Recap.PgArrays

open Recap.Relational Recap.Values Recap.Spec
open Recap.AvroData (HoldsIn)
open Recap.Avro.Spec (IntValue)

/-! ## Elements -/

theorem element_mem {e : String} {x : Val} (h : Element e x) : e ∈ readTypes ++ otherTypes := by
  cases h <;> decide

theorem lstrip_names : ∀ e ∈ readTypes ++ otherTypes, lstripUnderscore ("_" ++ e) = e := by decide +kernel

theorem names_truthy : ∀ e ∈ readTypes ++ otherTypes, (PyVal.str ("_" ++ e)).truthy = true := by decide +kernel

/-- What a column with an array gives. -/
theorem array_parse {cm : CaseMap} {cfg : PgConfig} {c : Dict} {e : String} {reg reg' : Registry} {b : RType} (hl : Lower cm)
    (he : e ∈ readTypes ++ otherTypes) (ha : ArrayOf cm c e) (h : pgParse cm cfg c reg = (.ok b, reg')) :
    ∃ v, pgScalar e (.int pgMax) (.int (pgMax * 8)) (pgElement e) = .ok v ∧
      ((cfg.enforce = true ∧ reg' = reg ∧ ∃ n, Dict.get? c "ATTNDIMS" = some n ∧ createNDim v n = .ok b) ∨
        (cfg.enforce = false ∧ ∃ s, b = selfList s v ∧ reg.registerAlias b = .ok reg')) := by
  obtain ⟨p, hp, hcase⟩ := pgParse_ok h
  obtain ⟨-, hd, -, -, ⟨u, r, hu, hr, hpu⟩, hn⟩ := pgProps_ok hp
  obtain ⟨ha, hudt⟩ := ha
  rw [hu] at hudt
  cases hudt
  have hr' : r = "_" ++ e := by
    unfold orElse at hr
    rw [if_pos (names_truthy e he)] at hr
    injection hr with hr
    exact hr.symm
  have hs : lstripUnderscore p.udt = e := by rw [hpu, hr', (hl e he).2, lstrip_names e he]
  rcases hcase with ⟨hne, -⟩ | ⟨-, v, -, hv, hcase⟩
  · exact absurd (dataType_unique hd ha) hne
  · rw [hs, (hl e he).1] at hv
    refine ⟨v, hv, ?_⟩
    rcases hcase with ⟨h1, h2, h3⟩ | ⟨h1, s, h2, h3, h4⟩
    · exact .inl ⟨h1, h2, _, hn, h3⟩
    · exact .inr ⟨h1, _, h3, h4⟩

theorem element_holds {e : String} {v : RType} {x : Val}
    (h : pgScalar e (.int pgMax) (.int (pgMax * 8)) (pgElement e) = .ok v) (hx : Element e x) : Holds v x := by
  cases hx with
  | int2 _ => cases h
  | int4 hi => cases h; exact .int rfl hi
  | int8 hi => cases h; exact .int rfl hi
  | float4 => cases h; exact .float (Int.le_refl _)
  | float8 => cases h; exact .float (Int.le_refl _)
  | bool => cases h
  | text hs | varchar hs | json hs | jsonb hs =>
    cases h; exact .string rfl (.inr ⟨_, rfl, by simp only [pgMax]; omega⟩)
  | bpchar hs => cases h
  | uuid hs => cases h; exact .uuid rfl hs (.inr ⟨_, rfl, by omega⟩)
  | bytea hn => cases h; exact .bytes rfl (.inr ⟨_, rfl, by simp only [pgMax]; omega⟩)
  | bit hn => cases h; exact .bytes rfl (.inr ⟨_, rfl, by simp only [pgMax]; omega⟩)
  | varbit => cases h
  | numeric => cases h
  | timestamp => cases h
  | timestamptz => cases h

/-- The element type holds neither null nor lists. -/
theorem simple_holds {v : RType} {x : Val} (hv : Simple v) (h : Holds v x) : x ≠ .null ∧ ∀ xs, x ≠ .list xs := by
  cases h with
  | null => exact absurd hv.nonNull (by simp [RType.isNullable])
  | list _ => exact absurd hv.leaf (by simp [children])
  | union _ _ => exact absurd rfl (hv.notUnion _ _)
  | _ => exact ⟨fun h => (by cases h), fun xs h => (by cases h)⟩

/-! ## Lists -/

theorem deepcopy_simple {v : RType} (hv : Simple v) (hp : ∀ r a, v ≠ .proxy r a) (reg : Registry) : v.deepcopy reg = v := by
  cases v with
  | list _ _ _ _ => exact absurd hv.leaf (by simp [children])
  | map _ _ _ => exact absurd hv.leaf (by simp [children])
  | struct fs a =>
    cases fs with
    | nil => rfl
    | cons f fs => exact absurd hv.leaf (by simp [children])
  | union ts a => exact absurd rfl (hv.notUnion _ _)
  | proxy r a => exact absurd rfl (hp r a)
  | _ => rfl

theorem pgScalar_notProxy (dt : String) (o m : PyVal) (col : Dict) :
    Yields (fun t => ∀ r a, t ≠ .proxy r a) (pgScalar dt o m col) := by
  unfold pgScalar
  branches
  all_goals (intro r a h; cases h)

theorem simple_in {v : RType} (hv : Simple v) (hp : ∀ r a, v ≠ .proxy r a) {reg : Registry} {y : Val} :
    HoldsIn reg v y ↔ Holds v y := by
  constructor
  · intro h
    cases h with
    | leaf _ h => exact h
    | list _ => exact absurd hv.leaf (by simp [children])
    | map _ _ => exact absurd hv.leaf (by simp [children])
    | struct h1 h2 =>
      rename_i fs vs a
      cases fs with
      | nil => exact .struct h1 (fun i f x hf _ => by simp at hf)
      | cons f fs => exact absurd hv.leaf (by simp [children])
    | union _ _ => exact absurd rfl (hv.notUnion _ _)
    | reference _ _ => exact absurd rfl (hp _ _)
  · exact fun h => .leaf hv.leaf h

/-- The values of a list that refers to itself: the reference inside what the reference stands for cannot be resolved,
so that there are two dimensions at most. -/
theorem selfList_holds {s : String} {v : RType} {reg reg' reg'' : Registry} (hv : Simple v) (hp : ∀ r a, v ≠ .proxy r a)
    (hr : reg.registerAlias (selfList s v) = .ok reg') (hg : Grows reg' reg'') (a : Attrs) (x : Val) :
    HoldsIn reg'' (.list (.union [v, .proxy .none { alias := .str s }] {}) .none (.bool true) a) x ↔
      ∃ xs, x = .list xs ∧ ∀ y ∈ xs, Holds v y ∨ ∃ ys, y = .list ys ∧ ∀ z ∈ ys, Holds v z := by
  obtain ⟨s', hs', hnot, hok, rfl⟩ := registerAlias_ok hr
  have e : s = s' := by simpa [selfList, RType.attrs] using hs'
  subst e
  have hfind : Registry.find? reg s = .none := by
    have := mt (find?_isSome_iff reg s).mp hnot
    simpa using this
  have hlive : reg''.fromAlias (.str s) = .ok (Registry.stored reg (selfList s v)) := by
    have : reg''.find? s = some (Registry.stored reg (selfList s v)) := by
      apply Grows.find? hg
      rw [find?_append, hfind]
      simp [Registry.find?]
    simp only [Registry.fromAlias, this]
  have hres : resolve reg'' .none { alias := .str s } =
      .ok (.list (.union [v, .proxy (some reg) { alias := .str s }] {}) .none (.bool true) {}) := by
    unfold resolve
    simp only [Option.getD_none, hlive, bind, Except.bind, applyOverrides]
    simp only [Registry.stored, selfList, RType.withAttrs, RType.attrs, RType.deepcopy, RType.deepcopyList, Dict.erase,
      List.filter_nil, deepcopy_simple hv hp]
  have hold : ∀ {r : Registry} {t : RType}, resolve r (some reg) { alias := .str s } ≠ .ok t := by
    intro r t h
    unfold resolve at h
    simp only [Option.getD_some, Registry.fromAlias, hfind] at h
    cases h
  have hleaf : ∀ {r : Registry} {y : Val}, HoldsIn r v y ↔ Holds v y := simple_in hv hp
  have hinner : ∀ {y : Val}, HoldsIn reg'' (.list (.union [v, .proxy (some reg) { alias := .str s }] {}) .none (.bool true) {}) y ↔
      ∃ ys, y = .list ys ∧ ∀ z ∈ ys, Holds v z := by
    intro y
    constructor
    · intro h
      cases h with
      | leaf h _ => exact absurd h (by simp [children])
      | list h =>
        refine ⟨_, rfl, fun z hz => ?_⟩
        cases h z hz with
        | leaf h _ => exact absurd h (by simp [children])
        | union hm h' =>
          rcases List.mem_cons.mp hm with rfl | hm
          · exact hleaf.mp h'
          · rcases List.mem_cons.mp hm with rfl | hm
            · cases h' with
              | leaf _ h => cases h
              | reference hr _ => exact absurd hr hold
            · cases hm
    · rintro ⟨ys, rfl, h⟩
      exact .list fun z hz => .union List.mem_cons_self (hleaf.mpr (h z hz))
  constructor
  · intro h
    cases h with
    | leaf h _ => exact absurd h (by simp [children])
    | list h =>
      refine ⟨_, rfl, fun z hz => ?_⟩
      cases h z hz with
      | leaf h _ => exact absurd h (by simp [children])
      | union hm h' =>
        rcases List.mem_cons.mp hm with rfl | hm
        · exact .inl (hleaf.mp h')
        · rcases List.mem_cons.mp hm with rfl | hm
          · cases h' with
            | leaf _ h => cases h
            | reference hr h'' =>
              rw [hres] at hr
              cases hr
              exact .inr (hinner.mp h'')
          · cases hm
  · rintro ⟨xs, rfl, h⟩
    refine .list fun y hy => ?_
    rcases h y hy with h | h
    · exact .union List.mem_cons_self (hleaf.mpr h)
    · exact .union (List.mem_cons_of_mem _ List.mem_cons_self) (.reference hres (hinner.mpr h))

/-! ## Fields -/

theorem list_attrs {reg : Registry} {t : RType} {l v : PyVal} {a a' : Attrs} {x : Val} (h : HoldsIn reg (.list t l v a) x) :
    HoldsIn reg (.list t l v a') x := by
  cases h with
  | leaf h _ => exact absurd h (by simp [children])
  | list h => exact .list h

/-- The field for a column with a list. -/
theorem field_list {cm : CaseMap} {c : Dict} {t : RType} {l v : PyVal} {a : Attrs} {f : RType} {reg : Registry} {x : Val}
    (hb : Bare (.list t l v a)) (h : fieldOf cm c (.list t l v a) = .ok f) :
    HoldsIn reg f x ↔ (x = .null ∧ DeclaredNullable cm c) ∨ HoldsIn reg (.list t l v a) x := by
  obtain ⟨n, d, name, hn, -, -, rfl⟩ := fieldOf_ok h
  by_cases hy : (cm.upper n == "YES") = true
  · rw [if_pos hy, if_pos (by rw [hy]; simp), makeNullable_bare hb rfl (fun ts a => by simp)]
    have hd : DeclaredNullable cm c := ⟨n, hn, by simpa using hy⟩
    obtain ⟨a', e⟩ : ∃ a', setExtra (setExtra (.union [.null {}, .list t l v a] { extra := [("default", .none)] })
        "default" d) "name" name = .union [.null {}, .list t l v a] a' := ⟨_, rfl⟩
    rw [e]
    constructor
    · intro h
      cases h with
      | leaf h _ => exact absurd h (by simp [children])
      | union hm h =>
        rcases List.mem_cons.mp hm with rfl | hm
        · cases h with
          | leaf _ h => cases h; exact .inl ⟨rfl, hd⟩
        · rcases List.mem_cons.mp hm with rfl | hm
          · exact .inr h
          · cases hm
    · rintro (⟨rfl, -⟩ | h)
      · exact .union List.mem_cons_self (.leaf rfl .null)
      · exact .union (List.mem_cons_of_mem _ List.mem_cons_self) h
  · rw [if_neg hy]
    have hd : ¬DeclaredNullable cm c := by
      rintro ⟨s, hs, hs'⟩
      rw [hn] at hs
      cases hs
      exact hy (by rw [hs']; rfl)
    have key : ∀ a', HoldsIn reg (.list t l v a') x ↔ (x = .null ∧ DeclaredNullable cm c) ∨ HoldsIn reg (.list t l v a) x :=
      fun a' => ⟨fun h => .inr (list_attrs h), fun h => list_attrs (h.resolve_left fun h => hd h.2)⟩
    split
    · exact key _
    · exact key _

/-- A column, with the registry after it. -/
theorem column_parse {cm : CaseMap} {d : Dialect} : ∀ {cols : List Dict} {reg reg' : Registry} {fs : List RType},
    fieldsOf cm (d.parse cm) cols reg = (.ok fs, reg') → ∀ (i : Nat) c f, cols[i]? = some c → fs[i]? = some f →
      ∃ b s s', d.parse cm c s = (.ok b, s') ∧ Grows s' reg' ∧ fieldOf cm c b = .ok f
  | [], reg, reg', fs, h, i, c, f, hc, hf => by simp at hc
  | c :: cs, reg, reg', fs, h, i, c', f', hc, hf => by
    obtain ⟨b, st₁, f, fs', h1, h2, h3, rfl⟩ := fieldsOf_cons h
    cases i with
    | zero =>
      simp only [List.getElem?_cons_zero, Option.some.injEq] at hc hf
      subst hc hf
      have := fieldsOf_grows cm d cs st₁
      rw [h3] at this
      exact ⟨b, reg, st₁, h1, this, h2⟩
    | succ i =>
      simp only [List.getElem?_cons_succ] at hc hf
      exact column_parse h3 i c' f' hc hf

/-- The values of a list with the dimensions that are declared. -/
theorem nDim_holds {v : RType} (hv : Simple v) (hp : ∀ r a, v ≠ .proxy r a) {reg : Registry} : ∀ (n : Nat) (x : Val),
    HoldsIn reg (nDimList v n) x ↔ Dimensions (fun y => y = .null ∨ Holds v y) n x
  | 0, x => by
    simp only [nDimList, Dimensions]
    constructor
    · intro h
      cases h with
      | leaf h _ => exact absurd h (by simp [children])
      | union hm h =>
        rcases List.mem_cons.mp hm with rfl | hm
        · cases h with
          | leaf _ h => cases h; exact .inl rfl
        · rcases List.mem_cons.mp hm with rfl | hm
          · exact .inr ((simple_in hv hp).mp h)
          · cases hm
    · rintro (rfl | h)
      · exact .union List.mem_cons_self (.leaf rfl .null)
      · exact .union (List.mem_cons_of_mem _ List.mem_cons_self) ((simple_in hv hp).mpr h)
  | n + 1, x => by
    simp only [nDimList, Dimensions]
    constructor
    · intro h
      cases h with
      | leaf h _ => exact absurd h (by simp [children])
      | list h => exact ⟨_, rfl, fun y hy => (nDim_holds hv hp n y).mp (h y hy)⟩
    · rintro ⟨xs, rfl, h⟩
      exact .list fun y hy => (nDim_holds hv hp n y).mpr (h y hy)

theorem dimensions_mono {P Q : Val → Prop} (h : ∀ x, P x → Q x) : ∀ (n : Nat) (x : Val), Dimensions P n x → Dimensions Q n x
  | 0, x, hx => h x hx
  | n + 1, _, ⟨xs, hx, hxs⟩ => ⟨xs, hx, fun y hy => dimensions_mono h n y (hxs y hy)⟩

/-! ## The property -/

/-- **C142, the values of a field, without enforced dimensions.** They are null, if the column can be null, and the
lists of values of the element type and of lists of them: there are two dimensions at most, and no element is null. -/
theorem C142_exactly_partial (cm : CaseMap) (cfg : PgConfig) (cols : List Dict) (reg reg' reg'' : Registry) (fs : List RType)
    (a : Attrs) (i : Nat) (c : Dict) (f : RType) (e : String) (hcm : Lower cm) (he : cfg.enforce = false)
    (h : (Dialect.postgresql cfg).toRecap cm cols reg = (.ok (.struct fs a), reg')) (hc : cols[i]? = some c)
    (hf : fs[i]? = some f) (hg : Grows reg' reg'') (hm : e ∈ readTypes ++ otherTypes) (ha : ArrayOf cm c e) :
    ∃ v, (∀ x, Element e x → Holds v x) ∧ (∀ x, Holds v x → x ≠ .null ∧ ∀ xs, x ≠ .list xs) ∧
      ∀ x, HoldsIn reg'' f x ↔ (x = .null ∧ DeclaredNullable cm c) ∨
        ∃ xs, x = .list xs ∧ ∀ y ∈ xs, Holds v y ∨ ∃ ys, y = .list ys ∧ ∀ z ∈ ys, Holds v z := by
  obtain ⟨fs', heq, hfs⟩ := toRecap_ok h
  cases heq
  obtain ⟨b, s, s', hb, hg', hfield⟩ := column_parse hfs i c f hc hf
  obtain ⟨v, hv, ⟨he', -⟩ | ⟨-, al, rfl, hr⟩⟩ := array_parse hcm hm ha hb
  · rw [he] at he'; cases he'
  · refine ⟨v, fun x hx => element_holds hv hx, fun x hx => simple_holds (pgScalar_simple _ _ _ _ _ hv) hx, fun x => ?_⟩
    rw [field_list (pgParse_bare hb) hfield]
    rw [selfList_holds (pgScalar_simple _ _ _ _ _ hv) (pgScalar_notProxy _ _ _ _ _ hv) hr (hg'.trans hg)]

/-- **C142, the part that holds without enforced dimensions.** Arrays with one or two dimensions of elements that are not
null are values of the field, now and after other tables have been read. -/
theorem C142_arrays_partial (cm : CaseMap) (cfg : PgConfig) (cols : List Dict) (reg reg' reg'' : Registry) (fs : List RType)
    (a : Attrs) (i : Nat) (c : Dict) (f : RType) (e : String) (n : Nat) (x : Val) (hcm : Lower cm) (he : cfg.enforce = false)
    (h : (Dialect.postgresql cfg).toRecap cm cols reg = (.ok (.struct fs a), reg')) (hc : cols[i]? = some c)
    (hf : fs[i]? = some f) (hg : Grows reg' reg'') (hm : e ∈ readTypes ++ otherTypes) (ha : ArrayOf cm c e)
    (hn : n = 1 ∨ n = 2) (hx : Dimensions (Element e) n x) : HoldsIn reg'' f x := by
  obtain ⟨v, h1, -, h2⟩ := C142_exactly_partial cm cfg cols reg reg' reg'' fs a i c f e hcm he h hc hf hg hm ha
  rw [h2]
  right
  rcases hn with rfl | rfl
  · obtain ⟨xs, rfl, hxs⟩ := hx
    exact ⟨xs, rfl, fun y hy => .inl (h1 y (hxs y hy))⟩
  · obtain ⟨xs, rfl, hxs⟩ := hx
    refine ⟨xs, rfl, fun y hy => .inr ?_⟩
    obtain ⟨ys, rfl, hys⟩ := hxs y hy
    exact ⟨ys, rfl, fun z hz => h1 z (hys z hz)⟩

/-- **C142, the part that holds with enforced dimensions.** The values of the field are null, if the column can be null,
and the arrays with exactly the dimensions that are declared, with elements that can be null. -/
theorem C142_enforced_partial (cm : CaseMap) (cfg : PgConfig) (cols : List Dict) (reg reg' reg'' : Registry)
    (fs : List RType) (a : Attrs) (i : Nat) (c : Dict) (f : RType) (e : String) (n : Nat) (hcm : Lower cm)
    (he : cfg.enforce = true) (h : (Dialect.postgresql cfg).toRecap cm cols reg = (.ok (.struct fs a), reg'))
    (hc : cols[i]? = some c) (hf : fs[i]? = some f) (hm : e ∈ readTypes ++ otherTypes) (ha : ArrayOf cm c e)
    (hn : Dict.get? c "ATTNDIMS" = some (.int (n + 1))) :
    (∀ x, Dimensions (fun y => y = .null ∨ Element e y) (n + 1) x → HoldsIn reg'' f x) ∧
      ∃ v, (∀ x, Element e x → Holds v x) ∧ (∀ x, Holds v x → x ≠ .null ∧ ∀ xs, x ≠ .list xs) ∧
        ∀ x, HoldsIn reg'' f x ↔ (x = .null ∧ DeclaredNullable cm c) ∨
          Dimensions (fun y => y = .null ∨ Holds v y) (n + 1) x := by
  obtain ⟨fs', heq, hfs⟩ := toRecap_ok h
  cases heq
  obtain ⟨b, s, s', hb, hg', hfield⟩ := column_parse hfs i c f hc hf
  obtain ⟨v, hv, ⟨-, -, k, hk, hk'⟩ | ⟨he', -⟩⟩ := array_parse hcm hm ha hb
  · rw [hn] at hk
    cases hk
    obtain ⟨m, rfl, hm'⟩ := createNDim_ok hk'
    obtain rfl : m = n + 1 := by
      rcases hm' with h | ⟨h, -⟩ | ⟨h, -⟩
      · simp only [PyVal.int.injEq] at h; omega
      · cases h
      · cases h
    have hs := pgScalar_simple _ _ _ _ _ hv
    have key : ∀ x, HoldsIn reg'' f x ↔ (x = .null ∧ DeclaredNullable cm c) ∨
        Dimensions (fun y => y = .null ∨ Holds v y) (n + 1) x := by
      intro x
      rw [← nDim_holds hs (pgScalar_notProxy _ _ _ _ _ hv) (reg := reg'') (n + 1) x]
      exact field_list (pgParse_bare hb) hfield
    exact ⟨fun x hx => (key x).mpr (.inr (dimensions_mono (fun y hy => hy.imp id (element_holds hv)) _ _ hx)), v,
      fun x hx => element_holds hv hx, fun x hx => simple_holds hs hx, key⟩
  · rw [he] at he'; cases he'

/-! ## What does not hold -/

/-- **C142 does not hold: three dimensions.** No array with three dimensions that is not empty is a value of the field,
although the field refers to itself so that there can be any number of dimensions. -/
theorem C142_dimensions_refuted (cm : CaseMap) (cfg : PgConfig) (cols : List Dict) (reg reg' reg'' : Registry)
    (fs : List RType) (a : Attrs) (i : Nat) (c : Dict) (f : RType) (e : String) (xs ys zs : List Val) (hcm : Lower cm)
    (he : cfg.enforce = false) (h : (Dialect.postgresql cfg).toRecap cm cols reg = (.ok (.struct fs a), reg'))
    (hc : cols[i]? = some c) (hf : fs[i]? = some f) (hg : Grows reg' reg'') (hm : e ∈ readTypes ++ otherTypes)
    (ha : ArrayOf cm c e) (hy : .list ys ∈ xs) (hz : .list zs ∈ ys) : ¬HoldsIn reg'' f (.list xs) := by
  obtain ⟨v, -, h1, h2⟩ := C142_exactly_partial cm cfg cols reg reg' reg'' fs a i c f e hcm he h hc hf hg hm ha
  rw [h2]
  rintro (⟨h, -⟩ | ⟨xs', h, hxs⟩)
  · cases h
  · cases h
    rcases hxs _ hy with h | ⟨ys', h, hys⟩
    · exact (h1 _ h).2 _ rfl
    · cases h
      exact (h1 _ (hys _ hz)).2 _ rfl

/-- **C142 does not hold: null.** Without enforced dimensions, no array with an element that is null is a value. -/
theorem C142_null_refuted (cm : CaseMap) (cfg : PgConfig) (cols : List Dict) (reg reg' reg'' : Registry)
    (fs : List RType) (a : Attrs) (i : Nat) (c : Dict) (f : RType) (e : String) (xs : List Val) (hcm : Lower cm)
    (he : cfg.enforce = false) (h : (Dialect.postgresql cfg).toRecap cm cols reg = (.ok (.struct fs a), reg'))
    (hc : cols[i]? = some c) (hf : fs[i]? = some f) (hg : Grows reg' reg'') (hm : e ∈ readTypes ++ otherTypes)
    (ha : ArrayOf cm c e) (hy : .null ∈ xs) : ¬HoldsIn reg'' f (.list xs) := by
  obtain ⟨v, -, h1, h2⟩ := C142_exactly_partial cm cfg cols reg reg' reg'' fs a i c f e hcm he h hc hf hg hm ha
  rw [h2]
  rintro (⟨h, -⟩ | ⟨xs', h, hxs⟩)
  · cases h
  · cases h
    rcases hxs _ hy with h | ⟨ys', h, hys⟩
    · exact (h1 _ h).1 rfl
    · cases h

/-- Tables with arrays of the other types are not read at all. -/
theorem C142_types_refuted (cm : CaseMap) (cfg : PgConfig) (cols : List Dict) (reg : Registry) (c : Dict) (e : String)
    (hcm : Lower cm) (hc : c ∈ cols) (hm : e ∈ otherTypes) (ha : ArrayOf cm c e) (t : RType) :
    ((Dialect.postgresql cfg).toRecap cm cols reg).1 ≠ .ok t := by
  intro h
  have h' : (Dialect.postgresql cfg).toRecap cm cols reg = (.ok t, ((Dialect.postgresql cfg).toRecap cm cols reg).2) := by
    rw [← h]
  obtain ⟨fs, rfl, hfs⟩ := toRecap_ok h'
  obtain ⟨i, hi, hic⟩ := List.getElem_of_mem hc
  have hl := (fieldsOf_index hfs).1
  obtain ⟨f, hf⟩ : ∃ f, fs[i]? = some f := ⟨_, List.getElem?_eq_getElem (by omega)⟩
  obtain ⟨b, s, s', hb, -, -⟩ := column_parse hfs i c f (by rw [List.getElem?_eq_getElem hi, hic]) hf
  obtain ⟨v, hv, -⟩ := array_parse hcm (List.mem_append_right _ hm) ha hb
  simp only [otherTypes, List.mem_cons, List.not_mem_nil, or_false] at hm
  rcases hm with rfl | rfl | rfl | rfl | rfl | rfl | rfl <;> cases hv

/-- **C142 does not hold: other dimensions.** With enforced dimensions, no array is a value that has elements where
another dimension is declared, or another dimension where elements are declared: PostgreSQL stores both. -/
theorem C142_enforced_refuted (cm : CaseMap) (cfg : PgConfig) (cols : List Dict) (reg reg' reg'' : Registry)
    (fs : List RType) (a : Attrs) (i : Nat) (c : Dict) (f : RType) (e : String) (n : Nat) (xs : List Val) (y : Val)
    (hcm : Lower cm) (he : cfg.enforce = true)
    (h : (Dialect.postgresql cfg).toRecap cm cols reg = (.ok (.struct fs a), reg'))
    (hc : cols[i]? = some c) (hf : fs[i]? = some f) (hm : e ∈ readTypes ++ otherTypes) (ha : ArrayOf cm c e)
    (hn : Dict.get? c "ATTNDIMS" = some (.int (n + 1))) (hy : y ∈ xs) (hl : (∃ ys, y = .list ys) ↔ n = 0) :
    ¬HoldsIn reg'' f (.list xs) := by
  obtain ⟨-, v, -, h1, h2⟩ := C142_enforced_partial cm cfg cols reg reg' reg'' fs a i c f e n hcm he h hc hf hm ha hn
  rw [h2]
  rintro (⟨h, -⟩ | ⟨xs', h, hxs⟩)
  · cases h
  · cases h
    have hy' := hxs y hy
    cases n with
    | zero =>
      obtain ⟨ys, rfl⟩ := hl.mpr rfl
      rcases hy' with h | h
      · cases h
      · exact (h1 _ h).2 _ rfl
    | succ n =>
      obtain ⟨ys, h, -⟩ := hy'
      exact absurd (hl.mp ⟨ys, h⟩) (by omega)

/-! ## Examples -/

theorem lower_ascii : Lower asciiCase := by
  intro e he
  exact (by decide +kernel : ∀ e ∈ readTypes ++ otherTypes, asciiCase.lower e = e ∧ asciiCase.lower ("_" ++ e) = "_" ++ e) e he

/-- A column with texts, `tags text[] not null`. -/
def tags : Dict := pgColumn "tags" "ARRAY" "_text" "NO" .none (.int 1)

theorem tags_array : ArrayOf asciiCase tags "text" := ⟨⟨"ARRAY", rfl, by decide +kernel⟩, by decide +kernel⟩

theorem tags_read : ∃ f reg', (Dialect.postgresql {}).toRecap asciiCase [tags] newRegistry = (.ok (.struct [f] {}), reg') :=
  ⟨_, _, rfl⟩

theorem tags_enforced : ∃ f reg',
    (Dialect.postgresql { enforce := true }).toRecap asciiCase [tags] newRegistry = (.ok (.struct [f] {}), reg') :=
  ⟨_, _, rfl⟩

/-- `{a,b}` and `{{a},{b}}` are values of the field, `{{{a}}}` and `{a,NULL}` are not. -/
example : ∃ f reg', (Dialect.postgresql {}).toRecap asciiCase [tags] newRegistry = (.ok (.struct [f] {}), reg') ∧
    HoldsIn reg' f (.list [.str "a", .str "b"]) ∧ HoldsIn reg' f (.list [.list [.str "a"], .list [.str "b"]]) ∧
    ¬HoldsIn reg' f (.list [.list [.list [.str "a"]]]) ∧ ¬HoldsIn reg' f (.list [.str "a", .null]) := by
  obtain ⟨f, reg', h⟩ := tags_read
  have ht : ∀ s ∈ ["a", "b"], Element "text" (.str s) := fun s hs => .text (by
    simp only [List.mem_cons, List.not_mem_nil, or_false] at hs
    rcases hs with rfl | rfl <;> decide +kernel)
  have hw := C142_arrays_partial asciiCase {} [tags] newRegistry reg' reg' [f] {} 0 tags f "text"
  refine ⟨f, reg', h, ?_, ?_, ?_, ?_⟩
  · exact hw 1 _ lower_ascii rfl h rfl rfl (.refl _) (by decide) tags_array (.inl rfl)
      ⟨_, rfl, by simp only [List.mem_cons, List.not_mem_nil, or_false]; rintro y (rfl | rfl) <;> exact ht _ (by simp)⟩
  · refine hw 2 _ lower_ascii rfl h rfl rfl (.refl _) (by decide) tags_array (.inr rfl) ⟨_, rfl, ?_⟩
    simp only [List.mem_cons, List.not_mem_nil, or_false]
    rintro y (rfl | rfl) <;>
      exact ⟨_, rfl, by simp only [List.mem_cons, List.not_mem_nil, or_false]; rintro y rfl; exact ht _ (by simp)⟩
  · exact C142_dimensions_refuted asciiCase {} [tags] newRegistry reg' reg' [f] {} 0 tags f "text" _ [.list [.str "a"]]
      [.str "a"] lower_ascii rfl h rfl rfl (.refl _) (by decide) tags_array (by simp) (by simp)
  · exact C142_null_refuted asciiCase {} [tags] newRegistry reg' reg' [f] {} 0 tags f "text" _ lower_ascii rfl h rfl rfl
      (.refl _) (by decide) tags_array (by simp)

/-- With enforced dimensions, `{a,NULL}` is a value of the field, and `{{a}}` is not. -/
example : ∃ f reg', (Dialect.postgresql { enforce := true }).toRecap asciiCase [tags] newRegistry =
      (.ok (.struct [f] {}), reg') ∧
    HoldsIn reg' f (.list [.str "a", .null]) ∧ ¬HoldsIn reg' f (.list [.list [.str "a"]]) := by
  obtain ⟨f, reg', h⟩ := tags_enforced
  refine ⟨f, reg', h, ?_, ?_⟩
  · refine (C142_enforced_partial asciiCase { enforce := true } [tags] newRegistry reg' reg' [f] {} 0 tags f "text" 0
      lower_ascii rfl h rfl rfl (by decide) tags_array rfl).1 _ ⟨_, rfl, ?_⟩
    simp only [List.mem_cons, List.not_mem_nil, or_false]
    rintro y (rfl | rfl)
    · exact .inr (.text (by decide +kernel))
    · exact .inl rfl
  · exact C142_enforced_refuted asciiCase { enforce := true } [tags] newRegistry reg' reg' [f] {} 0 tags f "text" 0 _
      (.list [.str "a"]) lower_ascii rfl h rfl rfl (by decide) tags_array rfl (by simp) (by simp)

/-- A column with dates and times: `timestamp[]`. -/
example (t : RType) : ((Dialect.postgresql {}).toRecap asciiCase
    [tags, pgColumn "at" "ARRAY" "_timestamp" "YES" .none (.int 1)] newRegistry).1 ≠ .ok t :=
  C142_types_refuted asciiCase {} _ newRegistry (pgColumn "at" "ARRAY" "_timestamp" "YES" .none (.int 1)) "timestamp"
    lower_ascii (by simp) (by decide) ⟨⟨"ARRAY", rfl, by decide +kernel⟩, by decide +kernel⟩ t

/-- **C142 does not hold**, whether dimensions are enforced or not. -/
theorem C142_arrays_refuted : ¬ArraysHeld asciiCase {} ∧ ¬ArraysHeld asciiCase { enforce := true } := by
  have ha : Element "text" (.str "a") := .text (by decide +kernel)
  constructor
  · intro hall
    obtain ⟨f, reg', h⟩ := tags_read
    refine C142_null_refuted asciiCase {} [tags] newRegistry reg' reg' [f] {} 0 tags f "text" [.null] lower_ascii rfl h rfl
      rfl (.refl _) (by decide) tags_array (by simp) (hall _ _ _ reg' _ _ 0 tags f _ h rfl rfl (.refl _)
        (.inr ⟨"text", 1, tags_array, by omega, by omega, _, rfl, ?_⟩))
    simp only [List.mem_cons, List.not_mem_nil, or_false]
    rintro y rfl
    exact .inl rfl
  · intro hall
    obtain ⟨f, reg', h⟩ := tags_enforced
    refine C142_enforced_refuted asciiCase { enforce := true } [tags] newRegistry reg' reg' [f] {} 0 tags f "text" 0
      [.list [.str "a"]] (.list [.str "a"]) lower_ascii rfl h rfl rfl (by decide) tags_array rfl (by simp) (by simp)
      (hall _ _ _ reg' _ _ 0 tags f _ h rfl rfl (.refl _) (.inr ⟨"text", 2, tags_array, by omega, by omega, _, rfl, ?_⟩))
    simp only [List.mem_cons, List.not_mem_nil, or_false]
    rintro y rfl
    refine ⟨_, rfl, ?_⟩
    simp only [List.mem_cons, List.not_mem_nil, or_false]
    rintro y rfl
    exact .inr ha

end Recap.PgArrays
