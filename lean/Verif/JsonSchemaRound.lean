import Verif.JsonSchemaWriteThms

/-!
# Writing and reading JSON Schemas

C70.
-/

set_option autoImplicit false

namespace Recap.Json

open Recap.Url Spec

variable {live : Registry} {env : Env}

/-! ## Descriptions and defaults -/

theorem native_attrs {t : RType} (h : Native t) : t.attrs = {} := by cases h <;> rfl

theorem native_not_union {t : RType} (h : Native t) : t.isUnion = false := by cases h <;> rfl

theorem withAttrs_self {t : RType} (h : t.attrs = {}) : t.withAttrs {} = t := by
  cases t <;> simp only [RType.attrs] at h <;> subst h <;> rfl

theorem withAttrs_withAttrs (t : RType) (a b : Attrs) : (t.withAttrs a).withAttrs b = t.withAttrs b := by
  cases t <;> rfl

theorem describe_name (i : Info) (n : Option String) : describe (i.attrs n) = describe (i.attrs .none) := by
  obtain ⟨doc, dflt⟩ := i
  cases dflt <;> cases n <;> simp [describe, Info.attrs, Dict.get?_cons] <;> rfl

/-- What is read of a written description and default. -/
theorem extra_written {i : Info} (hi : i.Proper) {body : Dict} (hb : BodyKeys body)
    (hid : "$id" ∉ Dict.keys body) (ids : Ids) :
    ∃ e, extraAttrs env (.dict (describe (i.attrs .none) ++ body)) ids = .ok (e, ids) ∧
      attrsOf e = i.attrs .none := by
  have h1 : Dict.get? (describe (i.attrs .none) ++ body) "$id" = .none := by
    rw [get?_describe _ _ (by decide) (by decide), Dict.get?_eq_none_iff]; exact hid
  have hbd : Dict.get? body "default" = .none := by
    rw [Dict.get?_eq_none_iff]; exact fun h => (hb _ h).1 rfl
  have hbe : Dict.get? body "description" = .none := by
    rw [Dict.get?_eq_none_iff]; exact fun h => (hb _ h).2 rfl
  refine ⟨copied (describe (i.attrs .none) ++ body) "description" "doc" ++
    copied (describe (i.attrs .none) ++ body) "default" "default", by simp only [extraAttrs, h1], ?_⟩
  obtain ⟨doc, dflt⟩ := i
  have hdoc : doc.truthy = true ∨ doc = .none ∧ doc.truthy = false := by
    rcases hi with h | h
    · simp only at h; subst h; exact Or.inr ⟨rfl, rfl⟩
    · exact Or.inl h
  rcases hdoc with hd | ⟨rfl, hd⟩ <;> cases dflt <;>
    simp [describe, Info.attrs, attrsOf, copied, Dict.get?_append, Dict.get?_cons, hd, hbd, hbe, Dict.getD]

/-! ## One type -/

/-- The schema of a type without its description and default: it is what is written, and it is read
as the type. -/
structure Body (live : Registry) (env : Env) (t : RType) (body : Dict) : Prop where
  keys : BodyKeys body
  nodup : (Dict.keys body).Nodup
  noid : "$id" ∉ Dict.keys body
  written : ∀ n a, weight (weightReg 0 live) t ≤ n → a.alias = .none →
    convertF live n true (t.withAttrs a) = .ok (describe a ++ body)
  read : ∀ (i : Info) ids, i.Proper →
    parse env (.dict (describe (i.attrs .none) ++ body)) ids = .ok (t.withAttrs (i.attrs .none), ids)

theorem read_of {t : RType} {body : Dict} (hk : BodyKeys body) (hid : "$id" ∉ Dict.keys body)
    (h : ∀ (e d : Dict) ids, (∀ k, k ≠ "default" → k ≠ "description" → Dict.get? d k = Dict.get? body k) →
      parseDict env (parse env) e d ids = .ok (t.withAttrs (attrsOf e), ids)) (i : Info) (ids : Ids)
    (hi : i.Proper) :
    parse env (.dict (describe (i.attrs .none) ++ body)) ids = .ok (t.withAttrs (i.attrs .none), ids) := by
  obtain ⟨e, h1, h2⟩ := extra_written (env := env) hi hk hid ids
  rw [parse_eq]
  simp only [schemaOf]
  rw [h1]
  simp only [bind, Except.bind]
  rw [h e _ ids (fun k h1 h2 => get?_describe _ _ h1 h2), h2]

theorem body_leaf {t : RType} {s : String} (hw : ∀ n a, a.alias = .none →
      convertF live (n + 1) true (t.withAttrs a) = .ok (Dict.update (describe a) [("type", .str s)]))
    (hp : ∀ (e d : Dict) ids, Dict.get? d "type" = some (.str s) → Dict.get? d "format" = .none →
      parseLeaf env e d ids = .ok (t.withAttrs (attrsOf e), ids))
    (hn : 0 < weight (weightReg 0 live) t) :
    Body live env t [("type", .str s)] := by
  have hk : BodyKeys [("type", PyVal.str s)] := by
    intro k hk
    simp only [Dict.keys, List.map_cons, List.map_nil, List.mem_singleton] at hk
    subst hk; decide
  refine ⟨hk, by simp [Dict.keys], by simp [Dict.keys], ?_, read_of hk (by simp [Dict.keys]) ?_⟩
  · intro n a h ha
    cases n with
    | zero => omega
    | succ n => rw [hw n a ha, update_describe hk (by simp [Dict.keys])]
  · intro e d ids hd
    have h1 : Dict.get? d "type" = some (.str s) := by rw [hd _ (by decide) (by decide)]; rfl
    have h2 : Dict.get? d "format" = .none := by rw [hd _ (by decide) (by decide)]; rfl
    have h3 : Dict.get? d "properties" = .none := by rw [hd _ (by decide) (by decide)]; rfl
    have h4 : Dict.get? d "items" = .none := by rw [hd _ (by decide) (by decide)]; rfl
    unfold parseDict
    simp only [h1, h3, h4, parseDict.parseArray]
    exact hp e d ids h1 h2

/-! ## Fields -/

theorem weight_withAttrs (l : Nat) {t : RType} (a : Attrs) : weight l (t.withAttrs a) = weight l t := by
  cases t <;> try rfl
  rename_i r _
  cases r <;> rfl

theorem containsStr_list (xs : List PyVal) (name : String) :
    PyVal.containsStr (.list xs) name = .ok (decide (.str name ∈ xs)) := by
  simp only [PyVal.containsStr, Except.ok.injEq]
  induction xs with
  | nil => rfl
  | cons x xs ih =>
    rw [List.any_cons, ih]
    cases x <;> simp [PyVal.pyEq, BEq.beq]

theorem required_subset {names : List String} {fs : List RType} (h : NativeFields names fs) :
    ∀ name, PyVal.str name ∈ requiredNames fs → name ∈ names := by
  have key : ∀ name, (∃ f ∈ fs, nameOf f = some (.str name)) → name ∈ names := by
    have hn : ∀ (t : RType) (i : Info) n, nameOf (t.withAttrs (i.attrs (some n))) = some (.str n) := by
      intro t i n
      rw [nameOf, attrs_withAttrs]
      obtain ⟨doc, dflt⟩ := i
      cases dflt <;> simp [Info.attrs, Dict.get?_cons]
    induction h using NativeFields.rec (motive_1 := fun _ _ => True) with
    | nil => simp
    | required i _ _ _ _ _ ih =>
      rintro n ⟨f, hf, hnf⟩
      rcases List.mem_cons.mp hf with rfl | hf
      · rw [hn] at hnf; cases hnf; simp
      · exact List.mem_cons_of_mem _ (ih n ⟨f, hf, hnf⟩)
    | optional i _ _ _ _ _ _ _ ih =>
      rintro n ⟨f, hf, hnf⟩
      rcases List.mem_cons.mp hf with rfl | hf
      · have := hn (.union [] {}) i
        simp only [RType.withAttrs, nameOf, RType.attrs] at this hnf
        rw [this] at hnf; cases hnf; simp
      · exact List.mem_cons_of_mem _ (ih n ⟨f, hf, hnf⟩)
    | _ => trivial
  intro name h
  obtain ⟨f, hf, hfn⟩ := List.mem_filterMap.mp h
  exact key name ⟨f, (List.mem_filter.mp hf).1, hfn⟩

/-- The properties of fields: they are what is written, and they are read as the fields, if exactly
the required ones are listed. -/
structure Props (live : Registry) (env : Env) (names : List String) (fs : List RType) (ps : Dict) : Prop where
  keys : Dict.keys ps = names
  written : ∀ n acc req, weightAll (weightReg 0 live) fs ≤ n → (∀ k ∈ names, k ∉ Dict.keys acc) →
    names.Nodup → convertFields (convertF live n true) fs acc req = .ok (acc ++ ps, req ++ requiredNames fs)
  read : ∀ ids req, (∀ name ∈ names, ∃ b, PyVal.containsStr req name = .ok b ∧
      (b = true ↔ .str name ∈ requiredNames fs)) → names.Nodup →
    parseProps (parse env) req ps ids = .ok (fs, ids)

theorem name_required (t : RType) (i : Info) (n : String) :
    nameOf (t.withAttrs (i.attrs (some n))) = some (.str n) := by
  rw [nameOf, attrs_withAttrs]
  obtain ⟨doc, dflt⟩ := i
  cases dflt <;> simp [Info.attrs, Dict.get?_cons]

theorem named_attrs (t : RType) (i : Info) (n : String) :
    named n (t.withAttrs (i.attrs .none)) = t.withAttrs (i.attrs (some n)) := by
  rw [named, withAttrs_withAttrs, attrs_withAttrs]
  obtain ⟨doc, dflt⟩ := i
  cases dflt <;> simp [Info.attrs, Dict.set]

theorem not_null_eq {t : RType} (h : t.isNull = false) (a : Attrs) :
    RType.pyEq t (.null a) = false ∧ RType.pyEq (.null a) t = false := by
  cases t <;> simp_all [RType.pyEq, RType.isNull]

theorem optional_union {t : RType} {i : Info} (h : t.isNull = false) (hd : i.default.isSome = true)
    (n : Option String) : RType.isOptional [.null {}, t] (i.attrs n).extra = true := by
  obtain ⟨doc, dflt⟩ := i
  cases dflt with
  | none => cases hd
  | some v =>
    have e : RType.pyEq (.null {}) (.null {}) = true := by decide +kernel
    simp [RType.isOptional, e, not_null_eq h, Info.attrs, Dict.has, Dict.get?_cons]

theorem optionalField_native {t : RType} {i : Info} (ht : Native t) (h : t.isNull = false)
    (hd : i.default.isSome = true) :
    optionalField (t.withAttrs (i.attrs .none)) = .union [.null {}, t] (i.attrs .none) := by
  have h1 : (t.withAttrs (i.attrs .none)).isNullable = false := by
    cases ht <;> first | rfl | cases h
  have h2 : (t.withAttrs (i.attrs .none)).makeNullable = .union [.null {}, t] (i.attrs .none) := by
    obtain ⟨doc, dflt⟩ := i
    cases dflt with
    | none => cases hd
    | some v =>
      cases ht <;> first | rfl | cases h
  obtain ⟨doc, dflt⟩ := i
  cases dflt with
  | none => cases hd
  | some v =>
    rw [optionalField]
    simp only [h1, Bool.false_eq_true, if_false, h2]
    simp [RType.attrs, Info.attrs, Dict.has, Dict.get?_cons]

theorem body_list {t : RType} {i : Info} (hi : i.Proper) (hb : ∃ body, Body live env t body) :
    ∃ body, Body live env (.list (t.withAttrs (i.attrs .none)) .none (.bool true) {}) body := by
  obtain ⟨body, hb⟩ := hb
  let d' := describe (i.attrs .none) ++ body
  have hk : BodyKeys [("type", PyVal.str "array"), ("items", .dict d')] := by
    intro k hk
    simp only [Dict.keys, List.map_cons, List.map_nil, List.mem_cons, List.not_mem_nil, or_false] at hk
    rcases hk with rfl | rfl <;> decide
  refine ⟨[("type", .str "array"), ("items", .dict d')], hk, by simp [Dict.keys], by simp [Dict.keys], ?_,
    read_of hk (by simp [Dict.keys]) ?_⟩
  · intro n a hn ha
    cases n with
    | zero => simp [weight] at hn
    | succ n =>
      have := hb.written n (i.attrs .none) (by simp only [weight, weight_withAttrs] at hn; omega) rfl
      rw [RType.withAttrs, convertF]
      simp only [ownAlias, RType.attrs, ha, if_true, this, bind, Except.bind, pure, Except.pure]
      rw [update_describe hk (by simp [Dict.keys])]
  · intro e d ids hd
    have h1 : Dict.get? d "type" = some (.str "array") := by rw [hd _ (by decide) (by decide)]; rfl
    have h3 : Dict.get? d "properties" = .none := by rw [hd _ (by decide) (by decide)]; rfl
    have h4 : Dict.get? d "items" = some (.dict d') := by rw [hd _ (by decide) (by decide)]; rfl
    unfold parseDict
    simp only [h1, h3, h4, parseDict.parseArray, if_true]
    rw [hb.read i ids hi]
    rfl

theorem body_struct {names : List String} {fs : List RType} (hn : names.Nodup)
    (hp : ∃ ps, Props live env names fs ps) : ∃ body, Body live env (.struct fs {}) body := by
  obtain ⟨ps, hp⟩ := hp
  let e0 : Dict := if (requiredNames fs).isEmpty then [] else [("required", .list (requiredNames fs))]
  have hreq : ∀ k ∈ Dict.keys e0, k = "required" := by
    intro k hk
    simp only [e0] at hk
    split at hk <;> simp_all [Dict.keys]
  have hnd : (Dict.keys ([("type", PyVal.str "object"), ("properties", .dict ps)] ++ e0)).Nodup := by
    simp only [e0]
    split <;> simp [Dict.keys]
  have hkeys : ∀ k ∈ Dict.keys ([("type", PyVal.str "object"), ("properties", .dict ps)] ++ e0),
      k ∈ ["type", "properties", "required"] := by
    intro k hk
    simp only [Dict.keys, List.map_append, List.map_cons, List.map_nil, List.mem_append, List.mem_cons,
      List.not_mem_nil, or_false] at hk ⊢
    rcases hk with (rfl | rfl) | hk
    · simp
    · simp
    · rw [hreq k hk]; simp
  have hk : BodyKeys ([("type", PyVal.str "object"), ("properties", .dict ps)] ++ e0) := by
    intro k hk
    have := hkeys k hk
    simp only [List.mem_cons, List.not_mem_nil, or_false] at this
    rcases this with rfl | rfl | rfl <;> decide
  have hid : "$id" ∉ Dict.keys ([("type", PyVal.str "object"), ("properties", .dict ps)] ++ e0) := by
    intro h
    have := hkeys _ h
    simp at this
  refine ⟨_, hk, hnd, hid, ?_, read_of hk hid ?_⟩
  · intro n a hn' ha
    cases n with
    | zero => simp [weight] at hn'
    | succ n =>
      have := hp.written n [] [] (by simp only [weight] at hn'; omega) (by simp [Dict.keys]) hn
      rw [RType.withAttrs, convertF]
      simp only [ownAlias, RType.attrs, ha, if_true, this, bind, Except.bind, pure, Except.pure,
        List.nil_append]
      rw [← update_describe hk hnd]
  · intro e d ids hd
    have h1 : Dict.get? d "type" = some (.str "object") := by rw [hd _ (by decide) (by decide)]; rfl
    have h3 : Dict.get? d "properties" = some (.dict ps) := by rw [hd _ (by decide) (by decide)]; rfl
    have h4 : Dict.getD d "required" (.list []) = .list (requiredNames fs) := by
      rw [Dict.getD, hd _ (by decide) (by decide)]
      simp only [e0]
      cases hr : requiredNames fs <;> simp [Dict.get?_cons]
    unfold parseDict
    simp only [h1, h3, h4, if_true]
    rw [hp.read ids _ (fun name _ => ⟨_, containsStr_list _ _, by simp⟩) hn]
    rfl

theorem props_required {name : String} {t : RType} {names : List String} {fs : List RType} {i : Info}
    (hne : name ≠ "") (hi : i.Proper) (ht : Native t) (hb : ∃ body, Body live env t body)
    (hp : ∃ ps, Props live env names fs ps) :
    ∃ ps, Props live env (name :: names) (t.withAttrs (i.attrs (some name)) :: fs) ps := by
  obtain ⟨body, hb⟩ := hb
  obtain ⟨ps, hp⟩ := hp
  have hnm := name_required t i name
  have hopt : isOptionalField (t.withAttrs (i.attrs (some name))) = false := by
    cases ht <;> rfl
  have hreq : requiredNames (t.withAttrs (i.attrs (some name)) :: fs) = .str name :: requiredNames fs := by
    rw [requiredNames_cons _ _ hnm, hopt]; simp
  refine ⟨(name, .dict (describe (i.attrs .none) ++ body)) :: ps, by simp [Dict.keys, ← hp.keys], ?_, ?_⟩
  · intro n acc req hn hacc hnd
    simp only [List.nodup_cons] at hnd
    simp only [weightAll, weight_withAttrs] at hn
    have hw := hb.written n (i.attrs (some name)) (by omega) rfl
    rw [describe_name] at hw
    rw [nameOf] at hnm
    simp only [convertFields, hnm, hne, if_false, hw, bind, Except.bind, hopt, Bool.false_eq_true]
    rw [Dict.set_of_not_mem _ (hacc name (by simp)), hp.written n _ _ (by omega) ?_ hnd.2, hreq]
    · simp
    · intro k hk hk'
      simp only [Dict.keys, List.map_append, List.map_cons, List.map_nil, List.mem_append,
        List.mem_singleton] at hk'
      rcases hk' with hk' | rfl
      · exact hacc k (by simp [hk]) hk'
      · exact hnd.1 hk
  · intro ids req hr hnd
    simp only [List.nodup_cons] at hnd
    obtain ⟨b, hb1, hb2⟩ := hr name (by simp)
    have : b = true := hb2.mpr (by rw [hreq]; simp)
    subst this
    simp only [parseProps]
    rw [hb.read i ids hi]
    simp only [bind, Except.bind, hb1]
    rw [hp.read ids req ?_ hnd.2]
    · simp [named_attrs, pure, Except.pure]
    · intro k hk
      obtain ⟨b, hb1, hb2⟩ := hr k (by simp [hk])
      refine ⟨b, hb1, hb2.trans ?_⟩
      rw [hreq]
      simp only [List.mem_cons, PyVal.str.injEq, or_iff_right_iff_imp]
      rintro rfl
      exact absurd hk hnd.1

theorem props_optional {name : String} {t : RType} {names : List String} {fs : List RType} {i : Info}
    (hne : name ≠ "") (hi : i.Proper) (hd : i.default.isSome = true) (ht : Native t)
    (hnull : t.isNull = false) (hf : NativeFields names fs) (hb : ∃ body, Body live env t body)
    (hp : ∃ ps, Props live env names fs ps) :
    ∃ ps, Props live env (name :: names) (.union [.null {}, t] (i.attrs (some name)) :: fs) ps := by
  obtain ⟨body, hb⟩ := hb
  obtain ⟨ps, hp⟩ := hp
  have hnm : nameOf (.union [.null {}, t] (i.attrs (some name))) = some (.str name) := name_required (.union [.null {}, t] {}) i name
  have hopt : isOptionalField (.union [.null {}, t] (i.attrs (some name))) = true :=
    optional_union hnull hd _
  have hreq : requiredNames (.union [.null {}, t] (i.attrs (some name)) :: fs) = requiredNames fs := by
    rw [requiredNames_cons _ _ hnm, hopt]; simp
  refine ⟨(name, .dict (describe (i.attrs .none) ++ body)) :: ps, by simp [Dict.keys, ← hp.keys], ?_, ?_⟩
  · intro n acc req hn hacc hnd
    simp only [List.nodup_cons] at hnd
    simp only [weightAll, weight] at hn
    have hw : convertF live n true (.union [.null {}, t] (i.attrs (some name))) =
        .ok (describe (i.attrs .none) ++ body) := by
      cases n with
      | zero => omega
      | succ n =>
        have hw := hb.written n {} (by omega) rfl
        rw [withAttrs_self (native_attrs ht)] at hw
        have hf : [RType.null {}, t].filter (fun t => !t.isNull) = [t] := by
          simp [List.filter_cons, hnull]; rfl
        rw [convertF]
        simp only [ownAlias, RType.attrs, Info.attrs, if_true]
        have ho := optional_union hnull hd (some name)
        simp only [Info.attrs] at ho
        simp only [ho, if_true, hf, hw, bind, Except.bind, pure, Except.pure]
        have hdd := describe_name i (some name)
        simp only [Info.attrs] at hdd
        rw [hdd]
        have : describe {} ++ body = body := rfl
        rw [this, update_describe hb.keys hb.nodup]
    rw [nameOf] at hnm
    simp only [convertFields, hnm, hne, if_false, hw, bind, Except.bind, hopt, if_true]
    rw [Dict.set_of_not_mem _ (hacc name (by simp)), hp.written n _ _ (by omega) ?_ hnd.2, hreq]
    · simp
    · intro k hk hk'
      simp only [Dict.keys, List.map_append, List.map_cons, List.map_nil, List.mem_append,
        List.mem_singleton] at hk'
      rcases hk' with hk' | rfl
      · exact hacc k (by simp [hk]) hk'
      · exact hnd.1 hk
  · intro ids req hr hnd
    simp only [List.nodup_cons] at hnd
    obtain ⟨b, hb1, hb2⟩ := hr name (by simp)
    have : b = false := by
      cases b with
      | false => rfl
      | true =>
        have := hb2.mp rfl
        rw [hreq] at this
        exact absurd (required_subset hf name this) hnd.1
    subst this
    simp only [parseProps]
    rw [hb.read i ids hi]
    simp only [bind, Except.bind, hb1]
    rw [hp.read ids req ?_ hnd.2]
    · simp only [Bool.false_eq_true, if_false, pure, Except.pure]
      rw [optionalField_native ht hnull hd]
      have := named_attrs (.union [.null {}, t] {}) i name
      simp only [RType.withAttrs] at this
      rw [this]
    · intro k hk
      obtain ⟨b, hb1, hb2⟩ := hr k (by simp [hk])
      refine ⟨b, hb1, hb2.trans ?_⟩
      rw [hreq]

theorem native_body {t : RType} (h : Native t) : ∃ body, Body live env t body := by
  induction h using Native.rec (motive_2 := fun names fs _ => ∃ ps, Props live env names fs ps) with
  | string =>
    refine ⟨_, body_leaf (s := "string") ?_ ?_ (by simp [weight])⟩
    · intro n a ha; simp [convertF, RType.withAttrs, ownAlias, RType.attrs, ha]
    · intro e d ids h1 h2; simp [parseLeaf, parseString, h1, h2, RType.withAttrs]
  | number =>
    refine ⟨_, body_leaf (s := "number") ?_ ?_ (by simp [weight])⟩
    · intro n a ha; simp [convertF, RType.withAttrs, ownAlias, RType.attrs, ha]
    · intro e d ids h1 h2; simp [parseLeaf, h1, RType.withAttrs]
  | integer =>
    refine ⟨_, body_leaf (s := "integer") ?_ ?_ (by simp [weight])⟩
    · intro n a ha; simp [convertF, RType.withAttrs, ownAlias, RType.attrs, ha]
    · intro e d ids h1 h2; simp [parseLeaf, h1, RType.withAttrs]
  | boolean =>
    refine ⟨_, body_leaf (s := "boolean") ?_ ?_ (by simp [weight])⟩
    · intro n a ha; simp [convertF, RType.withAttrs, ownAlias, RType.attrs, ha]
    · intro e d ids h1 h2; simp [parseLeaf, h1, RType.withAttrs]
  | null =>
    refine ⟨_, body_leaf (s := "null") ?_ ?_ (by simp [weight])⟩
    · intro n a ha; simp [convertF, RType.withAttrs, ownAlias, RType.attrs, ha]
    · intro e d ids h1 h2; simp [parseLeaf, h1, RType.withAttrs]
  | list i hi _ ih => exact body_list hi ih
  | struct _ hn ih => exact body_struct hn ih
  | nil =>
    exact ⟨[], rfl, fun n acc req _ _ _ => by simp [convertFields, requiredNames], fun ids req _ _ => rfl⟩
  | required i hne hi ht _ ih1 ih2 => exact props_required hne hi ht ih1 ih2
  | optional i hne hi hd ht hnull hf ih1 ih2 => exact props_optional hne hi hd ht hnull hf ih1 ih2

/-! ## Aliases -/

theorem native_defs {t : RType} (f : Bool → RType → Except PyErr Dict) (h : Native t) :
    ∀ a : Attrs, a.alias = .none → aliasDefs f (t.withAttrs a) = .ok [] := by
  have hown : ∀ t : RType, t.attrs.alias = .none → ownDefs f t = .ok [] := by
    intro t ht
    simp [ownDefs, ht, PyVal.truthy, isBuiltin, bind, Except.bind, pure, Except.pure]
  induction h using Native.rec (motive_2 := fun _ fs _ => aliasDefsAll f fs [] = .ok []) with
  | @list t i _ _ ih =>
    intro a ha
    have h1 := ih (i.attrs .none) rfl
    have h2 := hown (.list (t.withAttrs (i.attrs .none)) .none (.bool true) a) ha
    rw [RType.withAttrs, aliasDefs, h1, h2]
    rfl
  | @struct _ fs _ _ ih =>
    intro a ha
    rw [RType.withAttrs, aliasDefs, hown (.struct fs a) ha]
    exact ih
  | nil => rfl
  | @required name _ _ _ i _ _ _ _ ih1 ih2 =>
    rw [aliasDefsAll, ih1 (i.attrs (some name)) rfl]
    exact ih2
  | @optional name t _ _ i _ _ _ ht _ _ ih1 ih2 =>
    have h1 := ih1 {} rfl
    rw [withAttrs_self (native_attrs ht)] at h1
    simp only [aliasDefsAll, aliasDefs, h1, hown (.null {}) rfl,
      hown (.union [.null {}, t] (i.attrs (some name))) rfl, bind, Except.bind]
    exact ih2
  | _ => intro a ha; exact hown _ ha

/-- C70.  A struct that JSON Schema can express is written, and what is written is read as the same
struct. -/
theorem C70_round_trip_partial (live : Registry) (env : Env) {names : List String} {fs : List RType}
    (i : Info) (ids : Ids) (hf : NativeFields names fs) (hn : names.Nodup) (hi : i.Proper) :
    ∃ d, fromRecap live (.struct fs (i.attrs .none)) = .ok d ∧
      toRecap env (.dict d) ids = .ok (.struct fs (i.attrs .none), ids) := by
  have ht : Native (.struct fs {}) := .struct hf hn
  obtain ⟨body, hb⟩ := native_body (live := live) (env := env) ht
  refine ⟨describe (i.attrs .none) ++ body, ?_, ?_⟩
  · unfold fromRecap
    simp only
    have h1 := hb.written (weight (weightReg 0 live) (.struct fs (i.attrs .none))) (i.attrs .none)
      (Nat.le_refl _) rfl
    have h2 := native_defs (convertF live (weight (weightReg 0 live) (.struct fs (i.attrs .none)))) ht
      (i.attrs .none) rfl
    simp only [RType.withAttrs] at h1 h2
    rw [h1, h2]
    rfl
  · unfold toRecap
    rw [hb.read i ids hi]
    rfl

/-- A struct with nested lists and structs, descriptions and an optional field. -/
example (env : Env) : ∃ d, fromRecap [] (.struct [
      .list (.struct [.float (.int 64) { extra := [("name", .str "x")] }] { doc := .str "a point" })
        .none (.bool true) { extra := [("name", .str "points")] },
      .union [.null {}, .string .none (.bool true) {}]
        { doc := .str "a label", extra := [("default", .none), ("name", .str "label")] }] {}) = .ok d ∧
    toRecap env (.dict d) [] = .ok (.struct [
      .list (.struct [.float (.int 64) { extra := [("name", .str "x")] }] { doc := .str "a point" })
        .none (.bool true) { extra := [("name", .str "points")] },
      .union [.null {}, .string .none (.bool true) {}]
        { doc := .str "a label", extra := [("default", .none), ("name", .str "label")] }] {}, []) :=
  C70_round_trip_partial [] env (names := ["points", "label"]) {} []
    (.required {} (by decide) (Or.inl rfl) (.list { doc := .str "a point" } (Or.inr rfl)
        (.struct (names := ["x"]) (.required {} (by decide) (Or.inl rfl) .number .nil) (by simp)))
      (.optional { doc := .str "a label", default := some .none } (by decide) (Or.inr rfl) rfl .string rfl .nil))
    (by decide) (Or.inl rfl)

/-- C70 does not hold of the other types, though the schemas that are written for some of them are
read again: bytes and enums come back as strings, and the bits of an integer are lost. -/
theorem C70_lossy_refuted (env : Env) :
    ∀ t ∈ [RType.bytes .none (.bool true) { extra := [("name", .str "f")] },
      .enum (.list [.str "A"]) { extra := [("name", .str "f")] },
      .string (.int 10) (.bool true) { extra := [("name", .str "f")] },
      .int (.int 64) (.bool true) { extra := [("name", .str "f")] },
      .float (.int 32) { extra := [("name", .str "f")] },
      .string .none (.bool true) { logical := .str "org.iso.8601.Date", extra := [("name", .str "f")] },
      .list (.bool {}) (.int 3) (.bool false) { extra := [("name", .str "f")] }],
    ∃ d t', fromRecap [] (.struct [t] {}) = .ok d ∧ toRecap env (.dict d) [] = .ok (.struct [t'] {}, []) ∧
      RType.pyEq t t' = false := by
  intro t ht
  simp only [List.mem_cons, List.not_mem_nil, or_false] at ht
  rcases ht with rfl | rfl | rfl | rfl | rfl | rfl | rfl
  all_goals exact ⟨_, _, rfl, rfl, by decide +kernel⟩

/-- C70 does not hold of the other types: the schemas that are written for maps, unions and aliased
types are not read. -/
theorem C70_unread_refuted (env : Env) :
    ∀ t ∈ [RType.map (.string .none (.bool true) {}) (.bool {}) { extra := [("name", .str "f")] },
      .union [.bool {}, .string .none (.bool true) {}] { extra := [("name", .str "f")] },
      .bool { alias := .str "x.Y", extra := [("name", .str "f")] }],
    ∃ d e, fromRecap [] (.struct [t] {}) = .ok d ∧ toRecap env (.dict d) [] = .error e := by
  intro t ht
  simp only [List.mem_cons, List.not_mem_nil, or_false] at ht
  rcases ht with rfl | rfl | rfl
  all_goals exact ⟨_, _, rfl, rfl⟩

end Recap.Json
