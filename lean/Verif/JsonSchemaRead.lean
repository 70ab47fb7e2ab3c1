import Verif.JsonSchemaLemmas

/-!
# Properties of reading JSON Schemas

C67 and C93.
-/

set_option autoImplicit false

namespace Recap.Json

open Recap.Url Spec

variable {env : Env}

/-! ## The cases of a successful reading -/

/-- How a dictionary was read. -/
inductive Read (env : Env) (d e : Dict) (ids1 : Ids) : RType → Ids → Prop
  | union {xs ts ids'} : Dict.get? d "type" = some (.list xs) →
      parseAll (parse env) xs ids1 = .ok (ts, ids') → Read env d e ids1 (.union ts (attrsOf e)) ids'
  | struct {props ts ids'} : Dict.get? d "type" = some (.str "object") →
      Dict.get? d "properties" = some (.dict props) →
      parseProps (parse env) (Dict.getD d "required" (.list [])) props ids1 = .ok (ts, ids') →
      Read env d e ids1 (.struct ts (attrsOf e)) ids'
  | list {items t ids'} : Dict.get? d "type" = some (.str "array") →
      Dict.get? d "items" = some items → parse env items ids1 = .ok (t, ids') →
      Read env d e ids1 (.list t .none (.bool true) (attrsOf e)) ids'
  | leaf {t ids'} : (∀ xs, Dict.get? d "type" ≠ some (.list xs)) →
      parseLeaf env e d ids1 = .ok (t, ids') → Read env d e ids1 t ids'

theorem parseDict_ok {e d : Dict} {ids1 ids' : Ids} {t : RType}
    (h : parseDict env (parse env) e d ids1 = .ok (t, ids')) : Read env d e ids1 t ids' := by
  have harr : (∀ xs, Dict.get? d "type" ≠ some (.list xs)) →
      parseDict.parseArray env (parse env) e d ids1 (Dict.get? d "items") = .ok (t, ids') →
      Read env d e ids1 t ids' := by
    intro hl h
    cases hi : Dict.get? d "items" with
    | none => rw [hi] at h; exact .leaf hl h
    | some v =>
      rw [hi] at h
      simp only [parseDict.parseArray] at h
      split at h
      · rename_i ht
        obtain ⟨⟨t1, i1⟩, h1, h⟩ := ok_bind h
        cases h
        exact .list ht hi h1
      · exact .leaf hl h
  unfold parseDict at h
  split at h
  · rename_i xs hxs
    obtain ⟨⟨ts, i1⟩, h1, h⟩ := ok_bind h
    cases h
    exact .union hxs h1
  · rename_i hl
    have hl' : ∀ xs, Dict.get? d "type" ≠ some (.list xs) := fun xs hx => hl xs hx
    cases hp : Dict.get? d "properties" with
    | none => rw [hp] at h; exact harr hl' h
    | some props =>
      rw [hp] at h
      dsimp only at h
      split at h
      · rename_i ht
        split at h
        · rename_i props
          obtain ⟨⟨ts, i1⟩, h1, h⟩ := ok_bind h
          cases h
          exact .struct ht hp h1
        · cases h
      · exact harr hl' h

theorem parse_dict_ok {d : Dict} {ids ids' : Ids} {t : RType}
    (h : parse env (.dict d) ids = .ok (t, ids')) :
    ∃ e ids1, extraAttrs env (.dict d) ids = .ok (e, ids1) ∧ Read env d e ids1 t ids' := by
  rw [parse_eq] at h
  obtain ⟨⟨e, i1⟩, h1, h⟩ := ok_bind h
  exact ⟨e, i1, h1, parseDict_ok h⟩

/-- A name is read like a dictionary with that type. -/
theorem parse_str (s : String) (ids : Ids) :
    parse env (.str s) ids = parse env (.dict [("type", .str s)]) ids := by
  rw [parse_eq, parse_eq]; rfl

theorem parse_ok_dict {v : PyVal} {ids ids' : Ids} {t : RType} (h : parse env v ids = .ok (t, ids')) :
    (∃ s, v = .str s) ∨ ∃ d, v = .dict d := by
  rw [parse_eq] at h
  obtain ⟨⟨e, i1⟩, h1, h⟩ := ok_bind h
  cases v with
  | str s => exact Or.inl ⟨s, rfl⟩
  | dict d => exact Or.inr ⟨d, rfl⟩
  | _ => exact nomatch h

/-! ## The attributes -/

theorem extra_default {d e : Dict} {ids ids1 : Ids} (h : extraAttrs env (.dict d) ids = .ok (e, ids1)) :
    "default" ∈ Dict.keys (attrsOf e).extra ↔ "default" ∈ Dict.keys d := by
  have hcop : ∀ kv ∈ copied d "description" "doc", kv.1 = "doc" := by
    intro kv hkv
    unfold copied at hkv
    split at hkv <;> simp_all
  have hdef : "default" ∈ Dict.keys (copied d "default" "default") ↔ "default" ∈ Dict.keys d := by
    rw [← Dict.has_iff (d := d), Dict.has, copied]
    cases Dict.get? d "default" <;> simp [Dict.keys]
  have hmem : ∀ rest : Dict, (∀ kv ∈ rest, kv.1 ≠ "default") →
      ("default" ∈ Dict.keys (attrsOf (copied d "description" "doc" ++ copied d "default" "default" ++
        rest)).extra ↔ "default" ∈ Dict.keys d) := by
    intro rest hrest
    rw [← hdef]
    simp only [attrsOf, Dict.keys, List.mem_map, List.mem_filter, decide_eq_true_eq, List.mem_append]
    constructor
    · rintro ⟨kv, ⟨(h1 | h1) | h1, h2⟩, h3⟩
      · exact absurd (hcop kv h1) (by rw [h2]; decide)
      · exact ⟨kv, h1, h3⟩
      · exact absurd h2 (hrest kv h1)
    · rintro ⟨kv, h1, h2⟩
      exact ⟨kv, ⟨Or.inl (Or.inr h1), h2⟩, h2⟩
  simp only [extraAttrs] at h
  split at h
  · cases h
    have := hmem [] (by simp)
    rwa [List.append_nil] at this
  · obtain ⟨alias, h1, h⟩ := ok_bind h
    cases h
    exact hmem _ (by simp)
  · cases h
  · cases h

theorem string_attrs (e : Dict) (format : Option PyVal) :
    (parseString e format).attrs.extra = (attrsOf e).extra ∧ (parseString e format).isUnion = false ∧
      (parseString e format).isNull = false := by
  unfold parseString
  repeat' split
  all_goals exact ⟨rfl, rfl, rfl⟩

theorem leaf_attrs {e d : Dict} {ids ids' : Ids} {t : RType} (h : parseLeaf env e d ids = .ok (t, ids')) :
    t.attrs.extra = (attrsOf e).extra ∧ t.isUnion = false ∧
      (t.isNull = true ↔ Dict.get? d "type" = some (.str "null")) := by
  have href : ∀ urn, parseRef env e urn ids = .ok (t, ids') →
      t.attrs.extra = (attrsOf e).extra ∧ t.isUnion = false ∧ t.isNull = false := by
    intro urn h
    simp only [parseRef] at h
    split at h
    · obtain ⟨a, h1, h⟩ := ok_bind h
      split at h
      · cases h
      · cases h; exact ⟨rfl, rfl, rfl⟩
    · cases h
  simp only [parseLeaf] at h
  split at h
  · rename_i ht
    cases h
    obtain ⟨h1, h2, h3⟩ := string_attrs e (Dict.get? d "format")
    exact ⟨h1, h2, by rw [h3, ht]; simp⟩
  · split at h
    · rename_i ht; cases h; rw [ht]; simp [RType.attrs, RType.isNull, RType.isUnion]
    · split at h
      · rename_i ht; cases h; rw [ht]; simp [RType.attrs, RType.isNull, RType.isUnion]
      · split at h
        · rename_i ht; cases h; rw [ht]; simp [RType.attrs, RType.isNull, RType.isUnion]
        · split at h
          · rename_i ht; cases h; rw [ht]; simp [RType.attrs, RType.isNull, RType.isUnion]
          · rename_i hnn
            split at h
            · obtain ⟨h1, h2, h3⟩ := href _ h
              exact ⟨h1, h2, by simp [h3, hnn]⟩
            · obtain ⟨h1, h2, h3⟩ := href _ h
              exact ⟨h1, h2, by simp [h3, hnn]⟩
            · cases h

/-- A schema is read as null exactly when it is the schema of null. -/
theorem parse_null {v : PyVal} {ids ids' : Ids} {t : RType} (h : parse env v ids = .ok (t, ids')) :
    t.isNull = true ↔ NullSchema v := by
  have key : ∀ d, parse env (.dict d) ids = .ok (t, ids') →
      (t.isNull = true ↔ Dict.get? d "type" = some (.str "null")) := by
    intro d h
    obtain ⟨e, ids1, h1, h2⟩ := parse_dict_ok h
    cases h2 with
    | union ht _ => rw [ht]; simp [RType.isNull]
    | struct ht _ _ => rw [ht]; simp [RType.isNull]
    | list ht _ _ => rw [ht]; simp [RType.isNull]
    | leaf _ hl => exact (leaf_attrs hl).2.2
  rcases parse_ok_dict h with ⟨s, rfl⟩ | ⟨d, rfl⟩
  · rw [parse_str] at h
    rw [key _ h]
    simp [NullSchema, Dict.get?]
  · rw [key _ h]
    simp [NullSchema]

theorem parseAll_mem {f : PyVal → Ids → Except PyErr (RType × Ids)} {xs : List PyVal} {ids ids' : Ids}
    {ts : List RType} (h : parseAll f xs ids = .ok (ts, ids')) :
    (∀ x ∈ xs, ∃ t ∈ ts, ∃ i i', f x i = .ok (t, i')) ∧
    (∀ t ∈ ts, ∃ x ∈ xs, ∃ i i', f x i = .ok (t, i')) := by
  induction xs generalizing ids ts with
  | nil => cases h; simp
  | cons x xs ih =>
    simp only [parseAll] at h
    obtain ⟨⟨t, i1⟩, h1, h⟩ := ok_bind h
    obtain ⟨⟨ts', i2⟩, h2, h⟩ := ok_bind h
    cases h
    obtain ⟨ih1, ih2⟩ := ih h2
    constructor
    · intro y hy
      rcases List.mem_cons.mp hy with rfl | hy
      · exact ⟨t, by simp, _, _, h1⟩
      · obtain ⟨t', ht', r⟩ := ih1 y hy
        exact ⟨t', by simp [ht'], r⟩
    · intro t' ht'
      rcases List.mem_cons.mp ht' with rfl | ht'
      · exact ⟨x, by simp, _, _, h1⟩
      · obtain ⟨y, hy, r⟩ := ih2 t' ht'
        exact ⟨y, by simp [hy], r⟩

/-- What a schema is read as need not be given exactly when the schema accepts null and has a
default. -/
theorem parse_need {v : PyVal} {ids ids' : Ids} {t : RType} (h : parse env v ids = .ok (t, ids')) :
    NeedNotBeGiven t ↔ NullWithDefault v := by
  rcases parse_ok_dict h with ⟨s, rfl⟩ | ⟨d, rfl⟩
  · constructor
    · rintro ⟨_, hd⟩
      rw [parse_str] at h
      obtain ⟨e, ids1, h1, h2⟩ := parse_dict_ok h
      have hx := extra_default h1
      have hno : "default" ∉ Dict.keys (attrsOf e).extra := by rw [hx]; simp [Dict.keys]
      exfalso
      cases h2 with
      | union _ _ => exact hno hd
      | struct _ _ _ => exact hno hd
      | list _ _ _ => exact hno hd
      | leaf _ hl => rw [(leaf_attrs hl).1] at hd; exact hno hd
    · rintro ⟨d, hd, _⟩; cases hd
  · have hnull := parse_null h
    obtain ⟨e, ids1, h1, h2⟩ := parse_dict_ok h
    have hx := extra_default h1
    have hns : NullSchema (.dict d) ↔ Dict.get? d "type" = some (.str "null") := by simp [NullSchema]
    have side : ∀ (_ : t.isUnion = false) (_ : ∀ xs, Dict.get? d "type" ≠ some (.list xs))
        (_ : t.attrs.extra = (attrsOf e).extra), NeedNotBeGiven t ↔ NullWithDefault (.dict d) := by
      intro hu hl he
      constructor
      · rintro ⟨h1 | ⟨ts, a, rfl, _⟩, h2⟩
        · rw [he, hx] at h2
          exact ⟨d, rfl, h2, Or.inl (hnull.mp h1)⟩
        · cases hu
      · rintro ⟨d', hd', h2, h1 | ⟨xs, h1, _⟩⟩
        · cases hd'
          exact ⟨Or.inl (hnull.mpr h1), by rw [he, hx]; exact h2⟩
        · cases hd'; exact absurd h1 (hl xs)
    cases h2 with
    | struct ht _ _ => exact side rfl (by rw [ht]; simp) rfl
    | list ht _ _ => exact side rfl (by rw [ht]; simp) rfl
    | leaf hl hp => exact side (leaf_attrs hp).2.1 hl (leaf_attrs hp).1
    | union ht hall =>
      rename_i xs ts
      obtain ⟨m1, m2⟩ := parseAll_mem hall
      constructor
      · rintro ⟨h1 | ⟨ts', a, he, m, hm, hmn⟩, h2⟩
        · cases h1
        · cases he
          obtain ⟨x, hx', i, i', hp⟩ := m2 m hm
          exact ⟨d, rfl, hx.mp h2, Or.inr ⟨xs, ht, x, hx', (parse_null hp).mp hmn⟩⟩
      · rintro ⟨d', hd', h2, h1 | ⟨xs', h1, x, hx', hxn⟩⟩
        · cases hd'; rw [hns, ht] at h1; cases h1
        · cases hd'
          rw [ht] at h1; cases h1
          obtain ⟨m, hm, i, i', hp⟩ := m1 x hx'
          exact ⟨Or.inr ⟨_, _, rfl, m, hm, (parse_null hp).mpr hxn⟩, hx.mpr h2⟩

/-! ## C67 -/

theorem getD_required {d : Dict} (name : String) :
    (∀ r, Dict.get? d "required" = some r → ∃ xs, r = .list xs) →
    ∃ b, (Dict.getD d "required" (.list [])).containsStr name = .ok b ∧ (b = true ↔ Listed d name) := by
  intro h
  cases hr : Dict.get? d "required" with
  | none =>
    refine ⟨false, by simp [Dict.getD, hr, PyVal.containsStr], ?_⟩
    simp [Listed, hr]
  | some r =>
    obtain ⟨xs, rfl⟩ := h r hr
    refine ⟨xs.any (fun x => PyVal.pyEq (.str name) x), by rw [Dict.getD, hr]; rfl, ?_⟩
    have : ∀ x, PyVal.pyEq (.str name) x = true ↔ x = .str name := by
      intro x
      cases x <;> simp [PyVal.pyEq]
      exact eq_comm
    simp only [Listed, hr, List.any_eq_true, this]
    constructor
    · rintro ⟨x, hx, rfl⟩; exact ⟨xs, rfl, hx⟩
    · rintro ⟨ys, hy, hm⟩; cases hy; exact ⟨_, hm, rfl⟩

theorem attrs_withAttrs (t : RType) (a : Attrs) : (t.withAttrs a).attrs = a := by cases t <;> rfl

theorem isNull_withAttrs (t : RType) (a : Attrs) : (t.withAttrs a).isNull = t.isNull := by cases t <;> rfl

theorem mem_keys_set (d : Dict) (k k' : String) (v : PyVal) :
    k ∈ Dict.keys (Dict.set d k' v) ↔ k = k' ∨ k ∈ Dict.keys d := by
  rw [← Dict.has_iff, ← Dict.has_iff, Dict.has, Dict.has]
  by_cases h : k' = k
  · subst h; simp [Dict.get?_set_self]
  · rw [Dict.get?_set_ne _ _ h]
    simp [Ne.symm h]

/-- The members of a union that is given other attributes. -/
theorem need_withAttrs (t : RType) (a : Attrs) :
    NeedNotBeGiven (t.withAttrs a) ↔
      (t.isNull = true ∨ ∃ ts b, t = .union ts b ∧ ∃ m ∈ ts, m.isNull = true) ∧
        "default" ∈ Dict.keys a.extra := by
  rw [NeedNotBeGiven, isNull_withAttrs, attrs_withAttrs]
  have : (∃ ts b, t.withAttrs a = .union ts b ∧ ∃ m ∈ ts, m.isNull = true) ↔
      ∃ ts b, t = .union ts b ∧ ∃ m ∈ ts, m.isNull = true := by
    cases t <;> simp [RType.withAttrs]
  rw [this]

theorem need_named (name : String) (t : RType) : NeedNotBeGiven (named name t) ↔ NeedNotBeGiven t := by
  rw [named, need_withAttrs, NeedNotBeGiven, mem_keys_set]
  simp

theorem isNullable_iff (t : RType) : t.isNullable = true ↔
    (t.isNull = true ∨ ∃ ts b, t = .union ts b ∧ ∃ m ∈ ts, m.isNull = true) := by
  cases t <;> simp [RType.isNullable, RType.isNull]

theorem makeNullable_need (t : RType) : NeedNotBeGiven t.makeNullable := by
  have hadd : ∀ ts : List RType, ∃ m ∈ RType.addNull ts, m.isNull = true := by
    intro ts
    unfold RType.addNull
    split
    · rename_i h; simpa using h
    · exact ⟨_, List.mem_cons_self, rfl⟩
  have hpro : ∀ a : Attrs, "default" ∈ Dict.keys (RType.promoted a) := by
    intro a
    unfold RType.promoted
    dsimp only
    split <;> simp [Dict.keys]
  unfold RType.makeNullable
  split
  · rename_i ts a
    refine ⟨Or.inr ⟨_, _, rfl, hadd ts⟩, ?_⟩
    have := hpro a
    simp only [RType.attrs, Dict.keys, List.map_append, List.mem_append] at *
    exact Or.inr this
  · exact ⟨Or.inr ⟨_, _, rfl, hadd _⟩, hpro _⟩

theorem optional_need (t : RType) : NeedNotBeGiven (optionalField t) := by
  unfold optionalField
  dsimp only
  have key : ∀ t : RType, t.isNullable = true → NeedNotBeGiven
      (if Dict.has t.attrs.extra "default" = true then t
        else t.withAttrs { t.attrs with extra := Dict.set t.attrs.extra "default" .none }) := by
    intro t ht
    split
    · rename_i h
      exact ⟨(isNullable_iff t).mp ht, Dict.has_iff.mp h⟩
    · rw [need_withAttrs]
      exact ⟨(isNullable_iff t).mp ht, by rw [mem_keys_set]; exact Or.inl rfl⟩
  split
  · rename_i h; exact key t h
  · have := makeNullable_need t
    exact key _ ((isNullable_iff _).mpr this.1)

theorem nameOf_named (name : String) (t : RType) : nameOf (named name t) = some (.str name) := by
  rw [nameOf, named, attrs_withAttrs, Dict.get?_set_self]

/-- The fields made of the properties. -/
theorem parseProps_ok {d : Dict} (hreq : ∀ r, Dict.get? d "required" = some r → ∃ xs, r = .list xs)
    {ps : Dict} {ids ids' : Ids} {ts : List RType}
    (h : parseProps (parse env) (Dict.getD d "required" (.list [])) ps ids = .ok (ts, ids')) :
    ts.map nameOf = ps.map (fun kv => some (.str kv.1)) ∧
      ∀ (i : Nat) (kv : String × PyVal) (t : RType), ps[i]? = some kv → ts[i]? = some t →
        (NeedNotBeGiven t ↔ ¬ Listed d kv.1 ∨ NullWithDefault kv.2) := by
  induction ps generalizing ids ts with
  | nil => cases h; simp
  | cons kv ps ih =>
    obtain ⟨name, prop⟩ := kv
    simp only [parseProps] at h
    obtain ⟨⟨t, i1⟩, h1, h⟩ := ok_bind h
    obtain ⟨b, hb, h⟩ := ok_bind h
    obtain ⟨⟨ts', i2⟩, h2, h⟩ := ok_bind h
    cases h
    obtain ⟨ih1, ih2⟩ := ih h2
    obtain ⟨b', hb', hl⟩ := getD_required (d := d) name hreq
    rw [hb'] at hb; cases hb
    refine ⟨by simp [ih1, nameOf_named], ?_⟩
    intro i kv t' hkv ht'
    cases i with
    | succ i => exact ih2 i kv t' (by simpa using hkv) (by simpa using ht')
    | zero =>
      simp only [List.getElem?_cons_zero, Option.some.injEq] at hkv ht'
      subst hkv ht'
      rw [need_named]
      dsimp only
      cases b with
      | true =>
        have : Listed d name := hl.mp rfl
        simp only [↓reduceIte, this, not_true_eq_false, false_or]
        exact parse_need h1
      | false =>
        have : ¬ Listed d name := fun hx => by simpa using hl.mpr hx
        simp only [Bool.false_eq_true, ↓reduceIte, this, not_false_eq_true, true_or, iff_true]
        exact optional_need t

/-- **C67** (partial): reading an object gives one field per property, in order and with its name,
and the field need not be given exactly when the property is not listed as required or its own
schema accepts null and has a default.  Missing: "exactly when it is not listed", which is false
for required properties that accept null and have a default (`C67_required_refuted`). -/
theorem C67_required_partial (env : Env) (d : Dict) (ids ids' : Ids) (fs : List RType) (a : Attrs)
    (hreq : ∀ r, Dict.get? d "required" = some r → ∃ xs, r = .list xs)
    (h : toRecap env (.dict d) ids = .ok (.struct fs a, ids')) :
    ∃ props : Dict, Dict.get? d "properties" = some (.dict props) ∧
      fs.map nameOf = props.map (fun kv => some (.str kv.1)) ∧
      ∀ (i : Nat) (kv : String × PyVal) (t : RType), props[i]? = some kv → fs[i]? = some t →
        (NeedNotBeGiven t ↔ ¬ Listed d kv.1 ∨ NullWithDefault kv.2) := by
  rw [toRecap] at h
  obtain ⟨⟨t, i1⟩, h1, h⟩ := ok_bind h
  have ht : t = .struct fs a := by
    dsimp only at h
    split at h
    · cases h; rfl
    · cases h
  subst ht
  obtain ⟨e, ids1, _, h2⟩ := parse_dict_ok h1
  cases h2 with
  | struct ht hp hps => exact ⟨_, hp, parseProps_ok hreq hps⟩
  | leaf hl hp =>
    exfalso
    simp only [parseLeaf] at hp
    have hstr : ∀ f, parseString e f ≠ .struct fs a := by
      intro f
      unfold parseString
      repeat' split
      all_goals simp
    split at hp
    · simp only [Except.ok.injEq, Prod.mk.injEq] at hp
      exact hstr _ hp.1
    · repeat' split at hp
      all_goals first
        | (cases hp; done)
        | (simp only [parseRef] at hp
           split at hp
           · obtain ⟨x, hx, hp⟩ := ok_bind hp
             split at hp
             · cases hp
             · cases hp
           · cases hp)

/-- A required property that accepts null and has a default becomes a field that need not be
given. -/
theorem C67_required_refuted (env : Env) :
    ∃ d fs a ids, toRecap env (.dict d) [] = .ok (.struct fs a, ids) ∧
      Listed d "x" ∧ ∃ t ∈ fs, nameOf t = some (.str "x") ∧ NeedNotBeGiven t := by
  refine ⟨[("type", .str "object"), ("properties", .dict [("x", .dict [
      ("type", .list [.str "string", .str "null"]), ("default", .none)])]),
      ("required", .list [.str "x"])], _, _, _, rfl, ⟨_, rfl, by decide⟩, _, List.mem_singleton.mpr rfl,
      by rfl, Or.inr ⟨_, _, rfl, .null {}, by decide +kernel, rfl⟩, by decide +kernel⟩

/-- The hypotheses of C67 are met. -/
example : ∃ fs a, toRecap env (.dict [("type", .str "object"), ("properties", .dict [
    ("id", .dict [("type", .str "integer")]), ("tags", .dict [("type", .str "array"),
      ("items", .str "string")])]), ("required", .list [.str "id"])]) [] = .ok (.struct fs a, []) :=
  ⟨_, _, rfl⟩

/-! ## C93 -/

/-- The keywords that make and use references. -/
def refKeys : List String := ["$id", "$ref", "$dynamicRef"]

theorem without_get {keys : List String} {d : Dict} (h : WithoutPairs keys d) {k : String} (hk : k ∈ keys) :
    Dict.get? d k = .none := by
  induction d with
  | nil => rfl
  | cons kv d ih =>
    obtain ⟨k', x⟩ := kv
    simp only [WithoutPairs] at h
    rw [Dict.get?_cons, if_neg (by rintro rfl; exact h.1 hk), ih h.2.2]

theorem without_mem {keys : List String} {d : Dict} (h : WithoutPairs keys d) {kv : String × PyVal}
    (hm : kv ∈ d) : Without keys kv.2 := by
  induction d with
  | nil => cases hm
  | cons kv' d ih =>
    obtain ⟨k', x⟩ := kv'
    simp only [WithoutPairs] at h
    rcases List.mem_cons.mp hm with rfl | hm
    · exact h.2.1
    · exact ih h.2.2 hm

theorem withoutAll_mem {keys : List String} {xs : List PyVal} (h : WithoutAll keys xs) {x : PyVal}
    (hm : x ∈ xs) : Without keys x := by
  induction xs with
  | nil => cases hm
  | cons y xs ih =>
    simp only [WithoutAll] at h
    rcases List.mem_cons.mp hm with rfl | hm
    · exact h.1
    · exact ih h.2 hm

theorem without_value {keys : List String} {d : Dict} (h : WithoutPairs keys d) {k : String} {v : PyVal}
    (hv : Dict.get? d k = some v) : Without keys v := without_mem h (Dict.mem_of_get? hv)

theorem parseAll_isOk {f : PyVal → Ids → Except PyErr (RType × Ids)} {xs : List PyVal} (ids : Ids)
    (h : ∀ x ∈ xs, ∀ i, ∃ r, f x i = .ok r) : ∃ r, parseAll f xs ids = .ok r := by
  induction xs generalizing ids with
  | nil => exact ⟨_, rfl⟩
  | cons x xs ih =>
    obtain ⟨⟨t, i1⟩, h1⟩ := h x (by simp) ids
    obtain ⟨⟨ts, i2⟩, h2⟩ := ih i1 (fun y hy => h y (by simp [hy]))
    exact ⟨(t :: ts, i2), by simp [parseAll, h1, h2, bind, Except.bind, pure, Except.pure]⟩

theorem searchable_iff (r : PyVal) (name : String) : (∃ b, r.containsStr name = .ok b) ↔ Searchable r := by
  cases r <;> simp [PyVal.containsStr, Searchable]

theorem parseProps_isOk {f : PyVal → Ids → Except PyErr (RType × Ids)} {req : PyVal} {ps : Dict}
    (ids : Ids) (h : ∀ kv ∈ ps, ∀ i, ∃ r, f kv.2 i = .ok r) (hr : ps = [] ∨ Searchable req) :
    ∃ r, parseProps f req ps ids = .ok r := by
  induction ps generalizing ids with
  | nil => exact ⟨_, rfl⟩
  | cons kv ps ih =>
    obtain ⟨k, x⟩ := kv
    have hr : Searchable req := by simpa using hr
    obtain ⟨⟨t, i1⟩, h1⟩ := h (k, x) (by simp) ids
    obtain ⟨b, hb⟩ := (searchable_iff req k).mpr hr
    obtain ⟨⟨ts, i2⟩, h2⟩ := ih i1 (fun y hy => h y (by simp [hy])) (Or.inr hr)
    dsimp only at h1
    exact ⟨(named k (if b = true then t else optionalField t) :: ts, i2), by
      simp only [parseProps, h1, hb, h2, bind, Except.bind, pure, Except.pure]⟩

theorem parseProps_mem {f : PyVal → Ids → Except PyErr (RType × Ids)} {req : PyVal} {ps : Dict}
    {ids : Ids} {r : List RType × Ids} (h : parseProps f req ps ids = .ok r) :
    (∀ kv ∈ ps, ∃ i r, f kv.2 i = .ok r) ∧ (ps = [] ∨ Searchable req) := by
  induction ps generalizing ids r with
  | nil => simp
  | cons kv ps ih =>
    obtain ⟨k, x⟩ := kv
    simp only [parseProps] at h
    obtain ⟨⟨t, i1⟩, h1, h⟩ := ok_bind h
    obtain ⟨b, hb, h⟩ := ok_bind h
    obtain ⟨⟨ts', i2⟩, h2, h⟩ := ok_bind h
    refine ⟨?_, Or.inr ((searchable_iff req k).mp ⟨b, hb⟩)⟩
    intro kv hkv
    rcases List.mem_cons.mp hkv with rfl | hkv
    · exact ⟨_, _, h1⟩
    · exact (ih h2).1 kv hkv

theorem extraAttrs_plain {d : Dict} (h : WithoutPairs refKeys d) (ids : Ids) :
    ∃ e, extraAttrs env (.dict d) ids = .ok (e, ids) := by
  refine ⟨copied d "description" "doc" ++ copied d "default" "default", ?_⟩
  simp only [extraAttrs, without_get h (show "$id" ∈ refKeys by decide)]

theorem leaf_basic {d e : Dict} (h : WithoutPairs refKeys d) (ids : Ids) :
    (∃ r, parseLeaf env e d ids = .ok r) ↔ ∃ s ∈ basic, Dict.get? d "type" = some (.str s) := by
  have h1 := without_get h (show "$ref" ∈ refKeys by decide)
  have h2 := without_get h (show "$dynamicRef" ∈ refKeys by decide)
  simp only [parseLeaf, h1, h2, basic]
  constructor
  · rintro ⟨r, hr⟩
    repeat' split at hr
    all_goals first
      | (rename_i ht; exact ⟨_, by simp, ht⟩)
      | cases hr
  · rintro ⟨s, hs, ht⟩
    rw [ht]
    simp only [List.mem_cons, List.not_mem_nil, or_false] at hs
    rcases hs with rfl | rfl | rfl | rfl | rfl <;> exact ⟨_, rfl⟩

theorem parse_of_readable {v : PyVal} (hv : Readable v) (hw : Without refKeys v) (ids : Ids) :
    ∃ r, parse env v ids = .ok r := by
  have key : ∀ (d e : Dict) (s : String), WithoutPairs refKeys d → s ∈ basic →
      Dict.get? d "type" = some (.str s) → ∀ ids, ∃ r, parseDict env (parse env) e d ids = .ok r := by
    intro d e s hd hs ht ids
    obtain ⟨r, hr⟩ := (leaf_basic (env := env) (e := e) hd ids).mpr ⟨s, hs, ht⟩
    have ho : s ≠ "object" := by rintro rfl; revert hs; decide
    have ha : s ≠ "array" := by rintro rfl; revert hs; decide
    refine ⟨r, ?_⟩
    have harr : ∀ items, parseDict.parseArray env (parse env) e d ids items = .ok r := by
      intro items
      cases items with
      | none => exact hr
      | some x => simp [parseDict.parseArray, ht, ha, hr]
    unfold parseDict
    rw [ht]
    dsimp only
    split
    · simp [ho, harr]
    · exact harr _
  induction hv generalizing ids with
  | @name s hs =>
    rw [parse_str, parse_eq]
    obtain ⟨r, hr⟩ := key [("type", .str s)] [] s (by
      simp [WithoutPairs, refKeys, Without]) hs (by simp [Dict.get?]) ids
    exact ⟨r, hr⟩
  | scalar hs ht =>
    obtain ⟨e, he⟩ := extraAttrs_plain (env := env) (show WithoutPairs refKeys _ from hw) ids
    obtain ⟨r, hr⟩ := key _ e _ hw hs ht ids
    rw [parse_eq]
    exact ⟨r, by simp only [schemaOf, he, bind, Except.bind]; exact hr⟩
  | @array d items ht hi _ ih =>
    obtain ⟨e, he⟩ := extraAttrs_plain (env := env) (show WithoutPairs refKeys d from hw) ids
    obtain ⟨⟨t, i1⟩, h1⟩ := ih (without_value hw hi) ids
    refine ⟨(.list t .none (.bool true) (attrsOf e), i1), ?_⟩
    rw [parse_eq]
    have harr : parseDict.parseArray env (parse env) e d ids (some items) =
        .ok (.list t .none (.bool true) (attrsOf e), i1) := by
      simp [parseDict.parseArray, ht, h1, bind, Except.bind, pure, Except.pure]
    simp only [schemaOf, he, bind, Except.bind]
    unfold parseDict
    rw [ht, hi]
    dsimp only
    split
    · simp [harr]
    · exact harr
  | @object d props ht hp _ hr ih =>
    obtain ⟨e, he⟩ := extraAttrs_plain (env := env) (show WithoutPairs refKeys d from hw) ids
    have hwp : WithoutPairs refKeys props := without_value hw hp
    obtain ⟨⟨ts, i1⟩, h1⟩ := parseProps_isOk (req := Dict.getD d "required" (.list []))
      (f := parse env) (ps := props) ids (fun kv hkv i => ih kv hkv (without_mem hwp hkv) i) (by
        rcases hr with hr | hr
        · exact Or.inl hr
        · right
          cases hq : Dict.get? d "required" with
          | none => simp [Dict.getD, hq, Searchable]
          | some r => simpa [Dict.getD, hq] using hr r hq)
    refine ⟨(.struct ts (attrsOf e), i1), ?_⟩
    rw [parse_eq]
    simp only [schemaOf, he, bind, Except.bind]
    unfold parseDict
    rw [ht, hp]
    simp [h1, bind, Except.bind, pure, Except.pure]
  | @alternatives d xs ht _ ih =>
    obtain ⟨e, he⟩ := extraAttrs_plain (env := env) (show WithoutPairs refKeys d from hw) ids
    have hwx : WithoutAll refKeys xs := without_value hw ht
    obtain ⟨⟨ts, i1⟩, h1⟩ := parseAll_isOk (f := parse env) (xs := xs) ids
      (fun x hx i => ih x hx (withoutAll_mem hwx hx) i)
    refine ⟨(.union ts (attrsOf e), i1), ?_⟩
    rw [parse_eq]
    simp only [schemaOf, he, bind, Except.bind]
    unfold parseDict
    rw [ht]
    simp [h1, bind, Except.bind, pure, Except.pure]

theorem readable_of_parse : ∀ (n : Nat) (v : PyVal), v.size ≤ n → Without refKeys v →
    ∀ ids r, parse env v ids = .ok r → Readable v := by
  intro n
  induction n with
  | zero => intro v hv; have := v.size_pos; omega
  | succ n ih =>
    intro v hv hw ids r h
    obtain ⟨t, ids'⟩ := r
    rcases parse_ok_dict h with ⟨s, rfl⟩ | ⟨d, rfl⟩
    · rw [parse_str] at h
      obtain ⟨e, ids1, _, h2⟩ := parse_dict_ok h
      cases h2 with
      | union ht _ => simp [Dict.get?] at ht
      | struct _ hp _ => simp [Dict.get?] at hp
      | list _ hi _ => simp [Dict.get?] at hi
      | leaf _ hl =>
        obtain ⟨s', hs, ht⟩ := (leaf_basic (show WithoutPairs refKeys [("type", PyVal.str s)] by
          simp [WithoutPairs, refKeys, Without]) ids1).mp ⟨_, hl⟩
        simp [Dict.get?] at ht
        exact .name (ht ▸ hs)
    · have hw' : WithoutPairs refKeys d := hw
      obtain ⟨e, ids1, _, h2⟩ := parse_dict_ok h
      cases h2 with
      | union ht hall =>
        refine .alternatives ht (fun x hx => ?_)
        obtain ⟨t', _, i, i', hp⟩ := (parseAll_mem hall).1 x hx
        have h1 := size_list _ hx
        have h2 := size_get ht
        exact ih x (by omega) (withoutAll_mem (show WithoutAll refKeys _ from without_value hw' ht) hx) _ _ hp
      | struct ht hp hps =>
        obtain ⟨h1, h2⟩ := parseProps_mem hps
        refine .object ht hp (fun kv hkv => ?_) ?_
        · obtain ⟨i, r, hr⟩ := h1 kv hkv
          have h3 := PyVal.size_lt_of_mem_dict (k := kv.1) (x := kv.2) hkv
          have h4 := size_get hp
          exact ih kv.2 (by omega)
            (without_mem (show WithoutPairs refKeys _ from without_value hw' hp) hkv) _ _ hr
        · rcases h2 with h2 | h2
          · exact Or.inl h2
          · right
            intro r hr
            simpa [Dict.getD, hr] using h2
      | list ht hi hit =>
        have h4 := size_get hi
        exact .array ht hi (ih _ (by omega) (without_value hw' hi) _ _ hit)
      | leaf _ hl =>
        obtain ⟨s, hs, ht⟩ := (leaf_basic hw' ids1).mp ⟨_, hl⟩
        exact .scalar hs ht

/-- **C93** (partial): without identifiers and references, exactly the objects that can be read
according to `Readable` are accepted.  Missing: documents with identifiers or references, and that
the others are refused with a `ValueError`, which is false (`C93_error_refuted`). -/
theorem C93_accepted_partial (env : Env) (v : PyVal) (ids : Ids) (hw : Without refKeys v) :
    (∃ r, toRecap env v ids = .ok r) ↔ Readable v ∧ IsObject v := by
  constructor
  · rintro ⟨⟨t, ids'⟩, h⟩
    rw [toRecap] at h
    obtain ⟨⟨t1, i1⟩, h1, h⟩ := ok_bind h
    have hr := readable_of_parse _ v (Nat.le_refl _) hw _ _ h1
    refine ⟨hr, ?_⟩
    have hs : ∃ fs a, t1 = .struct fs a := by
      dsimp only at h
      split at h
      · exact ⟨_, _, rfl⟩
      · cases h
    obtain ⟨fs, a, rfl⟩ := hs
    have hleaf : ∀ {d e ids1 i2}, WithoutPairs refKeys d →
        parseLeaf env e d ids1 ≠ .ok (RType.struct fs a, i2) := by
      intro d e ids1 i2 hd hl
      simp only [parseLeaf, without_get hd (show "$ref" ∈ refKeys by decide),
        without_get hd (show "$dynamicRef" ∈ refKeys by decide)] at hl
      repeat' split at hl
      all_goals first
        | (cases hl; done)
        | (simp only [Except.ok.injEq, Prod.mk.injEq] at hl
           have := hl.1
           unfold parseString at this
           repeat' split at this
           all_goals (cases this))
    rcases parse_ok_dict h1 with ⟨s, rfl⟩ | ⟨d, rfl⟩
    · exfalso
      rw [parse_str] at h1
      obtain ⟨e, ids1, _, h2⟩ := parse_dict_ok h1
      cases h2 with
      | struct _ hp _ => simp [Dict.get?] at hp
      | leaf _ hl => exact hleaf (by simp [WithoutPairs, refKeys, Without]) hl
    · obtain ⟨e, ids1, _, h2⟩ := parse_dict_ok h1
      cases h2 with
      | struct ht _ _ => exact ⟨d, rfl, ht⟩
      | leaf _ hl => exact absurd hl (hleaf hw)
  · rintro ⟨hr, d, rfl, ht⟩
    obtain ⟨⟨t, i⟩, h⟩ := parse_of_readable (env := env) hr hw ids
    have h' := h
    obtain ⟨e, ids1, _, h2⟩ := parse_dict_ok h'
    cases h2 with
    | union hl _ => rw [ht] at hl; cases hl
    | list hl _ _ => rw [ht] at hl; simp at hl
    | struct _ _ _ => exact ⟨_, by rw [toRecap, h]; rfl⟩
    | leaf _ hl =>
      obtain ⟨s, hs, ht'⟩ := (leaf_basic (show WithoutPairs refKeys d from hw) ids1).mp ⟨_, hl⟩
      rw [ht] at ht'
      cases ht'
      exact absurd hs (by decide)

/-- An array of anything, a valid JSON Schema, is refused with a `TypeError`. -/
theorem C93_error_refuted (env : Env) :
    toRecap env (.dict [("type", .str "object"), ("properties", .dict [("x", .dict [
      ("type", .str "array"), ("items", .bool true)])])]) [] = .error .typeError := rfl

/-- C93 on a nested object. -/
example (env : Env) : ∃ r, toRecap env (.dict [("type", .str "object"), ("properties", .dict [
    ("x", .dict [("type", .list [.str "null", .str "number"])]), ("y", .dict [
      ("type", .str "array"), ("items", .dict [("type", .str "object"), ("properties", .dict [])])])])])
    [] = .ok r :=
  (C93_accepted_partial env _ [] (by simp [Without, WithoutPairs, WithoutAll, refKeys])).mpr
    ⟨.object rfl rfl (by
      intro kv hkv
      simp only [List.mem_cons, List.not_mem_nil, or_false] at hkv
      rcases hkv with rfl | rfl
      · exact .alternatives rfl (by
          intro x hx
          simp only [List.mem_cons, List.not_mem_nil, or_false] at hx
          rcases hx with rfl | rfl <;> exact .name (by decide))
      · exact .array rfl rfl (.object rfl rfl (by simp) (Or.inl rfl)))
      (Or.inr (by simp [Dict.get?])), _, rfl, rfl⟩

end Recap.Json
