import Verif.JsonRefsSpec
import Verif.JsonReadLemmas

/-!
# Lemmas on references in JSON Schemas that are read (C130, C144)
-/

set_option autoImplicit false

namespace Recap.JsonData

open Json
open Avro.Spec (IntValue)
open Values (Fits)
open Json.Spec (nameOf Without WithoutPairs Inside IsReference Builtin)
open Url (Chars)

variable {refs : String → PyVal → Prop} {root : RType} {env : Url.Env}

/-! ## Identifiers -/

theorem rstripHash_split (s : Chars) : ∃ m, s = rstripHash s ++ List.replicate m '#' := by
  have : ∀ l : Chars, ∃ m, l = List.replicate m '#' ++ l.dropWhile (· = '#') := by
    intro l
    induction l with
    | nil => exact ⟨0, rfl⟩
    | cons c l ih =>
      by_cases hc : c = '#'
      · obtain ⟨m, hm⟩ := ih
        refine ⟨m + 1, ?_⟩
        simp only [hc, List.dropWhile_cons, decide_true, if_true, List.replicate_succ, List.cons_append]
        rw [← hm]
      · exact ⟨0, by simp [hc]⟩
  obtain ⟨m, hm⟩ := this s.reverse
  refine ⟨m, ?_⟩
  have := congrArg List.reverse hm
  rw [List.reverse_reverse, List.reverse_append, List.reverse_replicate] at this
  exact this

theorem sameId_of {a b : String} (h : rstripHash a.toList = rstripHash b.toList) : SameId a b := by
  obtain ⟨m, hm⟩ := rstripHash_split a.toList
  obtain ⟨n, hn⟩ := rstripHash_split b.toList
  exact ⟨rstripHash a.toList, m, n, hm, h ▸ hn⟩

/-! ## Attributes do not matter, apart from the alias -/

theorem carriesIn_with {t : RType} {j : PyVal} {a : Attrs} (h : CarriesIn root t j) (ha : a.alias = t.attrs.alias) :
    CarriesIn root (t.withAttrs a) j := by
  cases h with
  | null => exact .null
  | bool => exact .bool
  | int h => exact .int h
  | point h => exact .point h
  | float h => exact .float h
  | whole h => exact .whole h
  | string h => exact .string h
  | bytes => exact .bytes
  | enum h => exact .enum h
  | list h => exact .list h
  | map h1 h2 => exact .map h1 h2
  | struct h1 h2 h3 => exact .struct h1 h2 h3
  | union h1 h3 => exact .union h1 h3
  | reference h1 h2 h3 h4 => exact .reference h1 h2 (h3.trans ha.symm) h4

/-- `u` comes from `t`: it has the same alias, and all its values. -/
structure From (t u : RType) : Prop where
  alias : u.attrs.alias = t.attrs.alias
  ref : IsReference u ↔ IsReference t
  carries : ∀ (root : RType) j, CarriesIn root t j → CarriesIn root u j

theorem From.refl (t : RType) : From t t := ⟨rfl, Iff.rfl, fun _ _ h => h⟩

theorem From.trans {t u w : RType} (h : From t u) (h' : From u w) : From t w :=
  ⟨h'.alias.trans h.alias, h'.ref.trans h.ref, fun N j g => h'.carries N j (h.carries N j g)⟩

theorem from_with (t : RType) (a : Attrs) (ha : a.alias = t.attrs.alias) : From t (t.withAttrs a) := by
  refine ⟨by rw [attrs_withAttrs]; exact ha, ?_, fun N j h => carriesIn_with h ha⟩
  unfold IsReference
  cases t <;> simp [RType.withAttrs]

theorem inside_cases {u t : RType} (h : Inside u t) : u = t ∨ ∀ a, Inside u (t.withAttrs a) := by
  cases h with
  | refl => exact .inl rfl
  | list h => exact .inr fun a => .list h
  | value h => exact .inr fun a => .value h
  | field h1 h2 => exact .inr fun a => .field h1 h2
  | member h1 h2 => exact .inr fun a => .member h1 h2

theorem inside_trans {u t w : RType} (h : Inside u t) (h' : Inside t w) : Inside u w := by
  induction h' with
  | refl => exact h
  | list _ ih => exact .list ih
  | value _ ih => exact .value ih
  | field h1 _ ih => exact .field h1 ih
  | member h1 _ ih => exact .member h1 ih

/-- All types in `t` are in `t'`, apart from attributes, null and the default. -/
def Covers (t t' : RType) : Prop := ∀ u, Inside u t → ∃ u', Inside u' t' ∧ From u u'

theorem Covers.trans {t t' t'' : RType} (h : Covers t t') (h' : Covers t' t'') : Covers t t'' := by
  intro u hu
  obtain ⟨u', h1, h2⟩ := h u hu
  obtain ⟨u'', h3, h4⟩ := h' u' h1
  exact ⟨u'', h3, h2.trans h4⟩

theorem Covers.refl (t : RType) : Covers t t := fun u hu => ⟨u, hu, .refl u⟩

theorem Covers.inside {t w : RType} (h : Inside t w) : Covers t w := fun u hu => ⟨u, inside_trans hu h, .refl u⟩

theorem covers_with (t : RType) (a : Attrs) (ha : a.alias = t.attrs.alias) : Covers t (t.withAttrs a) := by
  intro u hu
  rcases inside_cases hu with rfl | hu
  · exact ⟨_, .refl, from_with u a ha⟩
  · exact ⟨u, hu a, .refl u⟩

theorem covers_makeNullable (t : RType) : Covers t t.makeNullable := by
  unfold RType.makeNullable
  split
  · rename_i ts a
    intro u hu
    cases hu with
    | refl =>
      refine ⟨_, .refl, rfl, by unfold IsReference; simp, fun N j h => ?_⟩
      cases h with
      | union h1 h2 => exact .union (mem_addNull h1) h2
    | member h1 h2 => exact ⟨u, .member (mem_addNull h1) h2, .refl u⟩
  · intro u hu
    obtain ⟨u', h1, h2⟩ := covers_with t { t.attrs with doc := .none, extra := RType.demoted t.attrs.extra } rfl u hu
    exact ⟨u', .member (mem_addNull (List.mem_singleton.mpr rfl)) h1, h2⟩

theorem covers_optionalField (t : RType) : Covers t (optionalField t) := by
  have key : ∀ u : RType, Covers u (if Dict.has u.attrs.extra "default" then u
      else u.withAttrs { u.attrs with extra := Dict.set u.attrs.extra "default" .none }) := by
    intro u
    split
    · exact .refl u
    · exact covers_with u _ rfl
  unfold optionalField
  simp only
  split
  · exact key t
  · exact (covers_makeNullable t).trans (key _)

theorem covers_named (name : String) (t : RType) : Covers t (named name t) := covers_with t _ rfl

theorem covers_field (name : String) (listed : Bool) (t : RType) :
    Covers t (named name (if listed then t else optionalField t)) := by
  refine Covers.trans ?_ (covers_named name _)
  split
  · exact .refl t
  · exact covers_optionalField t

/-! ## Values of optional fields -/

theorem carriesIn_makeNullable {t : RType} {j : PyVal} (h : CarriesIn root t j) : CarriesIn root t.makeNullable j := by
  unfold RType.makeNullable
  split
  · cases h with
    | union h1 h3 => exact .union (mem_addNull h1) h3
  · exact .union (mem_addNull (List.mem_singleton.mpr rfl)) (carriesIn_with h rfl)

theorem carriesIn_field {t : RType} {j : PyVal} (h : CarriesIn root t j) (name : String) (listed : Bool) :
    CarriesIn root (named name (if listed then t else optionalField t)) j := by
  have key : ∀ u : RType, CarriesIn root u j → CarriesIn root (if Dict.has u.attrs.extra "default" then u
      else u.withAttrs { u.attrs with extra := Dict.set u.attrs.extra "default" .none }) j := by
    intro u hu
    split
    · exact hu
    · exact carriesIn_with hu rfl
  refine carriesIn_with ?_ rfl
  split
  · exact h
  · unfold optionalField
    simp only
    split
    · exact key t h
    · exact key _ (carriesIn_makeNullable h)

/-! ## The attributes that are read -/

theorem extraAttrs_ids {d e : Dict} {ids ids1 : Ids} (h : extraAttrs env (.dict d) ids = .ok (e, ids1)) :
    (Dict.get? d "$id" = .none ∧ ids1 = ids ∧ (attrsOf e).alias = .none) ∨
      ∃ s alias, Dict.get? d "$id" = some (.str s) ∧ urnToAlias env (rstripHash s.toList) = .ok alias ∧
        ids1 = ids ++ [rstripHash s.toList] ∧ (attrsOf e).alias = .str (String.ofList alias) ∧ Dict.has e "alias" = true := by
  have hno : ∀ k to : String, to ≠ "alias" → Dict.get? (copied d k to) "alias" = .none := by
    intro k to hto
    unfold copied
    split
    · simp [Dict.get?_cons, hto]
    · rfl
  have happ : ∀ a b : Dict, Dict.get? a "alias" = .none → Dict.get? (a ++ b) "alias" = Dict.get? b "alias" := by
    intro a b ha
    induction a with
    | nil => rfl
    | cons kv a ih =>
      obtain ⟨k, v⟩ := kv
      simp only [Dict.get?_cons, List.cons_append] at ha ⊢
      split at ha
      · cases ha
      · rename_i hk
        rw [if_neg hk]
        exact ih ha
  have hpre : Dict.get? (copied d "description" "doc" ++ copied d "default" "default") "alias" = .none := by
    rw [happ _ _ (hno _ _ (by decide)), hno _ _ (by decide)]
  simp only [extraAttrs] at h
  split at h
  · rename_i hid
    cases h
    refine .inl ⟨hid, rfl, ?_⟩
    show Dict.getD _ "alias" .none = _
    rw [Dict.getD, hpre]
    rfl
  · rename_i s hid
    obtain ⟨alias, h1, h⟩ := ok_bind h
    cases h
    have : Dict.get? (copied d "description" "doc" ++ copied d "default" "default" ++
        [("alias", .str (String.ofList alias))]) "alias" = some (.str (String.ofList alias)) := by
      rw [happ _ _ hpre]; simp
    refine .inr ⟨s, alias, hid, h1, rfl, ?_, ?_⟩
    · show Dict.getD _ "alias" .none = _
      rw [Dict.getD, this]
      rfl
    · rw [Dict.has, this]; rfl
  · cases h
  · cases h

/-- What is read as a reference. -/
theorem parseRef_ok {e : Dict} {urn : String} {ids ids' : Ids} {t : RType} (h : parseRef env e urn ids = .ok (t, ids')) :
    ids' = ids ∧ rstripHash urn.toList ∈ ids ∧ Dict.has e "alias" = false ∧
      ∃ alias, urnToAlias env (rstripHash urn.toList) = .ok alias ∧
        t = .proxy .none { attrsOf e with alias := .str (String.ofList alias) } := by
  unfold parseRef at h
  split at h
  · rename_i hm
    obtain ⟨alias, h1, h⟩ := ok_bind h
    split at h
    · cases h
    · rename_i ha
      cases h
      exact ⟨rfl, hm, by simpa using ha, alias, h1, rfl⟩
  · cases h

/-- The type of a leaf: one of a basic type with the attributes, or a reference. -/
theorem parseLeaf_ok {e d : Dict} {ids ids' : Ids} {t : RType} (h : parseLeaf env e d ids = .ok (t, ids')) :
    ids' = ids ∧ (((∃ s, Dict.get? d "type" = some (.str s)) ∧ ¬IsReference t ∧ t.attrs.alias = (attrsOf e).alias ∧
        ∀ u, Inside u t → u = t) ∨
      ∃ urn, (Dict.get? d "$ref" = some (.str urn) ∨ Dict.get? d "$dynamicRef" = some (.str urn)) ∧
        parseRef env e urn ids = .ok (t, ids')) := by
  simp only [parseLeaf] at h
  repeat' split at h
  · rename_i ht
    cases h
    refine ⟨rfl, .inl ⟨⟨_, ht⟩, ?_, ?_, ?_⟩⟩
    · unfold parseString IsReference
      repeat' split
      all_goals simp
    · unfold parseString
      repeat' split
      all_goals rfl
    · unfold parseString
      repeat' split
      all_goals (intro u hu; cases hu; rfl)
  · rename_i ht
    cases h
    exact ⟨rfl, .inl ⟨⟨_, ht⟩, by simp [IsReference], rfl, fun u hu => by cases hu; rfl⟩⟩
  · rename_i ht
    cases h
    exact ⟨rfl, .inl ⟨⟨_, ht⟩, by simp [IsReference], rfl, fun u hu => by cases hu; rfl⟩⟩
  · rename_i ht
    cases h
    exact ⟨rfl, .inl ⟨⟨_, ht⟩, by simp [IsReference], rfl, fun u hu => by cases hu; rfl⟩⟩
  · rename_i ht
    cases h
    exact ⟨rfl, .inl ⟨⟨_, ht⟩, by simp [IsReference], rfl, fun u hu => by cases hu; rfl⟩⟩
  · rename_i hr
    exact ⟨(parseRef_ok h).1, .inr ⟨_, .inl hr, h⟩⟩
  · rename_i hr _
    exact ⟨(parseRef_ok h).1, .inr ⟨_, .inr (by assumption), h⟩⟩
  · cases h

/-! ## Identifiers that are known -/

/-- The identifiers after reading a list, given those of each element. -/
theorem parseAll_ids {f : PyVal → Ids → Except PyErr (RType × Ids)} {xs : List PyVal} {ids ids' : Ids} {ts : List RType}
    (h : Json.parseAll f xs ids = .ok (ts, ids')) (hf : ∀ x ∈ xs, ∀ i i' t, f x i = .ok (t, i') → i ⊆ i') :
    ids ⊆ ids' ∧ (∀ x ∈ xs, ∃ t ∈ ts, ∃ i i', f x i = .ok (t, i') ∧ i' ⊆ ids') ∧
      (∀ t ∈ ts, ∃ x ∈ xs, ∃ i i', f x i = .ok (t, i') ∧ i' ⊆ ids') ∧
      ∀ id ∈ ids', id ∈ ids ∨ ∃ x ∈ xs, ∃ t ∈ ts, ∃ i i', f x i = .ok (t, i') ∧ i' ⊆ ids' ∧ id ∈ i' ∧ id ∉ i := by
  induction xs generalizing ids ts ids' with
  | nil => cases h; exact ⟨fun _ h => h, by simp, by simp, fun id hid => .inl hid⟩
  | cons x xs ih =>
    unfold Json.parseAll at h
    obtain ⟨⟨t, i⟩, h1, h⟩ := ok_bind h
    obtain ⟨⟨ts', i'⟩, h2, h⟩ := ok_bind h
    cases h
    obtain ⟨g1, g2, g3, g4⟩ := ih h2 fun y hy => hf y (List.mem_cons_of_mem _ hy)
    have hi := hf x (by simp) _ _ _ h1
    refine ⟨fun a ha => g1 (hi ha), ?_, ?_, ?_⟩
    · intro y hy
      rcases List.mem_cons.mp hy with rfl | hy
      · exact ⟨t, by simp, _, _, h1, g1⟩
      · obtain ⟨t', k1, k2⟩ := g2 y hy
        exact ⟨t', List.mem_cons_of_mem _ k1, k2⟩
    · intro u hu
      rcases List.mem_cons.mp hu with rfl | hu
      · exact ⟨x, by simp, _, _, h1, g1⟩
      · obtain ⟨y, k1, k2⟩ := g3 u hu
        exact ⟨y, List.mem_cons_of_mem _ k1, k2⟩
    · intro id hid
      rcases g4 id hid with h3 | ⟨y, hy, u, hu, k⟩
      · by_cases h4 : id ∈ ids
        · exact .inl h4
        · exact .inr ⟨x, by simp, t, by simp, _, _, h1, g1, h3, h4⟩
      · exact .inr ⟨y, List.mem_cons_of_mem _ hy, u, List.mem_cons_of_mem _ hu, k⟩

/-- The identifiers after reading properties. -/
theorem parseProps_ids {f : PyVal → Ids → Except PyErr (RType × Ids)} {req : PyVal} {ps : Dict} {ids ids' : Ids}
    {ts : List RType} (h : parseProps f req ps ids = .ok (ts, ids'))
    (hf : ∀ p ∈ ps, ∀ i i' t, f p.2 i = .ok (t, i') → i ⊆ i') :
    ids ⊆ ids' ∧
      (∀ u ∈ ts, ∃ p ∈ ps, ∃ t, ∃ listed : Bool, ∃ i i', f p.2 i = .ok (t, i') ∧ i' ⊆ ids' ∧ req.containsStr p.1 = .ok listed ∧
        u = named p.1 (if listed then t else optionalField t)) ∧
      ∀ id ∈ ids', id ∈ ids ∨ ∃ p ∈ ps, ∃ t, ∃ listed : Bool, ∃ i i', f p.2 i = .ok (t, i') ∧ i' ⊆ ids' ∧ id ∈ i' ∧ id ∉ i ∧
        named p.1 (if listed then t else optionalField t) ∈ ts := by
  induction ps generalizing ids ts ids' with
  | nil => cases h; exact ⟨fun _ h => h, by simp, fun id hid => .inl hid⟩
  | cons p ps ih =>
    obtain ⟨name, prop⟩ := p
    unfold parseProps at h
    obtain ⟨⟨t, i⟩, h1, h⟩ := ok_bind h
    obtain ⟨listed, h2, h⟩ := ok_bind h
    obtain ⟨⟨ts', i'⟩, h3, h⟩ := ok_bind h
    cases h
    obtain ⟨g1, g2, g3⟩ := ih h3 fun y hy => hf y (List.mem_cons_of_mem _ hy)
    have hi := hf (name, prop) (by simp) _ _ _ h1
    refine ⟨fun a ha => g1 (hi ha), ?_, ?_⟩
    · intro u hu
      rcases List.mem_cons.mp hu with rfl | hu
      · exact ⟨(name, prop), by simp, t, listed, _, _, h1, g1, h2, rfl⟩
      · obtain ⟨p, k1, k2⟩ := g2 u hu
        exact ⟨p, List.mem_cons_of_mem _ k1, k2⟩
    · intro id hid
      rcases g3 id hid with h4 | ⟨p, hp, t', l, i1, i2, k1, k2, k3, k4, k5⟩
      · by_cases h5 : id ∈ ids
        · exact .inl h5
        · exact .inr ⟨(name, prop), by simp, t, listed, _, _, h1, g1, h4, h5, by simp⟩
      · exact .inr ⟨p, List.mem_cons_of_mem _ hp, t', l, i1, i2, k1, k2, k3, k4, List.mem_cons_of_mem _ k5⟩

/-- A schema with an identifier was read as a type with its alias, which is in `t`. -/
structure Source (env : Url.Env) (v : PyVal) (t : RType) (ids' : Ids) (id : Chars) (d : Dict) (s : String) (alias : Chars)
    (td : RType) (i i' : Ids) (u : RType) : Prop where
  part : Part (.dict d) v
  ident : Dict.get? d "$id" = some (.str s)
  same : rstripHash s.toList = id
  made : urnToAlias env id = .ok alias
  read : Json.parse env (.dict d) i = .ok (td, i')
  sub : i' ⊆ ids'
  inside : Inside u t
  notRef : ¬IsReference u
  named : u.attrs.alias = .str (String.ofList alias)
  kin : From td u

theorem Source.lift {v w : PyVal} {t t' : RType} {ids1 ids2 : Ids} {id : Chars} {d : Dict} {s : String} {alias : Chars}
    {td u : RType} {i i' : Ids} (h : Source env v t ids1 id d s alias td i i' u) (hp : ∀ x, Part x v → Part x w)
    (hc : Covers t t') (hi : ids1 ⊆ ids2) : ∃ u', Source env w t' ids2 id d s alias td i i' u' := by
  obtain ⟨u', h1, h2⟩ := hc u h.inside
  exact ⟨u', hp _ h.part, h.ident, h.same, h.made, h.read, fun a ha => hi (h.sub ha), h1, fun hr => h.notRef (h2.ref.mp hr),
    h2.alias.trans h.named, h.kin.trans h2⟩

/-- The identifiers that are known after reading are those that were known before, and those of schemas in the
document. -/
theorem parse_ids (n : Nat) {v : PyVal} (hn : v.size ≤ n) {ids ids' : Ids} {t : RType}
    (h : Json.parse env v ids = .ok (t, ids')) :
    ids ⊆ ids' ∧ ∀ id ∈ ids', id ∈ ids ∨ ∃ d s alias td i i' u, Source env v t ids' id d s alias td i i' u := by
  induction n generalizing v ids ids' t with
  | zero => cases v <;> simp [PyVal.size] at hn
  | succ n ih =>
    rcases parse_ok_dict h with ⟨w, rfl⟩ | ⟨d, rfl⟩
    · rw [parse_str] at h
      obtain ⟨e, ids1, h1, h2⟩ := parse_dict_ok h
      have : ids1 = ids := by
        rcases extraAttrs_ids h1 with ⟨-, rfl, -⟩ | ⟨s, a, h, -⟩
        · rfl
        · simp [Dict.get?_cons] at h
      subst this
      have : ids' = ids1 := by
        cases h2 with
        | union hh _ => simp at hh
        | struct _ hh _ => simp [Dict.get?_cons] at hh
        | list _ hh _ => simp [Dict.get?_cons] at hh
        | leaf _ hh => exact (parseLeaf_ok hh).1
      subst this
      exact ⟨fun _ h => h, fun id hid => .inl hid⟩
    · obtain ⟨e, ids1, h1, h2⟩ := parse_dict_ok h
      have hx := extraAttrs_ids h1
      have hsub1 : ids ⊆ ids1 := by
        rcases hx with ⟨-, rfl, -⟩ | ⟨s, a, -, -, rfl, -⟩
        · exact fun _ h => h
        · exact fun _ h => List.mem_append_left _ h
      have own : ids1 ⊆ ids' → ∀ id ∈ ids1,
          (∀ s, Dict.get? d "$id" = some (.str s) → ¬IsReference t ∧ t.attrs.alias = (attrsOf e).alias) →
          id ∈ ids ∨ ∃ d' s alias td i i' u, Source env (.dict d) t ids' id d' s alias td i i' u := by
        intro hs id hid hal
        rcases hx with ⟨-, rfl, -⟩ | ⟨s, a, k1, k2, rfl, k3, -⟩
        · exact .inl hid
        · rcases List.mem_append.mp hid with hid | hid
          · exact .inl hid
          · cases List.mem_singleton.mp hid
            obtain ⟨g1, g2⟩ := hal s k1
            exact .inr ⟨d, s, a, t, ids, ids', t, .refl, k1, rfl, k2, h, fun _ h => h, .refl, g1, g2.trans k3, .refl t⟩
      have size : ∀ k w, Dict.get? d k = some w → w.size ≤ n := fun k w hw => by have := size_get hw; omega
      cases h2 with
      | @union xs ts _ ht hp =>
        have hxs := size _ _ ht
        have hih : ∀ x ∈ xs, ∀ i i' u, Json.parse env x i = .ok (u, i') → i ⊆ i' ∧ ∀ id ∈ i', id ∈ i ∨
            ∃ d s alias td k k' w, Source env x u i' id d s alias td k k' w := fun x hx i i' u hu =>
          ih (by have := size_list xs hx; omega) hu
        obtain ⟨g1, g2, g3, g4⟩ := parseAll_ids hp fun x hx i i' u hu => (hih x hx i i' u hu).1
        refine ⟨fun a ha => g1 (hsub1 ha), fun id hid => ?_⟩
        rcases g4 id hid with hid | ⟨x, hx, u, hu, i, i', k1, k2, k3, k4⟩
        · exact own g1 id hid fun _ _ => ⟨by simp [IsReference], rfl⟩
        · obtain ⟨d', s, al, td, m, m', w, hw⟩ := ((hih x hx _ _ _ k1).2 id k3).resolve_left k4
          obtain ⟨w', hw'⟩ := hw.lift (w := .dict d) (t' := .union ts (attrsOf e)) (fun y hy => .alternative ht hx hy)
            (.inside (.member hu .refl)) k2
          exact .inr ⟨_, _, _, _, _, _, _, hw'⟩
      | @struct props ts _ ht hprops hp =>
        have hps := size _ _ hprops
        have hih : ∀ p ∈ props, ∀ i i' u, Json.parse env p.2 i = .ok (u, i') → i ⊆ i' ∧ ∀ id ∈ i', id ∈ i ∨
            ∃ d s alias td k k' w, Source env p.2 u i' id d s alias td k k' w := fun p hp' i i' u hu =>
          ih (by have := PyVal.size_lt_of_mem_dict hp'; omega) hu
        obtain ⟨g1, -, g4⟩ := parseProps_ids hp fun x hx i i' u hu => (hih x hx i i' u hu).1
        refine ⟨fun a ha => g1 (hsub1 ha), fun id hid => ?_⟩
        rcases g4 id hid with hid | ⟨p, hp', u, l, i, i', k1, k2, k3, k4, k5⟩
        · exact own g1 id hid fun _ _ => ⟨by simp [IsReference], rfl⟩
        · obtain ⟨d', s, al, td, m, m', w, hw⟩ := ((hih p hp' _ _ _ k1).2 id k3).resolve_left k4
          obtain ⟨w', hw'⟩ := hw.lift (w := .dict d) (t' := .struct ts (attrsOf e)) (fun y hy => .property hprops hp' hy)
            ((covers_field p.1 l u).trans (.inside (.field k5 .refl))) k2
          exact .inr ⟨_, _, _, _, _, _, _, hw'⟩
      | @list items u _ ht hi hp =>
        obtain ⟨g1, g2⟩ := ih (size _ _ hi) hp
        refine ⟨fun a ha => g1 (hsub1 ha), fun id hid => ?_⟩
        rcases g2 id hid with hid | ⟨d', s, al, td, m, m', w, hw⟩
        · exact own g1 id hid fun _ _ => ⟨by simp [IsReference], rfl⟩
        · obtain ⟨w', hw'⟩ := hw.lift (w := .dict d) (t' := .list u .none (.bool true) (attrsOf e))
            (fun y hy => .items hi hy) (.inside (.list .refl)) fun _ h => h
          exact .inr ⟨_, _, _, _, _, _, _, hw'⟩
      | leaf _ hp =>
        obtain ⟨rfl, hl⟩ := parseLeaf_ok hp
        refine ⟨hsub1, fun id hid => own (fun _ h => h) id hid ?_⟩
        · intro s hs
          rcases hl with ⟨-, k1, k2, -⟩ | ⟨urn, -, hr⟩
          · exact ⟨k1, k2⟩
          · obtain ⟨-, -, k1, -⟩ := parseRef_ok hr
            rcases hx with ⟨k2, -⟩ | ⟨s, a, -, -, -, -, k3⟩
            · simp_all
            · rw [k1] at k3; cases k3

/-! ## The values of the type that is read -/

theorem part_trans {x w v : PyVal} (h : Part x w) (h' : Part w v) : Part x v := by
  induction h' with
  | refl => exact h
  | items h1 _ ih => exact .items h1 (ih h)
  | property h1 h2 _ ih => exact .property h1 h2 (ih h)
  | alternative h1 h2 _ ih => exact .alternative h1 h2 (ih h)

theorem without_part {keys : List String} {x v : PyVal} (h : Part x v) (hw : Without keys v) : Without keys x := by
  induction h with
  | refl => exact hw
  | items h1 _ ih => exact ih ((without_dict hw).1 _ _ h1).2
  | property h1 h2 _ ih => exact ih ((without_dict ((without_dict hw).1 _ _ h1).2).2 _ _ h2)
  | alternative h1 h2 _ ih => exact ih (without_list ((without_dict hw).1 _ _ h1).2 h2)

/-- A basic type has the values of its kind. -/
theorem leaf_carries {e d : Dict} {ids ids' : Ids} {t : RType} (h : parseLeaf env e d ids = .ok (t, ids')) {j : PyVal}
    (hj : Valid refs (.dict d) j) (hm : Moderate j) (hr : ¬IsReference t) : CarriesIn root t j := by
  have nr : ∀ {urn}, parseRef env e urn ids ≠ .ok (t, ids') := by
    intro urn hp
    obtain ⟨-, -, -, a, -, rfl⟩ := parseRef_ok hp
    exact hr ⟨_, _, rfl⟩
  simp only [parseLeaf] at h
  repeat' split at h
  · rename_i ht
    have := (valid_get hj ht).type rfl
    cases h
    obtain ⟨s, rfl⟩ := kind_string this
    unfold parseString
    repeat' split
    · exact .bytes
    all_goals exact .string (.inl rfl)
  · rename_i ht
    have := (valid_get hj ht).type rfl
    cases h
    rcases kind_number this with ⟨i, rfl⟩ | ⟨m, e, rfl⟩
    · exact .whole (significant_small hm)
    · exact .float hm.1
  · rename_i ht
    have := (valid_get hj ht).type rfl
    cases h
    rcases kind_integer this with ⟨i, rfl⟩ | ⟨q, e, rfl⟩
    · exact .int hm
    · exact .point (hm.2 q rfl)
  · rename_i ht
    have := (valid_get hj ht).type rfl
    cases h
    obtain ⟨b, rfl⟩ := kind_boolean this
    exact .bool
  · rename_i ht
    have := (valid_get hj ht).type rfl
    cases h
    cases kind_null this
    exact .null
  · exact absurd h nr
  · exact absurd h nr
  · cases h

theorem read_not_ref {d e : Dict} {ids ids' : Ids} {t : RType} (h : Read env d e ids t ids') (hr : IsReference t) :
    ∃ urn, (Dict.get? d "$ref" = some (.str urn) ∨ Dict.get? d "$dynamicRef" = some (.str urn)) ∧
      parseRef env e urn ids = .ok (t, ids') := by
  obtain ⟨r, a, rfl⟩ := hr
  cases h with
  | leaf _ hp =>
    obtain ⟨rfl, ⟨-, h, -⟩ | h⟩ := parseLeaf_ok hp
    · exact absurd ⟨_, _, rfl⟩ h
    · exact h

/-- What is valid against a part of the document is a value of the type that is read from the part. -/
theorem part_carries {v : PyVal} {t : RType} {ids' : Ids} (h : Json.parse env v [] = .ok (t, ids'))
    (hw : Without ["$dynamicRef"] v) (hl : Located refs v) (n : Nat) {d : Dict} {i i' : Ids} {u : RType}
    (hp : Part (.dict d) v) (hu : Json.parse env (.dict d) i = .ok (u, i')) (hi : i' ⊆ ids') {j : PyVal}
    (hn : j.size ≤ n) (hj : Valid refs (.dict d) j) (hm : Moderate j) : CarriesIn t u j := by
  induction n generalizing d i i' u j with
  | zero => cases j <;> simp [PyVal.size] at hn
  | succ n ih =>
    -- schemas that are not references
    have plain : ∀ {d : Dict} {i i' : Ids} {u : RType}, Part (.dict d) v → Json.parse env (.dict d) i = .ok (u, i') →
        i' ⊆ ids' → ¬IsReference u → Valid refs (.dict d) j → CarriesIn t u j := by
      clear hp hu hi hj
      intro d i i' u hp hu hi hr hj
      obtain ⟨e, ids1, h1, h2⟩ := parse_dict_ok hu
      cases h2 with
      | @union xs ts _ ht hq =>
        obtain ⟨s, hs', hk⟩ := (valid_get hj ht).type rfl
        obtain ⟨w, hw', i1, i2, hf⟩ := parseAll_mem hq hs'
        refine .union hw' ?_
        rw [parse_str] at hf
        obtain ⟨e', ids2, -, h4⟩ := parse_dict_ok hf
        have hv : Valid refs (.dict [("type", .str s)]) j := by
          rw [valid_iff]
          intro kv hkv
          simp at hkv
          subst hkv
          exact ⟨fun _ => hk, by simp, by simp, by simp, by simp, by simp, by simp, by simp⟩
        have hnr : ¬IsReference w := by
          intro hr
          obtain ⟨urn, h, -⟩ := read_not_ref h4 hr
          simp [Dict.get?_cons] at h
        cases h4 with
        | union hh _ => simp at hh
        | struct _ hh _ => simp [Dict.get?_cons] at hh
        | list _ hh _ => simp [Dict.get?_cons] at hh
        | leaf _ hh => exact leaf_carries hh hv hm hnr
      | @struct ps ts _ ht hprops hq =>
        have hk := (valid_get hj ht).type rfl
        obtain ⟨o, rfl⟩ := kind_object hk
        have hps := (valid_get hj hprops).properties rfl
        rw [Properties, propertiesAll_iff] at hps
        obtain ⟨-, hmem, -⟩ := parseProps_ids hq fun p _ i i' w hw' => (parse_ids _ (Nat.le_refl _) hw').1
        refine .struct (fun f hf => ?_) (fun f hf name x hn' hv => ?_) (fun f hf name hn' hv => ?_)
        · obtain ⟨p, -, w, l, _, _, -, -, -, rfl⟩ := hmem f hf
          exact ⟨_, named_name ..⟩
        · obtain ⟨p, hp', w, l, i1, i2, k1, k2, -, rfl⟩ := hmem f hf
          rw [named_name] at hn'
          cases hn'
          have hv' := hps _ hp' o x rfl hv
          refine carriesIn_field ?_ _ _
          rcases parse_ok_dict k1 with ⟨s, hs'⟩ | ⟨d', hd'⟩
          · rw [hs'] at hv'; simp [Valid] at hv'
          · rw [hd'] at k1 hv'
            refine ih (part_trans (.property hprops (n := p.1) ?_ .refl) hp) k1 (fun a ha => hi (k2 ha)) ?_ hv'
              (moderate_dict hm (Dict.mem_of_get? hv))
            · rw [← hd']; exact hp'
            · have := PyVal.size_lt_of_mem_dict (Dict.mem_of_get? hv); omega
        · obtain ⟨p, hp', w, l, i1, i2, k1, k2, h3, rfl⟩ := hmem f hf
          rw [named_name] at hn'
          cases hn'
          cases l with
          | false => exact named_default (optionalField_default w)
          | true =>
            exfalso
            cases hreq : Dict.get? d "required" with
            | none => simp [Dict.getD, hreq, PyVal.containsStr] at h3
            | some r =>
              have := (valid_get hj hreq).required rfl
              cases r with
              | list xs =>
                simp only [Dict.getD, hreq, Option.getD_some, PyVal.containsStr, Except.ok.injEq, List.any_eq_true] at h3
                obtain ⟨x, hx, hxe⟩ := h3
                obtain ⟨m, rfl, hm'⟩ := this o rfl x hx
                simp [PyVal.pyEq] at hxe
                subst hxe
                exact absurd hm' (Dict.get?_eq_none_iff.mp hv)
              | _ => exact this
      | @list items w _ ht hit hq =>
        obtain ⟨xs, rfl⟩ := kind_array ((valid_get hj ht).type rfl)
        refine .list fun x hx => ?_
        have hv := (valid_get hj hit).items rfl xs rfl x hx
        rcases parse_ok_dict hq with ⟨s, rfl⟩ | ⟨d', rfl⟩
        · simp [Valid] at hv
        · exact ih (part_trans (.items hit .refl) hp) hq hi (by have := size_list xs hx; omega) hv (moderate_list hm hx)
      | leaf _ hq => exact leaf_carries hq hj hm hr
    by_cases hr : IsReference u
    · obtain ⟨e, ids1, h1, h2⟩ := parse_dict_ok hu
      obtain ⟨urn, hurn, hpr⟩ := read_not_ref h2 hr
      have hurn : Dict.get? d "$ref" = some (.str urn) := by
        rcases hurn with h | h
        · exact h
        · exact absurd ((without_dict (without_part hp hw)).1 _ _ h).1 (by simp)
      obtain ⟨rfl, k1, -, alias, k2, rfl⟩ := parseRef_ok hpr
      obtain ⟨d', s, al, td, m, m', w, hw'⟩ := ((parse_ids _ (Nat.le_refl _) h).2 _ (hi k1)).resolve_left (by simp)
      obtain ⟨s', hs', hrf⟩ := (valid_get hj hurn).ref rfl
      cases hs'
      have hv := (hl d' s urn hw'.part hw'.ident (sameId_of hw'.same) j).mp hrf
      have hc := plain hw'.part hw'.read hw'.sub (fun hr' => hw'.notRef (hw'.kin.ref.mpr hr')) hv
      have := hw'.made.symm.trans k2
      cases this
      exact .reference hw'.inside hw'.notRef hw'.named (hw'.kin.carries _ _ hc)
    · exact plain hp hu hi hr hj

/-! ## The references in the type that is read -/

/-- The references in `t'` are those in `t`. -/
def Back (t' t : RType) : Prop := ∀ r a, Inside (.proxy r a) t' → ∃ a', Inside (.proxy r a') t ∧ a'.alias = a.alias

theorem Back.trans {t t' t'' : RType} (h : Back t'' t') (h' : Back t' t) : Back t'' t := by
  intro r a hi
  obtain ⟨a1, h1, h2⟩ := h r a hi
  obtain ⟨a2, h3, h4⟩ := h' r a1 h1
  exact ⟨a2, h3, h4.trans h2⟩

theorem Back.refl (t : RType) : Back t t := fun _ a h => ⟨a, h, rfl⟩

theorem back_with (t : RType) (b : Attrs) (hb : b.alias = t.attrs.alias) : Back (t.withAttrs b) t := by
  intro r a h
  cases t <;> simp only [RType.withAttrs] at h <;> cases h
  case proxy.refl => exact ⟨_, .refl, hb.symm⟩
  case list.list h => exact ⟨a, .list h, rfl⟩
  case map.value h => exact ⟨a, .value h, rfl⟩
  case struct.field h2 h1 => exact ⟨a, .field h1 h2, rfl⟩
  case union.member h2 h1 => exact ⟨a, .member h1 h2, rfl⟩

theorem back_addNull {ts : List RType} {u : RType} (h : u ∈ RType.addNull ts) : u ∈ ts ∨ u.isNull = true := by
  rcases of_addNull h with h | h
  · exact .inl h
  · exact .inr (h ▸ rfl)

theorem null_no_proxy {r a} {u : RType} (hu : u.isNull = true) (h : Inside (.proxy r a) u) : False := by
  cases u <;> simp [RType.isNull] at hu
  cases h

theorem back_makeNullable (t : RType) : Back t.makeNullable t := by
  unfold RType.makeNullable
  split
  · intro r a h
    cases h with
    | member h1 h2 =>
      rcases back_addNull h1 with h1 | h1
      · exact ⟨a, .member h1 h2, rfl⟩
      · exact (null_no_proxy h1 h2).elim
  · intro r a h
    cases h with
    | member h1 h2 =>
      rcases back_addNull h1 with h1 | h1
      · cases List.mem_singleton.mp h1
        exact back_with t { t.attrs with doc := .none, extra := RType.demoted t.attrs.extra } rfl r a h2
      · exact (null_no_proxy h1 h2).elim

theorem back_field (name : String) (listed : Bool) (t : RType) :
    Back (named name (if listed then t else optionalField t)) t := by
  have key : ∀ u : RType, Back (if Dict.has u.attrs.extra "default" then u
      else u.withAttrs { u.attrs with extra := Dict.set u.attrs.extra "default" .none }) u := by
    intro u
    split
    · exact .refl u
    · exact back_with u _ rfl
  refine Back.trans (back_with _ { (if listed then t else optionalField t).attrs with extra := _ } rfl) ?_
  split
  · exact .refl t
  · unfold optionalField
    simp only
    split
    · exact key t
    · exact (key _).trans (back_makeNullable t)

/-- A reference that was read from a schema in the document. -/
structure Origin (env : Url.Env) (v : PyVal) (ids' : Ids) (r : Option (List (String × RType))) (al : PyVal) (d : Dict)
    (urn : String) (alias : Chars) : Prop where
  live : r = .none
  part : Part (.dict d) v
  ref : Dict.get? d "$ref" = some (.str urn) ∨ Dict.get? d "$dynamicRef" = some (.str urn)
  known : rstripHash urn.toList ∈ ids'
  made : urnToAlias env (rstripHash urn.toList) = .ok alias
  named : al = .str (String.ofList alias)

theorem Origin.lift {v w : PyVal} {ids1 ids2 : Ids} {r al d urn alias} (h : Origin env v ids1 r al d urn alias)
    (hp : ∀ x, Part x v → Part x w) (hi : ids1 ⊆ ids2) : Origin env w ids2 r al d urn alias :=
  ⟨h.live, hp _ h.part, h.ref, hi h.known, h.made, h.named⟩

theorem parse_proxies (n : Nat) {v : PyVal} (hn : v.size ≤ n) {ids ids' : Ids} {t : RType}
    (h : Json.parse env v ids = .ok (t, ids')) {r : Option (List (String × RType))} {a : Attrs} (hi : Inside (.proxy r a) t) :
    ∃ d urn alias, Origin env v ids' r a.alias d urn alias := by
  induction n generalizing v ids ids' t r a with
  | zero => cases v <;> simp [PyVal.size] at hn
  | succ n ih =>
    rcases parse_ok_dict h with ⟨w, rfl⟩ | ⟨d, rfl⟩
    · rw [parse_str] at h
      obtain ⟨e, ids1, h1, h2⟩ := parse_dict_ok h
      cases h2 with
      | union hh _ => simp at hh
      | struct _ hh _ => simp [Dict.get?_cons] at hh
      | list _ hh _ => simp [Dict.get?_cons] at hh
      | leaf _ hh =>
        exfalso
        obtain ⟨rfl, ⟨-, h1, -, h2⟩ | ⟨urn, h1, h2⟩⟩ := parseLeaf_ok hh
        · exact absurd ⟨_, _, (h2 _ hi).symm⟩ h1
        · simp [Dict.get?_cons] at h1
    · obtain ⟨e, ids1, h1, h2⟩ := parse_dict_ok h
      have size : ∀ k w, Dict.get? d k = some w → w.size ≤ n := fun k w hw => by have := size_get hw; omega
      cases h2 with
      | @union xs ts _ ht hp =>
        cases hi with
        | member k1 k2 =>
          obtain ⟨-, -, g, -⟩ := parseAll_ids hp fun x _ i i' u hu => (parse_ids _ (Nat.le_refl _) hu).1
          obtain ⟨x, hx, i, i', g1, g2⟩ := g _ k1
          obtain ⟨d', urn, al, ho⟩ := ih (by have := size_list xs hx; have := size _ _ ht; omega) g1 k2
          exact ⟨d', urn, al, ho.lift (fun y hy => .alternative ht hx hy) g2⟩
      | @struct props ts _ ht hprops hp =>
        cases hi with
        | field k1 k2 =>
          obtain ⟨-, g, -⟩ := parseProps_ids hp fun p _ i i' u hu => (parse_ids _ (Nat.le_refl _) hu).1
          obtain ⟨p, hp', w, l, i, i', g1, g2, -, rfl⟩ := g _ k1
          obtain ⟨a', k3, k4⟩ := back_field _ _ _ _ _ k2
          obtain ⟨d', urn, al, ho⟩ := ih (by have := PyVal.size_lt_of_mem_dict hp'; have := size _ _ hprops; omega) g1 k3
          rw [k4] at ho
          exact ⟨d', urn, al, ho.lift (fun y hy => .property hprops hp' hy) g2⟩
      | @list items u _ ht hit hp =>
        cases hi with
        | list k1 =>
          obtain ⟨d', urn, al, ho⟩ := ih (size _ _ hit) hp k1
          exact ⟨d', urn, al, ho.lift (fun y hy => .items hit hy) fun _ h => h⟩
      | leaf _ hp =>
        obtain ⟨rfl, ⟨-, h1, -, h2⟩ | ⟨urn, h1, h2⟩⟩ := parseLeaf_ok hp
        · exact absurd ⟨_, _, (h2 _ hi).symm⟩ h1
        · obtain ⟨-, k1, -, alias, k2, rfl⟩ := parseRef_ok h2
          cases hi
          exact ⟨d, urn, alias, rfl, .refl, h1, k1, k2, rfl⟩

end Recap.JsonData
