import Verif.JsonBackSpec
import Verif.JsonRefsLemmas

/-!
# Lemmas on the JSON values of types with references that are read (C138)
-/

set_option autoImplicit false

namespace Recap.JsonData

open Json
open Avro.Spec (IntValue)
open Values (Fits)
open Json.Spec (nameOf Without WithoutPairs Inside IsReference)
open Url (Chars)

variable {refs : String → PyVal → Prop} {root : RType} {env : Url.Env}

/-! ## Identifiers -/

theorem rstripHash_append (c : Chars) (m : Nat) : rstripHash (c ++ List.replicate m '#') = rstripHash c := by
  have : ∀ (m : Nat) (l : Chars), (List.replicate m '#' ++ l).dropWhile (· = '#') = l.dropWhile (· = '#') := by
    intro m l
    induction m with
    | zero => rfl
    | succ m ih => simp only [List.replicate_succ, List.cons_append, List.dropWhile_cons, decide_true, if_true, ih]
  unfold rstripHash
  rw [List.reverse_append, List.reverse_replicate, this]

theorem rstripHash_same {a b : String} (h : SameId a b) : rstripHash a.toList = rstripHash b.toList := by
  obtain ⟨c, m, n, h1, h2⟩ := h
  rw [h1, h2, rstripHash_append, rstripHash_append]

theorem aliasOf_made {s : String} {al : Chars} (h : urnToAlias env (rstripHash s.toList) = .ok al) :
    AliasOf env s (.str (String.ofList al)) := by
  refine ⟨.struct [] { alias := .str (String.ofList al) }, [rstripHash s.toList], ?_, rfl⟩
  obtain ⟨n, hn⟩ : ∃ n, (PyVal.dict [("$id", .str s), ("type", .str "object"), ("properties", .dict [])]).size = n + 1 :=
    ⟨_, Nat.add_comm _ _⟩
  rw [toRecap, Json.parse, hn, parseF]
  simp [schemaOf, extraAttrs, h, bind, Except.bind, pure, Except.pure, Dict.get?_cons, parseDict, parseProps, copied, attrsOf,
    Dict.getD]

/-! ## A field and the type it is made of -/

/-- How a type inside the result comes from a type that was read. -/
inductive Made (td : RType) : Bool → RType → Prop
  | same (a : Attrs) : a.alias = td.attrs.alias → Made td false (td.withAttrs a)
  | widened {ts b} (a : Attrs) : td = .union ts b → a.alias = b.alias → td.isNullable = false →
      Made td true (.union (RType.addNull ts) a)
  | wrapped (a b : Attrs) : a.alias = td.attrs.alias → b.alias = .none →
      Made td true (.union (RType.addNull [td.withAttrs a]) b)

theorem withAttrs_self (t : RType) : t.withAttrs t.attrs = t := by cases t <;> rfl

theorem withAttrs_twice (t : RType) (a b : Attrs) : (t.withAttrs a).withAttrs b = t.withAttrs b := by cases t <;> rfl

theorem Made.refl (t : RType) : Made t false t := by
  have := Made.same (td := t) t.attrs rfl
  rwa [withAttrs_self] at this

theorem Made.with {t u : RType} {l : Bool} (h : Made t l u) (c : Attrs) (hc : c.alias = u.attrs.alias) :
    Made t l (u.withAttrs c) := by
  cases h with
  | same a ha =>
    rw [withAttrs_twice]
    rw [attrs_withAttrs] at hc
    exact .same c (hc.trans ha)
  | widened a h1 h2 h3 => exact .widened c h1 (hc.trans h2) h3
  | wrapped a b h1 h2 => exact .wrapped a c h1 (hc.trans h2)

theorem made_optional (t : RType) : (t.isNullable = true ∧ Made t false (optionalField t)) ∨
    (t.isNullable = false ∧ Made t true (optionalField t)) := by
  have key : ∀ {l : Bool} {u : RType}, Made t l u → Made t l (if Dict.has u.attrs.extra "default" then u
      else u.withAttrs { u.attrs with extra := Dict.set u.attrs.extra "default" .none }) := by
    intro l u hu
    split
    · exact hu
    · exact hu.with _ rfl
  unfold optionalField
  simp only
  split
  · rename_i hn
    exact .inl ⟨hn, key (.refl t)⟩
  · rename_i hn
    have hn : t.isNullable = false := by simpa using hn
    refine .inr ⟨hn, key ?_⟩
    unfold RType.makeNullable
    split
    · rename_i ts b
      exact .widened _ rfl rfl hn
    · exact .wrapped _ _ rfl rfl

theorem made_field (name : String) (listed : Bool) (t : RType) :
    (Made t false (named name (if listed then t else optionalField t))) ∨
      (listed = false ∧ t.isNullable = false ∧ Made t true (named name (if listed then t else optionalField t))) := by
  cases listed with
  | true => exact .inl ((Made.refl t).with _ rfl)
  | false =>
    rcases made_optional t with ⟨-, h⟩ | ⟨h1, h⟩
    · exact .inl (h.with _ rfl)
    · exact .inr ⟨rfl, h1, h.with _ rfl⟩

theorem inside_with {u t : RType} {a : Attrs} (h : Inside u (t.withAttrs a)) : u = t.withAttrs a ∨ Inside u t := by
  rcases inside_cases h with h | h
  · exact .inl h
  · have := h t.attrs
    rw [withAttrs_twice, withAttrs_self] at this
    exact .inr this

theorem alias_null {u : RType} {s : String} (h : Inside u (.null {})) (ha : u.attrs.alias = .str s) : False := by
  cases h; cases ha

/-- What is inside a field with an alias. -/
theorem inside_made {t w u : RType} {l : Bool} (h : Made t l w) (hi : Inside u w) {s : String} (ha : u.attrs.alias = .str s) :
    Inside u t ∨ (∃ b, b.alias = t.attrs.alias ∧ u = t.withAttrs b) ∨
      ∃ ts b c, t = .union ts b ∧ t.isNullable = false ∧ c.alias = b.alias ∧ u = .union (RType.addNull ts) c ∧ l = true := by
  cases h with
  | same a h1 =>
    rcases inside_with hi with rfl | h
    · exact .inr (.inl ⟨a, h1, rfl⟩)
    · exact .inl h
  | @widened ts b a h1 h2 h3 =>
    subst h1
    cases hi with
    | refl => exact .inr (.inr ⟨ts, b, a, rfl, h3, h2, rfl, rfl⟩)
    | member k1 k2 =>
      rcases of_addNull k1 with k1 | rfl
      · exact .inl (.member k1 k2)
      · exact (alias_null k2 ha).elim
  | wrapped a b h1 h2 =>
    cases hi with
    | refl =>
      have : b.alias = .str s := ha
      rw [h2] at this
      cases this
    | member k1 k2 =>
      rcases of_addNull k1 with k1 | rfl
      · cases List.mem_singleton.mp k1
        rcases inside_with k2 with rfl | h
        · exact .inr (.inl ⟨a, h1, rfl⟩)
        · exact .inl h
      · exact (alias_null k2 ha).elim

/-! ## Types with an alias -/

/-- A type inside the result that has an alias was read from a schema with an identifier. -/
structure Root (env : Url.Env) (v : PyVal) (ids' : Ids) (u : RType) (a : String) (d : Dict) (s : String) (alias : Chars)
    (td : RType) (i i' : Ids) : Prop where
  part : Part (.dict d) v
  ident : Dict.get? d "$id" = some (.str s)
  made : urnToAlias env (rstripHash s.toList) = .ok alias
  named : a = String.ofList alias
  read : Json.parse env (.dict d) i = .ok (td, i')
  sub : i' ⊆ ids'
  kin : (∃ b, b.alias = td.attrs.alias ∧ u = td.withAttrs b) ∨
    ∃ ts b c, td = .union ts b ∧ td.isNullable = false ∧ c.alias = b.alias ∧ u = .union (RType.addNull ts) c ∧
      ∃ d0 ps n, Part (.dict d0) v ∧ Dict.get? d0 "properties" = some (.dict ps) ∧ (n, .dict d) ∈ ps ∧ ¬Asked d0 n

theorem Root.lift {v w : PyVal} {ids1 ids2 : Ids} {u : RType} {a : String} {d : Dict} {s : String} {alias : Chars}
    {td : RType} {i i' : Ids} (h : Root env v ids1 u a d s alias td i i') (hp : ∀ x, Part x v → Part x w)
    (hi : ids1 ⊆ ids2) : Root env w ids2 u a d s alias td i i' := by
  refine ⟨hp _ h.part, h.ident, h.made, h.named, h.read, fun a ha => hi (h.sub ha), ?_⟩
  rcases h.kin with h | ⟨ts, b, c, h1, h2, h3, h4, d0, ps, n, h5, h6⟩
  · exact .inl h
  · exact .inr ⟨ts, b, c, h1, h2, h3, h4, d0, ps, n, hp _ h5, h6⟩

/-- The alias of a type that is read and is not a reference is that of its identifier. -/
theorem parse_alias {v : PyVal} {ids ids' : Ids} {t : RType} (h : Json.parse env v ids = .ok (t, ids'))
    (hr : ¬IsReference t) {a : String} (ha : t.attrs.alias = .str a) :
    ∃ d s alias, v = .dict d ∧ Dict.get? d "$id" = some (.str s) ∧ urnToAlias env (rstripHash s.toList) = .ok alias ∧
      a = String.ofList alias := by
  have key : ∀ {d}, Json.parse env (.dict d) ids = .ok (t, ids') → ∃ s alias, Dict.get? d "$id" = some (.str s) ∧
      urnToAlias env (rstripHash s.toList) = .ok alias ∧ a = String.ofList alias := by
    intro d h
    obtain ⟨e, ids1, h1, h2⟩ := parse_dict_ok h
    have hal : t.attrs.alias = (attrsOf e).alias := by
      cases h2 with
      | union => rfl
      | struct => rfl
      | list => rfl
      | leaf _ hp =>
        obtain ⟨-, ⟨-, -, k, -⟩ | ⟨urn, -, k⟩⟩ := parseLeaf_ok hp
        · exact k
        · obtain ⟨-, -, -, al, -, rfl⟩ := parseRef_ok k
          exact absurd ⟨_, _, rfl⟩ hr
    rcases extraAttrs_ids h1 with ⟨-, -, k⟩ | ⟨s, al, k1, k2, -, k3, -⟩
    · rw [hal, k] at ha; cases ha
    · rw [hal, k3] at ha
      cases ha
      exact ⟨s, al, k1, k2, rfl⟩
  rcases parse_ok_dict h with ⟨w, rfl⟩ | ⟨d, rfl⟩
  · rw [parse_str] at h
    obtain ⟨s, al, h, -⟩ := key h
    simp [Dict.get?_cons] at h
  · obtain ⟨s, al, k⟩ := key h
    exact ⟨d, s, al, rfl, k⟩

theorem isReference_with {t : RType} {a : Attrs} : IsReference (t.withAttrs a) ↔ IsReference t := by
  unfold IsReference
  cases t <;> simp [RType.withAttrs]

theorem parse_roots (n : Nat) {v : PyVal} (hn : v.size ≤ n) {ids ids' : Ids} {t : RType}
    (h : Json.parse env v ids = .ok (t, ids')) {u : RType} (hi : Inside u t) (hr : ¬IsReference u) {a : String}
    (ha : u.attrs.alias = .str a) : ∃ d s alias td i i', Root env v ids' u a d s alias td i i' := by
  have self : ∀ {v : PyVal} {ids ids' : Ids} {t u : RType} {b : Attrs}, Json.parse env v ids = .ok (t, ids') →
      b.alias = t.attrs.alias → u = t.withAttrs b → ¬IsReference u → u.attrs.alias = .str a →
      ∃ d s alias td i i', Root env v ids' u a d s alias td i i' := by
    intro v ids ids' t u b h hb hu hr ha
    subst hu
    rw [attrs_withAttrs, hb] at ha
    obtain ⟨d, s, al, rfl, k1, k2, k3⟩ := parse_alias h (fun k => hr (isReference_with.mpr k)) ha
    exact ⟨d, s, al, t, ids, ids', .refl, k1, k2, k3, h, fun _ h => h, .inl ⟨b, hb, rfl⟩⟩
  induction n generalizing v ids ids' t u with
  | zero => cases v <;> simp [PyVal.size] at hn
  | succ n ih =>
    by_cases hut : u = t
    · subst hut
      exact self h rfl (withAttrs_self u).symm hr ha
    rcases parse_ok_dict h with ⟨w, rfl⟩ | ⟨d, rfl⟩
    · rw [parse_str] at h
      obtain ⟨e, ids1, h1, h2⟩ := parse_dict_ok h
      cases h2 with
      | union hh _ => simp at hh
      | struct _ hh _ => simp [Dict.get?_cons] at hh
      | list _ hh _ => simp [Dict.get?_cons] at hh
      | leaf _ hh =>
        exfalso
        obtain ⟨rfl, ⟨-, h1, -, h2⟩ | ⟨urn, h1, h2⟩⟩ := parseLeaf_ok hh
        · exact hut (h2 _ hi)
        · simp [Dict.get?_cons] at h1
    · obtain ⟨e, ids1, h1, h2⟩ := parse_dict_ok h
      have size : ∀ k w, Dict.get? d k = some w → w.size ≤ n := fun k w hw => by have := size_get hw; omega
      cases h2 with
      | @union xs ts _ ht hp =>
        cases hi with
        | refl => exact absurd rfl hut
        | member k1 k2 =>
          obtain ⟨-, -, g, -⟩ := parseAll_ids hp fun x _ i i' u hu => (parse_ids _ (Nat.le_refl _) hu).1
          obtain ⟨x, hx, i, i', g1, g2⟩ := g _ k1
          obtain ⟨d', s, al, td, j, j', ho⟩ := ih (by have := size_list xs hx; have := size _ _ ht; omega) g1 k2 hr ha
          exact ⟨d', s, al, td, j, j', ho.lift (fun y hy => .alternative ht hx hy) g2⟩
      | @struct props ts _ ht hprops hp =>
        cases hi with
        | refl => exact absurd rfl hut
        | field k1 k2 =>
          obtain ⟨-, g, -⟩ := parseProps_ids hp fun p _ i i' u hu => (parse_ids _ (Nat.le_refl _) hu).1
          obtain ⟨p, hp', w, l, i, i', g1, g2, g3, rfl⟩ := g _ k1
          have hsz : p.2.size ≤ n := by have := PyVal.size_lt_of_mem_dict hp'; have := size _ _ hprops; omega
          have hm : Made w false (named p.1 (if l then w else optionalField w)) ∨
            (l = false ∧ w.isNullable = false ∧ Made w true (named p.1 (if l then w else optionalField w))) := made_field ..
          have hc : ∃ b, Made w b (named p.1 (if l then w else optionalField w)) ∧ (b = true → l = false) := by
            rcases hm with hm | ⟨h1, -, hm⟩
            · exact ⟨_, hm, by simp⟩
            · exact ⟨_, hm, fun _ => h1⟩
          obtain ⟨b, hm, hb⟩ := hc
          rcases inside_made hm k2 ha with k3 | ⟨c, hc1, rfl⟩ | ⟨ts', b', c, rfl, k3, k4, rfl, rfl⟩
          · obtain ⟨d', s, al, td, j, j', ho⟩ := ih hsz g1 k3 hr ha
            exact ⟨d', s, al, td, j, j', ho.lift (fun y hy => .property hprops hp' hy) g2⟩
          · obtain ⟨d', s, al, td, j, j', ho⟩ := self g1 hc1 rfl hr ha
            exact ⟨d', s, al, td, j, j', ho.lift (fun y hy => .property hprops hp' hy) g2⟩
          · have ha' : (RType.union ts' b').attrs.alias = .str a := k4 ▸ ha
            obtain ⟨d', s, al, hd', q1, q2, q3⟩ := parse_alias g1 (by simp [IsReference]) ha'
            have hp2 : (p.1, .dict d') ∈ props := by rw [← hd']; exact hp'
            refine ⟨d', s, al, _, i, i', ⟨.property hprops hp2 .refl, q1, q2, q3, hd' ▸ g1, g2, .inr ⟨ts', b', c, rfl, k3, k4,
              rfl, d, props, p.1, .refl, hprops, hp2, ?_⟩⟩⟩
            rw [asked_iff g3, hb rfl]
            simp
      | @list items u _ ht hit hp =>
        cases hi with
        | refl => exact absurd rfl hut
        | list k1 =>
          obtain ⟨d', s, al, td, j, j', ho⟩ := ih (size _ _ hit) hp k1 hr ha
          exact ⟨d', s, al, td, j, j', ho.lift (fun y hy => .items hit hy) fun _ h => h⟩
      | leaf _ hp =>
        obtain ⟨rfl, ⟨-, h1, -, h2⟩ | ⟨urn, h1, h2⟩⟩ := parseLeaf_ok hp
        · exact absurd (h2 _ hi) hut
        · obtain ⟨-, k1, -, alias, k2, rfl⟩ := parseRef_ok h2
          cases hi
          exact absurd rfl hut

/-! ## Values that are valid -/

/-- The default of what is read is that of the schema. -/
theorem parse_default {d : Dict} {ids ids' : Ids} {t : RType} (h : Json.parse env (.dict d) ids = .ok (t, ids'))
    (hd : "default" ∈ Dict.keys t.attrs.extra) : HasDefault (.dict d) := by
  obtain ⟨e, ids1, h1, h2⟩ := parse_dict_ok h
  have hx : t.attrs.extra = (attrsOf e).extra := by
    cases h2 with
    | union => rfl
    | struct => rfl
    | list => rfl
    | leaf _ hp =>
      simp only [parseLeaf] at hp
      repeat' split at hp
      · cases hp; rw [(string_attrs e _).1]
      · cases hp; rfl
      · cases hp; rfl
      · cases hp; rfl
      · cases hp; rfl
      · obtain ⟨-, -, -, al, -, rfl⟩ := parseRef_ok hp; rfl
      · obtain ⟨-, -, -, al, -, rfl⟩ := parseRef_ok hp; rfl
      · cases hp
  rw [hx] at hd
  exact ⟨d, rfl, (extra_default h1).mp hd⟩

theorem carriesIn_without {t : RType} {j : PyVal} {a : Attrs} (h : CarriesIn root (t.withAttrs a) j)
    (ha : a.alias = t.attrs.alias) : CarriesIn root t j := by
  have := carriesIn_with h (a := t.attrs) (by rw [attrs_withAttrs]; exact ha.symm)
  rwa [withAttrs_twice, withAttrs_self] at this

/-- A basic type has only values of its kind. -/
theorem leaf_kind {e d : Dict} {ids ids' : Ids} {t : RType} (h : parseLeaf env e d ids = .ok (t, ids')) {j : PyVal}
    (hj : CarriesIn root t j) (hr : ¬IsReference t) : ∃ s, Dict.get? d "type" = some (.str s) ∧ Kind s j ∧
      (∀ xs, j ≠ .list xs) ∧ ∀ o, j ≠ .dict o := by
  have nr : ∀ {urn}, parseRef env e urn ids ≠ .ok (t, ids') := by
    intro urn hp
    obtain ⟨-, -, -, a, -, rfl⟩ := parseRef_ok hp
    exact hr ⟨_, _, rfl⟩
  simp only [parseLeaf] at h
  repeat' split at h
  · rename_i ht
    cases h
    unfold parseString at hj
    repeat' split at hj
    all_goals (cases hj; exact ⟨_, ht, .string, by simp, by simp⟩)
  · rename_i ht
    cases h
    cases hj with
    | float _ => exact ⟨_, ht, .number, by simp, by simp⟩
    | whole _ => exact ⟨_, ht, .whole, by simp, by simp⟩
  · rename_i ht
    cases h
    cases hj with
    | int _ => exact ⟨_, ht, .integer, by simp, by simp⟩
    | point _ => exact ⟨_, ht, .point, by simp, by simp⟩
  · rename_i ht
    cases h
    cases hj
    exact ⟨_, ht, .boolean, by simp, by simp⟩
  · rename_i ht
    cases h
    cases hj
    exact ⟨_, ht, .null, by simp, by simp⟩
  · exact absurd h nr
  · exact absurd h nr
  · cases h

/-- An alternative that is a name. -/
theorem word_kind {s : String} {ids ids' : Ids} {t : RType} (h : Json.parse env (.str s) ids = .ok (t, ids')) {j : PyVal}
    (hj : CarriesIn root t j) : Kind s j ∧ (∀ xs, j ≠ .list xs) ∧ ∀ o, j ≠ .dict o := by
  rw [parse_str] at h
  obtain ⟨e, ids1, -, h2⟩ := parse_dict_ok h
  have hnr : ¬IsReference t := by
    intro hr
    obtain ⟨urn, h, -⟩ := read_not_ref h2 hr
    simp [Dict.get?_cons] at h
  cases h2 with
  | union hh _ => simp at hh
  | struct _ hh _ => simp [Dict.get?_cons] at hh
  | list _ hh _ => simp [Dict.get?_cons] at hh
  | leaf _ hh =>
    obtain ⟨s', h1, h2⟩ := leaf_kind hh hj hnr
    simp at h1
    subst h1
    exact h2

theorem isNull_of_word {ids ids' : Ids} {t : RType} (h : Json.parse env (.str "null") ids = .ok (t, ids')) :
    t.isNull = true := by
  rw [parse_str] at h
  obtain ⟨e, ids1, -, h2⟩ := parse_dict_ok h
  cases h2 with
  | union hh _ => simp at hh
  | struct _ hh _ => simp [Dict.get?_cons] at hh
  | list _ hh _ => simp [Dict.get?_cons] at hh
  | leaf _ hh =>
    simp [parseLeaf] at hh
    rw [← hh.1]
    rfl

/-- Only the keyword `type` is checked for values that are neither lists nor objects. -/
theorem clear_scalar {d : Dict} (hc : Clear d) {w j : PyVal} (ht : Dict.get? d "type" = some w) (hk : TypeOk w j)
    (h1 : ∀ xs, j ≠ .list xs) (h2 : ∀ o, j ≠ .dict o) : Valid refs (.dict d) j := by
  rw [valid_iff]
  rintro ⟨k, x⟩ hkv
  have hg := Dict.get?_of_mem_nodup hc.nodup hkv
  have hm := Dict.mem_keys_of_mem hkv
  simp only
  refine ⟨?_, ?_, ?_, ?_, ?_, ?_, ?_, ?_⟩
  · rintro rfl; rw [ht] at hg; cases hg; exact hk
  · rintro rfl; exact absurd hm (hc.other _ (by simp))
  · rintro rfl
    obtain ⟨xs, rfl, -⟩ := hc.required _ hg
    exact fun o ho => absurd ho (h2 o)
  · rintro rfl
    exact absurd (Dict.mem_keys_of_mem (Dict.mem_of_get? ht)) (hc.alone hm _ (by simp))
  · rintro rfl xs hx; exact absurd hx (h1 xs)
  · rintro rfl; exact absurd hm (hc.other _ (by simp))
  · rintro rfl
    obtain ⟨ps, rfl, -⟩ := hc.properties _ hg
    rw [Properties, propertiesAll_iff]
    intro p _ o w ho
    exact absurd ho (h2 o)
  · rintro rfl; exact absurd hm (hc.other _ (by simp))

/-- Neither a list, a structure, a union nor a reference. -/
def isBasic : RType → Bool
  | .list .. | .struct .. | .union .. | .proxy .. => false
  | _ => true

theorem isBasic_with (t : RType) (a : Attrs) : isBasic (t.withAttrs a) = isBasic t := by cases t <;> rfl

theorem leaf_valid {d e : Dict} {i i' : Ids} {td : RType} {j : PyVal} (hc : Clear d) (h : parseLeaf env e d i = .ok (td, i'))
    (hj : CarriesIn root td j) (hr : ¬IsReference td) : Valid refs (.dict d) j := by
  obtain ⟨s, h1, h2, h3, h4⟩ := leaf_kind h hj hr
  exact clear_scalar hc h1 h2 h3 h4

/-- Values of basic types. -/
theorem basic_valid {d : Dict} {i i' : Ids} {td w : RType} {l : Bool} {j : PyVal} (hc : Clear d)
    (hr : Json.parse env (.dict d) i = .ok (td, i')) (hm : Made td l w) (hb : isBasic w = true) (hj : CarriesIn root w j) :
    Valid refs (.dict d) j := by
  cases hm with
  | widened => cases hb
  | wrapped => cases hb
  | same a ha =>
    have hj := carriesIn_without hj ha
    rw [isBasic_with] at hb
    obtain ⟨e, ids1, -, h2⟩ := parse_dict_ok hr
    cases h2 with
    | union => cases hb
    | struct => cases hb
    | list => cases hb
    | leaf _ hp =>
      refine leaf_valid hc hp hj ?_
      rintro ⟨_, _, rfl⟩
      cases hb

/-- Values of unions. -/
theorem union_valid {d : Dict} {i i' : Ids} {ts : List RType} {b : Attrs} {u : RType} {j : PyVal} (hc : Clear d)
    (hr : Json.parse env (.dict d) i = .ok (.union ts b, i')) (hu : u ∈ ts) (hj : CarriesIn root u j) :
    Valid refs (.dict d) j := by
  obtain ⟨e, ids1, -, h2⟩ := parse_dict_ok hr
  cases h2 with
  | @union xs _ _ ht hp =>
    obtain ⟨x, hx, i1, i2, hf⟩ := parseAll_back hp hu
    obtain ⟨s, rfl⟩ := hc.types _ ht x hx
    obtain ⟨k1, k2, k3⟩ := word_kind hf hj
    exact clear_scalar hc ht ⟨s, hx, k1⟩ k2 k3
  | leaf _ hp => exact leaf_valid hc hp (.union hu hj) (by simp [IsReference])

/-- Each property has its field, and the identifiers in it are known afterwards. -/
theorem parseProps_reads {f : PyVal → Ids → Except PyErr (RType × Ids)} {req : PyVal} {ps : Dict} {ids ids' : Ids}
    {ts : List RType} (h : parseProps f req ps ids = .ok (ts, ids'))
    (hf : ∀ p ∈ ps, ∀ i i' t, f p.2 i = .ok (t, i') → i ⊆ i') {p : String × PyVal} (hp : p ∈ ps) :
    ∃ t listed i i', f p.2 i = .ok (t, i') ∧ i' ⊆ ids' ∧ req.containsStr p.1 = .ok listed ∧
      named p.1 (if listed then t else optionalField t) ∈ ts := by
  induction ps generalizing ids ts ids' with
  | nil => cases hp
  | cons q ps ih =>
    obtain ⟨n, w⟩ := q
    unfold parseProps at h
    obtain ⟨⟨t, i⟩, h1, h⟩ := ok_bind h
    obtain ⟨listed, h2, h⟩ := ok_bind h
    obtain ⟨⟨ts', i'⟩, h3, h⟩ := ok_bind h
    cases h
    rcases List.mem_cons.mp hp with rfl | hp
    · exact ⟨t, listed, _, _, h1, (parseProps_ids h3 fun y hy => hf y (List.mem_cons_of_mem _ hy)).1, h2, by simp⟩
    · obtain ⟨t', l, i1, i2, g1, g2, g3, g4⟩ := ih h3 (fun y hy => hf y (List.mem_cons_of_mem _ hy)) hp
      exact ⟨t', l, i1, i2, g1, g2, g3, List.mem_cons_of_mem _ g4⟩

/-- The values of a type that was read from a part of the document are valid against the part. -/
theorem back_valid {v : PyVal} {t : RType} {ids' : Ids} (h : Json.parse env v [] = .ok (t, ids')) (hl : Located refs v)
    (hu : Unambiguous env v) (hq : NamedRequired v) (hc : AllClear v) {w : RType} {j : PyVal} (hj : CarriesIn t w j)
    (hn : NoNull j) {d : Dict} {i i' : Ids} {td : RType} {l : Bool} (hp : Part (.dict d) v)
    (hr : Json.parse env (.dict d) i = .ok (td, i')) (hi : i' ⊆ ids') (hm : Made td l w) (hz : l = true → j ≠ .none) :
    Valid refs (.dict d) j := by
  induction hj generalizing d i i' td l with
  | null => exact basic_valid (root := t) (hc _ hp) hr hm rfl .null
  | bool => exact basic_valid (root := t) (hc _ hp) hr hm rfl .bool
  | int h1 => exact basic_valid (root := t) (hc _ hp) hr hm rfl (.int h1)
  | point h1 => exact basic_valid (root := t) (hc _ hp) hr hm rfl (.point h1)
  | float h1 => exact basic_valid (root := t) (hc _ hp) hr hm rfl (.float h1)
  | whole h1 => exact basic_valid (root := t) (hc _ hp) hr hm rfl (.whole h1)
  | string h1 => exact basic_valid (root := t) (hc _ hp) hr hm rfl (.string h1)
  | bytes => exact basic_valid (root := t) (hc _ hp) hr hm rfl .bytes
  | enum h1 => exact basic_valid (root := t) (hc _ hp) hr hm rfl (.enum h1)
  | map h1 h2 => exact basic_valid (root := t) (hc _ hp) hr hm rfl (.map h1 h2)
  | @list u val vs a h1 ih =>
    have hw : ∃ a', td = .list u .none val a' ∧ a.alias = a'.alias := by
      generalize hwe : RType.list u .none val a = w at hm
      cases hm with
      | widened => cases hwe
      | wrapped => cases hwe
      | same b hb => cases td <;> simp [RType.withAttrs] at hwe; (obtain ⟨rfl, rfl, rfl, rfl⟩ := hwe; exact ⟨_, rfl, hb⟩)
    obtain ⟨a', rfl, ha⟩ := hw
    have hcd := hc _ hp
    obtain ⟨e, ids1, -, h2⟩ := parse_dict_ok hr
    cases h2 with
    | leaf _ hh => exact leaf_valid (root := t) hcd hh (.list h1) (by simp [IsReference])
    | @list items _ _ ht hit hh =>
      rw [valid_iff]
      rintro ⟨k, x⟩ hkv
      have hg := Dict.get?_of_mem_nodup hcd.nodup hkv
      have hmk := Dict.mem_keys_of_mem hkv
      simp only
      refine ⟨?_, ?_, ?_, ?_, ?_, ?_, ?_, ?_⟩
      · rintro rfl; rw [ht] at hg; cases hg; exact .array
      · rintro rfl; exact absurd hmk (hcd.other _ (by simp))
      · rintro rfl
        obtain ⟨xs, rfl, -⟩ := hcd.required _ hg
        intro o ho
        cases ho
      · rintro rfl
        exact absurd (Dict.mem_keys_of_mem (Dict.mem_of_get? ht)) (hcd.alone hmk _ (by simp))
      · rintro rfl xs hxs y hy
        cases hxs
        rw [hit] at hg
        cases hg
        obtain ⟨d', rfl⟩ := hcd.items _ hit
        exact ih y hy (noNull_list hn hy) (part_trans (.items hit .refl) hp) hh hi (.refl u) (by simp)
      · rintro rfl; exact absurd hmk (hcd.other _ (by simp))
      · rintro rfl
        obtain ⟨ps, rfl, -⟩ := hcd.properties _ hg
        rw [Properties, propertiesAll_iff]
        intro p _ o w ho
        cases ho
      · rintro rfl; exact absurd hmk (hcd.other _ (by simp))
  | @struct fs a o h1 h2 h3 ih =>
    have hw : ∃ a', td = .struct fs a' := by
      generalize hwe : RType.struct fs a = w at hm
      cases hm with
      | widened => cases hwe
      | wrapped => cases hwe
      | same b hb => cases td <;> simp [RType.withAttrs] at hwe; (obtain ⟨rfl, rfl⟩ := hwe; exact ⟨_, rfl⟩)
    obtain ⟨a', rfl⟩ := hw
    have hcd := hc _ hp
    obtain ⟨e, ids1, -, hh⟩ := parse_dict_ok hr
    cases hh with
    | leaf _ hh => exact leaf_valid (root := t) hcd hh (.struct h1 h2 h3) (by simp [IsReference])
    | @struct props _ _ ht hprops hh =>
      have hback : ∀ p ∈ props, ∃ td listed i1 i2, Json.parse env p.2 i1 = .ok (td, i2) ∧ i2 ⊆ ids' ∧
          (Dict.getD d "required" (.list [])).containsStr p.1 = .ok listed ∧
          named p.1 (if listed then td else optionalField td) ∈ fs := by
        intro p hpm
        obtain ⟨td, l, i1, i2, g1, g2, g3, g4⟩ := parseProps_reads hh (fun p _ i i' w hw => (parse_ids _ (Nat.le_refl _) hw).1) hpm
        exact ⟨td, l, i1, i2, g1, fun x hx => hi (g2 hx), g3, g4⟩
      rw [valid_iff]
      rintro ⟨k, x⟩ hkv
      have hg := Dict.get?_of_mem_nodup hcd.nodup hkv
      have hmk := Dict.mem_keys_of_mem hkv
      simp only
      refine ⟨?_, ?_, ?_, ?_, ?_, ?_, ?_, ?_⟩
      · rintro rfl; rw [ht] at hg; cases hg; exact .object
      · rintro rfl; exact absurd hmk (hcd.other _ (by simp))
      · rintro rfl
        obtain ⟨xs, rfl, hxs⟩ := hcd.required _ hg
        intro o' ho' x hx
        cases ho'
        obtain ⟨n, ps, s, rfl, k1, k2, k3⟩ := hxs x hx
        rw [hprops] at k1
        cases k1
        refine ⟨n, rfl, ?_⟩
        cases hv : Dict.get? o n with
        | some w => exact Dict.mem_keys_of_mem (Dict.mem_of_get? hv)
        | none =>
          exfalso
          obtain ⟨td, listed, i1, i2, g1, g2, g3, g4⟩ := hback _ k2
          have hlisted : listed = true := (asked_iff g3).mp
            ⟨_, hg, by simp only [PyVal.containsStr, Except.ok.injEq, List.any_eq_true]; exact ⟨_, hx, by simp [PyVal.pyEq]⟩⟩
          subst hlisted
          have := named_default_iff.mp (h3 _ g4 n (named_name ..) hv)
          obtain ⟨ps', hps', hall⟩ := hcd.properties _ hprops
          cases hps'
          obtain ⟨d', hd'⟩ := hall _ k2
          simp only at hd' g1
          subst hd'
          exact k3 (parse_default g1 this)
      · rintro rfl
        exact absurd (Dict.mem_keys_of_mem (Dict.mem_of_get? ht)) (hcd.alone hmk _ (by simp))
      · rintro rfl xs hxs
        cases hxs
      · rintro rfl; exact absurd hmk (hcd.other _ (by simp))
      · rintro rfl
        obtain ⟨ps, rfl, hall⟩ := hcd.properties _ hg
        rw [hprops] at hg
        cases hg
        rw [Properties, propertiesAll_iff]
        intro p hpm o' x ho' hx
        cases ho'
        obtain ⟨td, listed, i1, i2, g1, g2, g3, g4⟩ := hback _ hpm
        obtain ⟨d', hd'⟩ := hall _ hpm
        obtain ⟨name, prop⟩ := p
        simp only at hd' g1
        subst hd'
        obtain ⟨hx1, hx2⟩ := noNull_dict hn (Dict.mem_of_get? hx)
        have hmade : ∃ l, Made td l (named name (if listed then td else optionalField td)) := by
          rcases made_field name listed td with k | ⟨-, -, k⟩
          · exact ⟨_, k⟩
          · exact ⟨_, k⟩
        obtain ⟨l, hmade⟩ := hmade
        exact ih _ g4 name x (named_name ..) hx hx2 (part_trans (.property hprops hpm .refl) hp) g1 g2 hmade fun _ => hx1
      · rintro rfl; exact absurd hmk (hcd.other _ (by simp))
  | @union ts u j a h1 h2 ih =>
    have hcd := hc _ hp
    generalize hwe : RType.union ts a = w at hm
    cases hm with
    | same b hb =>
      cases td <;> simp [RType.withAttrs] at hwe
      obtain ⟨rfl, rfl⟩ := hwe
      exact union_valid hcd hr h1 h2
    | widened b k1 k2 k3 =>
      subst k1
      cases hwe
      rcases of_addNull h1 with h1 | rfl
      · exact union_valid hcd hr h1 h2
      · cases h2
        exact absurd rfl (hz rfl)
    | wrapped b c k1 k2 =>
      cases hwe
      rcases of_addNull h1 with h1 | rfl
      · cases List.mem_singleton.mp h1
        exact ih hn hp hr hi (.same b k1) (by simp)
      · cases h2
        exact absurd rfl (hz rfl)
  | @reference r a u j h1 h2 h3 h4 ih =>
    have hw : ∃ a', td = .proxy r a' ∧ a.alias = a'.alias := by
      generalize hwe : RType.proxy r a = w at hm
      cases hm with
      | widened => cases hwe
      | wrapped => cases hwe
      | same b hb => cases td <;> simp [RType.withAttrs] at hwe; (obtain ⟨rfl, rfl⟩ := hwe; exact ⟨_, rfl, hb⟩)
    obtain ⟨a', rfl, ha⟩ := hw
    have hcd := hc _ hp
    obtain ⟨e, ids1, -, hh⟩ := parse_dict_ok hr
    obtain ⟨urn, hurn, hpr⟩ := read_not_ref hh ⟨_, _, rfl⟩
    have hurn : Dict.get? d "$ref" = some (.str urn) := by
      rcases hurn with h | h
      · exact h
      · exact absurd (Dict.mem_keys_of_mem (Dict.mem_of_get? h)) (hcd.other _ (by simp))
    obtain ⟨rfl, k1, -, alias, k2, k3⟩ := parseRef_ok hpr
    have hal : a'.alias = .str (String.ofList alias) := by cases k3; rfl
    obtain ⟨d1, s1, al1, td1, m1, m1', hroot⟩ := parse_roots _ (Nat.le_refl _) h h1 h2 (h3.trans (ha.trans hal))
    obtain ⟨d2, s2, al2, td2, m2, m2', w2, hsrc⟩ := ((parse_ids _ (Nat.le_refl _) h).2 _ (hi k1)).resolve_left (by simp)
    have hals : al2 = alias := by
      have := hsrc.made.symm.trans k2
      cases this; rfl
    have hsame : SameId s1 urn := by
      have := hu d1 d2 s1 s2 (.str (String.ofList alias)) hroot.part hsrc.part hroot.ident hsrc.ident
        (hroot.named ▸ aliasOf_made hroot.made)
        (hals ▸ aliasOf_made (by rw [hsrc.same]; exact hsrc.made))
      exact sameId_of ((rstripHash_same this).trans hsrc.same)
    have hv : Valid refs (.dict d1) j := by
      rcases hroot.kin with ⟨b, q1, rfl⟩ | ⟨ts, b, c, rfl, q1, q2, rfl, d0, ps, n, q3, q4, q5, q6⟩
      · exact ih hn hroot.part hroot.read hroot.sub (.same b q1) (by simp)
      · exfalso
        obtain ⟨e1, ids2, -, hh1⟩ := parse_dict_ok hroot.read
        cases hh1 with
        | @union xs _ _ ht hp1 =>
          refine q6 (hq d0 ps n d1 xs q3 q4 q5 (Dict.mem_keys_of_mem (Dict.mem_of_get? hroot.ident)) ht ?_)
          intro hx
          obtain ⟨x, hx1, i1, i2, hf⟩ := parseAll_mem hp1 hx
          have : (RType.union ts (attrsOf e1)).isNullable = true := by
            simp only [RType.isNullable, List.any_eq_true]
            exact ⟨x, hx1, isNull_of_word hf⟩
          rw [this] at q1
          cases q1
        | leaf _ hp1 =>
          simp only [parseLeaf] at hp1
          repeat' split at hp1
          · unfold parseString at hp1
            repeat' split at hp1
            all_goals cases hp1
          · cases hp1
          · cases hp1
          · cases hp1
          · cases hp1
          · obtain ⟨-, -, -, _, -, k⟩ := parseRef_ok hp1; cases k
          · obtain ⟨-, -, -, _, -, k⟩ := parseRef_ok hp1; cases k
          · cases hp1
    have href := (hl d1 s1 urn hroot.part hroot.ident hsame j).mpr hv
    rw [valid_iff]
    rintro ⟨k, x⟩ hkv
    have hg := Dict.get?_of_mem_nodup hcd.nodup hkv
    have hmk := Dict.mem_keys_of_mem hkv
    have halone := hcd.alone (Dict.mem_keys_of_mem (Dict.mem_of_get? hurn))
    simp only
    refine ⟨?_, ?_, ?_, ?_, ?_, ?_, ?_, ?_⟩
    · rintro rfl; exact absurd hmk (halone _ (by simp))
    · rintro rfl; exact absurd hmk (hcd.other _ (by simp))
    · rintro rfl; exact absurd hmk (halone _ (by simp))
    · rintro rfl; rw [hurn] at hg; cases hg; exact ⟨urn, rfl, href⟩
    · rintro rfl; exact absurd hmk (halone _ (by simp))
    · rintro rfl; exact absurd hmk (hcd.other _ (by simp))
    · rintro rfl; exact absurd hmk (halone _ (by simp))
    · rintro rfl; exact absurd hmk (hcd.other _ (by simp))

end Recap.JsonData
