import Verif.AvroRefsSpec
import Verif.AvroStoredLemmas2
import Verif.AvroNames

/-!
# Lemmas on references to built-in aliases in Avro schemas (C129, C137)
-/

set_option autoImplicit false

namespace Recap.AvroWrite

open Values (Val Holds)
open Avro
open AvroData (Datum HoldsIn)

theorem override_leaf {t t' : RType} {k : String} {v : PyVal} (ht : isLeaf t = true)
    (h1 : k ≠ "alias") (h2 : k ≠ "doc") (h : applyOverride t k v = .ok t') :
    isLeaf t' = true ∧ t'.attrs.alias = t.attrs.alias ∧ t'.attrs.doc = t.attrs.doc ∧
      ∀ j ∈ ["name", "default"], Dict.get? t'.attrs.extra j = if k = j then some v else Dict.get? t.attrs.extra j := by
  unfold applyOverride at h
  extract_lets a at h
  rw [if_neg h1, if_neg h2] at h
  split at h
  · cases h
  · split at h
    · rename_i hk; cases h; subst hk
      refine ⟨withAttrs_leaf ht, by simp [attrs_set, a], by simp [attrs_set, a], fun j hj => ?_⟩
      rw [attrs_set, if_neg (by rintro rfl; simp at hj)]
    · have key : ∀ (x : Dict) j, Dict.get? (Dict.set x k v) j = if k = j then some v else Dict.get? x j := fun x j => by
        by_cases e : k = j
        · subst e; rw [if_pos rfl]; exact Dict.get?_set_self ..
        · rw [if_neg e]; exact Dict.get?_set_ne _ _ e
      cases t <;> simp only [isLeaf, Bool.false_eq_true] at ht <;> simp only at h <;>
        (repeat' split at h) <;> cases h <;>
        first
          | exact ⟨rfl, rfl, rfl, fun j _ => key _ j⟩
          | (rename_i hk; subst hk; exact ⟨rfl, rfl, rfl, fun j hj => by rw [if_neg (by rintro rfl; simp at hj)]; rfl⟩)

theorem overrides_leaf {t t' : RType} {e : Dict} (ht : isLeaf t = true) (hn : (Dict.keys e).Nodup)
    (h1 : Dict.get? e "alias" = .none) (h2 : Dict.get? e "doc" = .none) (h : applyOverrides t e = .ok t') :
    isLeaf t' = true ∧ t'.attrs.alias = t.attrs.alias ∧ t'.attrs.doc = t.attrs.doc ∧
      ∀ j ∈ ["name", "default"], Dict.get? t'.attrs.extra j = (Dict.get? e j).or (Dict.get? t.attrs.extra j) := by
  induction e generalizing t with
  | nil => cases h; exact ⟨ht, rfl, rfl, fun _ _ => rfl⟩
  | cons kv e ih =>
    obtain ⟨k, v⟩ := kv
    simp only [applyOverrides] at h
    obtain ⟨t1, h3, h⟩ := ok_bind h
    simp only [Dict.keys, List.map_cons, List.nodup_cons] at hn
    rw [Dict.get?_cons] at h1 h2
    have k1 : k ≠ "alias" := by rintro rfl; simp at h1
    have k2 : k ≠ "doc" := by rintro rfl; simp at h2
    rw [if_neg k1] at h1
    rw [if_neg k2] at h2
    obtain ⟨a1, a2, a3, a4⟩ := override_leaf ht k1 k2 h3
    obtain ⟨b1, b2, b3, b4⟩ := ih a1 hn.2 h1 h2 h
    refine ⟨b1, b2.trans a2, b3.trans a3, fun j hj => ?_⟩
    rw [b4 j hj, a4 j hj, Dict.get?_cons]
    by_cases e' : k = j
    · subst e'
      rw [if_pos rfl, if_pos rfl, Dict.get?_eq_none_iff.mpr hn.1]
      rfl
    · rw [if_neg e', if_neg e']

theorem builtin_bare {s : String} {t : RType} (h : (s, t) ∈ builtinAliases) :
    t.attrs.alias = .none ∧ t.attrs.doc = .none ∧ Dict.get? t.attrs.extra "name" = .none ∧
      Dict.get? t.attrs.extra "default" = .none := by
  have : ∀ kt ∈ builtinAliases, kt.2.attrs.alias = .none ∧ kt.2.attrs.doc = .none ∧
      Dict.get? kt.2.attrs.extra "name" = .none ∧ Dict.get? kt.2.attrs.extra "default" = .none := by
    decide +kernel
  exact this _ h

/-- What a reference refers to. -/
theorem named_target {live : Registry} {r : Option (List (String × RType))} {a : Attrs} {u : RType}
    (hb : ToBuiltin live r a) (h : resolve live r a = .ok u) :
    isLeaf u = true ∧ u.attrs.alias = .none ∧ u.attrs.doc = .none ∧
      Dict.get? u.attrs.extra "name" = Dict.get? a.extra "name" ∧
      Dict.get? u.attrs.extra "default" = Dict.get? a.extra "default" := by
  obtain ⟨⟨s, t, he, hm, hr⟩, hk, h1, h2⟩ := hb
  unfold resolve at h
  simp only [he, Registry.fromAlias, hr] at h
  have hl := builtin_leaf hm
  have hd : t.deepcopy (r.getD live) = t := by cases t <;> simp_all [isLeaf, RType.deepcopy]
  have h' : applyOverrides (t.deepcopy (r.getD live)) a.extra = .ok u := h
  rw [hd] at h'
  obtain ⟨b1, b2, b3, b4⟩ := builtin_bare hm
  obtain ⟨c1, c2, c3, c4⟩ := overrides_leaf hl hk h1 h2 h'
  exact ⟨c1, c2.trans b1, c3.trans b2, by rw [c4 _ (by simp), b3, Option.or_none],
    by rw [c4 _ (by simp), b4, Option.or_none]⟩

/-- The part of a schema that depends on the type of a leaf. -/
def body (t : RType) : Except PyErr Dict :=
  match t.attrs.logical with
  | .str _ => logicalSchema t
  | _ => leafSchema t

/-- What is written of a leaf. -/
theorem convertF_body {live : Registry} {t : RType} (ht : isLeaf t = true) (n : Nat) :
    convertF live (n + 1) t = (do
      let s ← describe t.attrs
      let d ← body t
      pure (Avro.shorten (Dict.update s d))) := by
  unfold convertF body
  generalize t.attrs.logical = l
  cases t <;> simp only [isLeaf, Bool.false_eq_true] at ht <;> cases l <;> rfl

theorem body_doc {u : RType} (v : PyVal) : body (u.withAttrs { u.attrs with doc := v }) = body u := by
  cases u <;> rfl

theorem body_ok {t : RType} {d : Dict} (h : body t = .ok d) :
    (∃ s, Dict.get? d "type" = some (.str s)) ∧ (∀ k ∈ Dict.keys d, k ∉ Avro.nestedKeys) ∧ (Dict.keys d).Nodup := by
  unfold body at h
  split at h
  · obtain ⟨-, ⟨s, h1, -⟩, h2⟩ := logicalSchema_ok h
    exact ⟨⟨s, h1⟩, h2⟩
  · obtain ⟨⟨s, h1, -⟩, h2⟩ := leafSchema_ok h
    exact ⟨⟨s, h1⟩, h2⟩

theorem describe_bare {a : Attrs} (ha : a.alias = .none ∨ ∃ s, a.alias = .str s ∧ hasDot s = false) :
    describe a = .ok (docOf a ++ nameOf a ++ copied a.extra "default") := by
  unfold describe
  have : aliasesOf a = .ok [] := by
    unfold aliasesOf
    rcases ha with h | ⟨s, h, hs⟩
    · rw [h]; rfl
    · rw [h]
      split
      · simp [hs]
      · rfl
  rw [this]
  simp [bind, Except.bind, pure, Except.pure]

theorem nameOf_cases (a : Attrs) : nameOf a = [] ∨ ∃ v, nameOf a = [("name", v)] := by
  unfold nameOf; split
  · split
    · exact Or.inr ⟨_, rfl⟩
    · exact Or.inl rfl
  · exact Or.inl rfl

theorem copied_cases (a : Attrs) : copied a.extra "default" = [] ∨ ∃ v, copied a.extra "default" = [("default", v)] := by
  unfold copied; split
  · exact Or.inr ⟨_, rfl⟩
  · exact Or.inl rfl

theorem docOf_cases (a : Attrs) : docOf a = [] ∨ ∃ v, docOf a = [("doc", v)] := by
  unfold docOf; split
  · exact Or.inr ⟨_, rfl⟩
  · exact Or.inl rfl

/-- Attributes that are there with the same values change nothing. -/
theorem update_same {D N F L : Dict} (hD : D = [] ∨ ∃ v, D = [("doc", v)]) (hN : N = [] ∨ ∃ v, N = [("name", v)])
    (hF : F = [] ∨ ∃ v, F = [("default", v)]) (hL : ∀ k ∈ Dict.keys L, k ∉ Avro.nestedKeys) (hn : (Dict.keys L).Nodup) :
    Dict.update (D ++ N ++ F) (N ++ F ++ L) = D ++ N ++ F ++ L := by
  have : ∀ {x y z : Dict}, Dict.update x (y ++ z) = Dict.update (Dict.update x y) z := fun {x y z} => by
    simp [Dict.update, List.foldl_append]
  rw [this]
  have h1 : Dict.update (D ++ N ++ F) (N ++ F) = D ++ N ++ F := by
    rcases hN with rfl | ⟨v, rfl⟩ <;> rcases hD with rfl | ⟨w, rfl⟩ <;> rcases hF with rfl | ⟨z, rfl⟩ <;>
      simp [Dict.update, Dict.set]
  rw [h1]
  refine Dict.update_of_disjoint (fun k hk hm => hL k hk ?_) hn
  rcases hN with rfl | ⟨v, rfl⟩ <;> rcases hD with rfl | ⟨w, rfl⟩ <;> rcases hF with rfl | ⟨z, rfl⟩ <;>
    simp [Dict.keys] at hm <;> simp [Avro.nestedKeys] <;> grind

theorem logicalSchema_long {t : RType} {d : Dict} (h : logicalSchema t = .ok d) (s : String) : d ≠ [("type", .str s)] := by
  cases t <;> simp only [logicalSchema] at h <;> (repeat' split at h) <;> cases h <;> simp

/-- A type with details is not written as a name alone. -/
theorem detailed_long {u : RType} (hd : Detailed u.attrs) {L : Dict} (hL : body u = .ok L) :
    Avro.shorten (nameOf u.attrs ++ copied u.attrs.extra "default" ++ L) =
      .dict (nameOf u.attrs ++ copied u.attrs.extra "default" ++ L) := by
  rcases shorten_cases (nameOf u.attrs ++ copied u.attrs.extra "default" ++ L) with h | ⟨s, h, -⟩
  · exact h
  · exfalso
    cases hd with
    | @name x h1 h2 =>
      have : nameOf u.attrs = [("name", .str x)] := by unfold nameOf; rw [h1]; simp [PyVal.truthy, h2]
      rw [this] at h
      simp at h
    | @default x h1 =>
      have : copied u.attrs.extra "default" = [("default", x)] := by unfold copied; rw [h1]
      rw [this] at h
      rcases nameOf_cases u.attrs with h' | ⟨v, h'⟩ <;> rw [h'] at h <;> simp at h
    | logical h1 =>
      unfold body at hL
      rw [h1] at hL
      have := logicalSchema_long hL
      rcases nameOf_cases u.attrs with h' | ⟨v, h'⟩ <;> rw [h'] at h <;>
        rcases copied_cases u.attrs with h'' | ⟨w, h''⟩ <;> rw [h''] at h <;> simp at h
      exact this s h

/-- A reference is written as the type that it refers to. -/
theorem convert_reference {live : Registry} {n : Nat} {r : Option (List (String × RType))} {a : Attrs} {u : RType} {v : PyVal}
    (hb : ToBuiltin live r a) (hr : resolve live r a = .ok u) (hx : Detailed u.attrs)
    (h : convertF live n (.proxy r a) = .ok v) :
    convertF live n (u.withAttrs { u.attrs with doc := a.doc }) = .ok v := by
  obtain ⟨c1, c2, c3, c4, c5⟩ := named_target hb hr
  obtain ⟨⟨s, t, he, hm, -⟩, -⟩ := hb
  have hdot := builtin_noDot hm
  cases n with
  | zero => cases h
  | succ n =>
    have hN' : nameOf u.attrs = nameOf a := by unfold nameOf; rw [c4]
    have hF' : copied u.attrs.extra "default" = copied a.extra "default" := by unfold copied; rw [c5]
    have hN := nameOf_cases a
    have hF := copied_cases a
    have hD := docOf_cases a
    unfold convertF at h
    obtain ⟨s', hs', h⟩ := ok_bind h
    have hs'' : describe a = .ok s' := hs'
    rw [describe_bare (.inr ⟨s, he, hdot⟩)] at hs''
    injection hs'' with hs''
    subst hs''
    split at h
    · obtain ⟨d, hd, h⟩ := ok_bind h
      cases hd
    · simp only [he, hdot, Bool.false_eq_true, if_false, hr] at h
      obtain ⟨w, hw, h⟩ := ok_bind (x := convertF live n u) h
      cases n with
      | zero => cases hw
      | succ n =>
        rw [convertF_body c1] at hw
        obtain ⟨e, h3, hw⟩ := ok_bind hw
        obtain ⟨L, hL, hw⟩ := ok_bind hw
        rw [describe_bare (.inl c2)] at h3
        injection h3 with h3
        have hdoc : docOf u.attrs = [] := by unfold docOf; rw [c3]; rfl
        have hlong := detailed_long hx hL
        rw [hN', hF'] at hlong
        rw [hdoc, hN', hF', List.nil_append] at h3
        subst h3
        obtain ⟨l1, l2, l3⟩ := body_ok hL
        have hu : Dict.update (nameOf a ++ copied a.extra "default") L = nameOf a ++ copied a.extra "default" ++ L := by
          refine Dict.update_of_disjoint (fun k hk hm => l2 k hk ?_) l3
          rcases hN with hN | ⟨y, hN⟩ <;> rcases hF with hF | ⟨z, hF⟩ <;> rw [hN, hF] at hm <;>
            simp [Dict.keys] at hm <;> simp [Avro.nestedKeys] <;> grind
        rw [hu, hlong] at hw
        cases hw
        have hup := update_same hD hN hF l2 l3
        have hds : describe { u.attrs with doc := a.doc } = .ok (docOf a ++ nameOf a ++ copied a.extra "default") := by
          rw [describe_bare (a := { u.attrs with doc := a.doc }) (.inl c2)]
          have hd2 : docOf { u.attrs with doc := a.doc } = docOf a := rfl
          have hn2 : nameOf { u.attrs with doc := a.doc } = nameOf a := hN'
          have hf2 : copied ({ u.attrs with doc := a.doc } : Attrs).extra "default" = copied a.extra "default" := hF'
          rw [hd2, hn2, hf2]
        have hupL := update_describe hds (d := L) (fun k hk hm => l2 k hk (by
          simp only [List.mem_cons, List.not_mem_nil, or_false] at hm
          rcases hm with rfl | rfl | rfl | rfl <;> decide)) l3
        have hnot : "aliases" ∉ Dict.keys (docOf a ++ nameOf a ++ copied a.extra "default" ++ L) := by
          intro hm
          have hL' : "aliases" ∉ Dict.keys L := fun hk => l2 _ hk (by decide)
          rcases hN with hN | ⟨y, hN⟩ <;> rcases hD with hD | ⟨w, hD⟩ <;> rcases hF with hF | ⟨z, hF⟩ <;>
            rw [hN, hD, hF] at hm <;> simp [Dict.keys] at hm hL' <;> grind
        rw [convertF_body (withAttrs_leaf c1), attrs_set, body_doc, hL, hds]
        simp only [bind, Except.bind, pure, Except.pure]
        rw [hupL]
        have h : (.ok (Avro.shorten (Dict.erase (Dict.update (docOf a ++ nameOf a ++ copied a.extra "default")
            (nameOf a ++ copied a.extra "default" ++ L)) "aliases")) : Except PyErr PyVal) = .ok v := by
          simpa [pure, Except.pure] using h
        rw [hup, Dict.erase_of_not_mem hnot] at h
        exact h

theorem plain_body {s : String} {t : RType} (hm : (s, t) ∈ builtinAliases) (hs : s ∈ plainNames) :
    isLeaf t = true ∧ describe t.attrs = .ok [] ∧ ∃ w, body t = .ok [("type", .str w)] := by
  have : ∀ kt ∈ builtinAliases, kt.1 ∈ plainNames → isLeaf kt.2 = true ∧ (describe kt.2.attrs).toOption = some [] ∧
      ∃ w ∈ ["int", "long", "float", "double", "string", "bytes"], (body kt.2).toOption = some [("type", .str w)] := by
    decide +kernel
  obtain ⟨h1, h2, w, -, h3⟩ := this _ hm hs
  refine ⟨h1, ?_, w, ?_⟩
  · cases h : describe t.attrs <;> rw [h] at h2 <;> simp [Except.toOption] at h2; rw [h2]
  · cases h : body t <;> rw [h] at h3 <;> simp [Except.toOption] at h3; rw [h3]

/-- A reference to a type without name, default and logical type is written as a name. -/
theorem convert_bare {live : Registry} {n : Nat} {r : Option (List (String × RType))} {a : Attrs} {s : String} {v : PyVal}
    (hb : ToBuiltin live r a) (ha : a.alias = .str s) (hs : s ∈ plainNames) (he : a.extra = [])
    (h : convertF live n (.proxy r a) = .ok v) : v = Avro.shorten (docOf a ++ [("type", .str s)]) := by
  obtain ⟨⟨s', t, hs', hm, hf⟩, -⟩ := hb
  rw [ha] at hs'
  cases hs'
  obtain ⟨c1, c2, w, c3⟩ := plain_body hm hs
  have hdot := builtin_noDot hm
  have hr : resolve live r a = .ok t := by
    unfold resolve
    have hd : t.deepcopy (r.getD live) = t := by cases t <;> simp_all [isLeaf, RType.deepcopy]
    simp [ha, Registry.fromAlias, hf, bind, Except.bind, he, applyOverrides, hd]
  cases n with
  | zero => cases h
  | succ n =>
    unfold convertF at h
    obtain ⟨D, hD, h⟩ := ok_bind h
    have hD' : describe a = .ok D := hD
    rw [describe_bare (.inr ⟨s, ha, hdot⟩)] at hD'
    injection hD' with hD'
    have hn : nameOf a = [] := by unfold nameOf; rw [he]; rfl
    have hc : copied a.extra "default" = [] := by unfold copied; rw [he]; rfl
    rw [hn, hc, List.append_nil, List.append_nil] at hD'
    subst hD'
    split at h
    · obtain ⟨d, hd, h⟩ := ok_bind h
      cases hd
    · simp only [ha, hdot, Bool.false_eq_true, if_false, hr] at h
      obtain ⟨w', hw, h⟩ := ok_bind (x := convertF live n t) h
      cases n with
      | zero => cases hw
      | succ n =>
        rw [convertF_body c1, c2, c3] at hw
        cases hw
        have hset : Dict.erase (Dict.set (docOf a) "type" (.str s)) "aliases" = docOf a ++ [("type", .str s)] := by
          rcases docOf_cases a with hd | ⟨x, hd⟩ <;> rw [hd] <;> simp [Dict.set, Dict.erase]
        rw [hset] at h
        cases h
        rfl

theorem convertAll_expanded {f : RType → Except PyErr PyVal} {ts us : List RType} {vs : List PyVal}
    (hl : ts.length = us.length)
    (he : ∀ (i : Nat) t u, ts[i]? = some t → us[i]? = some u → ∀ v, f t = .ok v → f u = .ok v)
    (h : convertAll f ts = .ok vs) : convertAll f us = .ok vs := by
  induction ts generalizing us vs with
  | nil =>
    cases us with
    | nil => exact h
    | cons => simp at hl
  | cons t ts ih =>
    cases us with
    | nil => simp at hl
    | cons u us =>
      simp only [convertAll] at h ⊢
      obtain ⟨v, hv, h⟩ := ok_bind h
      obtain ⟨ws, hws, h⟩ := ok_bind h
      rw [he 0 t u rfl rfl v hv]
      have := ih (us := us) (by simpa using hl) (fun i t' u' h1 h2 => he (i + 1) t' u' (by simpa using h1) (by simpa using h2)) hws
      simp only [bind, Except.bind, this]
      exact h

/-- What is written of a type with references is what is written of the type without. -/
theorem convert_expanded {live : Registry} {t u : RType} (he : Expanded live t u) {n : Nat} {v : PyVal}
    (h : convertF live n t = .ok v) : convertF live n u = .ok v := by
  induction he generalizing n v with
  | leaf => exact h
  | reference hb hr hx => exact convert_reference hb hr hx h
  | list _ ih =>
    cases n with
    | zero => cases h
    | succ n =>
      unfold convertF at h ⊢
      obtain ⟨s, hs, h⟩ := ok_bind h
      simp only [RType.attrs] at hs h ⊢
      rw [hs]
      simp only [bind, Except.bind] at h ⊢
      split at h
      · cases h
      · split at h
        · cases h
        · rename_i w hw
          rw [ih hw]
          exact h
  | map _ ih =>
    cases n with
    | zero => cases h
    | succ n =>
      unfold convertF at h ⊢
      obtain ⟨s, hs, h⟩ := ok_bind h
      simp only [RType.attrs] at hs h ⊢
      rw [hs]
      simp only [bind, Except.bind, isString, if_true] at h ⊢
      split at h
      · cases h
      · split at h
        · cases h
        · rename_i w hw
          rw [ih hw]
          exact h
  | struct hl _ ih =>
    cases n with
    | zero => cases h
    | succ n =>
      unfold convertF at h ⊢
      obtain ⟨s, hs, h⟩ := ok_bind h
      simp only [RType.attrs] at hs h ⊢
      rw [hs]
      simp only [bind, Except.bind] at h ⊢
      split at h
      · cases h
      · split at h
        · cases h
        · rename_i w hw
          rw [convertAll_expanded hl (fun i t u h1 h2 v hv => ih i t u h1 h2 hv) hw]
          exact h
  | union hl _ ih =>
    cases n with
    | zero => cases h
    | succ n =>
      unfold convertF at h ⊢
      obtain ⟨s, hs, h⟩ := ok_bind h
      simp only [RType.attrs] at hs h ⊢
      rw [hs]
      simp only [bind, Except.bind] at h ⊢
      split at h
      · cases h
      · split at h
        · cases h
        · rename_i w hw
          rw [convertAll_expanded hl (fun i t u h1 h2 v hv => ih i t u h1 h2 hv) hw]
          exact h

/-! ## The values -/

theorem children_leaf {t : RType} (h : isLeaf t = true) : Recap.Spec.children t = [] := by
  cases t <;> first | rfl | cases h

theorem holds_doc {t : RType} (ht : isLeaf t = true) (v : PyVal) (x : Val) :
    Holds (t.withAttrs { t.attrs with doc := v }) x ↔ Holds t x := by
  cases t <;> simp only [isLeaf, Bool.false_eq_true] at ht <;> simp only [RType.withAttrs, RType.attrs] <;>
    constructor <;> intro h <;> cases h <;>
      first | (constructor <;> assumption) | (apply Holds.uuid <;> assumption)

theorem holdsIn_leaf {reg : Registry} {t : RType} (h1 : Recap.Spec.children t = []) (h2 : ∀ r a, t ≠ .proxy r a) (x : Val) :
    HoldsIn reg t x ↔ Holds t x := by
  refine ⟨fun h => ?_, .leaf h1⟩
  cases h with
  | leaf _ h => exact h
  | list => cases h1
  | map => cases h1
  | struct hl =>
    simp only [Recap.Spec.children] at h1
    subst h1
    exact .struct hl fun i f x hf => by simp at hf
  | union hm => simp only [Recap.Spec.children] at h1; subst h1; cases hm
  | reference => exact absurd rfl (h2 _ _)

theorem holds_expanded {live : Registry} {t u : RType} (he : Expanded live t u) (x : Val) :
    HoldsIn live t x ↔ Holds u x := by
  induction he generalizing x with
  | leaf h1 h2 => exact holdsIn_leaf h1 h2 x
  | @reference r a u hb hr hx =>
    obtain ⟨c1, -⟩ := named_target hb hr
    rw [holds_doc c1]
    have hp : ∀ r a, u ≠ .proxy r a := by rintro r a rfl; cases c1
    constructor
    · intro h
      cases h with
      | leaf _ h => cases h
      | reference hr' h =>
        rw [hr] at hr'
        cases hr'
        exact (holdsIn_leaf (children_leaf c1) hp x).mp h
    · intro h
      exact .reference hr ((holdsIn_leaf (children_leaf c1) hp x).mpr h)
  | list _ ih =>
    constructor
    · intro h
      cases h with
      | leaf h => cases h
      | list h => exact .list fun x hx => (ih x).mp (h x hx)
    · intro h
      cases h with
      | list h => exact .list fun x hx => (ih x).mpr (h x hx)
  | map _ ih =>
    have hk : ∀ {l w b} x, HoldsIn live (.string l w b) x ↔ Holds (.string l w b) x := fun x =>
      holdsIn_leaf rfl (by simp) x
    constructor
    · intro h
      cases h with
      | leaf h => cases h
      | map h1 h2 => exact .map (fun p hp => (hk _).mp (h1 p hp)) fun p hp => (ih _).mp (h2 p hp)
    · intro h
      cases h with
      | map h1 h2 => exact .map (fun p hp => (hk _).mpr (h1 p hp)) fun p hp => (ih _).mpr (h2 p hp)
  | @struct fs gs a hl _ ih =>
    constructor
    · intro h
      cases h with
      | leaf h1 h2 =>
        simp only [Recap.Spec.children] at h1
        subst h1
        cases gs with
        | nil => exact h2
        | cons => simp at hl
      | struct hl' h =>
        refine .struct (hl.symm.trans hl') fun i g x hg hx => ?_
        have hi : i < gs.length := (List.getElem?_eq_some_iff.mp hg).1
        obtain ⟨f, hf⟩ : ∃ f, fs[i]? = some f := ⟨fs[i]'(by omega), List.getElem?_eq_getElem _⟩
        exact (ih i f g hf hg x).mp (h i f x hf hx)
    · intro h
      cases h with
      | struct hl' h =>
        refine .struct (hl.trans hl') fun i f x hf hx => ?_
        have hi : i < fs.length := (List.getElem?_eq_some_iff.mp hf).1
        obtain ⟨g, hg⟩ : ∃ g, gs[i]? = some g := ⟨gs[i]'(by omega), List.getElem?_eq_getElem _⟩
        exact (ih i f g hf hg x).mpr (h i g x hg hx)
  | @union ts us a hl _ ih =>
    constructor
    · intro h
      cases h with
      | leaf h1 h2 =>
        cases h2 with
        | union hm => simp only [Recap.Spec.children] at h1; subst h1; cases hm
      | union hm h =>
        obtain ⟨i, hi, e⟩ := List.getElem_of_mem hm
        have hu : us[i]? = some (us[i]'(by omega)) := List.getElem?_eq_getElem _
        exact .union (List.getElem_mem (by omega : i < us.length)) ((ih i _ _ (by rw [List.getElem?_eq_getElem hi, e]) hu x).mp h)
    · intro h
      cases h with
      | union hm h =>
        obtain ⟨i, hi, e⟩ := List.getElem_of_mem hm
        have ht : ts[i]? = some (ts[i]'(by omega)) := List.getElem?_eq_getElem _
        exact .union (List.getElem_mem (by omega : i < ts.length)) ((ih i _ _ ht (by rw [List.getElem?_eq_getElem hi, e]) x).mpr h)

/-- There are no references in the expanded type. -/
theorem expanded_whole {live : Registry} {t u : RType} (he : Expanded live t u) : Whole u := by
  induction he with
  | leaf h1 h2 => exact .mk h2 (by simp [h1])
  | @reference r a u hb hr hx =>
    have c1 := withAttrs_leaf (a := { u.attrs with doc := a.doc }) (named_target hb hr).1
    exact .mk (by rintro r a e; rw [e] at c1; cases c1) (by rw [children_leaf c1]; simp)
  | list _ ih => exact .mk (by simp) (by simpa [Recap.Spec.children] using ih)
  | map _ ih =>
    refine .mk (by simp) fun u hu => ?_
    simp only [Recap.Spec.children, List.mem_cons, List.not_mem_nil, or_false] at hu
    rcases hu with rfl | rfl
    · exact .mk (by simp) (by simp [Recap.Spec.children])
    · exact ih
  | @struct fs gs a hl _ ih =>
    refine .mk (by simp) fun g hg => ?_
    obtain ⟨i, hi, e⟩ := List.getElem_of_mem hg
    exact ih i (fs[i]'(by simp only [Recap.Spec.children] at hi; omega)) g (List.getElem?_eq_getElem _) (by rw [← e]; exact List.getElem?_eq_getElem _)
  | @union fs gs a hl _ ih =>
    refine .mk (by simp) fun g hg => ?_
    obtain ⟨i, hi, e⟩ := List.getElem_of_mem hg
    exact ih i (fs[i]'(by simp only [Recap.Spec.children] at hi; omega)) g (List.getElem?_eq_getElem _) (by rw [← e]; exact List.getElem?_eq_getElem _)

end Recap.AvroWrite
