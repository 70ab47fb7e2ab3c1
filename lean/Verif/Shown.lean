import Verif.CompactThms
import Verif.RelationalThms

/-! # Types that Recap's own format can show: helper lemmas for C115 -/

set_option autoImplicit false

namespace Recap

open Spec RType

/-- A type object without alias that is written as it is. -/
structure Piece (u : RType) : Prop where
  node : NodeOK u
  real : RealNode u
  keys : ∀ k ∈ u.attrs.extra.keys, k ∉ ["values", "keys", "fields", "types"]
  form : ∀ ts a, u = .union ts a → OptionalForm ts a
  alias : u.attrs.alias = .none

/-- All type objects in the tree are. -/
def Shown (t : RType) : Prop := ∀ u, Sub u t → Piece u

theorem shown_iff {t : RType} : Shown t ↔ Piece t ∧ ∀ c ∈ children t, Shown c := by
  constructor
  · intro h
    exact ⟨h t .refl, fun c hc u hu => h u (sub_iff.mpr (.inr ⟨c, hc, hu⟩))⟩
  · rintro ⟨h1, h2⟩ u hu
    rcases sub_iff.mp hu with rfl | ⟨c, hc, hu⟩
    · exact h1
    · exact h2 c hc u hu

mutual
theorem bounded_of_valid : ∀ t : RType, AllValid t → Bounded t
  | .list t l v a, h => by
    have h1 := h _ .refl
    simp only [validate] at h1
    obtain ⟨_, h1, -⟩ := Relational.bind_ok h1
    exact ⟨checkSize_iff.mp h1, bounded_of_valid t (fun u hu => h u (.list hu))⟩
  | .map k v a, h => ⟨bounded_of_valid k (fun u hu => h u (.key hu)), bounded_of_valid v (fun u hu => h u (.value hu))⟩
  | .struct fs a, h => boundedAll_of_valid fs (fun f hf u hu => h u (.field hf hu))
  | .union ts a, h => boundedAll_of_valid ts (fun f hf u hu => h u (.member hf hu))
  | .null a, h => trivial
  | .bool a, h => trivial
  | .int b s a, h => bounded_leaf trivial (h _ .refl)
  | .float b a, h => bounded_leaf trivial (h _ .refl)
  | .string b v a, h => bounded_leaf trivial (h _ .refl)
  | .bytes b v a, h => bounded_leaf trivial (h _ .refl)
  | .enum s a, h => trivial
  | .proxy r a, h => trivial
theorem boundedAll_of_valid : ∀ ts : List RType, (∀ t ∈ ts, AllValid t) → BoundedAll ts
  | [], _ => trivial
  | t :: ts, h => ⟨bounded_of_valid t (h t (by simp)), boundedAll_of_valid ts (fun u hu => h u (by simp [hu]))⟩
end

mutual
theorem Shown.defined : ∀ {t : RType}, Shown t → definedAliases t = []
  | .list t l v a, h => by
    simp [definedAliases, own, show a.alias = .none from (h _ .refl).alias, Shown.defined (fun u hu => h u (.list hu))]
  | .map k v a, h => by
    simp [definedAliases, own, show a.alias = .none from (h _ .refl).alias, Shown.defined (fun u hu => h u (.key hu)),
      Shown.defined (fun u hu => h u (.value hu))]
  | .struct fs a, h => by
    simp [definedAliases, own, show a.alias = .none from (h _ .refl).alias,
      shown_definedAll (fun f hf u hu => h u (.field hf hu))]
  | .union fs a, h => by
    simp [definedAliases, own, show a.alias = .none from (h _ .refl).alias,
      shown_definedAll (fun f hf u hu => h u (.member hf hu))]
  | .null a, h => by simp [definedAliases, own, show a.alias = .none from (h _ .refl).alias]
  | .bool a, h => by simp [definedAliases, own, show a.alias = .none from (h _ .refl).alias]
  | .int b s a, h => by simp [definedAliases, own, show a.alias = .none from (h _ .refl).alias]
  | .float b a, h => by simp [definedAliases, own, show a.alias = .none from (h _ .refl).alias]
  | .string b v a, h => by simp [definedAliases, own, show a.alias = .none from (h _ .refl).alias]
  | .bytes b v a, h => by simp [definedAliases, own, show a.alias = .none from (h _ .refl).alias]
  | .enum s a, h => by simp [definedAliases, own, show a.alias = .none from (h _ .refl).alias]
  | .proxy r a, h => by simp [definedAliases]
theorem shown_definedAll : ∀ {ts : List RType}, (∀ t ∈ ts, Shown t) → definedAliasesAll ts = []
  | [], _ => rfl
  | t :: ts, h => by
    simp [definedAliasesAll, Shown.defined (h t (by simp)), shown_definedAll (ts := ts) (fun u hu => h u (List.mem_cons_of_mem _ hu))]
end

/-- What C03 says of such a type. -/
theorem shown_round_trip {t : RType} (h : Shown t) (hb : Bounded t) :
    ∃ v t', toDict true true t = .ok v ∧ Doc v (aliased t) ∧ parse v = .ok t' ∧ RType.pyEq t' (aliased t) = true := by
  have hn : ∀ u, Sub u t → NodeOK u := fun u hu => (h u hu).node
  have hr : RealType t := fun u hu => (h u hu).real
  have hd := h.defined
  have hp : Plain t := ⟨hn, hr, hb, fun u hu => (h u hu).keys⟩
  obtain ⟨v, h1, h2⟩ := toDict_alias true t hp
    (fun _ => tidy_of hn (fun ts a hs => (h _ hs).form ts a rfl)) (fun c hc => defined_children hd hc)
  obtain ⟨t', h3, h4⟩ := parse_of_reads (h2.read newRegistry (bounded_aliased t hb) (aliased_real hr)
    (aliased_aliases (aliasesOK_of hn)) (by rw [defined_aliased, hd]; exact .nil)
    (by rw [defined_aliased, hd]; simp))
  exact ⟨v, t', h1, h2, h3, h4⟩

/-- A document for a struct is a dictionary. -/
theorem Doc.struct_dict {v : PyVal} {fs : List RType} {a : Attrs} (h : Doc v (.struct fs a)) : ∃ d, v = .dict d := by
  cases h with
  | short h =>
    generalize hx : PyVal.dict (node _ []) = x at h
    cases h with
    | struct _ _ h _ =>
      simp only [node, PyVal.dict.injEq, List.cons.injEq] at hx
      rw [← hx.2] at h
      cases h
    | _ => cases hx
  | shortUnion h =>
    generalize hx : PyVal.dict (node "union" _) = x at h
    cases h with
    | struct _ _ h _ =>
      simp only [node, PyVal.dict.injEq, List.cons.injEq, Prod.mk.injEq, PyVal.str.injEq] at hx
      exact absurd hx.1.2 (by decide)
    | _ => cases hx
  | struct => exact ⟨_, rfl⟩

/-! ## Building blocks -/

/-- A type object without nested types and with at most some attributes that describe values. -/
structure Leafy (t : RType) : Prop where
  leaf : children t = []
  proxy : t.isProxy = false
  union : ∀ ts a, t ≠ .union ts a
  alias : t.attrs.alias = .none
  doc : t.attrs.doc = .none
  logical : Real t.attrs.logical
  nodup : t.attrs.extra.keys.Nodup
  keys : ∀ k ∈ t.attrs.extra.keys, k ∈ ["unit", "precision", "scale", "timezone"]
  real : ∀ kv ∈ t.attrs.extra, Real kv.2
  params : ∀ kv ∈ Spec.params t, Real kv.2

theorem real_dict {d : Dict} (hn : d.keys.Nodup) (h : ∀ kv ∈ d, Real kv.2) : Real (.dict d) := ⟨hn, .of_mem h⟩

theorem reserved_withAttrs (t : RType) (a : Attrs) : reservedKeys (t.withAttrs a) = reservedKeys t := by
  cases t <;> rfl

theorem proxy_withAttrs (t : RType) (a : Attrs) : (t.withAttrs a).isProxy = t.isProxy := by cases t <;> rfl

/-- A node whose extra attributes are known to be harmless. -/
theorem piece_of {t : RType} (hp : t.isProxy = false) (ha : t.attrs.alias = .none) (hl : Real t.attrs.logical)
    (hd : Real t.attrs.doc) (hn : t.attrs.extra.keys.Nodup)
    (hk : ∀ k ∈ t.attrs.extra.keys, k ∈ ["unit", "precision", "scale", "timezone", "default", "name"])
    (hr : ∀ kv ∈ t.attrs.extra, Real kv.2) (hq : ∀ kv ∈ Spec.params t, Real kv.2)
    (hf : ∀ ts a, t = .union ts a → OptionalForm ts a) : Piece t := by
  have hfree : ∀ k ∈ ["unit", "precision", "scale", "timezone", "default", "name"],
      k ∉ reservedKeys t ∧ k ∉ ["values", "keys", "fields", "types"] := by
    intro k hk
    simp only [List.mem_cons, List.not_mem_nil, or_false] at hk
    rcases hk with rfl | rfl | rfl | rfl | rfl | rfl <;> refine ⟨?_, by decide⟩ <;>
      cases t <;> first | simp [reservedKeys] | simp [RType.isProxy] at hp
  refine ⟨⟨hn, fun k h => (hfree k (hk k h)).1, ?_⟩, ⟨hl, by rw [ha]; trivial, hd, real_dict hn hr, hq⟩,
    fun k h => (hfree k (hk k h)).2, hf, ha⟩
  rw [if_neg (by simp [hp])]
  exact .inl ha

theorem Leafy.piece {t : RType} (h : Leafy t) : Piece t :=
  piece_of h.proxy h.alias h.logical (by rw [h.doc]; trivial) h.nodup
    (fun k hk => by have := h.keys k hk; simp at this ⊢; grind) h.real h.params
    (fun ts a e => absurd e (h.union ts a))

theorem Leafy.shown {t : RType} (h : Leafy t) : Shown t :=
  shown_iff.mpr ⟨h.piece, by rw [h.leaf]; simp⟩

/-- A type object, not a union, that can be a field: all its parts can be shown. -/
structure Tame (t : RType) : Prop where
  proxy : t.isProxy = false
  union : ∀ ts a, t ≠ .union ts a
  alias : t.attrs.alias = .none
  logical : Real t.attrs.logical
  doc : Real t.attrs.doc
  nodup : t.attrs.extra.keys.Nodup
  keys : ∀ k ∈ t.attrs.extra.keys, k ∈ ["unit", "precision", "scale", "timezone", "default", "name"]
  real : ∀ kv ∈ t.attrs.extra, Real kv.2
  params : ∀ kv ∈ Spec.params t, Real kv.2
  parts : ∀ c ∈ children t, Shown c

theorem Leafy.tame {t : RType} (h : Leafy t) : Tame t :=
  ⟨h.proxy, h.union, h.alias, h.logical, by rw [h.doc]; trivial, h.nodup,
    fun k hk => by have := h.keys k hk; simp at this ⊢; grind, h.real, h.params, by rw [h.leaf]; simp⟩

theorem Tame.shown {t : RType} (h : Tame t) : Shown t :=
  shown_iff.mpr ⟨piece_of h.proxy h.alias h.logical h.doc h.nodup h.keys h.real h.params
    (fun ts a e => absurd e (h.union ts a)), h.parts⟩

theorem Tame.set {t : RType} (h : Tame t) {k : String} {v : PyVal} (hk : k = "default" ∨ k = "name") (hv : Real v) :
    Tame (Relational.setExtra t k v) := by
  unfold Relational.setExtra
  have ea : (t.withAttrs { t.attrs with extra := Dict.set t.attrs.extra k v }).attrs =
      { t.attrs with extra := Dict.set t.attrs.extra k v } := by cases t <;> rfl
  have ec : children (t.withAttrs { t.attrs with extra := Dict.set t.attrs.extra k v }) = children t := by
    cases t <;> rfl
  have ep : Spec.params (t.withAttrs { t.attrs with extra := Dict.set t.attrs.extra k v }) = Spec.params t := by
    cases t <;> rfl
  constructor
  · rw [proxy_withAttrs]; exact h.proxy
  · intro ts a e
    cases t <;> cases e
    exact h.union _ _ rfl
  · rw [ea]; exact h.alias
  · rw [ea]; exact h.logical
  · rw [ea]; exact h.doc
  · rw [ea]; exact Dict.nodup_keys_set _ _ h.nodup
  · rw [ea]
    intro k' hk'
    obtain ⟨kv, hkv, rfl⟩ := List.mem_map.mp hk'
    rcases mem_set hkv with hm | rfl
    · exact h.keys _ (List.mem_map.mpr ⟨kv, hm, rfl⟩)
    · rcases hk with rfl | rfl <;> simp
  · rw [ea]
    intro kv hkv
    rcases mem_set hkv with hm | rfl
    · exact h.real _ hm
    · exact hv
  · rw [ep]; exact h.params
  · rw [ec]; exact h.parts

theorem shown_null : Shown (.null {}) :=
  shown_iff.mpr ⟨piece_of rfl rfl trivial trivial .nil (by simp [RType.attrs, Dict.keys]) (by simp [RType.attrs])
    (by simp [Spec.params]) (by intro _ _ h; cases h), by simp [children]⟩

theorem plainNull_name {t : RType} (h : IsPlainNull t) : t.typeName = "null" := typeName_of_pyEq h

theorem isPlainNull_null : IsPlainNull (.null {}) := rfl

/-- The attributes of a union that is a field. -/
inductive FieldExtra : Dict → Prop
  | none : FieldExtra []
  | name {n} : Real n → n ≠ .none → FieldExtra [("name", n)]
  | both {v n} : Real v → Real n → n ≠ .none → FieldExtra [("default", v), ("name", n)]
  | default {v} : Real v → FieldExtra [("default", v)]

/-- A union of null and of other types, as a field. -/
theorem shown_union {ts : List RType} {x : Dict} (hx : FieldExtra x) (hts : ∀ t ∈ ts, Shown t)
    (hn : ∀ t ∈ ts, t.typeName ≠ "null")
    (h1 : ∀ u, ts = [u] → u.typeName ≠ "union" ∧ "name" ∉ u.attrs.extra.keys ∧ "default" ∉ u.attrs.extra.keys) :
    Shown (.union (.null {} :: ts) { extra := x }) := by
  refine shown_iff.mpr ⟨piece_of rfl rfl trivial trivial ?_ ?_ ?_ (by simp [Spec.params]) ?_, ?_⟩
  · cases hx <;> simp [RType.attrs, Dict.keys]
  · cases hx <;> simp [RType.attrs, Dict.keys]
  · cases hx <;> simp [RType.attrs] <;> first | assumption | (constructor <;> assumption)
  · intro us a e
    cases e
    intro _ hd
    refine ⟨?_, ?_, .null {}, ts, rfl, isPlainNull_null, fun u hu e => hn u hu (plainNull_name e),
      fun _ _ u hu => ⟨rfl, h1 u hu⟩⟩
    · cases hx <;> simp [Dict.keys]
    · cases hx <;> simp [Dict.get?] <;> assumption
  · intro c hc
    simp only [children, List.mem_cons] at hc
    rcases hc with rfl | hc
    · exact shown_null
    · exact hts c hc

end Recap
