import Verif.CommandsRecap
import Verif.CompactFaithful

/-! # Arrays of PostgreSQL without enforced dimensions in Recap's own format: helper lemmas for C115 -/

set_option autoImplicit false

namespace Recap.Relational

open RType Spec

/-- A type object that is written as it is. -/
structure Part (u : RType) : Prop where
  node : NodeOK u
  real : RealNode u
  keys : ∀ k ∈ u.attrs.extra.keys, k ∉ ["values", "keys", "fields", "types"]
  form : ∀ ts a, u = .union ts a → OptionalForm ts a

/-- All type objects in the tree are. -/
def Parts (t : RType) : Prop := ∀ u, Sub u t → Part u

theorem parts_iff {t : RType} : Parts t ↔ Part t ∧ ∀ c ∈ children t, Parts c := by
  constructor
  · intro h
    exact ⟨h t .refl, fun c hc u hu => h u (sub_iff.mpr (.inr ⟨c, hc, hu⟩))⟩
  · rintro ⟨h1, h2⟩ u hu
    rcases sub_iff.mp hu with rfl | ⟨c, hc, hu⟩
    · exact h1
    · exact h2 c hc u hu

theorem _root_.Recap.Piece.part {u : RType} (h : Piece u) : Part u := ⟨h.node, h.real, h.keys, h.form⟩

theorem _root_.Recap.Shown.parts {t : RType} (h : Shown t) : Parts t := fun u hu => (h u hu).part

/-- The field of an array column: a list with an alias, or null or such a list. -/
inductive SelfField (A : String) : RType → Prop
  | plain {v x} : Leafy v → Simple v → FieldExtra x → SelfField A (.list (.union [v, .proxy .none { alias := .str A }] {})
      .none (.bool true) { alias := .str A, extra := x })
  | nullable {v d n} : Leafy v → Simple v → FieldExtra [("default", d), ("name", n)] →
      SelfField A (.union [.null {}, selfList A v] { extra := [("default", d), ("name", n)] })

theorem fieldExtra_props {x : Dict} (h : FieldExtra x) : x.keys.Nodup ∧ (∀ k ∈ x.keys, k = "default" ∨ k = "name") ∧
    (∀ kv ∈ x, Real kv.2) ∧ Dict.get? x "name" ≠ some .none := by
  cases h <;> simp [Dict.keys, Dict.get?] <;> first | assumption | (refine ⟨?_, ?_⟩ <;> first | assumption | exact ⟨‹_›, ‹_›⟩)

theorem self_values {A : String} (hA : aliasOk A = true) {v : RType} (hv : Leafy v) (hs : Simple v) :
    Parts (.union [v, .proxy .none { alias := .str A }] {}) := by
  refine parts_iff.mpr ⟨Piece.part (piece_of (t := .union [v, .proxy .none { alias := .str A }] {}) rfl rfl trivial trivial .nil
    (by simp [RType.attrs, Dict.keys]) (by simp [RType.attrs]) (by simp [Spec.params]) ?_), ?_⟩
  · intro ts a e
    cases e
    intro _ h
    simp [Dict.keys] at h
  · simp only [children, List.mem_cons, List.not_mem_nil, or_false, forall_eq_or_imp, forall_eq]
    refine ⟨hv.shown.parts, parts_iff.mpr ⟨⟨⟨.nil, by simp [RType.attrs, Dict.keys], ?_⟩, ?_, by simp [RType.attrs, Dict.keys],
      by intro _ _ h; cases h⟩, by simp [children]⟩⟩
    · refine ⟨A, rfl, ?_⟩
      intro hm
      have : ∀ s ∈ coreTypeNames, aliasOk s = false := by decide +kernel
      rw [this A hm] at hA; cases hA
    · simp [RealNode, RType.attrs, Real, RealPairs, Spec.params]

theorem self_list {A : String} (hA : aliasOk A = true) {v : RType} (hv : Leafy v) (hs : Simple v) {x : Dict}
    (hx : FieldExtra x) : Parts (.list (.union [v, .proxy .none { alias := .str A }] {})
      .none (.bool true) { alias := .str A, extra := x }) := by
  obtain ⟨x1, x2, x3, -⟩ := fieldExtra_props hx
  refine parts_iff.mpr ⟨⟨⟨x1, ?_, .inr ⟨A, rfl, (aliasOk_iff A).mp hA⟩⟩, ?_, ?_, by intro _ _ h; cases h⟩, ?_⟩
  · intro k hk
    rcases x2 k hk with rfl | rfl <;> simp [reservedKeys]
  · exact ⟨trivial, trivial, trivial, real_dict x1 x3, by simp [Spec.params, Real]⟩
  · intro k hk
    rcases x2 k hk with rfl | rfl <;> simp
  · simp only [children, List.mem_cons, List.not_mem_nil, or_false, forall_eq]
    exact self_values hA hv hs

theorem SelfField.parts {A : String} (hA : aliasOk A = true) {f : RType} (h : SelfField A f) : Parts f := by
  cases h with
  | plain h1 h2 h3 => exact self_list hA h1 h2 h3
  | @nullable v d n h1 h2 h3 =>
    obtain ⟨x1, x2, x3, x4⟩ := fieldExtra_props h3
    refine parts_iff.mpr ⟨Piece.part (piece_of (t := .union [.null {}, selfList A v] { extra := [("default", d), ("name", n)] })
      rfl rfl trivial trivial x1 ?_ x3 (by simp [Spec.params]) ?_), ?_⟩
    · intro k hk
      rcases x2 k hk with rfl | rfl <;> simp
    · intro ts a e
      cases e
      intro _ _
      refine ⟨x2, x4, .null {}, _, rfl, isPlainNull_null, ?_, ?_⟩
      · intro u hu e
        rw [List.mem_singleton.mp hu] at e
        have := plainNull_name e
        simp [selfList, RType.typeName] at this
      · rintro - - u e
        cases e
        simp [selfList, RType.typeName, RType.attrs, Dict.keys]
    · simp only [children, List.mem_cons, List.not_mem_nil, or_false, forall_eq_or_imp, forall_eq]
      exact ⟨shown_null.parts, self_list hA h1 h2 .none⟩

theorem SelfField.defined {A : String} {f : RType} (h : SelfField A f) : definedAliases f = [.str A] := by
  cases h with
  | plain h1 _ _ => simp [definedAliases, definedAliasesAll, own, h1.shown.defined]
  | nullable h1 _ _ => simp [selfList, definedAliases, definedAliasesAll, own, h1.shown.defined]

/-- What the fields look like if dimensions are not enforced. -/
inductive FreeField : RType → List String → Prop
  | other {f} : Shown f → (∀ w, Sub w f → w.typeName ≠ "list") → FreeField f []
  | array {A f} : aliasOk A = true → SelfField A f → FreeField f [A]

theorem FreeField.parts {f : RType} {l : List String} (h : FreeField f l) : Parts f := by
  cases h with
  | other h _ => exact h.parts
  | array h1 h2 => exact h2.parts h1

theorem FreeField.defined {f : RType} {l : List String} (h : FreeField f l) : definedAliases f = l.map .str := by
  cases h with
  | other h _ => simp [h.defined]
  | array h1 h2 => simp [h2.defined]

theorem sub_leaf {w b : RType} (h : children b = []) (hs : Sub w b) : w = b := by
  rcases sub_iff.mp hs with e | ⟨c, hc, -⟩
  · exact e
  · rw [h] at hc; cases hc

theorem children_setExtra (t : RType) (k : String) (v : PyVal) : children (setExtra t k v) = children t := by
  cases t <;> rfl

theorem typeName_setExtra (t : RType) (k : String) (v : PyVal) : (setExtra t k v).typeName = t.typeName := by
  cases t <;> rfl

theorem pgScalar_noList {dt : String} {o m : PyVal} {col : Dict} {t : RType} (h : pgScalar dt o m col = .ok t) :
    t.typeName ≠ "list" := by
  have hs := (pgScalar_simple _ _ _ _ _ h).leaf
  cases t <;> simp [children, RType.typeName] at hs ⊢

theorem scalar_noList {cm : CaseMap} {c : Dict} {b f : RType} (hb : Simple b) (hn : b.typeName ≠ "list")
    (h : fieldOf cm c b = .ok f) : ∀ w, Sub w f → w.typeName ≠ "list" := by
  obtain ⟨n, dflt, name, -, hd, hm, rfl⟩ := fieldOf_ok h
  intro w hw
  by_cases hy : (cm.upper n == "YES") = true
  · rw [if_pos hy, if_pos (by rw [hy]; simp), makeNullable_bare hb.toBare hb.nonNull hb.notUnion] at hw
    rcases sub_iff.mp hw with rfl | ⟨c, hc, hs⟩
    · simp [setExtra, RType.withAttrs, RType.typeName]
    · rw [children_setExtra, children_setExtra] at hc
      simp only [children, List.mem_cons, List.not_mem_nil, or_false] at hc
      rcases hc with rfl | rfl
      · rw [sub_leaf rfl hs]; simp [RType.typeName]
      · rw [sub_leaf hb.leaf hs]; exact hn
  · rw [if_neg hy] at hw
    have := sub_leaf (by rw [children_setExtra]; split <;> simp only [children_setExtra, hb.leaf]) hw
    rw [this, typeName_setExtra]
    split
    · rw [typeName_setExtra]; exact hn
    · exact hn

theorem array_field {cm : CaseMap} {c : Dict} {A : String} {v f : RType} (hc : Real (.dict c))
    (hname : Dict.get? c "COLUMN_NAME" ≠ some .none) (h1 : Leafy v) (h2 : Simple v)
    (h : fieldOf cm c (selfList A v) = .ok f) : SelfField A f := by
  obtain ⟨n, dflt, name, -, hd, hm, rfl⟩ := fieldOf_ok h
  have rd := RealDict.get? hc hd
  have rn := RealDict.get? hc hm
  have hne : name ≠ .none := by rintro rfl; exact hname hm
  by_cases hy : (cm.upper n == "YES") = true
  · rw [if_pos hy, if_pos (by rw [hy]; simp), makeNullable_bare ⟨rfl, rfl, rfl⟩ rfl (by intro _ _ h; simp [selfList] at h)]
    exact .nullable h1 h2 (.both rd rn hne)
  · rw [if_neg hy]
    split
    · exact .plain h1 h2 (.both rd rn hne)
    · exact .plain h1 h2 (.name rn hne)

theorem names_append (r : Registry) (s : String) (t : RType) : names (r ++ [(s, t)]) = names r ++ [s] := by
  simp [names]

theorem free_fields {cm : CaseMap} {cfg : PgConfig} (he : cfg.enforce = false) : ∀ {cols : List Dict}
    {st st' : Registry} {fs : List RType}, (∀ c ∈ cols, Real (.dict c)) →
    (∀ c ∈ cols, Dict.get? c "COLUMN_NAME" ≠ some .none) →
    fieldsOf cm ((Dialect.postgresql cfg).parse cm) cols st = (.ok fs, st') →
    (∀ f ∈ fs, ∃ l, FreeField f l) ∧ ∃ new : List String, names st' = names st ++ new ∧
      definedAliasesAll fs = new.map .str ∧ new.Nodup ∧ ∀ s ∈ new, s ∉ names st ∧ aliasOk s = true
  | [], st, st', fs, _, _, h => by
    simp only [fieldsOf] at h
    cases h
    exact ⟨by simp, [], by simp, rfl, .nil, by simp⟩
  | c :: cs, st, st', fs, hr, hn, h => by
    obtain ⟨b, st₁, f, fs', h1, h2, h3, rfl⟩ := fieldsOf_cons h
    obtain ⟨i1, new, i2, i3, i4, i5⟩ := free_fields he (fun c hc => hr c (by simp [hc])) (fun c hc => hn c (by simp [hc])) h3
    have hc := hr c (by simp)
    have hcn := hn c (by simp)
    obtain ⟨p, hp, hcase⟩ := pgParse_ok h1
    obtain ⟨-, hdt, ho, hmx, -, -⟩ := pgProps_ok hp
    rcases hcase with ⟨-, rfl, hsc⟩ | ⟨e, v, -, hv, hcase⟩
    · have l1 := pgScalar_leafy _ _ (RealDict.get? hc ho) hc _ hsc
      have l2 := pgScalar_simple _ _ _ _ _ hsc
      have hf : FreeField f [] := .other (field_shown hc hcn (.leafy l1 l2) h2) (scalar_noList l2 (pgScalar_noList hsc) h2)
      refine ⟨?_, new, i2, ?_, i4, i5⟩
      · intro g hg
        rcases List.mem_cons.mp hg with rfl | hg
        · exact ⟨_, hf⟩
        · exact i1 g hg
      · simp [definedAliasesAll, hf.defined, i3]
    · rcases hcase with ⟨he', -⟩ | ⟨-, s, hs, rfl, hreg⟩
      · rw [he] at he'; cases he'
      · obtain ⟨A, e1, e2, e3, rfl⟩ := registerAlias_ok hreg
        have e : cfg.ns ++ "." ++ replaceDots s = A := by simpa [selfList, attrs] using e1
        rw [e] at h2
        have l1 := pgScalar_leafy _ _ (by trivial) (real_pgElement _) _ hv
        have l2 := pgScalar_simple _ _ _ _ _ hv
        have hf : FreeField f [A] := .array e3 (array_field hc hcn l1 l2 h2)
        rw [names_append] at i2 i5
        refine ⟨?_, A :: new, by simp [i2], ?_, ?_, ?_⟩
        · intro g hg
          rcases List.mem_cons.mp hg with rfl | hg
          · exact ⟨_, hf⟩
          · exact i1 g hg
        · simp [definedAliasesAll, hf.defined, i3]
        · refine List.nodup_cons.mpr ⟨fun hm => (i5 A hm).1 (by simp), i4⟩
        · intro x hx
          rcases List.mem_cons.mp hx with rfl | hx
          · exact ⟨e2, e3⟩
          · exact ⟨fun hm => (i5 x hx).1 (by simp [hm]), (i5 x hx).2⟩

/-! ## Aliases are kept apart -/

/-- A field after types have been replaced by references to built-in aliases. -/
inductive FreeShape : RType → Prop
  | other {g} : definedAliases g = [] → (∀ w, Sub w g → w.typeName ≠ "list") → FreeShape g
  | plain {u l v a} : definedAliases u = [] → a.alias ≠ .none → FreeShape (.list u l v a)
  | nullable {u l v b a} : definedAliases u = [] → b.alias ≠ .none → a.alias = .none → a.logical = .none →
      "default" ∈ a.extra.keys → FreeShape (.union [.null {}, .list u l v b] a)

theorem hasAlias_list {g : RType} (h : FreeShape g) {s : RType} (hs : Sub s g) (ha : HasAlias s) : s.typeName = "list" := by
  have inner : ∀ {u l v b}, definedAliases u = [] → Sub s (.list u l v b) → s.typeName = "list" := by
    intro u l v b hu hs
    rcases sub_iff.mp hs with rfl | ⟨c, hc, hs'⟩
    · rfl
    · simp only [children, List.mem_cons, List.not_mem_nil, or_false] at hc
      subst hc
      exact absurd (defined_sub hs' hu) (hasAlias_defined ha)
  cases h with
  | other h1 h2 => exact absurd (defined_sub hs h1) (hasAlias_defined ha)
  | plain h1 h2 => exact inner h1 hs
  | nullable h1 h2 h3 h4 h5 =>
    rcases sub_iff.mp hs with rfl | ⟨c, hc, hs⟩
    · exact absurd h3 ha.2
    · simp only [children, List.mem_cons, List.not_mem_nil, or_false] at hc
      rcases hc with rfl | rfl
      · rw [sub_leaf rfl hs] at ha
        exact absurd rfl ha.2
      · exact inner h1 hs

theorem typeName_definition (t : RType) : (definition t).typeName = t.typeName := by cases t <;> rfl

theorem quiet_list {w s : RType} (hw : w.typeName ≠ "list") (hs : s.typeName = "list") :
    RType.pyEq w (definition s) = false := by
  cases g : RType.pyEq w (definition s) with
  | false => rfl
  | true => exact absurd (by rw [typeName_of_pyEq g, typeName_definition, hs]) hw

theorem separate_none {compact : Bool} {u : RType} (h : definedAliases u = []) : Separate compact u :=
  separate_of_children fun _ hc => defined_children h hc

theorem separate_free {gs : List RType} (h : ∀ g ∈ gs, FreeShape g) : Separate true (.struct gs {}) := by
  have inside : ∀ {u l v b}, definedAliases u = [] → b.alias ≠ .none → Separate true (.list u l v b) := by
    intro u l v b hu hb x hx hn c hc
    rcases sub_iff.mp hx with rfl | ⟨c', hc', hx'⟩
    · exact absurd hn hb
    · simp only [children, List.mem_cons, List.not_mem_nil, or_false] at hc'
      subst hc'
      exact separate_none hu x hx' hn c hc
  intro x hx hn c hc
  rcases sub_iff.mp hx with rfl | ⟨g, hg, hx⟩
  · simp only [children] at hc
    have hs : ∀ s, Sub s (.struct gs {}) → HasAlias s → s.typeName = "list" := by
      intro s hs ha
      rcases sub_iff.mp hs with rfl | ⟨c', hc', hs⟩
      · exact absurd rfl ha.2
      · exact hasAlias_list (h _ hc') hs ha
    cases h c hc with
    | other h1 h2 => exact .inr ⟨h1, fun w s hw hs' ha => quiet_list (h2 w hw) (hs s hs' ha)⟩
    | plain h1 h2 => exact .inl (.inl ⟨rfl, h2⟩)
    | nullable h1 h2 h3 h4 h5 => exact .inl (.inr ⟨rfl, _, ⟨_, _, rfl, isPlainNull_null, h3, h4, h5⟩, rfl, h2⟩)
  · cases h g hg with
    | other h1 h2 => exact separate_none h1 x hx hn c hc
    | plain h1 h2 => exact inside h1 h2 x hx hn c hc
    | nullable h1 h2 h3 h4 h5 =>
      rcases sub_iff.mp hx with rfl | ⟨c', hc', hx⟩
      · simp only [children, List.mem_cons, List.not_mem_nil, or_false] at hc
        rcases hc with rfl | rfl
        · refine .inr ⟨rfl, fun w s hw hs ha => quiet_list ?_ (hasAlias_list (.nullable h1 h2 h3 h4 h5) hs ha)⟩
          rw [sub_leaf rfl hw]; simp [RType.typeName]
        · exact .inl (.inl ⟨rfl, h2⟩)
      · simp only [children, List.mem_cons, List.not_mem_nil, or_false] at hc'
        rcases hc' with rfl | rfl
        · rw [sub_leaf rfl hx] at hc
          simp [children] at hc
        · exact inside h1 h2 x hx hn c hc

theorem sub_aliased_noList {f : RType} (h : ∀ w, Sub w f → w.typeName ≠ "list") :
    ∀ w, Sub w (aliased f) → w.typeName ≠ "list" := by
  intro w hw
  rcases sub_aliased hw with ⟨k, e, -, rfl⟩ | ⟨u, hu, rfl, -⟩
  · simp [reference, RType.typeName]
  · rcases outcome u with ⟨k, e, -, -, -, b4⟩ | ⟨-, -, -, -, -, b5, -⟩
    · rw [b4]; simp [reference, RType.typeName]
    · rw [b5]; exact h u hu

theorem FreeField.shape {f : RType} {l : List String} (h : FreeField f l) : FreeShape (aliased f) := by
  cases h with
  | other h1 h2 => exact .other (by rw [defined_aliased, h1.defined]) (sub_aliased_noList h2)
  | @array A _ h1 h2 =>
    have hu : ∀ {A v}, Leafy v → definedAliases (aliased (.union [v, .proxy .none { alias := .str A }] {})) = [] := by
      intro A v hv
      rw [defined_aliased]
      simp [definedAliases, definedAliasesAll, own, hv.shown.defined]
    cases h2 with
    | plain h1 h2 h3 =>
      rw [aliased]
      exact .plain (hu h1) (by simp)
    | nullable h1 h2 h3 =>
      have e : aliased (.null {}) = .null {} := by decide +kernel
      simp only [aliased, aliasedAll, selfList]
      rw [show builtinFor (.null {}) = .none by decide +kernel]
      exact .nullable (by have := hu (A := A) h1; simpa only [aliased, aliasedAll] using this) (by simp) rfl rfl
        (by simp [Dict.keys])

/-- The type of a table of PostgreSQL without enforced dimensions. -/
theorem free_faithful {cm : CaseMap} {cfg : PgConfig} (he : cfg.enforce = false) {cols : List Dict} {st st' : Registry}
    {fs : List RType} (hr : ∀ c ∈ cols, Real (.dict c)) (hn : ∀ c ∈ cols, Dict.get? c "COLUMN_NAME" ≠ some .none)
    (h : fieldsOf cm ((Dialect.postgresql cfg).parse cm) cols st = (.ok fs, st')) (hb : Bounded (.struct fs {})) :
    Faithful (.struct fs {}) := by
  obtain ⟨h1, new, h2, h3, h4, h5⟩ := free_fields he hr hn h
  have hp : Parts (.struct fs {}) := by
    refine parts_iff.mpr ⟨Piece.part (piece_of (t := .struct fs {}) rfl rfl trivial trivial .nil
      (by simp [RType.attrs, Dict.keys]) (by simp [RType.attrs]) (by simp [Spec.params]) (fun _ _ h => nomatch h)), ?_⟩
    intro f hf
    obtain ⟨l, hl⟩ := h1 f hf
    exact hl.parts
  have hd : definedAliases (.struct fs {}) = new.map .str := by simp [definedAliases, own, h3]
  refine ⟨⟨fun u hu => (hp u hu).node, hb, ?_, ?_⟩, fun u hu => (hp u hu).real, fun ts a hs => (hp _ hs).form ts a rfl,
    fun u hu => (hp u hu).keys, ?_⟩
  · rw [hd]
    exact List.Pairwise.map _ (fun a b hab e => hab (by simpa using e)) h4
  · intro s hs hm
    rw [hd] at hm
    obtain ⟨x, hx, e⟩ := List.mem_map.mp hm
    cases e
    have : aliasOk s = false := builtin_not_ok s hs
    rw [(h5 s hx).2] at this; cases this
  · rw [aliased, aliasedAll_eq]
    refine separate_free ?_
    intro g hg
    obtain ⟨f, hf, rfl⟩ := List.mem_map.mp hg
    obtain ⟨l, hl⟩ := h1 f hf
    exact hl.shape

end Recap.Relational
