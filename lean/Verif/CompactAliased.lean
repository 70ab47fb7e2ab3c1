import Verif.CompactAlias

/-! # Types with references in place of built-in types: lemmas for C03 and C04 -/

set_option autoImplicit false

namespace Recap

open Spec

theorem aliasedAll_eq (ts : List RType) : aliasedAll ts = ts.map aliased := by
  induction ts with
  | nil => rfl
  | cons t ts ih => simp [aliasedAll, ih]

/-- A type is replaced by a reference, or stays as it is up to the types nested in it. -/
inductive Outcome (t : RType) : Prop
  | replaced (k : String) (e : RType) : builtinFor t = some k → (k, e) ∈ builtinAliases → children t = [] →
      aliased t = reference k → Outcome t
  | kept : builtinFor t = .none → children (aliased t) = (children t).map aliased →
      (aliased t).attrs = t.attrs → params (aliased t) = params t → reservedKeys (aliased t) = reservedKeys t →
      (aliased t).typeName = t.typeName → (children t = [] → aliased t = t) → Outcome t

theorem outcome (t : RType) : Outcome t := by
  cases hb : builtinFor t with
  | some k =>
    obtain ⟨e, h1, h2⟩ := builtinFor_mem hb
    have h3 := builtins_kind _ h1
    rw [← typeName_of_pyEq h2] at h3
    cases t <;> simp [RType.typeName] at h3 <;>
      exact .replaced k e hb h1 rfl (by simp only [aliased, hb])
  | none =>
    cases t
    case list => exact .kept hb rfl rfl rfl rfl rfl (by simp [children])
    case map => exact .kept hb rfl rfl rfl rfl rfl (by simp [children])
    case struct fs a => 
      exact .kept hb (by simp [aliased, children, aliasedAll_eq]) rfl rfl rfl rfl
        (by simp only [children]; rintro rfl; rfl)
    case union ts a =>
      exact .kept hb (by simp [aliased, children, aliasedAll_eq]) rfl rfl rfl rfl
        (by simp only [children]; rintro rfl; rfl)
    all_goals
      refine .kept hb ?_ ?_ ?_ ?_ ?_ ?_ <;> simp [aliased, hb, children]

/-- The types nested in the result. -/
theorem sub_aliased {w t : RType} (h : Sub w (aliased t)) :
    (∃ k e, (k, e) ∈ builtinAliases ∧ w = reference k) ∨ ∃ u, Sub u t ∧ w = aliased u ∧ builtinFor u = .none := by
  rcases outcome t with ⟨k, e, h1, h2, h3, h4⟩ | ⟨h1, h2, -⟩
  · rw [h4] at h
    rcases sub_iff.mp h with rfl | ⟨c, hc, -⟩
    · exact .inl ⟨k, e, h2, rfl⟩
    · simp [children, reference] at hc
  · rcases sub_iff.mp h with rfl | ⟨c, hc, hs⟩
    · exact .inr ⟨t, .refl, rfl, h1⟩
    · rw [h2] at hc
      obtain ⟨c, hc', rfl⟩ := List.mem_map.mp hc
      have := size_child hc'
      rcases sub_aliased hs with h | ⟨u, g1, g2, g3⟩
      · exact .inl h
      · exact .inr ⟨u, g1.trans (.child hc'), g2, g3⟩
termination_by sizeOf t

theorem builtins_notCore : ∀ e ∈ builtinAliases, e.1 ∉ coreTypeNames := by decide +kernel

theorem isProxy_of_typeName {t u : RType} (h : t.typeName = u.typeName) : t.isProxy = u.isProxy := by
  cases t <;> cases u <;> simp [RType.typeName] at h <;> rfl

theorem reference_ok {k : String} {e : RType} (h : (k, e) ∈ builtinAliases) : NodeOK (reference k) := by
  refine ⟨by simp [reference, RType.attrs, Dict.keys], by simp [reference, RType.attrs, Dict.keys], ?_⟩
  simp only [reference, RType.isProxy, if_true, RType.attrs]
  exact ⟨k, rfl, builtins_notCore _ h⟩

/-- A property of single type objects carries over. -/
theorem aliased_nodes {P : RType → Prop} {t : RType} (hr : ∀ k e, (k, e) ∈ builtinAliases → P (reference k))
    (hk : ∀ u, Sub u t → (aliased u).attrs = u.attrs → params (aliased u) = params u →
      reservedKeys (aliased u) = reservedKeys u → (aliased u).typeName = u.typeName → P (aliased u)) :
    ∀ w, Sub w (aliased t) → P w := by
  intro w hw
  rcases sub_aliased hw with ⟨k, e, h1, rfl⟩ | ⟨u, h1, rfl, h2⟩
  · exact hr k e h1
  · rcases outcome u with ⟨k, e, g1, -⟩ | ⟨-, -, g1, g2, g3, g4, -⟩
    · rw [h2] at g1; cases g1
    · exact hk u h1 g1 g2 g3 g4

theorem aliased_ok {t : RType} (h : ∀ u, Sub u t → NodeOK u) : ∀ u, Sub u (aliased t) → NodeOK u :=
  aliased_nodes (fun _ _ => reference_ok) fun u hu e1 _ e3 e4 => by
    have := h u hu
    unfold NodeOK at *
    rw [e1, e3, isProxy_of_typeName e4]
    exact this

theorem aliased_real {t : RType} (h : RealType t) : RealType (aliased t) :=
  aliased_nodes (fun k e _ => by simp [RealNode, reference, RType.attrs, Real, RealPairs, params])
    fun u hu e1 e2 _ _ => by
      have := h u hu
      unfold RealNode at *
      rw [e1, e2]
      exact this

theorem aliased_plain {t : RType} (h : PlainKeys t) : PlainKeys (aliased t) :=
  aliased_nodes (fun k e _ => by simp [reference, RType.attrs, Dict.keys]) fun u hu e1 _ _ _ => by
    rw [e1]; exact h u hu

theorem aliased_aliases {t : RType} (h : AliasesOK t) : AliasesOK (aliased t) :=
  aliased_nodes (fun k e _ hp => by simp [reference, RType.isProxy] at hp) fun u hu e1 _ _ e4 hp => by
    rw [e1]; exact h u hu ((isProxy_of_typeName e4).symm.trans hp)

theorem aliased_nodup {t : RType} (h : ∀ u, Sub u t → u.attrs.extra.keys.Nodup) :
    ∀ u, Sub u (aliased t) → u.attrs.extra.keys.Nodup :=
  aliased_nodes (fun k e _ => by simp [reference, RType.attrs, Dict.keys]) fun u hu e1 _ _ _ => by
    rw [e1]; exact h u hu

theorem aliased_builtin {t : RType} : ∀ u, Sub u (aliased t) → builtinFor u = .none := by
  intro w hw
  rcases sub_aliased hw with ⟨k, e, -, rfl⟩ | ⟨u, -, rfl, h2⟩
  · exact builtinFor_kind (by simp [reference, RType.typeName])
  · rcases outcome u with ⟨k, e, g1, -⟩ | ⟨-, -, -, -, -, g4, g5⟩
    · rw [h2] at g1; cases g1
    · by_cases hc : children u = []
      · rw [g5 hc]; exact h2
      · refine builtinFor_kind ?_
        rw [g4]
        intro hm
        cases u <;> simp [RType.typeName] at hm <;> simp [children] at hc

theorem bounded_aliased (t : RType) (h : Bounded t) : Bounded (aliased t) := by
  rcases outcome t with ⟨k, e, -, -, -, h4⟩ | ⟨-, h2, -, h4, -, -, h6⟩
  · rw [h4]; trivial
  · have hc : ∀ c ∈ children t, Bounded (aliased c) := fun c hc => by
      have := size_child hc
      exact bounded_aliased c (bounded_child h hc)
    cases t
    case list => exact ⟨h.1, hc _ (by simp [children])⟩
    case map => exact ⟨hc _ (by simp [children]), hc _ (by simp [children])⟩
    case struct fs a =>
      simp only [aliased, Bounded, boundedAll_of, aliasedAll_eq, List.mem_map, forall_exists_index, and_imp,
        forall_apply_eq_imp_iff₂]
      exact hc
    case union fs a =>
      simp only [aliased, Bounded, boundedAll_of, aliasedAll_eq, List.mem_map, forall_exists_index, and_imp,
        forall_apply_eq_imp_iff₂]
      exact hc
    all_goals rw [h6 rfl]; exact h
termination_by sizeOf t

mutual
theorem defined_aliased : ∀ t : RType, definedAliases (aliased t) = definedAliases t
  | .list t l v a => by simp only [aliased, definedAliases, defined_aliased t]
  | .map k v a => by simp only [aliased, definedAliases, defined_aliased k, defined_aliased v]
  | .struct fs a => by simp only [aliased, definedAliases, definedAll_aliased fs]
  | .union ts a => by simp only [aliased, definedAliases, definedAll_aliased ts]
  | .null a => leaf _ rfl
  | .bool a => leaf _ rfl
  | .int b s a => leaf _ rfl
  | .float b a => leaf _ rfl
  | .string b v a => leaf _ rfl
  | .bytes b v a => leaf _ rfl
  | .enum s a => leaf _ rfl
  | .proxy r a => leaf _ rfl
theorem definedAll_aliased : ∀ ts : List RType, definedAliasesAll (aliasedAll ts) = definedAliasesAll ts
  | [] => rfl
  | t :: ts => by simp only [aliasedAll, definedAliasesAll, defined_aliased t, definedAll_aliased ts]
theorem leaf (t : RType) (h : children t = []) : definedAliases (aliased t) = definedAliases t := by
  rcases outcome t with ⟨k, e, h1, -, -, h4⟩ | ⟨-, -, -, -, -, -, h6⟩
  · rw [h4]
    have ha : t.attrs.alias = .none := Classical.byContradiction fun hne => by
      rw [builtinFor_alias hne] at h1; cases h1
    obtain ⟨e, m1, m2⟩ := builtinFor_mem h1
    have m3 := builtins_kind _ m1
    rw [← typeName_of_pyEq m2] at m3
    cases t <;> simp [RType.typeName] at m3 <;> simp only [RType.attrs] at ha <;>
      simp [reference, definedAliases, own, ha]
  · rw [h6 h]
end

theorem plainNull_aliased {u : RType} : IsPlainNull (aliased u) ↔ IsPlainNull u := by
  rcases outcome u with ⟨k, e, h1, h2, -, h4⟩ | ⟨-, -, -, -, -, h5, h6⟩
  · rw [h4]
    obtain ⟨e, m1, m2⟩ := builtinFor_mem h1
    have m3 := builtins_kind _ m1
    rw [← typeName_of_pyEq m2] at m3
    constructor
    · intro h; have := typeName_of_pyEq h; simp [reference, RType.typeName] at this
    · intro h; rw [typeName_of_pyEq h] at m3; simp [RType.typeName] at m3
  · by_cases hc : children u = []
    · rw [h6 hc]
    · constructor
      · intro h
        have e := typeName_of_pyEq h
        rw [h5] at e
        cases u <;> simp [RType.typeName] at e; simp [children] at hc
      · intro h
        have e := typeName_of_pyEq h
        cases u <;> simp [RType.typeName] at e; simp [children] at hc

theorem optionalForm_aliased {ts : List RType} {a : Attrs} (h : OptionalForm ts a) :
    OptionalForm (ts.map aliased) a := by
  rintro ⟨n, hn, hp⟩ hd
  obtain ⟨n, hn', rfl⟩ := List.mem_map.mp hn
  obtain ⟨h1, h2, m, rest, rfl, h4, h5, h6⟩ := h ⟨n, hn', plainNull_aliased.mp hp⟩ hd
  refine ⟨h1, h2, aliased m, rest.map aliased, rfl, plainNull_aliased.mpr h4, ?_, ?_⟩
  · intro u hu
    obtain ⟨u, hu', rfl⟩ := List.mem_map.mp hu
    rw [plainNull_aliased]
    exact h5 u hu'
  · intro ha hl u hu
    cases rest with
    | nil => simp at hu
    | cons r rest =>
      simp only [List.map_cons, List.cons.injEq, List.map_eq_nil_iff] at hu
      obtain ⟨rfl, rfl⟩ := hu
      obtain ⟨g1, g2, g3, g4⟩ := h6 ha hl r rfl
      refine ⟨g1, ?_⟩
      rcases outcome r with ⟨k, e, -, -, -, e1⟩ | ⟨-, -, e1, -, -, e5, -⟩
      · rw [e1]; simp [reference, RType.typeName, RType.attrs, Dict.keys]
      · rw [e1, e5]; exact ⟨g2, g3, g4⟩

theorem canonical_aliased {t : RType} (h : Canonical t) : Canonical (aliased t) := by
  intro ts a hs
  rcases sub_aliased hs with ⟨k, e, -, h1⟩ | ⟨u, h1, h2, h3⟩
  · cases h1
  · rcases outcome u with ⟨k, e, g1, -⟩ | ⟨-, -, -, -, -, g4, -⟩
    · rw [h3] at g1; cases g1
    · rw [← h2] at g4
      cases u <;> simp [RType.typeName] at g4
      rename_i us b
      simp only [aliased, RType.union.injEq, aliasedAll_eq] at h2
      obtain ⟨rfl, rfl⟩ := h2
      exact optionalForm_aliased (h us a h1)

theorem tidy_aliased {t : RType} (h : Tidy t) : Tidy (aliased t) := ⟨canonical_aliased h.1, aliased_nodup h.2⟩

/-- What `to_dict` needs to know about the type besides its form. -/
structure Plain (t : RType) : Prop where
  node : ∀ u, Sub u t → NodeOK u
  real : RealType t
  bounded : Bounded t
  keys : PlainKeys t

theorem aliasesOK_of {t : RType} (h : ∀ u, Sub u t → NodeOK u) : AliasesOK t := by
  intro u hu hp
  have := (h u hu).2.2
  simpa [hp] using this

theorem Plain.child {t c : RType} (h : Plain t) (hc : c ∈ children t) : Plain c :=
  ⟨fun u hu => h.node u (hu.trans (.child hc)), h.real.child hc, bounded_child h.bounded hc,
    fun u hu => h.keys u (hu.trans (.child hc))⟩

theorem settled_aliased {t : RType} (h : Plain t) (hd : definedAliases t = []) : Settled (aliased t) :=
  ⟨aliased_builtin, (defined_aliased t).trans hd, bounded_aliased t h.bounded, aliased_real h.real,
    aliased_plain h.keys, aliased_aliases (aliasesOK_of h.node)⟩

/-- What is written does not depend on the nested types themselves. -/
theorem written_aliased {t : RType} (h : children t ≠ []) (vs : List PyVal) : written t vs = written (aliased t) vs := by
  cases t <;> simp [children] at h <;> rfl

theorem written_node {t : RType} (vs : List PyVal) (h : NodeOK t) : ∃ n kw, written t vs = node n kw := by
  cases t <;> try exact ⟨_, _, rfl⟩
  have := h.2.2
  simp only [RType.isProxy, if_true, RType.attrs] at this
  obtain ⟨n, hn, -⟩ := this
  exact ⟨n, _, by simp only [written, hn]; rfl⟩

theorem written_alias {t : RType} {vs : List PyVal} {n : String} {kw : Dict} (h : NodeOK t)
    (hw : written t vs = node n kw) (ha : (Dict.getD kw "alias" .none).isNone = false) : t.attrs.alias ≠ .none := by
  intro e
  cases t <;> simp only [written, node, List.cons.injEq] at hw <;> obtain ⟨-, rfl⟩ := hw <;>
    simp only [RType.attrs] at e <;>
    simp [attrDict, Dict.getD, Dict.get?_cons, e, PyVal.isNone] at ha
  rename_i r a
  have : Dict.get? a.extra "alias" = .none := Dict.get?_eq_none_iff.mpr (NodeOK.free h (by simp [reservedKeys]))
  simp [this] at ha

theorem doc_reference {k : String} {e : RType} (h : (k, e) ∈ builtinAliases) :
    Doc (.dict [("type", .str k)]) (reference k) :=
  .proxy (kw := []) ⟨by simp [Dict.keys], by simp [Dict.keys]⟩
    ⟨rfl, rfl, rfl, rfl⟩ (by rw [coreNames_iff]; exact builtins_notCore _ h)
    (by simp [Dict.keys]) (by simp [Dict.keys]) rfl

theorem aliasDict_keep {d : Dict} {reg : Registry} (h : (Dict.getD d "alias" .none).isNone = false) :
    aliasDict d reg = .ok (d, reg) := by
  rw [aliasDict_eq]; unfold aliasStep; simp [h]

/-- `to_dict` with aliases writes a document for the type with references to built-in types. -/
theorem toDict_alias (clean : Bool) (t : RType) (h : Plain t) (ht : clean = true → Tidy t)
    (hd : ∀ c ∈ children t, definedAliases c = []) :
    ∃ v, toDict clean true t = .ok v ∧ Doc v (aliased t) := by
  obtain ⟨vs, h1, h2⟩ := toDictList_of (clean := clean) (alias := true) aliased (children t) (fun c hc => by
    have := size_child hc
    exact toDict_alias clean c (h.child hc) (fun e => (ht e).sub (.child hc))
      (fun u hu => defined_children (hd c hc) hu))
  have key : ∃ d', (·.1) <$> aliasDict (written t vs) newRegistry = .ok d' ∧ Doc (.dict d') (aliased t) := by
    by_cases hc : children t = []
    · -- nothing is nested
      have hD : Doc (.dict (written t vs)) t := doc_written (h.node _ .refl) h.real (by
        rw [hc] at h2 ⊢; exact h2)
      obtain ⟨n, kw, hw⟩ := written_node vs (h.node _ .refl)
      rw [hw] at hD ⊢
      by_cases hal : (Dict.getD (node n kw) "alias" .none).isNone = true
      · have hdef : definedAliases t = [] := by
          have : t.isProxy = true ∨ t.attrs.alias = .none := by
            cases t <;> simp only [written, node, List.cons.injEq] at hw <;> obtain ⟨-, rfl⟩ := hw <;>
              first
              | exact .inl rfl
              | (right
                 simp only [attrDict, Dict.getD, Dict.get?_cons, List.cons_append, String.reduceEq, if_false, if_true,
                   Option.getD_some] at hal
                 exact isNone_iff.mp hal)
          cases t <;> simp only [children, List.cons_ne_self, reduceCtorEq] at hc <;>
            simp only [RType.isProxy, RType.attrs, Bool.false_eq_true, false_or, or_false, reduceCtorEq] at this <;>
            simp [definedAliases, own, this, hc, definedAliasesAll]
        obtain ⟨d', g1, g2⟩ := alias_step hD hdef h.bounded h.real (aliasesOK_of h.node)
          (((hD.nests) (by rw [hc]; simp) h.keys).1 n kw rfl)
        refine ⟨d', by rw [g1]; rfl, ?_⟩
        rcases outcome t with ⟨k, e, b1, b2, -, b4⟩ | ⟨b1, -, -, -, -, -, b6⟩
        · rw [b1] at g2
          simp only at g2
          rw [b4]
          rcases g2 with rfl | ⟨-, g2⟩
          · exact doc_reference b2
          · have := written_alias (h.node _ .refl) hw g2
            rw [builtinFor_alias this] at b1; cases b1
        · rw [b1] at g2
          rw [b6 hc]
          exact g2
      · simp only [Bool.not_eq_true] at hal
        refine ⟨_, by rw [aliasDict_keep hal]; rfl, ?_⟩
        have hne : t.attrs.alias ≠ .none := written_alias (h.node _ .refl) hw (by
          unfold Dict.getD at hal ⊢
          rw [Dict.get?_cons_ne _ _ (by decide)] at hal
          exact hal)
        rcases outcome t with ⟨k, e, b1, b2, -, b4⟩ | ⟨b1, -, -, -, -, -, b6⟩
        · rw [builtinFor_alias hne] at b1; cases b1
        · rw [b6 hc]; exact hD
    · -- nested types
      have e1 : children (aliased t) = (children t).map aliased := by
        rcases outcome t with ⟨k, e, -, -, b3, -⟩ | ⟨-, b2, -⟩
        · exact absurd b3 hc
        · exact b2
      rw [written_aliased hc]
      have hok := aliased_ok h.node
      have hD : Doc (.dict (written (aliased t) vs)) (aliased t) := doc_written (hok _ .refl) (aliased_real h.real)
        (by rw [e1]; exact h2)
      obtain ⟨n, kw, hw⟩ := written_node vs (hok _ .refl)
      rw [hw] at hD ⊢
      by_cases hal : (Dict.getD (node n kw) "alias" .none).isNone = true
      · have hdef : definedAliases (aliased t) = [] := by
          have : t.attrs.alias = .none := by
            rw [← written_aliased hc] at hw
            cases t <;> simp only [children, not_true_eq_false, ne_eq] at hc <;>
              simp only [written, node, List.cons.injEq] at hw <;> obtain ⟨-, rfl⟩ := hw <;>
              first
              | exact absurd rfl hc
              | (simp only [attrDict, Dict.getD, Dict.get?_cons, List.cons_append, String.reduceEq, if_false, if_true,
                   Option.getD_some] at hal
                 exact isNone_iff.mp hal)
          rw [defined_aliased]
          cases t <;> simp only [children, List.mem_cons, List.not_mem_nil, or_false, forall_eq_or_imp, forall_eq,
            ← definedAll_nil] at hd hc <;> simp only [RType.attrs] at this <;>
            simp_all [definedAliases, own]
        obtain ⟨d', g1, g2⟩ := alias_step hD hdef (bounded_aliased t h.bounded) (aliased_real h.real)
          (aliased_aliases (aliasesOK_of h.node))
          (((hD.nests) (by
            rw [e1]
            intro c hm
            obtain ⟨c, hm', rfl⟩ := List.mem_map.mp hm
            exact settled_aliased (h.child hm') (hd c hm')) (aliased_plain h.keys)).1 n kw rfl)
        rw [aliased_builtin _ .refl] at g2
        exact ⟨d', by rw [g1]; rfl, g2⟩
      · simp only [Bool.not_eq_true] at hal
        exact ⟨_, by rw [aliasDict_keep hal]; rfl, hD⟩
  obtain ⟨d', k1, k2⟩ := key
  rw [toDict_written _ _ _ (h.node _ .refl), h1]
  simp only [bind, Except.bind, postProcess, if_true, k1]
  cases clean with
  | false => exact ⟨_, rfl, k2⟩
  | true => exact k2.clean (tidy_aliased (ht rfl))
termination_by sizeOf t

end Recap
