import Verif.CompactStable
import Verif.CompactNestedSpec

/-! # Aliases of nested types in the default form: lemmas for C03 and C04 -/

set_option autoImplicit false

namespace Recap.Nested

open Recap Spec

/-! ## The number of type objects -/

mutual
def nodes : RType → Nat
  | .list t _ _ _ => nodes t + 1
  | .map k v _ => nodes k + nodes v + 1
  | .struct fs _ => nodesAll fs + 1
  | .union ts _ => nodesAll ts + 1
  | _ => 1
def nodesAll : List RType → Nat
  | [] => 0
  | t :: ts => nodes t + nodesAll ts
end

mutual
theorem nodes_eq : ∀ t u : RType, RType.pyEq t u = true → nodes t = nodes u
  | .list t _ _ _, u, h => by
    cases u <;> simp only [RType.pyEq, Bool.false_eq_true, Bool.and_eq_true] at h
    simp only [nodes, nodes_eq t _ h.2.1.1]
  | .map k v _, u, h => by
    cases u <;> simp only [RType.pyEq, Bool.false_eq_true, Bool.and_eq_true] at h
    simp only [nodes, nodes_eq k _ h.2.1, nodes_eq v _ h.2.2]
  | .struct fs _, u, h => by
    cases u <;> simp only [RType.pyEq, Bool.false_eq_true, Bool.and_eq_true] at h
    simp only [nodes, nodesAll_eq fs _ h.2]
  | .union fs _, u, h => by
    cases u <;> simp only [RType.pyEq, Bool.false_eq_true, Bool.and_eq_true] at h
    simp only [nodes, nodesAll_eq fs _ h.2]
  | .null _, u, h | .bool _, u, h | .int _ _ _, u, h | .float _ _, u, h | .string _ _ _, u, h
  | .bytes _ _ _, u, h | .enum _ _, u, h | .proxy _ _, u, h => by
    cases u <;> simp only [RType.pyEq, Bool.false_eq_true] at h <;> rfl
theorem nodesAll_eq : ∀ ts us : List RType, RType.pyEqList ts us = true → nodesAll ts = nodesAll us
  | [], [], _ => rfl
  | [], _ :: _, h => by simp [RType.pyEqList] at h
  | _ :: _, [], h => by simp [RType.pyEqList] at h
  | t :: ts, u :: us, h => by
    simp only [RType.pyEqList, Bool.and_eq_true] at h
    simp only [nodesAll, nodes_eq t u h.1, nodesAll_eq ts us h.2]
end

theorem nodes_mem {t : RType} {ts : List RType} (h : t ∈ ts) : nodes t ≤ nodesAll ts := by
  induction ts with
  | nil => cases h
  | cons u us ih =>
    rcases List.mem_cons.mp h with rfl | h
    · simp only [nodesAll]; omega
    · have := ih h; simp only [nodesAll]; omega

theorem nodes_child {t c : RType} (h : c ∈ children t) : nodes c < nodes t := by
  cases t <;> simp only [children, List.not_mem_nil, List.mem_cons, or_false] at h <;> simp only [nodes]
  · subst h; omega
  · rcases h with rfl | rfl <;> omega
  · have := nodes_mem h; omega
  · have := nodes_mem h; omega

theorem nodes_sub {t u : RType} (h : Sub u t) : nodes u ≤ nodes t := by
  rcases sub_iff.mp h with rfl | ⟨c, hc, hs⟩
  · exact Nat.le_refl _
  · have := size_child hc
    have := nodes_sub hs
    have := nodes_child hc
    omega
termination_by sizeOf t

theorem nodes_definition (t : RType) : nodes (definition t) = nodes t := by cases t <;> rfl

/-! ## What is registered -/

mutual
theorem pyEq_deepcopy (reg : Registry) : ∀ t u : RType, RType.pyEq t u = true → RType.pyEq (t.deepcopy reg) u = true
  | .list t _ _ _, u, h => by
    cases u <;> simp only [RType.pyEq, Bool.false_eq_true, Bool.and_eq_true] at h
    simp only [RType.deepcopy, RType.pyEq, h, pyEq_deepcopy reg t _ h.2.1.1, Bool.and_self]
  | .map k v _, u, h => by
    cases u <;> simp only [RType.pyEq, Bool.false_eq_true, Bool.and_eq_true] at h
    simp only [RType.deepcopy, RType.pyEq, h, pyEq_deepcopy reg k _ h.2.1, pyEq_deepcopy reg v _ h.2.2, Bool.and_self]
  | .struct fs _, u, h => by
    cases u <;> simp only [RType.pyEq, Bool.false_eq_true, Bool.and_eq_true] at h
    simp only [RType.deepcopy, RType.pyEq, h, pyEq_deepcopyAll reg fs _ h.2, Bool.and_self]
  | .union fs _, u, h => by
    cases u <;> simp only [RType.pyEq, Bool.false_eq_true, Bool.and_eq_true] at h
    simp only [RType.deepcopy, RType.pyEq, h, pyEq_deepcopyAll reg fs _ h.2, Bool.and_self]
  | .proxy .none _, u, h => by
    cases u <;> simp only [RType.pyEq, Bool.false_eq_true] at h
    simpa only [RType.deepcopy, RType.pyEq] using h
  | .proxy (some _) _, u, h | .null _, u, h | .bool _, u, h | .int _ _ _, u, h | .float _ _, u, h
  | .string _ _ _, u, h | .bytes _ _ _, u, h | .enum _ _, u, h => by
    simpa only [RType.deepcopy] using h
theorem pyEq_deepcopyAll (reg : Registry) : ∀ ts us : List RType, RType.pyEqList ts us = true →
    RType.pyEqList (RType.deepcopyList reg ts) us = true
  | [], [], _ => by simp [RType.deepcopyList, RType.pyEqList]
  | [], _ :: _, h => by simp [RType.pyEqList] at h
  | _ :: _, [], h => by simp [RType.pyEqList] at h
  | t :: ts, u :: us, h => by
    simp only [RType.pyEqList, Bool.and_eq_true] at h
    simp only [RType.deepcopyList, RType.pyEqList, pyEq_deepcopy reg t u h.1, pyEq_deepcopyAll reg ts us h.2,
      Bool.and_self]
end

theorem pyEq_withAttrs {t u : RType} {a b : Attrs} (h : RType.pyEq t u = true) (ha : RType.attrsEq a b = true) :
    RType.pyEq (t.withAttrs a) (u.withAttrs b) = true := by
  cases t <;> cases u <;> simp only [RType.pyEq, Bool.false_eq_true, Bool.and_eq_true] at h <;>
    simp only [RType.withAttrs, RType.pyEq, ha, h, Bool.and_self]

theorem attrsEq_definition {a b : Attrs} (ha : RType.attrsEq a b = true) (n1 : a.extra.keys.Nodup)
    (n2 : b.extra.keys.Nodup) : RType.attrsEq
      { a with alias := .none, doc := .none, extra := Dict.erase a.extra "default" }
      { b with alias := .none, doc := .none, extra := Dict.erase b.extra "default" } = true := by
  unfold RType.attrsEq at ha ⊢
  simp only [Bool.and_eq_true] at ha ⊢
  refine ⟨⟨⟨ha.1.1.1, by decide⟩, by decide⟩, ?_⟩
  have hk := (dictEq_iff n1 n2).mp ha.2
  rw [dictEq_iff (by rw [Dict.keys_erase]; exact n1.filter _) (by rw [Dict.keys_erase]; exact n2.filter _)]
  intro k
  by_cases hd : "default" = k
  · subst hd
    rw [Dict.get?_erase, Dict.get?_erase]; simp [OptEq]
  · rw [Dict.get?_erase_ne _ hd, Dict.get?_erase_ne _ hd]; exact hk k

theorem filter_erase (d : Dict) : List.filter (fun kv => kv.1 ≠ "default") d = Dict.erase d "default" := by
  unfold Dict.erase
  congr 1; funext kv; by_cases g : kv.1 = "default" <;> simp [g]

/-- Equal types have equal definitions. -/
theorem pyEq_definition {t u : RType} (h : RType.pyEq t u = true) (ht : RealType t) (hu : RealType u) :
    RType.pyEq (definition t) (definition u) = true := by
  unfold definition
  rw [filter_erase, filter_erase]
  exact pyEq_withAttrs h (attrsEq_definition (attrs_of_pyEq h) ht.attrs.2.2.2.1 hu.attrs.2.2.2.1)

/-- Equal types are stored as equal definitions. -/
theorem pyEq_stored {t u : RType} (reg : Registry) (h : RType.pyEq t u = true) (ht : RealType t) (hu : RealType u) :
    RType.pyEq (Registry.stored reg t) (definition u) = true := by
  unfold definition
  rw [filter_erase]
  exact pyEq_withAttrs (pyEq_deepcopy reg t u h)
    (attrsEq_definition (attrs_of_pyEq h) ht.attrs.2.2.2.1 hu.attrs.2.2.2.1)

theorem entries_finish {t t' : RType} {reg reg' : Registry} (h : finish t reg = .ok (t', reg')) :
    ∀ e ∈ reg', e ∈ reg ∨ t.isProxy = false ∧ t.attrs.alias ≠ .none ∧ ∃ r, e.2 = Registry.stored r t := by
  unfold finish at h
  obtain ⟨_, _, h⟩ := ok_bind h
  split at h
  · rename_i hc
    simp only [Bool.and_eq_true, Bool.not_eq_true'] at hc
    obtain ⟨r1, h1, h⟩ := ok_bind h
    simp only [pure, Except.pure] at h; cases h
    unfold Registry.registerAlias at h1
    split at h1
    · cases h1
    · rename_i s hs
      split at h1
      · cases h1
      · split at h1
        · cases h1
        · cases h1
          intro e he
          rcases List.mem_append.mp he with he | he
          · exact .inl he
          · simp only [List.mem_singleton] at he
            subst he
            exact .inr ⟨hc.2, by rw [hs]; simp, _, rfl⟩
    · cases h1
  · simp only [pure, Except.pure] at h; cases h
    exact fun e he => .inl he

mutual
theorem entries : ∀ {reg t reg'}, Built reg t reg' → ∀ e ∈ reg', e ∈ reg ∨
    ∃ x r, Sub x t ∧ HasAlias x ∧ e.2 = Registry.stored r x
  | _, _, _, .leaf _ h => fun e he => by
    rcases entries_finish h e he with h | ⟨h1, h2, r, h3⟩
    · exact .inl h
    · exact .inr ⟨_, r, .refl, ⟨h1, h2⟩, h3⟩
  | _, _, _, .list h1 h => fun e he => by
    rcases entries_finish h e he with h | ⟨g1, g2, r, g3⟩
    · rcases entries h1 e h with h | ⟨x, r, k1, k2⟩
      · exact .inl h
      · exact .inr ⟨x, r, .list k1, k2⟩
    · exact .inr ⟨_, r, .refl, ⟨g1, g2⟩, g3⟩
  | _, _, _, .map h1 h2 h => fun e he => by
    rcases entries_finish h e he with h | ⟨g1, g2, r, g3⟩
    · rcases entries h2 e h with h | ⟨x, r, k1, k2⟩
      · rcases entries h1 e h with h | ⟨x, r, k1, k2⟩
        · exact .inl h
        · exact .inr ⟨x, r, .key k1, k2⟩
      · exact .inr ⟨x, r, .value k1, k2⟩
    · exact .inr ⟨_, r, .refl, ⟨g1, g2⟩, g3⟩
  | _, _, _, .struct h1 h => fun e he => by
    rcases entries_finish h e he with h | ⟨g1, g2, r, g3⟩
    · rcases entriesAll h1 e h with h | ⟨x, r, c, k0, k1, k2⟩
      · exact .inl h
      · exact .inr ⟨x, r, .field k0 k1, k2⟩
    · exact .inr ⟨_, r, .refl, ⟨g1, g2⟩, g3⟩
  | _, _, _, .union h1 h => fun e he => by
    rcases entries_finish h e he with h | ⟨g1, g2, r, g3⟩
    · rcases entriesAll h1 e h with h | ⟨x, r, c, k0, k1, k2⟩
      · exact .inl h
      · exact .inr ⟨x, r, .member k0 k1, k2⟩
    · exact .inr ⟨_, r, .refl, ⟨g1, g2⟩, g3⟩
theorem entriesAll : ∀ {reg ts reg'}, BuiltAll reg ts reg' → ∀ e ∈ reg', e ∈ reg ∨
    ∃ x r, ∃ c ∈ ts, Sub x c ∧ HasAlias x ∧ e.2 = Registry.stored r x
  | _, _, _, .nil => fun e he => .inl he
  | _, _, _, .cons h1 h2 => fun e he => by
    rcases entriesAll h2 e he with h | ⟨x, r, c, k0, k1, k2⟩
    · rcases entries h1 e h with h | ⟨x, r, k1, k2⟩
      · exact .inl h
      · exact .inr ⟨x, r, _, by simp, k1, k2⟩
    · exact .inr ⟨x, r, c, by simp [k0], k1, k2⟩
end

theorem matchAlias_none {t : RType} {reg : Registry} : matchAlias t reg = .none ↔ ∀ e ∈ reg, RType.pyEq t e.2 = false := by
  rw [matchAlias_eq]
  simp

/-- A type is not replaced after another one has been read. -/
theorem quiet {v : PyVal} {t t' w w' : RType} {reg : Registry} (hf : fromDict v newRegistry = .ok (t', reg))
    (he : RType.pyEq t' t = true) (ht' : RealType t') (ht : RealType t) (hw : RealType w) (hb : builtinFor w = .none)
    (hs : ∀ s, Sub s t → HasAlias s → RType.pyEq w (definition s) = false)
    (hw' : RealType w') (hww : RType.pyEq w' w = true) : matchAlias w' reg = .none := by
  rw [matchAlias_none]
  intro e hm
  cases g : RType.pyEq w' e.2 with
  | false => rfl
  | true =>
    exfalso
    have g' := RType.pyEq_trans _ _ _ (RType.pyEq_symm _ _ hw' hw hww) g
    rcases entries (built_of_fromDict hf) e hm with hm | ⟨x, r, h1, h2, h3⟩
    · unfold builtinFor at hb
      simp only [Option.map_eq_none_iff, List.find?_eq_none] at hb
      exact hb e hm g'
    · obtain ⟨y, k1, k2⟩ := pyEq_sub he h1
      have hx : RealType x := realType_sub ht' h1
      have hy : RealType y := realType_sub ht k1
      rw [h3] at g'
      have := RType.pyEq_trans _ _ _ g' (pyEq_stored r k2 hx hy)
      rw [hs y k1 ⟨(isProxy_of_typeName (typeName_of_pyEq k2)).symm.trans h2.1, fun e => h2.2 ?_⟩] at this
      · cases this
      · have ha := attrs_of_pyEq k2
        unfold RType.attrsEq at ha
        simp only [Bool.and_eq_true] at ha
        exact (pyEq_none_iff ha.1.1.2).mpr e

/-! ## Documents whose nested types are not to be replaced -/

/-- No part of the type is replaced with this registry, and it defines no aliases. -/
structure Settled (reg : Registry) (t : RType) : Prop where
  quiet : ∀ u, Sub u t → ∀ u', RealType u' → RType.pyEq u' u = true → matchAlias u' reg = .none
  defined : definedAliases t = []
  bounded : Bounded t
  real : RealType t
  plain : PlainKeys t
  aliases : AliasesOK t

theorem Settled.child {reg : Registry} {t c : RType} (h : Settled reg t) (hc : c ∈ children t) : Settled reg c :=
  have hs : Sub c t := .child hc
  ⟨fun u hu => h.quiet u (hu.trans hs), defined_children h.defined hc, bounded_child h.bounded hc,
    h.real.child hc, fun u hu => h.plain u (hu.trans hs), h.aliases.sub hs⟩

/-- What `alias_dict` makes of the nested types: an equivalent document with the same keys. -/
def Nest (reg : Registry) (n : String) (kw : Dict) (t : RType) : Prop :=
  ∃ kw', aliasKeys aliasDict nestedKeys (node n kw) reg = .ok (node n kw', reg) ∧
    kw'.keys = kw.keys ∧ Doc (.dict (node n kw')) t

/-- The document as a whole. -/
theorem step {reg : Registry} {n : String} {kw : Dict} {t : RType} (h : Doc (.dict (node n kw)) t)
    (hv : Real (.dict (node n kw))) (hs : Settled reg t) (hn : Nest reg n kw t) :
    ∃ d', aliasDict (node n kw) reg = .ok (d', reg) ∧ Doc (.dict d') t := by
  rw [aliasDict_eq]
  unfold aliasStep
  by_cases hal : (Dict.getD (node n kw) "alias" .none).isNone = true
  · obtain ⟨t', reg', g1, g2, g3, g4, g5⟩ := h.read reg hs.bounded hs.real hs.aliases (by rw [hs.defined]; exact .nil)
      (fun s _ => by rw [hs.defined]; simp)
    have e : reg' = reg := (built_of_fromDict g1).same (g3.trans hs.defined)
    subst e
    have hr := (C71_parsed_types_well_formed _ hv _ _ _ g1).2
    simp only [hal, Bool.not_true, Bool.false_eq_true, if_false, g1, bind, Except.bind, hs.quiet t .refl t' hr g2]
    obtain ⟨kw', e1, -, e3⟩ := hn
    exact ⟨_, e1, e3⟩
  · simp only [hal, Bool.not_false, if_true]
    exact ⟨_, rfl, h⟩

/-- What `alias_dict` does with a document inside another one. -/
theorem value {reg : Registry} {v : PyVal} {t : RType} (h : Doc v t) (hv : Real v) (hs : Settled reg t)
    (h1 : ∀ n kw, v = .dict (node n kw) → Nest reg n kw t)
    (h2 : ∀ xs, v = .list xs → ∃ ys, aliasAll aliasDict xs reg = .ok (ys, reg) ∧ Doc (.list ys) t) :
    (∃ v', aliasValue aliasDict v reg = .ok (v', reg) ∧ Doc v' t) ∧
    ∃ v', aliasElem aliasDict v reg = .ok (v', reg) ∧ Doc v' t := by
  cases v with
  | dict d =>
    obtain ⟨n, kw, rfl⟩ := h.isNode
    obtain ⟨d', g1, g2⟩ := step h hv hs (h1 n kw rfl)
    refine ⟨⟨.dict d', ?_, g2⟩, .dict d', ?_, g2⟩
    · simp only [aliasValue, g1]; rfl
    · simp only [aliasElem, g1]; rfl
  | list xs =>
    obtain ⟨ys, g1, g2⟩ := h2 xs rfl
    refine ⟨⟨.list ys, ?_, g2⟩, .list xs, rfl, h⟩
    simp only [aliasValue, g1]; rfl
  | _ => exact ⟨⟨_, rfl, h⟩, _, rfl, h⟩

theorem nest_leaf {reg : Registry} {n : String} {kw : Dict} {t : RType} (hd : Doc (.dict (node n kw)) t)
    (h : ∀ k ∈ nestedKeys, k ∉ kw.keys) : Nest reg n kw t :=
  ⟨kw, aliasKeys_none (fun k hk => by rw [get?_node hk, Dict.get?_eq_none_iff.mpr (h k hk)]), rfl, hd⟩

/-- The conclusion for one document. -/
def Nests (reg : Registry) (v : PyVal) (t : RType) : Prop :=
  Real v → (∀ c ∈ children t, Settled reg c) → PlainKeys t →
    (∀ n kw, v = .dict (node n kw) → Nest reg n kw t) ∧
    ∀ xs, v = .list xs → ∃ ys, aliasAll aliasDict xs reg = .ok (ys, reg) ∧ Doc (.list ys) t

theorem Nests.both {reg : Registry} {v : PyVal} {t : RType} (h : Nests reg v t) (hd : Doc v t) (hv : Real v)
    (hs : Settled reg t) : (∃ v', aliasValue aliasDict v reg = .ok (v', reg) ∧ Doc v' t) ∧
    ∃ v', aliasElem aliasDict v reg = .ok (v', reg) ∧ Doc v' t := by
  obtain ⟨h1, h2⟩ := h hv (fun c hc => hs.child hc) hs.plain
  exact value hd hv hs h1 h2

theorem nests_of {reg : Registry} {n : String} {kw : Dict} {t : RType}
    (h : RealDict (node n kw) → (∀ c ∈ children t, Settled reg c) → PlainKeys t → Nest reg n kw t) :
    Nests reg (.dict (node n kw)) t := by
  intro hv hc hp
  refine ⟨fun n' kw' e => ?_, fun xs e => by cases e⟩
  injection e with e
  injection e with e1 e2
  injection e1 with _ e1
  injection e1 with e1
  subst e1 e2
  exact h hv hc hp

theorem real_nested {n : String} {kw : Dict} {k : String} {v : PyVal} (h : RealDict (node n kw)) (hk : k ∈ nestedKeys)
    (hg : Dict.get? kw k = some v) : Real v :=
  h.get? (k := k) (by rw [get?_node hk, hg])

theorem real_left {n : String} {kw es : Dict} (h : RealDict (node n (kw ++ es))) : Real (.dict (node n kw)) := by
  have h' := realDict_iff.mp h
  refine realDict_iff.mpr ⟨h'.1.sublist ?_, fun kv hkv => h'.2 kv ?_⟩
  · exact (List.sublist_append_left (node n kw) es).map _
  · exact List.mem_append_left es (show kv ∈ node n kw from hkv)

mutual
theorem nests {reg : Registry} : ∀ {v : PyVal} {t : RType}, Doc v t → Nests reg v t
  | _, _, .short h => fun _ _ _ => ⟨fun _ _ e => PyVal.noConfusion e, fun _ e => PyVal.noConfusion e⟩
  | _, _, .shortUnion (xs := xs) h => fun hv hc hp => by
    refine ⟨fun _ _ e => PyVal.noConfusion e, fun xs' e => ?_⟩
    cases e
    obtain ⟨kw', e1, -, e3⟩ := (nests h (realDict_union hv) hc hp).1 "union" [("types", .list xs)] rfl
    rw [skip_node (by simp) (by simp [Dict.keys]), skip_node (by simp) (by simp [Dict.keys]),
      skip_node (by simp) (by simp [Dict.keys])] at e1
    cases g : aliasAll aliasDict xs reg with
    | error e => simp [aliasKeys, Dict.get?, node, g, bind, Except.bind] at e1
    | ok r =>
      obtain ⟨ys, reg⟩ := r
      rw [value_node (by simp) (by simp [Dict.get?]) (aliasValue_list g)] at e1
      simp only [aliasKeys, Dict.set, if_true, Except.ok.injEq, Prod.mk.injEq, node, List.cons.injEq, true_and] at e1
      obtain ⟨rfl, rfl⟩ := e1
      exact ⟨ys, rfl, .shortUnion e3⟩
  | _, _, .null hk ha => nests_of fun _ _ hp => nest_leaf (.null hk ha) (fun _ hm => plain_free ha hp hm (by simp))
  | _, _, .bool hk ha => nests_of fun _ _ hp => nest_leaf (.bool hk ha) (fun _ hm => plain_free ha hp hm (by simp))
  | _, _, .int hk ha h1 h2 => nests_of fun _ _ hp => nest_leaf (.int hk ha h1 h2)
      (fun _ hm => plain_free ha hp hm (by simp at hm ⊢; rcases hm with rfl | rfl | rfl | rfl <;> simp))
  | _, _, .float hk ha h1 => nests_of fun _ _ hp => nest_leaf (.float hk ha h1)
      (fun _ hm => plain_free ha hp hm (by simp at hm ⊢; rcases hm with rfl | rfl | rfl | rfl <;> simp))
  | _, _, .string hk ha h1 h2 h3 => nests_of fun _ _ hp => nest_leaf (.string hk ha h1 h2 h3)
      (fun _ hm => plain_free ha hp hm (by simp at hm ⊢; rcases hm with rfl | rfl | rfl | rfl <;> simp))
  | _, _, .bytes hk ha h1 h2 h3 => nests_of fun _ _ hp => nest_leaf (.bytes hk ha h1 h2 h3)
      (fun _ hm => plain_free ha hp hm (by simp at hm ⊢; rcases hm with rfl | rfl | rfl | rfl <;> simp))
  | _, _, .enum hk ha h1 => nests_of fun _ _ hp => nest_leaf (.enum hk ha h1)
      (fun _ hm => plain_free ha hp hm (by simp at hm ⊢; rcases hm with rfl | rfl | rfl | rfl <;> simp))
  | _, _, .proxy (r := r) (a := a) hk ha h1 h2 h3 h4 => nests_of fun _ _ hp => nest_leaf (.proxy hk ha h1 h2 h3 h4)
      (fun k hm hk => hp (.proxy r a) .refl k
        (ha.key hk (by simp) (by simp at hm ⊢; rcases hm with rfl | rfl | rfl | rfl <;> simp)) hm)
  | _, _, .list (kw := kw) hk ha hg hd hl hw => nests_of fun hv hc hp => by
    obtain ⟨v', g1, g2⟩ := ((nests hd).both hd (real_nested hv (by simp) hg) (hc _ (by simp [children]))).1
    have e := set_keys (v := v') hg
    have free : ∀ k ∈ ["keys", "fields", "types"], k ∉ kw.keys := fun k hm =>
      plain_free ha hp (by simp at hm ⊢; grind) (by simp at hm ⊢; rcases hm with rfl | rfl | rfl <;> simp)
    refine ⟨kw.set "values" v', ?_, e, .list (hk.set _ (by simp)) (ha.set _ (by simp) (by simp))
      (Dict.get?_set_self _ _ _) g2 (by rw [getD_set_ne (by decide)]; exact hl) (flag_set hw (by decide))⟩
    rw [value_node (by simp) hg g1]
    exact aliasKeys_none fun k hm => by
      rw [get?_node (by simp at hm ⊢; grind), Dict.get?_eq_none_iff, e]; exact free k hm
  | _, _, .map (kw := kw) hk ha hg1 hg2 hd1 hd2 => nests_of fun hv hc hp => by
    obtain ⟨k', g1, g2⟩ := ((nests hd1).both hd1 (real_nested hv (by simp) hg1) (hc _ (by simp [children]))).1
    obtain ⟨v', g3, g4⟩ := ((nests hd2).both hd2 (real_nested hv (by simp) hg2) (hc _ (by simp [children]))).1
    have hg1' : Dict.get? (kw.set "values" v') "keys" = some _ := (Dict.get?_set_ne _ _ (by decide)).trans hg1
    have e : ((kw.set "values" v').set "keys" k').keys = kw.keys := (set_keys hg1').trans (set_keys hg2)
    have free : ∀ k ∈ ["fields", "types"], k ∉ kw.keys := fun k hm =>
      plain_free ha hp (by simp at hm ⊢; grind) (by simp at hm ⊢; rcases hm with rfl | rfl <;> simp)
    refine ⟨(kw.set "values" v').set "keys" k', ?_, e, .map ((hk.set _ (by simp)).set _ (by simp))
      ((ha.set _ (by simp) (by simp)).set _ (by simp) (by simp)) (Dict.get?_set_self _ _ _)
      (by rw [Dict.get?_set_ne _ _ (by decide)]; exact Dict.get?_set_self _ _ _) g2 g4⟩
    rw [value_node (by simp) hg2 g3, value_node (by simp) hg1' g1]
    exact aliasKeys_none fun k hm => by
      rw [get?_node (by simp at hm ⊢; grind), Dict.get?_eq_none_iff, e]; exact free k hm
  | _, _, .struct (kw := kw) hk ha hg hd => nests_of fun hv hc hp => by
    obtain ⟨ys, g1, g2⟩ := nestsAll hd (real_list.mp (real_nested hv (by simp) hg)) hc
    have e := set_keys (v := .list ys) hg
    have free : ∀ k ∈ ["values", "keys", "types"], k ∉ kw.keys := fun k hm =>
      plain_free ha hp (by simp at hm ⊢; grind) (by simp at hm ⊢; rcases hm with rfl | rfl | rfl <;> simp)
    refine ⟨kw.set "fields" (.list ys), ?_, e, .struct (hk.set _ (by simp)) (ha.set _ (by simp) (by simp))
      (Dict.get?_set_self _ _ _) g2⟩
    rw [skip_node (by simp) (free _ (by simp)), skip_node (by simp) (free _ (by simp)),
      value_node (by simp) hg (aliasValue_list g1)]
    exact aliasKeys_none fun k hm => by
      rw [get?_node (by simp at hm ⊢; grind), Dict.get?_eq_none_iff, e]; exact free k (by simp at hm ⊢; grind)
  | _, _, .union (kw := kw) hk ha hg hd => nests_of fun hv hc hp => by
    obtain ⟨ys, g1, g2⟩ := nestsAll hd (real_list.mp (real_nested hv (by simp) hg)) hc
    have e := set_keys (v := .list ys) hg
    have free : ∀ k ∈ ["values", "keys", "fields"], k ∉ kw.keys := fun k hm =>
      plain_free ha hp (by simp at hm ⊢; grind) (by simp at hm ⊢; rcases hm with rfl | rfl | rfl <;> simp)
    refine ⟨kw.set "types" (.list ys), ?_, e, .union (hk.set _ (by simp)) (ha.set _ (by simp) (by simp))
      (Dict.get?_set_self _ _ _) g2⟩
    rw [skip_node (by simp) (free _ (by simp)), skip_node (by simp) (free _ (by simp)),
      skip_node (by simp) (free _ (by simp)), value_node (by simp) hg (aliasValue_list g1)]
    rfl
  | _, _, .optional (n := n) (kw := kw) (es := es) (u := u) hd hu ht hk hs => nests_of fun hv hc hp => by
    have hset : Settled reg u := hc u (by simp [children])
    obtain ⟨kw', e1, e2, e3⟩ := (nests hd (real_left hv) (fun c hc => hset.child hc) hset.plain).1 n kw rfl
    refine ⟨kw' ++ es, ?_, by rw [Dict.keys_append, Dict.keys_append, e2],
      .optional e3 hu (by rw [e2]; exact ht) (fun k hm => by rw [e2]; exact hk k hm) hs⟩
    exact aliasKeys_append (d := node n kw) (d' := node n kw') e1 (fun k hm he => key_in hm (hs.keys k he))
  | _, _, .optionalUnion (kw := kw) hs hg hx hd => nests_of fun hv hc hp => by
    obtain ⟨ys, g1, g2⟩ := nestsAll hd (real_list.mp (real_nested hv (by simp) hg)) (fun c hm => hc c (by simp [children, hm]))
    have e := set_keys (v := .list ys) hg
    have free : ∀ k ∈ ["values", "keys", "fields"], k ∉ kw.keys := fun k hm he => by
      have := hs.keys k he
      simp at hm this
      rcases hm with rfl | rfl | rfl <;> simp at this
    refine ⟨kw.set "types" (.list ys), ?_, e, .optionalUnion ⟨by rw [e]; exact hs.nodup, by rw [e]; exact hs.keys,
      by rw [Dict.get?_set_ne _ _ (by decide)]; exact hs.optional, by rw [getD_set_ne (by decide)]; exact hs.alias,
      by rw [getD_set_ne (by decide)]; exact hs.logical, by rw [getD_set_ne (by decide)]; exact hs.doc,
      by unfold restored; rw [getD_set_ne (by decide), getD_set_ne (by decide)]; exact hs.extra⟩
      (Dict.get?_set_self _ _ _) ?_ g2⟩
    · rw [skip_node (by simp) (free _ (by simp)), skip_node (by simp) (free _ (by simp)),
        skip_node (by simp) (free _ (by simp)), value_node (by simp) hg (aliasValue_list g1)]
      rfl
    · exact fun hm => hx (aliasAll_str g1 hm)
theorem nestsAll {reg : Registry} : ∀ {xs : List PyVal} {ts : List RType}, DocAll xs ts → (∀ x ∈ xs, Real x) →
    (∀ t ∈ ts, Settled reg t) → ∃ ys, aliasAll aliasDict xs reg = .ok (ys, reg) ∧ DocAll ys ts
  | _, _, .nil => fun _ _ => ⟨[], rfl, .nil⟩
  | _, _, .cons (t := t) hd hds => fun hx hs => by
    obtain ⟨y, g1, g2⟩ := ((nests hd).both hd (hx _ (by simp)) (hs t (by simp))).2
    obtain ⟨ys, g3, g4⟩ := nestsAll hds (fun x h => hx x (by simp [h])) (fun u hu => hs u (by simp [hu]))
    exact ⟨y :: ys, by simp only [aliasAll, g1, g3, bind, Except.bind, pure, Except.pure], .cons g2 g4⟩
end

/-! ## Documents with an alias at the top -/

/-- A document with an alias at the top, which `alias_dict` does not look into. -/
def Kept (v : PyVal) : Prop := ∃ d, v = .dict d ∧ (Dict.getD d "alias" .none).isNone = false

theorem getD_node {n : String} {kw : Dict} {k : String} (hk : k ≠ "type") :
    Dict.getD (node n kw) k .none = Dict.getD kw k .none := by
  unfold Dict.getD; rw [Dict.get?_cons_ne _ _ (fun e => hk e.symm)]

theorem dict_alias {n : String} {kw : Dict} {t : RType} (h : Doc (.dict (node n kw)) t) (ha : HasAlias t) :
    Dict.getD kw "alias" .none = t.attrs.alias := by
  obtain ⟨hp, hne⟩ := ha
  generalize hv : PyVal.dict (node n kw) = w at h
  cases h <;> simp only [PyVal.dict.injEq, node, List.cons.injEq, Prod.mk.injEq, PyVal.str.injEq, true_and,
    reduceCtorEq] at hv
  case proxy => simp [RType.isProxy] at hp
  case optional => simp [RType.attrs] at hne
  case optionalUnion => rename SugarUnion _ _ => h; rw [hv.2]; exact h.alias
  all_goals
    rename AttrsOf _ _ _ => h
    rw [hv.2]; exact h.alias

/-- A document of a type with an alias has it at the top. -/
theorem doc_alias {v : PyVal} {t : RType} (h : Doc v t) (ha : HasAlias t) : Kept v := by
  cases v with
  | dict d =>
    obtain ⟨n, kw, rfl⟩ := h.isNode
    refine ⟨_, rfl, ?_⟩
    rw [getD_node (by decide), dict_alias h ha, Bool.eq_false_iff]
    exact fun e => ha.2 (isNone_iff.mp e)
  | str s =>
    generalize hv : PyVal.str s = w at h
    cases h <;> cases hv
    rename_i h
    exact absurd (dict_alias h ha).symm ha.2
  | list xs =>
    generalize hv : PyVal.list xs = w at h
    cases h <;> cases hv
    rename_i h
    exact absurd (dict_alias h ha).symm ha.2
  | _ => cases h

/-! ## The nested types of a type that has no alias -/

/-- What `alias_dict` does with a document inside another one. -/
theorem visit {reg : Registry} {v : PyVal} {t : RType} (h : Doc v t) (hv : Real v) (hs : Kept v ∨ Settled reg t) :
    (∃ v', aliasValue aliasDict v reg = .ok (v', reg) ∧ Doc v' t) ∧
    ∃ v', aliasElem aliasDict v reg = .ok (v', reg) ∧ Doc v' t := by
  rcases hs with ⟨d, rfl, hd⟩ | hs
  · refine ⟨⟨.dict d, ?_, h⟩, .dict d, ?_, h⟩
    · simp only [aliasValue, aliasDict_keep hd]; rfl
    · simp only [aliasElem, aliasDict_keep hd]; rfl
  · exact (nests h).both h hv hs

/-- Documents and the types they are for, position by position. -/
inductive Visits (reg : Registry) : List PyVal → List RType → Prop
  | nil : Visits reg [] []
  | cons {v vs t ts} : Doc v t → Real v → Kept v ∨ Settled reg t → Visits reg vs ts → Visits reg (v :: vs) (t :: ts)

theorem Visits.all {reg : Registry} {vs : List PyVal} {ts : List RType} (h : Visits reg vs ts) :
    ∃ ys, aliasAll aliasDict vs reg = .ok (ys, reg) ∧ DocAll ys ts := by
  induction h with
  | nil => exact ⟨[], rfl, .nil⟩
  | cons h1 h2 h3 _ ih =>
    obtain ⟨y, g1, g2⟩ := (visit h1 h2 h3).2
    obtain ⟨ys, g3, g4⟩ := ih
    exact ⟨y :: ys, by simp only [aliasAll, g1, g3, bind, Except.bind, pure, Except.pure], .cons g2 g4⟩

theorem attrDict_free {a : Attrs} (hp : ∀ k ∈ nestedKeys, k ∉ a.extra.keys) {k : String} (hk : k ∈ nestedKeys) :
    k ∉ (attrDict a).keys := by
  intro hm
  rcases attrDict_keys hm with e | e | e | e
  · subst e; simp at hk
  · subst e; simp at hk
  · subst e; simp at hk
  · exact hp k hk e

theorem set_right {d e : Dict} {k : String} {v : PyVal} (h : k ∉ d.keys) : (d ++ e).set k v = d ++ e.set k v := by
  induction d with
  | nil => rfl
  | cons kv d ih =>
    obtain ⟨k', x⟩ := kv
    simp only [Dict.keys_cons, List.mem_cons, not_or] at h
    simp only [List.cons_append, Dict.set]
    rw [if_neg (fun e => h.1 e.symm), ih h.2]

variable {f : Dict → Registry → Except PyErr (Dict × Registry)}

theorem keys_skip {a : Attrs} (hp : ∀ k ∈ nestedKeys, k ∉ a.extra.keys) {n : String} {ps : Dict} {k : String}
    {ks : List String} {reg : Registry} (hk : k ∈ nestedKeys) (h : k ∉ ps.keys) :
    aliasKeys f (k :: ks) (node n (attrDict a ++ ps)) reg = aliasKeys f ks (node n (attrDict a ++ ps)) reg :=
  skip_node hk (by rw [Dict.keys_append, List.mem_append, not_or]; exact ⟨attrDict_free hp hk, h⟩)

theorem keys_value {a : Attrs} (hp : ∀ k ∈ nestedKeys, k ∉ a.extra.keys) {n : String} {ps : Dict} {k : String}
    {ks : List String} {reg reg' : Registry} {v v' : PyVal} (hk : k ∈ nestedKeys) (h : Dict.get? ps k = some v)
    (hv : aliasValue f v reg = .ok (v', reg')) :
    aliasKeys f (k :: ks) (node n (attrDict a ++ ps)) reg =
      aliasKeys f ks (node n (attrDict a ++ ps.set k v')) reg' := by
  have hf := attrDict_free hp hk
  rw [value_node hk (v := v) (by rw [Dict.get?_append, Dict.get?_eq_none_iff.mpr hf, h]) hv, set_right hf]

theorem top {reg : Registry} {t : RType} {vs : List PyVal} (hp : PlainKeys t)
    (hc : children t ≠ []) (hv : Visits reg vs (children t)) :
    ∃ ys, aliasKeys aliasDict nestedKeys (written t vs) reg = .ok (written t ys, reg) ∧ DocAll ys (children t) := by
  have hp' : ∀ k ∈ nestedKeys, k ∉ t.attrs.extra.keys := fun k hk hm => hp t .refl k hm hk
  cases t <;> simp only [children, ne_eq, not_true_eq_false] at hc hv
  case list t l w a =>
    simp only [RType.attrs] at hp'
    cases hv with
    | cons h1 h2 h3 h4 =>
      cases h4
      obtain ⟨v', g1, g2⟩ := (visit h1 h2 h3).1
      refine ⟨[v'], ?_, .cons g2 .nil⟩
      simp only [written, List.headD_cons]
      rw [keys_value hp' (by simp) (by simp [Dict.get?_cons]) g1, keys_skip hp' (by simp) (by simp [Dict.set, Dict.keys]),
        keys_skip hp' (by simp) (by simp [Dict.set, Dict.keys]), keys_skip hp' (by simp) (by simp [Dict.set, Dict.keys])]
      simp [aliasKeys, Dict.set]
  case map k v a =>
    simp only [RType.attrs] at hp'
    cases hv with
    | cons h1 h2 h3 h4 =>
      cases h4 with
      | cons j1 j2 j3 j4 =>
        cases j4
        obtain ⟨k', g1, g2⟩ := (visit h1 h2 h3).1
        obtain ⟨v', g3, g4⟩ := (visit j1 j2 j3).1
        refine ⟨[k', v'], ?_, .cons g2 (.cons g4 .nil)⟩
        simp only [written, List.headD_cons, List.tail_cons]
        rw [keys_value hp' (by simp) (by simp [Dict.get?_cons]) g3, 
          keys_value hp' (by simp) (by simp [Dict.get?_cons, Dict.set]) g1,
          keys_skip hp' (by simp) (by simp [Dict.set, Dict.keys]), keys_skip hp' (by simp) (by simp [Dict.set, Dict.keys])]
        simp [aliasKeys, Dict.set]
  case struct fs a =>
    simp only [RType.attrs] at hp'
    obtain ⟨ys, g1, g2⟩ := hv.all
    refine ⟨ys, ?_, g2⟩
    simp only [written]
    rw [keys_skip hp' (by simp) (by simp [Dict.keys]), keys_skip hp' (by simp) (by simp [Dict.keys]),
      keys_value hp' (by simp) (by simp) (aliasValue_list g1),
      keys_skip hp' (by simp) (by simp [Dict.set, Dict.keys])]
    simp [aliasKeys, Dict.set]
  case union fs a =>
    simp only [RType.attrs] at hp'
    obtain ⟨ys, g1, g2⟩ := hv.all
    refine ⟨ys, ?_, g2⟩
    simp only [written]
    rw [keys_skip hp' (by simp) (by simp [Dict.keys]), keys_skip hp' (by simp) (by simp [Dict.keys]),
      keys_skip hp' (by simp) (by simp [Dict.keys]),
      keys_value hp' (by simp) (by simp) (aliasValue_list g1)]
    simp [aliasKeys, Dict.set]

/-! ## Optional types with an alias -/

/-- The compact form of an optional type with an alias has the alias at the top. -/
theorem kept_optional {n x : RType} {a : Attrs} {d : Dict} {v : PyVal} (hok : NodeOK (.union [n, x] a))
    (hr : RealType (.union [n, x] a)) (ht : Tidy (.union [n, x] a)) (hn : IsPlainNull n) (h1 : a.alias = .none)
    (h2 : a.logical = .none) (hdef : "default" ∈ a.extra.keys) (hx : Doc (.dict d) x) (hax : HasAlias x)
    (h : cleanDict (.dict (written (.union [n, x] a) [.str "null", .dict d])) = .ok v) : Kept v := by
  obtain ⟨hk, ha⟩ := written_attrs (t := .union [n, x] a) (ps := [("types", .list [.str "null", .dict d])])
    (names := ["types"]) hok hr (by simp [Dict.keys]) (by simp [Dict.keys]) (by simp) (by simp [reservedKeys])
  simp only [RType.attrs] at hk ha
  generalize hkw : attrDict a ++ [("types", .list [.str "null", .dict d])] = kw at hk ha
  have hty : Dict.get? kw "types" = some (.list [.str "null", .dict d]) := by
    have := get?_written (ps := [("types", .list [.str "null", .dict d])]) (k := "types") hok (by simp [reservedKeys])
      (by simp)
    simp only [RType.attrs] at this
    rw [← hkw, this]; simp
  have hde : "default" ∈ kw.keys := by
    rw [← hkw, Dict.keys_append, List.mem_append]
    exact .inl (by simp only [attrDict, Dict.keys_append, List.mem_append]; exact .inr hdef)
  obtain ⟨w, w1, w2⟩ := hx.clean (ht.sub (.member (by simp) .refl))
  obtain ⟨d', rfl, w3⟩ := doc_alias w2 hax
  obtain ⟨nx, kwx, rfl⟩ := w2.isNode
  obtain ⟨c1, c2, m, rest, e, c3, c4, c5⟩ := ht.1 _ _ .refl ⟨n, by simp, hn⟩ hdef
  simp only [List.cons.injEq] at e
  obtain ⟨rfl, rfl⟩ := e
  obtain ⟨d1, d2, d3, d4⟩ := c5 h1 h2 x rfl
  obtain ⟨f1, f2, f3, f4⟩ := w2.field d2
  have hnull : cleanDict (.str "null") = .ok (.str "null") := by decide +kernel
  have hcl : cleanNested cleanDict "union" (dropDefaults (paramDefaults "union") (node "union" kw)) =
      .ok (node "union" ((dropDefaults (paramDefaults "union") kw).set "types"
        (.list [.str "null", .dict (node nx kwx)]))) := by
    rw [drop_node]
    have : Dict.get? (node "union" (dropDefaults (paramDefaults "union") kw)) "types" =
        some (.list [.str "null", .dict d]) := by
      rw [get?_node (by simp)]; exact drop_get hk (by simp) hty
    simp only [cleanNested, String.reduceEq, or_self, if_false, if_true, bind, Except.bind, pure, Except.pure, this,
      PyVal.iter, cleanAll, hnull, w1]
    rw [node_set _ _ _ (by decide)]
  simp only [written] at h
  rw [hkw, cleanDict_of_cleans (cleanNormalise_node _ _) hcl] at h
  generalize hkw' : (dropDefaults (paramDefaults "union") kw).set "types"
        (.list [.str "null", .dict (node nx kwx)]) = kw' at h
  have hk' : KwOK kw' := hkw' ▸ (hk.drop _).set _ (by simp)
  have ha' : AttrsOf ["types"] kw' a := hkw' ▸ (paramDefaults_sub "union" _ (by decide) hk ha).set _ (by simp) (by simp)
  have hty' : Dict.get? kw' "types" = some (.list [.str "null", .dict (node nx kwx)]) := by
    rw [← hkw']; exact Dict.get?_set_self _ _ _
  have hde' : "default" ∈ kw'.keys := by
    have := drop_get (n := "union") hk (k := "default") (v := Dict.getD kw "default" .none) (by simp) (by
      cases g : Dict.get? kw "default" with
      | none => exact absurd hde (Dict.get?_eq_none_iff.mp g)
      | some v => simp [Dict.getD, g])
    rw [← Dict.get?_set_ne _ (.list [.str "null", .dict (node nx kwx)]) (show "types" ≠ "default" by decide), hkw'] at this
    exact mem_keys_of_get? this
  have hkeys : ∀ k ∈ kw'.keys, k ∈ ["types", "alias", "logical", "doc", "default", "name"] := by
    intro k hm
    by_cases g1 : k ∈ ["types"]
    · simp at g1; simp [g1]
    · by_cases g2 : k ∈ ["logical", "alias", "doc"]
      · simp at g2; rcases g2 with rfl | rfl | rfl <;> simp
      · rcases c1 k (ha'.key hm g1 g2) with rfl | rfl <;> simp
  have f5 : ∀ k ∈ ["default", "name", "optional"], k ∉ kwx.keys := by
    intro k hm hm2
    simp only [List.mem_cons, List.not_mem_nil, or_false] at hm
    rcases hm with rfl | rfl | rfl
    · exact d4 (f4 _ (by simp) hm2)
    · exact d3 (f4 _ (by simp) hm2)
    · exact f3 hm2
  have hso : sugarOptional (node "union" kw') = .ok (node nx (kwx ++ sugarAttributes .none
      (Dict.getD kw' "default" .none) .none .none (Dict.getD kw' "name" .none))) := by
    have t1 : Dict.getD (node "union" kw') "type" .none = .str "union" := rfl
    have hh : Dict.has (node "union" kw') "default" = true := by
      rw [Dict.has_iff]; simp [hde']
    unfold sugarOptional
    rw [t1]
    simp only [PyVal.pyEq, beq_self_eq_true, Bool.not_true, Bool.false_eq_true, if_false]
    rw [get?_node (by simp), hty']
    simp only [containsNull, List.mem_cons, true_or, decide_true, hh, Bool.not_true, Bool.false_eq_true, if_false]
    rw [popStandard_union hk'.nodup hkeys hty']
    simp only [node, List.length_cons, List.length_nil, beq_self_eq_true, if_true]
    have gD : ∀ k, k ≠ "type" → Dict.getD (("type", PyVal.str "union") :: kw') k .none = Dict.getD kw' k .none :=
      fun k hk => getD_node (n := "union") hk
    rw [gD _ (by decide), gD _ (by decide), gD _ (by decide), gD _ (by decide), gD _ (by decide), ha'.alias,
      ha'.logical, ha'.doc, h1, h2, d1]
    unfold sugarUnion
    rw [removeNull_head]
    have f6 := @sugarAttributes_plain (Dict.getD kw' "default" .none) (Dict.getD kw' "name" .none)
    simp only [PyVal.isNone, Bool.and_self]
    rw [Dict.update_of_disjoint]
    · rfl
    · intro k hm
      have hm' := f6 hm
      rw [Dict.keys_cons, List.mem_cons, not_or]
      exact ⟨by rintro rfl; simp at hm', f5 k hm'⟩
    · exact sugarAttributes_nodup ..
  rw [hso] at h
  generalize hes : sugarAttributes .none (Dict.getD kw' "default" .none) .none .none (Dict.getD kw' "name" .none) = es at h
  have hge : Dict.getD (node nx (kwx ++ es)) "alias" .none = Dict.getD kwx "alias" .none := by
    rw [getD_node (by decide)]
    unfold Dict.getD
    rw [get?_append_left]
    intro hm
    rw [← hes] at hm
    have := sugarAttributes_plain hm
    simp at this
  have hkx : (Dict.getD kwx "alias" .none).isNone = false := by rwa [getD_node (by decide)] at w3
  have hnil : kwx ≠ [] := by rintro rfl; simp [Dict.getD, Dict.get?, PyVal.isNone] at hkx
  simp only [bind, Except.bind, shorten] at h
  have g : Dict.get? (node nx (kwx ++ es)) "type" = some (.str nx) := rfl
  have hlen : ((node nx (kwx ++ es)).length == 1) = false := by
    cases kwx with
    | nil => exact absurd rfl hnil
    | cons _ _ => simp [node]
  rw [g] at h
  simp only [hlen, Bool.false_eq_true, if_false, PyVal.pyEq, beq_iff_eq, f1, Bool.and_eq_true, false_and] at h
  cases h
  exact ⟨_, rfl, by rw [hge]; exact hkx⟩

/-! ## Writing -/

theorem plainNull_eq {n : RType} (h : IsPlainNull n) : n = .null {} := by
  unfold IsPlainNull at h
  cases n <;> simp only [RType.pyEq, Bool.false_eq_true] at h
  rename_i a
  obtain ⟨l, al, dc, ex⟩ := a
  simp only [RType.attrsEq, Bool.and_eq_true] at h
  obtain ⟨⟨⟨g1, g2⟩, g3⟩, g4⟩ := h
  have e1 := (pyEq_none_iff g1).mpr rfl
  have e2 := (pyEq_none_iff g2).mpr rfl
  have e3 := (pyEq_none_iff g3).mpr rfl
  subst e1 e2 e3
  cases ex with
  | nil => rfl
  | cons => simp [Dict.pyEq] at g4

theorem real_written {t : RType} {vs : List PyVal} (h : NodeOK t) (hr : RealType t) (hc : children t ≠ [])
    (hd : DocAll vs (children t)) (hv : ∀ v ∈ vs, Real v) : Real (.dict (written t vs)) := by
  have hn : RealNode t := hr t .refl
  obtain ⟨r1, r2, r3, r4, r5⟩ := hn
  have r4' := (realDict_iff (d := t.attrs.extra)).mp r4
  have key : ∀ (n : String) (ps : Dict) (names : List String), (∀ k ∈ ps.keys, k ∈ names) → ps.keys.Nodup →
      (∀ k ∈ names, k ∉ ["alias", "logical", "doc", "self", "type_", "type", "optional"]) →
      (∀ k ∈ names, k ∈ reservedKeys t) → (∀ kv ∈ ps, Real kv.2) →
      Real (.dict (node n (attrDict t.attrs ++ ps))) := by
    intro n ps names g1 g2 g3 g4 g5
    obtain ⟨hk, -⟩ := written_attrs h hr g1 g2 g3 g4
    refine realDict_iff.mpr ⟨?_, ?_⟩
    · rw [Dict.keys_cons, List.nodup_cons]
      exact ⟨hk.special _ (by simp), hk.nodup⟩
    · intro kv hkv
      simp only [node, attrDict, List.mem_cons, List.mem_append, List.not_mem_nil, or_false] at hkv
      rcases hkv with rfl | ((rfl | rfl | rfl) | hkv) | hkv
      · trivial
      · exact r2
      · exact r1
      · exact r3
      · exact r4'.2 _ hkv
      · exact g5 _ hkv
  cases t <;> simp only [children, ne_eq, not_true_eq_false] at hc hd
  case list t l w a =>
    cases hd with
    | cons h1 h2 =>
      exact key "list" _ ["values", "length", "variable"] (by simp [Dict.keys]) (by simp [Dict.keys]) (by simp)
        (by simp [reservedKeys]) (by
          intro kv hkv
          simp only [List.headD_cons, List.mem_cons, List.not_mem_nil, or_false] at hkv
          rcases hkv with rfl | rfl | rfl
          · exact hv _ (by simp)
          · exact r5 ("length", l) (by simp [params])
          · exact r5 ("variable", w) (by simp [params]))
  case map k v a =>
    cases hd with
    | cons h1 h2 =>
      cases h2 with
      | cons h2 h3 =>
        exact key "map" _ ["keys", "values"] (by simp [Dict.keys]) (by simp [Dict.keys]) (by simp)
          (by simp [reservedKeys]) (by
            intro kv hkv
            simp only [List.headD_cons, List.tail_cons, List.mem_cons, List.not_mem_nil, or_false] at hkv
            rcases hkv with rfl | rfl
            · exact hv _ (by simp)
            · exact hv _ (by simp))
  case struct fs a =>
    exact key "struct" _ ["fields"] (by simp [Dict.keys]) (by simp [Dict.keys]) (by simp) (by simp [reservedKeys]) (by
      intro kv hkv
      simp only [List.mem_cons, List.not_mem_nil, or_false] at hkv
      subst hkv
      exact real_list.mpr hv)
  case union fs a =>
    exact key "union" _ ["types"] (by simp [Dict.keys]) (by simp [Dict.keys]) (by simp) (by simp [reservedKeys]) (by
      intro kv hkv
      simp only [List.mem_cons, List.not_mem_nil, or_false] at hkv
      subst hkv
      exact real_list.mpr hv)

/-- Documents for types, those of guarded types with an alias at the top. -/
inductive Written (clean : Bool) : List PyVal → List RType → Prop
  | nil : Written clean [] []
  | cons {v vs t ts} : Doc v t → Real v → (Guarded clean t → Kept v) → Written clean vs ts →
      Written clean (v :: vs) (t :: ts)

theorem Written.docs {clean : Bool} {vs : List PyVal} {ts : List RType} (h : Written clean vs ts) :
    DocAll vs ts ∧ ∀ v ∈ vs, Real v := by
  induction h with
  | nil => exact ⟨.nil, by simp⟩
  | cons h1 h2 _ _ ih => exact ⟨.cons h1 ih.1, by simp only [List.mem_cons, forall_eq_or_imp]; exact ⟨h2, ih.2⟩⟩

theorem Written.visits {clean : Bool} {reg : Registry} {vs : List PyVal} {ts : List RType} (h : Written clean vs ts)
    (hs : ∀ t ∈ ts, Guarded clean t ∨ Settled reg t) : Visits reg vs ts := by
  induction h with
  | nil => exact .nil
  | cons h1 h2 h3 _ ih =>
    exact .cons h1 h2 ((hs _ (by simp)).imp h3 id) (ih fun t ht => hs t (by simp [ht]))

theorem toDictList_written {clean : Bool} : ∀ (ts : List RType),
    (∀ t ∈ ts, RealType t ∧ ∃ v, toDict clean true t = .ok v ∧ Doc v (aliased t) ∧ (Guarded clean (aliased t) → Kept v)) →
    ∃ vs, toDictList clean true ts = .ok vs ∧ Written clean vs (ts.map aliased)
  | [], _ => ⟨[], by simp only [toDictList], .nil⟩
  | t :: ts, h => by
    obtain ⟨hr, v, h1, h2, h3⟩ := h t (by simp)
    obtain ⟨vs, h4, h5⟩ := toDictList_written ts (fun u hu => h u (by simp [hu]))
    exact ⟨v :: vs, by simp only [toDictList, h1, h4, bind, Except.bind, pure, Except.pure],
      .cons h2 (real_toDict hr h1) h3 h5⟩

theorem separate_child {clean : Bool} {t c : RType} (h : Separate clean t) (hc : c ∈ children t) : Separate clean c :=
  fun u hu => h u (hu.trans (.child hc))

theorem defined_child {t c : RType} (hc : c ∈ children t) : ∀ x ∈ definedAliases c, x ∈ definedAliases t := by
  intro x hx
  cases t <;> simp only [children, List.not_mem_nil, List.mem_cons, or_false] at hc <;>
    simp only [definedAliases, List.mem_append]
  · subst hc; exact .inl hx
  · rcases hc with rfl | rfl
    · exact .inl (.inl hx)
    · exact .inl (.inr hx)
  all_goals
    refine .inl ?_
    rename_i fs _
    induction fs with
    | nil => cases hc
    | cons f fs ih =>
      simp only [definedAliasesAll, List.mem_append]
      rcases List.mem_cons.mp hc with rfl | hc
      · exact .inl hx
      · exact .inr (ih hc)

theorem nodup_child {t c : RType} (hc : c ∈ children t) (h : (definedAliases t).Nodup) : (definedAliases c).Nodup := by
  cases t <;> simp only [children, List.not_mem_nil, List.mem_cons, or_false] at hc <;>
    simp only [definedAliases] at h <;> replace h := nodup_left h
  · subst hc; exact h
  · rcases hc with rfl | rfl
    · exact nodup_left h
    · exact nodup_right h
  all_goals
    rename_i fs _
    induction fs with
    | nil => cases hc
    | cons f fs ih =>
      simp only [definedAliasesAll] at h
      rcases List.mem_cons.mp hc with rfl | hc
      · exact nodup_left h
      · exact ih hc (nodup_right h)

theorem sub_typeName {t u : RType} (h1 : Sub u t) (h2 : nodes u = nodes t) : u = t := by
  rcases sub_iff.mp h1 with rfl | ⟨c, hc, hs⟩
  · rfl
  · have := nodes_sub hs
    have := nodes_child hc
    omega

/-- `to_dict` with aliases writes a document for the type with references to built-in types. -/
theorem toDict_nested (clean : Bool) (t : RType) (h : Plain t) (ht : clean = true → Tidy t)
    (hn : (definedAliases t).Nodup) (hf : ∀ s ∈ names newRegistry, .str s ∉ definedAliases t)
    (hs : Separate clean (aliased t)) :
    ∃ v, toDict clean true t = .ok v ∧ Doc v (aliased t) ∧ (Guarded clean (aliased t) → Kept v) := by
  by_cases hc : children t = []
  · obtain ⟨v, h1, h2⟩ := toDict_alias clean t h ht (by rw [hc]; simp)
    refine ⟨v, h1, h2, ?_⟩
    rintro (hg | ⟨-, x, ⟨n, a, e, -⟩, -⟩)
    · exact doc_alias h2 hg
    · rcases outcome t with ⟨k, e1, -, -, -, b4⟩ | ⟨-, -, -, -, -, -, b6⟩
      · rw [b4] at e; cases e
      · rw [b6 hc] at e; rw [e] at hc; simp [children] at hc
  · have e1 : children (aliased t) = (children t).map aliased := by
      rcases outcome t with ⟨k, e, -, -, b3, -⟩ | ⟨-, b2, -⟩
      · exact absurd b3 hc
      · exact b2
    have hc2 : children (aliased t) ≠ [] := by rw [e1]; simpa using hc
    obtain ⟨vs, h1, h2⟩ := toDictList_written (clean := clean) (children t) (fun c hm => by
      have := size_child hm
      exact ⟨h.real.child hm, toDict_nested clean c (h.child hm) (fun e => (ht e).sub (.child hm)) (nodup_child hm hn)
        (fun s hs' hx => hf s hs' (defined_child hm _ hx)) (separate_child hs (by rw [e1]; exact List.mem_map_of_mem hm))⟩)
    rw [← e1] at h2
    have hok := aliased_ok h.node
    have hra := aliased_real h.real
    have hD : Doc (.dict (written (aliased t) vs)) (aliased t) := doc_written (hok _ .refl) hra h2.docs.1
    have hR := real_written (hok _ .refl) hra hc2 h2.docs.1 h2.docs.2
    have hmain : ∃ ys, (·.1) <$> aliasDict (written (aliased t) vs) newRegistry = .ok (written (aliased t) ys) ∧
        Doc (.dict (written (aliased t) ys)) (aliased t) ∧
        ((aliased t).attrs.alias = .none → ∃ reg, aliasKeys aliasDict nestedKeys (written (aliased t) vs) reg =
          .ok (written (aliased t) ys, reg)) := by
      obtain ⟨n, kw, hw⟩ := written_node vs (hok _ .refl)
      by_cases hal : (Dict.getD (written (aliased t) vs) "alias" .none).isNone = true
      · have hnone : (aliased t).attrs.alias = .none := by
          cases g : aliased t <;> rw [g] at hc2 hal <;> simp only [children, ne_eq, not_true_eq_false] at hc2 <;>
            simp only [written, node, attrDict, Dict.getD, Dict.get?_cons, List.cons_append, String.reduceEq, if_false,
              if_true, Option.getD_some] at hal <;> exact isNone_iff.mp hal
        obtain ⟨t', reg', g1, g2, g3, g4, g5⟩ := hD.read newRegistry (bounded_aliased t h.bounded) hra
          (aliased_aliases (aliasesOK_of h.node)) (by rw [defined_aliased]; exact hn) (by rw [defined_aliased]; exact hf)
        have hr' := (C71_parsed_types_well_formed _ hR _ _ _ g1).2
        have q := quiet g1 g2 hr' hra hra (aliased_builtin _ .refl) (fun s hs' ha => by
          cases g : RType.pyEq (aliased t) (definition s) with
          | false => rfl
          | true =>
            have := (nodes_eq _ _ g).trans (nodes_definition s)
            have := sub_typeName hs' this.symm
            rw [this] at ha
            exact absurd hnone ha.2) hr' g2
        have hvis : Visits reg' vs (children (aliased t)) := h2.visits fun c hm => by
          rcases hs _ .refl hnone c hm with hg | ⟨hd, hq⟩
          · exact .inl hg
          · refine .inr ⟨fun u hu u' hu' he => quiet g1 g2 hr' hra (realType_sub hra (hu.trans (.child hm)))
              (aliased_builtin u (hu.trans (.child hm))) (fun s hs' ha => hq u s hu hs' ha) hu' he, hd,
              bounded_child (bounded_aliased t h.bounded) hm, hra.child hm, fun u hu => aliased_plain h.keys u
                (hu.trans (.child hm)), (aliased_aliases (aliasesOK_of h.node)).sub (.child hm)⟩
        obtain ⟨ys, y1, y2⟩ := top (aliased_plain h.keys) hc2 hvis
        refine ⟨ys, ?_, doc_written (hok _ .refl) hra y2, fun _ => ⟨reg', y1⟩⟩
        rw [aliasDict_eq]
        unfold aliasStep
        simp only [hal, Bool.not_true, Bool.false_eq_true, if_false, g1, bind, Except.bind, q, y1]
        rfl
      · simp only [Bool.not_eq_true] at hal
        refine ⟨vs, by rw [aliasDict_keep hal]; rfl, hD, fun e => ?_⟩
        exfalso
        cases g : aliased t <;> rw [g] at hc2 hal e <;> simp only [children, ne_eq, not_true_eq_false] at hc2 <;>
            simp only [RType.attrs] at e <;>
            simp [written, node, attrDict, Dict.getD, Dict.get?_cons, e, PyVal.isNone] at hal
    obtain ⟨ys, k1, k2, k3⟩ := hmain
    rw [toDict_written _ _ _ (h.node _ .refl), h1, ]
    simp only [bind, Except.bind, postProcess, if_true, written_aliased hc, k1]
    cases clean with
    | false =>
      refine ⟨_, rfl, k2, ?_⟩
      rintro (hg | ⟨e, -⟩)
      · exact doc_alias k2 hg
      · cases e
    | true =>
      obtain ⟨v, v1, v2⟩ := k2.clean (tidy_aliased (ht rfl))
      refine ⟨v, v1, v2, ?_⟩
      rintro (hg | ⟨-, x, ⟨n, a, e, hn', ha1, ha2, hdef⟩, hx⟩)
      · exact doc_alias v2 hg
      · have hnull := plainNull_eq hn'
        subst hnull
        obtain ⟨c0, cx, hch, a0, ax⟩ : ∃ c0 cx, children t = [c0, cx] ∧ aliased c0 = .null {} ∧ aliased cx = x := by
          rw [e] at e1
          generalize children t = cs at e1
          simp only [children] at e1
          rcases cs with _ | ⟨c0, _ | ⟨cx, _ | ⟨c2, cs⟩⟩⟩ <;>
            simp only [List.map_cons, List.map_nil, List.cons.injEq, and_true, reduceCtorEq, and_false] at e1
          exact ⟨c0, cx, rfl, e1.1.symm, e1.2.symm⟩
        have hc0 : c0 = .null {} := by
          rcases outcome c0 with ⟨k, -, -, -, -, b4⟩ | ⟨-, b2, -, -, -, -, b6⟩
          · rw [b4] at a0; cases a0
          · rw [a0] at b2
            have : children c0 = [] := by simpa [children] using b2.symm
            rw [← b6 this, a0]
        have hw0 : toDict true true (.null {}) = .ok (.str "null") := by decide +kernel
        rw [hch, hc0] at h1
        simp only [toDictList, hw0, bind, Except.bind, pure, Except.pure] at h1
        rw [e] at h2
        simp only [children] at h2
        cases h2 with
        | @cons v0 vs0 _ _ i1 i2 i3 i4 =>
          cases i4 with
          | @cons v1' vs1 _ _ j1 j2 j3 j4 =>
            cases j4
            obtain ⟨d, rfl, hd⟩ := j3 (.inl hx)
            have hv0 : v0 = .str "null" := by
              split at h1
              · cases h1
              · simp only [Except.ok.injEq, List.cons.injEq] at h1
                exact h1.1.symm
            subst hv0
            rw [e] at k3 v1 hok hra
            obtain ⟨reg, y1⟩ := k3 ha1
            have hp : PlainKeys (.union [.null {}, x] a) := e ▸ aliased_plain h.keys
            have hp' : ∀ k ∈ nestedKeys, k ∉ a.extra.keys := fun k hk hm => hp _ .refl k hm hk
            have g1 : aliasAll aliasDict [.str "null", .dict d] reg = .ok ([.str "null", .dict d], reg) := by
              simp only [aliasAll, aliasElem, aliasDict_keep hd, bind, Except.bind, pure, Except.pure]
            have y2 : aliasKeys aliasDict nestedKeys (written (.union [.null {}, x] a) [.str "null", .dict d]) reg =
                .ok (written (.union [.null {}, x] a) [.str "null", .dict d], reg) := by
              simp only [written]
              rw [keys_skip hp' (by simp) (by simp [Dict.keys]), keys_skip hp' (by simp) (by simp [Dict.keys]),
                keys_skip hp' (by simp) (by simp [Dict.keys]),
                keys_value hp' (by simp) (by simp) (aliasValue_list g1)]
              simp [aliasKeys, Dict.set]
            rw [y2] at y1
            simp only [Except.ok.injEq, Prod.mk.injEq, and_true] at y1
            rw [← y1] at v1
            exact kept_optional (hok _ .refl) hra (e ▸ tidy_aliased (ht rfl)) hn' ha1 ha2 hdef j1 hx v1
termination_by sizeOf t

end Recap.Nested
