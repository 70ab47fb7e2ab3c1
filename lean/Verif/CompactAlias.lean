import Verif.CompactRead
import Verif.CompactWrite

/-! # Replacing built-in types by references: lemmas for C03 and C04 -/

set_option autoImplicit false

namespace Recap

open Spec

/-! ## Reading without aliases leaves the registry alone -/

theorem finish_same {t t' : RType} {reg reg' : Registry} (h : finish t reg = .ok (t', reg'))
    (ha : t.attrs.alias = .none ∨ t.isProxy = true) : reg' = reg := by
  unfold finish at h
  obtain ⟨_, _, h⟩ := ok_bind h
  have : (!t.attrs.alias.isNone && !t.isProxy) = false := by
    rcases ha with h | h <;> simp [h, PyVal.isNone]
  rw [this] at h
  simp only [Bool.false_eq_true, if_false, pure, Except.pure] at h
  cases h; rfl

theorem own_nil {a : Attrs} (h : own a = []) : a.alias = .none := by
  unfold own at h
  split at h
  · assumption
  · cases h

mutual
theorem Built.same : ∀ {reg t reg'}, Built reg t reg' → definedAliases t = [] → reg' = reg
  | _, t, _, .leaf hl h => fun hd => by
    refine finish_same h ?_
    cases t <;> simp only [RType.isLeaf] at hl <;> simp only [definedAliases] at hd
    case proxy => exact .inr rfl
    all_goals exact .inl (own_nil hd)
  | _, _, _, .list h1 h => fun hd => by
    simp only [definedAliases, List.append_eq_nil_iff] at hd
    rw [finish_same h (.inl (own_nil hd.2)), Built.same h1 hd.1]
  | _, _, _, .map h1 h2 h => fun hd => by
    simp only [definedAliases, List.append_eq_nil_iff] at hd
    rw [finish_same h (.inl (own_nil hd.2)), Built.same h2 hd.1.2, Built.same h1 hd.1.1]
  | _, _, _, .struct h1 h => fun hd => by
    simp only [definedAliases, List.append_eq_nil_iff] at hd
    rw [finish_same h (.inl (own_nil hd.2)), BuiltAll.same h1 hd.1]
  | _, _, _, .union h1 h => fun hd => by
    simp only [definedAliases, List.append_eq_nil_iff] at hd
    rw [finish_same h (.inl (own_nil hd.2)), BuiltAll.same h1 hd.1]
theorem BuiltAll.same : ∀ {reg ts reg'}, BuiltAll reg ts reg' → definedAliasesAll ts = [] → reg' = reg
  | _, _, _, .nil => fun _ => rfl
  | _, _, _, .cons h1 h2 => fun hd => by
    simp only [definedAliasesAll, List.append_eq_nil_iff] at hd
    rw [BuiltAll.same h2 hd.2, Built.same h1 hd.1]
end

theorem definedAll_nil {ts : List RType} : definedAliasesAll ts = [] ↔ ∀ t ∈ ts, definedAliases t = [] := by
  induction ts with
  | nil => simp [definedAliasesAll]
  | cons t ts ih => simp [definedAliasesAll, ih]

theorem defined_children {t : RType} (h : definedAliases t = []) {c : RType} (hc : c ∈ children t) :
    definedAliases c = [] := by
  cases t <;> simp only [children, List.not_mem_nil, List.mem_cons, or_false] at hc <;>
    simp only [definedAliases, List.append_eq_nil_iff, definedAll_nil] at h
  · subst hc; exact h.1
  · rcases hc with rfl | rfl
    · exact h.1.1
    · exact h.1.2
  · exact h.1 c hc
  · exact h.1 c hc

theorem sub_iff {u t : RType} : Sub u t ↔ u = t ∨ ∃ c ∈ children t, Sub u c := by
  constructor
  · intro h
    cases h with
    | refl => exact .inl rfl
    | list h => exact .inr ⟨_, by simp [children], h⟩
    | key h => exact .inr ⟨_, by simp [children], h⟩
    | value h => exact .inr ⟨_, by simp [children], h⟩
    | field hm h => exact .inr ⟨_, hm, h⟩
    | member hm h => exact .inr ⟨_, hm, h⟩
  · rintro (rfl | ⟨c, hc, h⟩)
    · exact .refl
    · exact h.trans (.child hc)

theorem defined_sub {t u : RType} (hs : Sub u t) (h : definedAliases t = []) : definedAliases u = [] := by
  rcases sub_iff.mp hs with rfl | ⟨c, hc, hs⟩
  · exact h
  · have := size_child hc
    exact defined_sub hs (defined_children h hc)
termination_by sizeOf t

/-! ## Which built-in alias stands for a type -/

/-- Neither a container nor a float. -/
def atom : PyVal → Bool
  | .float _ _ => false
  | .list _ => false
  | .dict _ => false
  | _ => true

theorem real_of_atom {v w : PyVal} (h : PyVal.pyEq v w = true) (hw : atom w = true) : Real v := by
  cases w <;> simp only [atom, Bool.false_eq_true] at hw <;> cases v <;>
    simp only [PyVal.pyEq, Bool.false_eq_true] at h <;> simp [Real]

/-- A type object without nested types that holds no containers and no floats. -/
def atomic (t : RType) : Bool :=
  (children t).isEmpty && atom t.attrs.logical && atom t.attrs.alias && atom t.attrs.doc &&
    t.attrs.extra.all (fun kv => atom kv.2) && (params t).all (fun kv => atom kv.2) && !t.isProxy &&
    decide (t.attrs.extra.keys.Nodup)

theorem builtins_atomic : ∀ e ∈ builtinAliases, atomic e.2 = true := by decide +kernel

theorem attrs_of_pyEq {t u : RType} (h : RType.pyEq t u = true) : RType.attrsEq t.attrs u.attrs = true := by
  cases t <;> cases u <;> simp only [RType.pyEq, Bool.false_eq_true, Bool.and_eq_true] at h <;>
    simp only [RType.attrs] <;> first | exact h | exact h.1

theorem realAttrs_of_atom {a b : Attrs} (h : RType.attrsEq a b = true) (hn : a.extra.keys.Nodup)
    (h1 : atom b.logical = true) (h2 : atom b.alias = true) (h3 : atom b.doc = true)
    (h4 : b.extra.all (fun kv => atom kv.2) = true) : RealAttrs a := by
  unfold RType.attrsEq at h
  simp only [Bool.and_eq_true] at h
  obtain ⟨⟨⟨g1, g2⟩, g3⟩, g4⟩ := h
  refine ⟨real_of_atom g1 h1, real_of_atom g2 h2, real_of_atom g3 h3, hn, .of_mem ?_⟩
  unfold Dict.pyEq at g4
  simp only [Bool.and_eq_true, pyEqDict_iff] at g4
  intro kv hkv
  obtain ⟨y, e1, e2⟩ := g4.2 kv hkv
  rw [List.all_eq_true] at h4
  exact real_of_atom e2 (h4 _ (Dict.mem_of_get? e1))

/-- A type that is equal to an atomic type holds Python values. -/
theorem real_of_atomic {t e : RType} (h : RType.pyEq t e = true) (he : atomic e = true)
    (hn : t.attrs.extra.keys.Nodup) : RealType t := by
  unfold atomic at he
  simp only [Bool.and_eq_true, List.isEmpty_iff] at he
  obtain ⟨⟨⟨⟨⟨⟨⟨h0, h1⟩, h2⟩, h3⟩, h4⟩, h5⟩, h6⟩, -⟩ := he
  have ha := realAttrs_of_atom (attrs_of_pyEq h) hn h1 h2 h3 h4
  have hc : children t = [] := by
    cases t <;> cases e <;> simp only [RType.pyEq, Bool.false_eq_true, Bool.and_eq_true] at h <;>
      simp only [children] at h0 ⊢
    · cases h0
    · cases h0
    · subst h0
      rename_i fs _ _
      cases fs with
      | nil => rfl
      | cons => simp [RType.pyEqList] at h
    · subst h0
      rename_i fs _ _
      cases fs with
      | nil => rfl
      | cons => simp [RType.pyEqList] at h
  have hp : ∀ kv ∈ params t, Real kv.2 := by
    rw [List.all_eq_true] at h5
    cases t <;> cases e <;> simp only [RType.pyEq, Bool.false_eq_true, Bool.and_eq_true] at h <;>
      simp only [params, List.mem_cons, List.not_mem_nil, or_false, forall_eq_or_imp, forall_eq, false_implies,
        implies_true] at h5 ⊢
    · exact ⟨real_of_atom h.2.1 h5.1, real_of_atom h.2.2 h5.2⟩
    · exact real_of_atom h.2 h5
    · exact ⟨real_of_atom h.2.1 h5.1, real_of_atom h.2.2 h5.2⟩
    · exact ⟨real_of_atom h.2.1 h5.1, real_of_atom h.2.2 h5.2⟩
    · exact ⟨real_of_atom h.2.1.2 h5.1, real_of_atom h.2.2 h5.2⟩
    · exact real_of_atom h.2 h5
  intro u hu
  rcases sub_iff.mp hu with rfl | ⟨c, hm, -⟩
  · exact ⟨ha.1, ha.2.1, ha.2.2.1, ha.2.2.2, hp⟩
  · rw [hc] at hm; cases hm

theorem matchAlias_eq (t : RType) (reg : Registry) :
    matchAlias t reg = (List.find? (fun e => RType.pyEq t e.2) reg).map (·.1) := by
  induction reg with
  | nil => rfl
  | cons e reg ih =>
    obtain ⟨k, u⟩ := e
    simp only [matchAlias, List.find?_cons, ih]
    cases RType.pyEq t u <;> simp

theorem find_congr {α : Type} {p q : α → Bool} {xs : List α} (h : ∀ x ∈ xs, p x = q x) :
    List.find? p xs = List.find? q xs := by
  induction xs with
  | nil => rfl
  | cons x xs ih =>
    rw [List.find?_cons, List.find?_cons, h x (by simp), ih (fun y hy => h y (by simp [hy]))]

/-- Equal types are replaced by the same alias. -/
theorem matchAlias_builtin {t t' : RType} (h : RType.pyEq t' t = true) (hr : RealType t)
    (hn : t'.attrs.extra.keys.Nodup) : matchAlias t' newRegistry = builtinFor t := by
  rw [matchAlias_eq]
  unfold builtinFor newRegistry
  congr 1
  apply find_congr
  intro e he
  rw [Bool.eq_iff_iff]
  constructor
  · intro g
    have hr' := real_of_atomic g (builtins_atomic e he) hn
    exact RType.pyEq_trans _ _ _ (RType.pyEq_symm _ _ hr' hr h) g
  · exact RType.pyEq_trans _ _ _ h

theorem builtinFor_none {t : RType} (h : ∀ e ∈ builtinAliases, RType.pyEq t e.2 = false) : builtinFor t = .none := by
  unfold builtinFor
  rw [List.find?_eq_none.mpr]
  · rfl
  · intro e he; simp [h e he]

theorem builtins_kind : ∀ e ∈ builtinAliases, e.2.typeName ∈ ["int", "float", "string", "bytes"] := by decide +kernel

theorem typeName_of_pyEq {t u : RType} (h : RType.pyEq t u = true) : t.typeName = u.typeName := by
  cases t <;> cases u <;> simp only [RType.pyEq, Bool.false_eq_true] at h <;> rfl

theorem builtinFor_kind {t : RType} (h : t.typeName ∉ ["int", "float", "string", "bytes"]) : builtinFor t = .none := by
  refine builtinFor_none fun e he => ?_
  cases g : RType.pyEq t e.2 with
  | false => rfl
  | true => exact absurd (typeName_of_pyEq g ▸ builtins_kind e he) h

theorem builtinFor_mem {t : RType} {k : String} (h : builtinFor t = some k) :
    ∃ e, (k, e) ∈ builtinAliases ∧ RType.pyEq t e = true := by
  unfold builtinFor at h
  simp only [Option.map_eq_some_iff] at h
  obtain ⟨⟨k', e⟩, h, rfl⟩ := h
  have h1 := List.find?_some h
  exact ⟨e, List.mem_of_find?_eq_some h, by simpa using h1⟩

theorem builtins_noAlias : ∀ e ∈ builtinAliases, e.2.attrs.alias = .none := by decide +kernel

theorem builtinFor_alias {t : RType} (h : t.attrs.alias ≠ .none) : builtinFor t = .none := by
  refine builtinFor_none fun e he => ?_
  cases g : RType.pyEq t e.2 with
  | false => rfl
  | true =>
    have h1 := attrs_of_pyEq g
    unfold RType.attrsEq at h1
    simp only [Bool.and_eq_true, builtins_noAlias e he] at h1
    have := h1.1.1.2
    cases hv : t.attrs.alias <;> rw [hv] at this <;> simp only [PyVal.pyEq, Bool.false_eq_true] at this
    exact absurd hv h

/-! ## One level of `alias_dict` -/

/-- The keys that hold nested types. -/
abbrev nestedKeys : List String := ["values", "keys", "fields", "types"]

/-- What `alias_dict` does with the value of such a key. -/
def aliasValue (f : Dict → Registry → Except PyErr (Dict × Registry)) (v : PyVal) (reg : Registry) :
    Except PyErr (PyVal × Registry) :=
  match v with
  | .list xs => (fun r => (.list r.1, r.2)) <$> aliasAll f xs reg
  | .dict d => (fun r => (.dict r.1, r.2)) <$> f d reg
  | v => .ok (v, reg)

theorem set_same {d : Dict} {k : String} {v : PyVal} (h : Dict.get? d k = some v) : d.set k v = d := by
  induction d with
  | nil => simp [Dict.get?] at h
  | cons kv d ih =>
    obtain ⟨k', x⟩ := kv
    rw [Dict.get?_cons] at h
    simp only [Dict.set]
    split at h
    · rename_i e; cases h; simp [e]
    · rename_i e; simp [e, ih h]

variable {f : Dict → Registry → Except PyErr (Dict × Registry)}

theorem aliasKeys_skip {k : String} {ks : List String} {d : Dict} {reg : Registry} (h : Dict.get? d k = .none) :
    aliasKeys f (k :: ks) d reg = aliasKeys f ks d reg := by
  simp only [aliasKeys, h]

theorem aliasKeys_value {k : String} {ks : List String} {d : Dict} {reg reg' : Registry} {v v' : PyVal}
    (h : Dict.get? d k = some v) (hv : aliasValue f v reg = .ok (v', reg')) :
    aliasKeys f (k :: ks) d reg = aliasKeys f ks (d.set k v') reg' := by
  unfold aliasValue at hv
  simp only [aliasKeys, h]
  cases v with
  | list xs =>
    simp only at hv ⊢
    cases g : aliasAll f xs reg with
    | error e => rw [g] at hv; cases hv
    | ok r => rw [g] at hv; cases hv; rfl
  | dict e =>
    simp only at hv ⊢
    cases g : f e reg with
    | error e => rw [g] at hv; cases hv
    | ok r => rw [g] at hv; cases hv; rfl
  | _ => simp only at hv ⊢; cases hv; rw [set_same h]

theorem aliasKeys_none {ks : List String} {d : Dict} {reg : Registry} (h : ∀ k ∈ ks, Dict.get? d k = .none) :
    aliasKeys f ks d reg = .ok (d, reg) := by
  induction ks with
  | nil => rfl
  | cons k ks ih => rw [aliasKeys_skip (h k (by simp)), ih (fun k hk => h k (by simp [hk]))]

/-- Other entries do not matter. -/
theorem aliasKeys_append {ks : List String} {d d' e : Dict} {reg reg' : Registry}
    (h : aliasKeys f ks d reg = .ok (d', reg')) (he : ∀ k ∈ ks, k ∉ e.keys) :
    aliasKeys f ks (d ++ e) reg = .ok (d' ++ e, reg') := by
  induction ks generalizing d reg with
  | nil => simp only [aliasKeys] at h ⊢; cases h; rfl
  | cons k ks ih =>
    have g : Dict.get? (d ++ e) k = Dict.get? d k := get?_append_left (he k (by simp))
    have he' : ∀ k ∈ ks, k ∉ e.keys := fun k hk => he k (by simp [hk])
    simp only [aliasKeys] at h ⊢
    rw [g]
    cases hg : Dict.get? d k with
    | none => rw [hg] at h; exact ih h he'
    | some v =>
      rw [hg] at h
      cases v with
      | list xs =>
        simp only at h ⊢
        obtain ⟨r, h1, h⟩ := ok_bind h
        simp only [h1, bind, Except.bind]
        rw [set_append hg]
        exact ih h he'
      | dict e =>
        simp only at h ⊢
        obtain ⟨r, h1, h⟩ := ok_bind h
        simp only [h1, bind, Except.bind]
        rw [set_append hg]
        exact ih h he'
      | _ => exact ih h he'

/-! ## Documents whose nested types are not to be replaced -/

/-- No part of the type is replaced, and it defines no aliases. -/
structure Settled (t : RType) : Prop where
  builtin : ∀ u, Sub u t → builtinFor u = .none
  defined : definedAliases t = []
  bounded : Bounded t
  real : RealType t
  plain : PlainKeys t
  aliases : AliasesOK t

theorem bounded_child {t c : RType} (h : Bounded t) (hc : c ∈ children t) : Bounded c := by
  cases t <;> simp only [children, List.not_mem_nil, List.mem_cons, or_false] at hc <;>
    simp only [Bounded] at h
  · subst hc; exact h.2
  · rcases hc with rfl | rfl
    · exact h.1
    · exact h.2
  · exact boundedAll_of.mp h c hc
  · exact boundedAll_of.mp h c hc

theorem Settled.child {t c : RType} (h : Settled t) (hc : c ∈ children t) : Settled c :=
  have hs : Sub c t := .child hc
  ⟨fun u hu => h.builtin u (hu.trans hs), defined_children h.defined hc, bounded_child h.bounded hc,
    h.real.child hc, fun u hu => h.plain u (hu.trans hs), h.aliases.sub hs⟩

/-- What `alias_dict` makes of the nested types: an equivalent document with the same keys. -/
def Nest (n : String) (kw : Dict) (t : RType) : Prop :=
  ∃ kw', aliasKeys aliasDict nestedKeys (node n kw) newRegistry = .ok (node n kw', newRegistry) ∧
    kw'.keys = kw.keys ∧ Doc (.dict (node n kw')) t

theorem alias_none {kw : Dict} {n : String} (h : Dict.getD kw "alias" .none = .none) :
    (Dict.getD (node n kw) "alias" .none).isNone = true := by
  unfold Dict.getD at h ⊢
  rw [Dict.get?_cons_ne _ _ (by decide), h]
  rfl

/-- The document as a whole. -/
theorem alias_step {n : String} {kw : Dict} {t : RType} (h : Doc (.dict (node n kw)) t)
    (hd : definedAliases t = []) (hb : Bounded t) (hr : RealType t) (ha : AliasesOK t) (hn : Nest n kw t) :
    (∃ d', aliasDict (node n kw) newRegistry = .ok (d', newRegistry) ∧
      match builtinFor t with
      | some k => d' = [("type", .str k)] ∨ Doc (.dict d') t ∧ (Dict.getD kw "alias" .none).isNone = false
      | .none => Doc (.dict d') t) := by
  rw [aliasDict_eq]
  unfold aliasStep
  by_cases hal : (Dict.getD (node n kw) "alias" .none).isNone = true
  · obtain ⟨t', reg', g1, g2, g3, g4, g5⟩ := h.read newRegistry hb hr ha (by rw [hd]; exact .nil)
      (fun s _ => by rw [hd]; simp)
    have e : reg' = newRegistry := (built_of_fromDict g1).same (g3.trans hd)
    subst e
    simp only [hal, Bool.not_true, Bool.false_eq_true, if_false, g1, bind, Except.bind,
      matchAlias_builtin g2 hr g5]
    cases hbf : builtinFor t with
    | some k => exact ⟨_, rfl, .inl rfl⟩
    | none =>
      obtain ⟨kw', e1, -, e3⟩ := hn
      exact ⟨_, e1, e3⟩
  · simp only [hal, Bool.not_false, if_true]
    refine ⟨_, rfl, ?_⟩
    split
    · refine .inr ⟨h, ?_⟩
      unfold Dict.getD at hal ⊢
      rw [Dict.get?_cons_ne _ _ (by decide)] at hal
      simpa using hal
    · exact h

/-- What `alias_dict` does with a document inside another one. -/
theorem alias_value {v : PyVal} {t : RType} (h : Doc v t) (hs : Settled t)
    (h1 : ∀ n kw, v = .dict (node n kw) → Nest n kw t)
    (h2 : ∀ xs, v = .list xs → ∃ ys, aliasAll aliasDict xs newRegistry = .ok (ys, newRegistry) ∧ Doc (.list ys) t) :
    (∃ v', aliasValue aliasDict v newRegistry = .ok (v', newRegistry) ∧ Doc v' t) ∧
    ∃ v', aliasElem aliasDict v newRegistry = .ok (v', newRegistry) ∧ Doc v' t := by
  cases v with
  | dict d =>
    obtain ⟨n, kw, rfl⟩ := h.isNode
    obtain ⟨d', g1, g2⟩ := alias_step h hs.defined hs.bounded hs.real hs.aliases (h1 n kw rfl)
    rw [hs.builtin t .refl] at g2
    refine ⟨⟨.dict d', ?_, g2⟩, .dict d', ?_, g2⟩
    · simp only [aliasValue, g1]; rfl
    · simp only [aliasElem, g1]; rfl
  | list xs =>
    obtain ⟨ys, g1, g2⟩ := h2 xs rfl
    refine ⟨⟨.list ys, ?_, g2⟩, .list xs, rfl, h⟩
    simp only [aliasValue, g1]; rfl
  | _ => exact ⟨⟨_, rfl, h⟩, _, rfl, h⟩

theorem plain_free {names : List String} {kw : Dict} {t : RType} (ha : AttrsOf names kw t.attrs) (hp : PlainKeys t)
    {k : String} (hk : k ∈ nestedKeys) (hn : k ∉ names) : k ∉ kw.keys :=
  fun hm => hp t .refl k (ha.key hm hn (by simp at hk ⊢; rcases hk with rfl | rfl | rfl | rfl <;> simp)) hk

theorem get?_node {n : String} {kw : Dict} {k : String} (hk : k ∈ nestedKeys) :
    Dict.get? (node n kw) k = Dict.get? kw k :=
  Dict.get?_cons_ne _ _ (by rintro rfl; simp at hk)

theorem nest_leaf {n : String} {kw : Dict} {t : RType} (hd : Doc (.dict (node n kw)) t)
    (h : ∀ k ∈ nestedKeys, k ∉ kw.keys) : Nest n kw t :=
  ⟨kw, aliasKeys_none (fun k hk => by rw [get?_node hk, Dict.get?_eq_none_iff.mpr (h k hk)]), rfl, hd⟩

theorem skip_node {n : String} {kw : Dict} {k : String} {ks : List String} {reg : Registry} (hk : k ∈ nestedKeys)
    (h : k ∉ kw.keys) : aliasKeys f (k :: ks) (node n kw) reg = aliasKeys f ks (node n kw) reg :=
  aliasKeys_skip (by rw [get?_node hk, Dict.get?_eq_none_iff.mpr h])

theorem value_node {n : String} {kw : Dict} {k : String} {ks : List String} {reg reg' : Registry} {v v' : PyVal}
    (hk : k ∈ nestedKeys) (h : Dict.get? kw k = some v) (hv : aliasValue f v reg = .ok (v', reg')) :
    aliasKeys f (k :: ks) (node n kw) reg = aliasKeys f ks (node n (kw.set k v')) reg' := by
  rw [aliasKeys_value (by rw [get?_node hk, h]) hv, node_set _ _ _ (by rintro rfl; simp at hk)]

theorem flag_set {kw : Dict} {k k' : String} {v w : PyVal} (h : Flag kw k w) (hk : k' ≠ k) : Flag (kw.set k' v) k w := by
  unfold Flag; rw [getD_set_ne hk]; exact h

theorem key_in {k : String} (h : k ∈ nestedKeys) : k ∉ ["default", "name", "optional"] := by
  simp at h ⊢; rcases h with rfl | rfl | rfl | rfl <;> simp

theorem settled_null : Settled (.null {}) where
  builtin := fun u hu => by cases hu; exact builtinFor_kind (by simp [RType.typeName])
  defined := by decide
  bounded := trivial
  real := fun u hu => by cases hu; simp [RealNode, RType.attrs, Real, RealPairs, params]
  plain := fun u hu => by cases hu; simp [RType.attrs, Dict.keys]
  aliases := fun u hu _ => by cases hu; exact .inl rfl

/-- The conclusion for one document. -/
def Nests (v : PyVal) (t : RType) : Prop :=
  (∀ c ∈ children t, Settled c) → PlainKeys t →
    (∀ n kw, v = .dict (node n kw) → Nest n kw t) ∧
    ∀ xs, v = .list xs → ∃ ys, aliasAll aliasDict xs newRegistry = .ok (ys, newRegistry) ∧ Doc (.list ys) t

theorem Nests.value {v : PyVal} {t : RType} (h : Nests v t) (hd : Doc v t) (hs : Settled t) :
    ∃ v', aliasValue aliasDict v newRegistry = .ok (v', newRegistry) ∧ Doc v' t := by
  obtain ⟨h1, h2⟩ := h (fun c hc => hs.child hc) hs.plain
  exact (alias_value hd hs h1 h2).1

theorem Nests.elem {v : PyVal} {t : RType} (h : Nests v t) (hd : Doc v t) (hs : Settled t) :
    ∃ v', aliasElem aliasDict v newRegistry = .ok (v', newRegistry) ∧ Doc v' t := by
  obtain ⟨h1, h2⟩ := h (fun c hc => hs.child hc) hs.plain
  exact (alias_value hd hs h1 h2).2

theorem nests_of {n : String} {kw : Dict} {t : RType}
    (h : (∀ c ∈ children t, Settled c) → PlainKeys t → Nest n kw t) : Nests (.dict (node n kw)) t := by
  intro hc hp
  refine ⟨fun n' kw' e => ?_, fun xs e => by cases e⟩
  injection e with e
  injection e with e1 e2
  injection e1 with _ e1
  injection e1 with e1
  subst e1 e2
  exact h hc hp

theorem aliasValue_list {xs ys : List PyVal} {reg reg' : Registry} (h : aliasAll f xs reg = .ok (ys, reg')) :
    aliasValue f (.list xs) reg = .ok (.list ys, reg') := by
  simp only [aliasValue, h]; rfl

theorem aliasAll_str {xs ys : List PyVal} {reg reg' : Registry} {s : String}
    (h : aliasAll f xs reg = .ok (ys, reg')) (hs : .str s ∈ ys) : .str s ∈ xs := by
  induction xs generalizing reg ys with
  | nil => simp only [aliasAll] at h; cases h; cases hs
  | cons x xs ih =>
    simp only [aliasAll] at h
    obtain ⟨⟨y, r1⟩, h1, h⟩ := ok_bind h
    obtain ⟨⟨ys', r2⟩, h2, h⟩ := ok_bind h
    simp only [pure, Except.pure] at h
    cases h
    rcases List.mem_cons.mp hs with e | hs
    · subst e
      unfold aliasElem at h1
      split at h1
      · obtain ⟨_, _, h1⟩ := ok_bind h1
        simp only [pure, Except.pure] at h1
        cases h1
      · cases h1; simp
    · simp [ih h2 hs]

mutual
theorem Doc.nests : ∀ {v : PyVal} {t : RType}, Doc v t → Nests v t
  | _, _, .short h => fun _ _ => ⟨fun _ _ e => PyVal.noConfusion e, fun _ e => PyVal.noConfusion e⟩
  | _, _, .shortUnion (xs := xs) h => fun hc hp => by
    refine ⟨fun _ _ e => PyVal.noConfusion e, fun xs' e => ?_⟩
    cases e
    obtain ⟨kw', e1, -, e3⟩ := (Doc.nests h hc hp).1 "union" [("types", .list xs)] rfl
    rw [skip_node (by simp) (by simp [Dict.keys]), skip_node (by simp) (by simp [Dict.keys]),
      skip_node (by simp) (by simp [Dict.keys])] at e1
    cases g : aliasAll aliasDict xs newRegistry with
    | error e => simp [aliasKeys, Dict.get?, node, g, bind, Except.bind] at e1
    | ok r =>
      obtain ⟨ys, reg⟩ := r
      rw [value_node (by simp) (by simp [Dict.get?]) (aliasValue_list g)] at e1
      simp only [aliasKeys, Dict.set, if_true, Except.ok.injEq, Prod.mk.injEq, node, List.cons.injEq, true_and] at e1
      obtain ⟨rfl, rfl⟩ := e1
      exact ⟨ys, rfl, .shortUnion e3⟩
  | _, _, .null hk ha => nests_of fun _ hp => nest_leaf (.null hk ha) (fun _ hm => plain_free ha hp hm (by simp))
  | _, _, .bool hk ha => nests_of fun _ hp => nest_leaf (.bool hk ha) (fun _ hm => plain_free ha hp hm (by simp))
  | _, _, .int hk ha h1 h2 => nests_of fun _ hp => nest_leaf (.int hk ha h1 h2)
      (fun _ hm => plain_free ha hp hm (by simp at hm ⊢; rcases hm with rfl | rfl | rfl | rfl <;> simp))
  | _, _, .float hk ha h1 => nests_of fun _ hp => nest_leaf (.float hk ha h1)
      (fun _ hm => plain_free ha hp hm (by simp at hm ⊢; rcases hm with rfl | rfl | rfl | rfl <;> simp))
  | _, _, .string hk ha h1 h2 h3 => nests_of fun _ hp => nest_leaf (.string hk ha h1 h2 h3)
      (fun _ hm => plain_free ha hp hm (by simp at hm ⊢; rcases hm with rfl | rfl | rfl | rfl <;> simp))
  | _, _, .bytes hk ha h1 h2 h3 => nests_of fun _ hp => nest_leaf (.bytes hk ha h1 h2 h3)
      (fun _ hm => plain_free ha hp hm (by simp at hm ⊢; rcases hm with rfl | rfl | rfl | rfl <;> simp))
  | _, _, .enum hk ha h1 => nests_of fun _ hp => nest_leaf (.enum hk ha h1)
      (fun _ hm => plain_free ha hp hm (by simp at hm ⊢; rcases hm with rfl | rfl | rfl | rfl <;> simp))
  | _, _, .proxy (r := r) (a := a) hk ha h1 h2 h3 h4 => nests_of fun _ hp => nest_leaf (.proxy hk ha h1 h2 h3 h4)
      (fun k hm hk => hp (.proxy r a) .refl k
        (ha.key hk (by simp) (by simp at hm ⊢; rcases hm with rfl | rfl | rfl | rfl <;> simp)) hm)
  | _, _, .list (kw := kw) hk ha hg hd hl hw => nests_of fun hc hp => by
    obtain ⟨v', g1, g2⟩ := (Doc.nests hd).value hd (hc _ (by simp [children]))
    have e := set_keys (v := v') hg
    have free : ∀ k ∈ ["keys", "fields", "types"], k ∉ kw.keys := fun k hm =>
      plain_free ha hp (by simp at hm ⊢; grind) (by simp at hm ⊢; rcases hm with rfl | rfl | rfl <;> simp)
    refine ⟨kw.set "values" v', ?_, e, .list (hk.set _ (by simp)) (ha.set _ (by simp) (by simp))
      (Dict.get?_set_self _ _ _) g2 (by rw [getD_set_ne (by decide)]; exact hl) (flag_set hw (by decide))⟩
    rw [value_node (by simp) hg g1]
    exact aliasKeys_none fun k hm => by
      rw [get?_node (by simp at hm ⊢; grind), Dict.get?_eq_none_iff, e]; exact free k hm
  | _, _, .map (kw := kw) hk ha hg1 hg2 hd1 hd2 => nests_of fun hc hp => by
    obtain ⟨k', g1, g2⟩ := (Doc.nests hd1).value hd1 (hc _ (by simp [children]))
    obtain ⟨v', g3, g4⟩ := (Doc.nests hd2).value hd2 (hc _ (by simp [children]))
    have hg1' : Dict.get? (kw.set "values" v') "keys" = some _ := (Dict.get?_set_ne _ _ (by decide)).trans hg1
    have e : ((kw.set "values" v').set "keys" k').keys = kw.keys := (set_keys hg1').trans (set_keys hg2)
    have free : ∀ k ∈ ["fields", "types"], k ∉ kw.keys := fun k hm =>
      plain_free ha hp (by simp at hm ⊢; grind) (by simp at hm ⊢; rcases hm with rfl | rfl <;> simp)
    refine ⟨(kw.set "values" v').set "keys" k', ?_, e, .map ((hk.set _ (by simp)).set _ (by simp))
      ((ha.set _ (by simp) (by simp)).set _ (by simp) (by simp)) (Dict.get?_set_self _ _ _)
      (by rw [Dict.get?_set_ne _ _ (by decide)]; exact Dict.get?_set_self _ _ _) g2 g4⟩
    rw [value_node (by simp) hg2 g3, value_node (by simp) hg1' g1]
    exact aliasKeys_none fun k hm => by
      rw [get?_node (by simp at hm ⊢; grind), Dict.get?_eq_none_iff, e]; exact free k hm
  | _, _, .struct (kw := kw) hk ha hg hd => nests_of fun hc hp => by
    obtain ⟨ys, g1, g2⟩ := DocAll.nests hd hc
    have e := set_keys (v := .list ys) hg
    have free : ∀ k ∈ ["values", "keys", "types"], k ∉ kw.keys := fun k hm =>
      plain_free ha hp (by simp at hm ⊢; grind) (by simp at hm ⊢; rcases hm with rfl | rfl | rfl <;> simp)
    refine ⟨kw.set "fields" (.list ys), ?_, e, .struct (hk.set _ (by simp)) (ha.set _ (by simp) (by simp))
      (Dict.get?_set_self _ _ _) g2⟩
    rw [skip_node (by simp) (free _ (by simp)), skip_node (by simp) (free _ (by simp)),
      value_node (by simp) hg (aliasValue_list g1)]
    exact aliasKeys_none fun k hm => by
      rw [get?_node (by simp at hm ⊢; grind), Dict.get?_eq_none_iff, e]; exact free k (by simp at hm ⊢; grind)
  | _, _, .union (kw := kw) hk ha hg hd => nests_of fun hc hp => by
    obtain ⟨ys, g1, g2⟩ := DocAll.nests hd hc
    have e := set_keys (v := .list ys) hg
    have free : ∀ k ∈ ["values", "keys", "fields"], k ∉ kw.keys := fun k hm =>
      plain_free ha hp (by simp at hm ⊢; grind) (by simp at hm ⊢; rcases hm with rfl | rfl | rfl <;> simp)
    refine ⟨kw.set "types" (.list ys), ?_, e, .union (hk.set _ (by simp)) (ha.set _ (by simp) (by simp))
      (Dict.get?_set_self _ _ _) g2⟩
    rw [skip_node (by simp) (free _ (by simp)), skip_node (by simp) (free _ (by simp)),
      skip_node (by simp) (free _ (by simp)), value_node (by simp) hg (aliasValue_list g1)]
    rfl
  | _, _, .optional (n := n) (kw := kw) (es := es) (u := u) hd hu ht hk hs => nests_of fun hc hp => by
    have hset : Settled u := hc u (by simp [children])
    obtain ⟨kw', e1, e2, e3⟩ := (Doc.nests hd (fun c hc => hset.child hc) hset.plain).1 n kw rfl
    refine ⟨kw' ++ es, ?_, by rw [Dict.keys_append, Dict.keys_append, e2],
      .optional e3 hu (by rw [e2]; exact ht) (fun k hm => by rw [e2]; exact hk k hm) hs⟩
    exact aliasKeys_append (d := node n kw) (d' := node n kw') e1 (fun k hm he => key_in hm (hs.keys k he))
  | _, _, .optionalUnion (kw := kw) hs hg hx hd => nests_of fun hc hp => by
    obtain ⟨ys, g1, g2⟩ := DocAll.nests hd (fun c hm => hc c (by simp [children, hm]))
    have e := set_keys (v := .list ys) hg
    have free : ∀ k ∈ ["values", "keys", "fields"], k ∉ kw.keys := fun k hm he => by
      have := hs.keys k he
      simp at hm this
      rcases hm with rfl | rfl | rfl <;> simp at this
    refine ⟨kw.set "types" (.list ys), ?_, e, .optionalUnion ⟨by rw [e]; exact hs.nodup, by rw [e]; exact hs.keys,
      by rw [Dict.get?_set_ne _ _ (by decide)]; exact hs.optional, by rw [getD_set_ne (by decide)]; exact hs.alias,
      by rw [getD_set_ne (by decide)]; exact hs.logical, by rw [getD_set_ne (by decide)]; exact hs.doc,
      by unfold restored; rw [getD_set_ne (by decide), getD_set_ne (by decide)]; exact hs.extra⟩
      (Dict.get?_set_self _ _ _) ?_ g2⟩
    · rw [skip_node (by simp) (free _ (by simp)), skip_node (by simp) (free _ (by simp)),
        skip_node (by simp) (free _ (by simp)), value_node (by simp) hg (aliasValue_list g1)]
      rfl
    · exact fun hm => hx (aliasAll_str g1 hm)
theorem DocAll.nests : ∀ {xs : List PyVal} {ts : List RType}, DocAll xs ts → (∀ t ∈ ts, Settled t) →
    ∃ ys, aliasAll aliasDict xs newRegistry = .ok (ys, newRegistry) ∧ DocAll ys ts
  | _, _, .nil => fun _ => ⟨[], rfl, .nil⟩
  | _, _, .cons (t := t) hd hds => fun hs => by
    obtain ⟨y, g1, g2⟩ := (Doc.nests hd).elem hd (hs t (by simp))
    obtain ⟨ys, g3, g4⟩ := DocAll.nests hds (fun u hu => hs u (by simp [hu]))
    exact ⟨y :: ys, by simp only [aliasAll, g1, g3, bind, Except.bind, pure, Except.pure], .cons g2 g4⟩
end

end Recap
