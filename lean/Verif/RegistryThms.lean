import Verif.TypesState
import Verif.AliasRegex

/-! # Parsing and the alias registry: C06 – C11 -/

namespace Recap

open Spec

/-! ## Helper lemmas -/

theorem checkRange_ok {v : PyVal} {lo hi : Int} (h : RType.checkRange v lo hi = .ok ()) :
    NumBetween v lo hi := by
  unfold RType.checkRange at h
  cases v <;>
    simp only [PyVal.ltInt, PyVal.gtInt, bind, Except.bind, pure, Except.pure] at h <;>
    (try cases h)
  case int => 
    simp only [NumBetween, decide_eq_true_eq] at *
    split at h
    · cases h
    split at h
    · cases h
    omega
  case bool b =>
    have e : boolInt b = (if b then (1 : Int) else 0) := rfl
    simp only [NumBetween, ← e, decide_eq_true_eq] at *
    generalize boolInt b = i at *
    split at h
    · cases h
    split at h
    · cases h
    omega
  case float m e =>
    simp only [NumBetween, decide_eq_true_eq] at *
    split at h
    · cases h
    split at h
    · cases h
    omega

theorem checkSize_ok {v w : PyVal} (h : RType.checkSize v w = .ok ()) : SizeOK v w := by
  unfold RType.checkSize at h
  unfold SizeOK
  split at h
  · cases h
  · rename_i h1
    split at h
    · rename_i h2
      left
      cases v <;> simp_all [PyVal.isNone]
    · right; exact checkRange_ok h

theorem validate_of_finish {t t' : RType} {reg reg' : Registry} (h : finish t reg = .ok (t', reg')) :
    t.validate = .ok () := by
  unfold finish at h
  obtain ⟨_, h1, _⟩ := ok_bind h
  exact h1

theorem bounded_leaf {t : RType} (hl : t.isLeaf) (h : t.validate = .ok ()) : Bounded t := by
  cases t <;> simp only [RType.isLeaf] at hl <;> simp only [RType.validate, Bounded] at *
  · exact checkRange_ok h
  · exact checkRange_ok h
  · exact checkSize_ok h
  · exact checkSize_ok h

mutual
theorem Built.bounded {reg t reg'} : Built reg t reg' → Bounded t
  | .leaf hl h => bounded_leaf hl (validate_of_finish h)
  | .list h1 h2 => by
    have := validate_of_finish h2
    simp only [RType.validate] at this
    obtain ⟨_, h3, _⟩ := ok_bind this
    simp only [Bounded]
    exact ⟨checkSize_ok h3, h1.bounded⟩
  | .map h1 h2 _ => by simp only [Bounded]; exact ⟨h1.bounded, h2.bounded⟩
  | .struct h1 _ => by simp only [Bounded]; exact h1.bounded
  | .union h1 _ => by simp only [Bounded]; exact h1.bounded
theorem BuiltAll.bounded {reg ts reg'} : BuiltAll reg ts reg' → BoundedAll ts
  | .nil => by simp only [BoundedAll]
  | .cons h1 h2 => by simp only [BoundedAll]; exact ⟨h1.bounded, h2.bounded⟩
end

/-- What the last step of `from_dict` does to the registry. -/
theorem finish_names {t t' : RType} {reg reg' : Registry} (h : finish t reg = .ok (t', reg'))
    (hp : t.isProxy = false) :
    (t.attrs.alias = .none ∧ reg' = reg) ∨
    ∃ s, t.attrs.alias = .str s ∧ s ∉ names reg ∧ FullyQualified s ∧
      reg' = reg ++ [(s, Registry.stored reg t)] := by
  unfold finish at h
  obtain ⟨_, _, h⟩ := ok_bind h
  split at h
  · obtain ⟨r, hr, h⟩ := ok_bind h
    simp only [pure, Except.pure] at h; cases h
    obtain ⟨s, h1, h2, h3, h4⟩ := registerAlias_ok hr
    exact .inr ⟨s, h1, h2, (aliasOk_iff s).mp h3, h4⟩
  · rename_i hn
    simp only [pure, Except.pure] at h; cases h
    left
    simp only [hp, Bool.not_false, Bool.and_true, Bool.not_eq_true, Bool.not_eq_false'] at hn
    refine ⟨?_, rfl⟩
    generalize t.attrs.alias = al at hn
    cases al <;> simp_all [PyVal.isNone]

/-- The aliases `new` were registered, in this order, between `reg` and `reg'`. -/
def Registered (reg : Registry) (new : List String) (reg' : Registry) : Prop :=
  new.Nodup ∧ (∀ s ∈ new, FullyQualified s ∧ s ∉ names reg) ∧ names reg' = names reg ++ new

theorem Registered.nil (reg : Registry) : Registered reg [] reg := by
  simp [Registered]

theorem Registered.append {a b c : Registry} {m n : List String} (h1 : Registered a m b)
    (h2 : Registered b n c) : Registered a (m ++ n) c := by
  obtain ⟨hm, hm2, hm3⟩ := h1
  obtain ⟨hn, hn2, hn3⟩ := h2
  refine ⟨?_, ?_, ?_⟩
  · rw [List.nodup_append]
    refine ⟨hm, hn, ?_⟩
    intro x hx y hy e
    subst e
    have := (hn2 x hy).2
    rw [hm3] at this
    exact this (List.mem_append_right _ hx)
  · intro s hs
    rcases List.mem_append.mp hs with hs | hs
    · exact hm2 s hs
    · refine ⟨(hn2 s hs).1, ?_⟩
      have := (hn2 s hs).2
      rw [hm3] at this
      exact fun h => this (List.mem_append_left _ h)
  · rw [hn3, hm3, List.append_assoc]

theorem registered_finish {t : RType} {reg reg' : Registry} (h : finish t reg = .ok (t, reg'))
    (hp : t.isProxy = false) :
    ∃ new, own t.attrs = new.map .str ∧ Registered reg new reg' := by
  rcases finish_names h hp with ⟨h1, rfl⟩ | ⟨s, h1, h2, h3, rfl⟩
  · exact ⟨[], by simp [own, h1], .nil _⟩
  · refine ⟨[s], by simp [own, h1], by simp, ?_, by simp [names]⟩
    intro x hx
    simp only [List.mem_singleton] at hx
    subst hx
    exact ⟨h3, h2⟩

mutual
theorem Built.registered {reg t reg'} :
    Built reg t reg' → ∃ new, definedAliases t = new.map .str ∧ Registered reg new reg'
  | .leaf hl h => by
    cases t with
    | list => cases hl
    | map => cases hl
    | struct => cases hl
    | union => cases hl
    | proxy r a =>
      refine ⟨[], by simp [definedAliases], ?_⟩
      unfold finish at h
      simp only [RType.isProxy, Bool.not_true, Bool.and_false, Bool.false_eq_true, if_false] at h
      obtain ⟨_, _, h⟩ := ok_bind h
      simp only [pure, Except.pure] at h; cases h
      exact .nil _
    | _ =>
      obtain ⟨new, e, r⟩ := registered_finish h rfl
      exact ⟨new, by simp only [definedAliases]; exact e, r⟩
  | .list h1 h2 => by
    obtain ⟨n1, e1, r1⟩ := h1.registered
    obtain ⟨n2, e2, r2⟩ := registered_finish h2 rfl
    exact ⟨n1 ++ n2, by simp only [definedAliases, e1, List.map_append]; rw [← e2]; rfl, r1.append r2⟩
  | .map h1 h2 h3 => by
    obtain ⟨n1, e1, r1⟩ := h1.registered
    obtain ⟨n2, e2, r2⟩ := h2.registered
    obtain ⟨n3, e3, r3⟩ := registered_finish h3 rfl
    exact ⟨n1 ++ n2 ++ n3, by simp only [definedAliases, e1, e2, List.map_append]; rw [← e3]; rfl,
      (r1.append r2).append r3⟩
  | .struct h1 h2 => by
    obtain ⟨n1, e1, r1⟩ := h1.registered
    obtain ⟨n2, e2, r2⟩ := registered_finish h2 rfl
    exact ⟨n1 ++ n2, by simp only [definedAliases, e1, List.map_append]; rw [← e2]; rfl, r1.append r2⟩
  | .union h1 h2 => by
    obtain ⟨n1, e1, r1⟩ := h1.registered
    obtain ⟨n2, e2, r2⟩ := registered_finish h2 rfl
    exact ⟨n1 ++ n2, by simp only [definedAliases, e1, List.map_append]; rw [← e2]; rfl, r1.append r2⟩
theorem BuiltAll.registered {reg ts reg'} :
    BuiltAll reg ts reg' → ∃ new, definedAliasesAll ts = new.map .str ∧ Registered reg new reg'
  | .nil => ⟨[], by simp [definedAliasesAll], .nil _⟩
  | .cons h1 h2 => by
    obtain ⟨n1, e1, r1⟩ := h1.registered
    obtain ⟨n2, e2, r2⟩ := h2.registered
    exact ⟨n1 ++ n2, by simp [definedAliasesAll, e1, e2], r1.append r2⟩
end

theorem shape_withAttrs (t : RType) (a : Attrs) : shape (t.withAttrs a) = (shape t).withAttrs a := by
  cases t <;> simp [shape, RType.withAttrs]

mutual
theorem shape_deepcopy (reg : Registry) : ∀ t : RType, shape (t.deepcopy reg) = shape t
  | .list t .. => by simp [RType.deepcopy, shape, shape_deepcopy reg t]
  | .map k v _ => by simp [RType.deepcopy, shape, shape_deepcopy reg k, shape_deepcopy reg v]
  | .struct fs _ => by simp [RType.deepcopy, shape, shape_deepcopyList reg fs]
  | .union ts _ => by simp [RType.deepcopy, shape, shape_deepcopyList reg ts]
  | .proxy .none _ => by simp [RType.deepcopy, shape]
  | .proxy (some _) _ => by simp [RType.deepcopy]
  | .null _ => by simp [RType.deepcopy]
  | .bool _ => by simp [RType.deepcopy]
  | .int .. => by simp [RType.deepcopy]
  | .float .. => by simp [RType.deepcopy]
  | .string .. => by simp [RType.deepcopy]
  | .bytes .. => by simp [RType.deepcopy]
  | .enum .. => by simp [RType.deepcopy]
theorem shape_deepcopyList (reg : Registry) :
    ∀ ts : List RType, shapeAll (RType.deepcopyList reg ts) = shapeAll ts
  | [] => by simp [RType.deepcopyList]
  | t :: ts => by simp [RType.deepcopyList, shapeAll, shape_deepcopy reg t, shape_deepcopyList reg ts]
end

theorem shape_stored (reg : Registry) (t : RType) :
    shape (Registry.stored reg t) = shape (definition t) := by
  unfold Registry.stored definition
  rw [shape_withAttrs, shape_withAttrs, shape_deepcopy]
  simp only [Dict.erase]
  congr 3
  funext kv
  by_cases h : kv.1 = "default" <;> simp [h]

/-- The type `u` is registered under its alias, if it has one. -/
def HasDef (reg : Registry) (u : RType) : Prop :=
  ∀ s, u.attrs.alias = .str s → u.isProxy = false →
    ∃ d, Registry.find? reg s = some d ∧ shape d = shape (definition u)

theorem HasDef.grows {reg reg' : Registry} {u : RType} (h : HasDef reg u) (hg : Grows reg reg') :
    HasDef reg' u := by
  intro s hs hp
  obtain ⟨d, h1, h2⟩ := h s hs hp
  exact ⟨d, hg.find? h1, h2⟩

theorem hasDef_finish {t t' : RType} {reg reg' : Registry} (h : finish t reg = .ok (t', reg')) :
    HasDef reg' t := by
  intro s hs hp
  rcases finish_names h hp with ⟨h1, -⟩ | ⟨s', h1, h2, -, rfl⟩
  · rw [h1] at hs; cases hs
  · rw [h1] at hs; cases hs
    refine ⟨_, ?_, shape_stored reg t⟩
    rw [find?_append]
    have : Registry.find? reg s = .none := by
      cases hf : Registry.find? reg s with
      | none => rfl
      | some x => exact absurd ((find?_isSome_iff reg s).mp (by simp [hf])) h2
    simp [this, Registry.find?]

mutual
theorem Built.hasDef {reg t reg'} : Built reg t reg' → ∀ u, Sub u t → HasDef reg' u
  | .leaf hl h => by
    intro u hu
    cases hu with
    | refl => exact hasDef_finish h
    | list => cases hl
    | key => cases hl
    | value => cases hl
    | field => cases hl
    | member => cases hl
  | .list h1 h2 => by
    intro u hu
    cases hu with
    | refl => exact hasDef_finish h2
    | list hu => exact (h1.hasDef u hu).grows (grows_finish h2)
  | .map h1 h2 h3 => by
    intro u hu
    cases hu with
    | refl => exact hasDef_finish h3
    | key hu => exact ((h1.hasDef u hu).grows h2.grows).grows (grows_finish h3)
    | value hu => exact (h2.hasDef u hu).grows (grows_finish h3)
  | .struct h1 h2 => by
    intro u hu
    cases hu with
    | refl => exact hasDef_finish h2
    | field hm hu => exact (h1.hasDef _ hm u hu).grows (grows_finish h2)
  | .union h1 h2 => by
    intro u hu
    cases hu with
    | refl => exact hasDef_finish h2
    | member hm hu => exact (h1.hasDef _ hm u hu).grows (grows_finish h2)
theorem BuiltAll.hasDef {reg ts reg'} :
    BuiltAll reg ts reg' → ∀ t ∈ ts, ∀ u, Sub u t → HasDef reg' u
  | .nil => fun _ ht => absurd ht List.not_mem_nil
  | .cons h1 h2 => fun t ht u hu => (List.mem_cons.mp ht).elim
    (fun e => (h1.hasDef u (e ▸ hu)).grows h2.grows) (fun ht => h2.hasDef t ht u hu)
end

/-! ## C06 -/

/-- C06: every type that `from_dict` returns respects the documented bounds, at every depth. -/
theorem C06_parsed_types_bounded (v : PyVal) (reg reg' : Registry) (t : RType)
    (h : fromDict v reg = .ok (t, reg')) : Bounded t :=
  (built_of_fromDict h).bounded

/-- C06, stated for every nested type: whatever `u` occurs in a parsed type respects the bounds
of its own class. -/
theorem C06_nested_types_bounded (v : PyVal) (reg reg' : Registry) (t u : RType)
    (h : fromDict v reg = .ok (t, reg')) (hu : Sub u t) : Bounded u := by
  have ht := C06_parsed_types_bounded v reg reg' t h
  clear h
  have hall : ∀ {ts : List RType} {x : RType}, BoundedAll ts → x ∈ ts → Bounded x := by
    intro ts x hb hx
    induction ts with
    | nil => cases hx
    | cons y ys ih =>
      simp only [BoundedAll] at hb
      rcases List.mem_cons.mp hx with rfl | hx
      · exact hb.1
      · exact ih hb.2 hx
  induction hu with
  | refl => exact ht
  | list _ ih => simp only [Bounded] at ht; exact ih ht.2
  | key _ ih => simp only [Bounded] at ht; exact ih ht.1
  | value _ ih => simp only [Bounded] at ht; exact ih ht.2
  | field hm _ ih => simp only [Bounded] at ht; exact ih (hall ht hm)
  | member hm _ ih => simp only [Bounded] at ht; exact ih (hall ht hm)

/-- A document with a union (which `validate` does not descend into) is accepted. -/
example : (fromDict (.list [.str "null", .dict [("type", .str "list"),
    ("values", .dict [("type", .str "int"), ("bits", .int 32)])]]) newRegistry).isOk = true := by
  decide +kernel

/-- The bound is checked inside unions too: bits = 2^31 is refused. -/
example : fromDict (.list [.str "null", .dict [("type", .str "int"), ("bits", .int 2147483648)]])
    newRegistry = .error .valueError := by decide +kernel

/-! ## C07 -/

/-- C07: from a recursion depth on that depends only on the size of the document, the result of
`from_dict` is a type or a Python exception, and it is always the same one. -/
theorem C07_from_dict_terminates (v : PyVal) (reg : Registry) :
    ∃ r : Except PyErr (RType × Registry), r ≠ .error .fuel ∧
      ∀ n, v.size ≤ n → fromDictF n v reg = r :=
  ⟨fromDict v reg, fromDict_ne_fuel v reg, fun _ h => fromDictF_eq_fromDict h reg⟩

/-- The `optional` rewrite recurses: a doubly optional document still needs only depth ≤ size. -/
example : (fromDict (.dict [("type", .str "int"), ("bits", .int 8), ("optional", .bool true)])
    newRegistry).isOk = true := by decide +kernel

/-! ## C08 -/

/-- C08: the aliases defined by a parsed document are fully qualified strings, pairwise distinct
and new, and exactly these are added to the registry. -/
theorem C08_aliases_distinct_and_registered (v : PyVal) (reg reg' : Registry) (t : RType)
    (h : fromDict v reg = .ok (t, reg')) :
    ∃ new : List String, definedAliases t = new.map .str ∧ new.Nodup ∧
      (∀ s ∈ new, FullyQualified s ∧ s ∉ names reg) ∧ names reg' = names reg ++ new :=
  (built_of_fromDict h).registered

/-- C08: each alias defined anywhere in a parsed document is registered, and stands for the type
that carries it, without the alias, doc and default. -/
theorem C08_alias_stands_for_its_type (v : PyVal) (reg reg' : Registry) (t u : RType) (s : String)
    (h : fromDict v reg = .ok (t, reg')) (hu : Sub u t) (hs : u.attrs.alias = .str s)
    (hp : u.isProxy = false) :
    ∃ d, Registry.fromAlias reg' (.str s) = .ok d ∧ shape d = shape (definition u) := by
  obtain ⟨d, h1, h2⟩ := (built_of_fromDict h).hasDef u hu s hs hp
  exact ⟨d, by simp [Registry.fromAlias, h1], h2⟩

/-- A document with two aliases, one nested, parses. -/
example : ((fun r => names r.2) <$> fromDict (.dict [("type", .str "struct"), ("alias", .str "com.A"),
    ("fields", .list [.dict [("type", .str "int"), ("bits", .int 8), ("alias", .str "com.B")]])]) [])
    = .ok ["com.B", "com.A"] := by decide +kernel

/-! ## C09 -/

/-- C09: whatever is done with a registry afterwards (parsing, alias substitution, registration,
successful or not), every alias in it keeps its definition. -/
theorem C09_aliases_never_overwritten (reg : Registry) (ops : List RegOp) (s : String) (t : RType)
    (h : Registry.fromAlias reg (.str s) = .ok t) :
    Registry.fromAlias (runOps reg ops) (.str s) = .ok t := by
  unfold Registry.fromAlias at h ⊢
  simp only at h ⊢
  cases hf : Registry.find? reg s with
  | none => simp [hf] at h
  | some t' =>
    simp only [hf] at h
    cases h
    rw [(runOps_grows ops reg).find? hf]

/-- C09: registering an alias that is already registered raises, and changes nothing. -/
theorem C09_second_registration_raises (reg : Registry) (t : RType) (s : String)
    (hs : t.attrs.alias = .str s) (hm : s ∈ names reg) :
    Registry.registerAlias reg t = .error .valueError := by
  unfold Registry.registerAlias
  simp only [hs, (find?_isSome_iff reg s).mpr hm, if_true]

/-- The history may contain calls that raise half-way: here the first field is registered and the
second one fails, and the registry keeps the first alias. -/
example : names (runOps [] [.fromDict (.dict [("type", .str "struct"),
    ("fields", .list [.dict [("type", .str "bool"), ("alias", .str "a.b")], .dict [("type", .str "int")]])]),
    .registerAlias (.null { alias := .str "a.b" }), .registerAlias (.null { alias := .str "a.c" })])
    = ["a.b", "a.c"] := by decide +kernel

/-! ## C10 -/

/-- C10: an alias that is not registered yet is accepted exactly if it is fully qualified. -/
theorem C10_alias_grammar (reg : Registry) (t : RType) (s : String)
    (hs : t.attrs.alias = .str s) (hn : s ∉ names reg) :
    (∃ reg', Registry.registerAlias reg t = .ok reg') ↔ FullyQualified s := by
  rw [← aliasOk_iff]
  have : (Registry.find? reg s).isSome = false := by
    cases hf : (Registry.find? reg s).isSome with
    | false => rfl
    | true => exact absurd ((find?_isSome_iff reg s).mp hf) hn
  unfold Registry.registerAlias
  simp only [hs, this, Bool.false_eq_true, if_false]
  cases aliasOk s <;> simp

/-- C10: the grammar is the regular expression in the code. -/
theorem C10_alias_regex (reg : Registry) (t : RType) (s : String)
    (hs : t.attrs.alias = .str s) (hn : s ∉ names reg) :
    (∃ reg', Registry.registerAlias reg t = .ok reg') ↔ Re.Matches aliasRe s.toList := by
  rw [C10_alias_grammar reg t s hs hn, ← aliasOk_iff, aliasOk_iff_regex]

example : FullyQualified "com.example_1._X" := by
  rw [← aliasOk_iff]; decide +kernel

example : ¬ FullyQualified "com..x" ∧ ¬ FullyQualified "com" ∧ ¬ FullyQualified "com.1x"
    ∧ ¬ FullyQualified "com.x\n" := by
  simp only [← aliasOk_iff]; decide +kernel

/-! ## C11 -/

theorem builtin_not_ok : ∀ s ∈ names builtinAliases, aliasOk s = false := by decide +kernel

/-- C11: no alias that `register_alias` accepts is the name of a built-in alias. -/
theorem C11_user_alias_is_not_builtin (reg reg' : Registry) (t : RType) (s : String)
    (h : Registry.registerAlias reg t = .ok reg') (hs : t.attrs.alias = .str s) :
    s ∉ names builtinAliases := by
  obtain ⟨s', h1, -, h3, -⟩ := registerAlias_ok h
  rw [h1] at hs; cases hs
  intro hm
  rw [builtin_not_ok s hm] at h3
  cases h3

/-- C11: in every registry reachable from a new one, every built-in alias has its built-in
definition. -/
theorem C11_builtins_stable (ops : List RegOp) (s : String) (t : RType)
    (h : (s, t) ∈ builtinAliases) :
    Registry.fromAlias (runOps newRegistry ops) (.str s) = .ok t := by
  apply C09_aliases_never_overwritten
  have : ∀ p ∈ builtinAliases, Registry.fromAlias newRegistry (.str p.1) = .ok p.2 := by
    decide +kernel
  exact this (s, t) h

example : ("uuid", RType.string (.int 36) (.bool false) { logical := .str "build.recap.UUID" })
    ∈ builtinAliases := by decide +kernel

end Recap
