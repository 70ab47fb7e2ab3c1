import Verif.Built

/-!
# The registry left behind by `from_dict` and `alias_dict`, also when they raise

`fromDict` and `aliasDict` return the registry only when the call succeeds.  A call that raises
half-way leaves the aliases it registered before; these definitions give that registry.
-/

namespace Recap

/-- The registry after `[from_dict(x, registry) for x in xs]` (types.py 411-417, 462-464, 470-472).
`f` is `from_dict`, `g` the registry after it. -/
def parseAllAfter (f : PyVal → Registry → Except PyErr (RType × Registry))
    (g : PyVal → Registry → Registry) : List PyVal → Registry → Registry
  | [], reg => reg
  | x :: xs, reg =>
    match f x reg with
    | .ok (_, reg') => parseAllAfter f g xs reg'
    | .error _ => g x reg

/-- The registry after the construction of a type object (types.py 410-477). -/
def constructAfter (f : PyVal → Registry → Except PyErr (RType × Registry))
    (g : PyVal → Registry → Registry) (typeName : PyVal) (kw : Dict) (reg : Registry) : Registry :=
  match typeName with
  | .list xs => parseAllAfter f g (xs.filter keepMember) reg
  | .str name =>
    if name = "list" then
      match kw.get? "values" with
      | .none => reg
      | some v => g v reg
    else if name = "map" then
      match kw.get? "keys", kw.get? "values" with
      | some k, some v => parseAllAfter f g [k, v] reg
      | _, _ => reg
    else if name = "struct" then
      match (kw.getD "fields" (.list [])).iter with
      | .error _ => reg
      | .ok xs => parseAllAfter f g xs reg
    else if name = "union" then
      match kw.get? "types" with
      | .none => reg
      | some v => match v.iter with
        | .error _ => reg
        | .ok xs => parseAllAfter f g xs reg
    else reg
  | _ => reg

/-- The registry after lines 479-485 of types.py: the alias is registered last. -/
def finishAfter (t : RType) (reg : Registry) : Registry :=
  match finish t reg with
  | .ok (_, reg') => reg'
  | .error _ => reg

/-- The registry after `from_dict` (types.py 365-485), with a bound on the recursion depth. -/
def fromDictAfterF : Nat → PyVal → Registry → Registry
  | 0, _, reg => reg
  | n + 1, v, reg =>
    match normalise v >>= prepare with
    | .error _ => reg
    | .ok d =>
      match construct fromDict (d.getD "type" .none) (d.erase "type") reg with
      | .ok (t, reg') => finishAfter t reg'
      | .error _ =>
        constructAfter fromDict (fromDictAfterF n) (d.getD "type" .none) (d.erase "type") reg

/-- The registry after `from_dict(v, registry)` (types.py 365-485), whether or not it raises. -/
def fromDictAfter (v : PyVal) (reg : Registry) : Registry := fromDictAfterF v.size v reg

/-- The registry after `[alias_dict(t, registry) ... for t in xs]` (types.py 756-759). -/
def aliasAllAfter (f : Dict → Registry → Except PyErr (Dict × Registry))
    (g : Dict → Registry → Registry) : List PyVal → Registry → Registry
  | [], reg => reg
  | .dict d :: xs, reg =>
    match f d reg with
    | .ok (_, reg') => aliasAllAfter f g xs reg'
    | .error _ => g d reg
  | _ :: xs, reg => aliasAllAfter f g xs reg

/-- The registry after the loop over the keys with nested types (types.py 753-761). -/
def aliasKeysAfter (f : Dict → Registry → Except PyErr (Dict × Registry))
    (g : Dict → Registry → Registry) : List String → Dict → Registry → Registry
  | [], _, reg => reg
  | k :: ks, d, reg =>
    match d.get? k with
    | some (.list xs) =>
      match aliasAll f xs reg with
      | .ok (_, reg') => aliasKeysAfter f g ks d reg'
      | .error _ => aliasAllAfter f g xs reg
    | some (.dict d') =>
      match f d' reg with
      | .ok (_, reg') => aliasKeysAfter f g ks d reg'
      | .error _ => g d' reg
    | _ => aliasKeysAfter f g ks d reg

/-- The registry after `alias_dict` (types.py 718-763), with a bound on the recursion depth. -/
def aliasDictAfterF : Nat → Dict → Registry → Registry
  | 0, _, reg => reg
  | n + 1, d, reg =>
    match aliasDict d reg with
    | .ok (_, reg') => reg'
    | .error _ =>
      match fromDict (.dict d) reg with
      | .error _ => fromDictAfter (.dict d) reg
      | .ok (_, reg') =>
        aliasKeysAfter aliasDict (aliasDictAfterF n) ["values", "keys", "fields", "types"] d reg'

/-- The registry after `alias_dict(d, registry)` (types.py 718-763), whether or not it raises. -/
def aliasDictAfter (d : Dict) (reg : Registry) : Registry :=
  aliasDictAfterF (PyVal.dict d).size d reg

/-- The registry after `register_alias` (types.py 340-356). -/
def registerAfter (t : RType) (reg : Registry) : Registry :=
  match reg.registerAlias t with
  | .ok reg' => reg'
  | .error _ => reg

/-- One use of a shared registry.  `to_dict` always makes a registry of its own
(types.py 569-571), and `from_alias` and `resolve` do not write, so they need no entry. -/
inductive RegOp where
  | fromDict (v : PyVal)
  | aliasDict (d : Dict)
  | registerAlias (t : RType)

/-- The registry after one operation, whether or not it raises. -/
def RegOp.run (reg : Registry) : RegOp → Registry
  | .fromDict v => fromDictAfter v reg
  | .aliasDict d => aliasDictAfter d reg
  | .registerAlias t => registerAfter t reg

/-- The registry after a history of operations. -/
def runOps (reg : Registry) (ops : List RegOp) : Registry := ops.foldl RegOp.run reg

/-! ## Agreement with the model on success -/

theorem fromDictAfter_ok {v : PyVal} {reg reg' : Registry} {t : RType}
    (h : fromDict v reg = .ok (t, reg')) : fromDictAfter v reg = reg' := by
  have hpos := v.size_pos
  obtain ⟨n, hn⟩ : ∃ n, v.size = n + 1 := ⟨v.size - 1, by omega⟩
  unfold fromDictAfter
  rw [hn]
  rw [fromDict_eq] at h
  obtain ⟨d0, h0, h⟩ := ok_bind h
  obtain ⟨d, hd, h⟩ := ok_bind h
  obtain ⟨⟨t', r1⟩, hc, h⟩ := ok_bind h
  have hp : (normalise v >>= prepare) = .ok d := by simp [h0, bind, Except.bind, hd]
  simp only [fromDictAfterF, hp, hc, finishAfter, h]

theorem aliasDictAfter_ok {d d' : Dict} {reg reg' : Registry}
    (h : aliasDict d reg = .ok (d', reg')) : aliasDictAfter d reg = reg' := by
  have hpos := (PyVal.dict d).size_pos
  obtain ⟨n, hn⟩ : ∃ n, (PyVal.dict d).size = n + 1 := ⟨(PyVal.dict d).size - 1, by omega⟩
  unfold aliasDictAfter
  rw [hn]
  simp only [aliasDictAfterF, h]

/-! ## Registries only grow -/

/-- `reg'` is `reg` with new entries at the end, whose names are new and pairwise distinct. -/
def Grows (reg reg' : Registry) : Prop :=
  ∃ new : Registry, reg' = reg ++ new ∧ (Spec.names new).Nodup ∧
    ∀ s ∈ Spec.names new, s ∉ Spec.names reg ∧ aliasOk s = true

theorem Grows.refl (reg : Registry) : Grows reg reg := ⟨[], by simp [Spec.names]⟩

theorem Grows.trans {a b c : Registry} (h1 : Grows a b) (h2 : Grows b c) : Grows a c := by
  obtain ⟨n1, rfl, hn1, hs1⟩ := h1
  obtain ⟨n2, rfl, hn2, hs2⟩ := h2
  refine ⟨n1 ++ n2, by simp, ?_, ?_⟩
  · simp only [Spec.names, List.map_append] at *
    rw [List.nodup_append]
    refine ⟨hn1, hn2, ?_⟩
    intro a ha b hb e
    subst e
    have := (hs2 a hb).1
    simp only [List.mem_append, not_or] at this
    exact this.2 ha
  · intro s hs
    simp only [Spec.names, List.map_append, List.mem_append] at *
    rcases hs with hs | hs
    · exact hs1 s hs
    · have := hs2 s hs
      simp only [not_or] at this
      exact ⟨this.1.1, this.2⟩

theorem find?_isSome_iff (reg : Registry) (s : String) :
    (Registry.find? reg s).isSome = true ↔ s ∈ Spec.names reg := by
  induction reg with
  | nil => simp [Registry.find?, Spec.names]
  | cons kt reg ih =>
    obtain ⟨k, t⟩ := kt
    simp only [Registry.find?, Spec.names, List.map_cons, List.mem_cons] at *
    split
    · rename_i h; simp [h]
    · rename_i h
      rw [ih]
      constructor
      · exact .inr
      · rintro (h' | h')
        · exact absurd h'.symm h
        · exact h'

theorem find?_append (a b : Registry) (s : String) :
    Registry.find? (a ++ b) s = match Registry.find? a s with
      | some t => some t
      | .none => Registry.find? b s := by
  induction a with
  | nil => simp [Registry.find?]
  | cons kt a ih =>
    obtain ⟨k, t⟩ := kt
    simp only [List.cons_append, Registry.find?]
    split <;> simp_all

theorem Grows.find? {reg reg' : Registry} (h : Grows reg reg') {s : String} {t : RType}
    (hs : Registry.find? reg s = some t) : Registry.find? reg' s = some t := by
  obtain ⟨new, rfl, -, -⟩ := h
  rw [find?_append, hs]

theorem registerAlias_ok {reg reg' : Registry} {t : RType} (h : Registry.registerAlias reg t = .ok reg') :
    ∃ s, t.attrs.alias = .str s ∧ s ∉ Spec.names reg ∧ aliasOk s = true ∧
      reg' = reg ++ [(s, Registry.stored reg t)] := by
  unfold Registry.registerAlias at h
  split at h
  · cases h
  · rename_i s hs
    split at h
    · cases h
    rename_i h1
    split at h
    · cases h
    rename_i h2
    cases h
    refine ⟨s, hs, ?_, by simpa using h2, rfl⟩
    intro hm
    exact h1 ((find?_isSome_iff _ _).mpr hm)
  · cases h

theorem grows_register {reg reg' : Registry} {t : RType} (h : Registry.registerAlias reg t = .ok reg') :
    Grows reg reg' := by
  obtain ⟨s, -, hn, hok, rfl⟩ := registerAlias_ok h
  refine ⟨_, rfl, by simp [Spec.names], ?_⟩
  intro x hx
  simp only [Spec.names, List.map_cons, List.map_nil, List.mem_singleton] at hx
  subst hx
  exact ⟨hn, hok⟩

theorem grows_finish {reg reg' : Registry} {t t' : RType} (h : finish t reg = .ok (t', reg')) :
    Grows reg reg' := by
  unfold finish at h
  obtain ⟨_, _, h⟩ := ok_bind h
  split at h
  · obtain ⟨r, hr, h⟩ := ok_bind h
    simp only [pure, Except.pure] at h; cases h
    exact grows_register hr
  · simp only [pure, Except.pure] at h; cases h
    exact .refl _

mutual
theorem Built.grows {reg t reg'} : Built reg t reg' → Grows reg reg'
  | .leaf _ h => grows_finish h
  | .list h1 h2 => (Built.grows h1).trans (grows_finish h2)
  | .map h1 h2 h3 => ((Built.grows h1).trans (Built.grows h2)).trans (grows_finish h3)
  | .struct h1 h2 => (BuiltAll.grows h1).trans (grows_finish h2)
  | .union h1 h2 => (BuiltAll.grows h1).trans (grows_finish h2)
theorem BuiltAll.grows {reg ts reg'} : BuiltAll reg ts reg' → Grows reg reg'
  | .nil => .refl _
  | .cons h1 h2 => (Built.grows h1).trans (BuiltAll.grows h2)
end

theorem grows_fromDict {v : PyVal} {reg reg' : Registry} {t : RType}
    (h : fromDict v reg = .ok (t, reg')) : Grows reg reg' := (built_of_fromDict h).grows

theorem grows_parseAllAfter {g : PyVal → Registry → Registry} (hg : ∀ v reg, Grows reg (g v reg))
    (xs : List PyVal) (reg : Registry) : Grows reg (parseAllAfter fromDict g xs reg) := by
  induction xs generalizing reg with
  | nil => exact .refl _
  | cons x xs ih =>
    simp only [parseAllAfter]
    split
    · rename_i h; exact (grows_fromDict h).trans (ih _)
    · exact hg _ _

theorem grows_constructAfter {g : PyVal → Registry → Registry} (hg : ∀ v reg, Grows reg (g v reg))
    (tn : PyVal) (kw : Dict) (reg : Registry) : Grows reg (constructAfter fromDict g tn kw reg) := by
  unfold constructAfter
  repeat' split
  all_goals first
    | exact .refl _
    | exact hg _ _
    | exact grows_parseAllAfter hg _ _

theorem grows_construct {tn : PyVal} {kw : Dict} {reg reg' : Registry} {t : RType} {v : PyVal}
    {d d0 : Dict} (h0 : normalise v = .ok d0) (h1 : prepare d0 = .ok d) (htn : tn = d.getD "type" .none)
    (hkw : kw = d.erase "type")
    (h : construct fromDict tn kw reg = .ok (t, reg')) : Grows reg reg' := by
  subst htn hkw
  have hA := argOK_prepare (m := v.size - 1) (by have := v.size_pos; omega) h0 h1
  -- replace the registration step by one that cannot fail
  have hA' := hA.erase "type"
  generalize d.getD "type" .none = tn at h
  generalize d.erase "type" = kw at h
  have hp : ∀ {xs : List PyVal} {reg reg' ts}, parseAll fromDict xs reg = .ok (ts, reg') →
      Grows reg reg' := fun h => (parseAll_built (fun x _ reg t reg' h => built_of_fromDict h) h).grows
  cases tn with
  | list xs =>
    rw [construct_list] at h
    obtain ⟨⟨ts, r1⟩, h1, h⟩ := ok_bind h
    simp only at h
    split at h
    · cases h
    · obtain ⟨a, _, h⟩ := ok_bind h
      simp only [pure, Except.pure] at h; cases h
      exact hp h1
  | str name =>
    by_cases hcore : name ∈ coreNames
    · simp only [coreNames, List.mem_cons, List.not_mem_nil, or_false] at hcore
      rcases hcore with rfl | rfl | rfl | rfl | rfl | rfl | rfl | rfl | rfl | rfl | rfl
      · rw [construct_null] at h
        obtain ⟨a, _, h⟩ := ok_bind h
        simp only [pure, Except.pure] at h; cases h
        exact .refl _
      · rw [construct_bool] at h
        obtain ⟨a, _, h⟩ := ok_bind h
        simp only [pure, Except.pure] at h; cases h
        exact .refl _
      · rw [construct_int] at h
        split at h
        · cases h
        obtain ⟨a, _, h⟩ := ok_bind h
        simp only [pure, Except.pure] at h; cases h
        exact .refl _
      · rw [construct_float] at h
        split at h
        · cases h
        obtain ⟨a, _, h⟩ := ok_bind h
        simp only [pure, Except.pure] at h; cases h
        exact .refl _
      · rw [construct_string] at h
        obtain ⟨a, _, h⟩ := ok_bind h
        simp only [pure, Except.pure] at h; cases h
        exact .refl _
      · rw [construct_bytes] at h
        obtain ⟨a, _, h⟩ := ok_bind h
        simp only [pure, Except.pure] at h; cases h
        exact .refl _
      · rw [construct_listT] at h
        split at h
        · cases h
        obtain ⟨⟨t1, r1⟩, h1, h⟩ := ok_bind h
        obtain ⟨a, _, h⟩ := ok_bind h
        simp only [pure, Except.pure] at h; cases h
        exact grows_fromDict h1
      · rw [construct_map] at h
        split at h
        · obtain ⟨⟨t1, r1⟩, h1, h⟩ := ok_bind h
          obtain ⟨⟨t2, r2⟩, h2, h⟩ := ok_bind h
          obtain ⟨a, _, h⟩ := ok_bind h
          simp only [pure, Except.pure] at h; cases h
          exact (grows_fromDict h1).trans (grows_fromDict h2)
        · cases h
      · rw [construct_struct] at h
        obtain ⟨xs, hi, h⟩ := ok_bind h
        obtain ⟨⟨ts, r1⟩, h1, h⟩ := ok_bind h
        obtain ⟨a, _, h⟩ := ok_bind h
        simp only [pure, Except.pure] at h; cases h
        exact hp h1
      · rw [construct_enum] at h
        split at h
        · cases h
        obtain ⟨a, _, h⟩ := ok_bind h
        simp only [pure, Except.pure] at h; cases h
        exact .refl _
      · rw [construct_union] at h
        split at h
        · cases h
        obtain ⟨xs, hi, h⟩ := ok_bind h
        obtain ⟨⟨ts, r1⟩, h1, h⟩ := ok_bind h
        obtain ⟨a, _, h⟩ := ok_bind h
        simp only [pure, Except.pure] at h; cases h
        exact hp h1
    · rw [construct_proxy _ _ _ hcore] at h
      split at h
      · cases h
      obtain ⟨a, _, h⟩ := ok_bind h
      simp only [pure, Except.pure] at h; cases h
      exact .refl _
  | _ => simp [construct] at h

theorem grows_fromDictAfterF (n : Nat) : ∀ v reg, Grows reg (fromDictAfterF n v reg) := by
  induction n with
  | zero => intro v reg; exact .refl _
  | succ n ih =>
    intro v reg
    simp only [fromDictAfterF]
    cases hp : (normalise v >>= prepare) with
    | error e => exact .refl _
    | ok d =>
      obtain ⟨d0, h0, h1⟩ := ok_bind hp
      simp only
      split
      · rename_i h
        refine (grows_construct h0 h1 rfl rfl h).trans ?_
        unfold finishAfter
        split
        · rename_i h; exact grows_finish h
        · exact .refl _
      · exact grows_constructAfter ih _ _ _

theorem grows_fromDictAfter (v : PyVal) (reg : Registry) : Grows reg (fromDictAfter v reg) :=
  grows_fromDictAfterF _ _ _

theorem grows_aliasAll {f : Dict → Registry → Except PyErr (Dict × Registry)} {xs ys : List PyVal}
    (hf : ∀ d, PyVal.dict d ∈ xs → ∀ reg d' reg', f d reg = .ok (d', reg') → Grows reg reg')
    {reg reg' : Registry} (h : aliasAll f xs reg = .ok (ys, reg')) : Grows reg reg' := by
  induction xs generalizing reg ys with
  | nil => simp only [aliasAll] at h; cases h; exact .refl _
  | cons x xs ih =>
    simp only [aliasAll] at h
    obtain ⟨⟨x', r1⟩, h1, h⟩ := ok_bind h
    obtain ⟨⟨ys', r2⟩, h2, h⟩ := ok_bind h
    simp only [pure, Except.pure] at h; cases h
    refine Grows.trans ?_ (ih (fun d hd => hf d (by simp [hd])) h2)
    unfold aliasElem at h1
    split at h1
    · rename_i d
      obtain ⟨⟨d', r3⟩, h3, h1⟩ := ok_bind h1
      simp only [pure, Except.pure] at h1; cases h1
      exact hf d (by simp) _ _ _ h3
    · cases h1; exact .refl _

theorem grows_aliasKeys {f : Dict → Registry → Except PyErr (Dict × Registry)} {ks : List String}
    (hn : ks.Nodup) {d e : Dict}
    (hl : ∀ k ∈ ks, ∀ xs, d.get? k = some (.list xs) → ∀ c, PyVal.dict c ∈ xs →
      ∀ reg d' reg', f c reg = .ok (d', reg') → Grows reg reg')
    (hd : ∀ k ∈ ks, ∀ c, d.get? k = some (.dict c) →
      ∀ reg d' reg', f c reg = .ok (d', reg') → Grows reg reg')
    {reg reg' : Registry} (h : aliasKeys f ks d reg = .ok (e, reg')) : Grows reg reg' := by
  induction ks generalizing d reg with
  | nil => simp only [aliasKeys] at h; cases h; exact .refl _
  | cons k ks ih =>
    simp only [List.nodup_cons] at hn
    have hne : ∀ k' ∈ ks, k ≠ k' := fun k' hk' e => hn.1 (e ▸ hk')
    simp only [aliasKeys] at h
    split at h
    · rename_i xs hx
      obtain ⟨⟨ys, r1⟩, h1, h⟩ := ok_bind h
      refine (grows_aliasAll (hl k (by simp) xs hx) h1).trans (ih hn.2 ?_ ?_ h)
      · intro k' hk' xs' hx'
        rw [Dict.get?_set_ne _ _ (hne k' hk')] at hx'
        exact hl k' (by simp [hk']) xs' hx'
      · intro k' hk' xs' hx'
        rw [Dict.get?_set_ne _ _ (hne k' hk')] at hx'
        exact hd k' (by simp [hk']) xs' hx'
    · rename_i d' hx
      obtain ⟨⟨ys, r1⟩, h1, h⟩ := ok_bind h
      refine (hd k (by simp) d' hx _ _ _ h1).trans (ih hn.2 ?_ ?_ h)
      · intro k' hk' xs' hx'
        rw [Dict.get?_set_ne _ _ (hne k' hk')] at hx'
        exact hl k' (by simp [hk']) xs' hx'
      · intro k' hk' xs' hx'
        rw [Dict.get?_set_ne _ _ (hne k' hk')] at hx'
        exact hd k' (by simp [hk']) xs' hx'
    · exact ih hn.2 (fun k' hk' => hl k' (by simp [hk'])) (fun k' hk' => hd k' (by simp [hk'])) h

theorem grows_aliasDict {d d' : Dict} {reg reg' : Registry} (h : aliasDict d reg = .ok (d', reg')) :
    Grows reg reg' := by
  suffices H : ∀ (n : Nat) (d : Dict), (PyVal.dict d).size ≤ n → ∀ reg d' reg',
      aliasDict d reg = .ok (d', reg') → Grows reg reg' from H _ d (Nat.le_refl _) _ _ _ h
  intro n
  induction n with
  | zero => intro d h; have := (PyVal.dict d).size_pos; omega
  | succ n ih =>
    intro d hd reg d' reg' h
    rw [aliasDict_eq] at h
    unfold aliasStep at h
    split at h
    · cases h; exact .refl _
    · obtain ⟨⟨t, r1⟩, h1, h⟩ := ok_bind h
      refine (grows_fromDict h1).trans ?_
      simp only at h
      split at h
      · simp only [pure, Except.pure] at h; cases h; exact .refl _
      · refine grows_aliasKeys (by simp) ?_ ?_ h
        · intro k _ xs hx c hc
          refine ih c ?_
          have h1 := PyVal.size_lt_of_mem_dict (Dict.mem_of_get? hx)
          have h2 := PyVal.size_lt_of_mem hc
          omega
        · intro k _ c hx
          refine ih c ?_
          have h1 := PyVal.size_lt_of_mem_dict (Dict.mem_of_get? hx)
          omega

theorem grows_aliasAllAfter {g : Dict → Registry → Registry} (hg : ∀ v reg, Grows reg (g v reg))
    (xs : List PyVal) (reg : Registry) : Grows reg (aliasAllAfter aliasDict g xs reg) := by
  induction xs generalizing reg with
  | nil => exact .refl _
  | cons x xs ih =>
    unfold aliasAllAfter
    split
    · rename_i h; cases h
    · rename_i h; cases h
      split
      · rename_i h; exact (grows_aliasDict h).trans (ih _)
      · exact hg _ _
    · rename_i h; cases h; exact ih _

theorem grows_aliasKeysAfter {g : Dict → Registry → Registry} (hg : ∀ v reg, Grows reg (g v reg))
    (ks : List String) (d : Dict) (reg : Registry) :
    Grows reg (aliasKeysAfter aliasDict g ks d reg) := by
  induction ks generalizing reg with
  | nil => exact .refl _
  | cons k ks ih =>
    simp only [aliasKeysAfter]
    split
    · split
      · rename_i h
        exact (grows_aliasAll (fun d _ reg d' reg' h => grows_aliasDict h) h).trans (ih _)
      · exact grows_aliasAllAfter hg _ _
    · split
      · rename_i h; exact (grows_aliasDict h).trans (ih _)
      · exact hg _ _
    · exact ih _

theorem grows_aliasDictAfterF (n : Nat) : ∀ d reg, Grows reg (aliasDictAfterF n d reg) := by
  induction n with
  | zero => intro v reg; exact .refl _
  | succ n ih =>
    intro d reg
    simp only [aliasDictAfterF]
    split
    · rename_i h; exact grows_aliasDict h
    · split
      · exact grows_fromDictAfter _ _
      · rename_i h; exact (grows_fromDict h).trans (grows_aliasKeysAfter ih _ _ _)

theorem RegOp.run_grows (reg : Registry) (op : RegOp) : Grows reg (op.run reg) := by
  cases op with
  | fromDict v => exact grows_fromDictAfter _ _
  | aliasDict d => exact grows_aliasDictAfterF _ _ _
  | registerAlias t =>
    simp only [RegOp.run, registerAfter]
    split
    · rename_i h; exact grows_register h
    · exact .refl _

theorem runOps_grows (ops : List RegOp) (reg : Registry) : Grows reg (runOps reg ops) := by
  induction ops generalizing reg with
  | nil => exact .refl _
  | cons op ops ih => exact (RegOp.run_grows reg op).trans (ih _)

end Recap
