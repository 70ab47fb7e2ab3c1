import Verif.CompactAlias

/-! # Alias substitution is sound: C24 -/

set_option autoImplicit false

namespace Recap.Spec

/-- `w` is `v` after sound substitutions.  `start` and `final` are the aliases known before and after. -/
inductive Substituted (start final : Registry) : PyVal → PyVal → Prop
  /-- The value is left alone. -/
  | same (v : PyVal) : Substituted start final v v
  /-- A dictionary without alias is replaced by a reference.  At some moment the dictionary denoted the type `t`,
  and the definition of the alias equals `t`. -/
  | reference (d : Dict) (s : String) (r r' : Registry) (t t' : RType)
      (noAlias : d.getD "alias" .none = .none)
      (after : ∃ new, r = start ++ new) (before : ∃ new, final = r' ++ new)
      (denotes : fromDict (.dict d) r = .ok (t, r'))
      (defined : Registry.fromAlias final (.str s) = .ok t') (equal : RType.pyEq t t' = true) :
      Substituted start final (.dict d) (.dict [("type", .str s)])
  /-- Substitutions happen inside a dictionary without alias, in the entries that hold types. -/
  | inside (d d' : Dict) (noAlias : d.getD "alias" .none = .none) (keys : d'.keys = d.keys)
      (other : ∀ k, k ∉ ["values", "keys", "fields", "types"] → d'.get? k = d.get? k)
      (nested : ∀ (k : String) (v v' : PyVal), k ∈ ["values", "keys", "fields", "types"] → d.get? k = some v →
        d'.get? k = some v' → Substituted start final v v') :
      Substituted start final (.dict d) (.dict d')
  /-- Substitutions happen inside a list. -/
  | elements (xs ys : List PyVal) (length : ys.length = xs.length)
      (each : ∀ (i : Nat) (x y : PyVal), xs[i]? = some x → ys[i]? = some y → Substituted start final x y) :
      Substituted start final (.list xs) (.list ys)

end Recap.Spec

namespace Recap

open Spec

theorem Substituted.widen {s s' f f' : Registry} {v w : PyVal} (h : Substituted s f v w)
    (h1 : Grows s' s) (h2 : Grows f f') : Substituted s' f' v w := by
  induction h with
  | same v => exact .same v
  | reference d a r r' t t' noAlias after before denotes defined equal =>
    refine .reference d a r r' t t' noAlias ?_ ?_ denotes ?_ equal
    · obtain ⟨n1, rfl⟩ := after
      obtain ⟨n2, rfl, -⟩ := h1
      exact ⟨n2 ++ n1, by simp⟩
    · obtain ⟨n1, rfl⟩ := before
      obtain ⟨n2, rfl, -⟩ := h2
      exact ⟨n1 ++ n2, by simp⟩
    · unfold Registry.fromAlias at defined ⊢
      simp only at defined ⊢
      cases hf : Registry.find? f a with
      | none => rw [hf] at defined; cases defined
      | some u => rw [hf] at defined; rw [h2.find? hf]; exact defined
  | inside d d' noAlias keys other _ ih => exact .inside d d' noAlias keys other ih
  | elements xs ys length _ ih => exact .elements xs ys length ih

theorem substituted_aliasAll {f : Dict → Registry → Except PyErr (Dict × Registry)} {xs ys : List PyVal}
    (hf : ∀ d, PyVal.dict d ∈ xs → ∀ reg d' reg', (names reg).Nodup → f d reg = .ok (d', reg') →
      Grows reg reg' ∧ Substituted reg reg' (.dict d) (.dict d'))
    {reg reg' : Registry} (hn : (names reg).Nodup) (h : aliasAll f xs reg = .ok (ys, reg')) :
    Grows reg reg' ∧ ys.length = xs.length ∧
      ∀ (i : Nat) (x y : PyVal), xs[i]? = some x → ys[i]? = some y → Substituted reg reg' x y := by
  induction xs generalizing reg ys with
  | nil => simp only [aliasAll] at h; cases h; exact ⟨.refl _, rfl, by simp⟩
  | cons x xs ih =>
    simp only [aliasAll] at h
    obtain ⟨⟨x', r1⟩, h1, h⟩ := ok_bind h
    obtain ⟨⟨ys', r2⟩, h2, h⟩ := ok_bind h
    simp only [pure, Except.pure] at h; cases h
    have hx : Grows reg r1 ∧ Substituted reg r1 x x' := by
      unfold aliasElem at h1
      split at h1
      · rename_i d
        obtain ⟨⟨d', r3⟩, h3, h1⟩ := ok_bind h1
        simp only [pure, Except.pure] at h1; cases h1
        exact hf d (by simp) _ _ _ hn h3
      · cases h1; exact ⟨.refl _, .same _⟩
    obtain ⟨g1, g2, g3⟩ := ih (fun d hd => hf d (by simp [hd])) (grows_nodup hx.1 hn) h2
    refine ⟨hx.1.trans g1, by simp [g2], ?_⟩
    intro i a b ha hb
    cases i with
    | zero => simp at ha hb; subst ha hb; exact Substituted.widen hx.2 (.refl _) g1
    | succ i => simp at ha hb; exact Substituted.widen (g3 i a b ha hb) hx.1 (.refl _)
where
  grows_nodup {reg reg' : Registry} (h : Grows reg reg') (hn : (names reg).Nodup) : (names reg').Nodup := by
    obtain ⟨new, rfl, h1, h2⟩ := h
    simp only [names, List.map_append] at *
    rw [List.nodup_append]
    exact ⟨hn, h1, fun a ha b hb e => (h2 b hb).1 (e ▸ ha)⟩

theorem substituted_aliasKeys {f : Dict → Registry → Except PyErr (Dict × Registry)} {ks : List String}
    (hks : ks.Nodup) {d e : Dict}
    (hf : ∀ k ∈ ks, ∀ v, d.get? k = some v → ∀ c, (PyVal.dict c = v ∨ ∃ xs, v = .list xs ∧ PyVal.dict c ∈ xs) →
      ∀ reg d' reg', (names reg).Nodup → f c reg = .ok (d', reg') →
        Grows reg reg' ∧ Substituted reg reg' (.dict c) (.dict d'))
    {reg reg' : Registry} (hn : (names reg).Nodup) (h : aliasKeys f ks d reg = .ok (e, reg')) :
    Grows reg reg' ∧ e.keys = d.keys ∧ (∀ k, k ∉ ks → e.get? k = d.get? k) ∧
      ∀ (k : String) (v v' : PyVal), k ∈ ks → d.get? k = some v → e.get? k = some v' → Substituted reg reg' v v' := by
  induction ks generalizing d reg with
  | nil => simp only [aliasKeys] at h; cases h; exact ⟨.refl _, rfl, fun _ _ => rfl, by simp⟩
  | cons k ks ih =>
    obtain ⟨hk, hks⟩ := List.nodup_cons.mp hks
    have hne : ∀ k' ∈ ks, k ≠ k' := fun k' hk' e => hk (e ▸ hk')
    cases hg : Dict.get? d k with
    | none =>
      rw [aliasKeys_skip hg] at h
      obtain ⟨g1, g2, g3, g4⟩ := ih hks (fun k' hk' => hf k' (by simp [hk'])) hn h
      refine ⟨g1, g2, fun k' hk' => g3 k' (fun hm => hk' (by simp [hm])), ?_⟩
      intro k' v v' hk' hv hv'
      rcases List.mem_cons.mp hk' with rfl | hk'
      · rw [hg] at hv; cases hv
      · exact g4 k' v v' hk' hv hv'
    | some v =>
      have hval : ∃ v' r1, aliasValue f v reg = .ok (v', r1) := by
        simp only [aliasKeys, hg] at h
        unfold aliasValue
        cases v with
        | list xs =>
          simp only at h ⊢
          obtain ⟨⟨ys, r1⟩, h1, -⟩ := ok_bind h
          exact ⟨.list ys, r1, by rw [h1]; rfl⟩
        | dict c =>
          simp only at h ⊢
          obtain ⟨⟨ys, r1⟩, h1, -⟩ := ok_bind h
          exact ⟨.dict ys, r1, by rw [h1]; rfl⟩
        | _ => exact ⟨_, _, rfl⟩
      obtain ⟨v', r1, hval⟩ := hval
      rw [aliasKeys_value hg hval] at h
      have hx : Grows reg r1 ∧ Substituted reg r1 v v' := by
        unfold aliasValue at hval
        cases v with
        | list xs =>
          simp only at hval
          cases h1 : aliasAll f xs reg with
          | error e => rw [h1] at hval; cases hval
          | ok r =>
            rw [h1] at hval; cases hval
            obtain ⟨g1, g2, g3⟩ := substituted_aliasAll
              (fun c hc => hf k (by simp) _ hg c (.inr ⟨xs, rfl, hc⟩)) hn h1
            exact ⟨g1, .elements _ _ g2 g3⟩
        | dict c =>
          simp only at hval
          cases h1 : f c reg with
          | error e => rw [h1] at hval; cases hval
          | ok r =>
            rw [h1] at hval; cases hval
            exact hf k (by simp) _ hg c (.inl rfl) _ _ _ hn h1
        | _ => simp only at hval; cases hval; exact ⟨.refl _, .same _⟩
      obtain ⟨g1, g2, g3, g4⟩ := ih hks (d := d.set k v') (fun k' hk' w hw => by
        rw [Dict.get?_set_ne _ _ (hne k' hk')] at hw
        exact hf k' (by simp [hk']) w hw) (substituted_aliasAll.grows_nodup hx.1 hn) h
      refine ⟨hx.1.trans g1, ?_, ?_, ?_⟩
      · rw [g2]; exact set_keys hg
      · intro k' hk'
        simp only [List.mem_cons, not_or] at hk'
        rw [g3 k' hk'.2, Dict.get?_set_ne _ _ (fun e => hk'.1 e.symm)]
      · intro k' w w' hk' hw hw'
        by_cases hkk : k' = k
        · subst hkk
          rw [g3 k' hk, Dict.get?_set_self] at hw'
          rw [hg] at hw
          cases hw; cases hw'
          exact Substituted.widen hx.2 (.refl _) g1
        · have hk' : k' ∈ ks := by simpa [hkk] using hk'
          exact Substituted.widen (g4 k' w w' hk' (by rw [Dict.get?_set_ne _ _ (fun e => hkk e.symm)]; exact hw) hw')
            hx.1 (.refl _)

theorem matchAlias_find {t : RType} {reg : Registry} {s : String} (hn : (names reg).Nodup)
    (h : matchAlias t reg = some s) : ∃ t', Registry.find? reg s = some t' ∧ RType.pyEq t t' = true := by
  induction reg with
  | nil => simp [matchAlias] at h
  | cons kt reg ih =>
    obtain ⟨k, u⟩ := kt
    simp only [names, List.map_cons, List.nodup_cons] at hn
    simp only [matchAlias] at h
    split at h
    · rename_i he
      cases h
      exact ⟨u, by simp [Registry.find?], he⟩
    · obtain ⟨t', h1, h2⟩ := ih hn.2 h
      refine ⟨t', ?_, h2⟩
      have hm : s ∈ names reg := (find?_isSome_iff reg s).mp (by rw [h1]; rfl)
      have : k ≠ s := fun e => hn.1 (e ▸ hm)
      simp [Registry.find?, this, h1]

/-- C24: whatever `alias_dict` returns is its argument after sound substitutions. -/
theorem C24_substitution_sound (d d' : Dict) (reg reg' : Registry) (hn : (names reg).Nodup)
    (h : aliasDict d reg = .ok (d', reg')) : Substituted reg reg' (.dict d) (.dict d') := by
  suffices H : ∀ (n : Nat) (d : Dict), (PyVal.dict d).size ≤ n → ∀ reg d' reg', (names reg).Nodup →
      aliasDict d reg = .ok (d', reg') → Grows reg reg' ∧ Substituted reg reg' (.dict d) (.dict d') from
    (H _ d (Nat.le_refl _) _ _ _ hn h).2
  intro n
  induction n with
  | zero => intro d h; have := (PyVal.dict d).size_pos; omega
  | succ n ih =>
    intro d hd reg d' reg' hn h
    rw [aliasDict_eq] at h
    unfold aliasStep at h
    split at h
    · cases h; exact ⟨.refl _, .same _⟩
    · rename_i hal
      have hal : Dict.getD d "alias" .none = .none := isNone_iff.mp (by simpa using hal)
      obtain ⟨⟨t, r1⟩, h1, h⟩ := ok_bind h
      have hg := grows_fromDict h1
      have hn1 := substituted_aliasAll.grows_nodup hg hn
      simp only at h
      split at h
      · rename_i s hs
        simp only [pure, Except.pure] at h; cases h
        obtain ⟨t', f1, f2⟩ := matchAlias_find hn1 hs
        exact ⟨hg, .reference d s reg _ t t' hal ⟨[], by simp⟩ ⟨[], by simp⟩ h1
          (by simp [Registry.fromAlias, f1]) f2⟩
      · obtain ⟨g1, g2, g3, g4⟩ := substituted_aliasKeys (by simp) (fun k _ v hv c hc => by
          refine ih c ?_
          have s1 := PyVal.size_lt_of_mem_dict (Dict.mem_of_get? hv)
          rcases hc with rfl | ⟨xs, rfl, hc⟩
          · omega
          · have s2 := PyVal.size_lt_of_mem hc
            omega) hn1 h
        exact ⟨hg.trans g1, .inside d d' hal g2 g3 (fun k v v' hk hv hv' => Substituted.widen (g4 k v v' hk hv hv') hg (.refl _))⟩

/-- In particular: a dictionary for which `alias_dict` returns a reference it did not contain denotes
a type that equals the definition of the alias. -/
theorem C24_reference_equal (d : Dict) (s : String) (reg reg' : Registry) (hn : (names reg).Nodup)
    (hd : d.keys ≠ ["type"]) (h : aliasDict d reg = .ok ([("type", .str s)], reg')) :
    ∃ t t' r r', fromDict (.dict d) r = .ok (t, r') ∧ Registry.fromAlias reg' (.str s) = .ok t' ∧
      RType.pyEq t t' = true := by
  have := C24_substitution_sound d _ reg reg' hn h
  cases this with
  | same => exact absurd rfl hd
  | reference _ _ r r' t t' _ _ _ h1 h2 h3 => exact ⟨t, t', r, r', h1, h2, h3⟩
  | inside _ _ _ h1 => exact absurd h1.symm hd

/-- Types nested in a struct are replaced by references. -/
example : (names newRegistry).Nodup ∧
    aliasDict [("type", .str "struct"), ("fields", .list [
        .dict [("type", .str "int"), ("bits", .int 32)],
        .dict [("type", .str "list"), ("values", .dict [("type", .str "float"), ("bits", .int 64)])]])] newRegistry =
      .ok ([("type", .str "struct"), ("fields", .list [.dict [("type", .str "int32")],
        .dict [("type", .str "list"), ("values", .dict [("type", .str "float64")])]])], newRegistry) := by
  constructor <;> decide +kernel

end Recap
