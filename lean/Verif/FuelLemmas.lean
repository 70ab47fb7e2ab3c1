import Verif.Types
import Verif.DictLemmas

/-! # The recursion bounds of `from_dict`, `alias_dict` and `clean_dict` are sufficient

The results of this file are the unfolding equations `fromDict_eq`, `aliasDict_eq` and
`cleanDict_eq`, in which no bound appears any more. -/

namespace Recap

/-! ## `from_dict` -/

/-- The values on which `from_dict` recurses, for a dictionary `d` that is ready for
`construct`, have size at most `m`. -/
structure ArgOK (m : Nat) (d : Dict) : Prop where
  direct : ∀ k v, k = "values" ∨ k = "keys" → d.get? k = some v → v.size ≤ m
  members : ∀ k v xs, k = "fields" ∨ k = "types" → d.get? k = some v → v.iter = .ok xs →
    ∀ x ∈ xs, x.size ≤ m
  typeList : ∀ xs, d.get? "type" = some (.list xs) → ∀ x ∈ xs, x.size ≤ m

theorem argOK_of_dict {m : Nat} {d : Dict} (h : (PyVal.dict d).size ≤ m + 1) : ArgOK m d where
  direct k v _ hv := by
    have := PyVal.size_lt_of_mem_dict (Dict.mem_of_get? hv); omega
  members k v xs _ hv hx x hxm := by
    have h1 := PyVal.size_lt_of_mem_dict (Dict.mem_of_get? hv)
    have h2 := PyVal.size_iter hx hxm
    omega
  typeList xs hv x hxm := by
    have h1 := PyVal.size_lt_of_mem_dict (Dict.mem_of_get? hv)
    have h2 := PyVal.size_lt_of_mem hxm
    omega

theorem argOK_normalise {m : Nat} {v : PyVal} {d : Dict} (h : v.size ≤ m + 1)
    (hd : normalise v = .ok d) : ArgOK m d := by
  cases v <;> simp only [normalise] at hd
  case str s =>
    cases hd
    constructor
    · intro k v hk hv
      rcases hk with rfl | rfl <;> simp [Dict.get?] at hv
    · intro k v xs hk hv
      rcases hk with rfl | rfl <;> simp [Dict.get?] at hv
    · intro xs hv; simp [Dict.get?] at hv
  case list xs =>
    cases hd
    constructor
    · intro k v hk hv
      rcases hk with rfl | rfl <;> simp [Dict.get?] at hv
    · intro k v ys hk hv hy y hym
      rcases hk with rfl | rfl <;> simp [Dict.get?] at hv
      subst hv
      simp only [PyVal.iter] at hy; cases hy
      have := PyVal.size_lt_of_mem hym
      omega
    · intro xs hv; simp [Dict.get?] at hv
  case dict d => cases hd; exact argOK_of_dict h
  all_goals cases hd

theorem ArgOK.erase {m : Nat} {d : Dict} (h : ArgOK m d) (k : String) : ArgOK m (d.erase k) where
  direct k' v hk hv := by
    rw [Dict.get?_erase] at hv
    split at hv
    · cases hv
    · exact h.direct k' v hk hv
  members k' v xs hk hv := by
    rw [Dict.get?_erase] at hv
    split at hv
    · cases hv
    · exact h.members k' v xs hk hv
  typeList xs hv := by
    rw [Dict.get?_erase] at hv
    split at hv
    · cases hv
    · exact h.typeList xs hv

theorem ArgOK.set_other {m : Nat} {d : Dict} (h : ArgOK m d) {k : String} (w : PyVal)
    (hk : k ∉ ["values", "keys", "fields", "types", "type"]) : ArgOK m (d.set k w) where
  direct k' v hk' hv := by
    have hne : k ≠ k' := by rintro rfl; rcases hk' with rfl | rfl <;> simp at hk
    rw [Dict.get?_set_ne _ _ hne] at hv
    exact h.direct k' v hk' hv
  members k' v xs hk' hv := by
    have hne : k ≠ k' := by rintro rfl; rcases hk' with rfl | rfl <;> simp at hk
    rw [Dict.get?_set_ne _ _ hne] at hv
    exact h.members k' v xs hk' hv
  typeList xs hv := by
    have hne : k ≠ "type" := by rintro rfl; simp at hk
    rw [Dict.get?_set_ne _ _ hne] at hv
    exact h.typeList xs hv

theorem ArgOK.set_types {m : Nat} {d : Dict} (h : ArgOK m d) {xs : List PyVal}
    (hx : ∀ x ∈ xs, x.size ≤ m) : ArgOK m (d.set "types" (.list xs)) where
  direct k' v hk' hv := by
    have hne : "types" ≠ k' := by rcases hk' with rfl | rfl <;> decide
    rw [Dict.get?_set_ne _ _ hne] at hv
    exact h.direct k' v hk' hv
  members k' v ys hk' hv hy := by
    by_cases hne : "types" = k'
    · subst hne
      rw [Dict.get?_set_self] at hv
      cases hv
      simp only [PyVal.iter] at hy; cases hy; exact hx
    · rw [Dict.get?_set_ne _ _ hne] at hv
      exact h.members k' v ys hk' hv hy
  typeList ys hv := by
    rw [Dict.get?_set_ne _ _ (by decide)] at hv
    exact h.typeList ys hv

theorem argOK_union {m : Nat} {xs : List PyVal} (hx : ∀ x ∈ xs, x.size ≤ m) :
    ArgOK m [("type", .str "union"), ("types", .list xs)] := by
  constructor
  · intro k v hk hv
    rcases hk with rfl | rfl <;> simp [Dict.get?] at hv
  · intro k v ys hk hv hy
    rcases hk with rfl | rfl <;> simp [Dict.get?] at hv
    subst hv
    simp only [PyVal.iter] at hy; cases hy; exact hx
  · intro xs hv; simp [Dict.get?] at hv

theorem size_dict_ge_of_key {d : Dict} {k : String} (h : k ∈ d.keys) :
    3 ≤ (PyVal.dict d).size := by
  cases d with
  | nil => simp at h
  | cons y ys =>
    obtain ⟨k', y⟩ := y
    have := PyVal.size_pos y
    simp only [PyVal.size, PyVal.sizePairs]; omega

theorem argOK_prepare {m : Nat} {v : PyVal} {d0 d : Dict} (h : v.size ≤ m + 1)
    (h0 : normalise v = .ok d0) (hp : prepare d0 = .ok d) : ArgOK m d := by
  have hA := argOK_normalise h h0
  unfold prepare at hp
  split at hp
  · cases hp
  split at hp
  · -- optional
    rename_i hopt
    -- the optional key must come from a dictionary
    have hv : v = .dict d0 := by
      cases v <;> simp only [normalise] at h0 <;> cases h0
      · simp [Dict.getD, Dict.get?, PyVal.truthy] at hopt
      · simp [Dict.getD, Dict.get?, PyVal.truthy] at hopt
      · rfl
    subst hv
    have hkey : "optional" ∈ Dict.keys d0 := by
      apply Classical.byContradiction
      intro hn
      rw [Dict.getD, Dict.get?_eq_none_iff.mpr hn] at hopt
      simp [PyVal.truthy] at hopt
    have hsz := PyVal.size_erase_lt hkey
    have h3 := size_dict_ge_of_key hkey
    have hm1 : (1 : Nat) ≤ m := by omega
    have hrest : (PyVal.dict (((d0.erase "optional").erase "name").erase "default")).size ≤ m := by
      have h1 := PyVal.size_erase_le (d0.erase "optional") "name"
      have h2 := PyVal.size_erase_le ((d0.erase "optional").erase "name") "default"
      omega
    have hd1ok : ArgOK m (wrapUnion (((d0.erase "optional").erase "name").erase "default")) := by
      unfold wrapUnion
      split
      · exact ((hA.erase _).erase _).erase _
      · apply argOK_union
        intro x hx
        simp only [List.mem_cons, List.not_mem_nil, or_false] at hx
        rcases hx with rfl | rfl
        · simp only [PyVal.size]; omega
        · exact hrest
    simp only [desugarOptional, bind, Except.bind, pure, Except.pure] at hp
    split at hp
    · cases hp
    rename_i d2 he
    cases hp
    have h2 : ArgOK m d2 := by
      generalize wrapUnion (((d0.erase "optional").erase "name").erase "default") = d1 at *
      unfold ensureNull at he
      split at he
      · cases he
      rename_i types ht
      split at he
      · cases he
      · cases he; exact hd1ok
      · split at he
        · rename_i xs _
          cases he
          apply hd1ok.set_types
          intro x hx
          rcases List.mem_cons.mp hx with rfl | hx
          · simp only [PyVal.size]; omega
          · exact hd1ok.members "types" _ xs (.inr rfl) ht rfl x hx
        · cases he
    unfold restoreField
    apply ArgOK.set_other
    · split
      · exact h2
      · exact h2.set_other _ (by decide)
    · decide
  · cases hp
    exact hA.erase _

theorem parseAll_congr {f g : PyVal → Registry → Except PyErr (RType × Registry)} {xs : List PyVal}
    (h : ∀ x ∈ xs, ∀ reg, f x reg = g x reg) (reg : Registry) :
    parseAll f xs reg = parseAll g xs reg := by
  induction xs generalizing reg with
  | nil => rfl
  | cons x xs ih =>
    simp only [parseAll]
    rw [h x (by simp)]
    congr 1; funext p
    rw [ih (fun y hy => h y (by simp [hy]))]

/-! ## `construct`, one equation per type name -/

section
variable (f : PyVal → Registry → Except PyErr (RType × Registry)) (kw : Dict) (reg : Registry)

theorem construct_list (xs : List PyVal) : construct f (.list xs) kw reg = (do
    let (ts, reg) ← parseAll f (xs.filter keepMember) reg
    if kw.has "types" then .error .typeError
    else do
      let a ← mkAttrs [] kw
      pure (.union ts a, reg)) := rfl

theorem construct_null : construct f (.str "null") kw reg = (do
    let a ← mkAttrs [] kw
    pure (.null a, reg)) := by simp only [construct, reduceIte]

theorem construct_bool : construct f (.str "bool") kw reg = (do
    let a ← mkAttrs [] kw
    pure (.bool a, reg)) := by simp only [construct, String.reduceEq, reduceIte]

theorem construct_int : construct f (.str "int") kw reg = (match kw.get? "bits" with
    | .none => .error .valueError
    | some bits => do
      let a ← mkAttrs ["bits", "signed"] kw
      pure (.int bits (kw.getD "signed" (.bool true)) a, reg)) := by
  simp only [construct, String.reduceEq, reduceIte]; rfl

theorem construct_float : construct f (.str "float") kw reg = (match kw.get? "bits" with
    | .none => .error .valueError
    | some bits => do
      let a ← mkAttrs ["bits"] kw
      pure (.float bits a, reg)) := by
  simp only [construct, String.reduceEq, reduceIte]; rfl

theorem construct_string : construct f (.str "string") kw reg = (do
    let kw := renameBytes kw
    let a ← mkAttrs ["bytes_", "variable"] kw
    pure (.string (kw.getD "bytes_" .none) (kw.getD "variable" (.bool true)) a, reg)) := by
  simp only [construct, String.reduceEq, reduceIte]

theorem construct_bytes : construct f (.str "bytes") kw reg = (do
    let kw := renameBytes kw
    let a ← mkAttrs ["bytes_", "variable"] kw
    pure (.bytes (kw.getD "bytes_" .none) (kw.getD "variable" (.bool true)) a, reg)) := by
  simp only [construct, String.reduceEq, reduceIte]

theorem construct_listT : construct f (.str "list") kw reg = (match kw.get? "values" with
    | .none => .error .valueError
    | some v => do
      let (t, reg) ← f v reg
      let kw := kw.erase "values"
      let a ← mkAttrs ["length", "variable"] kw
      pure (.list t (kw.getD "length" .none) (kw.getD "variable" (.bool true)) a, reg)) := by
  simp only [construct, String.reduceEq, reduceIte]; rfl

theorem construct_map : construct f (.str "map") kw reg =
    (match kw.get? "keys", kw.get? "values" with
      | some k, some v => do
        let (tk, reg) ← f k reg
        let (tv, reg) ← f v reg
        let a ← mkAttrs [] ((kw.erase "keys").erase "values")
        pure (.map tk tv a, reg)
      | _, _ => .error .valueError) := by
  simp only [construct, String.reduceEq, reduceIte]; rfl

theorem construct_struct : construct f (.str "struct") kw reg = (do
    let xs ← (kw.getD "fields" (.list [])).iter
    let (ts, reg) ← parseAll f xs reg
    let a ← mkAttrs ["fields"] kw
    pure (.struct ts a, reg)) := by
  simp only [construct, String.reduceEq, reduceIte]

theorem construct_enum : construct f (.str "enum") kw reg = (match kw.get? "symbols" with
    | .none => .error .valueError
    | some s => do
      let a ← mkAttrs ["symbols"] kw
      pure (.enum s a, reg)) := by
  simp only [construct, String.reduceEq, reduceIte]; rfl

theorem construct_union : construct f (.str "union") kw reg = (match kw.get? "types" with
    | .none => .error .valueError
    | some v => do
      let xs ← v.iter
      let (ts, reg) ← parseAll f xs reg
      let a ← mkAttrs [] (kw.erase "types")
      pure (.union ts a, reg)) := by
  simp only [construct, String.reduceEq, reduceIte]; rfl

end

/-- The type names with a class of their own (the keys of `TYPE_CLASSES`, types.py 766-778). -/
def coreNames : List String :=
  ["null", "bool", "int", "float", "string", "bytes", "list", "map", "struct", "enum", "union"]

theorem construct_proxy (f : PyVal → Registry → Except PyErr (RType × Registry)) (kw : Dict)
    (reg : Registry) {name : String} (h : name ∉ coreNames) :
    construct f (.str name) kw reg =
      (if kw.has "alias" || kw.has "registry" then .error .typeError
      else do
        let a ← mkAttrs [] kw
        pure (.proxy .none { a with alias := .str name }, reg)) := by
  simp only [coreNames, List.mem_cons, List.not_mem_nil, or_false, not_or] at h
  simp only [construct, h, reduceIte]

theorem construct_congr {f g : PyVal → Registry → Except PyErr (RType × Registry)} {m : Nat}
    {d : Dict} (hA : ArgOK m d) (h : ∀ x, x.size ≤ m → ∀ reg, f x reg = g x reg) (reg : Registry) :
    construct f (d.getD "type" .none) (d.erase "type") reg
      = construct g (d.getD "type" .none) (d.erase "type") reg := by
  have hA' := hA.erase "type"
  have htl := hA.typeList
  cases htn : Dict.get? d "type" with
  | none => simp [Dict.getD, htn, construct]
  | some tn =>
    have hgd : d.getD "type" .none = tn := by simp [Dict.getD, htn]
    rw [hgd]
    generalize d.erase "type" = kw at hA'
    cases tn with
    | list xs =>
      simp only [construct]
      rw [parseAll_congr (f := f) (g := g)]
      intro x hx
      exact h x (htl xs htn x ((List.mem_filter.mp hx).1))
    | str name =>
      by_cases hcore : name ∈ coreNames
      · simp only [coreNames, List.mem_cons, List.not_mem_nil, or_false] at hcore
        rcases hcore with rfl | rfl | rfl | rfl | rfl | rfl | rfl | rfl | rfl | rfl | rfl
        · rfl
        · simp only [construct_bool]
        · simp only [construct_int]
        · simp only [construct_float]
        · simp only [construct_string]
        · simp only [construct_bytes]
        · simp only [construct_listT]
          cases hv : Dict.get? kw "values" with
          | none => rfl
          | some v => simp only; rw [h v (hA'.direct _ v (by simp) hv)]
        · simp only [construct_map]
          cases hk : Dict.get? kw "keys" with
          | none => rfl
          | some k =>
            cases hv : Dict.get? kw "values" with
            | none => rfl
            | some v =>
              simp only
              rw [h k (hA'.direct _ k (by simp) hk)]
              congr 1; funext p
              rw [h v (hA'.direct _ v (by simp) hv)]
        · simp only [construct_struct]
          cases hg : Dict.get? kw "fields" with
          | none =>
            simp [Dict.getD, hg, PyVal.iter, bind, Except.bind, parseAll]
          | some v =>
            simp only [Dict.getD, hg, Option.getD_some]
            cases hi : v.iter with
            | error e => rfl
            | ok xs =>
              simp only [bind, Except.bind]
              rw [parseAll_congr (f := f) (g := g)]
              intro x hx
              exact h x (hA'.members _ v xs (by simp) hg hi x hx)
        · simp only [construct_enum]
        · simp only [construct_union]
          cases hv : Dict.get? kw "types" with
          | none => rfl
          | some v =>
            cases hi : v.iter with
            | error e => simp only [hi]; rfl
            | ok xs =>
              simp only [hi, bind, Except.bind]
              rw [parseAll_congr (f := f) (g := g)]
              intro x hx
              exact h x (hA'.members _ v xs (by simp) hv hi x hx)
      · simp only [construct_proxy _ _ _ hcore]
    | _ => rfl

/-- More fuel does not change the result. -/
theorem fromDictF_stable : ∀ (n m : Nat) (v : PyVal) (reg : Registry), v.size ≤ n → v.size ≤ m →
    fromDictF n v reg = fromDictF m v reg := by
  intro n
  induction n with
  | zero => intro m v reg h; have := v.size_pos; omega
  | succ n ih =>
    intro m v reg hn hm
    cases m with
    | zero => have := v.size_pos; omega
    | succ m =>
      simp only [fromDictF]
      cases h0 : normalise v with
      | error e => rfl
      | ok d0 =>
        simp only [bind, Except.bind]
        cases hp : prepare d0 with
        | error e => rfl
        | ok d =>
          simp only
          have hA : ArgOK (v.size - 1) d := argOK_prepare (by have := v.size_pos; omega) h0 hp
          rw [construct_congr hA (f := fromDictF n) (g := fromDictF m)]
          intro x hx reg
          have := v.size_pos
          exact ih m x reg (by omega) (by omega)

theorem fromDictF_eq_fromDict {n : Nat} {v : PyVal} (h : v.size ≤ n) (reg : Registry) :
    fromDictF n v reg = fromDict v reg := fromDictF_stable n v.size v reg h (Nat.le_refl _)

/-- The recursion equation of `from_dict`, without fuel. -/
theorem fromDict_eq (v : PyVal) (reg : Registry) :
    fromDict v reg = (do
      let d ← normalise v
      let d ← prepare d
      let (t, reg) ← construct fromDict (d.getD "type" .none) (d.erase "type") reg
      finish t reg) := by
  have hpos := v.size_pos
  obtain ⟨n, hn⟩ : ∃ n, v.size = n + 1 := ⟨v.size - 1, by omega⟩
  unfold fromDict
  rw [hn]
  simp only [fromDictF]
  cases h0 : normalise v with
  | error e => rfl
  | ok d0 =>
    simp only [bind, Except.bind]
    cases hp : prepare d0 with
    | error e => rfl
    | ok d =>
      simp only
      have hA : ArgOK n d := argOK_prepare (by omega) h0 hp
      rw [construct_congr hA (f := fromDictF n) (g := fromDict)]
      · rfl
      intro x hx reg
      exact fromDictF_eq_fromDict hx reg

end Recap
