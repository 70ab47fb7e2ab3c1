import Verif.FuelLemmas

/-! # Recursion equations of `clean_dict` and `alias_dict`, and absence of fuel errors -/

namespace Recap

/-! ## `clean_dict` -/

theorem cleanAll_congr {f g : PyVal → Except PyErr PyVal} {xs : List PyVal}
    (h : ∀ x ∈ xs, f x = g x) : cleanAll f xs = cleanAll g xs := by
  induction xs with
  | nil => rfl
  | cons x xs ih =>
    simp only [cleanAll]
    rw [h x (by simp), ih (fun y hy => h y (by simp [hy]))]

section
variable (f : PyVal → Except PyErr PyVal) (d : Dict)

theorem cleanNested_list : cleanNested f "list" d = (match d.get? "values" with
    | .none => .error .assertionError
    | some v => do
      let v' ← f v
      pure (d.set "values" v')) := by
  cases h : Dict.get? d "values" with
  | none => simp [cleanNested, h, bind, Except.bind]
  | some v =>
    simp only [cleanNested, h, bind, Except.bind, String.reduceEq, reduceIte, pure, Except.pure,
      true_or]

theorem cleanNested_map : cleanNested f "map" d = (match d.get? "values" with
    | .none => .error .assertionError
    | some v => do
      let v' ← f v
      match d.get? "keys" with
      | .none => .error .keyError
      | some k => do
        let k' ← f k
        pure ((d.set "values" v').set "keys" k')) := by
  cases h : Dict.get? d "values" with
  | none => simp [cleanNested, h, bind, Except.bind]
  | some v =>
    simp only [cleanNested, h, bind, Except.bind, String.reduceEq, reduceIte, pure, Except.pure,
      or_true]
    cases f v with
    | error e => rfl
    | ok v' =>
      simp only
      rw [Dict.get?_set_ne _ _ (by decide)]
      cases hk : Dict.get? d "keys" with
      | none => rfl
      | some k => simp only

theorem cleanNested_struct : cleanNested f "struct" d = (match d.get? "fields" with
    | .none => pure d
    | some v => do
      let xs ← v.iter
      let xs' ← cleanAll f xs
      pure (d.set "fields" (.list xs'))) := by
  simp only [cleanNested, String.reduceEq, reduceIte, or_self, bind, Except.bind, pure, Except.pure]
  cases h : Dict.get? d "fields" with
  | none => rfl
  | some v => simp only

theorem cleanNested_union : cleanNested f "union" d = (match d.get? "types" with
    | .none => .error .keyError
    | some v => do
      let xs ← v.iter
      let xs' ← cleanAll f xs
      pure (d.set "types" (.list xs'))) := by
  simp only [cleanNested, String.reduceEq, reduceIte, or_self]
  simp only [bind, Except.bind, pure, Except.pure]
  rfl

theorem cleanNested_other {name : String} (h : name ∉ ["list", "map", "struct", "union"]) :
    cleanNested f name d = .ok d := by
  simp only [List.mem_cons, List.not_mem_nil, or_false, not_or] at h
  simp only [cleanNested, h, reduceIte, or_self, bind, Except.bind, pure, Except.pure]

end

theorem cleanNested_congr {f g : PyVal → Except PyErr PyVal} {m : Nat} {d : Dict} (hA : ArgOK m d)
    (h : ∀ x, x.size ≤ m → f x = g x) (name : String) :
    cleanNested f name d = cleanNested g name d := by
  by_cases hn : name ∈ ["list", "map", "struct", "union"]
  · simp only [List.mem_cons, List.not_mem_nil, or_false] at hn
    rcases hn with rfl | rfl | rfl | rfl
    · simp only [cleanNested_list]
      cases hv : Dict.get? d "values" with
      | none => rfl
      | some v => simp only; rw [h v (hA.direct _ v (by simp) hv)]
    · simp only [cleanNested_map]
      cases hv : Dict.get? d "values" with
      | none => rfl
      | some v =>
        simp only
        rw [h v (hA.direct _ v (by simp) hv)]
        congr 1; funext v'
        cases hk : Dict.get? d "keys" with
        | none => rfl
        | some k => simp only; rw [h k (hA.direct _ k (by simp) hk)]
    · simp only [cleanNested_struct]
      cases hv : Dict.get? d "fields" with
      | none => rfl
      | some v =>
        simp only
        cases hi : v.iter with
        | error e => rfl
        | ok xs =>
          simp only [bind, Except.bind]
          rw [cleanAll_congr (f := f) (g := g)]
          intro x hx
          exact h x (hA.members _ v xs (by simp) hv hi x hx)
    · simp only [cleanNested_union]
      cases hv : Dict.get? d "types" with
      | none => rfl
      | some v =>
        simp only
        cases hi : v.iter with
        | error e => rfl
        | ok xs =>
          simp only [bind, Except.bind]
          rw [cleanAll_congr (f := f) (g := g)]
          intro x hx
          exact h x (hA.members _ v xs (by simp) hv hi x hx)
  · rw [cleanNested_other _ _ hn, cleanNested_other _ _ hn]

theorem get?_filter_of_get? {d : Dict} {p : String × PyVal → Bool} {k : String} {v : PyVal}
    (h : Dict.get? (d.filter p) k = some v) : (k, v) ∈ d :=
  (List.mem_filter.mp (Dict.mem_of_get? h)).1

/-- Like `ArgOK`, but about every entry of the dictionary. -/
structure ArgOK' (m : Nat) (d : Dict) : Prop where
  direct : ∀ k v, k = "values" ∨ k = "keys" → (k, v) ∈ d → v.size ≤ m
  members : ∀ k v xs, k = "fields" ∨ k = "types" → (k, v) ∈ d → v.iter = .ok xs →
    ∀ x ∈ xs, x.size ≤ m

theorem argOK'_cleanNormalise {m : Nat} {v : PyVal} {d : Dict} (h : v.size ≤ m + 1)
    (hd : cleanNormalise v = .ok d) : ArgOK' m d := by
  cases v <;> simp only [cleanNormalise] at hd
  case str s =>
    cases hd
    constructor
    · intro k v hk hv
      rcases hk with rfl | rfl <;> simp at hv
    · intro k v xs hk hv
      rcases hk with rfl | rfl <;> simp at hv
  case list xs =>
    cases hd
    constructor
    · intro k v hk hv
      rcases hk with rfl | rfl <;> simp at hv
    · intro k v ys hk hv hy y hym
      rcases hk with rfl | rfl <;> simp at hv
      subst hv
      simp only [PyVal.iter] at hy; cases hy
      have := PyVal.size_lt_of_mem hym
      omega
  case dict d' =>
    split at hd
    · cases hd
      constructor
      · intro k v _ hv
        have := PyVal.size_lt_of_mem_dict hv; omega
      · intro k v xs _ hv hx x hxm
        have h1 := PyVal.size_lt_of_mem_dict hv
        have h2 := PyVal.size_iter hx hxm
        omega
    · cases hd
  all_goals cases hd

/-- `ArgOK` restricted to what `clean_dict` needs. -/
theorem cleanNested_congr' {f g : PyVal → Except PyErr PyVal} {m : Nat} {d : Dict} (hA : ArgOK' m d)
    (h : ∀ x, x.size ≤ m → f x = g x) (name : String) (defaults : Dict) :
    cleanNested f name (dropDefaults defaults d) = cleanNested g name (dropDefaults defaults d) := by
  unfold dropDefaults
  generalize hp : (fun kv : String × PyVal => match Dict.get? defaults kv.1 with
    | .none => true
    | some dv => !PyVal.pyEq dv kv.2) = p
  by_cases hn : name ∈ ["list", "map", "struct", "union"]
  · simp only [List.mem_cons, List.not_mem_nil, or_false] at hn
    rcases hn with rfl | rfl | rfl | rfl
    · simp only [cleanNested_list]
      cases hv : Dict.get? (d.filter p) "values" with
      | none => rfl
      | some v => simp only; rw [h v (hA.direct _ v (by simp) (get?_filter_of_get? hv))]
    · simp only [cleanNested_map]
      cases hv : Dict.get? (d.filter p) "values" with
      | none => rfl
      | some v =>
        simp only
        rw [h v (hA.direct _ v (by simp) (get?_filter_of_get? hv))]
        congr 1; funext v'
        cases hk : Dict.get? (d.filter p) "keys" with
        | none => rfl
        | some k => simp only; rw [h k (hA.direct _ k (by simp) (get?_filter_of_get? hk))]
    · simp only [cleanNested_struct]
      cases hv : Dict.get? (d.filter p) "fields" with
      | none => rfl
      | some v =>
        simp only
        cases hi : v.iter with
        | error e => rfl
        | ok xs =>
          simp only [bind, Except.bind]
          rw [cleanAll_congr (f := f) (g := g)]
          intro x hx
          exact h x (hA.members _ v xs (by simp) (get?_filter_of_get? hv) hi x hx)
    · simp only [cleanNested_union]
      cases hv : Dict.get? (d.filter p) "types" with
      | none => rfl
      | some v =>
        simp only
        cases hi : v.iter with
        | error e => rfl
        | ok xs =>
          simp only [bind, Except.bind]
          rw [cleanAll_congr (f := f) (g := g)]
          intro x hx
          exact h x (hA.members _ v xs (by simp) (get?_filter_of_get? hv) hi x hx)
  · rw [cleanNested_other _ _ hn, cleanNested_other _ _ hn]

/-- One level of `clean_dict`, for `f` = `clean_dict` on nested values. -/
def cleanStep (f : PyVal → Except PyErr PyVal) (v : PyVal) : Except PyErr PyVal := do
  let d ← cleanNormalise v
  let d ← match d.getD "type" .none with
    | .str name => cleanNested f name (dropDefaults (paramDefaults name) d)
    | .list _ =>
      match d.get? "types" with
      | .none => .error .keyError
      | some v => do
        let xs ← v.iter
        let xs' ← cleanAll f xs
        pure [("type", .str "union"), ("types", .list xs')]
    | _ => pure d
  let d ← sugarOptional d
  shorten d

theorem cleanStep_congr {f g : PyVal → Except PyErr PyVal} {m : Nat} {v : PyVal}
    (hv : v.size ≤ m + 1) (h : ∀ x, x.size ≤ m → f x = g x) : cleanStep f v = cleanStep g v := by
  unfold cleanStep
  cases hd : cleanNormalise v with
  | error e => rfl
  | ok d =>
    have hA := argOK'_cleanNormalise hv hd
    simp only [bind, Except.bind]
    cases ht : d.getD "type" .none with
    | str name =>
      simp only
      rw [cleanNested_congr' hA h]
    | list xs =>
      simp only
      cases hty : Dict.get? d "types" with
      | none => rfl
      | some w =>
        simp only
        cases hi : w.iter with
        | error e => rfl
        | ok ys =>
          simp only
          rw [cleanAll_congr (f := f) (g := g)]
          intro x hx
          exact h x (hA.members _ w ys (by simp) (Dict.mem_of_get? hty) hi x hx)
    | _ => rfl

theorem cleanDictF_stable : ∀ (n m : Nat) (v : PyVal), v.size ≤ n → v.size ≤ m →
    cleanDictF n v = cleanDictF m v := by
  intro n
  induction n with
  | zero => intro m v h; have := v.size_pos; omega
  | succ n ih =>
    intro m v hn hm
    cases m with
    | zero => have := v.size_pos; omega
    | succ m =>
      have := v.size_pos
      exact cleanStep_congr (m := v.size - 1) (by omega) (fun x hx => ih m x (by omega) (by omega))

theorem cleanDictF_eq_cleanDict {n : Nat} {v : PyVal} (h : v.size ≤ n) :
    cleanDictF n v = cleanDict v := cleanDictF_stable n v.size v h (Nat.le_refl _)

/-- The recursion equation of `clean_dict`, without fuel. -/
theorem cleanDict_eq (v : PyVal) : cleanDict v = cleanStep cleanDict v := by
  have hpos := v.size_pos
  obtain ⟨n, hn⟩ : ∃ n, v.size = n + 1 := ⟨v.size - 1, by omega⟩
  conv => lhs; unfold cleanDict
  rw [hn]
  exact cleanStep_congr (m := n) (by omega) (fun x hx => cleanDictF_eq_cleanDict hx)

/-! ## `alias_dict` -/

theorem aliasAll_congr {f g : Dict → Registry → Except PyErr (Dict × Registry)} {xs : List PyVal}
    (h : ∀ d, PyVal.dict d ∈ xs → ∀ reg, f d reg = g d reg) (reg : Registry) :
    aliasAll f xs reg = aliasAll g xs reg := by
  induction xs generalizing reg with
  | nil => rfl
  | cons x xs ih =>
    have ih' := fun reg => ih (fun d hd => h d (by simp [hd])) reg
    have hx : aliasElem f x reg = aliasElem g x reg := by
      cases x with
      | dict d => simp only [aliasElem]; rw [h d (by simp)]
      | _ => rfl
    simp only [aliasAll]
    rw [hx]
    congr 1; funext p
    rw [ih']

theorem aliasKeys_congr {f g : Dict → Registry → Except PyErr (Dict × Registry)} {ks : List String}
    (hn : ks.Nodup) {d : Dict}
    (hl : ∀ k ∈ ks, ∀ xs, d.get? k = some (.list xs) → ∀ e, PyVal.dict e ∈ xs →
      ∀ reg, f e reg = g e reg)
    (hd : ∀ k ∈ ks, ∀ e, d.get? k = some (.dict e) → ∀ reg, f e reg = g e reg) (reg : Registry) :
    aliasKeys f ks d reg = aliasKeys g ks d reg := by
  induction ks generalizing d reg with
  | nil => rfl
  | cons k ks ih =>
    obtain ⟨hk, hn⟩ := List.nodup_cons.mp hn
    have step : ∀ (w : PyVal) reg, aliasKeys f ks (d.set k w) reg = aliasKeys g ks (d.set k w) reg := by
      intro w reg
      apply ih hn
      · intro k' hk' xs hg
        have : k ≠ k' := by rintro rfl; exact hk hk'
        rw [Dict.get?_set_ne _ _ this] at hg
        exact hl k' (by simp [hk']) xs hg
      · intro k' hk' e hg
        have : k ≠ k' := by rintro rfl; exact hk hk'
        rw [Dict.get?_set_ne _ _ this] at hg
        exact hd k' (by simp [hk']) e hg
    have same : ∀ reg, aliasKeys f ks d reg = aliasKeys g ks d reg := by
      intro reg
      apply ih hn
      · intro k' hk'; exact hl k' (by simp [hk'])
      · intro k' hk'; exact hd k' (by simp [hk'])
    simp only [aliasKeys]
    cases hg : d.get? k with
    | none => exact same reg
    | some v =>
      cases v with
      | list xs =>
        simp only
        rw [aliasAll_congr (f := f) (g := g) (hl k (by simp) xs hg)]
        congr 1; funext p; rw [step]
      | dict e =>
        simp only
        rw [hd k (by simp) e hg]
        congr 1; funext p; rw [step]
      | _ => exact same reg

/-- One level of `alias_dict`, for `f` = `alias_dict` on nested dictionaries. -/
def aliasStep (f : Dict → Registry → Except PyErr (Dict × Registry)) (d : Dict) (reg : Registry) :
    Except PyErr (Dict × Registry) :=
  if !(d.getD "alias" .none).isNone then .ok (d, reg)
  else do
    let (t, reg) ← fromDict (.dict d) reg
    match matchAlias t reg with
    | some k => pure ([("type", .str k)], reg)
    | .none => aliasKeys f ["values", "keys", "fields", "types"] d reg

theorem aliasStep_congr {f g : Dict → Registry → Except PyErr (Dict × Registry)} {m : Nat} {d : Dict}
    (hd : (PyVal.dict d).size ≤ m + 1)
    (h : ∀ e, (PyVal.dict e).size ≤ m → ∀ reg, f e reg = g e reg) (reg : Registry) :
    aliasStep f d reg = aliasStep g d reg := by
  unfold aliasStep
  split
  · rfl
  · cases fromDict (.dict d) reg with
    | error e => rfl
    | ok p =>
      simp only [bind, Except.bind]
      cases matchAlias p.1 p.2 with
      | some k => rfl
      | none =>
        simp only
        apply aliasKeys_congr
        · decide
        · intro k _ xs hg e he reg
          have h1 := PyVal.size_lt_of_mem_dict (Dict.mem_of_get? hg)
          have h2 := PyVal.size_lt_of_mem he
          exact h e (by omega) reg
        · intro k _ e hg reg
          have h1 := PyVal.size_lt_of_mem_dict (Dict.mem_of_get? hg)
          exact h e (by omega) reg

theorem aliasDictF_stable : ∀ (n m : Nat) (d : Dict) (reg : Registry),
    (PyVal.dict d).size ≤ n → (PyVal.dict d).size ≤ m →
    aliasDictF n d reg = aliasDictF m d reg := by
  intro n
  induction n with
  | zero => intro m d reg h; have := (PyVal.dict d).size_pos; omega
  | succ n ih =>
    intro m d reg hn hm
    cases m with
    | zero => have := (PyVal.dict d).size_pos; omega
    | succ m =>
      have := (PyVal.dict d).size_pos
      exact aliasStep_congr (m := (PyVal.dict d).size - 1) (by omega)
        (fun x hx reg => ih m x reg (by omega) (by omega)) reg

/-- The recursion equation of `alias_dict`, without fuel. -/
theorem aliasDict_eq (d : Dict) (reg : Registry) :
    aliasDict d reg = aliasStep aliasDict d reg := by
  have hpos := (PyVal.dict d).size_pos
  obtain ⟨n, hn⟩ : ∃ n, (PyVal.dict d).size = n + 1 := ⟨(PyVal.dict d).size - 1, by omega⟩
  conv => lhs; unfold aliasDict
  rw [hn]
  exact aliasStep_congr (m := n) (by omega)
    (fun x hx reg => aliasDictF_stable n _ x reg hx (Nat.le_refl _)) reg

/-! ## No function ever runs out of fuel -/

theorem parseAll_ne_fuel {f : PyVal → Registry → Except PyErr (RType × Registry)} {xs : List PyVal}
    (h : ∀ x ∈ xs, ∀ reg, f x reg ≠ .error .fuel) (reg : Registry) :
    parseAll f xs reg ≠ .error .fuel := by
  induction xs generalizing reg with
  | nil => simp [parseAll]
  | cons x xs ih =>
    simp only [parseAll, bind, Except.bind, pure, Except.pure]
    cases hf : f x reg with
    | error e =>
      simp only
      have := h x (by simp) reg
      rw [hf] at this
      intro hc; cases hc; exact this rfl
    | ok p =>
      simp only
      cases hp : parseAll f xs p.2 with
      | error e =>
        simp only
        have := ih (fun y hy => h y (by simp [hy])) p.2
        rw [hp] at this
        exact this
      | ok q => simp

theorem mkAttrs_ne_fuel (ps : List String) (kw : Dict) : mkAttrs ps kw ≠ .error .fuel := by
  unfold mkAttrs; split <;> simp

theorem iter_ne_fuel (v : PyVal) : v.iter ≠ .error .fuel := by
  cases v <;> simp [PyVal.iter]

theorem containsStr_ne_fuel (v : PyVal) (s : String) : v.containsStr s ≠ .error .fuel := by
  cases v <;> simp [PyVal.containsStr]

theorem ne_fuel_bind {α β : Type} {x : Except PyErr α} {k : α → Except PyErr β}
    (hx : x ≠ .error .fuel) (hk : ∀ a, x = .ok a → k a ≠ .error .fuel) :
    (x >>= k) ≠ .error .fuel := by
  cases x with
  | error e => simpa [bind, Except.bind] using hx
  | ok a => simpa [bind, Except.bind] using hk a rfl

theorem normalise_ne_fuel (v : PyVal) : normalise v ≠ .error .fuel := by
  cases v <;> simp [normalise]

theorem prepare_ne_fuel (d : Dict) : prepare d ≠ .error .fuel := by
  unfold prepare
  split
  · simp
  split
  · unfold desugarOptional
    apply ne_fuel_bind
    · unfold ensureNull
      split
      · simp
      · rename_i types _
        have := containsStr_ne_fuel types "null"
        split
        · rename_i e he; rw [he] at this; intro hc; cases hc; exact this rfl
        · simp
        · split <;> simp
    · intro d' _
      simp [pure, Except.pure]
  · simp

theorem construct_ne_fuel {f : PyVal → Registry → Except PyErr (RType × Registry)} {m : Nat}
    {d : Dict} (hA : ArgOK m d) (h : ∀ x, x.size ≤ m → ∀ reg, f x reg ≠ .error .fuel)
    (reg : Registry) :
    construct f (d.getD "type" .none) (d.erase "type") reg ≠ .error .fuel := by
  have hA' := hA.erase "type"
  have htl := hA.typeList
  cases htn : Dict.get? d "type" with
  | none => simp [Dict.getD, htn, construct]
  | some tn =>
    have hgd : d.getD "type" .none = tn := by simp [Dict.getD, htn]
    rw [hgd]
    generalize d.erase "type" = kw at hA'
    have fin : ∀ (ps : List String) (kw : Dict) (k : Attrs → RType × Registry),
        (do let a ← mkAttrs ps kw; pure (k a) : Except PyErr (RType × Registry)) ≠ .error .fuel := by
      intro ps kw k
      exact ne_fuel_bind (mkAttrs_ne_fuel _ _) (fun a _ => by simp [pure, Except.pure])
    cases tn with
    | list xs =>
      rw [construct_list]
      apply ne_fuel_bind
      · apply parseAll_ne_fuel
        intro x hx
        exact h x (htl xs htn x (List.mem_filter.mp hx).1)
      · rintro ⟨ts, reg⟩ _
        simp only
        split
        · simp
        · exact fin [] kw _
    | str name =>
      by_cases hcore : name ∈ coreNames
      · simp only [coreNames, List.mem_cons, List.not_mem_nil, or_false] at hcore
        rcases hcore with rfl | rfl | rfl | rfl | rfl | rfl | rfl | rfl | rfl | rfl | rfl
        · rw [construct_null]; exact fin _ _ _
        · rw [construct_bool]; exact fin _ _ _
        · rw [construct_int]; split
          · simp
          · exact fin _ _ _
        · rw [construct_float]; split
          · simp
          · exact fin _ _ _
        · rw [construct_string]; exact fin _ _ _
        · rw [construct_bytes]; exact fin _ _ _
        · rw [construct_listT]
          split
          · simp
          · rename_i v hv
            apply ne_fuel_bind (h v (hA'.direct _ v (by simp) hv) _)
            rintro ⟨t, reg⟩ _
            exact fin _ _ _
        · rw [construct_map]
          split
          · rename_i k v hk hv
            apply ne_fuel_bind (h k (hA'.direct _ k (by simp) hk) _)
            rintro ⟨t, reg⟩ _
            apply ne_fuel_bind (h v (hA'.direct _ v (by simp) hv) _)
            rintro ⟨t, reg⟩ _
            exact fin _ _ _
          · simp
        · rw [construct_struct]
          apply ne_fuel_bind (iter_ne_fuel _)
          intro xs hi
          apply ne_fuel_bind
          · apply parseAll_ne_fuel
            intro x hx
            cases hg : Dict.get? kw "fields" with
            | none =>
              simp [Dict.getD, hg, PyVal.iter] at hi
              subst hi; simp at hx
            | some v =>
              simp only [Dict.getD, hg, Option.getD_some] at hi
              exact h x (hA'.members _ v xs (by simp) hg hi x hx)
          · rintro ⟨t, reg⟩ _
            exact fin _ _ _
        · rw [construct_enum]; split
          · simp
          · exact fin _ _ _
        · rw [construct_union]
          split
          · simp
          · rename_i v hv
            apply ne_fuel_bind (iter_ne_fuel _)
            intro xs hi
            apply ne_fuel_bind
            · apply parseAll_ne_fuel
              intro x hx
              exact h x (hA'.members _ v xs (by simp) hv hi x hx)
            · rintro ⟨t, reg⟩ _
              exact fin _ _ _
      · rw [construct_proxy _ _ _ hcore]
        split
        · simp
        · exact fin _ _ _
    | _ => simp [construct]

theorem checkRange_ne_fuel (v : PyVal) (lo hi : Int) : RType.checkRange v lo hi ≠ .error .fuel := by
  unfold RType.checkRange
  apply ne_fuel_bind
  · cases v <;> simp [PyVal.ltInt]
  · intro b _
    split
    · simp
    · apply ne_fuel_bind
      · cases v <;> simp [PyVal.gtInt]
      · intro b _
        split <;> simp [pure, Except.pure]

theorem checkSize_ne_fuel (v w : PyVal) : RType.checkSize v w ≠ .error .fuel := by
  unfold RType.checkSize
  split
  · simp
  split
  · simp [pure, Except.pure]
  · exact checkRange_ne_fuel _ _ _

mutual
theorem validate_ne_fuel : ∀ t : RType, t.validate ≠ .error .fuel
  | .int .. => by simp only [RType.validate]; exact checkRange_ne_fuel _ _ _
  | .float .. => by simp only [RType.validate]; exact checkRange_ne_fuel _ _ _
  | .string .. => by simp only [RType.validate]; exact checkSize_ne_fuel _ _
  | .bytes .. => by simp only [RType.validate]; exact checkSize_ne_fuel _ _
  | .list t .. => by
    simp only [RType.validate]
    exact ne_fuel_bind (checkSize_ne_fuel _ _) (fun _ _ => validate_ne_fuel t)
  | .map k v _ => by
    simp only [RType.validate]
    exact ne_fuel_bind (validate_ne_fuel k) (fun _ _ => validate_ne_fuel v)
  | .struct fs _ => by simp only [RType.validate]; exact validateList_ne_fuel fs
  | .null _ => by simp [RType.validate, pure, Except.pure]
  | .bool _ => by simp [RType.validate, pure, Except.pure]
  | .enum .. => by simp [RType.validate, pure, Except.pure]
  | .union .. => by simp [RType.validate, pure, Except.pure]
  | .proxy .. => by simp [RType.validate, pure, Except.pure]
theorem validateList_ne_fuel : ∀ ts : List RType, RType.validateList ts ≠ .error .fuel
  | [] => by simp [RType.validateList, pure, Except.pure]
  | t :: ts => by
    simp only [RType.validateList]
    exact ne_fuel_bind (validate_ne_fuel t) (fun _ _ => validateList_ne_fuel ts)
end

theorem registerAlias_ne_fuel (reg : Registry) (t : RType) :
    Registry.registerAlias reg t ≠ .error .fuel := by
  unfold Registry.registerAlias
  split
  · simp
  · split
    · simp
    · split <;> simp
  · simp

theorem finish_ne_fuel (t : RType) (reg : Registry) : finish t reg ≠ .error .fuel := by
  unfold finish
  apply ne_fuel_bind (validate_ne_fuel t)
  intro _ _
  split
  · exact ne_fuel_bind (registerAlias_ne_fuel _ _) (fun _ _ => by simp [pure, Except.pure])
  · simp [pure, Except.pure]

theorem fromDict_ne_fuel (v : PyVal) (reg : Registry) : fromDict v reg ≠ .error .fuel := by
  suffices H : ∀ (n : Nat) (v : PyVal), v.size ≤ n → ∀ reg, fromDict v reg ≠ .error .fuel from
    H v.size v (Nat.le_refl _) reg
  intro n
  induction n with
  | zero => intro v h; have := v.size_pos; omega
  | succ n ih =>
    intro v hv reg
    rw [fromDict_eq]
    apply ne_fuel_bind (normalise_ne_fuel _)
    intro d0 h0
    apply ne_fuel_bind (prepare_ne_fuel _)
    intro d hd
    apply ne_fuel_bind
    · exact construct_ne_fuel (m := n) (argOK_prepare hv h0 hd) (fun x hx reg => ih x hx reg) reg
    · rintro ⟨t, reg⟩ _
      exact finish_ne_fuel _ _

end Recap
