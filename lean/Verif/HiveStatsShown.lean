import Verif.HiveStatsThms

/-! # Statistics in Recap's own format: helper lemmas for C119 -/

set_option autoImplicit false

namespace Recap

open RType Spec Relational

/-- A schema without a name and a default, whose type is a string. -/
def Unnamed (d : Dict) : Prop :=
  Dict.get? d "name" = .none ∧ Dict.get? d "default" = .none ∧ ∃ s, Dict.get? d "type" = some (.str s)

/-- The same for any value: there is nothing to show for other values than dictionaries. -/
def UnnamedVal (v : PyVal) : Prop := ∀ d, v = .dict d → Unnamed d

theorem Unnamed.set {d : Dict} (h : Unnamed d) {k : String} (v : PyVal) (h1 : k ≠ "name") (h2 : k ≠ "default") (h3 : k ≠ "type") :
    Unnamed (d.set k v) := by
  obtain ⟨a, b, s, c⟩ := h
  exact ⟨by rw [Dict.get?_set_ne _ _ h1, a], by rw [Dict.get?_set_ne _ _ h2, b], s, by rw [Dict.get?_set_ne _ _ h3, c]⟩

theorem unnamed_type (s : String) : Unnamed [("type", .str s)] := ⟨rfl, rfl, s, rfl⟩

theorem aliasKeys_get {f : Dict → Registry → Except PyErr (Dict × Registry)} {k : String} : ∀ {ks : List String} {d d' : Dict}
    {reg reg' : Registry}, k ∉ ks → aliasKeys f ks d reg = .ok (d', reg') → Dict.get? d' k = Dict.get? d k
  | [], d, d', reg, reg', _, h => by
    cases h
    rfl
  | j :: ks, d, d', reg, reg', hk, h => by
    simp only [List.mem_cons, not_or] at hk
    rw [aliasKeys] at h
    split at h
    · obtain ⟨⟨xs, r⟩, -, h⟩ := bind_ok h
      rw [aliasKeys_get hk.2 h, Dict.get?_set_ne _ _ (Ne.symm hk.1)]
    · obtain ⟨⟨xs, r⟩, -, h⟩ := bind_ok h
      rw [aliasKeys_get hk.2 h, Dict.get?_set_ne _ _ (Ne.symm hk.1)]
    · exact aliasKeys_get hk.2 h

theorem aliasKeys_list {f : Dict → Registry → Except PyErr (Dict × Registry)} {j : String} {xs : List PyVal} :
    ∀ {ks : List String} {d d' : Dict} {reg reg' : Registry}, j ∈ ks → ks.Nodup → Dict.get? d j = some (.list xs) →
      aliasKeys f ks d reg = .ok (d', reg') →
      ∃ ys q q', Dict.get? d' j = some (.list ys) ∧ aliasAll f xs q = .ok (ys, q')
  | k :: ks, d, d', reg, reg', hm, hn, hd, h => by
    rw [List.nodup_cons] at hn
    rw [aliasKeys] at h
    by_cases hk : k = j
    · subst hk
      rw [hd] at h
      obtain ⟨⟨ys, q⟩, h1, h⟩ := bind_ok h
      exact ⟨ys, _, _, by rw [aliasKeys_get hn.1 h, Dict.get?_set_self], h1⟩
    · have hm' : j ∈ ks := (List.mem_cons.mp hm).resolve_left (Ne.symm hk)
      split at h
      · obtain ⟨⟨ys, q⟩, -, h⟩ := bind_ok h
        exact aliasKeys_list hm' hn.2 (by rw [Dict.get?_set_ne _ _ hk, hd]) h
      · obtain ⟨⟨ys, q⟩, -, h⟩ := bind_ok h
        exact aliasKeys_list hm' hn.2 (by rw [Dict.get?_set_ne _ _ hk, hd]) h
      · exact aliasKeys_list hm' hn.2 hd h

/-- `alias_dict` gives no name. -/
theorem aliasDictF_unnamed {n : Nat} {d d' : Dict} {reg reg' : Registry} (h : aliasDictF n d reg = .ok (d', reg'))
    (hd : Unnamed d) : Unnamed d' := by
  cases n with
  | zero => cases h
  | succ n =>
    rw [aliasDictF] at h
    split at h
    · cases h; exact hd
    · obtain ⟨⟨t, r⟩, -, h⟩ := bind_ok h
      simp only at h
      split at h
      · cases h; exact unnamed_type _
      · obtain ⟨a, b, s, c⟩ := hd
        exact ⟨by rw [aliasKeys_get (by decide) h, a], by rw [aliasKeys_get (by decide) h, b], s,
          by rw [aliasKeys_get (by decide) h, c]⟩

theorem aliasElem_unnamed {n : Nat} {x x' : PyVal} {reg reg' : Registry} (h : aliasElem (aliasDictF n) x reg = .ok (x', reg'))
    (hx : UnnamedVal x) : UnnamedVal x' := by
  unfold aliasElem at h
  split at h
  · obtain ⟨⟨d', r⟩, h1, h⟩ := bind_ok h
    cases h
    rintro e ⟨⟩
    exact aliasDictF_unnamed h1 (hx _ rfl)
  · cases h; exact hx

theorem aliasAll_index {f : Dict → Registry → Except PyErr (Dict × Registry)} : ∀ {xs ys : List PyVal} {reg reg' : Registry},
    aliasAll f xs reg = .ok (ys, reg') → ys.length = xs.length ∧
      ∀ (i : Nat) x, xs[i]? = some x → ∃ y r r', ys[i]? = some y ∧ aliasElem f x r = .ok (y, r')
  | [], ys, reg, reg', h => by
    cases h
    simp
  | x :: xs, ys, reg, reg', h => by
    rw [aliasAll] at h
    obtain ⟨⟨y, r⟩, h1, h⟩ := bind_ok h
    obtain ⟨⟨zs, r'⟩, h2, h⟩ := bind_ok h
    cases h
    obtain ⟨h3, h4⟩ := aliasAll_index h2
    refine ⟨by simp [h3], ?_⟩
    intro i z hz
    cases i with
    | zero => cases hz; exact ⟨y, _, _, rfl, h1⟩
    | succ i => exact h4 i z hz

theorem cleanAll_index {f : PyVal → Except PyErr PyVal} : ∀ {xs ys : List PyVal}, cleanAll f xs = .ok ys →
    ys.length = xs.length ∧ ∀ (i : Nat) x, xs[i]? = some x → ∃ y, ys[i]? = some y ∧ f x = .ok y
  | [], ys, h => by
    cases h
    simp
  | x :: xs, ys, h => by
    rw [cleanAll] at h
    obtain ⟨y, h1, h⟩ := bind_ok h
    obtain ⟨zs, h2, h⟩ := bind_ok h
    cases h
    obtain ⟨h3, h4⟩ := cleanAll_index h2
    refine ⟨by simp [h3], ?_⟩
    intro i z hz
    cases i with
    | zero => cases hz; exact ⟨y, rfl, h1⟩
    | succ i => exact h4 i z hz

theorem cleanNested_get {f : PyVal → Except PyErr PyVal} {name k : String} {d d' : Dict} (h : cleanNested f name d = .ok d')
    (hk : k ∉ ["values", "keys", "fields", "types"]) : Dict.get? d' k = Dict.get? d k := by
  simp only [List.mem_cons, List.not_mem_nil, or_false, not_or] at hk
  obtain ⟨k1, k2, k3, k4⟩ := hk
  unfold cleanNested at h
  simp only [bind, Except.bind, pure, Except.pure] at h
  repeat' split at h
  all_goals first
    | (cases h; done)
    | (cases h
       simp [Dict.get?_set_ne, Ne.symm k1, Ne.symm k2, Ne.symm k3, Ne.symm k4])

theorem dropDefaults_get {pd d : Dict} {k : String} (h : Dict.get? pd k = .none) :
    Dict.get? (dropDefaults pd d) k = Dict.get? d k := by
  induction d with
  | nil => rfl
  | cons kv d ih =>
    obtain ⟨j, v⟩ := kv
    by_cases hj : j = k
    · subst hj
      rw [dropDefaults_cons _ _ _ h, Dict.get?_cons_self, Dict.get?_cons_self]
    · rw [Dict.get?_cons_ne _ _ hj]
      have e : dropDefaults pd ((j, v) :: d) = (j, v) :: dropDefaults pd d ∨ dropDefaults pd ((j, v) :: d) = dropDefaults pd d := by
        have this : ∀ p : String × PyVal → Bool, ((j, v) :: d).filter p = (j, v) :: d.filter p ∨
            ((j, v) :: d).filter p = d.filter p := by
          intro p
          rw [List.filter_cons]
          split
          · exact .inl rfl
          · exact .inr rfl
        exact this _
      rcases e with e | e <;> rw [e]
      · rw [Dict.get?_cons_ne _ _ hj, ih]
      · exact ih

theorem paramDefaults_none {n k : String} (h : k ∉ ["signed", "bytes", "variable", "length", "fields", "logical", "alias", "doc"]) :
    Dict.get? (paramDefaults n) k = .none := by
  simp only [List.mem_cons, List.not_mem_nil, or_false, not_or] at h
  obtain ⟨h1, h2, h3, h4, h5, h6, h7, h8⟩ := h
  unfold paramDefaults
  simp only
  repeat' split
  all_goals simp [Dict.get?, Ne.symm h1, Ne.symm h2, Ne.symm h3, Ne.symm h4, Ne.symm h5, Ne.symm h6, Ne.symm h7, Ne.symm h8]

theorem shorten_unnamed {d : Dict} {v : PyVal} (h : shorten d = .ok v) (hd : Unnamed d) (ht : ∀ w, Dict.get? d "types" = some w →
    Dict.get? d "type" = some (.str "union") → ∃ xs, w = .list xs) : UnnamedVal v := by
  obtain ⟨a, b, s, c⟩ := id hd
  unfold shorten at h
  rw [c] at h
  simp only at h
  split at h
  · cases h
    rintro e ⟨⟩
  · split at h
    · rename_i hu
      split at h
      · rename_i w hw
        cases h
        have : s = "union" := by simpa [PyVal.pyEq] using (Bool.and_eq_true_iff.mp hu).1
        subst this
        obtain ⟨xs, rfl⟩ := ht _ hw c
        rintro e ⟨⟩
      · cases h
    · cases h
      rintro e ⟨⟩
      exact hd

theorem cleanNested_types {f : PyVal → Except PyErr PyVal} {d d' : Dict} (h : cleanNested f "union" d = .ok d') :
    ∃ v xs xs', Dict.get? d "types" = some v ∧ v.iter = .ok xs ∧ cleanAll f xs = .ok xs' ∧ d' = d.set "types" (.list xs') := by
  unfold cleanNested at h
  simp only [String.reduceEq, or_self, if_false, if_true, bind, Except.bind, pure, Except.pure] at h
  split at h
  · cases h
  · rename_i v hv
    refine ⟨v, ?_⟩
    cases h1 : v.iter with
    | error e => rw [h1] at h; cases h
    | ok xs =>
      rw [h1] at h
      simp only at h
      cases h2 : cleanAll f xs with
      | error e => rw [h2] at h; cases h
      | ok xs' =>
        rw [h2] at h
        cases h
        exact ⟨xs, xs', hv, rfl, h2, rfl⟩

theorem cleanNested_fields {f : PyVal → Except PyErr PyVal} {d d' : Dict} {xs : List PyVal} (h : cleanNested f "struct" d = .ok d')
    (hf : Dict.get? d "fields" = some (.list xs)) : ∃ xs', cleanAll f xs = .ok xs' ∧ d' = d.set "fields" (.list xs') := by
  unfold cleanNested at h
  simp only [String.reduceEq, or_self, if_false, if_true, bind, Except.bind, pure, Except.pure, hf, PyVal.iter] at h
  cases h2 : cleanAll f xs with
  | error e => rw [h2] at h; cases h
  | ok xs' =>
    rw [h2] at h
    cases h
    exact ⟨xs', rfl, rfl⟩

/-- `clean_dict` gives no name. -/
theorem cleanDictF_unnamed {n : Nat} {v v' : PyVal} (h : cleanDictF n v = .ok v') (hv : UnnamedVal v) : UnnamedVal v' := by
  cases n with
  | zero => cases h
  | succ n =>
    rw [cleanDictF] at h
    obtain ⟨d, h1, h⟩ := bind_ok h
    have hd : Unnamed d := by
      unfold cleanNormalise at h1
      split at h1
      · cases h1; exact ⟨rfl, rfl, _, rfl⟩
      · split at h1 <;> cases h1
        exact hv _ rfl
      · cases h1; exact unnamed_type _
      · cases h1
    obtain ⟨a, b, s, c⟩ := id hd
    have hs : d.getD "type" .none = .str s := by unfold Dict.getD; rw [c]; rfl
    rw [hs] at h
    simp only at h
    obtain ⟨d1, h2, h⟩ := bind_ok h
    obtain ⟨d2, h3, h5⟩ := bind_ok h
    have get : ∀ {k}, k ∉ ["values", "keys", "fields", "types"] →
        k ∉ ["signed", "bytes", "variable", "length", "fields", "logical", "alias", "doc"] → Dict.get? d1 k = Dict.get? d k := by
      intro k hk1 hk2
      rw [cleanNested_get h2 hk1, dropDefaults_get (paramDefaults_none hk2)]
    have hd1 : Unnamed d1 := ⟨by rw [get (by decide) (by decide), a], by rw [get (by decide) (by decide), b], s,
      by rw [get (by decide) (by decide), c]⟩
    have e2 : d2 = d1 := by
      unfold sugarOptional at h3
      split at h3
      · cases h3; rfl
      · split at h3
        · cases h3
        · split at h3
          · cases h3
          · cases h3; rfl
          · split at h3
            · cases h3; rfl
            · rename_i hdef
              have : Dict.has d1 "default" = false := by
                unfold Dict.has
                rw [hd1.2.1]; rfl
              rw [this] at hdef
              exact absurd rfl hdef
    subst e2
    refine shorten_unnamed h5 hd1 ?_
    intro w hw hu
    obtain ⟨-, -, s', c'⟩ := hd1
    have e : s = "union" := by
      have := get (k := "type") (by decide) (by decide)
      rw [hu, c] at this
      simpa using this.symm
    subst e
    obtain ⟨v, xs, xs', -, -, -, rfl⟩ := cleanNested_types h2
    rw [Dict.get?_set_self] at hw
    cases hw
    exact ⟨_, rfl⟩

theorem cleanDict_null (n : Nat) : cleanDictF (n + 1) (.str "null") = .ok (.str "null") := by
  rw [cleanDictF]
  rfl

theorem length_of_keys {d : Dict} {k1 k2 k3 : String} (h1 : k1 ∈ d.keys) (h2 : k2 ∈ d.keys) (h3 : k3 ∈ d.keys)
    (h12 : k1 ≠ k2) (h13 : k1 ≠ k3) (h23 : k2 ≠ k3) : 3 ≤ d.length := by
  have : [k1, k2, k3].length ≤ d.keys.length := by
    have hn : [k1, k2, k3].Nodup := by simp [h12, h13, h23]
    exact (List.nodup_iff_count.mp hn |> fun _ => hn.length_le_of_subset (by
      intro k hk
      simp only [List.mem_cons, List.not_mem_nil, or_false] at hk
      rcases hk with rfl | rfl | rfl <;> assumption))
  simpa [Dict.keys] using this

theorem popStandard_get {d : Dict} {k : String} (h : k ∉ ["alias", "logical", "default", "doc", "name"]) :
    Dict.get? (popStandard d) k = Dict.get? d k := by
  simp only [List.mem_cons, List.not_mem_nil, or_false, not_or] at h
  obtain ⟨h1, h2, h3, h4, h5⟩ := h
  unfold popStandard
  rw [Dict.get?_erase_ne _ (Ne.symm h5), Dict.get?_erase_ne _ (Ne.symm h4), Dict.get?_erase_ne _ (Ne.symm h3),
    Dict.get?_erase_ne _ (Ne.symm h2), Dict.get?_erase_ne _ (Ne.symm h1)]

/-- The name of a nullable union with another attribute is lost. -/
theorem cleanDictF_loses {n : Nat} {d : Dict} {v : PyVal} {xs : List PyVal} {k : String}
    (h : cleanDictF n (.dict d) = .ok v) (ht : Dict.get? d "type" = some (.str "union"))
    (hx : Dict.get? d "types" = some (.list xs)) (hnull : .str "null" ∈ xs) (hd : Dict.get? d "default" ≠ .none)
    (hk : Dict.get? d k ≠ .none)
    (hks : k ∉ ["alias", "logical", "default", "doc", "name", "type", "types", "values", "keys", "fields", "signed", "bytes", "variable", "length"]) :
    UnnamedVal v := by
  cases n with
  | zero => cases h
  | succ n =>
    rw [cleanDictF] at h
    obtain ⟨d0, h1, h⟩ := bind_ok h
    unfold cleanNormalise at h1
    split at h1
    · rename_i e; cases e
    · rename_i e
      cases e
      split at h1 <;> cases h1
      have hs : d.getD "type" .none = .str "union" := by unfold Dict.getD; rw [ht]; rfl
      rw [hs] at h
      simp only at h
      obtain ⟨d1, h2, h⟩ := bind_ok h
      obtain ⟨d2, h3, h⟩ := bind_ok h
      have get : ∀ {k}, k ∉ ["values", "keys", "fields", "types"] →
          k ∉ ["signed", "bytes", "variable", "length", "fields", "logical", "alias", "doc"] → Dict.get? d1 k = Dict.get? d k := by
        intro k hk1 hk2
        rw [cleanNested_get h2 hk1, dropDefaults_get (paramDefaults_none hk2)]
      obtain ⟨w, ys, zs, e1, e2, e3, e4⟩ := cleanNested_types h2
      rw [dropDefaults_get (paramDefaults_none (by decide)), hx] at e1
      cases e1
      cases e2
      obtain ⟨-, hidx⟩ := cleanAll_index e3
      have hz : .str "null" ∈ zs := by
        obtain ⟨i, hi, e⟩ := List.mem_iff_getElem.mp hnull
        obtain ⟨y, hy, hc⟩ := hidx i _ (by rw [List.getElem?_eq_getElem hi, e])
        cases n with
        | zero => cases hc
        | succ n =>
          rw [cleanDict_null] at hc
          cases hc
          exact List.mem_of_getElem? hy
      have t1 : Dict.get? d1 "type" = some (.str "union") := by rw [get (by decide) (by decide), ht]
      have t2 : Dict.get? d1 "types" = some (.list zs) := by rw [e4, Dict.get?_set_self]
      have t3 : Dict.has d1 "default" = true := by
        unfold Dict.has
        rw [get (by decide) (by decide)]
        cases hh : Dict.get? d "default" with
        | none => exact absurd hh hd
        | some _ => rfl
      simp only [List.mem_cons, List.not_mem_nil, or_false, not_or] at hks
      obtain ⟨n1, n2, n3, n4, n5, n6, n7, n8, n9, n10, n11, n12, n13, n14⟩ := hks
      have t4 : Dict.get? d1 k ≠ .none := by
        rw [get (by simp [n7, n8, n9, n10]) (by simp [n1, n2, n4, n10, n11, n12, n13, n14])]
        exact hk
      have len : 3 ≤ (popStandard d1).length := by
        have mem : ∀ {j}, Dict.get? (popStandard d1) j ≠ .none → j ∈ (popStandard d1).keys := fun hj =>
          Classical.byContradiction fun hno => hj (Dict.get?_eq_none_iff.mpr hno)
        refine length_of_keys (k1 := "type") (k2 := "types") (k3 := k) (mem ?_) (mem ?_) (mem ?_) (by decide) (Ne.symm n6) (Ne.symm n7)
        · rw [popStandard_get (by decide), t1]; simp
        · rw [popStandard_get (by decide), t2]; simp
        · rw [popStandard_get (by simp [n1, n2, n3, n4, n5])]; exact t4
      have e2 : d2 = popStandard d1 := by
        unfold sugarOptional at h3
        have g1 : d1.getD "type" .none = .str "union" := by unfold Dict.getD; rw [t1]; rfl
        rw [g1, t2, if_neg (by simp [PyVal.pyEq])] at h3
        simp only [containsNull, hz, decide_true, t3, Bool.not_true, Bool.false_eq_true, if_false] at h3
        rw [if_neg (by simp only [beq_iff_eq]; omega)] at h3
        cases h3
        rfl
      subst e2
      refine shorten_unnamed h ⟨?_, ?_, "union", ?_⟩ ?_
      · unfold popStandard; rw [Dict.get?_erase_self]
      · unfold popStandard
        rw [Dict.get?_erase_ne _ (by decide), Dict.get?_erase_ne _ (by decide), Dict.get?_erase_self]
      · rw [popStandard_get (by decide), t1]
      · intro w hw _
        rw [popStandard_get (by decide), t2] at hw
        cases hw
        exact ⟨_, rfl⟩
    · rename_i e; cases e
    · rename_i e1 e2 e3; exact absurd rfl (e2 d)

/-- What is shown for such a union has no name. -/
theorem toDict_loses {ts : List RType} {a : Attrs} {v : PyVal} {k : String} (h : toDict true true (.union ts a) = .ok v)
    (ht : .null {} ∈ ts) (hn : a.extra.keys.Nodup) (hx : ∀ j ∈ ["type", "alias", "types"], Dict.get? a.extra j = .none)
    (hd : Dict.get? a.extra "default" ≠ .none) (hk : Dict.get? a.extra k ≠ .none)
    (hks : k ∉ ["alias", "logical", "default", "doc", "name", "type", "types", "values", "keys", "fields", "signed", "bytes", "variable", "length"]) :
    UnnamedVal v := by
  rw [toDict] at h
  obtain ⟨xs, h1, h⟩ := bind_ok h
  have hnull : ∀ {ts : List RType} {xs : List PyVal}, .null {} ∈ ts → toDictList true true ts = .ok xs → .str "null" ∈ xs := by
    intro ts
    induction ts with
    | nil => intro _ h; cases h
    | cons t ts ih =>
      intro xs hm h
      rw [toDictList] at h
      obtain ⟨x, g1, h⟩ := bind_ok h
      obtain ⟨ys, g2, h⟩ := bind_ok h
      cases h
      rcases List.mem_cons.mp hm with rfl | hm
      · cases g1
        exact List.mem_cons_self ..
      · exact List.mem_cons_of_mem _ (ih hm g2)
  have hmem := hnull ht h1
  have get : ∀ {j w}, Dict.get? a.extra j = some w →
      Dict.get? (baseDict (.union ts a)) j = some w := by
    intro j w hj
    unfold baseDict
    simp only [RType.attrs]
    rw [Clients.get?_update' _ _ _ hn, hj]
    rfl
  have ty : Dict.get? (baseDict (.union ts a)) "type" = some (.str "union") := by
    unfold baseDict
    simp only [RType.attrs]
    rw [Clients.get?_update' _ _ _ hn, hx "type" (by simp)]
    rfl
  generalize hD : baseDict (.union ts a) = D at h get ty
  unfold postProcess at h
  simp only [if_true] at h
  obtain ⟨E, h2, h⟩ := bind_ok h
  obtain ⟨⟨D', r⟩, h6, e⟩ := map_ok h2
  cases e
  replace h2 := h6
  clear h6
  have some_of : ∀ {j}, Dict.get? a.extra j ≠ .none → j ≠ "types" → Dict.get? (D.set "types" (.list xs)) j ≠ .none := by
    intro j hj hjt
    cases hw : Dict.get? a.extra j with
    | none => exact absurd hw hj
    | some w =>
      rw [Dict.get?_set_ne _ _ (Ne.symm hjt), get hw]
      simp
  have ks := hks
  simp only [List.mem_cons, List.not_mem_nil, or_false, not_or] at ks
  obtain ⟨n1, n2, n3, n4, n5, n6, n7, n8, n9, n10, n11, n12, n13, n14⟩ := ks
  unfold cleanDict at h
  unfold aliasDict at h2
  generalize (PyVal.dict (D.set "types" (.list xs))).size = m at h2
  cases m with
  | zero => cases h2
  | succ m =>
    rw [aliasDictF] at h2
    split at h2
    · cases h2
      exact cleanDictF_loses h (by rw [Dict.get?_set_ne _ _ (by decide), ty]) (Dict.get?_set_self ..) hmem
        (some_of hd (by decide)) (some_of hk n7) hks
    · obtain ⟨⟨t, r'⟩, -, h2⟩ := bind_ok h2
      simp only at h2
      split at h2
      · cases h2
        exact cleanDictF_unnamed h (by rintro e ⟨⟩; exact unnamed_type _)
      · have keep : ∀ {j}, j ∉ ["values", "keys", "fields", "types"] → Dict.get? D' j = Dict.get? (D.set "types" (.list xs)) j :=
          fun hj => aliasKeys_get hj h2
        obtain ⟨ys, hy, hm⟩ : ∃ ys, Dict.get? D' "types" = some (.list ys) ∧ .str "null" ∈ ys := by
          obtain ⟨ys, q, q', s2, s3⟩ := aliasKeys_list (by decide) (by decide) (Dict.get?_set_self ..) h2
          refine ⟨ys, s2, ?_⟩
          obtain ⟨i, hi, e⟩ := List.mem_iff_getElem.mp hmem
          obtain ⟨y, _, _, hy, hc⟩ := (aliasAll_index s3).2 i _ (by rw [List.getElem?_eq_getElem hi, e])
          cases hc
          exact List.mem_of_getElem? hy
        refine cleanDictF_loses h ?_ hy hm ?_ ?_ hks
        · rw [keep (by decide), Dict.get?_set_ne _ _ (by decide), ty]
        · rw [keep (by decide)]
          exact some_of hd (by decide)
        · rw [keep (by simp [n7, n8, n9, n10])]
          exact some_of hk n7

theorem clean_name {n : Nat} {k : String} {v : PyVal} (h : cleanDictF n (.dict [("type", .str k)]) = .ok v) : v = .str k := by
  cases n with
  | zero => cases h
  | succ n =>
    rw [cleanDictF] at h
    obtain ⟨d, h1, h⟩ := bind_ok h
    cases h1
    have hs : Dict.getD [("type", .str k)] "type" .none = .str k := rfl
    rw [hs] at h
    simp only at h
    obtain ⟨d1, h2, h⟩ := bind_ok h
    obtain ⟨d2, h3, h⟩ := bind_ok h
    have hd : dropDefaults (paramDefaults k) [("type", .str k)] = [("type", .str k)] := by
      rw [dropDefaults_cons _ _ _ (paramDefaults_none (by decide))]
      rfl
    rw [hd] at h2
    have e1 : d1 = [("type", .str k)] := by
      unfold cleanNested at h2
      simp only [bind, Except.bind, pure, Except.pure, Dict.get?, String.reduceEq, if_false] at h2
      repeat' split at h2
      all_goals first
        | (cases h2; done)
        | (cases h2; rfl)
    subst e1
    have e2 : d2 = [("type", .str k)] := by
      unfold sugarOptional at h3
      simp only [Dict.getD, Dict.get?, String.reduceEq, if_false, if_true] at h3
      split at h3
      · cases h3; rfl
      · cases h3
    subst e2
    cases h
    rfl

/-- What is shown for a struct has the fields, with those that have no name. -/
theorem toDict_struct {fs : List RType} {a : Attrs} {d : Dict} (h : toDict true true (.struct fs a) = .ok (.dict d))
    (hn : a.extra.keys.Nodup) (hx : Dict.get? a.extra "type" = .none) :
    ∃ xs, Dict.get? d "fields" = some (.list xs) ∧ xs.length = fs.length ∧
      ∀ (i : Nat) f, fs[i]? = some f → (∀ v, toDict true true f = .ok v → UnnamedVal v) →
        ∃ x, xs[i]? = some x ∧ UnnamedVal x := by
  rw [toDict] at h
  obtain ⟨xs, h1, h⟩ := bind_ok h
  have hl : ∀ {fs : List RType} {xs : List PyVal}, toDictList true true fs = .ok xs → xs.length = fs.length ∧
      ∀ (i : Nat) f, fs[i]? = some f → ∃ x, xs[i]? = some x ∧ toDict true true f = .ok x := by
    intro fs
    induction fs with
    | nil => intro xs h; cases h; simp
    | cons f fs ih =>
      intro xs h
      rw [toDictList] at h
      obtain ⟨x, g1, h⟩ := bind_ok h
      obtain ⟨ys, g2, h⟩ := bind_ok h
      cases h
      obtain ⟨i1, i2⟩ := ih g2
      refine ⟨by simp [i1], ?_⟩
      intro i g hg
      cases i with
      | zero => cases hg; exact ⟨x, rfl, g1⟩
      | succ i => exact i2 i g hg
  obtain ⟨l1, l2⟩ := hl h1
  have ty : Dict.get? (baseDict (.struct fs a)) "type" = some (.str "struct") := by
    unfold baseDict
    simp only [RType.attrs]
    rw [Clients.get?_update' _ _ _ hn, hx]
    rfl
  generalize baseDict (.struct fs a) = D at h ty
  unfold postProcess at h
  simp only [if_true] at h
  obtain ⟨E, h2, h⟩ := bind_ok h
  obtain ⟨⟨D', r⟩, h6, e⟩ := map_ok h2
  cases e
  replace h2 := h6
  clear h6
  -- After the aliases
  have good : Dict.get? D' "type" = some (.str "struct") ∧ ∃ ys, Dict.get? D' "fields" = some (.list ys) ∧ ys.length = fs.length ∧
      ∀ (i : Nat) f, fs[i]? = some f → (∀ v, toDict true true f = .ok v → UnnamedVal v) → ∃ y, ys[i]? = some y ∧ UnnamedVal y := by
    unfold aliasDict at h2
    generalize (PyVal.dict (D.set "fields" (.list xs))).size = m at h2
    cases m with
    | zero => cases h2
    | succ m =>
      rw [aliasDictF] at h2
      split at h2
      · cases h2
        refine ⟨by rw [Dict.get?_set_ne _ _ (by decide), ty], xs, Dict.get?_set_self .., l1, ?_⟩
        intro i f hf hv
        obtain ⟨x, g1, g2⟩ := l2 i f hf
        exact ⟨x, g1, hv x g2⟩
      · obtain ⟨⟨t, r'⟩, -, h2⟩ := bind_ok h2
        simp only at h2
        split at h2
        · rename_i k _
          cases h2
          cases clean_name h
        · obtain ⟨ys, q, q', s2, s3⟩ := aliasKeys_list (by decide) (by decide) (Dict.get?_set_self ..) h2
          obtain ⟨s4, s5⟩ := aliasAll_index s3
          refine ⟨by rw [aliasKeys_get (by decide) h2, Dict.get?_set_ne _ _ (by decide), ty], ys, s2, by rw [s4, l1], ?_⟩
          intro i f hf hv
          obtain ⟨x, g1, g2⟩ := l2 i f hf
          obtain ⟨y, _, _, g3, g4⟩ := s5 i x g1
          exact ⟨y, g3, aliasElem_unnamed g4 (hv x g2)⟩
  clear h2
  obtain ⟨ty', ys, hy, ly, gy⟩ := good
  -- After cleaning
  unfold cleanDict at h
  generalize (PyVal.dict D').size = n at h
  cases n with
  | zero => cases h
  | succ n =>
    rw [cleanDictF] at h
    obtain ⟨d0, h1, h⟩ := bind_ok h
    simp only [cleanNormalise] at h1
    split at h1 <;> cases h1
    have hs : D'.getD "type" .none = .str "struct" := by unfold Dict.getD; rw [ty']; rfl
    rw [hs] at h
    simp only at h
    obtain ⟨d1, h2, h⟩ := bind_ok h
    obtain ⟨d2, h3, h7⟩ := bind_ok h
    have hf : Dict.get? (dropDefaults (paramDefaults "struct") D') "fields" = some (.list ys) := by
      have keep : ∀ {e : Dict}, Dict.get? e "fields" = some (.list ys) →
          Dict.get? (dropDefaults (paramDefaults "struct") e) "fields" = some (.list ys) := by
        intro e
        induction e with
        | nil => intro he; cases he
        | cons kv e ih =>
          obtain ⟨j, v⟩ := kv
          intro he
          have two : ∀ p : String × PyVal → Bool, (((j, v) :: e).filter p = (j, v) :: e.filter p) ∨
              ((j, v) :: e).filter p = e.filter p := by
            intro p
            rw [List.filter_cons]
            split
            · exact .inl rfl
            · exact .inr rfl
          by_cases hj : j = "fields"
          · subst hj
            rw [Dict.get?_cons_self] at he
            cases he
            rfl
          · rw [Dict.get?_cons_ne _ _ hj] at he
            have := ih he
            have e' := two (fun kv => match (paramDefaults "struct").get? kv.1 with
              | .none => true
              | some dv => !PyVal.pyEq dv kv.2)
            rcases e' with e' | e'
            · have : dropDefaults (paramDefaults "struct") ((j, v) :: e) = (j, v) :: dropDefaults (paramDefaults "struct") e := e'
              rw [this, Dict.get?_cons_ne _ _ hj]
              exact ih he
            · have : dropDefaults (paramDefaults "struct") ((j, v) :: e) = dropDefaults (paramDefaults "struct") e := e'
              rw [this]
              exact ih he
      exact keep hy
    have hty : Dict.get? d1 "type" = some (.str "struct") := by
      rw [cleanNested_get h2 (by decide), dropDefaults_get (paramDefaults_none (by decide)), ty']
    obtain ⟨zs, h4, rfl⟩ := cleanNested_fields h2 hf
    have e2 : d2 = (dropDefaults (paramDefaults "struct") D').set "fields" (.list zs) := by
      unfold sugarOptional at h3
      unfold Dict.getD at h3
      rw [hty] at h3
      cases h3
      rfl
    rw [e2] at h7
    have e5 : d = (dropDefaults (paramDefaults "struct") D').set "fields" (.list zs) := by
      unfold shorten at h7
      rw [hty] at h7
      simp only at h7
      split at h7
      · cases h7
      · split at h7
        · rename_i hu
          cases (Bool.and_eq_true_iff.mp hu).1
        · cases h7
          rfl
    obtain ⟨lz, gz⟩ := cleanAll_index h4
    refine ⟨zs, by rw [e5, Dict.get?_set_self], by rw [lz, ly], ?_⟩
    intro i f hf hv
    obtain ⟨y, g1, g2⟩ := gy i f hf hv
    obtain ⟨z, g3, g4⟩ := gz i y g1
    exact ⟨z, g3, cleanDictF_unnamed g4 g2⟩

end Recap
