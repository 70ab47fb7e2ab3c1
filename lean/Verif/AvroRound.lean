import Verif.AvroNames

/-!
# Lemmas for C61: writing and reading Avro schemas
-/

set_option autoImplicit false

namespace Recap.Avro

open Recap.Avro.Spec

variable {live : Registry}

/-! ## Descriptions -/

theorem get?_or (d e : Dict) (k : String) : Dict.get? (d ++ e) k = (Dict.get? d k).or (Dict.get? e k) := by
  rw [Dict.get?_append]
  cases Dict.get? d k <;> rfl

theorem get?_docOf (a : Attrs) (k : String) :
    Dict.get? (docOf a) k = if k = "doc" ∧ a.doc.truthy = true then some a.doc else .none := by
  unfold docOf
  split <;> rename_i h <;> simp [Dict.get?, h, eq_comm]

theorem get?_nameOf (a : Attrs) (k : String) :
    Dict.get? (nameOf a) k =
      if k = "name" then (Dict.get? a.extra "name").filter (·.truthy) else .none := by
  unfold nameOf
  split
  · rename_i v hv
    rw [hv]
    split <;> rename_i h <;> simp [Dict.get?, h, Option.filter, eq_comm]
  · rename_i hv
    rw [hv]
    simp [Dict.get?]

theorem get?_copied (d : Dict) (key k : String) :
    Dict.get? (copied d key) k = if k = key then Dict.get? d key else .none := by
  unfold copied
  split <;> rename_i h <;> simp [Dict.get?, h, eq_comm]

theorem get?_aliasesOf {a : Attrs} {s : Dict} (h : aliasesOf a = .ok s) {k : String} (hk : k ≠ "aliases") :
    Dict.get? s k = .none := by
  unfold aliasesOf at h
  (repeat' split at h) <;> cases h <;> first | rfl | simp [Dict.get?, hk.symm]

theorem describe_get {a : Attrs} {s : Dict} (h : describe a = .ok s) :
    Dict.get? s "doc" = (if a.doc.truthy = true then some a.doc else .none) ∧
    Dict.get? s "name" = (Dict.get? a.extra "name").filter (·.truthy) ∧
    Dict.get? s "default" = Dict.get? a.extra "default" := by
  unfold describe at h
  obtain ⟨al, hal, h⟩ := ok_bind h
  cases h
  simp only [get?_or, get?_docOf, get?_nameOf, get?_copied, get?_aliasesOf hal (k := "doc") (by decide),
    get?_aliasesOf hal (k := "name") (by decide), get?_aliasesOf hal (k := "default") (by decide)]
  simp

theorem describe_ok {a : Attrs} (h : a.alias = .none ∨ ∃ s, a.alias = .str s) : ∃ s, describe a = .ok s := by
  have : ∃ al, aliasesOf a = .ok al := by
    unfold aliasesOf
    rcases h with h | ⟨s, h⟩ <;> rw [h]
    · exact ⟨_, rfl⟩
    · split <;> exact ⟨_, rfl⟩
  obtain ⟨al, hal⟩ := this
  exact ⟨_, by simp only [describe, hal]; rfl⟩

/-- The dictionary has the description, the name and the default of `i`. -/
structure Has (i : Info) (D : Dict) : Prop where
  doc : Dict.get? D "doc" = if i.doc.truthy = true then some i.doc else .none
  name : Dict.get? D "name" = i.name.map .str
  default : Dict.get? D "default" = i.default
  namespace_ : Dict.get? D "namespace" = .none

theorem get?_extra (i : Info) {own : Dict} (k : String) (ho : Dict.get? own k = .none) :
    Dict.get? (i.extra own) k =
      if k = "name" then i.name.map .str else if k = "default" then i.default else .none := by
  obtain ⟨doc, name, dflt⟩ := i
  simp only [Info.extra, Dict.get?_append, ho]
  cases name <;> cases dflt <;> simp [Dict.get?, eq_comm] <;> grind

theorem has_described {i : Info} (hi : i.Proper) {logical alias : PyVal} {own s d : Dict}
    (h1 : Dict.get? own "name" = .none) (h2 : Dict.get? own "default" = .none)
    (h : describe (i.plain logical own alias) = .ok s)
    (hd : ∀ k ∈ Dict.keys d, k ∉ ["doc", "name", "default", "namespace"]) : Has i (s ++ d) := by
  obtain ⟨g1, g2, g3⟩ := describe_get h
  have nd : ∀ k ∈ ["doc", "name", "default", "namespace"], Dict.get? d k = .none := fun k hk =>
    Dict.get?_eq_none_iff.mpr fun h' => hd k h' hk
  refine ⟨?_, ?_, ?_, ?_⟩
  · rw [get?_or, g1, nd _ (by simp), Option.or_none]
    rfl
  · rw [get?_or, g2, nd _ (by simp), Option.or_none]
    simp only [Info.plain]
    rw [get?_extra i _ h1]
    cases hn : i.name with
    | none => rfl
    | some n => simp [Option.filter, PyVal.truthy, (hi.name n hn).1]
  · rw [get?_or, g3, nd _ (by simp), Option.or_none]
    simp only [Info.plain]
    rw [get?_extra i _ h2]
    simp
  · rw [get_described h (by decide), nd _ (by simp)]

theorem hasDot_false {n : String} (h : '.' ∉ n.toList) : hasDot n = false := by
  simp [hasDot, h]

/-- What `parse` makes of the description. -/
theorem header_has {i : Info} (hi : i.Proper) {D : Dict} (h : Has i D) {ns : String} (hns : ns ≠ "") :
    ∃ e, header D (some ns) = .ok (some ns, (i.attrs ns).alias, e) ∧
      ∀ alias logical own, attrsOf e alias logical own = i.plain logical own alias := by
  obtain ⟨h1, h2, h3, h4⟩ := h
  have hdoc : i.doc.truthy = false → i.doc = .none := fun h => by
    rcases hi.doc with hd | hd
    · exact hd
    · rw [h] at hd; cases hd
  obtain ⟨doc, name, dflt⟩ := i
  cases name with
  | none =>
    refine ⟨copied D "doc" ++ copied D "default", ?_, ?_⟩
    · simp only [header, namespaceOf, h4, h2]; rfl
    · intro alias logical own
      simp only [attrsOf, Info.plain, Info.extra, copied, h1, h3]
      by_cases hd : doc.truthy = true
      · cases dflt <;> simp [hd, Dict.getD, Dict.get?]
      · have := hdoc (by simpa using hd)
        simp only at this
        subst this
        cases dflt <;> simp [PyVal.truthy, Dict.getD, Dict.get?]
  | some n =>
    obtain ⟨hn1, hn2⟩ := hi.name n rfl
    refine ⟨copied D "doc" ++ ("name", .str n) :: copied D "default", ?_, ?_⟩
    · simp only [header, namespaceOf, h4, h2, fullName, hasDot_false hn2]
      simp [hasDot_false hn2, hns, bind, Except.bind, pure, Except.pure, Info.attrs, Info.plain]
    · intro alias logical own
      simp only [attrsOf, Info.plain, Info.extra, copied, h1, h3]
      by_cases hd : doc.truthy = true
      · cases dflt <;> simp [hd, Dict.getD, Dict.get?]
      · have := hdoc (by simpa using hd)
        simp only at this
        subst this
        cases dflt <;> simp [PyVal.truthy, Dict.getD, Dict.get?]

/-! ## Reading -/

/-- The value is read as the type, which adds its aliases to the registry. -/
def Reads (ns : String) (t : RType) (v : PyVal) : Prop :=
  ∀ m reg, v.size ≤ m → NewAliases reg t → ∃ reg', parseF m v (some ns) reg = .ok (t, reg') ∧
    ∀ s, s ∈ Recap.Spec.names reg' ↔ s ∈ Recap.Spec.names reg ∨ PyVal.str s ∈ Recap.Spec.definedAliases t

theorem find_none {reg : Registry} {s : String} : reg.find? s = .none ↔ s ∉ Recap.Spec.names reg := by
  rw [← find?_isSome_iff]
  cases Registry.find? reg s <;> simp

/-- A type whose aliases, but its own, are registered. -/
theorem registered_new {reg : Registry} {t : RType} {ns : String} {i : Info} (ha : t.attrs = i.attrs ns)
    (h : ∀ s, t.attrs.alias = .str s → aliasOk s = true ∧ reg.find? s = .none) :
    ∃ reg', registered t reg = .ok (t, reg') ∧
      ∀ s, s ∈ Recap.Spec.names reg' ↔ s ∈ Recap.Spec.names reg ∨ PyVal.str s ∈ Recap.Spec.own t.attrs := by
  unfold registered
  cases hn : i.name with
  | none =>
    have : t.attrs.alias = .none := by rw [ha]; simp [Info.attrs, Info.plain, hn]
    rw [this]
    exact ⟨reg, rfl, by simp [Recap.Spec.own, this]⟩
  | some n =>
    have hal : t.attrs.alias = .str (ns ++ "." ++ n) := by rw [ha]; simp [Info.attrs, Info.plain, hn]
    obtain ⟨h1, h2⟩ := h _ hal
    simp only [hal, Registry.registerAlias, h1, h2]
    refine ⟨_, rfl, ?_⟩
    intro s
    simp [Recap.Spec.names, Recap.Spec.own, hal]

theorem nodup_own (a : Attrs) : (Recap.Spec.own a).Nodup := by
  unfold Recap.Spec.own
  split <;> simp

theorem reads_shorten {ns : String} {t : RType} {D : Dict} (h : Reads ns t (.dict D)) : Reads ns t (shorten D) := by
  rcases shorten_cases D with e | ⟨s, e, e'⟩
  · rwa [e]
  · subst e
    rw [e']
    intro m reg hm hn
    cases m with
    | zero => simp [PyVal.size] at hm
    | succ m =>
      obtain ⟨reg', h1, h2⟩ := h _ reg (Nat.le_refl _) hn
      refine ⟨reg', ?_, h2⟩
      rw [← h1]
      simp only [PyVal.size, PyVal.sizePairs, parseF]
      exact parseDict_short ..

theorem reads_field {ns : String} {t : RType} {v : PyVal} (h : Reads ns t v) : Reads ns t (fieldSchema v) := by
  unfold fieldSchema
  split
  · rename_i s
    intro m reg hm hn
    cases m with
    | zero => simp [PyVal.size] at hm
    | succ m =>
      obtain ⟨reg', h1, h2⟩ := h _ reg (Nat.le_refl _) hn
      refine ⟨reg', ?_, h2⟩
      rw [← h1]
      simp only [PyVal.size, parseF]
      exact parseDict_short ..
  · exact h

/-- To read a dictionary with the description of `i`. -/
theorem reads_of {ns : String} (hns : ns ≠ "") {t : RType} {i : Info} (hi : i.Proper) {D : Dict} (hD : Has i D)
    (h : ∀ m e reg, (PyVal.dict D).size ≤ m + 1 →
      (∀ alias logical own, attrsOf e alias logical own = i.plain logical own alias) → NewAliases reg t →
      ∃ reg', (if (Dict.getD D "logicalType" .none).truthy then do
          let t ← parseLogical (Dict.getD D "logicalType" .none) D e
          pure (t, reg)
        else parseType (parseF m) (some ns) (i.attrs ns).alias e D reg) = .ok (t, reg') ∧
        ∀ s, s ∈ Recap.Spec.names reg' ↔ s ∈ Recap.Spec.names reg ∨ PyVal.str s ∈ Recap.Spec.definedAliases t) :
    Reads ns t (.dict D) := by
  intro m reg hm hn
  cases m with
  | zero => simp [PyVal.size] at hm
  | succ m =>
    obtain ⟨e, he1, he2⟩ := header_has hi hD hns
    obtain ⟨reg', h1, h2⟩ := h m e reg hm he2 hn
    refine ⟨reg', ?_, h2⟩
    rw [parseF, parseDict, he1]
    exact h1

/-! ## Types without a logical type -/

/-- The aliases are distinct, well-formed and new. -/
def Fresh (reg : Registry) (xs : List PyVal) : Prop :=
  xs.Nodup ∧ ∀ s, PyVal.str s ∈ xs → aliasOk s = true ∧ reg.find? s = .none

theorem Fresh.left {reg : Registry} {xs ys : List PyVal} (h : Fresh reg (xs ++ ys)) : Fresh reg xs :=
  ⟨(List.nodup_append.mp h.1).1, fun s hs => h.2 s (List.mem_append_left _ hs)⟩

theorem Fresh.right {reg reg' : Registry} {xs ys : List PyVal} (h : Fresh reg (xs ++ ys))
    (hr : ∀ s, s ∈ Recap.Spec.names reg' ↔ s ∈ Recap.Spec.names reg ∨ PyVal.str s ∈ xs) : Fresh reg' ys := by
  obtain ⟨h1, h2⟩ := h
  obtain ⟨-, h3, h4⟩ := List.nodup_append.mp h1
  refine ⟨h3, fun s hs => ?_⟩
  obtain ⟨h5, h6⟩ := h2 s (List.mem_append_right _ hs)
  refine ⟨h5, find_none.mpr fun hm => ?_⟩
  rcases (hr s).mp hm with hm | hm
  · exact find_none.mp h6 hm
  · exact h4 _ hm _ hs rfl

/-- A type that is written as its description and `d`, and that is read from this. -/
theorem round_any {ns : String} (hns : ns ≠ "") {t : RType} {i : Info} (hi : i.Proper) (ha : t.attrs = i.attrs ns)
    {d : Dict} (inner : List PyVal) {n : Nat}
    (hk : ∀ k ∈ Dict.keys d, k ∉ ["doc", "name", "default", "aliases", "namespace", "logicalType"])
    (hw : ∀ s, describe t.attrs = .ok s → Dict.update s d = s ++ d → convertF live n t = .ok (shorten (s ++ d)))
    (hn : (Dict.keys d).Nodup)
    (hdef : Recap.Spec.definedAliases t = inner ++ Recap.Spec.own t.attrs)
    (hp : ∀ m e D reg, (∀ k v, Dict.get? d k = some v → v.size ≤ m) →
      (∀ k, k ∉ ["doc", "name", "default", "aliases"] → Dict.get? D k = Dict.get? d k) →
      attrsOf e (i.attrs ns).alias = i.attrs ns → Fresh reg inner →
      ∃ reg1, parseType (parseF m) (some ns) (i.attrs ns).alias e D reg = registered t reg1 ∧
        ∀ s, s ∈ Recap.Spec.names reg1 ↔ s ∈ Recap.Spec.names reg ∨ PyVal.str s ∈ inner) :
    ∃ v, convertF live n t = .ok v ∧ Reads ns t v := by
  obtain ⟨s, hs⟩ := describe_ok (a := t.attrs) (by
    rw [ha]
    simp only [Info.attrs, Info.plain]
    split
    · exact Or.inr ⟨_, rfl⟩
    · exact Or.inl rfl)
  have k1 : ∀ k ∈ Dict.keys d, k ∉ ["doc", "name", "default", "namespace"] := fun k h hm => hk k h (by
    simp only [List.mem_cons, List.not_mem_nil, or_false] at hm ⊢; grind)
  have k2 : ∀ k ∈ Dict.keys d, k ∉ ["doc", "name", "default", "aliases"] := fun k h hm => hk k h (by
    simp only [List.mem_cons, List.not_mem_nil, or_false] at hm ⊢; grind)
  refine ⟨shorten (s ++ d), hw s hs (update_describe hs k2 hn), ?_⟩
  have hH : Has i (s ++ d) := by
    refine has_described (alias := (i.attrs ns).alias) (logical := .none) hi (own := []) rfl rfl ?_ k1
    rw [← hs, ha]; rfl
  refine reads_shorten (reads_of hns hi hH ?_)
  intro m e reg hm he hnew
  have get : ∀ k, k ∉ ["doc", "name", "default", "aliases"] → Dict.get? (s ++ d) k = Dict.get? d k :=
    fun k hk => get_described hs hk
  have hlt : Dict.getD (s ++ d) "logicalType" .none = .none := by
    rw [Dict.getD, get _ (by decide), Dict.get?_eq_none_iff.mpr (fun h => hk _ h (by decide))]
    rfl
  have hfresh : Fresh reg (inner ++ Recap.Spec.own t.attrs) := by
    rw [← hdef]; exact hnew
  obtain ⟨reg1, h1, h2⟩ := hp m e (s ++ d) reg (fun k v hv => by
    have h1 := PyVal.size_lt_of_mem_dict (List.mem_append_right s (Dict.mem_of_get? hv))
    omega) get (he _ _ _) hfresh.left
  obtain ⟨reg', h3, h4⟩ := registered_new (reg := reg1) ha (fun s h => (hfresh.right h2).2 s (by
    rw [Recap.Spec.own, h]; simp))
  refine ⟨reg', ?_, ?_⟩
  · rw [hlt]
    simp only [PyVal.truthy, Bool.false_eq_true, if_false]
    rw [h1, h3]
  · intro s
    rw [h4, h2, hdef, List.mem_append, or_assoc]

theorem round_primitive {ns : String} (hns : ns ≠ "") {t : RType} {i : Info} (hi : i.Proper)
    (ha : t.attrs = i.attrs ns) {name : String} {n : Nat} (hn : 0 < n)
    (hw : ∀ n, convertF live (n + 1) t = describe t.attrs >>= fun s =>
      pure (shorten (Dict.update s [("type", .str name)])))
    (hdef : Recap.Spec.definedAliases t = Recap.Spec.own t.attrs)
    (hp : primitive name (i.attrs ns) = some t) : ∃ v, convertF live n t = .ok v ∧ Reads ns t v := by
  refine round_any hns hi ha (d := [("type", .str name)]) [] (by simp [Dict.keys]) ?_ (by simp [Dict.keys]) hdef ?_
  · intro s hs hu
    obtain ⟨n, rfl⟩ : ∃ k, n = k + 1 := ⟨n - 1, by omega⟩
    rw [hw, hs, ← hu]
    rfl
  · intro m e D reg _ get he _
    refine ⟨reg, ?_, by simp⟩
    unfold parseType
    rw [get _ (by decide)]
    simp only [Dict.get?_cons_self, he, hp]

theorem round_enum {ns : String} (hns : ns ≠ "") {i : Info} (hi : i.Proper) (symbols : List PyVal) {n : Nat}
    (hn : 0 < n) : ∃ v, convertF live n (.enum (.list symbols) (i.attrs ns)) = .ok v ∧
      Reads ns (.enum (.list symbols) (i.attrs ns)) v := by
  refine round_any hns hi rfl (d := [("type", .str "enum"), ("symbols", .list symbols)]) []
    (by simp [Dict.keys]) ?_ (by simp [Dict.keys]) rfl ?_
  · intro s hs hu
    obtain ⟨n, rfl⟩ : ∃ k, n = k + 1 := ⟨n - 1, by omega⟩
    rw [convertF, hs, ← hu]
    rfl
  · intro m e D reg _ get he _
    refine ⟨reg, ?_, by simp⟩
    unfold parseType
    rw [get _ (by decide)]
    simp only [Dict.get?_cons_self]
    have h1 : primitive "enum" (i.attrs ns) = .none := by simp [primitive]
    simp only [he, h1, parseComplex, get "symbols" (by decide)]
    simp [Dict.get?]

theorem round_array {ns : String} (hns : ns ≠ "") {i : Info} (hi : i.Proper) {t : RType} {n : Nat}
    (h : ∃ v, convertF live n t = .ok v ∧ Reads ns t v) :
    ∃ v, convertF live (n + 1) (.list t .none (.bool true) (i.attrs ns)) = .ok v ∧
      Reads ns (.list t .none (.bool true) (i.attrs ns)) v := by
  obtain ⟨v, h1, h2⟩ := h
  refine round_any hns hi rfl (d := [("type", .str "array"), ("items", v)]) (Recap.Spec.definedAliases t)
    (by simp [Dict.keys]) ?_ (by simp [Dict.keys]) rfl ?_
  · intro s hs hu
    rw [convertF, hs, ← hu]
    simp only [RType.attrs, show (i.attrs ns).logical = .none from rfl, bind, Except.bind, h1]
    rfl
  · intro m e D reg hm get he hf
    obtain ⟨reg1, h3, h4⟩ := h2 m reg (hm "items" v (by simp [Dict.get?])) hf
    refine ⟨reg1, ?_, h4⟩
    unfold parseType
    rw [get _ (by decide)]
    simp only [Dict.get?_cons_self]
    have h5 : primitive "array" (i.attrs ns) = .none := by simp [primitive]
    simp only [he, h5, parseComplex, get "items" (by decide)]
    simp [Dict.get?, h3, bind, Except.bind]

theorem round_map {ns : String} (hns : ns ≠ "") {i : Info} (hi : i.Proper) {t : RType} {n : Nat}
    (h : ∃ v, convertF live n t = .ok v ∧ Reads ns t v) :
    ∃ v, convertF live (n + 1) (.map stringKeys t (i.attrs ns)) = .ok v ∧
      Reads ns (.map stringKeys t (i.attrs ns)) v := by
  obtain ⟨v, h1, h2⟩ := h
  refine round_any hns hi rfl (d := [("type", .str "map"), ("values", v)]) (Recap.Spec.definedAliases t)
    (by simp [Dict.keys]) ?_ (by simp [Dict.keys]) rfl ?_
  · intro s hs hu
    rw [convertF, hs, ← hu]
    simp only [RType.attrs, show (i.attrs ns).logical = .none from rfl, bind, Except.bind, h1, stringKeys,
      isString, if_true]
    rfl
  · intro m e D reg hm get he hf
    obtain ⟨reg1, h3, h4⟩ := h2 m reg (hm "values" v (by simp [Dict.get?])) hf
    refine ⟨reg1, ?_, h4⟩
    unfold parseType
    rw [get _ (by decide)]
    simp only [Dict.get?_cons_self]
    have h5 : primitive "map" (i.attrs ns) = .none := by simp [primitive]
    simp only [he, h5, parseComplex, get "values" (by decide)]
    simp [Dict.get?, h3, bind, Except.bind]

/-! ## Fields and members -/

/-- The values are read as the types. -/
inductive ReadsAll (ns : String) : List RType → List PyVal → Prop
  | nil : ReadsAll ns [] []
  | cons {t v ts vs} : Reads ns t v → ReadsAll ns ts vs → ReadsAll ns (t :: ts) (v :: vs)

theorem convertAll_reads {ns : String} {n : Nat} {ts : List RType}
    (h : ∀ t ∈ ts, ∃ v, convertF live n t = .ok v ∧ Reads ns t v) :
    ∃ vs, convertAll (convertF live n) ts = .ok vs ∧ ReadsAll ns ts vs := by
  induction ts with
  | nil => exact ⟨[], rfl, .nil⟩
  | cons t ts ih =>
    obtain ⟨v, h1, h2⟩ := h t (by simp)
    obtain ⟨vs, h3, h4⟩ := ih (fun u hu => h u (by simp [hu]))
    exact ⟨v :: vs, by simp [convertAll, h1, h3, bind, Except.bind, pure, Except.pure], .cons h2 h4⟩

theorem readsAll_fields {ns : String} {ts : List RType} {vs : List PyVal} (h : ReadsAll ns ts vs) :
    ReadsAll ns ts (vs.map fieldSchema) := by
  induction h with
  | nil => exact .nil
  | cons h _ ih => exact .cons (reads_field h) ih

theorem parseAll_reads {ns : String} {ts : List RType} {vs : List PyVal} (h : ReadsAll ns ts vs) {m : Nat}
    (hm : ∀ v ∈ vs, v.size ≤ m) {reg : Registry} (hf : Fresh reg (Recap.Spec.definedAliasesAll ts)) :
    ∃ reg', parseAll (parseF m) (some ns) vs reg = .ok (ts, reg') ∧ ∀ s, s ∈ Recap.Spec.names reg' ↔
      s ∈ Recap.Spec.names reg ∨ PyVal.str s ∈ Recap.Spec.definedAliasesAll ts := by
  induction h generalizing reg with
  | nil => exact ⟨reg, rfl, by simp [Recap.Spec.definedAliasesAll]⟩
  | @cons t v ts vs h1 _ ih =>
    simp only [Recap.Spec.definedAliasesAll] at hf
    obtain ⟨reg1, h2, h3⟩ := h1 m reg (hm v (by simp)) hf.left
    obtain ⟨reg2, h4, h5⟩ := ih (fun w hw => hm w (by simp [hw])) (hf.right h3)
    refine ⟨reg2, by simp [parseAll, h2, h4, bind, Except.bind, pure, Except.pure], ?_⟩
    intro s
    simp only [Recap.Spec.definedAliasesAll, List.mem_append]
    rw [h5, h3, or_assoc]

theorem round_record {ns : String} (hns : ns ≠ "") {i : Info} (hi : i.Proper) {ts : List RType} {n : Nat}
    (h : ∀ t ∈ ts, ∃ v, convertF live n t = .ok v ∧ Reads ns t v) :
    ∃ v, convertF live (n + 1) (.struct ts (i.attrs ns)) = .ok v ∧ Reads ns (.struct ts (i.attrs ns)) v := by
  obtain ⟨vs, h1, h2⟩ := convertAll_reads h
  refine round_any hns hi rfl (d := [("type", .str "record"), ("fields", .list (vs.map fieldSchema))])
    (Recap.Spec.definedAliasesAll ts) (by simp [Dict.keys]) ?_ (by simp [Dict.keys]) rfl ?_
  · intro s hs hu
    rw [convertF, hs, ← hu]
    simp only [RType.attrs, show (i.attrs ns).logical = .none from rfl, bind, Except.bind, h1]
    rfl
  · intro m e D reg hm get he hf
    have hsz := hm "fields" (.list (vs.map fieldSchema)) (by simp [Dict.get?])
    obtain ⟨reg1, h3, h4⟩ := parseAll_reads (readsAll_fields h2) (m := m) (fun v hv => by
      have := PyVal.size_lt_of_mem hv
      omega) hf
    refine ⟨reg1, ?_, h4⟩
    unfold parseType
    rw [get _ (by decide)]
    simp only [Dict.get?_cons_self]
    have h5 : primitive "record" (i.attrs ns) = .none := by simp [primitive]
    simp only [he, h5, parseComplex, get "fields" (by decide)]
    simp [Dict.get?, h3, bind, Except.bind, PyVal.iter]

theorem round_union {ns : String} (hns : ns ≠ "") {i : Info} (hi : i.Proper) {ts : List RType} {n : Nat}
    (h : ∀ t ∈ ts, ∃ v, convertF live n t = .ok v ∧ Reads ns t v) :
    ∃ v, convertF live (n + 1) (.union ts (i.attrs ns)) = .ok v ∧ Reads ns (.union ts (i.attrs ns)) v := by
  obtain ⟨vs, h1, h2⟩ := convertAll_reads h
  refine round_any hns hi rfl (d := [("type", .list vs)])
    (Recap.Spec.definedAliasesAll ts) (by simp [Dict.keys]) ?_ (by simp [Dict.keys]) rfl ?_
  · intro s hs hu
    rw [convertF, hs, ← hu]
    simp only [RType.attrs, show (i.attrs ns).logical = .none from rfl, bind, Except.bind, h1]
    rfl
  · intro m e D reg hm get he hf
    have hsz := hm "type" (.list vs) (by simp [Dict.get?])
    obtain ⟨reg1, h3, h4⟩ := parseAll_reads h2 (m := m) (fun v hv => by
      have := PyVal.size_lt_of_mem hv
      omega) hf
    refine ⟨reg1, ?_, h4⟩
    unfold parseType
    rw [get _ (by decide)]
    simp only [Dict.get?_cons_self]
    simp [he, h3, bind, Except.bind]

/-! ## References -/

theorem round_reference {ns : String} (hns : ns ≠ "") {i : Info} (hi : i.Proper) {x : String} (hx : Qualified x)
    {n : Nat} : ∃ v, convertF live (n + 1) (.proxy .none (i.plain (alias := .str x))) = .ok v ∧
      Reads ns (.proxy .none (i.plain (alias := .str x))) v := by
  obtain ⟨s, hs⟩ := describe_ok (a := i.plain (alias := .str x)) (Or.inr ⟨_, rfl⟩)
  refine ⟨shorten (Dict.erase (Dict.set s "type" (.str x)) "aliases"), ?_, ?_⟩
  · rw [convertF]
    simp only [RType.attrs, hs, bind, Except.bind]
    simp [Info.plain, hasDot_iff.mpr hx, pure, Except.pure]
  · have get : ∀ k, k ≠ "aliases" → Dict.get? (Dict.erase (Dict.set s "type" (.str x)) "aliases") k =
        if k = "type" then some (.str x) else Dict.get? s k := by
      intro k hk
      rw [Dict.get?_erase_ne _ (Ne.symm hk)]
      split
      · rename_i h; subst h; exact Dict.get?_set_self ..
      · rename_i h; exact Dict.get?_set_ne _ _ (Ne.symm h)
    have hH := has_described hi (d := []) (own := []) rfl rfl hs (by simp [Dict.keys])
    rw [List.append_nil] at hH
    have hH' : Has i (Dict.erase (Dict.set s "type" (.str x)) "aliases") := by
      refine ⟨?_, ?_, ?_, ?_⟩
      · rw [get _ (by decide), if_neg (by decide)]; exact hH.doc
      · rw [get _ (by decide), if_neg (by decide)]; exact hH.name
      · rw [get _ (by decide), if_neg (by decide)]; exact hH.default
      · rw [get _ (by decide), if_neg (by decide)]; exact hH.namespace_
    refine reads_shorten (reads_of hns hi hH' ?_)
    intro m e reg _ he _
    have hlt : Dict.getD (Dict.erase (Dict.set s "type" (.str x)) "aliases") "logicalType" .none = .none := by
      rw [Dict.getD, get _ (by decide), if_neg (by decide), get_describe hs (by decide)]
      rfl
    refine ⟨reg, ?_, by simp [Recap.Spec.definedAliases]⟩
    rw [hlt]
    have no : ∀ y : String, '.' ∉ y.toList → x ≠ y := by
      rintro y hy rfl
      exact hy hx
    simp only [PyVal.truthy, Bool.false_eq_true, if_false, parseType, get "type" (by decide), if_true]
    have hp : ∀ a, primitive x a = .none := by
      intro a
      simp [primitive, no "null" (by decide), no "boolean" (by decide), no "int" (by decide),
        no "long" (by decide), no "float" (by decide), no "double" (by decide), no "bytes" (by decide),
        no "string" (by decide)]
    simp only [hp, parseComplex, no "fixed" (by decide), no "record" (by decide), no "enum" (by decide),
      no "array" (by decide), no "map" (by decide), no "union" (by decide), if_false]
    simp [reference, he, hasDot_iff.mpr hx]

/-! ## Logical types -/

theorem round_logical {ns : String} (hns : ns ≠ "") {t : RType} {i : Info} (hi : i.Proper) {x : String} {own : Dict}
    (ha : t.attrs = i.plain (.str x) own) (h1 : Dict.get? own "name" = .none)
    (h2 : Dict.get? own "default" = .none) {d : Dict} (hd : logicalSchema t = .ok d) {lt : String} (hlt : lt ≠ "")
    (hl : Dict.get? d "logicalType" = some (.str lt))
    (hk : ∀ k ∈ Dict.keys d, k ∉ ["doc", "name", "default", "aliases", "namespace"]) (hn : (Dict.keys d).Nodup)
    (hdef : Recap.Spec.definedAliases t = Recap.Spec.own t.attrs)
    (hp : ∀ e D, (∀ k, k ∉ ["doc", "name", "default", "aliases"] → Dict.get? D k = Dict.get? d k) →
      (∀ alias logical own, attrsOf e alias logical own = i.plain logical own alias) →
      parseLogical (.str lt) D e = .ok t) {n : Nat} :
    ∃ v, convertF live (n + 1) t = .ok v ∧ Reads ns t v := by
  obtain ⟨s, hs⟩ := describe_ok (a := t.attrs) (by rw [ha]; exact Or.inl rfl)
  have k1 : ∀ k ∈ Dict.keys d, k ∉ ["doc", "name", "default", "namespace"] := fun k h hm => hk k h (by
    simp only [List.mem_cons, List.not_mem_nil, or_false] at hm ⊢; grind)
  have k2 : ∀ k ∈ Dict.keys d, k ∉ ["doc", "name", "default", "aliases"] := fun k h hm => hk k h (by
    simp only [List.mem_cons, List.not_mem_nil, or_false] at hm ⊢; grind)
  refine ⟨shorten (s ++ d), ?_, ?_⟩
  · rw [convertF, hs, ha]
    simp only [Info.plain, bind, Except.bind, hd, pure, Except.pure]
    rw [update_describe hs k2 hn]
  · have hs' := hs
    rw [ha] at hs'
    refine reads_shorten (reads_of hns hi (has_described hi h1 h2 hs' k1) ?_)
    intro m e reg _ he _
    have get : ∀ k, k ∉ ["doc", "name", "default", "aliases"] → Dict.get? (s ++ d) k = Dict.get? d k :=
      fun k hk => get_described hs hk
    have hg : Dict.getD (s ++ d) "logicalType" .none = .str lt := by
      rw [Dict.getD, get _ (by decide), hl]
      rfl
    refine ⟨reg, ?_, by simp [hdef, Recap.Spec.own, ha, Info.plain]⟩
    rw [hg, hp e _ get he]
    simp [PyVal.truthy, hlt, bind, Except.bind, pure, Except.pure]

/-! ## All types -/

theorem weight_le_all {l : Nat} {t : RType} {ts : List RType} (h : t ∈ ts) : weight l t ≤ weightAll l ts := by
  induction ts with
  | nil => cases h
  | cons u ts ih =>
    simp only [weightAll]
    rcases List.mem_cons.mp h with rfl | h
    · omega
    · have := ih h; omega

theorem round_native {ns : String} (hns : ns ≠ "") {t : RType} (h : Native ns t) {l n : Nat} (hn : weight l t ≤ n) :
    ∃ v, convertF live n t = .ok v ∧ Reads ns t v := by
  induction h generalizing n with
  | null i hi => exact round_primitive (name := "null") hns hi rfl (by simp only [weight] at hn; omega) (fun _ => rfl) rfl rfl
  | boolean i hi =>
    exact round_primitive (name := "boolean") hns hi rfl (by simp only [weight] at hn; omega) (fun _ => rfl) rfl rfl
  | int i hi => exact round_primitive (name := "int") hns hi rfl (by simp only [weight] at hn; omega) (fun _ => rfl) rfl rfl
  | long i hi => exact round_primitive (name := "long") hns hi rfl (by simp only [weight] at hn; omega) (fun _ => rfl) rfl rfl
  | float i hi => exact round_primitive (name := "float") hns hi rfl (by simp only [weight] at hn; omega) (fun _ => rfl) rfl rfl
  | double i hi =>
    exact round_primitive (name := "double") hns hi rfl (by simp only [weight] at hn; omega) (fun _ => rfl) rfl rfl
  | bytes i hi => exact round_primitive (name := "bytes") hns hi rfl (by simp only [weight] at hn; omega) (fun _ => rfl) rfl rfl
  | string i hi =>
    exact round_primitive (name := "string") hns hi rfl (by simp only [weight] at hn; omega) (fun _ => rfl) rfl rfl
  | enum i symbols hi => exact round_enum hns hi symbols (by simp only [weight] at hn; omega)
  | array i hi _ ih =>
    simp only [weight] at hn
    obtain ⟨n, rfl⟩ : ∃ k, n = k + 1 := ⟨n - 1, by omega⟩
    exact round_array hns hi (ih (by omega))
  | map i hi _ ih =>
    simp only [weight] at hn
    obtain ⟨n, rfl⟩ : ∃ k, n = k + 1 := ⟨n - 1, by omega⟩
    exact round_map hns hi (ih (by omega))
  | record i hi _ ih =>
    simp only [weight] at hn
    obtain ⟨n, rfl⟩ : ∃ k, n = k + 1 := ⟨n - 1, by omega⟩
    exact round_record hns hi (fun t ht => ih t ht (by have := weight_le_all (l := l) ht; omega))
  | union i hi _ ih =>
    simp only [weight] at hn
    obtain ⟨n, rfl⟩ : ∃ k, n = k + 1 := ⟨n - 1, by omega⟩
    exact round_union hns hi (fun t ht => ih t ht (by have := weight_le_all (l := l) ht; omega))
  | reference i hi hx =>
    simp only [weight] at hn
    obtain ⟨n, rfl⟩ : ∃ k, n = k + 1 := ⟨n - 1, by omega⟩
    exact round_reference hns hi hx
  | decimal i precision scale hi =>
    simp only [weight] at hn
    obtain ⟨n, rfl⟩ : ∃ k, n = k + 1 := ⟨n - 1, by omega⟩
    refine round_logical (lt := "decimal") hns hi rfl rfl rfl (d := [("type", .str "bytes"),
      ("logicalType", .str "decimal"), ("precision", .int precision), ("scale", scale)]) ?_ (by decide) rfl
      (by simp [Dict.keys]) (by simp [Dict.keys]) rfl ?_
    · simp [logicalSchema, asInt, maxLong, Info.plain, Info.extra, Dict.get?, Dict.getD]
    · intro e D get he
      simp [parseLogical, get "type", get "precision", Dict.getD, get "size", get "scale", Dict.get?, he,
        maxLong, PyVal.pyEq]
  | uuid i hi =>
    simp only [weight] at hn
    obtain ⟨n, rfl⟩ : ∃ k, n = k + 1 := ⟨n - 1, by omega⟩
    refine round_logical (lt := "uuid") hns hi rfl rfl rfl rfl (by decide) rfl
      (by simp [Dict.keys]) (by simp [Dict.keys]) rfl ?_
    intro e D get he
    simp [parseLogical, he]
  | date i hi =>
    simp only [weight] at hn
    obtain ⟨n, rfl⟩ : ∃ k, n = k + 1 := ⟨n - 1, by omega⟩
    refine round_logical (lt := "date") hns hi rfl rfl rfl rfl (by decide) rfl
      (by simp [Dict.keys]) (by simp [Dict.keys]) rfl ?_
    intro e D get he
    simp [parseLogical, he]
  | timeMillis i hi =>
    simp only [weight] at hn
    obtain ⟨n, rfl⟩ : ∃ k, n = k + 1 := ⟨n - 1, by omega⟩
    refine round_logical (lt := "time-millis") hns hi rfl rfl rfl rfl (by decide) rfl
      (by simp [Dict.keys]) (by simp [Dict.keys]) rfl ?_
    intro e D get he
    simp [parseLogical, he]
  | timeMicros i hi =>
    simp only [weight] at hn
    obtain ⟨n, rfl⟩ : ∃ k, n = k + 1 := ⟨n - 1, by omega⟩
    refine round_logical (lt := "time-micros") hns hi rfl rfl rfl rfl (by decide) rfl
      (by simp [Dict.keys]) (by simp [Dict.keys]) rfl ?_
    intro e D get he
    simp [parseLogical, he]
  | timestampMillis i hi =>
    simp only [weight] at hn
    obtain ⟨n, rfl⟩ : ∃ k, n = k + 1 := ⟨n - 1, by omega⟩
    refine round_logical (lt := "timestamp-millis") hns hi rfl rfl rfl rfl (by decide) rfl
      (by simp [Dict.keys]) (by simp [Dict.keys]) rfl ?_
    intro e D get he
    simp [parseLogical, he]
  | timestampMicros i hi =>
    simp only [weight] at hn
    obtain ⟨n, rfl⟩ : ∃ k, n = k + 1 := ⟨n - 1, by omega⟩
    refine round_logical (lt := "timestamp-micros") hns hi rfl rfl rfl rfl (by decide) rfl
      (by simp [Dict.keys]) (by simp [Dict.keys]) rfl ?_
    intro e D get he
    simp [parseLogical, he]

end Recap.Avro
