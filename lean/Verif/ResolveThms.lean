import Verif.RegistryThms
import Verif.EqLemmas

/-! # Resolution of references: C18, C19 -/

namespace Recap

open Spec

/-! ## Helper lemmas -/

theorem attr_cons {t : RType} {k : String} :
    attr t k = if k = "logical" then some t.attrs.logical
      else if k = "alias" then some t.attrs.alias
      else if k = "doc" then some t.attrs.doc
      else match Dict.get? (params t) k with
        | some v => some v
        | .none => Dict.get? t.attrs.extra k := rfl

theorem typeName_withAttrs (t : RType) (a : Attrs) : (t.withAttrs a).typeName = t.typeName := by
  cases t <;> rfl
theorem attrs_withAttrs (t : RType) (a : Attrs) : (t.withAttrs a).attrs = a := by
  cases t <;> rfl
theorem params_withAttrs (t : RType) (a : Attrs) : params (t.withAttrs a) = params t := by
  cases t <;> rfl
theorem children_withAttrs (t : RType) (a : Attrs) : children (t.withAttrs a) = children t := by
  cases t <;> rfl
theorem typeName_deepcopy (reg : Registry) (t : RType) : (t.deepcopy reg).typeName = t.typeName := by
  cases t <;> try rfl
  rename_i r a; cases r <;> rfl
theorem attrs_deepcopy (reg : Registry) (t : RType) : (t.deepcopy reg).attrs = t.attrs := by
  cases t <;> try rfl
  rename_i r a; cases r <;> rfl
theorem params_deepcopy (reg : Registry) (t : RType) : params (t.deepcopy reg) = params t := by
  cases t <;> try rfl
  rename_i r a; cases r <;> rfl

theorem deepcopyList_eq (reg : Registry) (ts : List RType) :
    RType.deepcopyList reg ts = ts.map (RType.deepcopy reg) := by
  induction ts with
  | nil => rfl
  | cons t ts ih => simp [RType.deepcopyList, ih]

theorem children_deepcopy (reg : Registry) (t : RType) :
    children (t.deepcopy reg) = (children t).map (RType.deepcopy reg) := by
  cases t <;> try rfl
  · simp [RType.deepcopy, children, deepcopyList_eq]
  · simp [RType.deepcopy, children, deepcopyList_eq]
  · rename_i r a; cases r <;> rfl

theorem attr_set_param {t t' : RType} {k : String} {v : PyVal} (hp : params t' = Dict.set (params t) k v)
    (ha : t'.attrs = t.attrs) (hk : k ≠ "logical" ∧ k ≠ "alias" ∧ k ≠ "doc") (k' : String) :
    attr t' k' = if k' = k then some v else attr t k' := by
  unfold attr
  rw [hp, ha]
  by_cases x : k' = k
  · subst x; simp [hk.1, hk.2.1, hk.2.2, Dict.get?_set_self]
  · have : k ≠ k' := fun e => x e.symm
    simp only [Dict.get?_set_ne _ _ this, x, if_false]

theorem attr_set_extra {t t' : RType} {k : String} {v : PyVal} (hp : params t' = params t)
    (ha : t'.attrs = { t.attrs with extra := Dict.set t.attrs.extra k v })
    (hk : k ≠ "logical" ∧ k ≠ "alias" ∧ k ≠ "doc") (hn : Dict.get? (params t) k = .none)
    (k' : String) : attr t' k' = if k' = k then some v else attr t k' := by
  unfold attr
  rw [hp, ha]
  by_cases x : k' = k
  · subst x; simp [hk.1, hk.2.1, hk.2.2, hn, Dict.get?_set_self]
  · have : k ≠ k' := fun e => x e.symm
    simp only [Dict.get?_set_ne _ _ this, x, if_false]

/-- One override changes this attribute and nothing else. -/
theorem applyOverride_spec (t : RType) (k : String) (v : PyVal) (hk : OrdinaryKey k) :
    ∃ t', applyOverride t k v = .ok t' ∧ t'.typeName = t.typeName ∧ children t' = children t ∧
      ∀ k', attr t' k' = if k' = k then some v else attr t k' := by
  obtain ⟨h1, h2⟩ := hk
  simp only [List.mem_cons, List.not_mem_nil, or_false, not_or] at h1
  obtain ⟨h3, h4, h5, h6, h7, h8, h9, h10, h11, h12, h13, h14, h15⟩ := h1
  unfold applyOverride
  simp only [List.mem_cons, List.not_mem_nil, or_false, h7, h8, h9, h10, h11, h12, h13, h14, h15,
    or_self, decide_false, Bool.false_or, h2, Bool.false_eq_true, if_false]
  clear h7 h8 h9 h10 h11 h12 h13 h14 h15 h2
  by_cases hl : k = "logical"
  · subst hl
    refine ⟨_, by simp only [reduceIte]; rfl, typeName_withAttrs _ _, children_withAttrs _ _, ?_⟩
    intro k'
    by_cases e : k' = "logical"
    · subst e; simp [attr, attrs_withAttrs]
    · simp [attr, attrs_withAttrs, params_withAttrs, e]
  by_cases ha : k = "alias"
  · subst ha
    refine ⟨_, by simp only [String.reduceEq, reduceIte]; rfl, typeName_withAttrs _ _, children_withAttrs _ _, ?_⟩
    intro k'
    by_cases e : k' = "alias"
    · subst e; simp [attr, attrs_withAttrs]
    · simp [attr, attrs_withAttrs, params_withAttrs, e]
  by_cases hd : k = "doc"
  · subst hd
    refine ⟨_, by simp only [String.reduceEq, reduceIte]; rfl, typeName_withAttrs _ _, children_withAttrs _ _, ?_⟩
    intro k'
    by_cases e : k' = "doc"
    · subst e; simp [attr, attrs_withAttrs]
    · simp [attr, attrs_withAttrs, params_withAttrs, e]
  have hk : k ≠ "logical" ∧ k ≠ "alias" ∧ k ≠ "doc" := ⟨hl, ha, hd⟩
  simp only [hl, ha, hd, if_false]
  cases t with
  | int b s a =>
    by_cases e1 : k = "bits"
    · subst e1
      simp only [String.reduceEq, reduceIte]
      exact ⟨_, rfl, rfl, rfl, attr_set_param (by simp [params, Dict.set]) rfl hk⟩
    by_cases e2 : k = "signed"
    · subst e2
      simp only [String.reduceEq, reduceIte]
      exact ⟨_, rfl, rfl, rfl, attr_set_param (by simp [params, Dict.set]) rfl hk⟩
    have e1' : ¬ "bits" = k := fun e => e1 e.symm
    have e2' : ¬ "signed" = k := fun e => e2 e.symm
    simp only [e1, e2, if_false]
    exact ⟨_, rfl, rfl, rfl,
      attr_set_extra rfl rfl hk (by simp [params, Dict.get?, e1', e2'])⟩
  | float b a =>
    by_cases e1 : k = "bits"
    · subst e1
      simp only [String.reduceEq, reduceIte]
      exact ⟨_, rfl, rfl, rfl, attr_set_param (by simp [params, Dict.set]) rfl hk⟩
    have e1' : ¬ "bits" = k := fun e => e1 e.symm
    simp only [e1, if_false]
    exact ⟨_, rfl, rfl, rfl,
      attr_set_extra rfl rfl hk (by simp [params, Dict.get?, e1'])⟩
  | string b w a =>
    by_cases e1 : k = "bytes_"
    · subst e1
      simp only [String.reduceEq, reduceIte]
      exact ⟨_, rfl, rfl, rfl, attr_set_param (by simp [params, Dict.set]) rfl hk⟩
    by_cases e2 : k = "variable"
    · subst e2
      simp only [String.reduceEq, reduceIte]
      exact ⟨_, rfl, rfl, rfl, attr_set_param (by simp [params, Dict.set]) rfl hk⟩
    have e1' : ¬ "bytes_" = k := fun e => e1 e.symm
    have e2' : ¬ "variable" = k := fun e => e2 e.symm
    simp only [e1, e2, if_false]
    exact ⟨_, rfl, rfl, rfl,
      attr_set_extra rfl rfl hk (by simp [params, Dict.get?, e1', e2'])⟩
  | bytes b w a =>
    by_cases e1 : k = "bytes_"
    · subst e1
      simp only [String.reduceEq, reduceIte]
      exact ⟨_, rfl, rfl, rfl, attr_set_param (by simp [params, Dict.set]) rfl hk⟩
    by_cases e2 : k = "variable"
    · subst e2
      simp only [String.reduceEq, reduceIte]
      exact ⟨_, rfl, rfl, rfl, attr_set_param (by simp [params, Dict.set]) rfl hk⟩
    have e1' : ¬ "bytes_" = k := fun e => e1 e.symm
    have e2' : ¬ "variable" = k := fun e => e2 e.symm
    simp only [e1, e2, if_false]
    exact ⟨_, rfl, rfl, rfl,
      attr_set_extra rfl rfl hk (by simp [params, Dict.get?, e1', e2'])⟩
  | list c l w a =>
    by_cases e1 : k = "length"
    · subst e1
      simp only [String.reduceEq, reduceIte]
      exact ⟨_, rfl, rfl, rfl, attr_set_param (by simp [params, Dict.set]) rfl hk⟩
    by_cases e2 : k = "variable"
    · subst e2
      simp only [String.reduceEq, reduceIte]
      exact ⟨_, rfl, rfl, rfl, attr_set_param (by simp [params, Dict.set]) rfl hk⟩
    have e1' : ¬ "length" = k := fun e => e1 e.symm
    have e2' : ¬ "variable" = k := fun e => e2 e.symm
    simp only [h3, e1, e2, if_false]
    exact ⟨_, rfl, rfl, rfl,
      attr_set_extra rfl rfl hk (by simp [params, Dict.get?, e1', e2'])⟩
  | enum s a =>
    by_cases e1 : k = "symbols"
    · subst e1
      simp only [String.reduceEq, reduceIte]
      exact ⟨_, rfl, rfl, rfl, attr_set_param (by simp [params, Dict.set]) rfl hk⟩
    have e1' : ¬ "symbols" = k := fun e => e1 e.symm
    simp only [e1, if_false]
    exact ⟨_, rfl, rfl, rfl,
      attr_set_extra rfl rfl hk (by simp [params, Dict.get?, e1'])⟩
  | map c w a =>
    simp only [h3, h4, or_self, if_false]
    exact ⟨_, rfl, rfl, rfl, attr_set_extra rfl rfl hk rfl⟩
  | struct fs a =>
    simp only [h5, if_false]
    exact ⟨_, rfl, rfl, rfl, attr_set_extra rfl rfl hk rfl⟩
  | union fs a =>
    simp only [h6, if_false]
    exact ⟨_, rfl, rfl, rfl, attr_set_extra rfl rfl hk rfl⟩
  | null a => exact ⟨_, rfl, rfl, rfl, attr_set_extra rfl rfl hk rfl⟩
  | bool a => exact ⟨_, rfl, rfl, rfl, attr_set_extra rfl rfl hk rfl⟩
  | proxy r a => exact ⟨_, rfl, rfl, rfl, attr_set_extra rfl rfl hk rfl⟩

theorem applyOverrides_spec (e : Dict) (t : RType) (h : OrdinaryOverrides e) :
    ∃ t', applyOverrides t e = .ok t' ∧ t'.typeName = t.typeName ∧ children t' = children t ∧
      ∀ k, attr t' k = match Dict.get? e k with | some v => some v | .none => attr t k := by
  induction e generalizing t with
  | nil => exact ⟨t, rfl, rfl, rfl, fun k => rfl⟩
  | cons kv e ih =>
    obtain ⟨k, v⟩ := kv
    obtain ⟨hn, hk⟩ := h
    simp only [List.map_cons, List.nodup_cons] at hn
    obtain ⟨t1, h1, h2, h3, h4⟩ := applyOverride_spec t k v (hk _ List.mem_cons_self)
    obtain ⟨t2, g1, g2, g3, g4⟩ := ih t1 ⟨hn.2, fun kv hkv => hk kv (List.mem_cons_of_mem _ hkv)⟩
    refine ⟨t2, ?_, g2.trans h2, g3.trans h3, ?_⟩
    · simp only [applyOverrides, h1, bind, Except.bind]; exact g1
    · intro k'
      rw [g4, h4, Dict.get?_cons]
      by_cases x : k' = k
      · subst x
        have : Dict.get? e k' = .none := Dict.get?_eq_none_iff.mpr hn.1
        simp [this]
      · have : ¬ k = k' := fun e => x e.symm
        simp [x, this]

theorem attr_deepcopy (reg : Registry) (t : RType) (k : String) : attr (t.deepcopy reg) k = attr t k := by
  simp [attr, attrs_deepcopy, params_deepcopy]

theorem attr_stored (reg : Registry) (t : RType) (k : String) :
    attr (Registry.stored reg t) k = attr (definition t) k := by
  have : Dict.erase t.attrs.extra "default" =
      t.attrs.extra.filter (fun kv => decide (kv.1 ≠ "default")) := by
    unfold Dict.erase
    congr 1
    funext kv
    by_cases h : kv.1 = "default" <;> simp [h]
  simp only [attr, Registry.stored, definition, attrs_withAttrs, params_withAttrs, params_deepcopy,
    this]

theorem shape_children_deepcopy (reg : Registry) (t : RType) :
    (children (t.deepcopy reg)).map shape = (children t).map shape := by
  rw [children_deepcopy, List.map_map]
  congr 1
  funext c
  exact shape_deepcopy reg c

/-! ## C18 -/

/-- C18: once a type has been registered under an alias, a reference to that alias resolves, in
every later state of the registry, to a type of the same class with the same nested types, whose
attributes are those given on the reference and, apart from these, those of the definition
without its alias, doc and default. -/
theorem C18_reference_resolves (reg reg1 : Registry) (t : RType) (s : String) (ops : List RegOp)
    (a : Attrs) (h : Registry.registerAlias reg t = .ok reg1) (hs : t.attrs.alias = .str s)
    (ha : a.alias = .str s) (he : OrdinaryOverrides a.extra) :
    ∃ d, resolve (runOps reg1 ops) .none a = .ok d ∧ d.typeName = t.typeName ∧
      (children d).map shape = (children t).map shape ∧
      ∀ k, attr d k = match Dict.get? a.extra k with
        | some v => some v
        | .none => attr (definition t) k := by
  obtain ⟨s', h1, h2, -, rfl⟩ := registerAlias_ok h
  rw [h1] at hs; cases hs
  have hf : Registry.find? (reg ++ [(s, Registry.stored reg t)]) s = some (Registry.stored reg t) := by
    rw [find?_append]
    have : Registry.find? reg s = .none := by
      cases hf : Registry.find? reg s with
      | none => rfl
      | some x => exact absurd ((find?_isSome_iff reg s).mp (by simp [hf])) h2
    simp [this, Registry.find?]
  have hf' := (runOps_grows ops _).find? hf
  generalize runOps (reg ++ [(s, Registry.stored reg t)]) ops = live at hf'
  obtain ⟨d, g1, g2, g3, g4⟩ := applyOverrides_spec a.extra ((Registry.stored reg t).deepcopy live) he
  refine ⟨d, ?_, ?_, ?_, ?_⟩
  · simp only [resolve, Option.getD_none, Registry.fromAlias, ha, hf', bind, Except.bind]
    exact g1
  · rw [g2, typeName_deepcopy, Registry.stored, typeName_withAttrs, typeName_deepcopy]
  · rw [g3, shape_children_deepcopy, Registry.stored, children_withAttrs, shape_children_deepcopy]
  · intro k; rw [g4, attr_deepcopy, attr_stored]

/-- C18: a reference to an alias that is not registered does not resolve. -/
theorem C18_unregistered_reference_fails (live : Registry) (a : Attrs) (s : String)
    (ha : a.alias = .str s) (hs : s ∉ names live) : resolve live .none a = .error .typeError := by
  have : Registry.find? live s = .none := by
    cases hf : Registry.find? live s with
    | none => rfl
    | some x => exact absurd ((find?_isSome_iff live s).mp (by simp [hf])) hs
  simp [resolve, Registry.fromAlias, ha, this, bind, Except.bind]

/-- A definition with doc and default, and a reference that overrides `signed`. -/
example :
    let t : RType := .int (.int 32) (.bool true)
      { alias := .str "com.A", doc := .str "d", extra := [("default", .int 0), ("unit", .str "s")] }
    (do let r ← Registry.registerAlias newRegistry t
        resolve r .none { alias := .str "com.A", extra := [("signed", .bool false), ("x", .int 1)] })
    = .ok (.int (.int 32) (.bool false) { extra := [("unit", .str "s"), ("x", .int 1)] }) := by
  decide +kernel

/-- The overrides written in a document do not all reach the resolved type: `bytes` is the name
of the length in documents, but the attribute is called `bytes_`, so that the override ends up as
an unrelated extra attribute and the length does not change. -/
theorem C18_bytes_override_lost_refuted :
    (do let (t, reg) ← fromDict (.dict [("type", .str "uuid"), ("bytes", .int 16)]) newRegistry
        match t with
        | .proxy r a => resolve reg r a
        | t => .ok t)
    = .ok (.string (.int 36) (.bool false)
        { logical := .str "build.recap.UUID", extra := [("bytes", .int 16)] }) := by
  decide +kernel

/-- The doc and the logical type written on a reference are dropped by resolution. -/
theorem C18_doc_override_lost_refuted :
    (do let (t, reg) ← fromDict (.dict [("type", .str "int32"), ("doc", .str "d"), ("logical", .str "l")])
          newRegistry
        match t with
        | .proxy r a => resolve reg r a
        | t => .ok t)
    = .ok (.int (.int 32) (.bool true) {}) := by
  decide +kernel

/-! ## C19 -/

/-- C19, the full statement: whatever reference is reached from a parsed type resolves, if every
alias mentioned in the document is registered when parsing is done. -/
def C19_statement : Prop :=
  ∀ (v : PyVal) (t : RType) (live : Registry), fromDict v newRegistry = .ok (t, live) →
    (∀ r a, Sub (.proxy r a) t → OrdinaryOverrides a.extra ∧ ∃ s ∈ names live, a.alias = .str s) →
    ∀ r a, Reaches live t (.proxy r a) → ∃ d, resolve live r a = .ok d

/-- A linked list: a struct whose only field refers to the struct. -/
def linkedList : PyVal := .dict [("type", .str "struct"), ("alias", .str "com.A"),
  ("fields", .list [.str "com.A"])]

/-- C19 is false: the reference inside a recursive type can be followed once, but not twice,
because the registered copy of the type refers to a copy of the registry made before the type
was registered. -/
theorem C19_recursive_reference_refuted : ¬ C19_statement := by
  intro h
  let p0 : RType := .proxy .none { alias := .str "com.A" }
  let t : RType := .struct [p0] { alias := .str "com.A" }
  let p1 : RType := .proxy (some newRegistry) { alias := .str "com.A" }
  let live : Registry := newRegistry ++ [("com.A", .struct [p1] {})]
  have h1 : fromDict linkedList newRegistry = .ok (t, live) := by decide +kernel
  have hr : Reaches live t p1 := by
    have e1 : Reaches live t p0 := .child .refl (by simp [t, children])
    have e2 : Reaches live t (.struct [p1] {}) :=
      .resolve (r := .none) (a := { alias := .str "com.A" }) e1 (by decide +kernel)
    exact .child e2 (by simp [children])
  obtain ⟨d, hd⟩ := h linkedList t live h1 (by
    intro r a hs
    replace hs : Sub (.proxy r a) (.struct [p0] { alias := .str "com.A" }) := hs
    cases hs with
    | field hm hs =>
      simp only [List.mem_singleton] at hm
      subst hm
      replace hs : Sub (.proxy r a) (.proxy .none { alias := .str "com.A" }) := hs
      cases hs
      refine ⟨⟨by simp, by simp⟩, "com.A", by decide +kernel, rfl⟩) _ _ hr
  have : resolve live (some newRegistry) { alias := .str "com.A" } = .error .typeError := by
    decide +kernel
  rw [this] at hd
  cases hd

/-- Parsing only makes live references. -/
theorem Built.live {reg t reg'} (hb : Built reg t reg') :
    ∀ r a, Sub (.proxy r a) t → r = .none := by
  suffices H : (∀ reg t reg', Built reg t reg' → ∀ r a, Sub (.proxy r a) t → r = .none) from
    H _ _ _ hb
  clear hb
  apply Built.rec
    (motive_1 := fun _ t _ _ => ∀ r a, Sub (.proxy r a) t → r = .none)
    (motive_2 := fun _ ts _ _ => ∀ t ∈ ts, ∀ r a, Sub (.proxy r a) t → r = .none)
  · intro _ _ _ hl _ r a hs
    cases hs with
    | refl => exact hl
    | list => cases hl
    | key => cases hl
    | value => cases hl
    | field => cases hl
    | member => cases hl
  · intro _ _ _ _ _ _ _ _ _ ih r a hs
    cases hs with | list hs => exact ih r a hs
  · intro _ _ _ _ _ _ _ _ _ _ ih1 ih2 r a hs
    cases hs with
    | key hs => exact ih1 r a hs
    | value hs => exact ih2 r a hs
  · intro _ _ _ _ _ _ _ ih r a hs
    cases hs with | field hm hs => exact ih _ hm r a hs
  · intro _ _ _ _ _ _ _ ih r a hs
    cases hs with | member hm hs => exact ih _ hm r a hs
  · intro _ t ht; cases ht
  · intro _ _ _ _ _ _ _ ih1 ih2 t ht r a hs
    rcases List.mem_cons.mp ht with rfl | ht
    · exact ih1 r a hs
    · exact ih2 t ht r a hs

theorem sub_deepcopy {reg : Registry} {t : RType} {r : Option (List (String × RType))} {a : Attrs}
    (h : Sub (.proxy r a) (t.deepcopy reg)) :
    (∃ x, r = some x ∧ Sub (.proxy (some x) a) t) ∨ (r = some reg ∧ Sub (.proxy .none a) t) := by
  generalize hu : t.deepcopy reg = u at h
  generalize hp : RType.proxy r a = p at h
  induction h generalizing t with
  | refl =>
    subst hp
    cases t <;> (try simp only [RType.deepcopy] at hu) <;> try cases hu
    rename_i r' a'
    cases r' with
    | none => simp only [RType.deepcopy] at hu; cases hu; exact .inr ⟨rfl, .refl⟩
    | some x => simp only [RType.deepcopy] at hu; cases hu; exact .inl ⟨x, rfl, .refl⟩
  | list _ ih =>
    cases t <;> (try simp only [RType.deepcopy] at hu) <;> try cases hu
    · rcases ih rfl with ⟨x, h1, h2⟩ | ⟨h1, h2⟩
      · exact .inl ⟨x, h1, .list h2⟩
      · exact .inr ⟨h1, .list h2⟩
    · rename_i r' a'; cases r' <;> simp [RType.deepcopy] at hu
  | key _ ih =>
    cases t <;> (try simp only [RType.deepcopy] at hu) <;> try cases hu
    · rcases ih rfl with ⟨x, h1, h2⟩ | ⟨h1, h2⟩
      · exact .inl ⟨x, h1, .key h2⟩
      · exact .inr ⟨h1, .key h2⟩
    · rename_i r' a'; cases r' <;> simp [RType.deepcopy] at hu
  | value _ ih =>
    cases t <;> (try simp only [RType.deepcopy] at hu) <;> try cases hu
    · rcases ih rfl with ⟨x, h1, h2⟩ | ⟨h1, h2⟩
      · exact .inl ⟨x, h1, .value h2⟩
      · exact .inr ⟨h1, .value h2⟩
    · rename_i r' a'; cases r' <;> simp [RType.deepcopy] at hu
  | field hm _ ih =>
    cases t <;> (try simp only [RType.deepcopy] at hu) <;> try cases hu
    · rw [deepcopyList_eq] at hm
      obtain ⟨c, hc, rfl⟩ := List.mem_map.mp hm
      rcases ih rfl with ⟨x, h1, h2⟩ | ⟨h1, h2⟩
      · exact .inl ⟨x, h1, .field hc h2⟩
      · exact .inr ⟨h1, .field hc h2⟩
    · rename_i r' a'; cases r' <;> simp [RType.deepcopy] at hu
  | member hm _ ih =>
    cases t <;> (try simp only [RType.deepcopy] at hu) <;> try cases hu
    · rw [deepcopyList_eq] at hm
      obtain ⟨c, hc, rfl⟩ := List.mem_map.mp hm
      rcases ih rfl with ⟨x, h1, h2⟩ | ⟨h1, h2⟩
      · exact .inl ⟨x, h1, .member hc h2⟩
      · exact .inr ⟨h1, .member hc h2⟩
    · rename_i r' a'; cases r' <;> simp [RType.deepcopy] at hu

theorem sub_cases {u t : RType} (h : Sub u t) : u = t ∨ ∃ c ∈ children t, Sub u c := by
  cases h with
  | refl => exact .inl rfl
  | list h => exact .inr ⟨_, by simp [children], h⟩
  | key h => exact .inr ⟨_, by simp [children], h⟩
  | value h => exact .inr ⟨_, by simp [children], h⟩
  | field hm h => exact .inr ⟨_, hm, h⟩
  | member hm h => exact .inr ⟨_, hm, h⟩

theorem sub_withAttrs {u t : RType} {a : Attrs} (hp : t.isProxy = false) (hu : u.isProxy = true)
    (h : Sub u (t.withAttrs a)) : Sub u t := by
  rcases sub_cases h with rfl | ⟨c, hc, h⟩
  · cases t <;> simp_all [RType.withAttrs, RType.isProxy]
  · rw [children_withAttrs] at hc
    exact h.trans (.child hc)

/-- Every reference in the registry points to an earlier part of the same registry, which
defines the alias it names. -/
def Snap (reg : Registry) : Prop :=
  ∀ kt ∈ reg, kt.2.isProxy = false ∧ ∀ r a, Sub (.proxy r a) kt.2 →
    OrdinaryOverrides a.extra ∧ ∃ pre, r = some pre ∧ pre <+: reg ∧ ∃ s ∈ names pre, a.alias = .str s

theorem Snap.newRegistry : Snap newRegistry := by
  have : ∀ kt ∈ builtinAliases, kt.2.isProxy = false ∧ children kt.2 = [] := by decide +kernel
  intro kt hkt
  obtain ⟨h1, h2⟩ := this kt hkt
  refine ⟨h1, fun r a hs => ?_⟩
  rcases sub_cases hs with e | ⟨c, hc, -⟩
  · rw [← e] at h1; cases h1
  · rw [h2] at hc; cases hc

theorem Snap.finish {t : RType} {reg reg' : Registry} (h : finish t reg = .ok (t, reg'))
    (hs : Snap reg) (hp : t.isProxy = false)
    (ht : ∀ r a, Sub (.proxy r a) t → r = .none ∧ OrdinaryOverrides a.extra ∧
      ∃ s ∈ names reg, a.alias = .str s) : Snap reg' := by
  rcases finish_names h hp with ⟨-, rfl⟩ | ⟨s, h1, h2, -, rfl⟩
  · exact hs
  · intro kt hkt
    rcases List.mem_append.mp hkt with hkt | hkt
    · obtain ⟨g1, g2⟩ := hs kt hkt
      refine ⟨g1, fun r a hsub => ?_⟩
      obtain ⟨g3, pre, g4, g5, g6⟩ := g2 r a hsub
      exact ⟨g3, pre, g4, g5.trans (List.prefix_append _ _), g6⟩
    · simp only [List.mem_singleton] at hkt
      subst hkt
      have hp' : (t.deepcopy reg).isProxy = false := by
        cases t <;> simp_all [RType.deepcopy, RType.isProxy]
      refine ⟨?_, fun r a hsub => ?_⟩
      · cases t <;> simp_all [Registry.stored, RType.deepcopy, RType.isProxy, RType.withAttrs]
      · have := sub_withAttrs hp' rfl hsub
        rcases sub_deepcopy this with ⟨x, -, hx⟩ | ⟨rfl, hx⟩
        · obtain ⟨e, -⟩ := ht _ _ hx; cases e
        · obtain ⟨-, e2, e3⟩ := ht _ _ hx
          exact ⟨e2, reg, rfl, List.prefix_append _ _, e3⟩

theorem Grows.names {reg reg' : Registry} (h : Grows reg reg') {s : String} (hs : s ∈ Spec.names reg) :
    s ∈ Spec.names reg' := by
  obtain ⟨new, rfl, -, -⟩ := h
  simp only [Spec.names, List.map_append, List.mem_append] at *
  exact .inl hs

theorem mem_names_of_registered {reg reg' : Registry} {new : List String}
    (hr : Registered reg new reg') {seen : List PyVal} (hseen : ∀ s, .str s ∈ seen → s ∈ names reg)
    {al : List PyVal} (he : al = new.map .str) : ∀ s, .str s ∈ seen ++ al → s ∈ names reg' := by
  intro s hs
  rw [hr.2.2]
  subst he
  rcases List.mem_append.mp hs with h | h
  · exact List.mem_append_left _ (hseen s h)
  · simp only [List.mem_map, PyVal.str.injEq, exists_eq_right] at h
    exact List.mem_append_right _ h

mutual
/-- Parsing a document without forward references keeps the registry closed, and leaves all
references of the parsed type resolvable in the new registry. -/
theorem Built.snap {reg t reg'} : Built reg t reg' → ∀ (seen : List PyVal),
    (∀ s, .str s ∈ seen → s ∈ names reg) → Backward seen t →
    (∀ r a, Sub (.proxy r a) t → OrdinaryOverrides a.extra ∧ ∃ s, a.alias = .str s) → Snap reg →
    Snap reg' ∧ ∀ r a, Sub (.proxy r a) t → ∃ s ∈ names reg', a.alias = .str s
  | .leaf hl h => fun seen hseen hb ho hs => by
    cases t with
    | list => cases hl
    | map => cases hl
    | struct => cases hl
    | union => cases hl
    | proxy r a =>
      have hreg : reg' = reg := by
        unfold Recap.finish at h
        obtain ⟨_, _, h⟩ := ok_bind h
        simp only [RType.isProxy, Bool.not_true, Bool.and_false, Bool.false_eq_true, if_false] at h
        simp only [pure, Except.pure] at h; cases h; rfl
      subst hreg
      refine ⟨hs, fun r' a' hsub => ?_⟩
      cases hsub
      obtain ⟨s, e⟩ := (ho r a .refl).2
      simp only [Backward] at hb
      exact ⟨s, hseen s (e ▸ hb), e⟩
    | _ =>
      refine ⟨hs.finish h rfl fun r a hsub => (by cases hsub), fun r a hsub => (by cases hsub)⟩
  | .list (t := t0) (reg1 := q) (l := l0) (v := v0) (a := a0) h1 h2 => fun seen hseen hb ho hs => by
    simp only [Backward] at hb
    obtain ⟨g1, g2⟩ := h1.snap seen hseen hb (fun r a hsub => ho r a (.list hsub)) hs
    have g3 : ∀ r a, Sub (.proxy r a) (.list t0 l0 v0 a0) → ∃ s ∈ names q, a.alias = .str s := fun r a hsub => by
      rcases sub_cases hsub with e | ⟨c, hc, hsub'⟩
      · cases e
      · simp only [children, List.mem_singleton] at hc; subst hc; exact g2 r a hsub'
    refine ⟨g1.finish h2 rfl fun r a hsub => ⟨?_, (ho r a hsub).1, g3 r a hsub⟩, fun r a hsub => ?_⟩
    · exact (Built.list h1 h2).live r a hsub
    · obtain ⟨s, e1, e2⟩ := g3 r a hsub
      exact ⟨s, (grows_finish h2).names e1, e2⟩
  | .map (k := k) (v := v0) (a := a0) (reg2 := q) h1 h2 h3 => fun seen hseen hb ho hs => by
    simp only [Backward] at hb
    obtain ⟨n1, e1, r1⟩ := h1.registered
    obtain ⟨g1, g2⟩ := h1.snap seen hseen hb.1 (fun r a hsub => ho r a (.key hsub)) hs
    obtain ⟨f1, f2⟩ := h2.snap _ (mem_names_of_registered r1 hseen e1) hb.2
      (fun r a hsub => ho r a (.value hsub)) g1
    have g3 : ∀ r a, Sub (.proxy r a) (.map k v0 a0) → ∃ s ∈ names q, a.alias = .str s := fun r a hsub => by
      rcases sub_cases hsub with e | ⟨c, hc, hsub'⟩
      · cases e
      · simp only [children, List.mem_cons, List.not_mem_nil, or_false] at hc
        rcases hc with rfl | rfl
        · obtain ⟨s, e1, e2⟩ := g2 r a hsub'
          exact ⟨s, h2.grows.names e1, e2⟩
        · exact f2 r a hsub'
    refine ⟨f1.finish h3 rfl fun r a hsub => ⟨?_, (ho r a hsub).1, g3 r a hsub⟩, fun r a hsub => ?_⟩
    · exact (Built.map h1 h2 h3).live r a hsub
    · obtain ⟨s, e1, e2⟩ := g3 r a hsub
      exact ⟨s, (grows_finish h3).names e1, e2⟩
  | .struct (fs := fs) (a := a0) (reg1 := q) h1 h2 => fun seen hseen hb ho hs => by
    simp only [Backward] at hb
    obtain ⟨g1, g2⟩ := h1.snap seen hseen hb (fun t ht r a hsub => ho r a (.field ht hsub)) hs
    have g3 : ∀ r a, Sub (.proxy r a) (.struct fs a0) → ∃ s ∈ names q, a.alias = .str s := fun r a hsub => by
      rcases sub_cases hsub with e | ⟨c, hc, hsub'⟩
      · cases e
      · exact g2 c hc r a hsub'
    refine ⟨g1.finish h2 rfl fun r a hsub => ⟨?_, (ho r a hsub).1, g3 r a hsub⟩, fun r a hsub => ?_⟩
    · exact (Built.struct h1 h2).live r a hsub
    · obtain ⟨s, e1, e2⟩ := g3 r a hsub
      exact ⟨s, (grows_finish h2).names e1, e2⟩
  | .union (ts := fs) (a := a0) (reg1 := q) h1 h2 => fun seen hseen hb ho hs => by
    simp only [Backward] at hb
    obtain ⟨g1, g2⟩ := h1.snap seen hseen hb (fun t ht r a hsub => ho r a (.member ht hsub)) hs
    have g3 : ∀ r a, Sub (.proxy r a) (.union fs a0) → ∃ s ∈ names q, a.alias = .str s := fun r a hsub => by
      rcases sub_cases hsub with e | ⟨c, hc, hsub'⟩
      · cases e
      · exact g2 c hc r a hsub'
    refine ⟨g1.finish h2 rfl fun r a hsub => ⟨?_, (ho r a hsub).1, g3 r a hsub⟩, fun r a hsub => ?_⟩
    · exact (Built.union h1 h2).live r a hsub
    · obtain ⟨s, e1, e2⟩ := g3 r a hsub
      exact ⟨s, (grows_finish h2).names e1, e2⟩
theorem BuiltAll.snap {reg ts reg'} : BuiltAll reg ts reg' → ∀ (seen : List PyVal),
    (∀ s, .str s ∈ seen → s ∈ names reg) → BackwardAll seen ts →
    (∀ t ∈ ts, ∀ r a, Sub (.proxy r a) t → OrdinaryOverrides a.extra ∧ ∃ s, a.alias = .str s) →
    Snap reg →
    Snap reg' ∧ ∀ t ∈ ts, ∀ r a, Sub (.proxy r a) t → ∃ s ∈ names reg', a.alias = .str s
  | .nil => fun _ _ _ _ hs => ⟨hs, fun _ ht => absurd ht List.not_mem_nil⟩
  | .cons h1 h2 => fun seen hseen hb ho hs => by
    simp only [BackwardAll] at hb
    obtain ⟨n1, e1, r1⟩ := h1.registered
    obtain ⟨g1, g2⟩ := h1.snap seen hseen hb.1 (ho _ List.mem_cons_self) hs
    obtain ⟨f1, f2⟩ := h2.snap _ (mem_names_of_registered r1 hseen e1) hb.2
      (fun t ht => ho t (List.mem_cons_of_mem _ ht)) g1
    refine ⟨f1, fun t ht r a hsub => ?_⟩
    rcases List.mem_cons.mp ht with rfl | ht
    · obtain ⟨s, e1, e2⟩ := g2 r a hsub
      exact ⟨s, h2.grows.names e1, e2⟩
    · exact f2 t ht r a hsub
end

mutual
theorem backward_alias : ∀ (t : RType) (seen : List PyVal), (∀ x ∈ seen, ∃ s, x = .str s) →
    (∀ x ∈ definedAliases t, ∃ s, x = .str s) → Backward seen t →
    ∀ r a, Sub (.proxy r a) t → ∃ s, a.alias = .str s
  | .proxy r a, seen, hs, _, hb => fun r' a' h => by
    cases h; simp only [Backward] at hb; exact hs _ hb
  | .list t l v a, seen, hs, hd, hb => fun r' a' h => by
    simp only [definedAliases, List.mem_append] at hd
    cases h with
    | list h => exact backward_alias t seen hs (fun x hx => hd x (.inl hx)) (by simpa only [Backward] using hb) r' a' h
  | .map k v a, seen, hs, hd, hb => fun r' a' h => by
    simp only [definedAliases, List.mem_append] at hd
    simp only [Backward] at hb
    cases h with
    | key h => exact backward_alias k seen hs (fun x hx => hd x (.inl (.inl hx))) hb.1 r' a' h
    | value h =>
      refine backward_alias v _ ?_ (fun x hx => hd x (.inl (.inr hx))) hb.2 r' a' h
      intro x hx
      rcases List.mem_append.mp hx with hx | hx
      · exact hs x hx
      · exact hd x (.inl (.inl hx))
  | .struct fs a, seen, hs, hd, hb => fun r' a' h => by
    simp only [definedAliases, List.mem_append] at hd
    simp only [Backward] at hb
    cases h with
    | field hm h => exact backwardAll_alias fs seen hs (fun x hx => hd x (.inl hx)) hb _ hm r' a' h
  | .union fs a, seen, hs, hd, hb => fun r' a' h => by
    simp only [definedAliases, List.mem_append] at hd
    simp only [Backward] at hb
    cases h with
    | member hm h => exact backwardAll_alias fs seen hs (fun x hx => hd x (.inl hx)) hb _ hm r' a' h
  | .null _, _, _, _, _ => fun _ _ h => by cases h
  | .bool _, _, _, _, _ => fun _ _ h => by cases h
  | .int .., _, _, _, _ => fun _ _ h => by cases h
  | .float .., _, _, _, _ => fun _ _ h => by cases h
  | .string .., _, _, _, _ => fun _ _ h => by cases h
  | .bytes .., _, _, _, _ => fun _ _ h => by cases h
  | .enum .., _, _, _, _ => fun _ _ h => by cases h
theorem backwardAll_alias : ∀ (ts : List RType) (seen : List PyVal), (∀ x ∈ seen, ∃ s, x = .str s) →
    (∀ x ∈ definedAliasesAll ts, ∃ s, x = .str s) → BackwardAll seen ts →
    ∀ t ∈ ts, ∀ r a, Sub (.proxy r a) t → ∃ s, a.alias = .str s
  | [], _, _, _, _ => fun _ h => by cases h
  | t :: ts, seen, hs, hd, hb => fun u hu r' a' h => by
    simp only [definedAliasesAll, List.mem_append] at hd
    simp only [BackwardAll] at hb
    rcases List.mem_cons.mp hu with e | hu
    · exact backward_alias t seen hs (fun x hx => hd x (.inl hx)) hb.1 r' a' (e ▸ h)
    · refine backwardAll_alias ts _ ?_ (fun x hx => hd x (.inr hx)) hb.2 u hu r' a' h
      intro x hx
      rcases List.mem_append.mp hx with hx | hx
      · exact hs x hx
      · exact hd x (.inl hx)
end

/-- A reference that points into the registry `base`, of which the live registry is an extension. -/
def GoodRef (base : Registry) (r : Option (List (String × RType))) (a : Attrs) : Prop :=
  OrdinaryOverrides a.extra ∧ ∃ s, a.alias = .str s ∧
    ((r = .none ∧ s ∈ names base) ∨ ∃ pre, r = some pre ∧ pre <+: base ∧ s ∈ names pre)

theorem mem_of_find? {reg : Registry} {s : String} {t : RType} (h : Registry.find? reg s = some t) :
    (s, t) ∈ reg := by
  induction reg with
  | nil => cases h
  | cons kt reg ih =>
    obtain ⟨k, t'⟩ := kt
    simp only [Registry.find?] at h
    split at h
    · rename_i e; cases h; subst e; exact List.mem_cons_self
    · exact List.mem_cons_of_mem _ (ih h)

theorem GoodRef.resolve {base live : Registry} {r : Option (List (String × RType))} {a : Attrs}
    (hs : Snap base) (hg : Grows base live) (h : GoodRef base r a) :
    ∃ d, Recap.resolve live r a = .ok d ∧ ∀ r' a', Sub (.proxy r' a') d → GoodRef base r' a' := by
  obtain ⟨ho, s, ha, hr⟩ := h
  have hfind : ∃ t, Registry.find? (r.getD live) s = some t ∧ (s, t) ∈ base := by
    rcases hr with ⟨rfl, hm⟩ | ⟨pre, rfl, hpre, hm⟩
    · obtain ⟨t, ht⟩ := Option.isSome_iff_exists.mp ((find?_isSome_iff base s).mpr hm)
      exact ⟨t, hg.find? ht, mem_of_find? ht⟩
    · obtain ⟨t, ht⟩ := Option.isSome_iff_exists.mp ((find?_isSome_iff pre s).mpr hm)
      exact ⟨t, ht, hpre.subset (mem_of_find? ht)⟩
  obtain ⟨t, ht, hm⟩ := hfind
  obtain ⟨hp, hsub⟩ := hs _ hm
  obtain ⟨d, g1, g2, g3, g4⟩ := applyOverrides_spec a.extra (t.deepcopy (r.getD live)) ho
  refine ⟨d, ?_, ?_⟩
  · simp only [Recap.resolve, Registry.fromAlias, ha, ht, bind, Except.bind]
    exact g1
  · intro r' a' hd
    have hd' : Sub (.proxy r' a') (t.deepcopy (r.getD live)) := by
      rcases sub_cases hd with rfl | ⟨c, hc, hd⟩
      · rw [typeName_deepcopy] at g2
        cases t <;> simp_all [RType.typeName, RType.isProxy]
      · rw [g3] at hc; exact hd.trans (.child hc)
    rcases sub_deepcopy hd' with ⟨x, rfl, hx⟩ | ⟨-, hx⟩
    · obtain ⟨e1, pre, e2, e3, s', e4, e5⟩ := hsub _ _ hx
      cases e2
      exact ⟨e1, s', e5, .inr ⟨x, rfl, e3, e4⟩⟩
    · obtain ⟨e1, pre, e2, -⟩ := hsub _ _ hx
      cases e2

/-- C19 without forward and self references (the missing part is `C19_statement`, which is
false): following the references of a parsed document never fails, in every later state of the
registry. -/
theorem C19_backward_references_partial (v : PyVal) (t : RType) (reg : Registry) (ops : List RegOp)
    (h : fromDict v newRegistry = .ok (t, reg))
    (hb : Backward ((names newRegistry).map .str) t)
    (ho : ∀ r a, Sub (.proxy r a) t → OrdinaryOverrides a.extra) :
    ∀ r a, Reaches (runOps reg ops) t (.proxy r a) → ∃ d, resolve (runOps reg ops) r a = .ok d := by
  have hbuilt := built_of_fromDict h
  obtain ⟨new, hnew, -⟩ := hbuilt.registered
  have hal := backward_alias t _ (by simp) (by rw [hnew]; simp) hb
  obtain ⟨hs, ht⟩ := hbuilt.snap ((names newRegistry).map .str) (by simp) hb
    (fun r a hsub => ⟨ho r a hsub, hal r a hsub⟩) .newRegistry
  have hg := runOps_grows ops reg
  generalize runOps reg ops = live at hg
  have hgood : ∀ u, Reaches live t u → ∀ r a, Sub (.proxy r a) u → GoodRef reg r a := by
    intro u hu
    induction hu with
    | refl =>
      intro r a hsub
      obtain ⟨s, e1, e2⟩ := ht r a hsub
      exact ⟨ho r a hsub, s, e2, .inl ⟨hbuilt.live r a hsub, e1⟩⟩
    | child _ hc ih => exact fun r a hsub => ih r a (hsub.trans (.child hc))
    | resolve _ hr ih =>
      obtain ⟨d, e1, e2⟩ := (ih _ _ .refl).resolve hs hg
      rw [e1] at hr; cases hr
      exact e2
  intro r a hr
  obtain ⟨d, hd, -⟩ := (hgood _ hr r a .refl).resolve hs hg
  exact ⟨d, hd⟩

/-- A document in which an alias is defined, used inside another aliased type, and that one is used
again. -/
example : ∃ t reg, fromDict (.dict [("type", .str "struct"), ("fields", .list [
      .dict [("type", .str "list"), ("alias", .str "com.A"), ("values", .str "int32")],
      .dict [("type", .str "struct"), ("alias", .str "com.B"), ("fields", .list [.str "com.A"])],
      .dict [("type", .str "com.B"), ("name", .str "b")]])]) newRegistry = .ok (t, reg) ∧
    Backward ((names newRegistry).map .str) t ∧
    ∀ r a, Sub (.proxy r a) t → OrdinaryOverrides a.extra := by
  let i : RType := .proxy .none { alias := .str "int32" }
  let pa : RType := .proxy .none { alias := .str "com.A" }
  let pb : RType := .proxy .none { alias := .str "com.B", extra := [("name", .str "b")] }
  let ta : RType := .list i .none (.bool true) { alias := .str "com.A" }
  let tb : RType := .struct [pa] { alias := .str "com.B" }
  let reg1 := newRegistry ++ [("com.A", Registry.stored newRegistry ta)]
  refine ⟨.struct [ta, tb, pb] {}, reg1 ++ [("com.B", Registry.stored reg1 tb)], by decide +kernel,
    ?_, ?_⟩
  · simp [Backward, BackwardAll, definedAliases, definedAliasesAll, own, ta, tb, pb, pa, i, names,
      newRegistry, builtinAliases]
  · intro r a h
    rcases sub_cases h with e | ⟨c, hc, h⟩
    · cases e
    simp only [children, List.mem_cons, List.not_mem_nil, or_false] at hc
    simp only [ta, tb, pb, pa, i] at hc
    rcases hc with rfl | rfl | rfl
    · rcases sub_cases h with e | ⟨c, hc, h⟩
      · cases e
      · simp only [children, List.mem_singleton] at hc; subst hc; cases h; simp [OrdinaryOverrides]
    · rcases sub_cases h with e | ⟨c, hc, h⟩
      · cases e
      · simp only [children, List.mem_singleton] at hc; subst hc; cases h; simp [OrdinaryOverrides]
    · cases h
      simp [OrdinaryOverrides, OrdinaryKey]

end Recap
