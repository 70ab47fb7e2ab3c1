import Verif.ResolveThms

/-! # What documents parse to: C20 - C23 -/

namespace Recap

open Spec

/-! ## Helper lemmas -/

theorem parseAll_iff (xs : List PyVal) (reg : Registry) (ts : List RType) (reg' : Registry) :
    parseAll fromDict xs reg = .ok (ts, reg') ↔ ParsesAll xs reg ts reg' := by
  induction xs generalizing reg ts reg' with
  | nil =>
    simp only [parseAll, ParsesAll, Except.ok.injEq, Prod.mk.injEq]
    exact ⟨fun h => ⟨h.1.symm, h.2.symm⟩, fun h => ⟨h.1.symm, h.2.symm⟩⟩
  | cons x xs ih =>
    simp only [parseAll, ParsesAll]
    constructor
    · intro h
      obtain ⟨⟨t, r1⟩, h1, h⟩ := ok_bind h
      obtain ⟨⟨ts1, r2⟩, h2, h⟩ := ok_bind h
      simp only [pure, Except.pure] at h; cases h
      exact ⟨t, ts1, r1, rfl, h1, (ih _ _ _).mp h2⟩
    · rintro ⟨t, ts1, r1, rfl, h1, h2⟩
      rw [← ih] at h2
      simp only [h1, h2, bind, Except.bind, pure, Except.pure]

theorem Spec.ParsesAll.mem {xs : List PyVal} {reg reg' : Registry} {ts : List RType}
    (h : ParsesAll xs reg ts reg') {x : PyVal} (hx : x ∈ xs) :
    ∃ t ∈ ts, ∃ r1 r2, fromDict x r1 = .ok (t, r2) := by
  induction xs generalizing reg ts with
  | nil => cases hx
  | cons y ys ih =>
    obtain ⟨t, ts1, r1, rfl, h1, h2⟩ := h
    rcases List.mem_cons.mp hx with rfl | hx
    · exact ⟨t, List.mem_cons_self, _, _, h1⟩
    · obtain ⟨u, hu, r⟩ := ih h2 hx
      exact ⟨u, List.mem_cons_of_mem _ hu, r⟩

theorem finish_plain {t : RType} {reg : Registry} (hv : t.validate = .ok ()) (ha : t.attrs.alias = .none) :
    finish t reg = .ok (t, reg) := by
  simp [finish, hv, ha, bind, Except.bind, PyVal.isNone, pure, Except.pure]

theorem fromDict_null (reg : Registry) : fromDict (.str "null") reg = .ok (.null {}, reg) := by
  rw [fromDict_eq]; rfl

theorem without_erase (d : Dict) (k : String) : without d [k] = d.erase k := by
  unfold without Dict.erase
  congr 1; funext kv
  by_cases h : kv.1 = k <;> simp [h]

theorem keyFree {d : Dict} {k : String} (h : k ∉ d.keys) : d.get? k = .none ∧ d.has k = false ∧ d.erase k = d :=
  ⟨Dict.get?_eq_none_iff.mpr h, Dict.has_eq_false_iff.mpr h, Dict.erase_of_not_mem h⟩

/-! ## C20 -/

/-- C20: a list means the union dictionary with that list as `types`. -/
theorem C20_list_shorthand (xs : List PyVal) (reg : Registry) :
    fromDict (.list xs) reg =
      fromDict (.dict [("type", .str "union"), ("types", .list xs)]) reg := by
  rw [fromDict_eq, fromDict_eq]; rfl

/-- C20: a string means the dictionary with that string as `type`. -/
theorem C20_string_shorthand (s : String) (reg : Registry) :
    fromDict (.str s) reg = fromDict (.dict [("type", .str s)]) reg := by
  rw [fromDict_eq, fromDict_eq]; rfl

/-- C20: what a list parses to: the union, without attributes, of what its members parse to, in
order. -/
theorem C20_list_is_union_of_members (xs : List PyVal) (reg reg' : Registry) (t : RType) :
    fromDict (.list xs) reg = .ok (t, reg') ↔
      ∃ ts, t = .union ts {} ∧ ParsesAll xs reg ts reg' := by
  have hc : ∀ (r : List RType × Registry), finish (.union r.1 {}) r.2 = .ok (.union r.1 {}, r.2) :=
    fun r => finish_plain rfl rfl
  have key : fromDict (.list xs) reg = (parseAll fromDict xs reg).map (fun r => (.union r.1 {}, r.2)) := by
    rw [fromDict_eq]
    have h1 : normalise (.list xs) = .ok [("type", .str "union"), ("types", .list xs)] := rfl
    have h2 : prepare [("type", .str "union"), ("types", .list xs)] =
      .ok [("type", .str "union"), ("types", .list xs)] := rfl
    simp only [h1, h2, bind, Except.bind]
    have h3 : Dict.getD [("type", .str "union"), ("types", .list xs)] "type" .none = .str "union" := rfl
    have h4 : Dict.erase [("type", .str "union"), ("types", .list xs)] "type" = [("types", .list xs)] := rfl
    have h5 : Dict.get? [("types", .list xs)] "types" = some (.list xs) := rfl
    have h6 : Dict.erase [("types", PyVal.list xs)] "types" = [] := rfl
    have h7 : mkAttrs [] [] = .ok {} := rfl
    rw [h3, h4, construct_union, h5]
    simp only [PyVal.iter, bind, Except.bind, h6, h7, pure, Except.pure]
    cases parseAll fromDict xs reg with
    | error e => rfl
    | ok r => simp only [hc r]; rfl
  rw [key]
  constructor
  · intro h
    cases hp : parseAll fromDict xs reg with
    | error e => rw [hp] at h; cases h
    | ok r =>
      rw [hp] at h
      simp only [Except.map, Except.ok.injEq, Prod.mk.injEq] at h
      obtain ⟨rfl, rfl⟩ := h
      exact ⟨r.1, rfl, (parseAll_iff _ _ _ _).mp hp⟩
  · rintro ⟨ts, rfl, h⟩
    rw [← parseAll_iff] at h
    rw [h]; rfl

/-- A list whose second member refers to an alias defined by the first. -/
example : (fromDict (.list [.dict [("type", .str "bool"), ("alias", .str "com.A")], .str "com.A"])
    newRegistry).isOk = true := by decide +kernel

/-! ## C21 -/

/-- C21, the full statement. -/
def C21_statement : Prop :=
  ∀ (xs : List PyVal) (attrs : Dict) (reg : Registry), (∀ k ∈ ["type", "types"], k ∉ attrs.keys) →
    fromDict (.dict (("type", .list xs) :: attrs)) reg =
      fromDict (.dict (("type", .str "union") :: ("types", .list xs) :: attrs)) reg

/-- C21 is false: a list among the members of a `type` list is dropped silently, while a list among
the members of `types` is a nested union. -/
theorem C21_nested_list_refuted : ¬ C21_statement := by
  intro h
  have := h [.str "null", .list [.str "bool"]] [] newRegistry (by simp)
  revert this
  decide +kernel

/-- C21 is false also with `optional`: the long form is made nullable, the short form is wrapped
in another union. -/
theorem C21_optional_refuted : ¬ C21_statement := by
  intro h
  have := h [.str "bool"] [("optional", .bool true)] newRegistry (by simp [Dict.keys])
  revert this
  decide +kernel

/-- C21 for members that are dictionaries or strings, and without `optional`. -/
theorem C21_type_list_partial (xs : List PyVal) (attrs : Dict) (reg : Registry)
    (hx : ∀ x ∈ xs, (∃ s, x = .str s) ∨ ∃ d, x = .dict d)
    (hk : ∀ k ∈ ["type", "types", "optional"], k ∉ attrs.keys) :
    fromDict (.dict (("type", .list xs) :: attrs)) reg =
      fromDict (.dict (("type", .str "union") :: ("types", .list xs) :: attrs)) reg := by
  have hf : xs.filter keepMember = xs := by
    rw [List.filter_eq_self]
    intro x hx'
    rcases hx x hx' with ⟨s, rfl⟩ | ⟨d, rfl⟩ <;> rfl
  obtain ⟨t1, t2, t3⟩ := keyFree (hk "type" (by simp))
  obtain ⟨u1, u2, u3⟩ := keyFree (hk "types" (by simp))
  obtain ⟨o1, o2, o3⟩ := keyFree (hk "optional" (by simp))
  rw [fromDict_eq, fromDict_eq]
  have e1 : prepare (("type", .list xs) :: attrs) = .ok (("type", .list xs) :: attrs) := by
    simp [prepare, Dict.getD, Dict.get?_cons, o1, PyVal.isNone, PyVal.truthy, Dict.erase_cons, o3]
  have e2 : prepare (("type", .str "union") :: ("types", .list xs) :: attrs) =
      .ok (("type", .str "union") :: ("types", .list xs) :: attrs) := by
    simp [prepare, Dict.getD, Dict.get?_cons, o1, PyVal.isNone, PyVal.truthy, Dict.erase_cons, o3]
  simp only [normalise, bind, Except.bind, e1, e2]
  have g1 : Dict.getD (("type", .list xs) :: attrs) "type" .none = .list xs := rfl
  have g2 : Dict.getD (("type", .str "union") :: ("types", .list xs) :: attrs) "type" .none =
    .str "union" := rfl
  have g3 : Dict.erase (("type", .list xs) :: attrs) "type" = attrs := by simp [Dict.erase_cons, t3]
  have g4 : Dict.erase (("type", .str "union") :: ("types", .list xs) :: attrs) "type" =
      ("types", .list xs) :: attrs := by simp [Dict.erase_cons, t3]
  have g5 : Dict.get? (("types", .list xs) :: attrs) "types" = some (.list xs) := rfl
  have g6 : Dict.erase (("types", .list xs) :: attrs) "types" = attrs := by simp [Dict.erase_cons, u3]
  rw [g1, g2, g3, g4, construct_list, construct_union, hf, u2, g5]
  simp only [PyVal.iter, bind, Except.bind, g6, Bool.false_eq_true, if_false]

/-- Two members and an attribute. -/
example : (fromDict (.dict [("type", .list [.str "int32", .dict [("type", .str "bool")]]),
    ("doc", .str "d")]) newRegistry) = (fromDict (.dict [("type", .str "union"),
    ("types", .list [.str "int32", .dict [("type", .str "bool")]]), ("doc", .str "d")]) newRegistry)
  ∧ (fromDict (.dict [("type", .list [.str "int32", .dict [("type", .str "bool")]]),
    ("doc", .str "d")]) newRegistry).isOk = true :=
  ⟨C21_type_list_partial _ _ _ (by simp) (by simp [Dict.keys]), by decide +kernel⟩

/-! ## C22 -/

/-- C22, the full statement. -/
def C22_statement : Prop :=
  ∀ (d : Dict) (o : PyVal) (reg reg' : Registry) (t : RType), d.get? "optional" = some o →
    o.truthy = true → fromDict (.dict d) reg = .ok (t, reg') →
    ∃ ts a, t = .union ts a ∧ (∃ n ∈ ts, IsNullType n) ∧
      a.extra.get? "default" = some (d.getD "default" .none)

/-- C22 is false: the characters of a string given as `types` are taken as members, but the test
whether there is a null looks for a substring. -/
theorem C22_string_types_refuted : ¬ C22_statement := by
  intro h
  let d : Dict := [("type", .str "union"), ("types", .str "null"), ("optional", .bool true)]
  let ps : List RType := ["n", "u", "l", "l"].map fun s => .proxy .none { alias := .str s }
  have h1 : fromDict (.dict d) newRegistry =
      .ok (.union ps { extra := [("default", .none)] }, newRegistry) := by decide +kernel
  obtain ⟨ts, a, e, ⟨n, hn, a', rfl⟩, -⟩ := h d (.bool true) _ _ _ rfl rfl h1
  cases e
  simp [ps] at hn

/-- C22 when `types` is not a string. -/
theorem C22_optional_partial (d : Dict) (o : PyVal) (reg reg' : Registry) (t : RType)
    (ho : d.get? "optional" = some o) (hto : o.truthy = true)
    (hs : ∀ s, d.get? "types" ≠ some (.str s))
    (h : fromDict (.dict d) reg = .ok (t, reg')) :
    ∃ ts a, t = .union ts a ∧ (∃ n ∈ ts, IsNullType n) ∧
      a.extra.get? "default" = some (d.getD "default" .none) := by
  rw [fromDict_eq] at h
  simp only [normalise] at h
  obtain ⟨_, hn, h⟩ := ok_bind h
  cases hn
  obtain ⟨d1, hp, h⟩ := ok_bind h
  obtain ⟨⟨t1, r1⟩, hc, h⟩ := ok_bind h
  have := finish_fst h
  subst this
  unfold prepare at hp
  split at hp
  · cases hp
  rw [show d.getD "optional" (.bool false) = o by simp [Dict.getD, ho]] at hp
  simp only [hto, if_true, desugarOptional] at hp
  obtain ⟨d2, he, hp⟩ := ok_bind hp
  simp only [pure, Except.pure] at hp; cases hp
  -- the rewritten dictionary is a union whose members contain "null"
  generalize hw : wrapUnion (((d.erase "optional").erase "name").erase "default") = w at he
  have hw1 : w.get? "type" = some (.str "union") ∧ ∀ s, w.get? "types" ≠ some (.str s) := by
    unfold wrapUnion at hw
    split at hw
    · rename_i hu
      subst hw
      have e : ((((d.erase "optional").erase "name").erase "default").get? "type") = d.get? "type" := by
        simp [Dict.get?_erase]
      have e' : ((((d.erase "optional").erase "name").erase "default").get? "types") = d.get? "types" := by
        simp [Dict.get?_erase]
      rw [e, e']
      refine ⟨?_, hs⟩
      unfold Dict.getD at hu
      rw [e] at hu
      cases hg : d.get? "type" with
      | none => rw [hg] at hu; simp [PyVal.pyEq] at hu
      | some x =>
        rw [hg] at hu
        cases x <;> simp_all [PyVal.pyEq]
    · subst hw
      exact ⟨rfl, fun s => by simp [Dict.get?_cons]⟩
  have hd2 : d2.get? "type" = some (.str "union") ∧ ∃ xs ty, d2.get? "types" = some ty ∧
      ty.iter = .ok xs ∧ .str "null" ∈ xs := by
    unfold ensureNull at he
    split at he
    · cases he
    rename_i types hty
    split at he
    · cases he
    · rename_i hcs
      cases he
      refine ⟨hw1.1, ?_⟩
      cases types with
      | list xs =>
        refine ⟨xs, _, hty, rfl, ?_⟩
        simp only [PyVal.containsStr, Except.ok.injEq, List.any_eq_true] at hcs
        obtain ⟨x, hx, hx2⟩ := hcs
        cases x <;> simp_all [PyVal.pyEq]
      | str s => exact absurd hty (hw1.2 s)
      | dict kvs =>
        refine ⟨_, _, hty, rfl, ?_⟩
        simp only [PyVal.containsStr, Except.ok.injEq] at hcs
        rw [Dict.has_iff] at hcs
        simp only [Dict.keys, List.mem_map] at hcs ⊢
        obtain ⟨kv, h1, h2⟩ := hcs
        exact ⟨kv, h1, by rw [h2]⟩
      | _ => cases hcs
    · split at he
      · rename_i xs hcs
        cases he
        refine ⟨?_, .str "null" :: xs, _, Dict.get?_set_self _ _ _, rfl, List.mem_cons_self⟩
        rw [Dict.get?_set_ne _ _ (by decide)]; exact hw1.1
      · cases he
  obtain ⟨hty, xs, ty, hts, hiter, hnull⟩ := hd2
  generalize hr : restoreField (d.getD "name" .none) (d.getD "default" .none) d2 = r at hc
  have hr1 : ∀ k, k ≠ "name" → k ≠ "default" → r.get? k = d2.get? k := by
    intro k h1 h2
    subst hr
    unfold restoreField
    rw [Dict.get?_set_ne _ _ (Ne.symm h2)]
    split
    · rfl
    · rw [Dict.get?_set_ne _ _ (Ne.symm h1)]
  have hr2 : r.get? "default" = some (d.getD "default" .none) := by
    subst hr; exact Dict.get?_set_self _ _ _
  have e1 : r.getD "type" .none = .str "union" := by
    simp [Dict.getD, hr1 "type" (by decide) (by decide), hty]
  have e2 : (r.erase "type").get? "types" = some ty := by
    rw [Dict.get?_erase_ne _ (by decide), hr1 "types" (by decide) (by decide), hts]
  rw [e1, construct_union, e2] at hc
  simp only [hiter] at hc
  obtain ⟨_, hx, hc⟩ := ok_bind hc
  cases hx
  obtain ⟨⟨ts, r2⟩, hpa, hc⟩ := ok_bind hc
  obtain ⟨a, hma, hc⟩ := ok_bind hc
  simp only [pure, Except.pure] at hc; cases hc
  refine ⟨ts, a, rfl, ?_, ?_⟩
  · obtain ⟨n, hn, q1, q2, hq⟩ := ((parseAll_iff _ _ _ _).mp hpa).mem hnull
    rw [fromDict_null] at hq; cases hq
    exact ⟨_, hn, _, rfl⟩
  · unfold mkAttrs at hma
    split at hma
    · cases hma
    · cases hma
      simp only
      have q := Dict.get?_filter_keys ((r.erase "type").erase "types")
        (fun k : String => !(([] : List String) ++ ["logical", "alias", "doc"]).contains k) "default"
      refine q.trans ?_
      rw [if_pos (by decide), Dict.get?_erase_ne _ (by decide), Dict.get?_erase_ne _ (by decide)]
      exact hr2

/-- C22, what the document means: unless it is a union already, `optional` is the same as a union
of null and the type without `optional`, `name` and `default`, with this name and default. -/
theorem C22_optional_means_union (d : Dict) (o ty : PyVal) (reg : Registry)
    (ho : d.get? "optional" = some o) (hto : o.truthy = true)
    (hty : d.get? "type" = some ty) (hn : ty ≠ .none) (hu : ty ≠ .str "union") :
    fromDict (.dict d) reg = fromDict (.dict (
      [("type", .str "union"),
       ("types", .list [.str "null", .dict (without d ["optional", "name", "default"])])] ++
      (if d.getD "name" .none = .none then [] else [("name", d.getD "name" .none)]) ++
      [("default", d.getD "default" .none)])) reg := by
  have hw : ((d.erase "optional").erase "name").erase "default" =
      without d ["optional", "name", "default"] := by
    unfold without Dict.erase
    rw [List.filter_filter, List.filter_filter]
    congr 1; funext kv
    by_cases h1 : kv.1 = "optional" <;> by_cases h2 : kv.1 = "name" <;>
      by_cases h3 : kv.1 = "default" <;> simp [h1, h2, h3]
  have hte : (((d.erase "optional").erase "name").erase "default").getD "type" .none = ty := by
    simp [Dict.getD, Dict.get?_erase, hty]
  rw [hw] at hte
  have hp : PyVal.pyEq ty (.str "union") = false := by
    cases ty <;> simp_all [PyVal.pyEq]
  have hi : ty.isNone = false := by cases ty <;> simp_all [PyVal.isNone]
  have e1 : prepare d = .ok (restoreField (d.getD "name" .none) (d.getD "default" .none)
      [("type", .str "union"), ("types", .list [.str "null", .dict (without d ["optional", "name", "default"])])]) := by
    simp only [prepare, desugarOptional]
    have q1 : d.getD "type" .none = ty := by simp [Dict.getD, hty]
    have q2 : d.getD "optional" (.bool false) = o := by simp [Dict.getD, ho]
    simp only [q1, hi, Bool.false_eq_true, if_false, q2, hto, if_true]
    have q3 : wrapUnion (((d.erase "optional").erase "name").erase "default") =
        [("type", .str "union"), ("types", .list [.str "null", .dict (without d ["optional", "name", "default"])])] := by
      simp only [wrapUnion, hw, hte, hp, Bool.false_eq_true, if_false]
    rw [q3]
    rfl
  rw [fromDict_eq (.dict d), fromDict_eq (.dict (_ ++ _))]
  simp only [normalise, bind, Except.bind, e1]
  by_cases hname : d.getD "name" .none = .none
  · simp only [hname, if_true, List.append_nil, List.cons_append, List.nil_append]
    rfl
  · have : (d.getD "name" .none).isNone = false := by
      generalize d.getD "name" .none = x at *
      cases x <;> simp_all [PyVal.isNone]
    simp only [hname, if_false, restoreField, this, Bool.false_eq_true]
    rfl

/-- An optional, named field with a doc. -/
example : fromDict (.dict [("type", .str "bool"), ("optional", .bool true), ("name", .str "f"),
    ("doc", .str "d")]) newRegistry = .ok (.union [.null {}, .bool { doc := .str "d" }]
      { extra := [("name", .str "f"), ("default", .none)] }, newRegistry) := by
  decide +kernel

/-! ## C23 -/

/-- C23, the full statement. -/
def C23_statement : Prop :=
  ∀ (n : String) (attrs : Dict) (reg : Registry), n ∉ coreTypeNames → "type" ∉ attrs.keys →
    "optional" ∉ attrs.keys →
    ∃ a, fromDict (.dict (("type", .str n) :: attrs)) reg = .ok (.proxy .none a, reg) ∧
      a.alias = .str n

/-- C23 is false: a reference cannot have an alias of its own. -/
theorem C23_alias_refuted : ¬ C23_statement := by
  intro h
  obtain ⟨a, h1, -⟩ := h "int32" [("alias", .str "com.A")] newRegistry (by decide) (by decide) (by decide)
  rw [show fromDict _ newRegistry = .error .typeError by decide +kernel] at h1
  cases h1

/-- C23 without an alias and without the parameter names of the constructor (`self`, `type_`,
`registry`): the reference has exactly the given attributes, and nothing is registered. -/
theorem C23_unknown_names_are_references_partial (n : String) (attrs : Dict) (reg : Registry)
    (hn : n ∉ coreTypeNames)
    (hk : ∀ k ∈ ["type", "optional", "alias", "registry", "self", "type_"], k ∉ attrs.keys) :
    ∃ a, fromDict (.dict (("type", .str n) :: attrs)) reg = .ok (.proxy .none a, reg) ∧
      a.alias = .str n ∧ a.doc = attrs.getD "doc" .none ∧ a.logical = attrs.getD "logical" .none ∧
      a.extra = without attrs ["doc", "logical"] := by
  obtain ⟨t1, t2, t3⟩ := keyFree (hk "type" (by simp))
  obtain ⟨o1, o2, o3⟩ := keyFree (hk "optional" (by simp))
  obtain ⟨a1, a2, a3⟩ := keyFree (hk "alias" (by simp))
  obtain ⟨r1, r2, r3⟩ := keyFree (hk "registry" (by simp))
  obtain ⟨s1, s2, s3⟩ := keyFree (hk "self" (by simp))
  obtain ⟨y1, y2, y3⟩ := keyFree (hk "type_" (by simp))
  have e1 : prepare (("type", .str n) :: attrs) = .ok (("type", .str n) :: attrs) := by
    simp [prepare, Dict.getD, Dict.get?_cons, o1, PyVal.isNone, PyVal.truthy, Dict.erase_cons, o3]
  have g1 : Dict.getD (("type", .str n) :: attrs) "type" .none = .str n := rfl
  have g3 : Dict.erase (("type", .str n) :: attrs) "type" = attrs := by simp [Dict.erase_cons, t3]
  rw [fromDict_eq]
  simp only [normalise, bind, Except.bind, e1, g1, g3]
  rw [construct_proxy _ _ _ hn]
  simp only [a2, r2, Bool.or_self, Bool.false_eq_true, if_false, mkAttrs, s2, y2, bind, Except.bind,
    pure, Except.pure]
  refine ⟨_, by simp only [finish, RType.validate, RType.isProxy, bind, Except.bind, pure, Except.pure,
    Bool.not_true, Bool.and_false, Bool.false_eq_true, if_false]; rfl, rfl, rfl, rfl, ?_⟩
  unfold without
  apply List.filter_congr
  intro kv hkv
  have : kv.1 ≠ "alias" := fun e => hk "alias" (by simp) (e ▸ List.mem_map_of_mem hkv)
  by_cases h1 : kv.1 = "doc" <;> by_cases h2 : kv.1 = "logical" <;> simp [h1, h2, this]

/-- A reference to an alias that is not defined anywhere, with a name and a doc. -/
example : fromDict (.dict [("type", .str "com.Nowhere"), ("name", .str "f"), ("doc", .str "d")])
    newRegistry = .ok (.proxy .none { alias := .str "com.Nowhere", doc := .str "d", extra := [("name", .str "f")] },
      newRegistry) := by
  decide +kernel

end Recap
