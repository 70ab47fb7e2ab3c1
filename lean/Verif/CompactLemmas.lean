import Verif.CompactSpec
import Verif.Parsed

/-! # Documents and the types they denote: lemmas for C02 – C05

`Doc v t` says that the document `v` denotes the type `t`; it covers the documents that `to_dict`
produces, before and after compaction.  `Doc.read` shows that `from_dict` reads such a document back
as `t`. -/

set_option autoImplicit false

namespace Recap

open Spec

/-! ## Keyword arguments -/

/-- A type dictionary. -/
abbrev node (n : String) (kw : Dict) : Dict := ("type", .str n) :: kw

/-- The keyword arguments that end up in the extra attributes. -/
def extraOf (names : List String) (kw : Dict) : Dict :=
  kw.filter (fun kv => !(names ++ ["logical", "alias", "doc"]).contains kv.1)

/-- Keyword arguments without special names. -/
structure KwOK (kw : Dict) : Prop where
  nodup : kw.keys.Nodup
  special : ∀ k ∈ ["type", "optional", "self", "type_"], k ∉ kw.keys

/-- The common attributes given by keyword arguments. -/
structure AttrsOf (names : List String) (kw : Dict) (a : Attrs) : Prop where
  alias : Dict.getD kw "alias" .none = a.alias
  logical : Dict.getD kw "logical" .none = a.logical
  doc : Dict.getD kw "doc" .none = a.doc
  extra : Dict.pyEq (extraOf names kw) a.extra = true

/-- A flag that defaults to true. -/
def Flag (kw : Dict) (k : String) (w : PyVal) : Prop := PyVal.pyEq (Dict.getD kw k (.bool true)) w = true

/-- The extra attributes of the union that an optional type stands for. -/
def restored (d : Dict) : Dict := restoreField (Dict.getD d "name" .none) (Dict.getD d "default" .none) []

/-- The attributes that make a type optional. -/
structure Sugar (es : Dict) (e : Dict) : Prop where
  nodup : es.keys.Nodup
  keys : ∀ k ∈ es.keys, k ∈ ["default", "name", "optional"]
  optional : Dict.get? es "optional" = some (.bool true)
  extra : Dict.pyEq (restored es) e = true

/-- The keys of an optional union. -/
structure SugarUnion (kw : Dict) (a : Attrs) : Prop where
  nodup : kw.keys.Nodup
  keys : ∀ k ∈ kw.keys, k ∈ ["types", "alias", "logical", "doc", "default", "name", "optional"]
  optional : Dict.get? kw "optional" = some (.bool true)
  alias : Dict.getD kw "alias" .none = a.alias
  logical : Dict.getD kw "logical" .none = a.logical
  doc : Dict.getD kw "doc" .none = a.doc
  extra : Dict.pyEq (restored kw) a.extra = true

mutual
/-- The document denotes the type. -/
inductive Doc : PyVal → RType → Prop
  | short {s t} : Doc (.dict (node s [])) t → Doc (.str s) t
  | shortUnion {xs t} : Doc (.dict (node "union" [("types", .list xs)])) t → Doc (.list xs) t
  | null {kw a} : KwOK kw → AttrsOf [] kw a → Doc (.dict (node "null" kw)) (.null a)
  | bool {kw a} : KwOK kw → AttrsOf [] kw a → Doc (.dict (node "bool" kw)) (.bool a)
  | int {kw b s a} : KwOK kw → AttrsOf ["bits", "signed"] kw a → Dict.get? kw "bits" = some b →
      Flag kw "signed" s → Doc (.dict (node "int" kw)) (.int b s a)
  | float {kw b a} : KwOK kw → AttrsOf ["bits"] kw a → Dict.get? kw "bits" = some b →
      Doc (.dict (node "float" kw)) (.float b a)
  | string {kw b w a} : KwOK kw → AttrsOf ["bytes", "variable"] kw a → "bytes_" ∉ kw.keys →
      Dict.getD kw "bytes" .none = b → Flag kw "variable" w → Doc (.dict (node "string" kw)) (.string b w a)
  | bytes {kw b w a} : KwOK kw → AttrsOf ["bytes", "variable"] kw a → "bytes_" ∉ kw.keys →
      Dict.getD kw "bytes" .none = b → Flag kw "variable" w → Doc (.dict (node "bytes" kw)) (.bytes b w a)
  | list {kw v t l w a} : KwOK kw → AttrsOf ["values", "length", "variable"] kw a →
      Dict.get? kw "values" = some v → Doc v t → Dict.getD kw "length" .none = l → Flag kw "variable" w →
      Doc (.dict (node "list" kw)) (.list t l w a)
  | map {kw k v t u a} : KwOK kw → AttrsOf ["keys", "values"] kw a → Dict.get? kw "keys" = some k →
      Dict.get? kw "values" = some v → Doc k t → Doc v u → Doc (.dict (node "map" kw)) (.map t u a)
  | struct {kw xs ts a} : KwOK kw → AttrsOf ["fields"] kw a → Dict.get? kw "fields" = some (.list xs) →
      DocAll xs ts → Doc (.dict (node "struct" kw)) (.struct ts a)
  | enum {kw s a} : KwOK kw → AttrsOf ["symbols"] kw a → Dict.get? kw "symbols" = some s →
      Doc (.dict (node "enum" kw)) (.enum s a)
  | union {kw xs ts a} : KwOK kw → AttrsOf ["types"] kw a → Dict.get? kw "types" = some (.list xs) →
      DocAll xs ts → Doc (.dict (node "union" kw)) (.union ts a)
  | proxy {n kw r a} : KwOK kw → AttrsOf [] kw { a with alias := .none } → n ∉ coreNames →
      "alias" ∉ kw.keys → "registry" ∉ kw.keys → a.alias = .str n → Doc (.dict (node n kw)) (.proxy r a)
  | optional {n kw es u e} : Doc (.dict (node n kw)) u → n ≠ "union" → "type" ∉ kw.keys →
      (∀ k ∈ ["default", "name", "optional"], k ∉ kw.keys) → Sugar es e →
      Doc (.dict (node n (kw ++ es))) (.union [.null {}, u] { extra := e })
  | optionalUnion {kw xs ts a} : SugarUnion kw a → Dict.get? kw "types" = some (.list xs) →
      .str "null" ∉ xs → DocAll xs ts → Doc (.dict (node "union" kw)) (.union (.null {} :: ts) a)
inductive DocAll : List PyVal → List RType → Prop
  | nil : DocAll [] []
  | cons {x xs t ts} : Doc x t → DocAll xs ts → DocAll (x :: xs) (t :: ts)
end

/-! ## Binding keyword arguments -/

theorem KwOK.has {kw : Dict} (h : KwOK kw) : kw.has "self" = false ∧ kw.has "type_" = false :=
  ⟨Dict.has_eq_false_iff.mpr (h.special _ (by simp)), Dict.has_eq_false_iff.mpr (h.special _ (by simp))⟩

theorem mkAttrs_extraOf {kw : Dict} {names : List String} (h1 : kw.has "self" = false)
    (h2 : kw.has "type_" = false) :
    mkAttrs names kw = .ok
      { logical := kw.getD "logical" .none, alias := kw.getD "alias" .none, doc := kw.getD "doc" .none,
        extra := extraOf names kw } := by
  unfold mkAttrs extraOf
  rw [h1, h2]
  rfl

/-- What the constructor call binds is equal to the attributes. -/
theorem AttrsOf.bind {kw : Dict} {names : List String} {a : Attrs} (h : AttrsOf names kw a)
    (h1 : kw.has "self" = false) (h2 : kw.has "type_" = false) (hn : kw.keys.Nodup) (hr : RealAttrs a) :
    ∃ a', mkAttrs names kw = .ok a' ∧ RType.attrsEq a' a = true ∧ a'.alias = a.alias ∧ a'.extra.keys.Nodup := by
  refine ⟨_, mkAttrs_extraOf h1 h2, ?_, h.alias, hn.sublist (List.filter_sublist.map _)⟩
  unfold RType.attrsEq
  simp only [h.alias, h.logical, h.doc, h.extra, Bool.and_true, Bool.and_eq_true]
  exact ⟨⟨pyEq_refl _ hr.1, pyEq_refl _ hr.2.1⟩, pyEq_refl _ hr.2.2.1⟩

theorem extraOf_erase {kw : Dict} {names : List String} {k : String} :
    extraOf names (kw.erase k) = extraOf (k :: names) kw := by
  unfold extraOf Dict.erase
  rw [List.filter_filter]
  congr 1; funext kv
  by_cases h : kv.1 = k <;> simp [h]

theorem getD_erase {kw : Dict} {k k' : String} {v : PyVal} (h : k' ≠ k) :
    Dict.getD (kw.erase k') k v = Dict.getD kw k v := by
  unfold Dict.getD; rw [Dict.get?_erase_ne _ h]

theorem AttrsOf.erase {kw : Dict} {names : List String} {a : Attrs} {k : String} (h : AttrsOf (k :: names) kw a)
    (hk : k ∉ ["alias", "logical", "doc"]) : AttrsOf names (kw.erase k) a := by
  simp only [List.mem_cons, List.not_mem_nil, or_false, not_or] at hk
  exact ⟨by rw [getD_erase hk.1]; exact h.alias, by rw [getD_erase hk.2.1]; exact h.logical,
    by rw [getD_erase hk.2.2]; exact h.doc, by rw [extraOf_erase]; exact h.extra⟩

theorem has_erase {kw : Dict} {k k' : String} (h : kw.has k = false) : (kw.erase k').has k = false := by
  rw [Dict.has_eq_false_iff] at *
  intro hm
  exact h (Dict.mem_keys_erase.mp hm).1

theorem renameBytes_get? {kw : Dict} (hb : "bytes_" ∉ kw.keys) (k : String) :
    Dict.get? (renameBytes kw) k =
      if k = "bytes_" then Dict.get? kw "bytes" else if k = "bytes" then .none else Dict.get? kw k := by
  unfold renameBytes
  cases h : Dict.get? kw "bytes" with
  | none =>
    simp only
    split
    · subst_vars; exact Dict.get?_eq_none_iff.mpr hb
    · split
      · subst_vars; exact h
      · rfl
  | some v =>
    simp only
    by_cases h1 : k = "bytes_"
    · subst h1; rw [Dict.get?_set_self]; simp
    · rw [Dict.get?_set_ne _ _ (fun e => h1 e.symm), Dict.get?_erase]
      simp only [h1, if_false]
      by_cases h2 : k = "bytes"
      · simp [h2]
      · rw [if_neg (fun e => h2 e.symm), if_neg h2]

theorem renameBytes_extra {kw : Dict} (hb : "bytes_" ∉ kw.keys) :
    extraOf ["bytes_", "variable"] (renameBytes kw) = extraOf ["bytes", "variable"] kw := by
  have key : ∀ kv ∈ kw, kv.1 ≠ "bytes_" := fun kv hkv e => hb (e ▸ List.mem_map_of_mem hkv)
  unfold renameBytes
  cases h : Dict.get? kw "bytes" with
  | none =>
    simp only
    unfold extraOf
    apply List.filter_congr
    intro kv hkv
    have h1 := key kv hkv
    have h2 : kv.1 ≠ "bytes" := fun e => by
      have := Dict.get?_eq_none_iff.mp h
      exact this (e ▸ List.mem_map_of_mem hkv)
    simp [h1, h2]
  | some v =>
    simp only
    rw [Dict.set_of_not_mem _ (fun hm => hb (Dict.mem_keys_erase.mp hm).1)]
    unfold extraOf Dict.erase
    rw [List.filter_append, List.filter_filter]
    have : [("bytes_", v)].filter
      (fun kv => !(["bytes_", "variable"] ++ ["logical", "alias", "doc"]).contains kv.1) = [] := by simp
    rw [this, List.append_nil]
    apply List.filter_congr
    intro kv hkv
    have h1 := key kv hkv
    by_cases h2 : kv.1 = "bytes" <;> simp [h1, h2]

theorem AttrsOf.rename {kw : Dict} {a : Attrs} (h : AttrsOf ["bytes", "variable"] kw a)
    (hb : "bytes_" ∉ kw.keys) : AttrsOf ["bytes_", "variable"] (renameBytes kw) a := by
  have e : ∀ k, k ≠ "bytes_" → k ≠ "bytes" → Dict.getD (renameBytes kw) k .none = Dict.getD kw k .none := by
    intro k h1 h2
    unfold Dict.getD
    rw [renameBytes_get? hb, if_neg h1, if_neg h2]
  exact ⟨(e _ (by decide) (by decide)).trans h.alias, (e _ (by decide) (by decide)).trans h.logical,
    (e _ (by decide) (by decide)).trans h.doc, by rw [renameBytes_extra hb]; exact h.extra⟩

theorem KwOK.rename {kw : Dict} (h : KwOK kw) (hb : "bytes_" ∉ kw.keys) :
    (renameBytes kw).has "self" = false ∧ (renameBytes kw).has "type_" = false ∧ (renameBytes kw).keys.Nodup := by
  have e : ∀ k ∈ ["self", "type_"], Dict.has (renameBytes kw) k = false := by
    intro k hk
    have h0 := h.special k (by simp at hk ⊢; rcases hk with rfl | rfl <;> simp)
    unfold Dict.has
    rw [renameBytes_get? hb, if_neg (by rintro rfl; simp at hk), if_neg (by rintro rfl; simp at hk),
      Dict.get?_eq_none_iff.mpr h0]
    rfl
  refine ⟨e _ (by simp), e _ (by simp), ?_⟩
  unfold renameBytes
  split
  · exact Dict.nodup_keys_set _ _ (by rw [Dict.keys_erase]; exact h.nodup.filter _)
  · exact h.nodup

/-- Reading a dictionary without `optional`. -/
theorem fromDict_plain (n : String) (kw : Dict) (reg : Registry)
    (ht : "type" ∉ kw.keys) (ho : "optional" ∉ kw.keys) :
    fromDict (.dict (node n kw)) reg =
      (construct fromDict (.str n) kw reg >>= fun r => finish r.1 r.2) := by
  obtain ⟨t1, t2, t3⟩ := keyFree ht
  obtain ⟨o1, o2, o3⟩ := keyFree ho
  rw [fromDict_eq]
  have e1 : prepare (node n kw) = .ok (node n kw) := by
    simp [prepare, node, Dict.getD, Dict.get?_cons, o1, PyVal.isNone, PyVal.truthy, Dict.erase_cons, o3]
  have g1 : Dict.getD (node n kw) "type" .none = .str n := rfl
  have g3 : Dict.erase (node n kw) "type" = kw := by simp [node, Dict.erase_cons, t3]
  simp only [normalise, bind, Except.bind, e1, g1, g3]

theorem KwOK.plain {kw : Dict} (h : KwOK kw) {n : String} {u : RType} {reg reg1 reg' : Registry}
    (hc : construct fromDict (.str n) kw reg = .ok (u, reg1)) (hf : finish u reg1 = .ok (u, reg')) :
    fromDict (.dict (node n kw)) reg = .ok (u, reg') := by
  rw [fromDict_plain n kw reg (h.special _ (by simp)) (h.special _ (by simp)), hc]
  exact hf

/-! ## Reading -/

/-- What reading back a document for `t` gives: a type that is equal to `t`. -/
def ReadsAs (v : PyVal) (reg : Registry) (t : RType) : Prop :=
  ∃ t' reg', fromDict v reg = .ok (t', reg') ∧ RType.pyEq t' t = true ∧
    definedAliases t' = definedAliases t ∧ Bounded t' ∧ t'.attrs.extra.keys.Nodup

/-- The aliases of types that are not references are fully qualified. -/
def AliasesOK (t : RType) : Prop := ∀ u, Sub u t → u.isProxy = false →
  u.attrs.alias = .none ∨ ∃ s, u.attrs.alias = .str s ∧ FullyQualified s

theorem AliasesOK.sub {t u : RType} (h : AliasesOK t) (hs : Sub u t) : AliasesOK u :=
  fun w hw => h w (hw.trans hs)

theorem realType_sub {t u : RType} (h : RealType t) (hs : Sub u t) : RealType u :=
  fun w hw => h w (hw.trans hs)

/-- Registering the alias of the type read. -/
theorem finish_read {t : RType} {reg reg1 : Registry} {cs : List PyVal} (hp : t.isProxy = false)
    (ha : t.attrs.alias = .none ∨ ∃ s, t.attrs.alias = .str s ∧ FullyQualified s) (hb : Bounded t)
    (hd : definedAliases t = cs ++ own t.attrs) (hn : (definedAliases t).Nodup)
    (hf : ∀ s ∈ names reg, .str s ∉ definedAliases t)
    (hr : ∀ s ∈ names reg1, s ∈ names reg ∨ .str s ∈ cs) :
    ∃ reg', finish t reg1 = .ok (t, reg') := by
  refine finish_ok hb hp ?_
  rcases ha with h | ⟨s, h1, h2⟩
  · exact .inl h
  · refine .inr ⟨s, h1, h2, fun hm => ?_⟩
    have ho : own t.attrs = [.str s] := by simp [own, h1]
    rw [hd, ho] at hn hf
    rcases hr s hm with h | h
    · exact hf s h (by simp)
    · rw [List.nodup_append] at hn
      exact hn.2.2 _ h _ (by simp) rfl

theorem names_read {t' t : RType} {v : PyVal} {reg reg' : Registry} (h : fromDict v reg = .ok (t', reg'))
    (he : definedAliases t' = definedAliases t) :
    ∀ s ∈ names reg', s ∈ names reg ∨ .str s ∈ definedAliases t := by
  obtain ⟨new, h1, -, -, h2⟩ := C08_aliases_distinct_and_registered _ _ _ _ h
  intro s hs
  rw [h2] at hs
  rcases List.mem_append.mp hs with hs | hs
  · exact .inl hs
  · exact .inr (by rw [← he, h1]; exact List.mem_map_of_mem hs)

theorem own_of_alias {a b : Attrs} (h : a.alias = b.alias) : own a = own b := by simp [own, h]

theorem truthy_of_pyEq {v w : PyVal} (h : PyVal.pyEq v w = true) : v.truthy = w.truthy := by
  cases v <;> cases w <;> simp only [PyVal.pyEq, Bool.false_eq_true] at h <;> simp only [PyVal.truthy]
  · simpa using h
  · simp at h; subst h; rename_i b; cases b <;> simp [boolInt]
  · simp at h; subst h; rename_i b; cases b <;> simp [boolInt]
  · simp at h; rw [h]
  · simp at h; rw [h]
  · rename_i xs ys
    cases xs <;> cases ys <;> simp [PyVal.pyEqList] at h ⊢
  · rename_i xs ys
    cases xs <;> cases ys <;> simp at h ⊢

theorem sizeOK_of_pyEq {b v w : PyVal} (h : SizeOK b w) (he : PyVal.pyEq v w = true) : SizeOK b v := by
  rcases h with ⟨h1, h2⟩ | h
  · exact .inl ⟨h1, by rw [truthy_of_pyEq he]; exact h2⟩
  · exact .inr h

/-- Reading one leaf. -/
theorem read_leaf {n : String} {kw : Dict} {t t' : RType} {reg : Registry} (hk : KwOK kw)
    (hc : construct fromDict (.str n) kw reg = .ok (t', reg)) (hp : t.isProxy = false)
    (hp' : t'.isProxy = false) (he : RType.pyEq t' t = true) (hal : t'.attrs.alias = t.attrs.alias)
    (hd : definedAliases t = own t.attrs) (hd' : definedAliases t' = own t'.attrs) (hb : Bounded t')
    (hx : t'.attrs.extra.keys.Nodup) (ha : AliasesOK t) (hn : (definedAliases t).Nodup)
    (hf : ∀ s ∈ names reg, .str s ∉ definedAliases t) :
    ReadsAs (.dict (node n kw)) reg t := by
  have e : definedAliases t' = definedAliases t := by rw [hd, hd', own_of_alias hal]
  obtain ⟨reg', hfin⟩ := finish_read (t := t') (reg := reg) (reg1 := reg) (cs := []) hp'
    (by rw [hal]; exact ha t .refl hp) hb (by rw [hd']; rfl) (by rw [e]; exact hn) (by rw [e]; exact hf)
    (fun s hs => .inl hs)
  exact ⟨t', reg', hk.plain hc hfin, he, e, hb, hx⟩

theorem boundedAll_of {ts : List RType} : BoundedAll ts ↔ ∀ t ∈ ts, Bounded t := by
  induction ts with
  | nil => simp [BoundedAll]
  | cons t ts ih => simp [BoundedAll, ih]

theorem restored_eq (d : Dict) : restored d =
    (if (Dict.getD d "name" .none).isNone then [] else [("name", Dict.getD d "name" .none)]) ++
      [("default", Dict.getD d "default" .none)] := by
  unfold restored restoreField
  split <;> simp [Dict.set]

theorem extraOf_restored (d : Dict) : extraOf [] (restored d) = restored d := by
  rw [restored_eq]
  split <;> simp [extraOf]

theorem restored_base {d : Dict} {k : String} (h : k ∉ ["name", "default"]) : k ∉ (restored d).keys := by
  rw [restored_eq]
  split <;> simp_all [Dict.keys]

theorem restored_nodup (d : Dict) : (restored d).keys.Nodup := by
  rw [restored_eq]
  split <;> simp [Dict.keys]

/-- What the `optional` rewrite makes of an optional type. -/
theorem fromDict_optional {n : String} {kw es : Dict} {e : Dict} (reg : Registry) (hs : Sugar es e)
    (hu : n ≠ "union") (ht : "type" ∉ kw.keys)
    (hk : ∀ k ∈ ["default", "name", "optional"], k ∉ kw.keys) :
    fromDict (.dict (node n (kw ++ es))) reg =
      (parseAll fromDict [.str "null", .dict (node n kw)] reg >>= fun r =>
        .ok (.union r.1 { extra := restored es }, r.2)) := by
  have hk1 := hk "default" (by simp)
  have hk2 := hk "name" (by simp)
  have hk3 := hk "optional" (by simp)
  have g : ∀ k ∈ ["default", "name", "optional"], Dict.get? (node n (kw ++ es)) k = Dict.get? es k := by
    intro k hm
    have h1 : "type" ≠ k := by rintro rfl; simp at hm
    rw [Dict.get?_cons_ne _ _ h1, Dict.get?_append, Dict.get?_eq_none_iff.mpr (hk k hm)]
  have hes : Dict.erase (Dict.erase (Dict.erase es "optional") "name") "default" = [] := by
    unfold Dict.erase
    rw [List.filter_filter, List.filter_filter, List.filter_eq_nil_iff]
    intro kv hkv
    have := hs.keys kv.1 (List.mem_map_of_mem hkv)
    simp at this
    rcases this with h | h | h <;> simp [h]
  have er : Dict.erase (Dict.erase (Dict.erase (node n (kw ++ es)) "optional") "name") "default" = node n kw := by
    simp only [node, Dict.erase_cons, String.reduceEq, if_false, Dict.erase_append, hes,
      Dict.erase_of_not_mem hk3, Dict.erase_of_not_mem hk2, Dict.erase_of_not_mem hk1, List.append_nil]
  have w : wrapUnion (node n kw) = [("type", .str "union"), ("types", .list [.str "null", .dict (node n kw)])] := by
    unfold wrapUnion
    have : Dict.getD (node n kw) "type" .none = .str n := rfl
    rw [this]
    simp [PyVal.pyEq, hu]
  have en : ensureNull [("type", .str "union"), ("types", .list [.str "null", .dict (node n kw)])] =
      .ok [("type", .str "union"), ("types", .list [.str "null", .dict (node n kw)])] := by
    simp [ensureNull, Dict.get?_cons, PyVal.containsStr, PyVal.pyEq]
  have e1 : prepare (node n (kw ++ es)) =
      .ok (node "union" (("types", .list [.str "null", .dict (node n kw)]) :: restored es)) := by
    have t1 : Dict.getD (node n (kw ++ es)) "type" .none = .str n := rfl
    have t2 : Dict.getD (node n (kw ++ es)) "optional" (.bool false) = .bool true := by
      unfold Dict.getD; rw [g _ (by simp), hs.optional]; rfl
    unfold prepare
    rw [t1, t2]
    simp only [PyVal.isNone, PyVal.truthy, Bool.false_eq_true, if_false, if_true, desugarOptional, er, w, en,
      bind, Except.bind, pure, Except.pure]
    congr 1
    have n1 : Dict.getD (node n (kw ++ es)) "name" .none = Dict.getD es "name" .none := by
      unfold Dict.getD; rw [g _ (by simp)]
    have n2 : Dict.getD (node n (kw ++ es)) "default" .none = Dict.getD es "default" .none := by
      unfold Dict.getD; rw [g _ (by simp)]
    rw [n1, n2, restored_eq]
    unfold restoreField
    split <;> simp [Dict.set]
  have c2 : Dict.getD (node "union" (("types", .list [.str "null", .dict (node n kw)]) :: restored es)) "type" .none
      = .str "union" := rfl
  have c3 : Dict.erase (node "union" (("types", .list [.str "null", .dict (node n kw)]) :: restored es)) "type" =
      ("types", .list [.str "null", .dict (node n kw)]) :: restored es := by
    simp only [node, Dict.erase_cons, if_true, String.reduceEq, if_false]
    rw [Dict.erase_of_not_mem (restored_base (by simp))]
  rw [fromDict_eq]
  simp only [normalise, bind, Except.bind, e1, c2, c3]
  rw [construct_union]
  simp only [Dict.get?_cons, if_true, PyVal.iter, bind, Except.bind]
  cases parseAll fromDict [.str "null", .dict (node n kw)] reg with
  | error e => rfl
  | ok r =>
    simp only
    have er2 : Dict.erase (("types", .list [.str "null", .dict (node n kw)]) :: restored es) "types" = restored es := by
      rw [Dict.erase_cons, if_pos rfl, Dict.erase_of_not_mem (restored_base (by simp))]
    rw [er2, mkAttrs_extraOf (Dict.has_eq_false_iff.mpr (restored_base (by simp)))
      (Dict.has_eq_false_iff.mpr (restored_base (by simp))), extraOf_restored]
    have gg : ∀ k ∈ ["logical", "alias", "doc"], Dict.getD (restored es) k .none = .none := by
      intro k hk
      unfold Dict.getD
      rw [Dict.get?_eq_none_iff.mpr (restored_base (by rintro h; simp at hk h; rcases hk with rfl | rfl | rfl <;> simp at h))]
      rfl
    rw [gg _ (by simp), gg _ (by simp), gg _ (by simp)]
    simp only [pure, Except.pure]
    rw [finish_plain (by rfl) (by rfl)]

theorem popped_get? {kw : Dict} (k : String) (h : k ∉ ["optional", "name", "default"]) :
    Dict.get? (Dict.erase (Dict.erase (Dict.erase kw "optional") "name") "default") k = Dict.get? kw k := by
  simp only [List.mem_cons, List.not_mem_nil, or_false, not_or] at h
  rw [Dict.get?_erase_ne _ (fun e => h.2.2 e.symm), Dict.get?_erase_ne _ (fun e => h.2.1 e.symm),
    Dict.get?_erase_ne _ (fun e => h.1 e.symm)]

theorem popped_keys {kw : Dict} {k : String}
    (h : k ∈ (Dict.erase (Dict.erase (Dict.erase kw "optional") "name") "default").keys) :
    k ∈ kw.keys ∧ k ∉ ["optional", "name", "default"] := by
  obtain ⟨h, h1⟩ := Dict.mem_keys_erase.mp h
  obtain ⟨h, h2⟩ := Dict.mem_keys_erase.mp h
  obtain ⟨h, h3⟩ := Dict.mem_keys_erase.mp h
  exact ⟨h, by simp [h1, h2, h3]⟩

/-- Setting the field attributes of a dictionary that has none. -/
theorem restoreField_append {d : Dict} (e : Dict) (h1 : "name" ∉ d.keys) (h2 : "default" ∉ d.keys) :
    restoreField (Dict.getD e "name" .none) (Dict.getD e "default" .none) d = d ++ restored e := by
  rw [restored_eq]
  unfold restoreField
  split
  · rw [Dict.set_of_not_mem _ h2]; simp
  · rw [Dict.set_of_not_mem _ h1, Dict.set_of_not_mem]
    · simp
    · simp [h2, Dict.keys]
      simpa [Dict.keys] using h2

/-- What the `optional` rewrite makes of an optional union. -/
theorem fromDict_optionalUnion {kw : Dict} {a : Attrs} {xs : List PyVal} (reg : Registry) (hs : SugarUnion kw a)
    (ht : Dict.get? kw "types" = some (.list xs)) (hx : .str "null" ∉ xs) :
    fromDict (.dict (node "union" kw)) reg =
      (parseAll fromDict (.str "null" :: xs) reg >>= fun r =>
        finish (.union r.1 { a with extra := restored kw }) r.2) := by
  have kt : "type" ∉ kw.keys := fun h => by have := hs.keys _ h; simp at this
  have k1 : "self" ∉ kw.keys := fun h => by have := hs.keys _ h; simp at this
  have k2 : "type_" ∉ kw.keys := fun h => by have := hs.keys _ h; simp at this
  have g : ∀ k, k ≠ "type" → Dict.get? (node "union" kw) k = Dict.get? kw k :=
    fun k h => Dict.get?_cons_ne _ _ (fun e => h e.symm)
  let p : Dict := Dict.erase (Dict.erase (Dict.erase kw "optional") "name") "default"
  have er : Dict.erase (Dict.erase (Dict.erase (node "union" kw) "optional") "name") "default" = node "union" p := by
    simp only [node, Dict.erase_cons, String.reduceEq, if_false, p]
  have pt : Dict.get? p "types" = some (.list xs) := by
    show Dict.get? (Dict.erase _ _) _ = _
    rw [popped_get? _ (by simp), ht]
  have pn : ∀ k ∈ ["name", "default", "optional"], k ∉ p.keys := by
    intro k hk hm
    have := (popped_keys hm).2
    simp at hk this
    rcases hk with rfl | rfl | rfl <;> simp at this
  have ptype : "type" ∉ p.keys := fun h => kt (popped_keys h).1
  have w : wrapUnion (node "union" p) = node "union" p := by
    unfold wrapUnion
    have : Dict.getD (node "union" p) "type" .none = .str "union" := rfl
    rw [this]
    simp [PyVal.pyEq]
  have cn : PyVal.containsStr (.list xs) "null" = .ok false := by
    simp only [PyVal.containsStr, Except.ok.injEq, List.any_eq_false]
    intro x hm
    cases x <;> simp [PyVal.pyEq]
    rintro rfl
    exact hx hm
  have en : ensureNull (node "union" p) = .ok (node "union" (p.set "types" (.list (.str "null" :: xs)))) := by
    unfold ensureNull
    rw [Dict.get?_cons_ne _ _ (by decide), pt]
    simp only [cn, node, Dict.set, String.reduceEq, if_false]
  have ks : ∀ k, k ∈ (Dict.set p "types" (.list (.str "null" :: xs))).keys ↔ k ∈ p.keys := by
    intro k
    have : "types" ∈ p.keys := by rw [← Dict.has_iff]; simp [Dict.has, pt]
    rw [Dict.keys_set, if_pos this]
  have e1 : prepare (node "union" kw) =
      .ok (node "union" (p.set "types" (.list (.str "null" :: xs)) ++ restored kw)) := by
    have t1 : Dict.getD (node "union" kw) "type" .none = .str "union" := rfl
    have t2 : Dict.getD (node "union" kw) "optional" (.bool false) = .bool true := by
      unfold Dict.getD; rw [g _ (by simp), hs.optional]; rfl
    unfold prepare
    rw [t1, t2]
    simp only [PyVal.isNone, PyVal.truthy, Bool.false_eq_true, if_false, if_true, desugarOptional, er, w, en,
      bind, Except.bind, pure, Except.pure]
    congr 1
    have n1 : Dict.getD (node "union" kw) "name" .none = Dict.getD kw "name" .none := by
      unfold Dict.getD; rw [g _ (by simp)]
    have n2 : Dict.getD (node "union" kw) "default" .none = Dict.getD kw "default" .none := by
      unfold Dict.getD; rw [g _ (by simp)]
    rw [n1, n2, restoreField_append]
    · simp
    · simp only [Dict.keys_cons, List.mem_cons, not_or, ks]
      exact ⟨by decide, pn _ (by simp)⟩
    · simp only [Dict.keys_cons, List.mem_cons, not_or, ks]
      exact ⟨by decide, pn _ (by simp)⟩
  have c2 : Dict.getD (node "union" (p.set "types" (.list (.str "null" :: xs)) ++ restored kw)) "type" .none
      = .str "union" := rfl
  have c3 : Dict.erase (node "union" (p.set "types" (.list (.str "null" :: xs)) ++ restored kw)) "type" =
      p.set "types" (.list (.str "null" :: xs)) ++ restored kw := by
    simp only [node, Dict.erase_cons, if_true]
    rw [Dict.erase_of_not_mem]
    simp only [Dict.keys_append, List.mem_append, not_or, ks]
    exact ⟨ptype, restored_base (by simp)⟩
  rw [fromDict_eq]
  simp only [normalise, bind, Except.bind, e1, c2, c3]
  rw [construct_union, Dict.get?_append, Dict.get?_set_self]
  simp only [PyVal.iter, bind, Except.bind]
  cases parseAll fromDict (.str "null" :: xs) reg with
  | error e => rfl
  | ok r =>
    simp only
    have er2 : Dict.erase (p.set "types" (.list (.str "null" :: xs)) ++ restored kw) "types" =
        p.erase "types" ++ restored kw := by
      rw [Dict.erase_append, Dict.erase_of_not_mem (restored_base (by simp))]
      congr 1
      have : ∀ (d : Dict) (v : PyVal), Dict.erase (Dict.set d "types" v) "types" = Dict.erase d "types" := by
        intro d v
        induction d with
        | nil => simp [Dict.set, Dict.erase_cons]
        | cons kv d ih =>
          obtain ⟨k, x⟩ := kv
          simp only [Dict.set]
          by_cases hk : k = "types"
          · simp [hk, Dict.erase_cons]
          · simp [hk, Dict.erase_cons, ih]
      exact this p _
    have hh : ∀ k ∈ ["self", "type_"], Dict.has (p.erase "types" ++ restored kw) k = false := by
      intro k hk
      rw [Dict.has_eq_false_iff]
      simp only [Dict.keys_append, List.mem_append, not_or]
      refine ⟨fun h => ?_, restored_base (by simp at hk ⊢; rcases hk with rfl | rfl <;> simp)⟩
      have := (popped_keys (Dict.mem_keys_erase.mp h).1).1
      simp at hk
      rcases hk with rfl | rfl
      · exact k1 this
      · exact k2 this
    have ex : extraOf [] (p.erase "types" ++ restored kw) = restored kw := by
      conv => rhs; rw [← extraOf_restored]
      unfold extraOf
      rw [List.filter_append]
      have : (p.erase "types").filter (fun kv => !([] ++ ["logical", "alias", "doc"]).contains kv.1) = [] := by
        rw [List.filter_eq_nil_iff]
        intro kv hkv
        obtain ⟨h1, h2⟩ := Dict.mem_keys_erase.mp (List.mem_map_of_mem hkv)
        obtain ⟨h3, h4⟩ := popped_keys h1
        have := hs.keys _ h3
        simp at this h4 h2 ⊢
        grind
      rw [this, List.nil_append]
    have gg : ∀ k ∈ ["logical", "alias", "doc"],
        Dict.getD (p.erase "types" ++ restored kw) k .none = Dict.getD kw k .none := by
      intro k hk
      have h1 : k ∉ ["name", "default"] := by simp at hk ⊢; rcases hk with rfl | rfl | rfl <;> simp
      have h2 : k ∉ ["optional", "name", "default"] := by simp at hk ⊢; rcases hk with rfl | rfl | rfl <;> simp
      have h3 : "types" ≠ k := by rintro rfl; simp at hk
      unfold Dict.getD
      rw [Dict.get?_append, Dict.get?_eq_none_iff.mpr (restored_base h1), Dict.get?_erase_ne _ h3]
      show (match Dict.get? (Dict.erase _ _) k with | some v => some v | .none => .none).getD _ = _
      rw [popped_get? _ h2]
      cases Dict.get? kw k <;> rfl
    rw [er2, mkAttrs_extraOf (hh _ (by simp)) (hh _ (by simp)), ex, gg _ (by simp), gg _ (by simp),
      gg _ (by simp), hs.alias, hs.logical, hs.doc]
    rfl

end Recap
