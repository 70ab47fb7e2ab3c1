import Verif.CompactClean

/-! # What `to_dict` writes is a document for the type: lemmas for C02 – C05 -/

set_option autoImplicit false

namespace Recap

open Spec

/-! ## Before post-processing -/

theorem written_attrs {t : RType} (h : NodeOK t) (hr : RealType t) {ps : Dict} {names : List String}
    (hps : ∀ k ∈ ps.keys, k ∈ names) (hn : ps.keys.Nodup)
    (hnames : ∀ k ∈ names, k ∉ ["alias", "logical", "doc", "self", "type_", "type", "optional"])
    (hres : ∀ k ∈ names, k ∈ reservedKeys t) :
    KwOK (attrDict t.attrs ++ ps) ∧ AttrsOf names (attrDict t.attrs ++ ps) t.attrs := by
  have hm := mk_of_node (names := names) (ps := ps) h hps
    (fun k hk hm => hnames k hk (by simp at hm ⊢; grind)) (fun k hk => .inl (hres k hk))
  have hfree : ∀ k ∈ ["alias", "logical", "doc", "type", "optional", "self", "type_"], k ∉ t.attrs.extra.keys :=
    fun k hk => NodeOK.free h (reserved_base t k (by simp at hk ⊢; grind))
  have hk : KwOK (attrDict t.attrs ++ ps) := by
    constructor
    · rw [Dict.keys_append, List.nodup_append]
      refine ⟨?_, hn, ?_⟩
      · unfold attrDict
        rw [Dict.keys_append, List.nodup_append]
        refine ⟨by simp [Dict.keys], h.1, ?_⟩
        rintro k hk _ hm rfl
        exact hfree k (by simp [Dict.keys] at hk ⊢; grind) hm
      · rintro k hk _ hm rfl
        have h1 := hps _ hm
        rcases attrDict_keys hk with e | e | e | e
        · subst e; exact hnames _ h1 (by simp)
        · subst e; exact hnames _ h1 (by simp)
        · subst e; exact hnames _ h1 (by simp)
        · exact NodeOK.free h (hres _ h1) e
    · intro k hk hm
      rw [Dict.keys_append, List.mem_append] at hm
      rcases hm with hm | hm
      · rcases attrDict_keys hm with e | e | e | e
        · subst e; simp at hk
        · subst e; simp at hk
        · subst e; simp at hk
        · exact hfree k (by simp at hk ⊢; grind) e
      · exact hnames _ (hps _ hm) (by simp at hk ⊢; grind)
  refine ⟨hk, ?_⟩
  rw [mkAttrs_extraOf hk.has.1 hk.has.2] at hm
  injection hm with hm
  have g1 := congrArg Attrs.alias hm
  have g2 := congrArg Attrs.logical hm
  have g3 := congrArg Attrs.doc hm
  have g4 := congrArg Attrs.extra hm
  refine ⟨g1, g2, g3, ?_⟩
  simp only at g4
  rw [g4]
  have := hr.attrs.2.2.2
  have e := pyEq_refl _ this
  simpa only [PyVal.pyEq, Dict.pyEq] using e

theorem get?_written {t : RType} (h : NodeOK t) {ps : Dict} {k : String} (hk : k ∈ reservedKeys t)
    (hb : k ∉ ["alias", "logical", "doc"]) : Dict.get? (attrDict t.attrs ++ ps) k = Dict.get? ps k :=
  get?_attrDict_other hb (NodeOK.free h hk)

theorem set_written {t : RType} (h : NodeOK t) {n : String} {ps : Dict} {k : String} {v : PyVal}
    (hk : k ∈ reservedKeys t) (hb : k ∉ ["type", "alias", "logical", "doc"]) (hp : k ∉ ps.keys) :
    Dict.set (node n (attrDict t.attrs ++ ps)) k v = node n (attrDict t.attrs ++ (ps ++ [(k, v)])) :=
  set_attrDict hb (NodeOK.free h hk) hp

theorem base_written {t : RType} (h : NodeOK t) : baseDict t = node t.typeName (attrDict t.attrs ++ []) := by
  rw [base_of_node h, List.append_nil]

theorem coreNames_iff (n : String) : n ∈ coreNames ↔ n ∈ coreTypeNames := by
  simp only [coreNames, coreTypeNames, List.mem_cons, List.not_mem_nil, or_false]
  try grind

/-- The dictionary written for a type, given what is written for the types in it. -/
def written : RType → List PyVal → Dict
  | .int b s a, _ => node "int" (attrDict a ++ [("bits", b), ("signed", s)])
  | .float b a, _ => node "float" (attrDict a ++ [("bits", b)])
  | .string b v a, _ => node "string" (attrDict a ++ [("bytes", b), ("variable", v)])
  | .bytes b v a, _ => node "bytes" (attrDict a ++ [("bytes", b), ("variable", v)])
  | .list _ l v a, vs => node "list" (attrDict a ++ [("values", vs.headD .none), ("length", l), ("variable", v)])
  | .map _ _ a, vs => node "map" (attrDict a ++ [("keys", vs.headD .none), ("values", vs.tail.headD .none)])
  | .struct _ a, vs => node "struct" (attrDict a ++ [("fields", .list vs)])
  | .enum s a, _ => node "enum" (attrDict a ++ [("symbols", s)])
  | .union _ a, vs => node "union" (attrDict a ++ [("types", .list vs)])
  | .proxy _ a, _ => ("type", a.alias) :: ("logical", a.logical) :: ("doc", a.doc) :: a.extra
  | .null a, _ => node "null" (attrDict a ++ [])
  | .bool a, _ => node "bool" (attrDict a ++ [])

/-- `to_dict` writes the nested types first. -/
theorem toDict_written (clean alias : Bool) (t : RType) (h : NodeOK t) :
    toDict clean alias t =
      (toDictList clean alias (children t) >>= fun vs => postProcess clean alias (written t vs)) := by
  have hb := base_written h
  cases t with
  | null a => simp only [toDict, children, toDictList, written, hb]; rfl
  | bool a => simp only [toDict, children, toDictList, written, hb]; rfl
  | int b s a =>
    simp only [toDict, children, toDictList, written, hb]
    rw [set_written h (by simp [reservedKeys]) (by simp) (by simp),
      set_written h (by simp [reservedKeys]) (by simp) (by simp [Dict.keys])]
    rfl
  | float b a =>
    simp only [toDict, children, toDictList, written, hb]
    rw [set_written h (by simp [reservedKeys]) (by simp) (by simp)]
    rfl
  | string b v a =>
    simp only [toDict, children, toDictList, written, hb]
    rw [set_written h (by simp [reservedKeys]) (by simp) (by simp),
      set_written h (by simp [reservedKeys]) (by simp) (by simp [Dict.keys])]
    rfl
  | bytes b v a =>
    simp only [toDict, children, toDictList, written, hb]
    rw [set_written h (by simp [reservedKeys]) (by simp) (by simp),
      set_written h (by simp [reservedKeys]) (by simp) (by simp [Dict.keys])]
    rfl
  | enum s a =>
    simp only [toDict, children, toDictList, written, hb]
    rw [set_written h (by simp [reservedKeys]) (by simp) (by simp)]
    rfl
  | list t l v a =>
    simp only [toDict, children, toDictList, written, hb]
    cases ht : toDict clean alias t with
    | error e => simp only [bind, Except.bind]
    | ok v' =>
      simp only [bind, Except.bind, pure, Except.pure, List.headD_cons]
      rw [set_written h (by simp [reservedKeys]) (by simp) (by simp),
        set_written h (by simp [reservedKeys]) (by simp) (by simp [Dict.keys]),
        set_written h (by simp [reservedKeys]) (by simp) (by simp [Dict.keys])]
      rfl
  | map k v a =>
    simp only [toDict, children, toDictList, written, hb]
    cases ht : toDict clean alias k with
    | error e => simp only [bind, Except.bind]
    | ok k' =>
      simp only [bind, Except.bind, pure, Except.pure]
      cases hv : toDict clean alias v with
      | error e => simp only
      | ok v' =>
        simp only [List.headD_cons, List.tail_cons]
        rw [set_written h (by simp [reservedKeys]) (by simp) (by simp),
          set_written h (by simp [reservedKeys]) (by simp) (by simp [Dict.keys])]
        rfl
  | struct ts a =>
    simp only [toDict, children, written, hb]
    congr 1; funext vs
    rw [set_written h (by simp [reservedKeys]) (by simp) (by simp)]
    rfl
  | union ts a =>
    simp only [toDict, children, written, hb]
    congr 1; funext vs
    rw [set_written h (by simp [reservedKeys]) (by simp) (by simp)]
    rfl
  | proxy r a =>
    simp only [toDict, children, toDictList, written]
    have f1 : "alias" ∉ a.extra.keys := NodeOK.free h (by simp [reservedKeys])
    rw [base_of_node h]
    have e1 : Dict.set (Dict.erase (("type", .str "proxy") :: attrDict a) "alias") "type"
        (Dict.getD (("type", .str "proxy") :: attrDict a) "alias" .none) =
        ("type", a.alias) :: ("logical", a.logical) :: ("doc", a.doc) :: a.extra := by
      simp only [attrDict, List.cons_append, List.nil_append, Dict.erase_cons]
      simp [Dict.erase_of_not_mem f1, Dict.set, Dict.getD, Dict.get?_cons]
    simp only [RType.attrs, RType.typeName]
    rw [e1]
    rfl

/-- The dictionary written for a type is a document for it. -/
theorem doc_written {t : RType} {vs : List PyVal} (h : NodeOK t) (hr : RealType t)
    (hd : DocAll vs (children t)) : Doc (.dict (written t vs)) t := by
  cases t with
  | null a =>
    obtain ⟨h1, h2⟩ := written_attrs (ps := []) (names := []) h hr (by simp) (by simp) (by simp) (by simp)
    exact .null h1 h2
  | bool a =>
    obtain ⟨h1, h2⟩ := written_attrs (ps := []) (names := []) h hr (by simp) (by simp) (by simp) (by simp)
    exact .bool h1 h2
  | int b s a =>
    obtain ⟨h1, h2⟩ := written_attrs (ps := [("bits", b), ("signed", s)]) (names := ["bits", "signed"]) h hr
      (by simp [Dict.keys]) (by simp [Dict.keys]) (by simp) (by simp [reservedKeys])
    refine .int h1 h2 (get?_written h (by simp [reservedKeys]) (by simp)) ?_
    unfold Flag Dict.getD
    have := get?_written (ps := [("bits", b), ("signed", s)]) (k := "signed") h (by simp [reservedKeys]) (by simp)
    rw [show RType.attrs (.int b s a) = a from rfl] at this
    rw [this]
    simp only [Dict.get?_cons, String.reduceEq, if_false, if_true, Option.getD_some]
    exact pyEq_refl _ (hr.param (k := "signed") (by simp [params]))
  | float b a =>
    obtain ⟨h1, h2⟩ := written_attrs (ps := [("bits", b)]) (names := ["bits"]) h hr
      (by simp [Dict.keys]) (by simp [Dict.keys]) (by simp) (by simp [reservedKeys])
    exact .float h1 h2 (get?_written h (by simp [reservedKeys]) (by simp))
  | string b v a =>
    obtain ⟨h1, h2⟩ := written_attrs (ps := [("bytes", b), ("variable", v)]) (names := ["bytes", "variable"]) h hr
      (by simp [Dict.keys]) (by simp [Dict.keys]) (by simp) (by simp [reservedKeys])
    have e1 := get?_written (ps := [("bytes", b), ("variable", v)]) (k := "bytes") h (by simp [reservedKeys]) (by simp)
    have e2 := get?_written (ps := [("bytes", b), ("variable", v)]) (k := "variable") h (by simp [reservedKeys])
      (by simp)
    have e3 := get?_written (ps := [("bytes", b), ("variable", v)]) (k := "bytes_") h (by simp [reservedKeys])
      (by simp)
    rw [show RType.attrs (.string b v a) = a from rfl] at e1 e2 e3
    refine .string h1 h2 (Dict.get?_eq_none_iff.mp e3) ?_ ?_
    · unfold Dict.getD; rw [e1]; rfl
    · unfold Flag Dict.getD
      rw [e2]
      simp only [Dict.get?_cons, String.reduceEq, if_false, if_true, Option.getD_some]
      exact pyEq_refl _ (hr.param (k := "variable") (by simp [params]))
  | bytes b v a =>
    obtain ⟨h1, h2⟩ := written_attrs (ps := [("bytes", b), ("variable", v)]) (names := ["bytes", "variable"]) h hr
      (by simp [Dict.keys]) (by simp [Dict.keys]) (by simp) (by simp [reservedKeys])
    have e1 := get?_written (ps := [("bytes", b), ("variable", v)]) (k := "bytes") h (by simp [reservedKeys]) (by simp)
    have e2 := get?_written (ps := [("bytes", b), ("variable", v)]) (k := "variable") h (by simp [reservedKeys])
      (by simp)
    have e3 := get?_written (ps := [("bytes", b), ("variable", v)]) (k := "bytes_") h (by simp [reservedKeys])
      (by simp)
    rw [show RType.attrs (.bytes b v a) = a from rfl] at e1 e2 e3
    refine .bytes h1 h2 (Dict.get?_eq_none_iff.mp e3) ?_ ?_
    · unfold Dict.getD; rw [e1]; rfl
    · unfold Flag Dict.getD
      rw [e2]
      simp only [Dict.get?_cons, String.reduceEq, if_false, if_true, Option.getD_some]
      exact pyEq_refl _ (hr.param (k := "variable") (by simp [params]))
  | enum s a =>
    obtain ⟨h1, h2⟩ := written_attrs (ps := [("symbols", s)]) (names := ["symbols"]) h hr
      (by simp [Dict.keys]) (by simp [Dict.keys]) (by simp) (by simp [reservedKeys])
    exact .enum h1 h2 (get?_written h (by simp [reservedKeys]) (by simp))
  | list t l v a =>
    cases hd with
    | cons hd hnil =>
      cases hnil
      rename_i x
      let ps : Dict := [("values", x), ("length", l), ("variable", v)]
      obtain ⟨h1, h2⟩ := written_attrs (ps := ps) (names := ["values", "length", "variable"]) h hr
        (by simp [ps, Dict.keys]) (by simp [ps, Dict.keys]) (by simp) (by simp [reservedKeys])
      have e1 := get?_written (ps := ps) (k := "length") h (by simp [reservedKeys]) (by simp)
      have e2 := get?_written (ps := ps) (k := "variable") h (by simp [reservedKeys]) (by simp)
      rw [show RType.attrs (.list t l v a) = a from rfl] at e1 e2
      refine .list h1 h2 (get?_written h (by simp [reservedKeys]) (by simp)) hd ?_ ?_
      · show (Dict.get? (attrDict a ++ ps) "length").getD .none = l
        rw [e1]; rfl
      · show PyVal.pyEq ((Dict.get? (attrDict a ++ ps) "variable").getD (.bool true)) v = true
        rw [e2]
        simp only [ps, Dict.get?_cons, String.reduceEq, if_false, if_true, Option.getD_some]
        exact pyEq_refl _ (hr.param (k := "variable") (by simp [params]))
  | map k v a =>
    cases hd with
    | cons hd hd2 =>
      cases hd2 with
      | cons hd2 hnil =>
        cases hnil
        rename_i x y
        let ps : Dict := [("keys", x), ("values", y)]
        obtain ⟨h1, h2⟩ := written_attrs (ps := ps) (names := ["keys", "values"]) h hr
          (by simp [ps, Dict.keys]) (by simp [ps, Dict.keys]) (by simp) (by simp [reservedKeys])
        exact .map h1 h2 (get?_written h (by simp [reservedKeys]) (by simp))
          (get?_written h (by simp [reservedKeys]) (by simp)) hd hd2
  | struct ts a =>
    obtain ⟨h1, h2⟩ := written_attrs (ps := [("fields", .list vs)]) (names := ["fields"]) h hr
      (by simp [Dict.keys]) (by simp [Dict.keys]) (by simp) (by simp [reservedKeys])
    exact .struct h1 h2 (get?_written h (by simp [reservedKeys]) (by simp)) hd
  | union ts a =>
    obtain ⟨h1, h2⟩ := written_attrs (ps := [("types", .list vs)]) (names := ["types"]) h hr
      (by simp [Dict.keys]) (by simp [Dict.keys]) (by simp) (by simp [reservedKeys])
    exact .union h1 h2 (get?_written h (by simp [reservedKeys]) (by simp)) hd
  | proxy r a =>
    obtain ⟨n, hal, hcore⟩ : ∃ n, a.alias = .str n ∧ n ∉ coreTypeNames := by
      have := h.2.2
      simpa [RType.isProxy, RType.attrs] using this
    have hfree : ∀ k ∈ ["alias", "logical", "doc", "type", "optional", "self", "type_", "registry"],
        k ∉ a.extra.keys := fun k hk => NodeOK.free h (by
      simp only [reservedKeys]
      simp at hk ⊢
      grind)
    simp only [written, hal]
    have hnd : Dict.keys (("logical", a.logical) :: ("doc", a.doc) :: a.extra) =
        "logical" :: "doc" :: a.extra.keys := rfl
    refine .proxy ⟨?_, ?_⟩ ⟨?_, ?_, ?_, ?_⟩ (by rw [coreNames_iff]; exact hcore) ?_ ?_ hal
    · rw [hnd]
      simp only [List.nodup_cons, List.mem_cons, not_or]
      exact ⟨⟨by decide, hfree _ (by simp)⟩, hfree _ (by simp), h.1⟩
    · intro k hk
      rw [hnd]
      simp only [List.mem_cons, not_or]
      refine ⟨by rintro rfl; simp at hk, by rintro rfl; simp at hk, hfree k (by simp at hk ⊢; grind)⟩
    · simp only [Dict.getD, Dict.get?_cons, String.reduceEq, if_false]
      rw [Dict.get?_eq_none_iff.mpr (hfree _ (by simp))]; rfl
    · rfl
    · rfl
    · have : extraOf [] (("logical", a.logical) :: ("doc", a.doc) :: a.extra) = a.extra := by
        unfold extraOf
        rw [List.filter_cons_of_neg (by simp), List.filter_cons_of_neg (by simp), List.filter_eq_self]
        intro kv hkv
        have h1 : kv.1 ≠ "logical" := fun e => hfree "logical" (by simp) (e ▸ List.mem_map_of_mem hkv)
        have h2 : kv.1 ≠ "doc" := fun e => hfree "doc" (by simp) (e ▸ List.mem_map_of_mem hkv)
        have h3 : kv.1 ≠ "alias" := fun e => hfree "alias" (by simp) (e ▸ List.mem_map_of_mem hkv)
        simp [h1, h2, h3]
      rw [this]
      have := hr.attrs.2.2.2
      have e := pyEq_refl _ this
      simp only [RType.attrs] at e
      simpa only [PyVal.pyEq, Dict.pyEq] using e
    · rw [hnd]; simp only [List.mem_cons, not_or]; exact ⟨by decide, by decide, hfree _ (by simp)⟩
    · rw [hnd]; simp only [List.mem_cons, not_or]; exact ⟨by decide, by decide, hfree _ (by simp)⟩

/-! ## Cleaned documents -/

theorem size_child {t c : RType} (h : c ∈ children t) : sizeOf c < sizeOf t := by
  cases t <;> simp only [children, List.not_mem_nil, List.mem_cons, or_false] at h
  · subst h; simp +arith
  · rcases h with rfl | rfl <;> simp +arith
  · have := List.sizeOf_lt_of_mem h; simp +arith; omega
  · have := List.sizeOf_lt_of_mem h; simp +arith; omega

theorem toDictList_of {clean alias : Bool} (f : RType → RType) : ∀ (ts : List RType),
    (∀ t ∈ ts, ∃ v, toDict clean alias t = .ok v ∧ Doc v (f t)) →
    ∃ vs, toDictList clean alias ts = .ok vs ∧ DocAll vs (ts.map f)
  | [], _ => ⟨[], by simp only [toDictList], .nil⟩
  | t :: ts, h => by
    obtain ⟨v, h1, h2⟩ := h t (by simp)
    obtain ⟨vs, h3, h4⟩ := toDictList_of f ts (fun u hu => h u (by simp [hu]))
    exact ⟨v :: vs, by simp only [toDictList, h1, h3, bind, Except.bind, pure, Except.pure], .cons h2 h4⟩

/-- `to_dict` without aliases writes a document for the type. -/
theorem toDict_clean (t : RType) (h : ∀ u, Sub u t → NodeOK u) (hr : RealType t) (ht : Tidy t) :
    ∃ v, toDict true false t = .ok v ∧ Doc v t := by
  obtain ⟨vs, h1, h2⟩ := toDictList_of (clean := true) (alias := false) id (children t) (fun c hc => by
    have := size_child hc
    exact toDict_clean c (fun u hu => h u (hu.trans (.child hc))) (hr.child hc) (ht.sub (.child hc)))
  rw [List.map_id] at h2
  rw [toDict_written _ _ _ (h _ .refl), h1]
  simp only [bind, Except.bind, postProcess, Bool.false_eq_true, if_false, if_true, pure, Except.pure]
  exact (doc_written (h _ .refl) hr h2).clean ht
termination_by sizeOf t

end Recap
