import Verif.RoundTrip

/-! # Writing and reading back without compaction: C01 -/

namespace Recap

open Spec

/-! ## Helper lemmas -/

theorem postProcess_plain (d : Dict) : postProcess false false d = .ok (.dict d) := rfl

/-- The last step of reading back a type that is not a reference. -/
theorem finish_close {t : RType} {reg reg1 : Registry} {cs : List PyVal} (ht : NodeOK t)
    (hp : t.isProxy = false) (hb : Bounded t)
    (hd : definedAliases t = cs ++ own t.attrs) (hn : (definedAliases t).Nodup)
    (hf : ∀ s ∈ names reg, .str s ∉ definedAliases t)
    (hr : ∀ s ∈ names reg1, s ∈ names reg ∨ .str s ∈ cs) :
    ∃ reg', finish t reg1 = .ok (t, reg') := by
  refine finish_ok hb hp ?_
  obtain ⟨-, -, h⟩ := ht
  rw [hp] at h
  simp only [Bool.false_eq_true, if_false] at h
  rcases h with h | ⟨s, h1, h2⟩
  · exact .inl h
  · refine .inr ⟨s, h1, h2, fun hm => ?_⟩
    have ho : own t.attrs = [.str s] := by simp [own, h1]
    rw [hd, ho] at hn hf
    rcases hr s hm with h | h
    · exact hf s h (by simp)
    · rw [List.nodup_append] at hn
      exact hn.2.2 _ h _ (by simp) rfl

/-- The names added by reading back. -/
theorem names_after {t : RType} {v : PyVal} {reg reg' : Registry} (h : fromDict v reg = .ok (shape t, reg')) :
    ∀ s ∈ names reg', s ∈ names reg ∨ .str s ∈ definedAliases t := by
  obtain ⟨new, h1, -, -, h2⟩ := C08_aliases_distinct_and_registered _ _ _ _ h
  rw [definedAliases_shape] at h1
  intro s hs
  rw [h2] at hs
  rcases List.mem_append.mp hs with hs | hs
  · exact .inl hs
  · exact .inr (by rw [h1]; exact List.mem_map_of_mem hs)

theorem NodeOK.free {t : RType} (h : NodeOK t) {k : String} (hk : k ∈ reservedKeys t) :
    k ∉ t.attrs.extra.keys := fun hm => h.2.1 k hm hk

theorem reserved_base (t : RType) :
    ∀ k ∈ ["type", "alias", "logical", "doc", "optional", "self", "type_"], k ∈ reservedKeys t := by
  intro k hk
  exact List.mem_append_left _ hk

theorem base_of_node {t : RType} (h : NodeOK t) :
    baseDict t = ("type", .str t.typeName) :: attrDict t.attrs :=
  baseDict_eq h.1 fun k hk hm => h.2.1 k hk (reserved_base t k (by
    simp only [List.mem_cons, List.not_mem_nil, or_false] at hm ⊢
    rcases hm with h | h | h | h <;> simp [h]))

theorem noType_of_node {t : RType} (h : NodeOK t) : ∀ k ∈ t.attrs.extra.keys, k ∉ ["type", "optional"] := by
  intro k hk hm
  refine h.2.1 k hk (reserved_base t k ?_)
  simp only [List.mem_cons, List.not_mem_nil, or_false] at hm ⊢
  rcases hm with h | h <;> simp [h]

theorem mk_of_node {t : RType} {a : Attrs} (h : NodeOK t) {ps : Dict} {names : List String}
    (hps : ∀ k ∈ ps.keys, k ∈ names)
    (hnames : ∀ k ∈ names, k ∉ ["alias", "logical", "doc", "self", "type_"])
    (hres : ∀ k ∈ names, k ∈ reservedKeys t ∨ k ∉ t.attrs.extra.keys) (ha : t.attrs = a := by rfl) :
    mkAttrs names (attrDict a ++ ps) = .ok a := by
  subst ha
  refine mkAttrs_attrDict hps hnames fun k hk => ⟨fun hm => ?_, fun hm => ?_⟩
  · refine h.2.1 k hk (reserved_base t k ?_)
    simp only [List.mem_cons, List.not_mem_nil, or_false] at hm ⊢
    rcases hm with h | h | h | h | h <;> simp [h]
  · rcases hres k hm with h' | h'
    · exact h.2.1 k hk h'
    · exact h' hk

theorem node_shape {t : RType} (h : NodeOK t) : NodeOK (shape t) := by
  cases t <;> (simp only [shape]; exact h)

theorem nodup_left {α : Type} {a b : List α} (h : (a ++ b).Nodup) : a.Nodup :=
  (List.nodup_append.mp h).1
theorem nodup_right {α : Type} {a b : List α} (h : (a ++ b).Nodup) : b.Nodup :=
  (List.nodup_append.mp h).2.1

/-- Reading back one written node, when the constructor call gives `u` and registry `reg1`. -/
theorem read_node {u : RType} {n : String} {a : Attrs} {ps : Dict} {reg reg1 reg' : Registry}
    (hps : ∀ k ∈ ps.keys, k ∉ ["type", "optional"])
    (hfree : ∀ k ∈ a.extra.keys, k ∉ ["type", "optional"])
    (hc : construct fromDict (.str n) (attrDict a ++ ps) reg = .ok (u, reg1))
    (hf : finish u reg1 = .ok (u, reg')) :
    fromDict (.dict (("type", .str n) :: (attrDict a ++ ps))) reg = .ok (u, reg') := by
  rw [fromDict_written n a ps reg hps hfree, hc]
  exact hf

theorem renameBytes_attrDict {a : Attrs} {b v : PyVal}
    (hb : "bytes" ∉ a.extra.keys) (hb2 : "bytes_" ∉ a.extra.keys) :
    renameBytes (attrDict a ++ [("bytes", b), ("variable", v)]) =
      attrDict a ++ [("variable", v), ("bytes_", b)] := by
  have h1 : Dict.get? (attrDict a ++ [("bytes", b), ("variable", v)]) "bytes" = some b := by
    rw [get?_attrDict_other (by simp) hb]; rfl
  have h2 : "bytes" ∉ (attrDict a).keys := by
    intro h; rcases attrDict_keys h with e | e | e | e <;> simp_all
  unfold renameBytes
  rw [h1]
  simp only
  rw [Dict.erase_append, Dict.erase_of_not_mem h2]
  have h3 : Dict.erase [("bytes", b), ("variable", v)] "bytes" = [("variable", v)] := rfl
  rw [h3, Dict.set_of_not_mem]
  · simp
  · intro h
    simp only [Dict.keys_append, List.mem_append] at h
    rcases h with h | h
    · rcases attrDict_keys h with e | e | e | e <;> simp_all
    · simp [Dict.keys] at h

theorem erase_attrDict {a : Attrs} {ps : Dict} {k : String} (h : k ∉ ["alias", "logical", "doc"])
    (he : k ∉ a.extra.keys) : Dict.erase (attrDict a ++ ps) k = attrDict a ++ Dict.erase ps k := by
  rw [Dict.erase_append, Dict.erase_of_not_mem]
  intro hm; rcases attrDict_keys hm with e | e | e | e <;> simp_all

mutual
/-- The induction behind C01. -/
theorem roundTrip : ∀ (t : RType) (reg : Registry), (∀ u, Sub u t → NodeOK u) → Bounded t →
    (definedAliases t).Nodup → (∀ s ∈ names reg, .str s ∉ definedAliases t) →
    ∃ v reg', toDict false false t = .ok v ∧ fromDict v reg = .ok (shape t, reg')
  | .null a, reg => fun hk hb hn hf => by
    have ht := hk _ .refl
    obtain ⟨reg', hfin⟩ := finish_close (cs := []) ht rfl hb rfl hn hf (fun s hs => .inl hs)
    refine ⟨_, reg', postProcess_plain _, ?_⟩
    rw [base_of_node ht]
    have := read_node (ps := []) (n := "null") (a := a) (by simp [Dict.keys]) (noType_of_node ht)
      (by rw [construct_null, mk_of_node ht (by simp [Dict.keys]) (by simp) (by simp)]; rfl) hfin
    simp only [List.append_nil] at this
    exact this
  | .bool a, reg => fun hk hb hn hf => by
    have ht := hk _ .refl
    obtain ⟨reg', hfin⟩ := finish_close (cs := []) ht rfl hb rfl hn hf (fun s hs => .inl hs)
    refine ⟨_, reg', postProcess_plain _, ?_⟩
    rw [base_of_node ht]
    have := read_node (ps := []) (n := "bool") (a := a) (by simp [Dict.keys]) (noType_of_node ht)
      (by rw [construct_bool, mk_of_node ht (by simp [Dict.keys]) (by simp) (by simp)]; rfl) hfin
    simp only [List.append_nil] at this
    exact this
  | .int b s a, reg => fun hk hb hn hf => by
    have ht := hk _ .refl
    have f1 : "bits" ∉ a.extra.keys := NodeOK.free ht (by simp [reservedKeys])
    have f2 : "signed" ∉ a.extra.keys := NodeOK.free ht (by simp [reservedKeys])
    obtain ⟨reg', hfin⟩ := finish_close (cs := []) ht rfl hb rfl hn hf (fun s hs => .inl hs)
    refine ⟨_, reg', postProcess_plain _, ?_⟩
    rw [base_of_node ht]
    have := set_attrDict (n := "int") (a := a) (ps := []) (v := b) (by simp) f1 (by simp)
    simp only [List.append_nil, List.nil_append] at this
    simp only [RType.attrs, RType.typeName, shape]
    rw [this, set_attrDict (by simp) f2 (by simp [Dict.keys])]
    refine read_node (by simp [Dict.keys]) (noType_of_node ht) ?_ hfin
    rw [construct_int, get?_attrDict_other (by simp) f1]
    simp only [List.cons_append, List.nil_append, Dict.get?_cons, if_true, Dict.getD]
    rw [mk_of_node ht (by simp [Dict.keys]) (by simp) (by simp [reservedKeys]),
      get?_attrDict_other (by simp) f2]
    rfl
  | .float b a, reg => fun hk hb hn hf => by
    have ht := hk _ .refl
    have f1 : "bits" ∉ a.extra.keys := NodeOK.free ht (by simp [reservedKeys])
    obtain ⟨reg', hfin⟩ := finish_close (cs := []) ht rfl hb rfl hn hf (fun s hs => .inl hs)
    refine ⟨_, reg', postProcess_plain _, ?_⟩
    rw [base_of_node ht]
    have := set_attrDict (n := "float") (a := a) (ps := []) (v := b) (by simp) f1 (by simp)
    simp only [List.append_nil, List.nil_append] at this
    simp only [RType.attrs, RType.typeName, shape]
    rw [this]
    refine read_node (by simp [Dict.keys]) (noType_of_node ht) ?_ hfin
    rw [construct_float, get?_attrDict_other (by simp) f1]
    simp only [Dict.get?_cons, if_true]
    rw [mk_of_node ht (by simp [Dict.keys]) (by simp) (by simp [reservedKeys])]
    rfl
  | .string b v a, reg => fun hk hb hn hf => by
    have ht := hk _ .refl
    have f1 : "bytes" ∉ a.extra.keys := NodeOK.free ht (by simp [reservedKeys])
    have f2 : "variable" ∉ a.extra.keys := NodeOK.free ht (by simp [reservedKeys])
    have f3 : "bytes_" ∉ a.extra.keys := NodeOK.free ht (by simp [reservedKeys])
    obtain ⟨reg', hfin⟩ := finish_close (cs := []) ht rfl hb rfl hn hf (fun s hs => .inl hs)
    refine ⟨_, reg', postProcess_plain _, ?_⟩
    rw [base_of_node ht]
    have := set_attrDict (n := "string") (a := a) (ps := []) (v := b) (by simp) f1 (by simp)
    simp only [List.append_nil, List.nil_append] at this
    simp only [RType.attrs, RType.typeName, shape]
    rw [this, set_attrDict (by simp) f2 (by simp [Dict.keys])]
    refine read_node (by simp [Dict.keys]) (noType_of_node ht) ?_ hfin
    rw [construct_string]
    simp only [List.cons_append, List.nil_append]
    rw [renameBytes_attrDict f1 f3]
    simp only [Dict.getD]
    rw [mk_of_node ht (by simp [Dict.keys]) (by simp) (by simp [reservedKeys]),
      get?_attrDict_other (by simp) f2, get?_attrDict_other (by simp) f3]
    rfl
  | .bytes b v a, reg => fun hk hb hn hf => by
    have ht := hk _ .refl
    have f1 : "bytes" ∉ a.extra.keys := NodeOK.free ht (by simp [reservedKeys])
    have f2 : "variable" ∉ a.extra.keys := NodeOK.free ht (by simp [reservedKeys])
    have f3 : "bytes_" ∉ a.extra.keys := NodeOK.free ht (by simp [reservedKeys])
    obtain ⟨reg', hfin⟩ := finish_close (cs := []) ht rfl hb rfl hn hf (fun s hs => .inl hs)
    refine ⟨_, reg', postProcess_plain _, ?_⟩
    rw [base_of_node ht]
    have := set_attrDict (n := "bytes") (a := a) (ps := []) (v := b) (by simp) f1 (by simp)
    simp only [List.append_nil, List.nil_append] at this
    simp only [RType.attrs, RType.typeName, shape]
    rw [this, set_attrDict (by simp) f2 (by simp [Dict.keys])]
    refine read_node (by simp [Dict.keys]) (noType_of_node ht) ?_ hfin
    rw [construct_bytes]
    simp only [List.cons_append, List.nil_append]
    rw [renameBytes_attrDict f1 f3]
    simp only [Dict.getD]
    rw [mk_of_node ht (by simp [Dict.keys]) (by simp) (by simp [reservedKeys]),
      get?_attrDict_other (by simp) f2, get?_attrDict_other (by simp) f3]
    rfl
  | .enum s a, reg => fun hk hb hn hf => by
    have ht := hk _ .refl
    have f1 : "symbols" ∉ a.extra.keys := NodeOK.free ht (by simp [reservedKeys])
    obtain ⟨reg', hfin⟩ := finish_close (cs := []) ht rfl hb rfl hn hf (fun s hs => .inl hs)
    refine ⟨_, reg', postProcess_plain _, ?_⟩
    rw [base_of_node ht]
    have := set_attrDict (n := "enum") (a := a) (ps := []) (v := s) (by simp) f1 (by simp)
    simp only [List.append_nil, List.nil_append] at this
    simp only [RType.attrs, RType.typeName, shape]
    rw [this]
    refine read_node (by simp [Dict.keys]) (noType_of_node ht) ?_ hfin
    rw [construct_enum, get?_attrDict_other (by simp) f1]
    simp only [Dict.get?_cons, if_true]
    rw [mk_of_node ht (by simp [Dict.keys]) (by simp) (by simp [reservedKeys])]
    rfl
  | .proxy r a, reg => fun hk hb hn hf => by
    have ht := hk _ .refl
    obtain ⟨n, hal, hcore⟩ : ∃ n, a.alias = .str n ∧ n ∉ coreTypeNames := by
      have := ht.2.2
      simpa [RType.isProxy, RType.attrs] using this
    have f1 : "alias" ∉ a.extra.keys := NodeOK.free ht (by simp [reservedKeys])
    have f2 : "registry" ∉ a.extra.keys := NodeOK.free ht (by simp [reservedKeys])
    have fs : "self" ∉ a.extra.keys := NodeOK.free ht (by simp [reservedKeys])
    have fy : "type_" ∉ a.extra.keys := NodeOK.free ht (by simp [reservedKeys])
    have ft : "type" ∉ a.extra.keys := NodeOK.free ht (by simp [reservedKeys])
    have fo : "optional" ∉ a.extra.keys := NodeOK.free ht (by simp [reservedKeys])
    have fl : "logical" ∉ a.extra.keys := NodeOK.free ht (by simp [reservedKeys])
    have fd : "doc" ∉ a.extra.keys := NodeOK.free ht (by simp [reservedKeys])
    refine ⟨_, reg, postProcess_plain _, ?_⟩
    rw [base_of_node ht]
    have e1 : Dict.set (Dict.erase (("type", .str "proxy") :: attrDict a) "alias") "type"
        (Dict.getD (("type", .str "proxy") :: attrDict a) "alias" .none) =
        ("type", .str n) :: ("logical", a.logical) :: ("doc", a.doc) :: a.extra := by
      simp only [attrDict, List.cons_append, List.nil_append, Dict.erase_cons]
      simp [Dict.erase_of_not_mem f1, Dict.set, Dict.getD, Dict.get?_cons, hal]
    simp only [RType.attrs, RType.typeName, shape]
    rw [e1]
    obtain ⟨a', h1, h2, h3, h4, h5⟩ := C23_unknown_names_are_references_partial n
      (("logical", a.logical) :: ("doc", a.doc) :: a.extra) reg hcore (by
        intro k hk
        simp only [List.mem_cons, List.not_mem_nil, or_false] at hk
        rcases hk with rfl | rfl | rfl | rfl | rfl | rfl <;> simp_all [Dict.keys])
    rw [h1]
    have : a' = a := by
      cases a' with
      | mk l al d e =>
        cases a with
        | mk l' al' d' e' =>
          simp only at *
          subst h2 h3 h4 h5
          simp only [Attrs.mk.injEq]
          refine ⟨trivial, hal.symm, trivial, ?_⟩
          simp only [without]
          rw [List.filter_cons_of_neg (by simp), List.filter_cons_of_neg (by simp),
            List.filter_eq_self]
          intro kv hkv
          have h1 : kv.1 ≠ "logical" := fun e => fl (e ▸ List.mem_map_of_mem hkv)
          have h2 : kv.1 ≠ "doc" := fun e => fd (e ▸ List.mem_map_of_mem hkv)
          simp [h1, h2]
    rw [this]
  | .list t l v a, reg => fun hk hb hn hf => by
    have ht := hk _ .refl
    have f1 : "values" ∉ a.extra.keys := NodeOK.free ht (by simp [reservedKeys])
    have f2 : "length" ∉ a.extra.keys := NodeOK.free ht (by simp [reservedKeys])
    have f3 : "variable" ∉ a.extra.keys := NodeOK.free ht (by simp [reservedKeys])
    have hb' := hb
    simp only [Bounded] at hb'
    have hd : definedAliases (.list t l v a) = definedAliases t ++ own a := by simp only [definedAliases]
    obtain ⟨v1, reg1, g1, g2⟩ := roundTrip t reg (fun u hu => hk u (.list hu)) hb'.2
      (nodup_left (hd ▸ hn)) (fun s hs hm => hf s hs (by rw [hd]; exact List.mem_append_left _ hm))
    obtain ⟨reg', hfin⟩ := finish_close (t := shape (.list t l v a)) (reg := reg) (reg1 := reg1)
      (cs := definedAliases t) (node_shape ht)
      rfl (bounded_shape _ hb) (by rw [definedAliases_shape, hd]; rfl) (by rw [definedAliases_shape]; exact hn)
      (by rw [definedAliases_shape]; exact hf) (names_after g2)
    simp only [toDict, g1, bind, Except.bind]
    refine ⟨_, reg', postProcess_plain _, ?_⟩
    rw [base_of_node ht]
    have := set_attrDict (n := "list") (a := a) (ps := []) (v := v1) (by simp) f1 (by simp)
    simp only [List.append_nil, List.nil_append] at this
    simp only [shape] at hfin
    simp only [RType.attrs, RType.typeName, shape]
    rw [this, set_attrDict (by simp) f2 (by simp [Dict.keys]), set_attrDict (by simp) f3 (by simp [Dict.keys])]
    refine read_node (by simp [Dict.keys]) (noType_of_node ht) ?_ hfin
    rw [construct_listT, get?_attrDict_other (by simp) f1]
    simp only [List.cons_append, List.nil_append, Dict.get?_cons, if_true, g2, bind, Except.bind]
    rw [erase_attrDict (by simp) f1]
    have e : Dict.erase [("values", v1), ("length", l), ("variable", v)] "values" =
      [("length", l), ("variable", v)] := rfl
    rw [e, mk_of_node ht (by simp [Dict.keys]) (by simp) (by simp [reservedKeys])]
    simp only [Dict.getD]
    rw [get?_attrDict_other (by simp) f2, get?_attrDict_other (by simp) f3]
    rfl
  | .map k v a, reg => fun hk hb hn hf => by
    have ht := hk _ .refl
    have f1 : "keys" ∉ a.extra.keys := NodeOK.free ht (by simp [reservedKeys])
    have f2 : "values" ∉ a.extra.keys := NodeOK.free ht (by simp [reservedKeys])
    have hb' := hb
    simp only [Bounded] at hb'
    have hd : definedAliases (.map k v a) = (definedAliases k ++ definedAliases v) ++ own a := by
      simp only [definedAliases]
    have hn1 := nodup_left (hd ▸ hn)
    obtain ⟨v1, reg1, g1, g2⟩ := roundTrip k reg (fun u hu => hk u (.key hu)) hb'.1
      (nodup_left hn1) (fun s hs hm => hf s hs (by
        rw [hd]; exact List.mem_append_left _ (List.mem_append_left _ hm)))
    obtain ⟨v2, reg2, g3, g4⟩ := roundTrip v reg1 (fun u hu => hk u (.value hu)) hb'.2
      (nodup_right hn1) (fun s hs hm => by
        rcases names_after g2 s hs with h | h
        · exact hf s h (by rw [hd]; exact List.mem_append_left _ (List.mem_append_right _ hm))
        · exact (List.nodup_append.mp hn1).2.2 _ h _ hm rfl)
    obtain ⟨reg', hfin⟩ := finish_close (t := shape (.map k v a)) (reg := reg) (reg1 := reg2)
      (cs := definedAliases k ++ definedAliases v)
      (node_shape ht)
      rfl (bounded_shape _ hb) (by rw [definedAliases_shape, hd]; rfl) (by rw [definedAliases_shape]; exact hn)
      (by rw [definedAliases_shape]; exact hf) (fun s hs => by
        rcases names_after g4 s hs with h | h
        · rcases names_after g2 s h with h | h
          · exact .inl h
          · exact .inr (List.mem_append_left _ h)
        · exact .inr (List.mem_append_right _ h))
    simp only [toDict, g1, g3, bind, Except.bind]
    refine ⟨_, reg', postProcess_plain _, ?_⟩
    rw [base_of_node ht]
    have := set_attrDict (n := "map") (a := a) (ps := []) (v := v1) (by simp) f1 (by simp)
    simp only [List.append_nil, List.nil_append] at this
    simp only [shape] at hfin
    simp only [RType.attrs, RType.typeName, shape]
    rw [this, set_attrDict (by simp) f2 (by simp [Dict.keys])]
    refine read_node (by simp [Dict.keys]) (noType_of_node ht) ?_ hfin
    rw [construct_map, get?_attrDict_other (by simp) f1, get?_attrDict_other (by simp) f2]
    simp only [List.cons_append, List.nil_append, Dict.get?_cons, if_true, String.reduceEq, if_false,
      g2, g4, bind, Except.bind]
    rw [erase_attrDict (by simp) f1, erase_attrDict (by simp) f2]
    have e : Dict.erase (Dict.erase [("keys", v1), ("values", v2)] "keys") "values" = [] := rfl
    rw [e, mk_of_node ht (by simp) (by simp) (by simp)]
    rfl
  | .struct fs a, reg => fun hk hb hn hf => by
    have ht := hk _ .refl
    have f1 : "fields" ∉ a.extra.keys := NodeOK.free ht (by simp [reservedKeys])
    have hb' := hb
    simp only [Bounded] at hb'
    have hd : definedAliases (.struct fs a) = definedAliasesAll fs ++ own a := by simp only [definedAliases]
    obtain ⟨vs, reg1, g1, g2, g3⟩ := roundTripAll fs reg (fun t ht u hu => hk u (.field ht hu)) hb'
      (nodup_left (hd ▸ hn)) (fun s hs hm => hf s hs (by rw [hd]; exact List.mem_append_left _ hm))
    obtain ⟨reg', hfin⟩ := finish_close (t := shape (.struct fs a)) (reg := reg) (reg1 := reg1)
      (cs := definedAliasesAll fs) (node_shape ht)
      rfl (bounded_shape _ hb) (by rw [definedAliases_shape, hd]; rfl) (by rw [definedAliases_shape]; exact hn)
      (by rw [definedAliases_shape]; exact hf) g3
    simp only [toDict, g1, bind, Except.bind]
    refine ⟨_, reg', postProcess_plain _, ?_⟩
    rw [base_of_node ht]
    have := set_attrDict (n := "struct") (a := a) (ps := []) (v := .list vs) (by simp) f1 (by simp)
    simp only [List.append_nil, List.nil_append] at this
    simp only [shape] at hfin
    simp only [RType.attrs, RType.typeName, shape]
    rw [this]
    refine read_node (by simp [Dict.keys]) (noType_of_node ht) ?_ hfin
    rw [construct_struct]
    simp only [Dict.getD]
    rw [get?_attrDict_other (by simp) f1]
    simp only [Dict.get?_cons, if_true, Option.getD_some, PyVal.iter, g2, bind, Except.bind]
    rw [mk_of_node ht (by simp [Dict.keys]) (by simp) (by simp [reservedKeys])]
    rfl
  | .union fs a, reg => fun hk hb hn hf => by
    have ht := hk _ .refl
    have f1 : "types" ∉ a.extra.keys := NodeOK.free ht (by simp [reservedKeys])
    have hb' := hb
    simp only [Bounded] at hb'
    have hd : definedAliases (.union fs a) = definedAliasesAll fs ++ own a := by simp only [definedAliases]
    obtain ⟨vs, reg1, g1, g2, g3⟩ := roundTripAll fs reg (fun t ht u hu => hk u (.member ht hu)) hb'
      (nodup_left (hd ▸ hn)) (fun s hs hm => hf s hs (by rw [hd]; exact List.mem_append_left _ hm))
    obtain ⟨reg', hfin⟩ := finish_close (t := shape (.union fs a)) (reg := reg) (reg1 := reg1)
      (cs := definedAliasesAll fs) (node_shape ht)
      rfl (bounded_shape _ hb) (by rw [definedAliases_shape, hd]; rfl) (by rw [definedAliases_shape]; exact hn)
      (by rw [definedAliases_shape]; exact hf) g3
    simp only [toDict, g1, bind, Except.bind]
    refine ⟨_, reg', postProcess_plain _, ?_⟩
    rw [base_of_node ht]
    have := set_attrDict (n := "union") (a := a) (ps := []) (v := .list vs) (by simp) f1 (by simp)
    simp only [List.append_nil, List.nil_append] at this
    simp only [shape] at hfin
    simp only [RType.attrs, RType.typeName, shape]
    rw [this]
    refine read_node (by simp [Dict.keys]) (noType_of_node ht) ?_ hfin
    rw [construct_union, get?_attrDict_other (by simp) f1]
    simp only [Dict.get?_cons, if_true, PyVal.iter, g2, bind, Except.bind]
    rw [erase_attrDict (by simp) f1]
    have e : Dict.erase [("types", PyVal.list vs)] "types" = [] := rfl
    rw [e, mk_of_node ht (by simp) (by simp) (by simp)]
    rfl
theorem roundTripAll : ∀ (ts : List RType) (reg : Registry), (∀ t ∈ ts, ∀ u, Sub u t → NodeOK u) →
    BoundedAll ts → (definedAliasesAll ts).Nodup →
    (∀ s ∈ names reg, .str s ∉ definedAliasesAll ts) →
    ∃ vs reg', toDictList false false ts = .ok vs ∧
      parseAll fromDict vs reg = .ok (shapeAll ts, reg') ∧
      ∀ s ∈ names reg', s ∈ names reg ∨ .str s ∈ definedAliasesAll ts
  | [], reg => fun _ _ _ _ => ⟨[], reg, rfl, rfl, fun s hs => .inl hs⟩
  | t :: ts, reg => fun hk hb hn hf => by
    simp only [BoundedAll] at hb
    simp only [definedAliasesAll] at hn hf
    obtain ⟨v1, reg1, g1, g2⟩ := roundTrip t reg (hk t List.mem_cons_self) hb.1 (nodup_left hn)
      (fun s hs hm => hf s hs (List.mem_append_left _ hm))
    obtain ⟨vs, reg2, g3, g4, g5⟩ := roundTripAll ts reg1
      (fun u hu => hk u (List.mem_cons_of_mem _ hu)) hb.2 (nodup_right hn) (fun s hs hm => by
        rcases names_after g2 s hs with h | h
        · exact hf s h (List.mem_append_right _ hm)
        · exact (List.nodup_append.mp hn).2.2 _ h _ hm rfl)
    refine ⟨v1 :: vs, reg2, ?_, ?_, ?_⟩
    · simp only [toDictList, g1, g3, bind, Except.bind, pure, Except.pure]
    · simp only [parseAll, g2, g4, bind, Except.bind, pure, Except.pure, shapeAll]
    · intro s hs
      simp only [definedAliasesAll]
      rcases g5 s hs with h | h
      · rcases names_after g2 s h with h | h
        · exact .inl h
        · exact .inr (List.mem_append_left _ h)
      · exact .inr (List.mem_append_right _ h)
end


mutual
theorem pyEq_shape : ∀ t u : RType, RType.pyEq (shape t) u = RType.pyEq t u
  | .list t .., u => by cases u <;> simp only [shape, RType.pyEq, pyEq_shape t]
  | .map k v _, u => by cases u <;> simp only [shape, RType.pyEq, pyEq_shape k, pyEq_shape v]
  | .struct fs _, u => by cases u <;> simp only [shape, RType.pyEq, pyEqList_shape fs]
  | .union ts _, u => by cases u <;> simp only [shape, RType.pyEq, pyEqList_shape ts]
  | .proxy .., u => by cases u <;> simp only [shape, RType.pyEq]
  | .null _, u => by simp only [shape]
  | .bool _, u => by simp only [shape]
  | .int .., u => by simp only [shape]
  | .float .., u => by simp only [shape]
  | .string .., u => by simp only [shape]
  | .bytes .., u => by simp only [shape]
  | .enum .., u => by simp only [shape]
theorem pyEqList_shape : ∀ ts us : List RType, RType.pyEqList (shapeAll ts) us = RType.pyEqList ts us
  | [], us => by cases us <;> simp only [shapeAll, RType.pyEqList]
  | t :: ts, us => by
    cases us <;> simp only [shapeAll, RType.pyEqList, pyEq_shape t, pyEqList_shape ts]
end

/-! ## C01 -/

/-- C01, in any registry: writing a well-formed type without compaction gives a document; reading
the document back gives the same tree, whose references point to the live registry. -/
theorem C01_verbatim_round_trip_any_registry (t : RType) (reg : Registry) (h : WellFormed (names reg) t) :
    ∃ v reg', toDict false false t = .ok v ∧ fromDict v reg = .ok (shape t, reg') :=
  roundTrip t reg h.1 h.2.1 h.2.2.1 h.2.2.2

/-- C01: `from_dict(to_dict(t, clean=False, alias=False)) == t` for every well-formed type. -/
theorem C01_verbatim_round_trip (t : RType) (h : WellFormed (names newRegistry) t) (hr : RealType t) :
    ∃ v t', toDict false false t = .ok v ∧ parse v = .ok t' ∧ RType.pyEq t' t = true := by
  obtain ⟨v, reg', h1, h2⟩ := C01_verbatim_round_trip_any_registry t newRegistry h
  refine ⟨v, shape t, h1, ?_, ?_⟩
  · simp only [parse, h2, Functor.map, Except.map]
  · rw [pyEq_shape]; exact RType.pyEq_refl t hr

end Recap
