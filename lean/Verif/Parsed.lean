import Verif.RoundTripThms

/-! # What `from_dict` returns can be written and read back: C01, C71 -/

namespace Recap

open Spec

/-! ## Helper lemmas: the documents stay proper Python dictionaries -/

/-- A dictionary with distinct keys and proper values. -/
def RealDict (d : Dict) : Prop := Real (.dict d)

theorem realDict_iff {d : Dict} : RealDict d ↔ d.keys.Nodup ∧ ∀ kv ∈ d, Real kv.2 := by
  unfold RealDict
  simp only [Real]
  exact ⟨fun h => ⟨h.1, h.2.mem⟩, fun h => ⟨h.1, .of_mem h.2⟩⟩

theorem RealDict.filter {d : Dict} (h : RealDict d) (p : String × PyVal → Bool) : RealDict (d.filter p) := by
  rw [realDict_iff] at *
  exact ⟨h.1.sublist (List.filter_sublist.map _), fun kv hkv => h.2 kv (List.mem_filter.mp hkv).1⟩

theorem RealDict.erase {d : Dict} (h : RealDict d) (k : String) : RealDict (d.erase k) := h.filter _

theorem mem_set {d : Dict} {k : String} {v : PyVal} {kv : String × PyVal} (h : kv ∈ Dict.set d k v) :
    kv ∈ d ∨ kv = (k, v) := by
  induction d with
  | nil => simp [Dict.set] at h; exact .inr h
  | cons x d ih =>
    simp only [Dict.set] at h
    split at h
    · rcases List.mem_cons.mp h with h | h
      · exact .inr h
      · exact .inl (List.mem_cons_of_mem _ h)
    · rcases List.mem_cons.mp h with h | h
      · exact .inl (h ▸ List.mem_cons_self)
      · rcases ih h with h | h
        · exact .inl (List.mem_cons_of_mem _ h)
        · exact .inr h

theorem RealDict.set {d : Dict} (h : RealDict d) {v : PyVal} (k : String) (hv : Real v) :
    RealDict (d.set k v) := by
  rw [realDict_iff] at *
  refine ⟨Dict.nodup_keys_set _ _ h.1, fun kv hkv => ?_⟩
  rcases mem_set hkv with h' | rfl
  · exact h.2 kv h'
  · exact hv

theorem RealDict.get? {d : Dict} (h : RealDict d) {k : String} {v : PyVal} (hg : Dict.get? d k = some v) :
    Real v := (realDict_iff.mp h).2 _ (Dict.mem_of_get? hg)

theorem RealDict.getD {d : Dict} (h : RealDict d) {k : String} {v : PyVal} (hv : Real v) :
    Real (Dict.getD d k v) := by
  unfold Dict.getD
  cases hg : Dict.get? d k with
  | none => exact hv
  | some w => exact h.get? hg

theorem Spec.RealAll.of_mem {xs : List PyVal} (h : ∀ x ∈ xs, Real x) : RealAll xs := by
  induction xs with
  | nil => trivial
  | cons y ys ih =>
    simp only [RealAll]
    exact ⟨h y (by simp), ih fun x hx => h x (by simp [hx])⟩

theorem real_list {xs : List PyVal} : Real (.list xs) ↔ ∀ x ∈ xs, Real x := by
  simp only [Real]; exact ⟨fun h => h.mem, .of_mem⟩

theorem real_iter {v : PyVal} (h : Real v) {xs : List PyVal} (hi : v.iter = .ok xs) : ∀ x ∈ xs, Real x := by
  cases v <;> simp only [PyVal.iter] at hi <;> cases hi
  · intro x hx
    obtain ⟨c, -, rfl⟩ := List.mem_map.mp hx
    trivial
  · exact real_list.mp h
  · intro x hx
    obtain ⟨c, -, rfl⟩ := List.mem_map.mp hx
    trivial

theorem realDict_union {v : PyVal} (h : Real v) : RealDict [("type", .str "union"), ("types", v)] := by
  rw [realDict_iff]
  refine ⟨by simp [Dict.keys], fun kv hkv => ?_⟩
  simp only [List.mem_cons, List.not_mem_nil, or_false] at hkv
  rcases hkv with rfl | rfl
  · trivial
  · exact h

theorem real_normalise {v : PyVal} {d : Dict} (h : Real v) (hd : normalise v = .ok d) : RealDict d := by
  cases v <;> simp only [normalise] at hd <;> cases hd
  · rw [realDict_iff]
    refine ⟨by simp [Dict.keys], fun kv hkv => ?_⟩
    simp only [List.mem_cons, List.not_mem_nil, or_false] at hkv
    subst hkv; trivial
  · exact realDict_union h
  · exact h

theorem real_prepare {d d' : Dict} (h : RealDict d) (hd : prepare d = .ok d') :
    RealDict d' ∧ "optional" ∉ d'.keys := by
  unfold prepare at hd
  split at hd
  · cases hd
  split at hd
  · unfold desugarOptional at hd
    obtain ⟨e, he, hd⟩ := ok_bind hd
    simp only [pure, Except.pure] at hd
    cases hd
    have h0 : RealDict (((d.erase "optional").erase "name").erase "default") :=
      ((h.erase _).erase _).erase _
    have n0 : "optional" ∉ (((d.erase "optional").erase "name").erase "default").keys := by
      simp [Dict.mem_keys_erase]
    generalize ((d.erase "optional").erase "name").erase "default" = e0 at h0 n0 he
    have h1 : RealDict (wrapUnion e0) ∧ "optional" ∉ (wrapUnion e0).keys := by
      unfold wrapUnion
      split
      · exact ⟨h0, n0⟩
      · refine ⟨realDict_union (real_list.mpr ?_), by simp [Dict.keys]⟩
        intro x hx
        simp only [List.mem_cons, List.not_mem_nil, or_false] at hx
        rcases hx with rfl | rfl
        · trivial
        · exact h0
    generalize wrapUnion e0 = e1 at h1 he
    have h2 : RealDict e ∧ "optional" ∉ e.keys := by
      unfold ensureNull at he
      split at he
      · cases he
      rename_i types ht
      split at he
      · cases he
      · cases he; exact h1
      · split at he
        · cases he
          rename_i xs _
          refine ⟨h1.1.set _ (real_list.mpr ?_), ?_⟩
          · intro x hx
            rcases List.mem_cons.mp hx with rfl | hx
            · trivial
            · exact real_list.mp (h1.1.get? ht) x hx
          · rw [Dict.keys_set]
            split
            · exact h1.2
            · simp [h1.2]
        · cases he
    have key : ∀ (k : String) (v : PyVal) (e : Dict), k ≠ "optional" → Real v →
        RealDict e ∧ "optional" ∉ e.keys → RealDict (e.set k v) ∧ "optional" ∉ (e.set k v).keys := by
      intro k v e hk hv he
      refine ⟨he.1.set _ hv, ?_⟩
      rw [Dict.keys_set]
      split
      · exact he.2
      · simp [he.2, Ne.symm hk]
    unfold restoreField
    refine key _ _ _ (by simp) (h.getD trivial) ?_
    split
    · exact h2
    · exact key _ _ _ (by simp) (h.getD trivial) h2
  · cases hd
    exact ⟨h.erase _, by simp [Dict.mem_keys_erase]⟩

/-- What the constructor call leaves in the attributes. -/
theorem mkAttrs_spec {ps : List String} {kw : Dict} {a : Attrs} (hk : RealDict kw)
    (h : mkAttrs ps kw = .ok a) :
    RealAttrs a ∧ a.extra.keys.Nodup ∧ ∀ k ∈ a.extra.keys, k ∈ kw.keys ∧ k ∉ ps ∧
      k ∉ ["alias", "logical", "doc", "self", "type_"] := by
  unfold mkAttrs at h
  split at h
  · cases h
  rename_i hs
  simp only [Bool.or_eq_true, not_or, Bool.not_eq_true, Dict.has_eq_false_iff] at hs
  cases h
  have hf : RealDict (kw.filter (fun kv => !(ps ++ ["logical", "alias", "doc"]).contains kv.1)) := hk.filter _
  refine ⟨⟨hk.getD trivial, hk.getD trivial, hk.getD trivial, hf⟩, (realDict_iff.mp hf).1, ?_⟩
  intro k hm
  simp only [Dict.keys, List.mem_map, List.mem_filter] at hm
  obtain ⟨kv, ⟨h1, h2⟩, rfl⟩ := hm
  have h3 : kv.1 ∈ kw.keys := List.mem_map_of_mem h1
  simp only [List.contains_eq_mem, Bool.not_eq_true', decide_eq_false_iff_not, List.mem_append, not_or,
    List.mem_cons, List.not_mem_nil, or_false] at h2
  refine ⟨h3, h2.1, ?_⟩
  simp only [List.mem_cons, List.not_mem_nil, or_false, not_or]
  exact ⟨h2.2.2.1, h2.2.1, h2.2.2.2, fun e => hs.1 (e ▸ h3), fun e => hs.2 (e ▸ h3)⟩

/-- A node is proper and can be described by a document. -/
def GoodNode (u : RType) : Prop := NodeOK u ∧ RealNode u

theorem goodNode {t : RType} {reg reg' : Registry} {ps : List String} {kw : Dict}
    (hk : RealDict kw) (ht : "type" ∉ kw.keys) (ho : "optional" ∉ kw.keys)
    (hm : mkAttrs ps kw = .ok t.attrs)
    (hps : ∀ k ∈ reservedKeys t, k ∈ ["type", "alias", "logical", "doc", "optional", "self", "type_"] ∨ k ∈ ps ∨
      k ∉ kw.keys)
    (hr : ∀ kv ∈ params t, Real kv.2)
    (hp : t.isProxy = false) (hf : finish t reg = .ok (t, reg')) : GoodNode t := by
  obtain ⟨h1, h2, h3⟩ := mkAttrs_spec hk hm
  refine ⟨⟨h2, ?_, ?_⟩, h1.1, h1.2.1, h1.2.2.1, h1.2.2.2, hr⟩
  · intro k hkk hres
    obtain ⟨g1, g2, g3⟩ := h3 k hkk
    rcases hps k hres with h | h | h
    · simp only [List.mem_cons, List.not_mem_nil, or_false, not_or] at h g3
      rcases h with rfl | rfl | rfl | rfl | rfl | rfl | rfl <;> simp_all
    · exact g2 h
    · exact h g1
  · rw [hp]
    simp only [Bool.false_eq_true, if_false]
    rcases finish_names hf hp with ⟨h, -⟩ | ⟨s, h, -, h', -⟩
    · exact .inl h
    · exact .inr ⟨s, h, h'⟩

theorem parseAll_good {f : PyVal → Registry → Except PyErr (RType × Registry)}
    (hf : ∀ x, Real x → ∀ reg t reg', f x reg = .ok (t, reg') → ∀ u, Sub u t → GoodNode u) :
    ∀ {xs : List PyVal} {reg reg' : Registry} {ts : List RType}, (∀ x ∈ xs, Real x) →
      parseAll f xs reg = .ok (ts, reg') → ∀ t ∈ ts, ∀ u, Sub u t → GoodNode u := by
  intro xs
  induction xs with
  | nil => intro reg reg' ts _ h; simp only [parseAll] at h; cases h; simp
  | cons x xs ih =>
    intro reg reg' ts hx h
    simp only [parseAll] at h
    obtain ⟨⟨t, r1⟩, h1, h⟩ := ok_bind h
    obtain ⟨⟨ts', r2⟩, h2, h⟩ := ok_bind h
    simp only [pure, Except.pure] at h
    cases h
    intro t' ht'
    rcases List.mem_cons.mp ht' with rfl | ht'
    · exact hf x (hx x (by simp)) _ _ _ h1
    · exact ih (fun y hy => hx y (by simp [hy])) h2 t' ht'

theorem renameBytes_spec {kw : Dict} (h : RealDict kw) (ht : "type" ∉ kw.keys) (ho : "optional" ∉ kw.keys) :
    RealDict (renameBytes kw) ∧ "type" ∉ (renameBytes kw).keys ∧ "optional" ∉ (renameBytes kw).keys ∧
      "bytes" ∉ (renameBytes kw).keys := by
  unfold renameBytes
  cases hg : Dict.get? kw "bytes" with
  | none => exact ⟨h, ht, ho, Dict.get?_eq_none_iff.mp hg⟩
  | some v =>
    refine ⟨(h.erase _).set _ (h.get? hg), ?_, ?_, ?_⟩ <;>
    · simp only [Dict.keys_set]
      split <;> simp [Dict.mem_keys_erase, ht, ho]

theorem construct_good {f : PyVal → Registry → Except PyErr (RType × Registry)}
    (hf : ∀ x, Real x → ∀ reg t reg', f x reg = .ok (t, reg') → ∀ u, Sub u t → GoodNode u)
    {tn : PyVal} {kw : Dict} (htn : Real tn) (hk : RealDict kw) (ht : "type" ∉ kw.keys) (ho : "optional" ∉ kw.keys)
    {reg reg1 reg2 : Registry} {t : RType}
    (h : construct f tn kw reg = .ok (t, reg1))
    (hfin : finish t reg1 = .ok (t, reg2)) : ∀ u, Sub u t → GoodNode u := by
  cases tn with
  | list xs =>
    rw [construct_list] at h
    obtain ⟨⟨ts, r1⟩, h1, h⟩ := ok_bind h
    have hb := parseAll_good hf (fun x hx => real_list.mp htn x (List.mem_filter.mp hx).1) h1
    simp only at h
    split at h
    · cases h
    · rename_i hty
      obtain ⟨a, ha, h⟩ := ok_bind h
      simp only [pure, Except.pure] at h; cases h
      intro u hu
      cases hu with
      | refl =>
        refine goodNode (t := .union ts a) hk ht ho ha ?_ (by simp [params]) rfl hfin
        simp only [Bool.not_eq_true, Dict.has_eq_false_iff] at hty
        intro k hkk
        rcases List.mem_append.mp hkk with h | h
        · exact .inl h
        · simp only [List.mem_singleton] at h; subst h; exact .inr (.inr hty)
      | member hm hu => exact hb _ hm _ hu
  | str name =>
    by_cases hcore : name ∈ coreNames
    · simp only [coreNames, List.mem_cons, List.not_mem_nil, or_false] at hcore
      rcases hcore with rfl | rfl | rfl | rfl | rfl | rfl | rfl | rfl | rfl | rfl | rfl
      · rw [construct_null] at h
        obtain ⟨a, ha, h⟩ := ok_bind h
        simp only [pure, Except.pure] at h; cases h
        intro u hu; cases hu
        exact goodNode (t := .null a) hk ht ho ha (by simp [reservedKeys]) (by simp [params]) rfl hfin
      · rw [construct_bool] at h
        obtain ⟨a, ha, h⟩ := ok_bind h
        simp only [pure, Except.pure] at h; cases h
        intro u hu; cases hu
        exact goodNode (t := .bool a) hk ht ho ha (by simp [reservedKeys]) (by simp [params]) rfl hfin
      · rw [construct_int] at h
        split at h
        · cases h
        rename_i b hb
        obtain ⟨a, ha, h⟩ := ok_bind h
        simp only [pure, Except.pure] at h; cases h
        intro u hu; cases hu
        refine goodNode (t := .int _ _ a) hk ht ho ha (by simp [reservedKeys]) ?_ rfl hfin
        simp only [params, List.mem_cons, List.not_mem_nil, or_false, forall_eq_or_imp, forall_eq]
        exact ⟨hk.get? hb, hk.getD trivial⟩
      · rw [construct_float] at h
        split at h
        · cases h
        rename_i b hb
        obtain ⟨a, ha, h⟩ := ok_bind h
        simp only [pure, Except.pure] at h; cases h
        intro u hu; cases hu
        refine goodNode (t := .float _ a) hk ht ho ha (by simp [reservedKeys]) ?_ rfl hfin
        simp only [params, List.mem_cons, List.not_mem_nil, or_false, forall_eq]
        exact hk.get? hb
      · rw [construct_string] at h
        obtain ⟨g1, g2, g3, g4⟩ := renameBytes_spec hk ht ho
        obtain ⟨a, ha, h⟩ := ok_bind h
        simp only [pure, Except.pure] at h; cases h
        intro u hu; cases hu
        refine goodNode (t := .string _ _ a) g1 g2 g3 ha ?_ ?_ rfl hfin
        · simp [reservedKeys, g4]
        · simp only [params, List.mem_cons, List.not_mem_nil, or_false, forall_eq_or_imp, forall_eq]
          exact ⟨g1.getD trivial, g1.getD trivial⟩
      · rw [construct_bytes] at h
        obtain ⟨g1, g2, g3, g4⟩ := renameBytes_spec hk ht ho
        obtain ⟨a, ha, h⟩ := ok_bind h
        simp only [pure, Except.pure] at h; cases h
        intro u hu; cases hu
        refine goodNode (t := .bytes _ _ a) g1 g2 g3 ha ?_ ?_ rfl hfin
        · simp [reservedKeys, g4]
        · simp only [params, List.mem_cons, List.not_mem_nil, or_false, forall_eq_or_imp, forall_eq]
          exact ⟨g1.getD trivial, g1.getD trivial⟩
      · rw [construct_listT] at h
        split at h
        · cases h
        rename_i v hv
        obtain ⟨⟨t1, r1⟩, h1, h⟩ := ok_bind h
        obtain ⟨a, ha, h⟩ := ok_bind h
        simp only [pure, Except.pure] at h; cases h
        have hk' := hk.erase "values"
        intro u hu
        cases hu with
        | refl =>
          refine goodNode (t := .list _ _ _ a) hk' (by simp [Dict.mem_keys_erase, ht])
            (by simp [Dict.mem_keys_erase, ho]) ha ?_ ?_ rfl hfin
          · simp [reservedKeys, Dict.mem_keys_erase]
          · simp only [params, List.mem_cons, List.not_mem_nil, or_false, forall_eq_or_imp, forall_eq]
            exact ⟨hk'.getD trivial, hk'.getD trivial⟩
        | list hu => exact hf v (hk.get? hv) _ _ _ h1 _ hu
      · rw [construct_map] at h
        split at h
        · rename_i k v hkk hv
          obtain ⟨⟨t1, r1⟩, h1, h⟩ := ok_bind h
          obtain ⟨⟨t2, r2⟩, h2, h⟩ := ok_bind h
          obtain ⟨a, ha, h⟩ := ok_bind h
          simp only [pure, Except.pure] at h; cases h
          intro u hu
          cases hu with
          | refl =>
            refine goodNode (t := .map _ _ a) ((hk.erase "keys").erase "values")
              (by simp [Dict.mem_keys_erase, ht]) (by simp [Dict.mem_keys_erase, ho]) ha ?_
              (by simp [params]) rfl hfin
            simp [reservedKeys, Dict.mem_keys_erase]
          | key hu => exact hf k (hk.get? hkk) _ _ _ h1 _ hu
          | value hu => exact hf v (hk.get? hv) _ _ _ h2 _ hu
        · cases h
      · rw [construct_struct] at h
        obtain ⟨xs, hi, h⟩ := ok_bind h
        obtain ⟨⟨ts, r1⟩, h1, h⟩ := ok_bind h
        obtain ⟨a, ha, h⟩ := ok_bind h
        simp only [pure, Except.pure] at h; cases h
        have hb := parseAll_good hf (real_iter (hk.getD (real_list.mpr (by simp))) hi) h1
        intro u hu
        cases hu with
        | refl =>
          exact goodNode (t := .struct _ a) hk ht ho ha (by simp [reservedKeys]) (by simp [params]) rfl hfin
        | field hm hu => exact hb _ hm _ hu
      · rw [construct_enum] at h
        split at h
        · cases h
        rename_i b hb
        obtain ⟨a, ha, h⟩ := ok_bind h
        simp only [pure, Except.pure] at h; cases h
        intro u hu; cases hu
        refine goodNode (t := .enum _ a) hk ht ho ha (by simp [reservedKeys]) ?_ rfl hfin
        simp only [params, List.mem_cons, List.not_mem_nil, or_false, forall_eq]
        exact hk.get? hb
      · rw [construct_union] at h
        split at h
        · cases h
        rename_i v hv
        obtain ⟨xs, hi, h⟩ := ok_bind h
        obtain ⟨⟨ts, r1⟩, h1, h⟩ := ok_bind h
        obtain ⟨a, ha, h⟩ := ok_bind h
        simp only [pure, Except.pure] at h; cases h
        have hb := parseAll_good hf (real_iter (hk.get? hv) hi) h1
        intro u hu
        cases hu with
        | refl =>
          refine goodNode (t := .union _ a) (hk.erase "types") (by simp [Dict.mem_keys_erase, ht])
            (by simp [Dict.mem_keys_erase, ho]) ha ?_ (by simp [params]) rfl hfin
          simp [reservedKeys, Dict.mem_keys_erase]
        | member hm hu => exact hb _ hm _ hu
    · rw [construct_proxy _ _ _ hcore] at h
      split at h
      · cases h
      rename_i hne
      obtain ⟨a, ha, h⟩ := ok_bind h
      simp only [pure, Except.pure] at h; cases h
      intro u hu; cases hu
      obtain ⟨h1, h2, h3⟩ := mkAttrs_spec hk ha
      simp only [Bool.or_eq_true, not_or, Bool.not_eq_true, Dict.has_eq_false_iff] at hne
      refine ⟨⟨h2, ?_, ?_⟩, h1.1, trivial, h1.2.2.1, h1.2.2.2, by simp [params]⟩
      · intro k hkk hres
        obtain ⟨g1, g2, g3⟩ := h3 k hkk
        simp only [reservedKeys, List.cons_append, List.nil_append, List.mem_cons, List.not_mem_nil, or_false,
          not_or] at hres g3
        rcases hres with rfl | rfl | rfl | rfl | rfl | rfl | rfl | rfl <;> simp_all
      · simp only [RType.isProxy, if_true, RType.attrs]
        exact ⟨name, rfl, hcore⟩
  | _ => simp [construct] at h

theorem fromDict_good (v : PyVal) (hv : Real v) (reg reg' : Registry) (t : RType)
    (h : fromDict v reg = .ok (t, reg')) : ∀ u, Sub u t → GoodNode u := by
  suffices H : ∀ n v, Real v → ∀ reg t reg', fromDictF n v reg = .ok (t, reg') → ∀ u, Sub u t → GoodNode u from
    H _ v hv reg t reg' h
  intro n
  induction n with
  | zero => intro v hv reg t reg' h; simp [fromDictF] at h
  | succ n ih =>
    intro v hv reg t reg' h
    simp only [fromDictF] at h
    obtain ⟨d0, h0, h⟩ := ok_bind h
    obtain ⟨d, hd, h⟩ := ok_bind h
    obtain ⟨⟨t', r1⟩, hc, h⟩ := ok_bind h
    obtain ⟨hr, ho⟩ := real_prepare (real_normalise hv h0) hd
    have := finish_fst h
    subst this
    exact construct_good ih (hr.getD (v := .none) trivial) (hr.erase _) (by simp [Dict.mem_keys_erase])
      (by simp [Dict.mem_keys_erase, ho]) hc h

/-! ## C71 -/

/-- C71: every type that `from_dict` returns is well formed. -/
theorem C71_parsed_types_well_formed (v : PyVal) (hv : Real v) (reg reg' : Registry) (t : RType)
    (h : fromDict v reg = .ok (t, reg')) : WellFormed (names reg) t ∧ RealType t := by
  have hg := fromDict_good v hv reg reg' t h
  obtain ⟨new, h1, h2, h3, -⟩ := C08_aliases_distinct_and_registered _ _ _ _ h
  refine ⟨⟨fun u hu => (hg u hu).1, C06_parsed_types_bounded v reg reg' t h, ?_, ?_⟩, fun u hu => (hg u hu).2⟩
  · rw [h1]
    exact (List.pairwise_map.mpr (h2.imp fun hne e => hne (PyVal.str.inj e)))
  · intro s hs hm
    rw [h1] at hm
    obtain ⟨s', hs', e⟩ := List.mem_map.mp hm
    cases e
    exact (h3 s hs').2 hs

/-- C71: whatever `from_dict` accepts survives writing without compaction and reading back: the
result is `==` to the type read first. -/
theorem C71_parsed_documents_round_trip (v : PyVal) (hv : Real v) (t : RType) (h : parse v = .ok t) :
    ∃ v' t', toDict false false t = .ok v' ∧ parse v' = .ok t' ∧ RType.pyEq t' t = true := by
  unfold parse at h
  cases hf : fromDict v newRegistry with
  | error e => rw [hf] at h; cases h
  | ok r =>
    rw [hf] at h
    cases h
    obtain ⟨h1, h2⟩ := C71_parsed_types_well_formed v hv newRegistry r.2 r.1 hf
    exact C01_verbatim_round_trip _ h1 h2

/-- A document with nested types, aliases, references, extra attributes and the `optional`
shorthand. -/
def sampleDocument : PyVal :=
  .dict [("type", .str "struct"), ("name", .str "s"), ("alias", .str "com.S"), ("fields", .list [
    .dict [("type", .str "list"), ("alias", .str "com.L"), ("values", .dict [("type", .str "int"), ("bits", .int 7)])],
    .dict [("type", .str "com.L"), ("length", .int 3), ("doc", .str "ref")],
    .dict [("type", .str "string32"), ("optional", .bool true), ("x", .dict [("y", .list [.none])])],
    .list [.str "null", .str "bool"]])]

/-- C71's hypotheses hold of the sample document; so those of C01 hold of the type it describes. -/
example : ∃ t, parse sampleDocument = .ok t ∧ WellFormed (names newRegistry) t ∧ RealType t := by
  have hr : Real sampleDocument := by
    simp [sampleDocument, Real, RealPairs, RealAll]
  cases h : fromDict sampleDocument newRegistry with
  | error e =>
    have : (fromDict sampleDocument newRegistry).isOk = true := by decide +kernel
    rw [h] at this; cases this
  | ok r =>
    refine ⟨r.1, ?_, C71_parsed_types_well_formed _ hr _ r.2 r.1 h⟩
    simp [parse, h, Functor.map, Except.map]

end Recap
