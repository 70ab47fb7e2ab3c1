import Verif.CompactLemmas

/-! # Reading the documents of `Doc`: lemmas for C02 – C05 -/

set_option autoImplicit false

namespace Recap

open Spec

theorem bounded_list {t : RType} {l w : PyVal} {a : Attrs} (h : Bounded (.list t l w a)) :
    SizeOK l w ∧ Bounded t := by simpa only [Bounded] using h

theorem pyEqList_cons {t' t : RType} {ts' ts : List RType} (h1 : RType.pyEq t' t = true)
    (h2 : RType.pyEqList ts' ts = true) : RType.pyEqList (t' :: ts') (t :: ts) = true := by
  simp only [RType.pyEqList, h1, h2, Bool.and_self]

theorem plainNull_eq : RType.pyEq (.null {}) (.null {}) = true := by decide

/-- What reading back documents one after the other gives. -/
def ReadsAllAs (xs : List PyVal) (reg : Registry) (ts : List RType) : Prop :=
  ∃ ts' reg', parseAll fromDict xs reg = .ok (ts', reg') ∧ RType.pyEqList ts' ts = true ∧
    definedAliasesAll ts' = definedAliasesAll ts ∧ BoundedAll ts' ∧
    ∀ s ∈ names reg', s ∈ names reg ∨ .str s ∈ definedAliasesAll ts

theorem readsAll_null {xs : List PyVal} {reg : Registry} {ts : List RType} (h : ReadsAllAs xs reg ts) :
    ReadsAllAs (.str "null" :: xs) reg (.null {} :: ts) := by
  obtain ⟨ts', reg', h1, h2, h3, h4, h5⟩ := h
  refine ⟨.null {} :: ts', reg', ?_, pyEqList_cons plainNull_eq h2, ?_, ?_, ?_⟩
  · simp only [parseAll, fromDict_null, h1, bind, Except.bind, pure, Except.pure]
  · simp only [definedAliasesAll, h3]
  · simp only [BoundedAll, h4, and_true]; simp only [Bounded]
  · intro s hs
    rcases h5 s hs with h | h
    · exact .inl h
    · exact .inr (by simp only [definedAliasesAll]; exact List.mem_append_right _ h)

/-- The last step of reading a union, a struct. -/
theorem read_branch {t t' : RType} {reg reg1 : Registry} {cs : List PyVal} (hp : t.isProxy = false)
    (hp' : t'.isProxy = false) (he : RType.pyEq t' t = true) (hal : t'.attrs.alias = t.attrs.alias)
    (hd : definedAliases t = cs ++ own t.attrs) (hd' : definedAliases t' = cs ++ own t'.attrs)
    (hb : Bounded t') (ha : AliasesOK t) (hn : (definedAliases t).Nodup)
    (hf : ∀ s ∈ names reg, .str s ∉ definedAliases t)
    (hr : ∀ s ∈ names reg1, s ∈ names reg ∨ .str s ∈ cs) :
    definedAliases t' = definedAliases t ∧ ∃ reg', finish t' reg1 = .ok (t', reg') := by
  have e : definedAliases t' = definedAliases t := by rw [hd, hd', own_of_alias hal]
  exact ⟨e, finish_read (t := t') (reg := reg) (reg1 := reg1) (cs := cs) hp'
    (by rw [hal]; exact ha t .refl hp) hb hd' (by rw [e]; exact hn) (by rw [e]; exact hf) hr⟩

mutual
/-- `from_dict` reads a document for `t` as `t`. -/
theorem Doc.read : ∀ {v : PyVal} {t : RType}, Doc v t → ∀ reg : Registry, Bounded t → RealType t →
    AliasesOK t → (definedAliases t).Nodup → (∀ s ∈ names reg, .str s ∉ definedAliases t) → ReadsAs v reg t
  | _, _, .short h => fun reg hb hr ha hn hf => by
    obtain ⟨t', reg', h1, h2⟩ := Doc.read h reg hb hr ha hn hf
    exact ⟨t', reg', by rw [C20_string_shorthand]; exact h1, h2⟩
  | _, _, .shortUnion h => fun reg hb hr ha hn hf => by
    obtain ⟨t', reg', h1, h2⟩ := Doc.read h reg hb hr ha hn hf
    exact ⟨t', reg', by rw [C20_list_shorthand]; exact h1, h2⟩
  | _, _, .null (a := a) hk h => fun reg hb hr ha hn hf => by
    obtain ⟨a', m1, m2, m3, m4⟩ := h.bind hk.has.1 hk.has.2 hk.nodup hr.attrs
    refine read_leaf (t' := .null a') hk ?_ rfl rfl ?_ m3 rfl rfl trivial m4 ha hn hf
    · rw [construct_null, m1]; rfl
    · simpa only [RType.pyEq] using m2
  | _, _, .bool (a := a) hk h => fun reg hb hr ha hn hf => by
    obtain ⟨a', m1, m2, m3, m4⟩ := h.bind hk.has.1 hk.has.2 hk.nodup hr.attrs
    refine read_leaf (t' := .bool a') hk ?_ rfl rfl ?_ m3 rfl rfl trivial m4 ha hn hf
    · rw [construct_bool, m1]; rfl
    · simpa only [RType.pyEq] using m2
  | _, _, .int (kw := kw) (b := b) (s := s) (a := a) hk h hbits hs => fun reg hb hr ha hn hf => by
    obtain ⟨a', m1, m2, m3, m4⟩ := h.bind hk.has.1 hk.has.2 hk.nodup hr.attrs
    refine read_leaf (t' := .int b (kw.getD "signed" (.bool true)) a') hk ?_ rfl rfl ?_ m3 rfl rfl
      (by simpa only [Bounded] using hb) m4 ha hn hf
    · rw [construct_int, hbits]; simp only; rw [m1]; rfl
    · simp only [RType.pyEq, m2, Bool.true_and, Bool.and_eq_true]
      exact ⟨pyEq_refl _ (hr.param (k := "bits") (by simp [params])), hs⟩
  | _, _, .float (kw := kw) (b := b) (a := a) hk h hbits => fun reg hb hr ha hn hf => by
    obtain ⟨a', m1, m2, m3, m4⟩ := h.bind hk.has.1 hk.has.2 hk.nodup hr.attrs
    refine read_leaf (t' := .float b a') hk ?_ rfl rfl ?_ m3 rfl rfl
      (by simpa only [Bounded] using hb) m4 ha hn hf
    · rw [construct_float, hbits]; simp only; rw [m1]; rfl
    · simp only [RType.pyEq, m2, Bool.true_and]
      exact pyEq_refl _ (hr.param (k := "bits") (by simp [params]))
  | _, _, .string (kw := kw) (b := b) (w := w) (a := a) hk h hb_ hbytes hw => fun reg hb hr ha hn hf => by
    obtain ⟨a', m1, m2, m3, m4⟩ := (h.rename hb_).bind (hk.rename hb_).1 (hk.rename hb_).2.1 (hk.rename hb_).2.2
      hr.attrs
    have e1 : Dict.getD (renameBytes kw) "bytes_" .none = b := by
      rw [← hbytes]; unfold Dict.getD; rw [renameBytes_get? hb_, if_pos rfl]
    have e2 : Dict.getD (renameBytes kw) "variable" (.bool true) = Dict.getD kw "variable" (.bool true) := by
      unfold Dict.getD; rw [renameBytes_get? hb_, if_neg (by decide), if_neg (by decide)]
    refine read_leaf (t' := .string b (kw.getD "variable" (.bool true)) a') hk ?_ rfl rfl ?_ m3 rfl rfl
      ?_ m4 ha hn hf
    · rw [construct_string]; simp only [e1, e2]; rw [m1]; rfl
    · simp only [RType.pyEq, m2, Bool.true_and, Bool.and_eq_true]
      exact ⟨pyEq_refl _ (hr.param (k := "bytes_") (by simp [params])), hw⟩
    · simp only [Bounded] at hb ⊢; exact sizeOK_of_pyEq hb hw
  | _, _, .bytes (kw := kw) (b := b) (w := w) (a := a) hk h hb_ hbytes hw => fun reg hb hr ha hn hf => by
    obtain ⟨a', m1, m2, m3, m4⟩ := (h.rename hb_).bind (hk.rename hb_).1 (hk.rename hb_).2.1 (hk.rename hb_).2.2
      hr.attrs
    have e1 : Dict.getD (renameBytes kw) "bytes_" .none = b := by
      rw [← hbytes]; unfold Dict.getD; rw [renameBytes_get? hb_, if_pos rfl]
    have e2 : Dict.getD (renameBytes kw) "variable" (.bool true) = Dict.getD kw "variable" (.bool true) := by
      unfold Dict.getD; rw [renameBytes_get? hb_, if_neg (by decide), if_neg (by decide)]
    refine read_leaf (t' := .bytes b (kw.getD "variable" (.bool true)) a') hk ?_ rfl rfl ?_ m3 rfl rfl
      ?_ m4 ha hn hf
    · rw [construct_bytes]; simp only [e1, e2]; rw [m1]; rfl
    · simp only [RType.pyEq, m2, Bool.true_and, Bool.and_eq_true]
      exact ⟨pyEq_refl _ (hr.param (k := "bytes_") (by simp [params])), hw⟩
    · simp only [Bounded] at hb ⊢; exact sizeOK_of_pyEq hb hw
  | _, _, .enum (kw := kw) (s := s) (a := a) hk h hsym => fun reg hb hr ha hn hf => by
    obtain ⟨a', m1, m2, m3, m4⟩ := h.bind hk.has.1 hk.has.2 hk.nodup hr.attrs
    refine read_leaf (t' := .enum s a') hk ?_ rfl rfl ?_ m3 rfl rfl trivial m4 ha hn hf
    · rw [construct_enum, hsym]; simp only; rw [m1]; rfl
    · simp only [RType.pyEq, m2, Bool.true_and]
      exact pyEq_refl _ (hr.param (k := "symbols") (by simp [params]))
  | _, _, .proxy (n := n) (kw := kw) (r := r) (a := a) hk h hn hal hreg hname => fun reg hb hr ha hnd hf => by
    have hra : RealAttrs { a with alias := .none } := by
      obtain ⟨h1, h2, h3, h4⟩ := hr.attrs
      exact ⟨h1, trivial, h3, h4⟩
    obtain ⟨a', m1, m2, m3, m4⟩ := h.bind hk.has.1 hk.has.2 hk.nodup hra
    refine ⟨.proxy .none { a' with alias := .str n }, reg, ?_, ?_, ?_, ?_, m4⟩
    · refine hk.plain ?_ finish_proxy_ok
      rw [construct_proxy _ _ _ hn, Dict.has_eq_false_iff.mpr hal, Dict.has_eq_false_iff.mpr hreg, m1]
      rfl
    · simp only [RType.pyEq]
      unfold RType.attrsEq at m2 ⊢
      simp only [Bool.and_eq_true] at m2 ⊢
      exact ⟨⟨⟨m2.1.1.1, by rw [hname]; simp [PyVal.pyEq]⟩, m2.1.2⟩, m2.2⟩
    · simp only [definedAliases]
    · simp only [Bounded]
  | _, _, .list (kw := kw) (v := v) (t := t) (l := l) (w := w) (a := a) hk h hv hd hl hw =>
      fun reg hb hr ha hn hf => by
    have hb' := bounded_list hb
    have hda : definedAliases (.list t l w a) = definedAliases t ++ own a := by simp only [definedAliases]
    obtain ⟨t', reg1, g1, g2, g3, g4, -⟩ := Doc.read hd reg hb'.2 (realType_sub hr (.list .refl))
      (ha.sub (.list .refl)) (nodup_left (hda ▸ hn))
      (fun s hs hm => hf s hs (by rw [hda]; exact List.mem_append_left _ hm))
    obtain ⟨a', m1, m2, m3, m4⟩ := (h.erase (by simp)).bind (has_erase (k' := "values") hk.has.1)
      (has_erase hk.has.2) (by rw [Dict.keys_erase]; exact hk.nodup.filter _) hr.attrs
    obtain ⟨e, reg', hfin⟩ := read_branch (t := .list t l w a)
      (t' := .list t' l (kw.getD "variable" (.bool true)) a') (reg := reg) (reg1 := reg1)
      (cs := definedAliases t) rfl rfl (by
        simp only [RType.pyEq, m2, g2, Bool.true_and, Bool.and_eq_true]
        exact ⟨pyEq_refl _ (hr.param (k := "length") (by simp [params])), hw⟩) m3 hda
      (by simp only [definedAliases, g3]; rfl)
      (by simp only [Bounded]; exact ⟨sizeOK_of_pyEq hb'.1 hw, g4⟩) ha hn hf (names_read g1 g3)
    refine ⟨_, reg', hk.plain ?_ hfin, ?_, e, ?_, m4⟩
    · rw [construct_listT, hv]
      simp only [g1, bind, Except.bind]
      rw [m1, getD_erase (by decide), getD_erase (by decide), hl]
      rfl
    · simp only [RType.pyEq, m2, g2, Bool.true_and, Bool.and_eq_true]
      exact ⟨pyEq_refl _ (hr.param (k := "length") (by simp [params])), hw⟩
    · simp only [Bounded]; exact ⟨sizeOK_of_pyEq hb'.1 hw, g4⟩
  | _, _, .map (kw := kw) (k := k) (v := v) (t := t) (u := u) (a := a) hk h hkey hval hdk hdv =>
      fun reg hb hr ha hn hf => by
    have hb' := hb
    simp only [Bounded] at hb'
    have hda : definedAliases (.map t u a) = (definedAliases t ++ definedAliases u) ++ own a := by
      simp only [definedAliases]
    have hn1 := nodup_left (hda ▸ hn)
    obtain ⟨t', reg1, g1, g2, g3, g4, -⟩ := Doc.read hdk reg hb'.1 (realType_sub hr (.key .refl))
      (ha.sub (.key .refl)) (nodup_left hn1)
      (fun s hs hm => hf s hs (by rw [hda]; exact List.mem_append_left _ (List.mem_append_left _ hm)))
    obtain ⟨u', reg2, k1, k2, k3, k4, -⟩ := Doc.read hdv reg1 hb'.2 (realType_sub hr (.value .refl))
      (ha.sub (.value .refl)) (nodup_right hn1)
      (fun s hs hm => by
        rcases names_read g1 g3 s hs with h | h
        · exact hf s h (by rw [hda]; exact List.mem_append_left _ (List.mem_append_right _ hm))
        · exact (List.nodup_append.mp hn1).2.2 _ h _ hm rfl)
    obtain ⟨a', m1, m2, m3, m4⟩ := ((h.erase (by simp)).erase (by simp)).bind
      (has_erase (has_erase (k' := "keys") hk.has.1)) (has_erase (has_erase hk.has.2))
      (by rw [Dict.keys_erase, Dict.keys_erase]; exact (hk.nodup.filter _).filter _) hr.attrs
    obtain ⟨e, reg', hfin⟩ := read_branch (t := .map t u a) (t' := .map t' u' a') (reg := reg) (reg1 := reg2)
      (cs := definedAliases t ++ definedAliases u) rfl rfl
      (by simp only [RType.pyEq, m2, g2, k2, Bool.and_self]) m3 hda
      (by simp only [definedAliases, g3, k3]; rfl)
      (by simp only [Bounded]; exact ⟨g4, k4⟩) ha hn hf (fun s hs => by
        rcases names_read k1 k3 s hs with h | h
        · rcases names_read g1 g3 s h with h | h
          · exact .inl h
          · exact .inr (List.mem_append_left _ h)
        · exact .inr (List.mem_append_right _ h))
    refine ⟨_, reg', hk.plain ?_ hfin, ?_, e, ?_, m4⟩
    · rw [construct_map, hkey, hval]
      simp only [g1, k1, bind, Except.bind]
      rw [m1]
      rfl
    · simp only [RType.pyEq, m2, g2, k2, Bool.and_self]
    · simp only [Bounded]; exact ⟨g4, k4⟩
  | _, _, .struct (kw := kw) (xs := xs) (ts := ts) (a := a) hk h hx hd => fun reg hb hr ha hn hf => by
    have hb' := hb
    simp only [Bounded] at hb'
    have hda : definedAliases (.struct ts a) = definedAliasesAll ts ++ own a := by simp only [definedAliases]
    obtain ⟨ts', reg1, g1, g2, g3, g4, g5⟩ := DocAll.read hd reg hb'
      (fun c hc => realType_sub hr (.field hc .refl)) (fun c hc => ha.sub (.field hc .refl))
      (nodup_left (hda ▸ hn)) (fun s hs hm => hf s hs (by rw [hda]; exact List.mem_append_left _ hm))
    obtain ⟨a', m1, m2, m3, m4⟩ := h.bind hk.has.1 hk.has.2 hk.nodup hr.attrs
    obtain ⟨e, reg', hfin⟩ := read_branch (t := .struct ts a) (t' := .struct ts' a') (reg := reg) (reg1 := reg1)
      (cs := definedAliasesAll ts) rfl rfl (by simp only [RType.pyEq, m2, g2, Bool.and_self]) m3 hda
      (by simp only [definedAliases, g3]; rfl) (by simp only [Bounded]; exact g4) ha hn hf g5
    refine ⟨_, reg', hk.plain ?_ hfin, ?_, e, ?_, m4⟩
    · have : Dict.getD kw "fields" (.list []) = .list xs := by unfold Dict.getD; rw [hx]; rfl
      rw [construct_struct, this]
      simp only [PyVal.iter, g1, bind, Except.bind]
      rw [m1]
      rfl
    · simp only [RType.pyEq, m2, g2, Bool.and_self]
    · simp only [Bounded]; exact g4
  | _, _, .union (kw := kw) (xs := xs) (ts := ts) (a := a) hk h hx hd => fun reg hb hr ha hn hf => by
    have hb' := hb
    simp only [Bounded] at hb'
    have hda : definedAliases (.union ts a) = definedAliasesAll ts ++ own a := by simp only [definedAliases]
    obtain ⟨ts', reg1, g1, g2, g3, g4, g5⟩ := DocAll.read hd reg hb'
      (fun c hc => realType_sub hr (.member hc .refl)) (fun c hc => ha.sub (.member hc .refl))
      (nodup_left (hda ▸ hn)) (fun s hs hm => hf s hs (by rw [hda]; exact List.mem_append_left _ hm))
    obtain ⟨a', m1, m2, m3, m4⟩ := (h.erase (by simp)).bind (has_erase (k' := "types") hk.has.1)
      (has_erase hk.has.2) (by rw [Dict.keys_erase]; exact hk.nodup.filter _) hr.attrs
    obtain ⟨e, reg', hfin⟩ := read_branch (t := .union ts a) (t' := .union ts' a') (reg := reg) (reg1 := reg1)
      (cs := definedAliasesAll ts) rfl rfl (by simp only [RType.pyEq, m2, g2, Bool.and_self]) m3 hda
      (by simp only [definedAliases, g3]; rfl) (by simp only [Bounded]; exact g4) ha hn hf g5
    refine ⟨_, reg', hk.plain ?_ hfin, ?_, e, ?_, m4⟩
    · rw [construct_union, hx]
      simp only [PyVal.iter, g1, bind, Except.bind]
      rw [m1]
      rfl
    · simp only [RType.pyEq, m2, g2, Bool.and_self]
    · simp only [Bounded]; exact g4
  | _, _, .optional (n := n) (kw := kw) (es := es) (u := u) (e := e) hd hu ht hk hs => fun reg hb hr ha hn hf => by
    have hb' := hb
    simp only [Bounded, BoundedAll] at hb'
    have hda : definedAliases (.union [.null {}, u] { extra := e }) = definedAliases u := by
      simp [definedAliases, definedAliasesAll, own]
    have hm : u ∈ [RType.null {}, u] := by simp
    obtain ⟨u', reg1, g1, g2, g3, g4, -⟩ := Doc.read hd reg hb'.2.1 (realType_sub hr (.member hm .refl))
      (ha.sub (.member hm .refl)) (by rw [← hda]; exact hn)
      (fun s hs hm => hf s hs (by rw [hda]; exact hm))
    refine ⟨.union [.null {}, u'] { extra := restored es }, reg1, ?_, ?_, ?_, ?_, restored_nodup es⟩
    · rw [fromDict_optional reg hs hu ht hk]
      simp only [parseAll, fromDict_null, g1, bind, Except.bind, pure, Except.pure]
    · simp only [RType.pyEq, RType.pyEqList, g2, Bool.and_true, Bool.and_eq_true]
      refine ⟨?_, by decide⟩
      simp only [RType.attrsEq, hs.extra]
      decide
    · rw [hda]
      simp [definedAliases, definedAliasesAll, own, g3]
    · simp only [Bounded, BoundedAll, g4, and_true]
  | _, _, .optionalUnion (kw := kw) (xs := xs) (ts := ts) (a := a) hs hx hnull hd => fun reg hb hr ha hn hf => by
    have hb' := hb
    simp only [Bounded, BoundedAll] at hb'
    have hda : definedAliases (.union (.null {} :: ts) a) = definedAliasesAll (.null {} :: ts) ++ own a := by
      simp only [definedAliases]
    have hda2 : definedAliasesAll (.null {} :: ts) = definedAliasesAll ts := by
      simp [definedAliases, definedAliasesAll, own]
    obtain ⟨ts', reg1, g1, g2, g3, g4, g5⟩ := readsAll_null (DocAll.read hd reg hb'.2
      (fun c hc => realType_sub hr (.member (List.mem_cons_of_mem _ hc) .refl))
      (fun c hc => ha.sub (.member (List.mem_cons_of_mem _ hc) .refl))
      (by rw [← hda2]; exact nodup_left (hda ▸ hn))
      (fun s hs hm => hf s hs (by rw [hda, hda2]; exact List.mem_append_left _ hm)))
    have m2 : RType.attrsEq { a with extra := restored kw } a = true := by
      obtain ⟨r1, r2, r3, -⟩ := hr.attrs
      simp only [RType.attrsEq, hs.extra, Bool.and_true, Bool.and_eq_true]
      exact ⟨⟨pyEq_refl _ r1, pyEq_refl _ r2⟩, pyEq_refl _ r3⟩
    obtain ⟨e, reg', hfin⟩ := read_branch (t := .union (.null {} :: ts) a)
      (t' := .union ts' { a with extra := restored kw }) (reg := reg) (reg1 := reg1)
      (cs := definedAliasesAll (.null {} :: ts)) rfl rfl (by simp only [RType.pyEq, m2, g2, Bool.and_self]) rfl hda
      (by simp only [definedAliases, g3]; rfl) (by simp only [Bounded]; exact g4) ha hn hf g5
    refine ⟨_, reg', ?_, ?_, e, ?_, restored_nodup kw⟩
    · rw [fromDict_optionalUnion reg hs hx hnull, g1]
      exact hfin
    · simp only [RType.pyEq, m2, g2, Bool.and_self]
    · simp only [Bounded]; exact g4
theorem DocAll.read : ∀ {xs : List PyVal} {ts : List RType}, DocAll xs ts → ∀ reg : Registry, BoundedAll ts →
    (∀ t ∈ ts, RealType t) → (∀ t ∈ ts, AliasesOK t) → (definedAliasesAll ts).Nodup →
    (∀ s ∈ names reg, .str s ∉ definedAliasesAll ts) → ReadsAllAs xs reg ts
  | _, _, .nil => fun reg _ _ _ _ _ => ⟨[], reg, rfl, rfl, rfl, trivial, fun s hs => .inl hs⟩
  | _, _, .cons (t := t) (ts := ts) hd hds => fun reg hb hr ha hn hf => by
    simp only [BoundedAll] at hb
    simp only [definedAliasesAll] at hn hf
    obtain ⟨t', reg1, g1, g2, g3, g4, -⟩ := Doc.read hd reg hb.1 (hr t (by simp)) (ha t (by simp)) (nodup_left hn)
      (fun s hs hm => hf s hs (List.mem_append_left _ hm))
    obtain ⟨ts', reg2, k1, k2, k3, k4, k5⟩ := DocAll.read hds reg1 hb.2 (fun c hc => hr c (by simp [hc]))
      (fun c hc => ha c (by simp [hc])) (nodup_right hn) (fun s hs hm => by
        rcases names_read g1 g3 s hs with h | h
        · exact hf s h (List.mem_append_right _ hm)
        · exact (List.nodup_append.mp hn).2.2 _ h _ hm rfl)
    refine ⟨t' :: ts', reg2, ?_, pyEqList_cons g2 k2, ?_, ?_, ?_⟩
    · simp only [parseAll, g1, k1, bind, Except.bind, pure, Except.pure]
    · simp only [definedAliasesAll, g3, k3]
    · simp only [BoundedAll]; exact ⟨g4, k4⟩
    · intro s hs
      simp only [definedAliasesAll]
      rcases k5 s hs with h | h
      · rcases names_read g1 g3 s h with h | h
        · exact .inl h
        · exact .inr (List.mem_append_left _ h)
      · exact .inr (List.mem_append_right _ h)
end

end Recap
