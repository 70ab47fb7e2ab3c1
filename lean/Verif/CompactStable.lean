import Verif.CompactThms
import Verif.ServerThms

/-! # What is written can be read and written again: lemmas for C36 and C38 -/

set_option autoImplicit false

namespace Recap

open Spec

/-! ## Written documents are Python values -/

theorem RealDict.update {d e : Dict} (hd : RealDict d) (he : RealDict e) : RealDict (d.update e) := by
  replace he := (realDict_iff.mp he).2
  induction e generalizing d with
  | nil => exact hd
  | cons kv e ih =>
    rw [Dict.update_cons]
    exact ih (hd.set _ (he kv (by simp))) (fun kv' h => he kv' (by simp [h]))

theorem real_cleanAll {f : PyVal → Except PyErr PyVal} {xs ys : List PyVal}
    (hf : ∀ x ∈ xs, ∀ y, f x = .ok y → Real y) (h : cleanAll f xs = .ok ys) : ∀ y ∈ ys, Real y := by
  induction xs generalizing ys with
  | nil => simp only [cleanAll] at h; cases h; simp
  | cons x xs ih =>
    simp only [cleanAll] at h
    obtain ⟨y, h1, h⟩ := ok_bind h
    obtain ⟨ys', h2, h⟩ := ok_bind h
    simp only [pure, Except.pure] at h; cases h
    intro z hz
    rcases List.mem_cons.mp hz with rfl | hz
    · exact hf x (by simp) _ h1
    · exact ih (fun x hx => hf x (by simp [hx])) h2 z hz

theorem real_sugarOptional {d d' : Dict} (hd : RealDict d) (h : sugarOptional d = .ok d') : RealDict d' := by
  have hp : RealDict (popStandard d) := by
    unfold popStandard
    exact ((((hd.erase _).erase _).erase _).erase _).erase _
  unfold sugarOptional at h
  split at h
  · cases h; exact hd
  · cases hts : Dict.get? d "types" with
    | none => rw [hts] at h; cases h
    | some types =>
      rw [hts] at h
      simp only at h
      split at h
      · cases h
      · cases h; exact hd
      · split at h
        · cases h; exact hd
        · split at h
          · split at h
            · rename_i xs _
              have hxs := real_list.mp (hd.get? hts)
              have hrm : ∀ x ∈ removeNull xs, Real x := by
                have sub : ∀ xs : List PyVal, ∀ x ∈ removeNull xs, x ∈ xs := by
                  intro xs
                  induction xs with
                  | nil => simp [removeNull]
                  | cons y ys ih =>
                    intro x hx
                    simp only [removeNull] at hx
                    split at hx
                    · simp [hx]
                    · rcases List.mem_cons.mp hx with rfl | hx
                      · simp
                      · simp [ih x hx]
                intro x hx
                exact hxs x (sub xs x hx)
              have hat : RealDict (sugarAttributes (d.getD "alias" .none) (d.getD "default" .none)
                  (d.getD "doc" .none) (d.getD "logical" .none) (d.getD "name" .none)) := by
                unfold sugarAttributes
                apply RealDict.filter
                rw [realDict_iff]
                refine ⟨by simp [Dict.keys], ?_⟩
                intro kv hkv
                simp only [List.mem_cons, List.not_mem_nil, or_false] at hkv
                rcases hkv with rfl | rfl | rfl | rfl | rfl | rfl <;>
                  first | exact hd.getD trivial | trivial
              unfold sugarUnion at h
              split at h
              · cases h
                refine RealDict.update ?_ hat
                rw [realDict_iff]
                exact ⟨by simp [Dict.keys], by intro kv hkv; simp at hkv; subst hkv; trivial⟩
              · rename_i e _
                cases h
                exact RealDict.update (hrm _ (by rw [e]; simp)) hat
              · cases h
              · cases h
                exact RealDict.update (hp.set _ (real_list.mpr hrm)) hat
            · cases h
          · cases h; exact hp

theorem real_cleanNested {f : PyVal → Except PyErr PyVal} {n : String} {d d' : Dict}
    (hf : ∀ x, Real x → ∀ y, f x = .ok y → Real y) (hd : RealDict d) (h : cleanNested f n d = .ok d') :
    RealDict d' := by
  by_cases hn : n ∈ ["list", "map", "struct", "union"]
  · simp only [List.mem_cons, List.not_mem_nil, or_false] at hn
    rcases hn with rfl | rfl | rfl | rfl
    · rw [cleanNested_list] at h
      cases hv : Dict.get? d "values" with
      | none => rw [hv] at h; cases h
      | some v =>
        rw [hv] at h
        simp only at h
        obtain ⟨v', h1, h2⟩ := ok_bind h
        cases h2
        exact hd.set _ (hf v (hd.get? hv) _ h1)
    · rw [cleanNested_map] at h
      cases hv : Dict.get? d "values" with
      | none => rw [hv] at h; cases h
      | some v =>
        rw [hv] at h
        simp only at h
        obtain ⟨v', h1, h2⟩ := ok_bind h
        cases hkk : Dict.get? d "keys" with
        | none => rw [hkk] at h2; cases h2
        | some w =>
          rw [hkk] at h2
          simp only at h2
          obtain ⟨k', h3, h4⟩ := ok_bind h2
          cases h4
          exact (hd.set _ (hf v (hd.get? hv) _ h1)).set _ (hf w (hd.get? hkk) _ h3)
    · rw [cleanNested_struct] at h
      cases hv : Dict.get? d "fields" with
      | none => rw [hv] at h; cases h; exact hd
      | some v =>
        rw [hv] at h
        simp only at h
        obtain ⟨xs, h1, h2⟩ := ok_bind h
        obtain ⟨ys, h3, h4⟩ := ok_bind h2
        cases h4
        exact hd.set _ (real_list.mpr (real_cleanAll (fun x hx => hf x (real_iter (hd.get? hv) h1 x hx)) h3))
    · rw [cleanNested_union] at h
      cases hv : Dict.get? d "types" with
      | none => rw [hv] at h; cases h
      | some v =>
        rw [hv] at h
        simp only at h
        obtain ⟨xs, h1, h2⟩ := ok_bind h
        obtain ⟨ys, h3, h4⟩ := ok_bind h2
        cases h4
        exact hd.set _ (real_list.mpr (real_cleanAll (fun x hx => hf x (real_iter (hd.get? hv) h1 x hx)) h3))
  · rw [cleanNested_other _ _ hn] at h
    cases h; exact hd

theorem real_shorten {d : Dict} {v : PyVal} (hd : RealDict d) (h : shorten d = .ok v) : Real v := by
  unfold shorten at h
  cases ht : Dict.get? d "type" with
  | none => rw [ht] at h; simp at h
  | some ty =>
    rw [ht] at h
    split at h
    · cases h; exact hd.get? ht
    · simp only at h
      split at h
      · cases hts : Dict.get? d "types" with
        | none => rw [hts] at h; cases h
        | some w => rw [hts] at h; cases h; exact hd.get? hts
      · cases h; exact hd

theorem real_cleanDict {v w : PyVal} (hv : Real v) (h : cleanDict v = .ok w) : Real w := by
  suffices H : ∀ (n : Nat) (v : PyVal), Real v → ∀ w, cleanDictF n v = .ok w → Real w from
    H _ v hv w h
  clear h hv w v
  intro n
  induction n with
  | zero => intro v _ w h; simp [cleanDictF] at h
  | succ n ih =>
    intro v hv w h
    simp only [cleanDictF] at h
    obtain ⟨d, h1, h⟩ := ok_bind h
    have hd : RealDict d := by
      cases v <;> simp only [cleanNormalise] at h1
      case str s =>
        cases h1
        rw [realDict_iff]
        exact ⟨by simp [Dict.keys], by intro kv hkv; simp at hkv; subst hkv; trivial⟩
      case list xs => cases h1; exact realDict_union hv
      case dict e => split at h1 <;> cases h1; exact hv
      all_goals cases h1
    split at h
    · obtain ⟨d1, h2, h⟩ := ok_bind h
      obtain ⟨d2, h3, h⟩ := ok_bind h
      exact real_shorten (real_sugarOptional (real_cleanNested ih (hd.filter _) h2) h3) h
    · cases hts : Dict.get? d "types" with
      | none => rw [hts] at h; cases h
      | some w =>
        rw [hts] at h
        simp only at h
        obtain ⟨xs, g1, h⟩ := ok_bind h
        obtain ⟨ys, g2, h⟩ := ok_bind h
        simp only [pure, Except.pure] at h
        obtain ⟨d1, h2, h⟩ := ok_bind h
        cases h2
        obtain ⟨d2, h3, h⟩ := ok_bind h
        exact real_shorten (real_sugarOptional (realDict_union (real_list.mpr (real_cleanAll
          (fun x hx => ih x (real_iter (hd.get? hts) g1 x hx)) g2))) h3) h
    · obtain ⟨d1, h2, h⟩ := ok_bind h
      cases h2
      obtain ⟨d2, h3, h⟩ := ok_bind h
      exact real_shorten (real_sugarOptional hd h3) h

theorem real_aliasDict {d d' : Dict} {reg reg' : Registry} (hd : RealDict d)
    (h : aliasDict d reg = .ok (d', reg')) : RealDict d' := by
  suffices H : ∀ (n : Nat) (d : Dict), RealDict d → ∀ reg d' reg', aliasDictF n d reg = .ok (d', reg') →
      RealDict d' from H _ d hd _ _ _ h
  intro n
  induction n with
  | zero => intro d _ reg d' reg' h; simp [aliasDictF] at h
  | succ n ih =>
    have all : ∀ xs : List PyVal, (∀ x ∈ xs, Real x) → ∀ reg ys reg',
        aliasAll (aliasDictF n) xs reg = .ok (ys, reg') → ∀ y ∈ ys, Real y := by
      intro xs
      induction xs with
      | nil => intro _ reg ys reg' h; simp only [aliasAll] at h; cases h; simp
      | cons x xs ihx =>
        intro hx reg ys reg' h
        simp only [aliasAll] at h
        obtain ⟨⟨x', r1⟩, h1, h⟩ := ok_bind h
        obtain ⟨⟨ys', r2⟩, h2, h⟩ := ok_bind h
        simp only [pure, Except.pure] at h; cases h
        intro y hy
        rcases List.mem_cons.mp hy with rfl | hy
        · have hrx := hx x (by simp)
          unfold aliasElem at h1
          split at h1
          · obtain ⟨⟨d', r3⟩, h3, h1⟩ := ok_bind h1
            simp only [pure, Except.pure] at h1; cases h1
            exact ih _ hrx _ _ _ h3
          · cases h1; exact hrx
        · exact ihx (fun x h => hx x (by simp [h])) _ _ _ h2 y hy
    have keys : ∀ (ks : List String) (d : Dict), RealDict d → ∀ reg d' reg',
        aliasKeys (aliasDictF n) ks d reg = .ok (d', reg') → RealDict d' := by
      intro ks
      induction ks with
      | nil => intro d hd reg d' reg' h; simp only [aliasKeys] at h; cases h; exact hd
      | cons k ks ihk =>
        intro d hd reg d' reg' h
        simp only [aliasKeys] at h
        split at h
        · rename_i xs hx
          obtain ⟨⟨ys, r1⟩, h1, h⟩ := ok_bind h
          exact ihk _ (hd.set _ (real_list.mpr (all xs (real_list.mp (hd.get? hx)) _ _ _ h1))) _ _ _ h
        · rename_i e hx
          obtain ⟨⟨ys, r1⟩, h1, h⟩ := ok_bind h
          exact ihk _ (hd.set _ (ih e (hd.get? hx) _ _ _ h1)) _ _ _ h
        · exact ihk _ hd _ _ _ h
    intro d hd reg d' reg' h
    simp only [aliasDictF] at h
    split at h
    · cases h; exact hd
    · obtain ⟨⟨t, r1⟩, h1, h⟩ := ok_bind h
      simp only at h
      split at h
      · simp only [pure, Except.pure] at h; cases h
        rw [realDict_iff]
        exact ⟨by simp [Dict.keys], by intro kv hkv; simp at hkv; subst hkv; trivial⟩
      · exact keys _ d hd _ _ _ h

theorem real_postProcess {clean alias : Bool} {d : Dict} {v : PyVal} (hd : RealDict d)
    (h : postProcess clean alias d = .ok v) : Real v := by
  have fin : ∀ d', RealDict d' → (if clean then cleanDict (.dict d') else pure (.dict d')) = .ok v → Real v := by
    intro d' hd' h
    split at h
    · exact real_cleanDict hd' h
    · cases h; exact hd'
  cases alias with
  | false => exact fin d hd h
  | true =>
    cases g : aliasDict d newRegistry with
    | error e => simp [postProcess, g, Functor.map, Except.map, bind, Except.bind] at h
    | ok r =>
      simp only [postProcess, if_true, g, Functor.map, Except.map, bind, Except.bind] at h
      exact fin r.1 (real_aliasDict hd g) h

theorem real_baseDict {t : RType} (hr : RealNode t) : RealDict (baseDict t) := by
  unfold baseDict
  refine RealDict.update ?_ hr.2.2.2.1
  rw [realDict_iff]
  refine ⟨by simp [Dict.keys], ?_⟩
  intro kv hkv
  simp only [List.mem_cons, List.not_mem_nil, or_false] at hkv
  rcases hkv with rfl | rfl | rfl | rfl
  · trivial
  · exact hr.2.1
  · exact hr.1
  · exact hr.2.2.1

theorem real_toDictList {clean alias : Bool} {ts : List RType} (hr : ∀ t ∈ ts, ∀ v, toDict clean alias t = .ok v → Real v)
    {vs : List PyVal} (h : toDictList clean alias ts = .ok vs) : ∀ v ∈ vs, Real v := by
  induction ts generalizing vs with
  | nil => simp only [toDictList] at h; cases h; simp
  | cons t ts ih =>
    simp only [toDictList] at h
    obtain ⟨v, h1, h⟩ := ok_bind h
    obtain ⟨vs', h2, h⟩ := ok_bind h
    simp only [pure, Except.pure] at h; cases h
    intro x hx
    rcases List.mem_cons.mp hx with rfl | hx
    · exact hr t (by simp) _ h1
    · exact ih (fun u hu => hr u (by simp [hu])) h2 x hx

/-- `to_dict` returns dictionaries without duplicate keys. -/
theorem real_toDict {clean alias : Bool} {t : RType} (hr : RealType t) {v : PyVal}
    (h : toDict clean alias t = .ok v) : Real v := by
  have hb := real_baseDict (hr t .refl)
  have hp : ∀ k v, (k, v) ∈ params t → Real v := fun k v hm => hr.param hm
  have hc : ∀ c ∈ children t, ∀ v, toDict clean alias c = .ok v → Real v := by
    intro c hc v hv
    have := size_child hc
    exact real_toDict (hr.child hc) hv
  cases t with
  | null a => exact real_postProcess hb (by simpa only [toDict] using h)
  | bool a => exact real_postProcess hb (by simpa only [toDict] using h)
  | int b s a =>
    exact real_postProcess ((hb.set _ (hp "bits" b (by simp [params]))).set _ (hp "signed" s (by simp [params])))
      (by simpa only [toDict] using h)
  | float b a =>
    exact real_postProcess (hb.set _ (hp "bits" b (by simp [params]))) (by simpa only [toDict] using h)
  | string b w a =>
    exact real_postProcess ((hb.set _ (hp "bytes_" b (by simp [params]))).set _ (hp "variable" w (by simp [params])))
      (by simpa only [toDict] using h)
  | bytes b w a =>
    exact real_postProcess ((hb.set _ (hp "bytes_" b (by simp [params]))).set _ (hp "variable" w (by simp [params])))
      (by simpa only [toDict] using h)
  | list u l w a =>
    simp only [toDict] at h
    obtain ⟨u', h1, h⟩ := ok_bind h
    exact real_postProcess (((hb.set _ (hc u (by simp [children]) _ h1)).set _
      (hp "length" l (by simp [params]))).set _ (hp "variable" w (by simp [params]))) h
  | map k u a =>
    simp only [toDict] at h
    obtain ⟨k', h1, h⟩ := ok_bind h
    obtain ⟨u', h2, h⟩ := ok_bind h
    exact real_postProcess ((hb.set _ (hc k (by simp [children]) _ h1)).set _ (hc u (by simp [children]) _ h2)) h
  | struct fs a =>
    simp only [toDict] at h
    obtain ⟨vs, h1, h⟩ := ok_bind h
    exact real_postProcess (hb.set _ (real_list.mpr (real_toDictList hc h1))) h
  | enum s a =>
    exact real_postProcess (hb.set _ (hp "symbols" s (by simp [params]))) (by simpa only [toDict] using h)
  | union ts a =>
    simp only [toDict] at h
    obtain ⟨vs, h1, h⟩ := ok_bind h
    exact real_postProcess (hb.set _ (real_list.mpr (real_toDictList hc h1))) h
  | proxy r a =>
    simp only [toDict] at h
    exact real_postProcess ((hb.erase _).set _ (hb.getD (v := .none) trivial)) h
termination_by sizeOf t

/-! ## Properties that equal types share -/

theorem pyEqList_mem {ts us : List RType} (h : RType.pyEqList ts us = true) {t : RType} (ht : t ∈ ts) :
    ∃ u ∈ us, RType.pyEq t u = true := by
  induction ts generalizing us with
  | nil => cases ht
  | cons x xs ih =>
    cases us with
    | nil => simp [RType.pyEqList] at h
    | cons y ys =>
      simp only [RType.pyEqList, Bool.and_eq_true] at h
      rcases List.mem_cons.mp ht with rfl | ht
      · exact ⟨y, by simp, h.1⟩
      · obtain ⟨u, h1, h2⟩ := ih h.2 ht
        exact ⟨u, by simp [h1], h2⟩

theorem pyEq_child {t u c : RType} (h : RType.pyEq t u = true) (hc : c ∈ children t) :
    ∃ d ∈ children u, RType.pyEq c d = true := by
  cases t <;> cases u <;> simp only [RType.pyEq, Bool.and_eq_true, reduceCtorEq] at h <;>
    simp only [children, List.not_mem_nil, List.mem_cons, or_false] at hc ⊢
  · subst hc; exact ⟨_, rfl, h.2.1.1⟩
  · rcases hc with rfl | rfl
    · exact ⟨_, .inl rfl, h.2.1⟩
    · exact ⟨_, .inr rfl, h.2.2⟩
  · exact pyEqList_mem h.2 hc
  · exact pyEqList_mem h.2 hc

/-- What is nested in a type is equal to something nested in an equal type. -/
theorem pyEq_sub {t u x : RType} (h : RType.pyEq t u = true) (hs : Sub x t) :
    ∃ y, Sub y u ∧ RType.pyEq x y = true := by
  rcases sub_iff.mp hs with rfl | ⟨c, hc, hs⟩
  · exact ⟨u, .refl, h⟩
  · obtain ⟨d, h1, h2⟩ := pyEq_child h hc
    have := size_child hc
    obtain ⟨y, h3, h4⟩ := pyEq_sub h2 hs
    exact ⟨y, h3.trans (.child h1), h4⟩
termination_by sizeOf t

theorem attrsEq_get? {a b : Attrs} (h : RType.attrsEq a b = true) (ha : a.extra.keys.Nodup)
    (hb : b.extra.keys.Nodup) (k : String) : OptEq (Dict.get? a.extra k) (Dict.get? b.extra k) := by
  unfold RType.attrsEq at h
  simp only [Bool.and_eq_true] at h
  exact (dictEq_iff ha hb).mp h.2 k

theorem attrsEq_keys {a b : Attrs} (h : RType.attrsEq a b = true) (ha : a.extra.keys.Nodup)
    (hb : b.extra.keys.Nodup) (k : String) : k ∈ a.extra.keys ↔ k ∈ b.extra.keys := by
  have := attrsEq_get? h ha hb k
  have h1 := Dict.get?_eq_none_iff (d := a.extra) (k := k)
  have h2 := Dict.get?_eq_none_iff (d := b.extra) (k := k)
  cases g1 : Dict.get? a.extra k <;> cases g2 : Dict.get? b.extra k <;> rw [g1, g2] at this <;>
    simp [OptEq] at this <;> simp_all

theorem pyEq_none_iff {v w : PyVal} (h : PyVal.pyEq v w = true) : v = .none ↔ w = .none := by
  constructor <;> rintro rfl
  · cases w <;> simp [PyVal.pyEq] at h ⊢
  · cases v <;> simp [PyVal.pyEq] at h ⊢

theorem plainKeys_of_pyEq {t u : RType} (h : RType.pyEq t u = true) (ht : ∀ x, Sub x t → x.attrs.extra.keys.Nodup)
    (hu : ∀ x, Sub x u → x.attrs.extra.keys.Nodup) (hk : PlainKeys u) : PlainKeys t := by
  intro x hx k hkx
  obtain ⟨y, h1, h2⟩ := pyEq_sub h hx
  exact hk y h1 k ((attrsEq_keys (attrs_of_pyEq h2) (ht x hx) (hu y h1) k).mp hkx)

theorem plainNull_of_pyEq {t u : RType} (h : RType.pyEq t u = true) (ht : RealType t) (hu : RealType u) :
    IsPlainNull t ↔ IsPlainNull u := by
  unfold IsPlainNull
  constructor
  · intro h1
    exact RType.pyEq_trans _ _ _ (RType.pyEq_symm _ _ ht hu h) h1
  · intro h1
    exact RType.pyEq_trans _ _ _ h h1

theorem optionalForm_of_pyEq {ts us : List RType} {a b : Attrs} (h : RType.pyEqList ts us = true)
    (hab : RType.attrsEq a b = true) (ha : a.extra.keys.Nodup) (hb : b.extra.keys.Nodup)
    (hts : ∀ t ∈ ts, RealType t) (hus : ∀ u ∈ us, RealType u) (ho : OptionalForm us b) : OptionalForm ts a := by
  rintro ⟨n, hn, hp⟩ hd
  have keys := attrsEq_keys hab ha hb
  obtain ⟨m, hm, hnm⟩ := pyEqList_mem h hn
  obtain ⟨h1, h2, m, rest, rfl, h4, h5, h6⟩ := ho
    ⟨m, hm, (plainNull_of_pyEq hnm (hts n hn) (hus m hm)).mp hp⟩ ((keys _).mp hd)
  cases ts with
  | nil => simp [RType.pyEqList] at h
  | cons n' rest' =>
    simp only [RType.pyEqList, Bool.and_eq_true] at h
    refine ⟨fun k hk => h1 k ((keys k).mp hk), ?_, n', rest', rfl, ?_, ?_, ?_⟩
    · intro e
      have := attrsEq_get? hab ha hb "name"
      rw [e] at this
      cases g : Dict.get? b.extra "name" with
      | none => rw [g] at this; simp [OptEq] at this
      | some w =>
        rw [g] at this
        simp only [OptEq] at this
        rw [(pyEq_none_iff this).mp rfl] at g
        exact h2 g
    · exact (plainNull_of_pyEq h.1 (hts _ (by simp)) (hus _ (by simp))).mpr h4
    · intro u hu hpu
      obtain ⟨v, hv, e⟩ := pyEqList_mem h.2 hu
      exact h5 v hv ((plainNull_of_pyEq e (hts _ (by simp [hu])) (hus _ (by simp [hv]))).mp hpu)
    · intro e1 e2 u hu
      subst hu
      cases rest with
      | nil => simp [RType.pyEqList] at h
      | cons v rest =>
        have h3 := h.2
        simp only [RType.pyEqList, Bool.and_eq_true] at h3
        cases rest with
        | cons => simp [RType.pyEqList] at h3
        | nil =>
          unfold RType.attrsEq at hab
          simp only [Bool.and_eq_true] at hab
          obtain ⟨g1, g2, g3, g4⟩ := h6 ((pyEq_none_iff hab.1.1.2).mp e1) ((pyEq_none_iff hab.1.1.1).mp e2) v rfl
          have hk := attrsEq_keys (attrs_of_pyEq h3.1) (hts u (by simp) u .refl).2.2.2.1.1 (hus v (by simp) v .refl).2.2.2.1.1
          exact ⟨(pyEq_none_iff hab.1.2).mpr g1, by rw [typeName_of_pyEq h3.1]; exact g2,
            fun hm => g3 ((hk _).mp hm), fun hm => g4 ((hk _).mp hm)⟩

theorem canonical_of_pyEq {t u : RType} (h : RType.pyEq t u = true) (ht : RealType t) (hu : RealType u)
    (hc : Canonical u) : Canonical t := by
  intro ts a hs
  obtain ⟨y, h1, h2⟩ := pyEq_sub h hs
  cases y <;> simp only [RType.pyEq, Bool.and_eq_true, Bool.false_eq_true] at h2
  rename_i us b
  exact optionalForm_of_pyEq h2.2 h2.1 (ht _ hs).2.2.2.1.1 (hu _ h1).2.2.2.1.1
    (fun x hx w hw => ht w (hw.trans ((Sub.child (t := .union ts a) hx).trans hs)))
    (fun x hx w hw => hu w (hw.trans ((Sub.child (t := .union us b) hx).trans h1))) (hc us b h1)


/-! ## Writing twice -/

theorem pyEq_congr {t u e : RType} (h : RType.pyEq t u = true) (ht : RealType t) (hu : RealType u) :
    RType.pyEq t e = RType.pyEq u e := by
  rw [Bool.eq_iff_iff]
  exact ⟨RType.pyEq_trans _ _ _ (RType.pyEq_symm _ _ ht hu h), RType.pyEq_trans _ _ _ h⟩

theorem builtinFor_congr {t u : RType} (h : RType.pyEq t u = true) (ht : RealType t) (hu : RealType u) :
    builtinFor t = builtinFor u := by
  unfold builtinFor
  rw [find_congr (fun e _ => pyEq_congr h ht hu)]

theorem aliased_leaf {t : RType} (h : children t = []) (hn : t.typeName ∉ ["struct", "union"]) :
    aliased t = match builtinFor t with
      | some k => reference k
      | .none => t := by
  cases t <;> simp [children, RType.typeName] at h hn <;> rfl

theorem aliased_congr_leaf {t u : RType} (hc : children t = []) (hn : t.typeName ∉ ["struct", "union"]) (ht : RealType t)
    (hu : RealType u) (h : RType.pyEq t u = true) : RType.pyEq (aliased t) (aliased u) = true := by
  have hc' : children u = [] := by
    cases t <;> cases u <;> simp [RType.pyEq, children, RType.typeName] at h hc hn ⊢
  rw [aliased_leaf hc hn, aliased_leaf hc' (by rw [← typeName_of_pyEq h]; exact hn), builtinFor_congr h ht hu]
  split
  · exact RType.pyEq_refl _ (by
      intro x hx
      rcases sub_iff.mp hx with rfl | ⟨c, hc, -⟩
      · simp [reference, RealNode, RType.attrs, Real, RealPairs, params]
      · simp [reference, children] at hc)
  · exact h

mutual
theorem aliased_congr : ∀ t u : RType, RealType t → RealType u → RType.pyEq t u = true →
    RType.pyEq (aliased t) (aliased u) = true
  | .list t l v a, u, ht, hu, h => by
    cases u <;> simp only [RType.pyEq, Bool.and_eq_true, Bool.false_eq_true] at h
    simp only [aliased, RType.pyEq, Bool.and_eq_true]
    exact ⟨h.1, ⟨aliased_congr t _ (ht.child (by simp [children])) (hu.child (by simp [children])) h.2.1.1, h.2.1.2⟩, h.2.2⟩
  | .map k v a, u, ht, hu, h => by
    cases u <;> simp only [RType.pyEq, Bool.and_eq_true, Bool.false_eq_true] at h
    simp only [aliased, RType.pyEq, Bool.and_eq_true]
    exact ⟨h.1, aliased_congr k _ (ht.child (by simp [children])) (hu.child (by simp [children])) h.2.1,
      aliased_congr v _ (ht.child (by simp [children])) (hu.child (by simp [children])) h.2.2⟩
  | .struct fs a, u, ht, hu, h => by
    cases u <;> simp only [RType.pyEq, Bool.and_eq_true, Bool.false_eq_true] at h
    simp only [aliased, RType.pyEq, Bool.and_eq_true]
    exact ⟨h.1, aliasedAll_congr fs _ (fun c hc => ht.child (by simpa [children] using hc))
      (fun c hc => hu.child (by simpa [children] using hc)) h.2⟩
  | .union ts a, u, ht, hu, h => by
    cases u <;> simp only [RType.pyEq, Bool.and_eq_true, Bool.false_eq_true] at h
    simp only [aliased, RType.pyEq, Bool.and_eq_true]
    exact ⟨h.1, aliasedAll_congr ts _ (fun c hc => ht.child (by simpa [children] using hc))
      (fun c hc => hu.child (by simpa [children] using hc)) h.2⟩
  | .null a, u, ht, hu, h => aliased_congr_leaf rfl (by simp [RType.typeName]) ht hu h
  | .bool a, u, ht, hu, h => aliased_congr_leaf rfl (by simp [RType.typeName]) ht hu h
  | .int b s a, u, ht, hu, h => aliased_congr_leaf rfl (by simp [RType.typeName]) ht hu h
  | .float b a, u, ht, hu, h => aliased_congr_leaf rfl (by simp [RType.typeName]) ht hu h
  | .string b v a, u, ht, hu, h => aliased_congr_leaf rfl (by simp [RType.typeName]) ht hu h
  | .bytes b v a, u, ht, hu, h => aliased_congr_leaf rfl (by simp [RType.typeName]) ht hu h
  | .enum s a, u, ht, hu, h => aliased_congr_leaf rfl (by simp [RType.typeName]) ht hu h
  | .proxy r a, u, ht, hu, h => aliased_congr_leaf rfl (by simp [RType.typeName]) ht hu h
theorem aliasedAll_congr : ∀ ts us : List RType, (∀ t ∈ ts, RealType t) → (∀ u ∈ us, RealType u) →
    RType.pyEqList ts us = true → RType.pyEqList (aliasedAll ts) (aliasedAll us) = true
  | [], us, _, _, h => by
    cases us with
    | nil => rfl
    | cons => simp [RType.pyEqList] at h
  | t :: ts, us, ht, hu, h => by
    cases us with
    | nil => simp [RType.pyEqList] at h
    | cons u us =>
      simp only [aliasedAll, RType.pyEqList, Bool.and_eq_true] at h ⊢
      exact ⟨aliased_congr t u (ht t (by simp)) (hu u (by simp)) h.1,
        aliasedAll_congr ts us (fun t h => ht t (by simp [h])) (fun t h => hu t (by simp [h])) h.2⟩
end

theorem aliased_idem_leaf {t : RType} (hc : children t = []) (hn : t.typeName ∉ ["struct", "union"]) :
    aliased (aliased t) = aliased t := by
  rw [aliased_leaf hc hn]
  cases hb : builtinFor t with
  | some k =>
    have : builtinFor (reference k) = .none := builtinFor_kind (by simp [reference, RType.typeName])
    simp only [reference] at this
    simp only [reference, aliased, this]
  | none => simp only; rw [aliased_leaf hc hn, hb]

mutual
theorem aliased_idem : ∀ t : RType, aliased (aliased t) = aliased t
  | .list t l v a => by simp only [aliased, aliased_idem t]
  | .map k v a => by simp only [aliased, aliased_idem k, aliased_idem v]
  | .struct fs a => by simp only [aliased, aliasedAll_idem fs]
  | .union ts a => by simp only [aliased, aliasedAll_idem ts]
  | .null a => aliased_idem_leaf rfl (by simp [RType.typeName])
  | .bool a => aliased_idem_leaf rfl (by simp [RType.typeName])
  | .int b s a => aliased_idem_leaf rfl (by simp [RType.typeName])
  | .float b a => aliased_idem_leaf rfl (by simp [RType.typeName])
  | .string b v a => aliased_idem_leaf rfl (by simp [RType.typeName])
  | .bytes b v a => aliased_idem_leaf rfl (by simp [RType.typeName])
  | .enum s a => aliased_idem_leaf rfl (by simp [RType.typeName])
  | .proxy r a => aliased_idem_leaf rfl (by simp [RType.typeName])
theorem aliasedAll_idem : ∀ ts : List RType, aliasedAll (aliasedAll ts) = aliasedAll ts
  | [] => rfl
  | t :: ts => by simp only [aliasedAll, aliased_idem t, aliasedAll_idem ts]
end

theorem reads_defined {v : PyVal} {t : RType} (h : ReadsAs v newRegistry t) : ∃ t', parse v = .ok t' ∧
    RType.pyEq t' t = true ∧ definedAliases t' = definedAliases t := by
  obtain ⟨t', reg', h1, h2, h3, -⟩ := h
  exact ⟨t', by simp only [parse, h1, Functor.map, Except.map], h2, h3⟩

theorem defined_own {t : RType} (hp : t.isProxy = false) (h : ∀ c ∈ children t, definedAliases c = []) :
    definedAliases t = own t.attrs := by
  cases t <;> simp only [definedAliases, RType.attrs, RType.isProxy, Bool.true_eq_false] at hp ⊢
  · rw [h _ (by simp [children])]; rfl
  · rw [h _ (by simp [children]), h _ (by simp [children])]; rfl
  · rw [definedAll_nil.mpr (by simpa [children] using h)]; rfl
  · rw [definedAll_nil.mpr (by simpa [children] using h)]; rfl

theorem defined_split {t : RType} {c : RType} (h : definedAliases t = own t.attrs) (hc : c ∈ children t) :
    definedAliases c = [] := by
  cases t <;> simp only [definedAliases, RType.attrs] at h <;>
    simp only [children, List.not_mem_nil, List.mem_cons, or_false] at hc
  · subst hc; simpa using h
  · simp only [List.append_left_eq_self, List.append_eq_nil_iff] at h
    rcases hc with rfl | rfl
    · exact h.1
    · exact h.2
  · exact definedAll_nil.mp (by simpa using h) c hc
  · exact definedAll_nil.mp (by simpa using h) c hc

end Recap
