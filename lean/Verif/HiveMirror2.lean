import Verif.HiveMirror

/-!
# Lemmas: what a Hive type stands for is kept by equality and by flattening
-/

set_option autoImplicit false

namespace Recap.Hive

open RType Spec Relational

/-! ### Equal types -/

theorem realNode_self {t : RType} (h : RealType t) : RealNode t := h t .refl

theorem extra_eq {a b : Attrs} (ha : RealAttrs a) (hb : RealAttrs b) (h : attrsEq a b = true)
    {k : String} {v : PyVal} (hv : Dict.get? b.extra k = some v) :
    ∃ v', Dict.get? a.extra k = some v' ∧ PyVal.pyEq v' v = true := by
  simp only [attrsEq, Bool.and_eq_true] at h
  have := (dictEq_iff ha.2.2.2.1 hb.2.2.2.1).mp h.2 k
  rw [hv] at this
  cases e : Dict.get? a.extra k with
  | none => rw [e] at this; exact this.elim
  | some v' => rw [e] at this; exact ⟨v', rfl, this⟩

theorem attrsEq_of_pyEq {t u : RType} (h : pyEq t u = true) : attrsEq t.attrs u.attrs = true := by
  cases t <;> cases u <;> simp_all [pyEq, RType.attrs]

theorem typeName_of_pyEq {t u : RType} (h : pyEq t u = true) : t.typeName = u.typeName := by
  cases t <;> cases u <;> simp_all [pyEq, typeName]

/-- The attributes of a class are equal for equal types. -/
theorem params_eq {t u : RType} (h : pyEq t u = true) (k : String) :
    (Dict.get? (params u) k = .none → Dict.get? (params t) k = .none) ∧
    ∀ v, Dict.get? (params u) k = some v →
      ∃ v', Dict.get? (params t) k = some v' ∧ PyVal.pyEq v' v = true := by
  have g1 : ∀ (n : String) (x y : PyVal), PyVal.pyEq x y = true →
      (Dict.get? [(n, y)] k = .none → Dict.get? [(n, x)] k = .none) ∧
      ∀ v, Dict.get? [(n, y)] k = some v →
        ∃ v', Dict.get? [(n, x)] k = some v' ∧ PyVal.pyEq v' v = true := by
    intro n x y hxy
    by_cases hk : n = k
    · simp [Dict.get?, hk, hxy]
    · simp [Dict.get?, hk]
  have g2 : ∀ (n m : String) (x y z w : PyVal), PyVal.pyEq x y = true → PyVal.pyEq z w = true →
      (Dict.get? [(n, y), (m, w)] k = .none → Dict.get? [(n, x), (m, z)] k = .none) ∧
      ∀ v, Dict.get? [(n, y), (m, w)] k = some v →
        ∃ v', Dict.get? [(n, x), (m, z)] k = some v' ∧ PyVal.pyEq v' v = true := by
    intro n m x y z w hxy hzw
    by_cases hk : n = k
    · simp [Dict.get?, hk, hxy]
    · by_cases hm : m = k
      · simp [Dict.get?, hk, hm, hzw]
      · simp [Dict.get?, hk, hm]
  cases t <;> cases u <;> simp only [pyEq, Bool.and_eq_true, Bool.false_eq_true] at h <;>
    simp only [params]
  case int.int => exact g2 _ _ _ _ _ _ h.2.1 h.2.2
  case float.float => exact g1 _ _ _ h.2
  case string.string => exact g2 _ _ _ _ _ _ h.2.1 h.2.2
  case bytes.bytes => exact g2 _ _ _ _ _ _ h.2.1 h.2.2
  case list.list => exact g2 _ _ _ _ _ _ h.2.1.2 h.2.2
  case enum.enum => exact g1 _ _ _ h.2
  all_goals simp [Dict.get?]

theorem attr_eq {t u : RType} (ht : RealType t) (hu : RealType u) (h : pyEq t u = true)
    {k : String} {v : PyVal} (hv : attr u k = some v) :
    ∃ v', attr t k = some v' ∧ PyVal.pyEq v' v = true := by
  have ha := attrsEq_of_pyEq h
  have ha' := ha
  simp only [attrsEq, Bool.and_eq_true] at ha'
  unfold attr at hv ⊢
  split
  · rename_i hk
    rw [if_pos hk] at hv
    cases hv
    exact ⟨_, rfl, ha'.1.1.1⟩
  rename_i hk
  rw [if_neg hk] at hv
  split
  · rename_i hk
    rw [if_pos hk] at hv
    cases hv
    exact ⟨_, rfl, ha'.1.1.2⟩
  rename_i hk
  rw [if_neg hk] at hv
  split
  · rename_i hk
    rw [if_pos hk] at hv
    cases hv
    exact ⟨_, rfl, ha'.1.2⟩
  rename_i hk
  rw [if_neg hk] at hv
  obtain ⟨p1, p2⟩ := params_eq h k
  cases e : Dict.get? (params u) k with
  | none =>
    rw [e] at hv
    rw [p1 e]
    exact extra_eq (realNode_iff.mp (realNode_self ht)).1 (realNode_iff.mp (realNode_self hu)).1 ha hv
  | some w =>
    rw [e] at hv
    cases hv
    obtain ⟨v', h1, h2⟩ := p2 _ e
    rw [h1]
    exact ⟨v', rfl, h2⟩

theorem fits_eq {e : String × List (String × PyVal)} {t u : RType} (ht : RealType t)
    (hu : RealType u) (h : pyEq t u = true) (hf : Fits e u) : Fits e t := by
  refine ⟨(typeName_of_pyEq h).trans hf.1, ?_⟩
  intro kv hkv
  obtain ⟨v, h1, h2⟩ := hf.2 kv hkv
  obtain ⟨v', h3, h4⟩ := attr_eq ht hu h h1
  exact ⟨v', h3, pyEq_trans _ _ _ h4 h2⟩

theorem pyEq_str {v : PyVal} {s : String} (h : PyVal.pyEq v (.str s) = true) : v = .str s := by
  cases v <;> simp_all [PyVal.pyEq]

theorem pyEq_none {v : PyVal} (h : PyVal.pyEq v .none = true) : v = .none := by
  cases v <;> simp_all [PyVal.pyEq]

theorem isNull_of_pyEq {t u : RType} (h : pyEq t u = true) : t.isNull = u.isNull := by
  cases t <;> cases u <;> simp_all [pyEq, isNull]

theorem isUnion_of_pyEq {t u : RType} (h : pyEq t u = true) : t.isUnion = u.isUnion := by
  cases t <;> cases u <;> simp_all [pyEq, isUnion]

theorem any_isNull_of_pyEqList : ∀ {ts us : List RType}, pyEqList ts us = true →
    ts.any isNull = us.any isNull
  | [], [], _ => rfl
  | [], _ :: _, h => by simp [pyEqList] at h
  | _ :: _, [], h => by simp [pyEqList] at h
  | t :: ts, u :: us, h => by
    simp only [pyEqList, Bool.and_eq_true] at h
    simp only [List.any_cons, isNull_of_pyEq h.1, any_isNull_of_pyEqList h.2]

theorem isNullable_of_pyEq {t u : RType} (h : pyEq t u = true) : t.isNullable = u.isNullable := by
  cases t <;> cases u <;> simp only [pyEq, Bool.and_eq_true, Bool.false_eq_true] at h <;>
    simp only [isNullable]
  exact any_isNull_of_pyEqList h.2

theorem fieldNamed_eq {n : String} {d : PyVal} (hd : d = .none ∨ ∃ s, d = .str s) {t u : RType}
    (ht : RealType t) (hu : RealType u) (h : pyEq t u = true) (hf : FieldNamed n d u) :
    FieldNamed n d t := by
  obtain ⟨h1, h2, h3, h4⟩ := hf
  have ra := (realNode_iff.mp (realNode_self ht)).1
  have rb := (realNode_iff.mp (realNode_self hu)).1
  have ha := attrsEq_of_pyEq h
  refine ⟨?_, ?_, ?_, ?_⟩
  · obtain ⟨v, e1, e2⟩ := extra_eq ra rb ha h1
    rw [e1, pyEq_str e2]
  · simp only [attrsEq, Bool.and_eq_true] at ha
    have := ha.1.2
    rw [h2] at this
    rcases hd with rfl | ⟨s, rfl⟩
    · exact pyEq_none this
    · exact pyEq_str this
  · rw [isNullable_of_pyEq h, h3]
  · intro hun
    obtain ⟨v, e1, e2⟩ := extra_eq ra rb ha (h4 (by rw [← isUnion_of_pyEq h, hun]))
    rw [e1, pyEq_none e2]

/-! ### Fewer alternatives -/

/-- Every alternative of `t` is an alternative of `t'`, up to equality. -/
def Within (t t' : RType) : Prop :=
  ∀ m ∈ alternatives t, ∃ m' ∈ alternatives t', m' = m ∨ pyEq m' m = true

theorem alternatives_sub {t m : RType} (h : m ∈ alternatives t) : Sub m t := by
  cases t with
  | union ts a => exact .member h .refl
  | _ =>
    simp only [alternatives, List.mem_singleton] at h
    rw [h]
    exact .refl

theorem pyEqList_mem : ∀ {ts us : List RType}, pyEqList ts us = true → ∀ m ∈ us,
    ∃ m' ∈ ts, pyEq m' m = true
  | [], [], _ => by simp
  | [], _ :: _, h => by simp [pyEqList] at h
  | _ :: _, [], h => by simp [pyEqList] at h
  | t :: ts, u :: us, h => by
    simp only [pyEqList, Bool.and_eq_true] at h
    intro m hm
    rcases List.mem_cons.mp hm with rfl | hm
    · exact ⟨t, List.mem_cons_self .., h.1⟩
    · obtain ⟨m', h1, h2⟩ := pyEqList_mem h.2 m hm
      exact ⟨m', List.mem_cons_of_mem _ h1, h2⟩

theorem within_of_pyEq {t' t : RType} (h : pyEq t' t = true) : Within t t' := by
  intro m hm
  have hu := isUnion_of_pyEq h
  cases t with
  | union ts a =>
    cases t' <;> simp [isUnion] at hu
    simp only [pyEq, Bool.and_eq_true] at h
    obtain ⟨m', h1, h2⟩ := pyEqList_mem h.2 m hm
    exact ⟨m', h1, .inr h2⟩
  | _ =>
    simp only [alternatives, List.mem_singleton] at hm
    subst hm
    cases t' <;> simp [isUnion] at hu <;> exact ⟨_, List.mem_singleton.mpr rfl, .inr h⟩

mutual
theorem mirrors_within : ∀ (h : HType) (t t' : RType), RealType t → RealType t' → Within t t' →
    Mirrors h t → Mirrors h t'
  | .prim c, t, t', ht, ht', w, hm => fits_within ht ht' w hm
  | .decimal p s, t, t', ht, ht', w, hm => fits_within ht ht' w hm
  | .varchar n, t, t', ht, ht', w, hm => fits_within ht ht' w hm
  | .char n, t, t', ht, ht', w, hm => fits_within ht ht' w hm
  | .list e, t, t', ht, ht', w, hm => by
    rw [Mirrors] at hm ⊢
    obtain ⟨e', l, v, a, hmem, he⟩ := hm
    obtain ⟨m', hmem', hm'⟩ := w _ hmem
    rcases hm' with rfl | hm'
    · exact ⟨e', l, v, a, hmem', he⟩
    · cases m' <;> simp only [pyEq, Bool.and_eq_true, Bool.false_eq_true] at hm'
      rename_i e'' l' v' a'
      have r1 := realType_sub ht (alternatives_sub hmem)
      have r2 := realType_sub ht' (alternatives_sub hmem')
      exact ⟨e'', l', v', a', hmem', mirrors_within e e' e'' (realType_sub r1 (.list .refl))
        (realType_sub r2 (.list .refl)) (within_of_pyEq hm'.2.1.1) he⟩
  | .map k v, t, t', ht, ht', w, hm => by
    rw [Mirrors] at hm ⊢
    obtain ⟨k', v', a, hmem, hk, hv⟩ := hm
    obtain ⟨m', hmem', hm'⟩ := w _ hmem
    rcases hm' with rfl | hm'
    · exact ⟨k', v', a, hmem', hk, hv⟩
    · cases m' <;> simp only [pyEq, Bool.and_eq_true, Bool.false_eq_true] at hm'
      rename_i k'' v'' a'
      have r1 := realType_sub ht (alternatives_sub hmem)
      have r2 := realType_sub ht' (alternatives_sub hmem')
      exact ⟨k'', v'', a', hmem',
        mirrors_within k k' k'' (realType_sub r1 (.key .refl))
          (realType_sub r2 (.key .refl)) (within_of_pyEq hm'.2.1) hk,
        mirrors_within v v' v'' (realType_sub r1 (.value .refl))
          (realType_sub r2 (.value .refl)) (within_of_pyEq hm'.2.2) hv⟩
  | .union hs, t, t', ht, ht', w, hm => by
    rw [Mirrors] at hm ⊢
    exact mirrorsAll_within hs t t' ht ht' w hm
  | .struct fs, t, t', ht, ht', w, hm => by
    rw [Mirrors] at hm ⊢
    obtain ⟨gs, a, hmem, hg⟩ := hm
    obtain ⟨m', hmem', hm'⟩ := w _ hmem
    rcases hm' with rfl | hm'
    · exact ⟨gs, a, hmem', hg⟩
    · cases m' <;> simp only [pyEq, Bool.and_eq_true, Bool.false_eq_true] at hm'
      rename_i gs' a'
      have r1 := realType_sub ht (alternatives_sub hmem)
      have r2 := realType_sub ht' (alternatives_sub hmem')
      exact ⟨gs', a', hmem', mirrorsFields_eq fs gs gs'
        (fun g hg => realType_sub r1 (.field hg .refl))
        (fun g hg => realType_sub r2 (.field hg .refl)) hm'.2 hg⟩
theorem mirrorsAll_within : ∀ (hs : List HType) (t t' : RType), RealType t → RealType t' →
    Within t t' → MirrorsAll hs t → MirrorsAll hs t'
  | [], _, _, _, _, _, _ => by rw [MirrorsAll]; trivial
  | h :: hs, t, t', ht, ht', w, hm => by
    rw [MirrorsAll] at hm ⊢
    exact ⟨mirrors_within h t t' ht ht' w hm.1, mirrorsAll_within hs t t' ht ht' w hm.2⟩
theorem mirrorsFields_eq : ∀ (fs : List (String × HType)) (gs gs' : List RType),
    (∀ g ∈ gs, RealType g) → (∀ g ∈ gs', RealType g) → pyEqList gs' gs = true →
    MirrorsFields fs gs → MirrorsFields fs gs'
  | [], gs, gs', _, _, he, hm => by
    rw [MirrorsFields] at hm ⊢
    subst hm
    cases gs' with
    | nil => rfl
    | cons g gs' => simp [pyEqList] at he
  | (n, h) :: fs, gs, gs', r1, r2, he, hm => by
    rw [MirrorsFields] at hm ⊢
    obtain ⟨g, gs₁, rfl, hn, hh, hfs⟩ := hm
    cases gs' with
    | nil => simp [pyEqList] at he
    | cons g' gs' =>
      simp only [pyEqList, Bool.and_eq_true] at he
      have q1 := r1 g (List.mem_cons_self ..)
      have q2 := r2 g' (List.mem_cons_self ..)
      exact ⟨g', gs', rfl, fieldNamed_eq (.inl rfl) q2 q1 he.1 hn,
        mirrors_within h g g' q1 q2 (within_of_pyEq he.1) hh,
        mirrorsFields_eq fs gs₁ gs' (fun x hx => r1 x (List.mem_cons_of_mem _ hx))
          (fun x hx => r2 x (List.mem_cons_of_mem _ hx)) he.2 hfs⟩
theorem fits_within {e : String × List (String × PyVal)} {t t' : RType} (ht : RealType t)
    (ht' : RealType t') (w : Within t t') (hm : ∃ u ∈ alternatives t, Fits e u) :
    ∃ u ∈ alternatives t', Fits e u := by
  obtain ⟨u, hu, hf⟩ := hm
  obtain ⟨u', hu', h⟩ := w u hu
  rcases h with rfl | h
  · exact ⟨u', hu', hf⟩
  · exact ⟨u', hu', fits_eq (realType_sub ht' (alternatives_sub hu'))
      (realType_sub ht (alternatives_sub hu)) h hf⟩
end

/-! ### Flattening -/

theorem flatten_alternative {t m : RType} (h : m ∈ alternatives t) (hu : m.isUnion = false) :
    ∃ m' ∈ alternatives (flatten t), m' = flatten m ∨ pyEq m' (flatten m) = true := by
  have hfu : (flatten m).isUnion = false := by
    cases m <;> simp [isUnion] at hu <;> simp [flatten, isUnion]
  cases t with
  | union ts a =>
    rw [flatten]
    simp only [alternatives] at h ⊢
    have hmem : flatten m ∈ flattenAll ts := by
      rw [flattenAll_eq]
      exact List.mem_map.mpr ⟨m, h, rfl⟩
    rcases represented (acc := []) hmem (.inl ⟨hfu, rfl⟩) with h | ⟨m', h, h'⟩
    · exact ⟨_, h, .inl rfl⟩
    · exact ⟨m', h, .inr h'⟩
  | _ =>
    simp only [alternatives, List.mem_singleton] at h
    subst h
    refine ⟨_, ?_, .inl rfl⟩
    rw [flatten] <;> simp [alternatives]

theorem fits_flatten {e : String × List (String × PyVal)} {t : RType} (ht : RealType t)
    (he : e.1 ∉ ["union", "struct", "list", "map"]) (hm : ∃ u ∈ alternatives t, Fits e u) :
    ∃ u ∈ alternatives (flatten t), Fits e u := by
  obtain ⟨u, hu, hf⟩ := hm
  have hn : u.typeName ∉ ["union", "struct", "list", "map"] := by rw [hf.1]; exact he
  have hfl : flatten u = u := by
    cases u <;> simp [typeName] at hn <;> rw [flatten] <;> simp
  have hun : u.isUnion = false := by
    cases u <;> simp [typeName] at hn <;> rfl
  obtain ⟨m', h1, h2⟩ := flatten_alternative hu hun
  rw [hfl] at h2
  rcases h2 with rfl | h2
  · exact ⟨m', h1, hf⟩
  · exact ⟨m', h1, fits_eq (realType_sub (flatten_real t ht) (alternatives_sub h1))
      (realType_sub ht (alternatives_sub hu)) h2 hf⟩

theorem expected_name (c : Primitive) : (expected c).1 ∉ ["union", "struct", "list", "map"] := by
  cases c <;> simp [expected]

theorem fieldNamed_flatten {n : String} {d : PyVal} {g : RType} (h : FieldNamed n d g) :
    FieldNamed n d (flatten g) := by
  obtain ⟨h1, h2, h3, h4⟩ := h
  have h5 := flatten_nullable h3
  cases g <;> simp [isNullable] at h3
  case null => exact ⟨h1, h2, h5, h4⟩
  case union ts a =>
    rw [flatten] at h5 ⊢
    exact ⟨h1, h2, h5, h4⟩

mutual
theorem mirrors_flatten : ∀ (h : HType) (t : RType), RealType t → Mirrors h t →
    Mirrors h (flatten t)
  | .prim c, t, ht, hm => fits_flatten ht (expected_name c) hm
  | .decimal p s, t, ht, hm => fits_flatten ht (by simp) hm
  | .varchar n, t, ht, hm => fits_flatten ht (by simp) hm
  | .char n, t, ht, hm => fits_flatten ht (by simp) hm
  | .list e, t, ht, hm => by
    rw [Mirrors] at hm ⊢
    obtain ⟨e', l, v, a, hmem, he⟩ := hm
    have r1 := realType_sub (realType_sub ht (alternatives_sub hmem)) (.list .refl)
    have ih := mirrors_flatten e e' r1 he
    obtain ⟨m', hmem', hm'⟩ := flatten_alternative hmem rfl
    rw [flatten] at hm'
    rcases hm' with rfl | hm'
    · exact ⟨_, _, _, _, hmem', ih⟩
    · cases m' <;> simp only [pyEq, Bool.and_eq_true, Bool.false_eq_true] at hm'
      have r2 := realType_sub (flatten_real t ht) (alternatives_sub hmem')
      exact ⟨_, _, _, _, hmem', mirrors_within e _ _ (flatten_real e' r1)
        (realType_sub r2 (.list .refl)) (within_of_pyEq hm'.2.1.1) ih⟩
  | .map k v, t, ht, hm => by
    rw [Mirrors] at hm ⊢
    obtain ⟨k', v', a, hmem, hk, hv⟩ := hm
    have r1 := realType_sub (realType_sub ht (alternatives_sub hmem)) (.key .refl)
    have r2 := realType_sub (realType_sub ht (alternatives_sub hmem)) (.value .refl)
    have ih1 := mirrors_flatten k k' r1 hk
    have ih2 := mirrors_flatten v v' r2 hv
    obtain ⟨m', hmem', hm'⟩ := flatten_alternative hmem rfl
    rw [flatten] at hm'
    rcases hm' with rfl | hm'
    · exact ⟨_, _, _, hmem', ih1, ih2⟩
    · cases m' <;> simp only [pyEq, Bool.and_eq_true, Bool.false_eq_true] at hm'
      have r3 := realType_sub (flatten_real t ht) (alternatives_sub hmem')
      exact ⟨_, _, _, hmem',
        mirrors_within k _ _ (flatten_real k' r1) (realType_sub r3 (.key .refl))
          (within_of_pyEq hm'.2.1) ih1,
        mirrors_within v _ _ (flatten_real v' r2) (realType_sub r3 (.value .refl))
          (within_of_pyEq hm'.2.2) ih2⟩
  | .union hs, t, ht, hm => by
    rw [Mirrors] at hm ⊢
    exact mirrorsAll_flatten hs t ht hm
  | .struct fs, t, ht, hm => by
    rw [Mirrors] at hm ⊢
    obtain ⟨gs, a, hmem, hg⟩ := hm
    have r1 := realType_sub ht (alternatives_sub hmem)
    have r1' : ∀ g ∈ gs, RealType g := fun g hg => realType_sub r1 (.field hg .refl)
    have ih := mirrorsFields_flatten fs gs r1' hg
    obtain ⟨m', hmem', hm'⟩ := flatten_alternative hmem rfl
    rw [flatten] at hm'
    rcases hm' with rfl | hm'
    · exact ⟨_, _, hmem', ih⟩
    · cases m' <;> simp only [pyEq, Bool.and_eq_true, Bool.false_eq_true] at hm'
      have r2 := realType_sub (flatten_real t ht) (alternatives_sub hmem')
      exact ⟨_, _, hmem', mirrorsFields_eq fs _ _ (flattenAll_real gs r1')
        (fun g hg => realType_sub r2 (.field hg .refl)) hm'.2 ih⟩
theorem mirrorsAll_flatten : ∀ (hs : List HType) (t : RType), RealType t → MirrorsAll hs t →
    MirrorsAll hs (flatten t)
  | [], _, _, _ => by rw [MirrorsAll]; trivial
  | h :: hs, t, ht, hm => by
    rw [MirrorsAll] at hm ⊢
    exact ⟨mirrors_flatten h t ht hm.1, mirrorsAll_flatten hs t ht hm.2⟩
theorem mirrorsFields_flatten : ∀ (fs : List (String × HType)) (gs : List RType),
    (∀ g ∈ gs, RealType g) → MirrorsFields fs gs → MirrorsFields fs (flattenAll gs)
  | [], gs, _, hm => by
    rw [MirrorsFields] at hm ⊢
    rw [hm, flattenAll]
  | (n, h) :: fs, gs, r, hm => by
    rw [MirrorsFields] at hm ⊢
    obtain ⟨g, gs₁, rfl, hn, hh, hfs⟩ := hm
    refine ⟨flatten g, flattenAll gs₁, by rw [flattenAll], fieldNamed_flatten hn,
      mirrors_flatten h g (r g (List.mem_cons_self ..)) hh,
      mirrorsFields_flatten fs gs₁ (fun x hx => r x (List.mem_cons_of_mem _ hx)) hfs⟩
end

/-! ### The converter -/

/-- The alternative that the last step wraps. -/
def core (t : RType) : RType :=
  t.withAttrs { t.attrs with doc := .none, extra := demoted t.attrs.extra }

theorem finish_core {t : RType} (hu : t.isUnion = false) (hn : t.isNull = false) :
    alternatives (finish t) = [.null {}, core t] := by
  rcases finish_cases t with ⟨h | h, -⟩ | ⟨-, -, e⟩
  · simp [h] at hu
  · simp [h] at hn
  · rw [e]; rfl

theorem attr_core {t : RType} {k : String} (h : k ∉ ["doc", "default", "name"]) :
    attr (core t) k = attr t k := by
  simp only [List.mem_cons, List.not_mem_nil, or_false, not_or] at h
  have e : Dict.get? (demoted t.attrs.extra) k = Dict.get? t.attrs.extra k := by
    unfold demoted
    rw [Dict.get?_erase_ne _ (by simpa [eq_comm] using h.2.2),
      Dict.get?_erase_ne _ (by simpa [eq_comm] using h.2.1)]
  unfold attr core
  rw [attrs_withAttrs, params_withAttrs]
  simp only [e, h.1, if_false]

theorem fits_core {e : String × List (String × PyVal)} {t : RType}
    (he : ∀ kv ∈ e.2, kv.1 ∉ ["doc", "default", "name"]) (h : Fits e t) : Fits e (core t) := by
  refine ⟨?_, ?_⟩
  · rw [← h.1]; cases t <;> rfl
  · intro kv hkv
    obtain ⟨v, h1, h2⟩ := h.2 kv hkv
    exact ⟨v, by rw [attr_core (he kv hkv)]; exact h1, h2⟩

theorem primitive_fits {x : Attrs} (hx : Given x) {c : Primitive} {t : RType}
    (h : primitive x c = .ok t) : Fits (expected c) t ∧ (t.isNull = true ↔ c = .void) := by
  obtain ⟨-, -, -, h4⟩ := hx
  cases c <;> cases h <;> refine ⟨⟨rfl, ?_⟩, by simp [isNull]⟩ <;>
    simp [expected, attr, params, Dict.get?, RType.attrs, PyVal.pyEq]

theorem expected_keys (c : Primitive) : ∀ kv ∈ (expected c).2, kv.1 ∉ ["doc", "default", "name"] := by
  cases c <;> simp [expected]

theorem fits_finish {e : String × List (String × PyVal)} {t : RType}
    (he : ∀ kv ∈ e.2, kv.1 ∉ ["doc", "default", "name"]) (hu : t.isUnion = false)
    (h : Fits e t) : ∃ u ∈ alternatives (finish t), Fits e u := by
  by_cases hn : t.isNull = true
  · cases t <;> simp [isNull] at hn
    exact ⟨_, List.mem_singleton.mpr rfl, h⟩
  · exact ⟨core t, by rw [finish_core hu (by simpa using hn)]; simp, fits_core he h⟩

theorem core_mem {t : RType} (hu : t.isUnion = false) (hn : t.isNull = false) :
    core t ∈ alternatives (finish t) := by
  rw [finish_core hu hn]; simp

/-- The last step moves name and doc of a column to the field. -/
theorem fieldNamed_finish {n : String} {d : PyVal} {t : RType} (hu : t.isUnion = false)
    (h1 : Dict.get? t.attrs.extra "name" = some (.str n)) (h2 : t.attrs.doc = d)
    (h3 : Dict.get? t.attrs.extra "default" = .none) : FieldNamed n d (finish t) := by
  have hnull : (finish t).isNullable = true := finish_nullable (by simp [hu])
  rcases finish_cases t with ⟨h, e⟩ | ⟨-, -, e⟩
  · rw [e] at hnull ⊢
    exact ⟨h1, h2, hnull, by simp [hu]⟩
  · rw [e] at hnull ⊢
    have hp : promoted t.attrs = [("default", .none), ("name", .str n)] := by
      unfold promoted
      rw [h1]
      unfold Dict.getD
      rw [h3]
      rfl
    rw [hp]
    exact ⟨rfl, h2, hnull, fun _ => rfl⟩

theorem columnAttrs_doc (n : String) (c : Option String) : (columnAttrs n c).doc = docOf c := by
  unfold columnAttrs docOf
  cases c <;> rfl

/-- A column gives a field with its name and comment. -/
theorem parse_named {n : String} {c : Option String} {h : HType} {t : RType}
    (hp : parse (columnAttrs n c) h = .ok t) : FieldNamed n (docOf c) t := by
  rw [← columnAttrs_doc n c]
  cases h with
  | prim p =>
    rw [parse] at hp
    obtain ⟨u, h1, hp⟩ := bind_ok hp
    cases hp
    cases p <;> cases h1 <;> exact fieldNamed_finish rfl rfl rfl rfl
  | decimal p s =>
    rw [parse] at hp
    split at hp
    · cases hp
    · cases hp
      exact fieldNamed_finish rfl rfl rfl rfl
  | varchar l => rw [parse] at hp; cases hp; exact fieldNamed_finish rfl rfl rfl rfl
  | char l => rw [parse] at hp; cases hp; exact fieldNamed_finish rfl rfl rfl rfl
  | map k v =>
    rw [parse] at hp
    obtain ⟨_, -, hp⟩ := bind_ok hp
    obtain ⟨_, -, hp⟩ := bind_ok hp
    cases hp
    exact fieldNamed_finish rfl rfl rfl rfl
  | list e =>
    rw [parse] at hp
    obtain ⟨_, -, hp⟩ := bind_ok hp
    cases hp
    exact fieldNamed_finish rfl rfl rfl rfl
  | struct fs =>
    rw [parse] at hp
    obtain ⟨_, -, hp⟩ := bind_ok hp
    cases hp
    exact fieldNamed_finish rfl rfl rfl rfl
  | union hs =>
    have hnull := (parse_converted _ _ _ hp).1
    rw [parse] at hp
    obtain ⟨ts, -, hp⟩ := bind_ok hp
    cases hp
    rw [flatten] at hnull ⊢
    exact ⟨rfl, rfl, hnull, fun _ => rfl⟩

mutual
theorem parse_mirrors : ∀ (x : Attrs) (h : HType) (t : RType), Given x → parse x h = .ok t →
    Mirrors h t
  | x, .prim c, t, hx, h => by
    rw [parse] at h
    obtain ⟨u, h1, h⟩ := bind_ok h
    cases h
    rw [Mirrors]
    exact fits_finish (expected_keys c) (primitive_leaf h1).2 (primitive_fits hx h1).1
  | x, .decimal p s, t, hx, h => by
    rw [parse] at h
    split at h
    · cases h
    · cases h
      rw [Mirrors]
      exact fits_finish (by simp) rfl
        ⟨rfl, by simp [attr, params, Dict.get?, RType.attrs, PyVal.pyEq]⟩
  | x, .varchar n, t, hx, h => by
    rw [parse] at h
    cases h
    rw [Mirrors]
    exact fits_finish (by simp) rfl ⟨rfl, by simp [attr, params, Dict.get?, RType.attrs, PyVal.pyEq]⟩
  | x, .char n, t, hx, h => by
    rw [parse] at h
    cases h
    rw [Mirrors]
    exact fits_finish (by simp) rfl ⟨rfl, by simp [attr, params, Dict.get?, RType.attrs, PyVal.pyEq]⟩
  | x, .map k v, t, hx, h => by
    rw [parse] at h
    obtain ⟨k', h1, h⟩ := bind_ok h
    obtain ⟨v', h2, h⟩ := bind_ok h
    cases h
    rw [Mirrors]
    exact ⟨_, _, _, core_mem rfl rfl, parse_mirrors _ _ _ given_empty h1,
      parse_mirrors _ _ _ given_empty h2⟩
  | x, .list e, t, hx, h => by
    rw [parse] at h
    obtain ⟨e', h1, h⟩ := bind_ok h
    cases h
    rw [Mirrors]
    exact ⟨_, _, _, _, core_mem rfl rfl, parse_mirrors _ _ _ given_empty h1⟩
  | x, .union hs, t, hx, h => by
    have hr := parse_real _ _ _ hx h
    rw [parse] at h
    obtain ⟨ts, h1, h⟩ := bind_ok h
    cases h
    rw [Mirrors]
    have hfin : finish (flatten (.union (.null {} :: ts)
        { x with extra := ("default", .none) :: x.extra })) =
        .union ((flattenAll (.null {} :: ts)).foldl absorb [])
          { x with extra := ("default", .none) :: x.extra } := by
      rw [flatten]; rfl
    rw [hfin] at hr ⊢
    refine parseAll_mirrors hs ts h1 _ hr ?_
    intro u hu m hm
    have hmem : flatten u ∈ flattenAll (.null {} :: ts) := by
      rw [flattenAll_eq]
      exact List.mem_map.mpr ⟨u, List.mem_cons_of_mem _ hu, rfl⟩
    have hcase : (flatten u).isUnion = false ∧ m = flatten u ∨
        (flatten u).isUnion = true ∧ m ∈ children (flatten u) := by
      cases hf : flatten u with
      | union us a => rw [hf] at hm; exact .inr ⟨rfl, hm⟩
      | _ => rw [hf] at hm; exact .inl ⟨rfl, List.mem_singleton.mp hm⟩
    rcases represented (acc := []) hmem hcase with h | ⟨m', h, h'⟩
    · exact ⟨m, h, .inl rfl⟩
    · exact ⟨m', h, .inr h'⟩
  | x, .struct fs, t, hx, h => by
    rw [parse] at h
    obtain ⟨fs', h1, h⟩ := bind_ok h
    cases h
    rw [Mirrors]
    exact ⟨_, _, core_mem rfl rfl, parseFields_mirrors _ _ h1⟩
theorem parseAll_mirrors : ∀ (hs : List HType) (ts : List RType), parseAll hs = .ok ts →
    ∀ t, RealType t → (∀ u ∈ ts, Within (flatten u) t) → MirrorsAll hs t
  | [], _, _, _, _, _ => by rw [MirrorsAll]; trivial
  | h :: hs, ts, hp, t, ht, w => by
    rw [parseAll] at hp
    obtain ⟨u, h1, hp⟩ := bind_ok hp
    obtain ⟨us, h2, hp⟩ := bind_ok hp
    cases hp
    rw [MirrorsAll]
    have r := parse_real _ _ _ given_empty h1
    exact ⟨mirrors_within h (flatten u) t (flatten_real u r) ht (w u (List.mem_cons_self ..))
        (mirrors_flatten h u r (parse_mirrors _ _ _ given_empty h1)),
      parseAll_mirrors hs us h2 t ht (fun v hv => w v (List.mem_cons_of_mem _ hv))⟩
theorem parseFields_mirrors : ∀ (fs : List (String × HType)) (gs : List RType),
    parseFields fs = .ok gs → MirrorsFields fs gs
  | [], gs, h => by
    rw [parseFields] at h
    cases h
    rw [MirrorsFields]
  | (n, h) :: fs, gs, hp => by
    rw [parseFields] at hp
    obtain ⟨u, h1, hp⟩ := bind_ok hp
    obtain ⟨us, h2, hp⟩ := bind_ok hp
    cases hp
    rw [MirrorsFields]
    exact ⟨u, us, rfl, parse_named h1, parse_mirrors _ _ _ (given_column ..) h1,
      parseFields_mirrors fs us h2⟩
end

theorem parseColumns_mirrors : ∀ (cs : List HColumn) (gs : List RType),
    parseColumns cs = .ok gs → MirrorsColumns cs gs
  | [], gs, h => by
    rw [parseColumns] at h
    cases h
    rfl
  | c :: cs, gs, hp => by
    rw [parseColumns] at hp
    obtain ⟨u, h1, hp⟩ := bind_ok hp
    obtain ⟨us, h2, hp⟩ := bind_ok hp
    cases hp
    exact ⟨u, us, rfl, parse_named h1, parse_mirrors _ _ _ (given_column ..) h1,
      parseColumns_mirrors cs us h2⟩

/-! ### Which types are supported -/

theorem bind_ok_iff {α β : Type} {x : Except PyErr α} {f : α → β} :
    (∃ b, (do let a ← x; pure (f a) : Except PyErr β) = .ok b) ↔ ∃ a, x = .ok a := by
  cases x <;> simp [bind, Except.bind, pure, Except.pure]

mutual
theorem parse_supported : ∀ (x : Attrs) (h : HType),
    (∃ t, parse x h = .ok t) ↔ Supported h
  | x, .prim c => by
    rw [parse, Supported, bind_ok_iff]
    cases c <;> simp [primitive]
  | x, .decimal p s => by
    rw [parse, Supported]
    split
    · simp; omega
    · simp [pure, Except.pure]; omega
  | x, .varchar n => by rw [parse, Supported]; simp [pure, Except.pure]
  | x, .char n => by rw [parse, Supported]; simp [pure, Except.pure]
  | x, .map k v => by
    have h1 := parse_supported {} k
    have h2 := parse_supported {} v
    rw [parse, Supported, ← h1, ← h2]
    cases parse {} k <;> cases parse {} v <;> simp [bind, Except.bind, pure, Except.pure]
  | x, .list e => by
    rw [parse, Supported, bind_ok_iff]
    exact parse_supported {} e
  | x, .union ts => by
    rw [parse, Supported, bind_ok_iff]
    exact parseAll_supported ts
  | x, .struct fs => by
    rw [parse, Supported, bind_ok_iff]
    exact parseFields_supported fs
theorem parseAll_supported : ∀ hs : List HType, (∃ ts, parseAll hs = .ok ts) ↔ SupportedAll hs
  | [] => by rw [parseAll, SupportedAll]; simp [pure, Except.pure]
  | h :: hs => by
    have h1 := parse_supported {} h
    have h2 := parseAll_supported hs
    rw [parseAll, SupportedAll, ← h1, ← h2]
    cases parse {} h <;> cases parseAll hs <;> simp [bind, Except.bind, pure, Except.pure]
theorem parseFields_supported : ∀ fs : List (String × HType),
    (∃ ts, parseFields fs = .ok ts) ↔ SupportedFields fs
  | [] => by rw [parseFields, SupportedFields]; simp [pure, Except.pure]
  | (n, h) :: fs => by
    have h1 := parse_supported (columnAttrs n .none) h
    have h2 := parseFields_supported fs
    rw [parseFields, SupportedFields, ← h1, ← h2]
    cases parse (columnAttrs n .none) h <;> cases parseFields fs <;>
      simp [bind, Except.bind, pure, Except.pure]
end

theorem parseColumns_supported : ∀ cs : List HColumn,
    (∃ ts, parseColumns cs = .ok ts) ↔ ∀ c ∈ cs, Supported c.type
  | [] => by simp [parseColumns, pure, Except.pure]
  | c :: cs => by
    have h1 := parse_supported (columnAttrs c.name c.comment) c.type
    have h2 := parseColumns_supported cs
    simp only [List.mem_cons, forall_eq_or_imp, ← h1, ← h2, parseColumns]
    cases parse (columnAttrs c.name c.comment) c.type <;> cases parseColumns cs <;>
      simp [bind, Except.bind, pure, Except.pure]

end Recap.Hive
