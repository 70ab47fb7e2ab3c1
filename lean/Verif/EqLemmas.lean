import Verif.TypesSpec
import Verif.DictLemmas

/-! # Lemmas about Python equality -/

namespace Recap

open Spec

theorem length_le_of_nodup_subset {α : Type} [DecidableEq α] {a b : List α} (hn : a.Nodup)
    (h : ∀ x ∈ a, x ∈ b) : a.length ≤ b.length := by
  induction a generalizing b with
  | nil => simp
  | cons x a ih =>
    simp only [List.nodup_cons] at hn
    have hx : x ∈ b := h x (by simp)
    have := ih (b := b.erase x) hn.2 (fun y hy => by
      have hne : y ≠ x := fun e => hn.1 (e ▸ hy)
      exact (List.mem_erase_of_ne hne).mpr (h y (by simp [hy])))
    rw [List.length_erase_of_mem hx] at this
    have hpos : 0 < b.length := List.length_pos_of_mem hx
    simp only [List.length_cons]; omega

/-- Pigeonhole. -/
theorem subset_of_nodup_subset {α : Type} [DecidableEq α] {a b : List α} (hn : a.Nodup)
    (h : ∀ x ∈ a, x ∈ b) (hl : b.length ≤ a.length) : ∀ x ∈ b, x ∈ a := by
  intro x hx
  apply Classical.byContradiction
  intro hxa
  have h2 : ∀ y ∈ a, y ∈ b.erase x := fun y hy => by
    have hne : y ≠ x := fun e => hxa (e ▸ hy)
    exact (List.mem_erase_of_ne hne).mpr (h y hy)
  have := length_le_of_nodup_subset hn h2
  rw [List.length_erase_of_mem hx] at this
  have hpos : 0 < b.length := List.length_pos_of_mem hx
  omega

theorem Spec.RealAll.mem {xs : List PyVal} (h : RealAll xs) : ∀ x ∈ xs, Real x := by
  induction xs with
  | nil => simp
  | cons y ys ih =>
    simp only [RealAll] at h
    intro x hx
    rcases List.mem_cons.mp hx with rfl | hx
    · exact h.1
    · exact ih h.2 x hx

theorem Spec.RealPairs.mem {d : List (String × PyVal)} (h : RealPairs d) : ∀ kv ∈ d, Real kv.2 := by
  induction d with
  | nil => simp
  | cons y ys ih =>
    obtain ⟨k, y⟩ := y
    simp only [RealPairs] at h
    intro x hx
    rcases List.mem_cons.mp hx with rfl | hx
    · exact h.1
    · exact ih h.2 x hx

theorem Spec.RealPairs.of_mem {d : List (String × PyVal)} (h : ∀ kv ∈ d, Real kv.2) : RealPairs d := by
  induction d with
  | nil => simp [RealPairs]
  | cons y ys ih =>
    obtain ⟨k, y⟩ := y
    simp only [RealPairs]
    exact ⟨h (k, y) (by simp), ih (fun kv hkv => h kv (by simp [hkv]))⟩

/-- Entry-wise reading of the comparison of dictionaries. -/
theorem pyEqDict_iff (a b : List (String × PyVal)) : PyVal.pyEqDict a b = true ↔
    ∀ kv ∈ a, ∃ y, Dict.get? b kv.1 = some y ∧ PyVal.pyEq kv.2 y = true := by
  induction a with
  | nil => simp [PyVal.pyEqDict]
  | cons kv a ih =>
    obtain ⟨k, x⟩ := kv
    simp only [PyVal.pyEqDict, Bool.and_eq_true, ih, List.mem_cons, forall_eq_or_imp]
    cases Dict.get? b k <;> simp

mutual
theorem pyEq_refl : ∀ v : PyVal, Real v → PyVal.pyEq v v = true
  | .none, _ => rfl
  | .bool _, _ => by simp [PyVal.pyEq]
  | .int _, _ => by simp [PyVal.pyEq]
  | .float .., _ => by simp [PyVal.pyEq]
  | .str _, _ => by simp [PyVal.pyEq]
  | .list xs, h => by simp only [PyVal.pyEq]; exact pyEqList_refl xs (by simpa only [Real] using h)
  | .dict kvs, h => by
    simp only [Real] at h
    simp only [PyVal.pyEq, beq_self_eq_true, Bool.true_and, pyEqDict_iff]
    intro kv hkv
    exact ⟨kv.2, Dict.get?_of_mem_nodup h.1 hkv, pyEqPairs_refl kvs h.2 kv hkv⟩
theorem pyEqList_refl : ∀ vs : List PyVal, RealAll vs → PyVal.pyEqList vs vs = true
  | [], _ => rfl
  | x :: xs, h => by
    simp only [RealAll] at h
    simp only [PyVal.pyEqList, Bool.and_eq_true]
    exact ⟨pyEq_refl x h.1, pyEqList_refl xs h.2⟩
theorem pyEqPairs_refl : ∀ kvs : List (String × PyVal), RealPairs kvs →
    ∀ kv ∈ kvs, PyVal.pyEq kv.2 kv.2 = true
  | [], _ => by simp
  | (k, x) :: xs, h => by
    simp only [RealPairs] at h
    have h1 := pyEq_refl x h.1
    have h2 := pyEqPairs_refl xs h.2
    intro kv hkv
    rcases List.mem_cons.mp hkv with rfl | hkv
    · exact h1
    · exact h2 kv hkv
end

theorem pyEqDict_symm {a b : List (String × PyVal)} (ha : (Dict.keys a).Nodup)
    (hb : (Dict.keys b).Nodup) (hl : a.length = b.length)
    (hs : ∀ kv ∈ a, ∀ y, (kv.1, y) ∈ b → PyVal.pyEq kv.2 y = true → PyVal.pyEq y kv.2 = true)
    (h : PyVal.pyEqDict a b = true) : PyVal.pyEqDict b a = true := by
  rw [pyEqDict_iff] at h ⊢
  have hsub : ∀ k ∈ Dict.keys a, k ∈ Dict.keys b := by
    intro k hk
    obtain ⟨kv, hkv, rfl⟩ := List.mem_map.mp hk
    obtain ⟨y, hy, _⟩ := h kv hkv
    exact Dict.mem_keys_of_mem (Dict.mem_of_get? hy)
  have hsup := subset_of_nodup_subset ha hsub (by simp [Dict.keys, hl])
  intro kv hkv
  obtain ⟨kv', hkv', hk⟩ := List.mem_map.mp (hsup kv.1 (Dict.mem_keys_of_mem hkv))
  obtain ⟨y, hy, he⟩ := h kv' hkv'
  have : y = kv.2 := by
    have := Dict.get?_of_mem_nodup hb hkv
    rw [← hk, hy] at this
    simpa using this
  subst this
  refine ⟨kv'.2, ?_, hs kv' hkv' _ (by rw [hk]; exact hkv) he⟩
  have := Dict.get?_of_mem_nodup ha hkv'
  rw [hk] at this
  exact this

mutual
theorem pyEq_symm : ∀ v w : PyVal, Real v → Real w → PyVal.pyEq v w = true → PyVal.pyEq w v = true
  | .none, w, _, _, h => by cases w <;> simp [PyVal.pyEq] at *
  | .bool _, w, _, _, h => by
    cases w <;> simp only [PyVal.pyEq, beq_iff_eq, Bool.false_eq_true] at * <;> exact h.symm
  | .int _, w, _, _, h => by
    cases w <;> simp only [PyVal.pyEq, beq_iff_eq, Bool.false_eq_true] at * <;> exact h.symm
  | .float .., w, _, _, h => by
    cases w <;> simp only [PyVal.pyEq, beq_iff_eq, Bool.and_eq_true, Bool.false_eq_true] at *
    exact ⟨h.1.symm, h.2.symm⟩
  | .str _, w, _, _, h => by
    cases w <;> simp only [PyVal.pyEq, beq_iff_eq, Bool.false_eq_true] at *; exact h.symm
  | .list xs, w, hv, hw, h => by
    cases w with
    | list ys =>
      simp only [PyVal.pyEq, Real] at *
      exact pyEqList_symm xs ys hv hw h
    | _ => simp [PyVal.pyEq] at h
  | .dict kvs, w, hv, hw, h => by
    cases w with
    | dict kws =>
      simp only [PyVal.pyEq, Real, Bool.and_eq_true, beq_iff_eq] at *
      refine ⟨h.1.symm, pyEqDict_symm hv.1 hw.1 h.1 ?_ h.2⟩
      intro kv hkv y hy he
      exact pyEqPairs_symm kvs hv.2 kv hkv y (hw.2.mem _ hy) he
    | _ => simp [PyVal.pyEq] at h
theorem pyEqList_symm : ∀ vs ws : List PyVal, RealAll vs → RealAll ws →
    PyVal.pyEqList vs ws = true → PyVal.pyEqList ws vs = true
  | [], ws, _, _, h => by cases ws <;> simp [PyVal.pyEqList] at *
  | x :: xs, ws, hv, hw, h => by
    cases ws with
    | nil => simp [PyVal.pyEqList] at h
    | cons y ys =>
      simp only [RealAll, PyVal.pyEqList, Bool.and_eq_true] at *
      exact ⟨pyEq_symm x y hv.1 hw.1 h.1, pyEqList_symm xs ys hv.2 hw.2 h.2⟩
theorem pyEqPairs_symm : ∀ kvs : List (String × PyVal), RealPairs kvs →
    ∀ kv ∈ kvs, ∀ w, Real w → PyVal.pyEq kv.2 w = true → PyVal.pyEq w kv.2 = true
  | [], _ => by simp
  | (k, x) :: xs, h => by
    simp only [RealPairs] at h
    have h1 := fun w => pyEq_symm x w h.1
    have h2 := pyEqPairs_symm xs h.2
    intro kv hkv
    rcases List.mem_cons.mp hkv with rfl | hkv
    · exact h1
    · exact h2 kv hkv
end

mutual
theorem pyEq_trans : ∀ u v w : PyVal, PyVal.pyEq u v = true → PyVal.pyEq v w = true →
    PyVal.pyEq u w = true
  | .none, v, w, h1, h2 => by cases v <;> cases w <;> simp [PyVal.pyEq] at *
  | .bool a, v, w, h1, h2 => by
    have hb : ∀ a b : Bool, boolInt a = boolInt b → a = b := by decide
    cases v <;> cases w <;> simp only [PyVal.pyEq, beq_iff_eq, Bool.false_eq_true] at *
    all_goals first
      | (subst h1; exact h2)
      | (rw [h1]; exact h2)
      | (apply hb; rw [h1, h2])
  | .int a, v, w, h1, h2 => by
    cases v <;> cases w <;> simp only [PyVal.pyEq, beq_iff_eq, Bool.false_eq_true] at *
    all_goals first
      | (rw [h1]; exact h2)
      | (subst h2; exact h1)
  | .float .., v, w, h1, h2 => by
    cases v <;> cases w <;> simp only [PyVal.pyEq, beq_iff_eq, Bool.and_eq_true, Bool.false_eq_true] at *
    exact ⟨h1.1.trans h2.1, h1.2.trans h2.2⟩
  | .str _, v, w, h1, h2 => by
    cases v <;> cases w <;> simp only [PyVal.pyEq, beq_iff_eq, Bool.false_eq_true] at *
    exact h1.trans h2
  | .list xs, v, w, h1, h2 => by
    cases v with
    | list ys =>
      cases w with
      | list zs =>
        simp only [PyVal.pyEq] at *
        exact pyEqList_trans xs ys zs h1 h2
      | _ => simp [PyVal.pyEq] at h2
    | _ => simp [PyVal.pyEq] at h1
  | .dict kvs, v, w, h1, h2 => by
    cases v with
    | dict b =>
      cases w with
      | dict c =>
        simp only [PyVal.pyEq, Bool.and_eq_true, beq_iff_eq] at *
        refine ⟨h1.1.trans h2.1, ?_⟩
        exact pyEqDict_trans kvs b c h1.2 h2.2
      | _ => simp [PyVal.pyEq] at h2
    | _ => simp [PyVal.pyEq] at h1
theorem pyEqList_trans : ∀ u v w : List PyVal, PyVal.pyEqList u v = true →
    PyVal.pyEqList v w = true → PyVal.pyEqList u w = true
  | [], v, w, h1, h2 => by cases v <;> cases w <;> simp [PyVal.pyEqList] at *
  | x :: xs, v, w, h1, h2 => by
    cases v with
    | nil => simp [PyVal.pyEqList] at h1
    | cons y ys =>
      cases w with
      | nil => simp [PyVal.pyEqList] at h2
      | cons z zs =>
        simp only [PyVal.pyEqList, Bool.and_eq_true] at *
        exact ⟨pyEq_trans x y z h1.1 h2.1, pyEqList_trans xs ys zs h1.2 h2.2⟩
theorem pyEqDict_trans : ∀ a b c : List (String × PyVal), PyVal.pyEqDict a b = true →
    PyVal.pyEqDict b c = true → PyVal.pyEqDict a c = true
  | [], b, c, h1, h2 => by simp [PyVal.pyEqDict]
  | (k, x) :: xs, b, c, h1, h2 => by
    simp only [PyVal.pyEqDict, Bool.and_eq_true] at h1 ⊢
    refine ⟨?_, pyEqDict_trans xs b c h1.2 h2⟩
    have h3 := h1.1
    cases hb : Dict.get? b k with
    | none => simp [hb] at h3
    | some y =>
      simp only [hb] at h3
      obtain ⟨z, hz, he⟩ := (pyEqDict_iff b c).mp h2 _ (Dict.mem_of_get? hb)
      simp only at hz he
      simp only [hz]
      exact pyEq_trans x y z h3 he
end

/-! ## Attributes and types -/

/-- Key-wise reading of the comparison of dictionaries. -/
theorem dictEq_iff {a b : Dict} (ha : (Dict.keys a).Nodup) (hb : (Dict.keys b).Nodup) :
    Dict.pyEq a b = true ↔ ∀ k, OptEq (Dict.get? a k) (Dict.get? b k) := by
  unfold Dict.pyEq
  simp only [Bool.and_eq_true, beq_iff_eq, pyEqDict_iff]
  constructor
  · rintro ⟨hl, h⟩ k
    have hsub : ∀ k ∈ Dict.keys a, k ∈ Dict.keys b := by
      intro k hk
      obtain ⟨kv, hkv, rfl⟩ := List.mem_map.mp hk
      obtain ⟨y, hy, _⟩ := h kv hkv
      exact Dict.mem_keys_of_mem (Dict.mem_of_get? hy)
    have hsup := subset_of_nodup_subset ha hsub (by simp [Dict.keys, hl])
    cases hk : Dict.get? a k with
    | none =>
      have : Dict.get? b k = .none :=
        Dict.get?_eq_none_iff.mpr (fun hm => Dict.get?_eq_none_iff.mp hk (hsup k hm))
      simp [this, OptEq]
    | some x =>
      obtain ⟨y, hy, he⟩ := h _ (Dict.mem_of_get? hk)
      simp only at hy he
      simpa [hy, OptEq] using he
  · intro h
    have h1 : ∀ k ∈ Dict.keys a, k ∈ Dict.keys b := by
      intro k hk
      apply Classical.byContradiction
      intro hn
      have := h k
      rw [Dict.get?_eq_none_iff.mpr hn] at this
      cases hk' : Dict.get? a k with
      | none => exact Dict.get?_eq_none_iff.mp hk' hk
      | some x => simp [hk', OptEq] at this
    have h2 : ∀ k ∈ Dict.keys b, k ∈ Dict.keys a := by
      intro k hk
      apply Classical.byContradiction
      intro hn
      have := h k
      rw [Dict.get?_eq_none_iff.mpr hn] at this
      cases hk' : Dict.get? b k with
      | none => exact Dict.get?_eq_none_iff.mp hk' hk
      | some x => simp [hk', OptEq] at this
    constructor
    · have := length_le_of_nodup_subset ha h1
      have := length_le_of_nodup_subset hb h2
      simp only [Dict.keys, List.length_map] at *
      omega
    · intro kv hkv
      have := h kv.1
      rw [Dict.get?_of_mem_nodup ha hkv] at this
      cases hk' : Dict.get? b kv.1 with
      | none => simp [hk', OptEq] at this
      | some y => exact ⟨y, rfl, by simpa [hk', OptEq] using this⟩

/-- The conditions on the common attributes in `RealNode`. -/
def RealAttrs (a : Attrs) : Prop :=
  Real a.logical ∧ Real a.alias ∧ Real a.doc ∧ Real (.dict a.extra)

theorem attrsEq_refl {a : Attrs} (h : RealAttrs a) : RType.attrsEq a a = true := by
  unfold RType.attrsEq
  simp only [Bool.and_eq_true]
  have := pyEq_refl (.dict a.extra) h.2.2.2
  simp only [PyVal.pyEq] at this
  exact ⟨⟨⟨pyEq_refl _ h.1, pyEq_refl _ h.2.1⟩, pyEq_refl _ h.2.2.1⟩, this⟩

theorem attrsEq_symm {a b : Attrs} (ha : RealAttrs a) (hb : RealAttrs b)
    (h : RType.attrsEq a b = true) : RType.attrsEq b a = true := by
  unfold RType.attrsEq at *
  simp only [Bool.and_eq_true] at *
  have := pyEq_symm (.dict a.extra) (.dict b.extra) ha.2.2.2 hb.2.2.2
    (by simp only [PyVal.pyEq]; exact h.2)
  simp only [PyVal.pyEq] at this
  exact ⟨⟨⟨pyEq_symm _ _ ha.1 hb.1 h.1.1.1, pyEq_symm _ _ ha.2.1 hb.2.1 h.1.1.2⟩,
    pyEq_symm _ _ ha.2.2.1 hb.2.2.1 h.1.2⟩, this⟩

theorem attrsEq_trans {a b c : Attrs} (h1 : RType.attrsEq a b = true)
    (h2 : RType.attrsEq b c = true) : RType.attrsEq a c = true := by
  unfold RType.attrsEq at *
  simp only [Bool.and_eq_true] at *
  have := pyEq_trans (.dict a.extra) (.dict b.extra) (.dict c.extra)
    (by simp only [PyVal.pyEq]; exact h1.2) (by simp only [PyVal.pyEq]; exact h2.2)
  simp only [PyVal.pyEq] at this
  exact ⟨⟨⟨pyEq_trans _ _ _ h1.1.1.1 h2.1.1.1, pyEq_trans _ _ _ h1.1.1.2 h2.1.1.2⟩,
    pyEq_trans _ _ _ h1.1.2 h2.1.2⟩, this⟩

theorem Spec.RealType.attrs {t : RType} (h : RealType t) : RealAttrs t.attrs := by
  have := h t .refl
  exact ⟨this.1, this.2.1, this.2.2.1, this.2.2.2.1⟩

theorem Spec.RealType.param {t : RType} (h : RealType t) {k : String} {v : PyVal}
    (hm : (k, v) ∈ params t) : Real v := (h t .refl).2.2.2.2 _ hm

theorem Spec.Sub.trans {a b c : RType} (h1 : Sub a b) (h2 : Sub b c) : Sub a c := by
  induction h2 with
  | refl => exact h1
  | list _ ih => exact .list ih
  | key _ ih => exact .key ih
  | value _ ih => exact .value ih
  | field hm _ ih => exact .field hm ih
  | member hm _ ih => exact .member hm ih

theorem Spec.Sub.child {t c : RType} (h : c ∈ children t) : Sub c t := by
  cases t <;> simp only [children, List.mem_cons, List.not_mem_nil, or_false] at h
  · subst h; exact .list .refl
  · rcases h with rfl | rfl
    · exact .key .refl
    · exact .value .refl
  · exact .field h .refl
  · exact .member h .refl

theorem Spec.RealType.child {t c : RType} (h : RealType t) (hc : c ∈ children t) : RealType c :=
  fun _ hu => h _ (Sub.trans hu (Sub.child hc))

mutual
theorem RType.pyEq_refl : ∀ t : RType, RealType t → RType.pyEq t t = true
  | .null a, h => by simp only [RType.pyEq]; exact attrsEq_refl h.attrs
  | .bool a, h => by simp only [RType.pyEq]; exact attrsEq_refl h.attrs
  | .int b s a, h => by
    simp only [RType.pyEq, Bool.and_eq_true]
    exact ⟨attrsEq_refl h.attrs, Recap.pyEq_refl _ (h.param (k := "bits") (by simp [params])),
      Recap.pyEq_refl _ (h.param (k := "signed") (by simp [params]))⟩
  | .float b a, h => by
    simp only [RType.pyEq, Bool.and_eq_true]
    exact ⟨attrsEq_refl h.attrs, Recap.pyEq_refl _ (h.param (k := "bits") (by simp [params]))⟩
  | .string b s a, h => by
    simp only [RType.pyEq, Bool.and_eq_true]
    exact ⟨attrsEq_refl h.attrs, Recap.pyEq_refl _ (h.param (k := "bytes_") (by simp [params])),
      Recap.pyEq_refl _ (h.param (k := "variable") (by simp [params]))⟩
  | .bytes b s a, h => by
    simp only [RType.pyEq, Bool.and_eq_true]
    exact ⟨attrsEq_refl h.attrs, Recap.pyEq_refl _ (h.param (k := "bytes_") (by simp [params])),
      Recap.pyEq_refl _ (h.param (k := "variable") (by simp [params]))⟩
  | .list t l v a, h => by
    simp only [RType.pyEq, Bool.and_eq_true]
    exact ⟨attrsEq_refl h.attrs,
      ⟨RType.pyEq_refl t (h.child (by simp [children])),
       Recap.pyEq_refl _ (h.param (k := "length") (by simp [params]))⟩,
      Recap.pyEq_refl _ (h.param (k := "variable") (by simp [params]))⟩
  | .map k v a, h => by
    simp only [RType.pyEq, Bool.and_eq_true]
    exact ⟨attrsEq_refl h.attrs, RType.pyEq_refl k (h.child (by simp [children])),
      RType.pyEq_refl v (h.child (by simp [children]))⟩
  | .struct fs a, h => by
    simp only [RType.pyEq, Bool.and_eq_true]
    exact ⟨attrsEq_refl h.attrs, RType.pyEqList_refl fs (fun c hc => h.child (by simpa [children] using hc))⟩
  | .enum s a, h => by
    simp only [RType.pyEq, Bool.and_eq_true]
    exact ⟨attrsEq_refl h.attrs, Recap.pyEq_refl _ (h.param (k := "symbols") (by simp [params]))⟩
  | .union ts a, h => by
    simp only [RType.pyEq, Bool.and_eq_true]
    exact ⟨attrsEq_refl h.attrs, RType.pyEqList_refl ts (fun c hc => h.child (by simpa [children] using hc))⟩
  | .proxy r a, h => by simp only [RType.pyEq]; exact attrsEq_refl h.attrs
theorem RType.pyEqList_refl : ∀ ts : List RType, (∀ t ∈ ts, RealType t) → RType.pyEqList ts ts = true
  | [], _ => by simp [RType.pyEqList]
  | t :: ts, h => by
    simp only [RType.pyEqList, Bool.and_eq_true]
    exact ⟨RType.pyEq_refl t (h t (by simp)), RType.pyEqList_refl ts (fun c hc => h c (by simp [hc]))⟩
end

mutual
theorem RType.pyEq_symm : ∀ t u : RType, RealType t → RealType u → RType.pyEq t u = true →
    RType.pyEq u t = true
  | .null a, u, ht, hu, h => by
    cases u <;> simp only [RType.pyEq, Bool.false_eq_true] at *
    exact attrsEq_symm ht.attrs hu.attrs h
  | .bool a, u, ht, hu, h => by
    cases u <;> simp only [RType.pyEq, Bool.false_eq_true] at *
    exact attrsEq_symm ht.attrs hu.attrs h
  | .int b s a, u, ht, hu, h => by
    cases u <;> simp only [RType.pyEq, Bool.false_eq_true, Bool.and_eq_true] at *
    exact ⟨attrsEq_symm ht.attrs hu.attrs h.1,
      Recap.pyEq_symm _ _ (ht.param (k := "bits") (by simp [params])) (hu.param (k := "bits") (by simp [params])) h.2.1,
      Recap.pyEq_symm _ _ (ht.param (k := "signed") (by simp [params])) (hu.param (k := "signed") (by simp [params])) h.2.2⟩
  | .float b a, u, ht, hu, h => by
    cases u <;> simp only [RType.pyEq, Bool.false_eq_true, Bool.and_eq_true] at *
    exact ⟨attrsEq_symm ht.attrs hu.attrs h.1,
      Recap.pyEq_symm _ _ (ht.param (k := "bits") (by simp [params])) (hu.param (k := "bits") (by simp [params])) h.2⟩
  | .string b s a, u, ht, hu, h => by
    cases u <;> simp only [RType.pyEq, Bool.false_eq_true, Bool.and_eq_true] at *
    exact ⟨attrsEq_symm ht.attrs hu.attrs h.1,
      Recap.pyEq_symm _ _ (ht.param (k := "bytes_") (by simp [params])) (hu.param (k := "bytes_") (by simp [params])) h.2.1,
      Recap.pyEq_symm _ _ (ht.param (k := "variable") (by simp [params])) (hu.param (k := "variable") (by simp [params])) h.2.2⟩
  | .bytes b s a, u, ht, hu, h => by
    cases u <;> simp only [RType.pyEq, Bool.false_eq_true, Bool.and_eq_true] at *
    exact ⟨attrsEq_symm ht.attrs hu.attrs h.1,
      Recap.pyEq_symm _ _ (ht.param (k := "bytes_") (by simp [params])) (hu.param (k := "bytes_") (by simp [params])) h.2.1,
      Recap.pyEq_symm _ _ (ht.param (k := "variable") (by simp [params])) (hu.param (k := "variable") (by simp [params])) h.2.2⟩
  | .list t l v a, u, ht, hu, h => by
    cases u <;> simp only [RType.pyEq, Bool.false_eq_true, Bool.and_eq_true] at *
    exact ⟨attrsEq_symm ht.attrs hu.attrs h.1,
      ⟨RType.pyEq_symm t _ (ht.child (by simp [children])) (hu.child (by simp [children])) h.2.1.1,
      Recap.pyEq_symm _ _ (ht.param (k := "length") (by simp [params])) (hu.param (k := "length") (by simp [params])) h.2.1.2⟩,
      Recap.pyEq_symm _ _ (ht.param (k := "variable") (by simp [params])) (hu.param (k := "variable") (by simp [params])) h.2.2⟩
  | .map k v a, u, ht, hu, h => by
    cases u <;> simp only [RType.pyEq, Bool.false_eq_true, Bool.and_eq_true] at *
    exact ⟨attrsEq_symm ht.attrs hu.attrs h.1,
      RType.pyEq_symm k _ (ht.child (by simp [children])) (hu.child (by simp [children])) h.2.1,
      RType.pyEq_symm v _ (ht.child (by simp [children])) (hu.child (by simp [children])) h.2.2⟩
  | .struct fs a, u, ht, hu, h => by
    cases u <;> simp only [RType.pyEq, Bool.false_eq_true, Bool.and_eq_true] at *
    exact ⟨attrsEq_symm ht.attrs hu.attrs h.1,
      RType.pyEqList_symm fs _ (fun c hc => ht.child (by simpa [children] using hc))
        (fun c hc => hu.child (by simpa [children] using hc)) h.2⟩
  | .enum s a, u, ht, hu, h => by
    cases u <;> simp only [RType.pyEq, Bool.false_eq_true, Bool.and_eq_true] at *
    exact ⟨attrsEq_symm ht.attrs hu.attrs h.1,
      Recap.pyEq_symm _ _ (ht.param (k := "symbols") (by simp [params])) (hu.param (k := "symbols") (by simp [params])) h.2⟩
  | .union fs a, u, ht, hu, h => by
    cases u <;> simp only [RType.pyEq, Bool.false_eq_true, Bool.and_eq_true] at *
    exact ⟨attrsEq_symm ht.attrs hu.attrs h.1,
      RType.pyEqList_symm fs _ (fun c hc => ht.child (by simpa [children] using hc))
        (fun c hc => hu.child (by simpa [children] using hc)) h.2⟩
  | .proxy r a, u, ht, hu, h => by
    cases u <;> simp only [RType.pyEq, Bool.false_eq_true] at *
    exact attrsEq_symm ht.attrs hu.attrs h
theorem RType.pyEqList_symm : ∀ ts us : List RType, (∀ t ∈ ts, RealType t) → (∀ t ∈ us, RealType t) →
    RType.pyEqList ts us = true → RType.pyEqList us ts = true
  | [], us, _, _, h => by cases us <;> simp [RType.pyEqList] at *
  | t :: ts, us, ht, hu, h => by
    cases us with
    | nil => simp [RType.pyEqList] at h
    | cons u us =>
      simp only [RType.pyEqList, Bool.and_eq_true] at *
      exact ⟨RType.pyEq_symm t u (ht t (by simp)) (hu u (by simp)) h.1,
        RType.pyEqList_symm ts us (fun c hc => ht c (by simp [hc])) (fun c hc => hu c (by simp [hc])) h.2⟩
end

mutual
theorem RType.pyEq_trans : ∀ t u w : RType, RType.pyEq t u = true → RType.pyEq u w = true →
    RType.pyEq t w = true
  | .null a, u, w, h1, h2 => by
    cases u <;> simp only [RType.pyEq, Bool.false_eq_true] at h1
    cases w <;> simp only [RType.pyEq, Bool.false_eq_true] at h2 ⊢
    exact attrsEq_trans h1 h2
  | .bool a, u, w, h1, h2 => by
    cases u <;> simp only [RType.pyEq, Bool.false_eq_true] at h1
    cases w <;> simp only [RType.pyEq, Bool.false_eq_true] at h2 ⊢
    exact attrsEq_trans h1 h2
  | .int .., u, w, h1, h2 => by
    cases u <;> simp only [RType.pyEq, Bool.false_eq_true, Bool.and_eq_true] at h1
    cases w <;> simp only [RType.pyEq, Bool.false_eq_true, Bool.and_eq_true] at h2 ⊢
    exact ⟨attrsEq_trans h1.1 h2.1, Recap.pyEq_trans _ _ _ h1.2.1 h2.2.1, Recap.pyEq_trans _ _ _ h1.2.2 h2.2.2⟩
  | .float .., u, w, h1, h2 => by
    cases u <;> simp only [RType.pyEq, Bool.false_eq_true, Bool.and_eq_true] at h1
    cases w <;> simp only [RType.pyEq, Bool.false_eq_true, Bool.and_eq_true] at h2 ⊢
    exact ⟨attrsEq_trans h1.1 h2.1, Recap.pyEq_trans _ _ _ h1.2 h2.2⟩
  | .string .., u, w, h1, h2 => by
    cases u <;> simp only [RType.pyEq, Bool.false_eq_true, Bool.and_eq_true] at h1
    cases w <;> simp only [RType.pyEq, Bool.false_eq_true, Bool.and_eq_true] at h2 ⊢
    exact ⟨attrsEq_trans h1.1 h2.1, Recap.pyEq_trans _ _ _ h1.2.1 h2.2.1, Recap.pyEq_trans _ _ _ h1.2.2 h2.2.2⟩
  | .bytes .., u, w, h1, h2 => by
    cases u <;> simp only [RType.pyEq, Bool.false_eq_true, Bool.and_eq_true] at h1
    cases w <;> simp only [RType.pyEq, Bool.false_eq_true, Bool.and_eq_true] at h2 ⊢
    exact ⟨attrsEq_trans h1.1 h2.1, Recap.pyEq_trans _ _ _ h1.2.1 h2.2.1, Recap.pyEq_trans _ _ _ h1.2.2 h2.2.2⟩
  | .list t .., u, w, h1, h2 => by
    cases u <;> simp only [RType.pyEq, Bool.false_eq_true, Bool.and_eq_true] at h1
    cases w <;> simp only [RType.pyEq, Bool.false_eq_true, Bool.and_eq_true] at h2 ⊢
    exact ⟨attrsEq_trans h1.1 h2.1, ⟨RType.pyEq_trans t _ _ h1.2.1.1 h2.2.1.1,
      Recap.pyEq_trans _ _ _ h1.2.1.2 h2.2.1.2⟩, Recap.pyEq_trans _ _ _ h1.2.2 h2.2.2⟩
  | .map k v _, u, w, h1, h2 => by
    cases u <;> simp only [RType.pyEq, Bool.false_eq_true, Bool.and_eq_true] at h1
    cases w <;> simp only [RType.pyEq, Bool.false_eq_true, Bool.and_eq_true] at h2 ⊢
    exact ⟨attrsEq_trans h1.1 h2.1, RType.pyEq_trans k _ _ h1.2.1 h2.2.1,
      RType.pyEq_trans v _ _ h1.2.2 h2.2.2⟩
  | .struct fs _, u, w, h1, h2 => by
    cases u <;> simp only [RType.pyEq, Bool.false_eq_true, Bool.and_eq_true] at h1
    cases w <;> simp only [RType.pyEq, Bool.false_eq_true, Bool.and_eq_true] at h2 ⊢
    exact ⟨attrsEq_trans h1.1 h2.1, RType.pyEqList_trans fs _ _ h1.2 h2.2⟩
  | .enum .., u, w, h1, h2 => by
    cases u <;> simp only [RType.pyEq, Bool.false_eq_true, Bool.and_eq_true] at h1
    cases w <;> simp only [RType.pyEq, Bool.false_eq_true, Bool.and_eq_true] at h2 ⊢
    exact ⟨attrsEq_trans h1.1 h2.1, Recap.pyEq_trans _ _ _ h1.2 h2.2⟩
  | .union fs _, u, w, h1, h2 => by
    cases u <;> simp only [RType.pyEq, Bool.false_eq_true, Bool.and_eq_true] at h1
    cases w <;> simp only [RType.pyEq, Bool.false_eq_true, Bool.and_eq_true] at h2 ⊢
    exact ⟨attrsEq_trans h1.1 h2.1, RType.pyEqList_trans fs _ _ h1.2 h2.2⟩
  | .proxy r a, u, w, h1, h2 => by
    cases u <;> simp only [RType.pyEq, Bool.false_eq_true] at h1
    cases w <;> simp only [RType.pyEq, Bool.false_eq_true] at h2 ⊢
    exact attrsEq_trans h1 h2
theorem RType.pyEqList_trans : ∀ ts us ws : List RType, RType.pyEqList ts us = true →
    RType.pyEqList us ws = true → RType.pyEqList ts ws = true
  | [], us, ws, h1, h2 => by cases us <;> cases ws <;> simp [RType.pyEqList] at *
  | t :: ts, us, ws, h1, h2 => by
    cases us with
    | nil => simp [RType.pyEqList] at h1
    | cons u us =>
      cases ws with
      | nil => simp [RType.pyEqList] at h2
      | cons w ws =>
        simp only [RType.pyEqList, Bool.and_eq_true] at *
        exact ⟨RType.pyEq_trans t u w h1.1 h2.1, RType.pyEqList_trans ts us ws h1.2 h2.2⟩
end

theorem pyEqList_iff (ts us : List RType) : RType.pyEqList ts us = true ↔
    Pairwise₂ (fun t u => RType.pyEq t u = true) ts us := by
  induction ts generalizing us with
  | nil => cases us <;> simp [RType.pyEqList, Pairwise₂]
  | cons t ts ih => cases us <;> simp [RType.pyEqList, ih, Pairwise₂]

end Recap
