import Verif.HiveLemmas
import Verif.CompactStable

/-!
# Lemmas: the Hive converter keeps the structure of the Hive type
-/

set_option autoImplicit false

namespace Recap.Hive

open RType Spec Relational

/-! ### Stored values are Python values -/

theorem realNode_iff {t : RType} :
    RealNode t ↔ RealAttrs t.attrs ∧ ∀ kv ∈ params t, Real kv.2 := by
  unfold RealNode RealAttrs
  constructor
  · rintro ⟨h1, h2, h3, h4, h5⟩; exact ⟨⟨h1, h2, h3, h4⟩, h5⟩
  · rintro ⟨⟨h1, h2, h3, h4⟩, h5⟩; exact ⟨h1, h2, h3, h4, h5⟩

theorem real_misplaced {a : Attrs} (h : RealAttrs a) : RealAttrs (misplaced a) := by
  obtain ⟨h1, h2, h3, h4⟩ := h
  refine ⟨trivial, trivial, trivial, ?_⟩
  have : RealDict (Dict.update a.extra [("logical", a.logical), ("alias", a.alias), ("doc", a.doc)]) := by
    refine RealDict.update h4 ?_
    rw [realDict_iff]
    exact ⟨by simp [Dict.keys], by simp [h1, h2, h3]⟩
  show RealDict [("extra_attrs", _)]
  rw [realDict_iff]
  exact ⟨by simp [Dict.keys], by simp only [List.mem_singleton, forall_eq]; exact this⟩

mutual
theorem flatten_real : ∀ t : RType, RealType t → RealType (flatten t)
  | .union ts a, h => by
    have ih := flattenAll_real ts (everywhere_iff.mp h).2
    rw [flatten]
    refine everywhere_iff.mpr ⟨(everywhere_iff.mp h).1, ?_⟩
    intro m hm
    rcases mem_foldl_absorb hm with h | ⟨h, -⟩ | ⟨f, hf, -, hm⟩
    · cases h
    · exact ih m h
    · exact (everywhere_iff.mp (ih f hf)).2 m hm
  | .struct fs a, h => by
    rw [flatten]
    exact everywhere_iff.mpr ⟨(everywhere_iff.mp h).1, flattenAll_real fs (everywhere_iff.mp h).2⟩
  | .list t l v a, h => by
    have ih := flatten_real t ((everywhere_iff.mp h).2 t (by simp [children]))
    have hn := realNode_iff.mp (everywhere_iff.mp h).1
    rw [flatten]
    refine everywhere_iff.mpr ⟨realNode_iff.mpr ⟨real_misplaced hn.1, ?_⟩,
      fun c hc => by rw [List.mem_singleton.mp hc]; exact ih⟩
    simp [params, Real]
  | .map k v a, h => by
    have ih := flatten_real k ((everywhere_iff.mp h).2 k (by simp [children]))
    have ih' := flatten_real v ((everywhere_iff.mp h).2 v (by simp [children]))
    have hn := realNode_iff.mp (everywhere_iff.mp h).1
    rw [flatten]
    refine everywhere_iff.mpr ⟨realNode_iff.mpr ⟨real_misplaced hn.1, ?_⟩,
      by simpa [children] using ⟨ih, ih'⟩⟩
    simp [params]
  | .null a, h => h
  | .bool a, h => h
  | .int .., h => h
  | .float .., h => h
  | .string .., h => h
  | .bytes .., h => h
  | .enum .., h => h
  | .proxy .., h => h
theorem flattenAll_real : ∀ ts : List RType, (∀ t ∈ ts, RealType t) →
    ∀ f ∈ flattenAll ts, RealType f
  | [], _ => by simp [flattenAll]
  | t :: ts, h => by
    have h1 := flatten_real t (h t (List.mem_cons_self ..))
    have h2 := flattenAll_real ts (fun u hu => h u (List.mem_cons_of_mem _ hu))
    rw [flattenAll]
    intro f hf
    rcases List.mem_cons.mp hf with rfl | hf
    · exact h1
    · exact h2 f hf
end

theorem realDict_promoted {a : Attrs} (h : RealDict a.extra) : RealDict (promoted a) := by
  have hd : Real (Dict.getD a.extra "default" .none) := by
    unfold Dict.getD
    cases e : Dict.get? a.extra "default" with
    | none => trivial
    | some v => exact (realDict_iff.mp h).2 _ (Dict.mem_of_get? e)
  unfold promoted
  cases e : Dict.get? a.extra "name" with
  | none =>
    rw [realDict_iff]
    exact ⟨by simp [Dict.keys], by simpa using hd⟩
  | some n =>
    have hn := (realDict_iff.mp h).2 _ (Dict.mem_of_get? e)
    rw [realDict_iff]
    exact ⟨by simp [Dict.keys], by simpa using ⟨hd, hn⟩⟩

theorem attrs_withAttrs (t : RType) (a : Attrs) : (t.withAttrs a).attrs = a := by
  cases t <;> rfl

theorem params_withAttrs (t : RType) (a : Attrs) : params (t.withAttrs a) = params t := by
  cases t <;> rfl

theorem finish_real {t : RType} (h : RealType t) : RealType (finish t) := by
  rcases finish_cases t with ⟨-, e⟩ | ⟨hu, hn, e⟩
  · rw [e]; exact h
  · rw [e]
    have hr := realNode_iff.mp (everywhere_iff.mp h).1
    obtain ⟨⟨h1, h2, h3, h4⟩, h5⟩ := hr
    refine everywhere_iff.mpr ⟨realNode_iff.mpr ⟨⟨trivial, trivial, h3, realDict_promoted h4⟩,
      by simp [params]⟩, ?_⟩
    intro m hm
    simp only [children, List.mem_cons, List.not_mem_nil, or_false] at hm
    rcases hm with rfl | rfl
    · exact everywhere_leaf (realNode_iff.mpr ⟨⟨trivial, trivial, trivial,
        ⟨List.nodup_nil, trivial⟩⟩, by simp [params]⟩) rfl
    · refine everywhere_iff.mpr ⟨realNode_iff.mpr ⟨?_, ?_⟩, ?_⟩
      · rw [attrs_withAttrs]
        exact ⟨h1, h2, trivial, RealDict.erase (RealDict.erase h4 _) _⟩
      · rw [params_withAttrs]; exact h5
      · rw [children_withAttrs]
        exact (everywhere_iff.mp h).2

/-- The attributes that the converter passes to constructors: those of a column, or none. -/
def Given (x : Attrs) : Prop :=
  x.logical = .none ∧ x.alias = .none ∧ (x.doc = .none ∨ ∃ s, x.doc = .str s) ∧
    (x.extra = [] ∨ ∃ n, x.extra = [("name", .str n)])

theorem given_empty : Given {} := ⟨rfl, rfl, .inl rfl, .inl rfl⟩

theorem given_column (n : String) (c : Option String) : Given (columnAttrs n c) := by
  refine ⟨rfl, rfl, ?_, .inr ⟨n, rfl⟩⟩
  unfold columnAttrs
  cases c with
  | none => exact .inl rfl
  | some c =>
    simp only
    split
    · exact .inl rfl
    · exact .inr ⟨c, rfl⟩

theorem realAttrs_given {x : Attrs} (h : Given x) (l : PyVal) (hl : Real l) (e : Dict)
    (he : RealDict (e ++ [("name", .none)])) : RealAttrs { x with logical := l, extra := e ++ x.extra } := by
  obtain ⟨h1, h2, h3, h4⟩ := h
  refine ⟨hl, by rw [h2]; trivial, ?_, ?_⟩
  · rcases h3 with h | ⟨s, h⟩ <;> rw [h] <;> trivial
  · show RealDict _
    rw [realDict_iff] at he ⊢
    obtain ⟨he1, he2⟩ := he
    simp only [Dict.keys, List.map_append, List.map_cons, List.map_nil] at he1
    rcases h4 with h | ⟨n, h⟩
    · rw [h, List.append_nil]
      exact ⟨List.Sublist.nodup (List.sublist_append_left ..) he1,
        fun kv hkv => he2 kv (List.mem_append_left _ hkv)⟩
    · rw [h]
      refine ⟨by simpa [Dict.keys] using he1, ?_⟩
      intro kv hkv
      rcases List.mem_append.mp hkv with hkv | hkv
      · exact he2 kv (List.mem_append_left _ hkv)
      · rw [List.mem_singleton] at hkv
        subst hkv
        trivial

theorem realAttrs_given' {x : Attrs} (h : Given x) : RealAttrs x := by
  have := realAttrs_given h .none trivial [] ⟨by simp, trivial, trivial⟩
  obtain ⟨h1, -⟩ := h
  rw [← h1] at this
  exact this

theorem real_leaf {t : RType} (h1 : RealAttrs t.attrs) (h2 : ∀ kv ∈ params t, Real kv.2)
    (h3 : children t = []) : RealType t := everywhere_leaf (realNode_iff.mpr ⟨h1, h2⟩) h3

theorem primitive_real {x : Attrs} (hx : Given x) {c : Primitive} {t : RType}
    (h : primitive x c = .ok t) : RealType t := by
  cases c <;> cases h <;> refine real_leaf ?_ (by simp [params, Real]) rfl
  case date => exact realAttrs_given hx (.str _) trivial [_] ⟨by simp, by simp [RealPairs, Real]⟩
  case timestamp => exact realAttrs_given hx (.str _) trivial [_, _] ⟨by simp, by simp [RealPairs, Real]⟩
  case timestampLocalTz =>
    exact realAttrs_given hx (.str _) trivial [_, _] ⟨by simp, by simp [RealPairs, Real]⟩
  case intervalYearMonth =>
    exact realAttrs_given hx (.str _) trivial [_, _] ⟨by simp, by simp [RealPairs, Real]⟩
  case intervalDayTime =>
    exact realAttrs_given hx (.str _) trivial [_, _] ⟨by simp, by simp [RealPairs, Real]⟩
  all_goals exact realAttrs_given' hx

mutual
theorem parse_real : ∀ (x : Attrs) (h : HType) (t : RType), Given x → parse x h = .ok t →
    RealType t
  | x, .prim c, t, hx, h => by
    rw [parse] at h
    obtain ⟨u, h1, h⟩ := bind_ok h
    cases h
    exact finish_real (primitive_real hx h1)
  | x, .decimal p s, t, hx, h => by
    rw [parse] at h
    split at h
    · cases h
    · cases h
      refine finish_real (real_leaf ?_ (by simp [params, Real]) rfl)
      exact realAttrs_given hx (.str _) trivial [_, _] ⟨by simp, by simp [RealPairs, Real]⟩
  | x, .varchar n, t, hx, h => by
    rw [parse] at h
    cases h
    exact finish_real (real_leaf (realAttrs_given' hx) (by simp [params, Real]) rfl)
  | x, .char n, t, hx, h => by
    rw [parse] at h
    cases h
    exact finish_real (real_leaf (realAttrs_given' hx) (by simp [params, Real]) rfl)
  | x, .map k v, t, hx, h => by
    rw [parse] at h
    obtain ⟨k', h1, h⟩ := bind_ok h
    obtain ⟨v', h2, h⟩ := bind_ok h
    cases h
    have i1 := parse_real _ _ _ given_empty h1
    have i2 := parse_real _ _ _ given_empty h2
    exact finish_real (everywhere_iff.mpr ⟨realNode_iff.mpr ⟨realAttrs_given' hx,
      by simp [params]⟩, by simpa [children] using ⟨i1, i2⟩⟩)
  | x, .list e, t, hx, h => by
    rw [parse] at h
    obtain ⟨e', h1, h⟩ := bind_ok h
    cases h
    have i1 := parse_real _ _ _ given_empty h1
    exact finish_real (everywhere_iff.mpr ⟨realNode_iff.mpr ⟨realAttrs_given' hx,
      by simp [params, Real]⟩, fun c hc => by rw [List.mem_singleton.mp hc]; exact i1⟩)
  | x, .union ts, t, hx, h => by
    rw [parse] at h
    obtain ⟨ts', h1, h⟩ := bind_ok h
    cases h
    have i := parseAll_real _ _ h1
    refine finish_real (flatten_real _ (everywhere_iff.mpr ⟨realNode_iff.mpr ⟨?_,
      by simp [params]⟩, ?_⟩))
    · have := realAttrs_given hx .none trivial [("default", .none)]
        ⟨by simp, by simp [RealPairs, Real]⟩
      simpa [hx.1, RType.attrs] using this
    · intro c hc
      rcases List.mem_cons.mp hc with rfl | hc
      · exact real_leaf ⟨trivial, trivial, trivial, ⟨List.nodup_nil, trivial⟩⟩ (by simp [params]) rfl
      · exact i c hc
  | x, .struct fs, t, hx, h => by
    rw [parse] at h
    obtain ⟨fs', h1, h⟩ := bind_ok h
    cases h
    have i := parseFields_real _ _ h1
    exact finish_real (everywhere_iff.mpr ⟨realNode_iff.mpr ⟨realAttrs_given' hx,
      by simp [params]⟩, i⟩)
theorem parseAll_real : ∀ (hs : List HType) (ts : List RType), parseAll hs = .ok ts →
    ∀ t ∈ ts, RealType t
  | [], ts, h => by
    rw [parseAll] at h
    cases h
    simp
  | t :: hs, ts, h => by
    rw [parseAll] at h
    obtain ⟨u, h1, h⟩ := bind_ok h
    obtain ⟨us, h2, h⟩ := bind_ok h
    cases h
    have i1 := parse_real _ _ _ given_empty h1
    have i2 := parseAll_real _ _ h2
    intro t ht
    rcases List.mem_cons.mp ht with rfl | ht
    · exact i1
    · exact i2 t ht
theorem parseFields_real : ∀ (hs : List (String × HType)) (ts : List RType),
    parseFields hs = .ok ts → ∀ t ∈ ts, RealType t
  | [], ts, h => by
    rw [parseFields] at h
    cases h
    simp
  | (n, t) :: hs, ts, h => by
    rw [parseFields] at h
    obtain ⟨u, h1, h⟩ := bind_ok h
    obtain ⟨us, h2, h⟩ := bind_ok h
    cases h
    have i1 := parse_real _ _ _ (given_column ..) h1
    have i2 := parseFields_real _ _ h2
    intro t ht
    rcases List.mem_cons.mp ht with rfl | ht
    · exact i1
    · exact i2 t ht
end

end Recap.Hive
