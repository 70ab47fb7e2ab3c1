import Verif.Hive
import Verif.HiveSpec
import Verif.CompactAlias
import Verif.RelationalLemmas

/-!
# Lemmas about the Hive converter
-/

set_option autoImplicit false

namespace Recap.Hive

open RType Spec Relational

theorem everywhere_iff {P : RType → Prop} {t : RType} :
    Everywhere P t ↔ P t ∧ ∀ c ∈ children t, Everywhere P c := by
  constructor
  · intro h
    exact ⟨h t .refl, fun c hc u hu => h u (sub_iff.mpr (.inr ⟨c, hc, hu⟩))⟩
  · rintro ⟨h1, h2⟩ u hu
    rcases sub_iff.mp hu with rfl | ⟨c, hc, hu⟩
    · exact h1
    · exact h2 c hc u hu

theorem everywhere_leaf {P : RType → Prop} {t : RType} (h : P t) (hc : children t = []) :
    Everywhere P t := everywhere_iff.mpr ⟨h, by simp [hc]⟩

theorem children_withAttrs (t : RType) (a : Attrs) : children (t.withAttrs a) = children t := by
  cases t <;> rfl

theorem isUnion_withAttrs (t : RType) (a : Attrs) : (t.withAttrs a).isUnion = t.isUnion := by
  cases t <;> rfl

theorem isNull_withAttrs (t : RType) (a : Attrs) : (t.withAttrs a).isNull = t.isNull := by
  cases t <;> rfl

/-- What the last step makes of a type. -/
theorem finish_cases (t : RType) :
    ((t.isUnion = true ∨ t.isNull = true) ∧ finish t = t) ∨
      (t.isUnion = false ∧ t.isNull = false ∧
        finish t = .union [.null {}, t.withAttrs
          { t.attrs with doc := .none, extra := demoted t.attrs.extra }]
          { doc := t.attrs.doc, extra := promoted t.attrs }) := by
  cases t <;> simp [finish, isUnion, isNull, makeNullable, addNull, RType.attrs, withAttrs]

theorem flattenAll_eq (ts : List RType) : flattenAll ts = ts.map flatten := by
  induction ts with
  | nil => rfl
  | cons t ts ih => rw [flattenAll, ih]; rfl

/-! ### Collecting members -/

theorem mem_absorb {acc : List RType} {f m : RType} (h : m ∈ absorb acc f) :
    m ∈ acc ∨ m = f ∧ f.isUnion = false ∨ f.isUnion = true ∧ m ∈ children f := by
  cases f with
  | union ts a =>
    simp only [absorb, List.mem_append, List.mem_filter] at h
    rcases h with h | ⟨h, -⟩
    · exact .inl h
    · exact .inr (.inr ⟨rfl, h⟩)
  | _ =>
    simp only [absorb] at h
    split at h
    · exact .inl h
    · rcases List.mem_append.mp h with h | h
      · exact .inl h
      · rw [List.mem_singleton] at h
        exact .inr (.inl ⟨h, rfl⟩)

theorem mem_foldl_absorb : ∀ {fs acc : List RType} {m : RType}, m ∈ fs.foldl absorb acc →
    m ∈ acc ∨ (m ∈ fs ∧ m.isUnion = false) ∨ ∃ f ∈ fs, f.isUnion = true ∧ m ∈ children f
  | [], acc, m, h => .inl h
  | f :: fs, acc, m, h => by
    rw [List.foldl_cons] at h
    rcases mem_foldl_absorb h with h | ⟨h, h'⟩ | ⟨g, hg, h⟩
    · rcases mem_absorb h with h | ⟨rfl, h⟩ | ⟨h, h'⟩
      · exact .inl h
      · exact .inr (.inl ⟨List.mem_cons_self .., h⟩)
      · exact .inr (.inr ⟨f, List.mem_cons_self .., h, h'⟩)
    · exact .inr (.inl ⟨List.mem_cons_of_mem _ h, h'⟩)
    · exact .inr (.inr ⟨g, List.mem_cons_of_mem _ hg, h⟩)

theorem subset_absorb {acc : List RType} {f m : RType} (h : m ∈ acc) : m ∈ absorb acc f := by
  cases f with
  | union ts a => exact List.mem_append_left _ h
  | _ =>
    simp only [absorb]
    split
    · exact h
    · exact List.mem_append_left _ h

theorem subset_foldl_absorb : ∀ {fs acc : List RType} {m : RType}, m ∈ acc →
    m ∈ fs.foldl absorb acc
  | [], _, _, h => h
  | f :: fs, acc, m, h => by
    rw [List.foldl_cons]
    exact subset_foldl_absorb (subset_absorb h)

/-- A type with nothing to unpack is represented in the result. -/
theorem absorb_self {acc : List RType} {f : RType} (hu : f.isUnion = false) :
    f ∈ absorb acc f ∨ ∃ m ∈ acc, pyEq m f = true := by
  have key : f ∈ (if acc.any (fun u => pyEq u f) then acc else acc ++ [f]) ∨
      ∃ m ∈ acc, pyEq m f = true := by
    split
    · rename_i h
      simpa using Or.inr (List.any_eq_true.mp h)
    · exact .inl (by simp)
  cases f with
  | union ts a => simp [isUnion] at hu
  | _ => exact key

theorem absorb_child {acc : List RType} {f m : RType} (hu : f.isUnion = true)
    (hm : m ∈ children f) : m ∈ absorb acc f ∨ ∃ m' ∈ acc, pyEq m' m = true := by
  cases f with
  | union ts a =>
    by_cases h : acc.any (fun u => pyEq u m) = true
    · exact .inr (by simpa using List.any_eq_true.mp h)
    · refine .inl (List.mem_append_right _ (List.mem_filter.mpr ⟨hm, ?_⟩))
      simp only [Bool.not_eq_true] at h
      simp [h]
  | _ => simp [isUnion] at hu

/-- Every member, and every member of a member that is a union, is represented in the
result. -/
theorem represented : ∀ {fs acc : List RType} {f m : RType}, f ∈ fs →
    (f.isUnion = false ∧ m = f ∨ f.isUnion = true ∧ m ∈ children f) →
    m ∈ fs.foldl absorb acc ∨ ∃ m' ∈ fs.foldl absorb acc, pyEq m' m = true
  | g :: fs, acc, f, m, hf, hm => by
    rw [List.foldl_cons]
    rcases List.mem_cons.mp hf with rfl | hf
    · have h : m ∈ absorb acc f ∨ ∃ m' ∈ acc, pyEq m' m = true := by
        rcases hm with ⟨h, rfl⟩ | ⟨h, h'⟩
        · exact absorb_self h
        · exact absorb_child h h'
      rcases h with h | ⟨m', h, h'⟩
      · exact .inl (subset_foldl_absorb h)
      · exact .inr ⟨m', subset_foldl_absorb (subset_absorb h), h'⟩
    · exact represented hf hm

theorem pyEq_null {t : RType} {a : Attrs} (h : pyEq t (.null a) = true) : t.isNull = true := by
  cases t <;> simp [pyEq] at h
  rfl

/-! ### Flat unions -/

theorem absorb_distinct {acc : List RType} {f : RType} (h : acc.Pairwise (fun a b => pyEq a b = false))
    (hf : FlatNode f) : (absorb acc f).Pairwise (fun a b => pyEq a b = false) := by
  have key : ∀ t : RType, (if acc.any (fun u => pyEq u t) then acc else acc ++ [t]).Pairwise
      (fun a b => pyEq a b = false) := by
    intro t
    split
    · exact h
    · rename_i hn
      refine List.pairwise_append.mpr ⟨h, List.pairwise_singleton .., ?_⟩
      intro a ha b hb
      rw [List.mem_singleton] at hb
      subst hb
      simp only [List.any_eq_true, not_exists, not_and, Bool.not_eq_true] at hn
      exact hn a ha
  cases f with
  | union ts x =>
    refine List.pairwise_append.mpr ⟨h, (hf ts x rfl).2.filter _, ?_⟩
    intro a ha b hb
    obtain ⟨-, hb⟩ := List.mem_filter.mp hb
    simp only [Bool.not_eq_true', List.any_eq_false, Bool.not_eq_true] at hb
    exact hb a ha
  | _ => exact key _

theorem foldl_absorb_distinct : ∀ {fs acc : List RType},
    acc.Pairwise (fun a b => pyEq a b = false) → (∀ f ∈ fs, FlatNode f) →
    (fs.foldl absorb acc).Pairwise (fun a b => pyEq a b = false)
  | [], _, h, _ => h
  | f :: fs, acc, h, hf => by
    rw [List.foldl_cons]
    exact foldl_absorb_distinct (absorb_distinct h (hf f (List.mem_cons_self ..)))
      (fun g hg => hf g (List.mem_cons_of_mem _ hg))

theorem flatNode_of_not_union {t : RType} (h : t.isUnion = false) : FlatNode t := by
  rintro ts a rfl
  simp [isUnion] at h

mutual
/-- Flattening removes unions from unions everywhere. -/
theorem flatten_flat : ∀ t : RType, Everywhere FlatNode (flatten t)
  | .union ts a => by
    have ih := flattenAll_flat ts
    rw [flatten]
    refine everywhere_iff.mpr ⟨?_, ?_⟩
    · rintro ts' a' h
      cases h
      refine ⟨?_, foldl_absorb_distinct .nil (fun f hf => ih f hf f .refl)⟩
      intro m hm
      rcases mem_foldl_absorb hm with h | ⟨-, h⟩ | ⟨f, hf, hu, hm⟩
      · cases h
      · exact h
      · cases f <;> simp [isUnion] at hu
        exact (ih _ hf _ .refl _ _ rfl).1 m hm
    · intro m hm
      rcases mem_foldl_absorb hm with h | ⟨h, -⟩ | ⟨f, hf, -, hm⟩
      · cases h
      · exact ih m h
      · exact (everywhere_iff.mp (ih f hf)).2 m hm
  | .struct fs a => by
    rw [flatten]
    exact everywhere_iff.mpr ⟨flatNode_of_not_union rfl, flattenAll_flat fs⟩
  | .list t l v a => by
    have ih := flatten_flat t
    rw [flatten]
    exact everywhere_iff.mpr ⟨flatNode_of_not_union rfl, by simpa [children] using ih⟩
  | .map k v a => by
    have ih := flatten_flat k
    have ih' := flatten_flat v
    rw [flatten]
    exact everywhere_iff.mpr ⟨flatNode_of_not_union rfl, by simpa [children] using ⟨ih, ih'⟩⟩
  | .null a => everywhere_leaf (flatNode_of_not_union rfl) rfl
  | .bool a => everywhere_leaf (flatNode_of_not_union rfl) rfl
  | .int .. => everywhere_leaf (flatNode_of_not_union rfl) rfl
  | .float .. => everywhere_leaf (flatNode_of_not_union rfl) rfl
  | .string .. => everywhere_leaf (flatNode_of_not_union rfl) rfl
  | .bytes .. => everywhere_leaf (flatNode_of_not_union rfl) rfl
  | .enum .. => everywhere_leaf (flatNode_of_not_union rfl) rfl
  | .proxy .. => everywhere_leaf (flatNode_of_not_union rfl) rfl
theorem flattenAll_flat : ∀ ts : List RType, ∀ f ∈ flattenAll ts, Everywhere FlatNode f
  | [] => by simp [flattenAll]
  | t :: ts => by
    have h1 := flatten_flat t
    have h2 := flattenAll_flat ts
    rw [flattenAll]
    intro f hf
    rcases List.mem_cons.mp hf with rfl | hf
    · exact h1
    · exact h2 f hf
end

/-- The last step keeps unions flat. -/
theorem finish_flat {t : RType} (h : Everywhere FlatNode t) : Everywhere FlatNode (finish t) := by
  rcases finish_cases t with ⟨-, e⟩ | ⟨hu, hn, e⟩
  · rw [e]; exact h
  · rw [e]
    refine everywhere_iff.mpr ⟨?_, ?_⟩
    · rintro ts a he
      cases he
      refine ⟨?_, ?_⟩
      · intro m hm
        rcases List.mem_cons.mp hm with rfl | hm
        · rfl
        · rw [List.mem_singleton] at hm
          subst hm
          rw [isUnion_withAttrs]
          exact hu
      · refine List.pairwise_cons.mpr ⟨?_, List.pairwise_singleton ..⟩
        intro m hm
        rw [List.mem_singleton] at hm
        subst hm
        cases t <;> simp [isNull] at hn <;> rfl
    · intro m hm
      simp only [children, List.mem_cons, List.not_mem_nil, or_false] at hm
      rcases hm with rfl | rfl
      · exact everywhere_leaf (flatNode_of_not_union rfl) rfl
      · refine everywhere_iff.mpr ⟨flatNode_of_not_union ?_, ?_⟩
        · rw [isUnion_withAttrs]; exact hu
        · rw [children_withAttrs]
          exact (everywhere_iff.mp h).2

/-! ### Nullable parts -/

theorem partsNullable_of {t : RType} (h : children t = [] ∨ t.isUnion = true) :
    PartsNullable t := by
  cases t <;> simp [children, isUnion] at h <;> simp [PartsNullable]
  subst h
  simp

/-- Flattening keeps nullability. -/
theorem flatten_nullable {t : RType} (h : t.isNullable = true) : (flatten t).isNullable = true := by
  cases t with
  | null a => rfl
  | union ts a =>
    simp only [isNullable, List.any_eq_true] at h
    obtain ⟨m, hm, hn⟩ := h
    cases m <;> simp [isNull] at hn
    rename_i x
    have hmem : RType.null x ∈ flattenAll ts := by
      rw [flattenAll_eq]
      exact List.mem_map.mpr ⟨_, hm, by rw [flatten] <;> simp⟩
    rw [flatten]
    simp only [isNullable, List.any_eq_true]
    rcases represented (acc := []) hmem (.inl ⟨rfl, rfl⟩) with h | ⟨m', h, h'⟩
    · exact ⟨_, h, rfl⟩
    · exact ⟨m', h, pyEq_null h'⟩
  | _ => simp [isNullable] at h

mutual
theorem flatten_parts : ∀ t : RType, Everywhere PartsNullable t →
    Everywhere PartsNullable (flatten t)
  | .union ts a, h => by
    have ih := flattenAll_parts ts (everywhere_iff.mp h).2
    rw [flatten]
    refine everywhere_iff.mpr ⟨partsNullable_of (.inr rfl), ?_⟩
    intro m hm
    rcases mem_foldl_absorb hm with h | ⟨h, -⟩ | ⟨f, hf, -, hm⟩
    · cases h
    · exact ih m h
    · exact (everywhere_iff.mp (ih f hf)).2 m hm
  | .struct fs a, h => by
    have ih := flattenAll_parts fs (everywhere_iff.mp h).2
    have hn := (everywhere_iff.mp h).1
    rw [flatten]
    refine everywhere_iff.mpr ⟨?_, ih⟩
    simp only [PartsNullable, flattenAll_eq] at hn ⊢
    intro f hf
    obtain ⟨g, hg, rfl⟩ := List.mem_map.mp hf
    exact flatten_nullable (hn g hg)
  | .list t l v a, h => by
    have ih := flatten_parts t ((everywhere_iff.mp h).2 t (by simp [children]))
    have hn := (everywhere_iff.mp h).1
    rw [flatten]
    exact everywhere_iff.mpr ⟨flatten_nullable hn, by simpa [children] using ih⟩
  | .map k v a, h => by
    have ih := flatten_parts k ((everywhere_iff.mp h).2 k (by simp [children]))
    have ih' := flatten_parts v ((everywhere_iff.mp h).2 v (by simp [children]))
    have hn := (everywhere_iff.mp h).1
    rw [flatten]
    exact everywhere_iff.mpr ⟨⟨flatten_nullable hn.1, flatten_nullable hn.2⟩,
      by simpa [children] using ⟨ih, ih'⟩⟩
  | .null a, h => h
  | .bool a, h => h
  | .int .., h => h
  | .float .., h => h
  | .string .., h => h
  | .bytes .., h => h
  | .enum .., h => h
  | .proxy .., h => h
theorem flattenAll_parts : ∀ ts : List RType, (∀ t ∈ ts, Everywhere PartsNullable t) →
    ∀ f ∈ flattenAll ts, Everywhere PartsNullable f
  | [], _ => by simp [flattenAll]
  | t :: ts, h => by
    have h1 := flatten_parts t (h t (List.mem_cons_self ..))
    have h2 := flattenAll_parts ts (fun u hu => h u (List.mem_cons_of_mem _ hu))
    rw [flattenAll]
    intro f hf
    rcases List.mem_cons.mp hf with rfl | hf
    · exact h1
    · exact h2 f hf
end

theorem finish_parts {t : RType} (h : Everywhere PartsNullable t) :
    Everywhere PartsNullable (finish t) := by
  rcases finish_cases t with ⟨-, e⟩ | ⟨hu, hn, e⟩
  · rw [e]; exact h
  · rw [e]
    refine everywhere_iff.mpr ⟨partsNullable_of (.inr rfl), ?_⟩
    intro m hm
    simp only [children, List.mem_cons, List.not_mem_nil, or_false] at hm
    rcases hm with rfl | rfl
    · exact everywhere_leaf (partsNullable_of (.inl rfl)) rfl
    · refine everywhere_iff.mpr ⟨?_, ?_⟩
      · have := (everywhere_iff.mp h).1
        cases t <;> exact this
      · rw [children_withAttrs]
        exact (everywhere_iff.mp h).2

theorem finish_nullable {t : RType} (h : t.isUnion = true → t.isNullable = true) :
    (finish t).isNullable = true := by
  rcases finish_cases t with ⟨hu, e⟩ | ⟨hu, hn, e⟩
  · rw [e]
    rcases hu with hu | hn
    · exact h hu
    · cases t <;> simp [isNull] at hn
      rfl
  · rw [e]; rfl

theorem primitive_leaf {x : Attrs} {c : Primitive} {t : RType} (h : primitive x c = .ok t) :
    children t = [] ∧ t.isUnion = false := by
  cases c <;> cases h <;> exact ⟨rfl, rfl⟩

/-- What the converter guarantees for each type. -/
def Converted (t : RType) : Prop :=
  t.isNullable = true ∧ Everywhere FlatNode t ∧ Everywhere PartsNullable t

theorem converted_leaf {t : RType} (hc : children t = []) (hu : t.isUnion = false) :
    Converted (finish t) :=
  ⟨finish_nullable (by simp [hu]), finish_flat (everywhere_leaf (flatNode_of_not_union hu) hc),
    finish_parts (everywhere_leaf (partsNullable_of (.inl hc)) hc)⟩

theorem converted_node {t : RType} (hu : t.isUnion = false) (hp : PartsNullable t)
    (hc : ∀ c ∈ children t, Converted c) : Converted (finish t) :=
  ⟨finish_nullable (by simp [hu]),
    finish_flat (everywhere_iff.mpr ⟨flatNode_of_not_union hu, fun c h => (hc c h).2.1⟩),
    finish_parts (everywhere_iff.mpr ⟨hp, fun c h => (hc c h).2.2⟩)⟩

mutual
theorem parse_converted : ∀ (x : Attrs) (h : HType) (t : RType), parse x h = .ok t → Converted t
  | x, .prim c, t, h => by
    rw [parse] at h
    obtain ⟨u, h1, h⟩ := bind_ok h
    cases h
    exact converted_leaf (primitive_leaf h1).1 (primitive_leaf h1).2
  | x, .decimal p s, t, h => by
    rw [parse] at h
    split at h
    · cases h
    · cases h
      exact converted_leaf rfl rfl
  | x, .varchar n, t, h => by
    rw [parse] at h
    cases h
    exact converted_leaf rfl rfl
  | x, .char n, t, h => by
    rw [parse] at h
    cases h
    exact converted_leaf rfl rfl
  | x, .map k v, t, h => by
    rw [parse] at h
    obtain ⟨k', h1, h⟩ := bind_ok h
    obtain ⟨v', h2, h⟩ := bind_ok h
    cases h
    have i1 := parse_converted _ _ _ h1
    have i2 := parse_converted _ _ _ h2
    exact converted_node rfl ⟨i1.1, i2.1⟩ (by simpa [children] using ⟨i1, i2⟩)
  | x, .list e, t, h => by
    rw [parse] at h
    obtain ⟨e', h1, h⟩ := bind_ok h
    cases h
    have i1 := parse_converted _ _ _ h1
    exact converted_node rfl i1.1 (by simpa [children] using i1)
  | x, .union ts, t, h => by
    rw [parse] at h
    obtain ⟨ts', h1, h⟩ := bind_ok h
    cases h
    have i := parseAll_converted _ _ h1
    refine ⟨?_, finish_flat (flatten_flat _), finish_parts (flatten_parts _ ?_)⟩
    · refine finish_nullable (fun _ => flatten_nullable ?_)
      simp [isNullable, isNull]
    · refine everywhere_iff.mpr ⟨partsNullable_of (.inr rfl), ?_⟩
      intro c hc
      rcases List.mem_cons.mp hc with rfl | hc
      · exact everywhere_leaf (partsNullable_of (.inl rfl)) rfl
      · exact (i c hc).2.2
  | x, .struct fs, t, h => by
    rw [parse] at h
    obtain ⟨fs', h1, h⟩ := bind_ok h
    cases h
    have i := parseFields_converted _ _ h1
    exact converted_node rfl (fun f hf => (i f hf).1) i
theorem parseAll_converted : ∀ (hs : List HType) (ts : List RType), parseAll hs = .ok ts →
    ∀ t ∈ ts, Converted t
  | [], ts, h => by
    rw [parseAll] at h
    cases h
    simp
  | t :: hs, ts, h => by
    rw [parseAll] at h
    obtain ⟨u, h1, h⟩ := bind_ok h
    obtain ⟨us, h2, h⟩ := bind_ok h
    cases h
    have i1 := parse_converted _ _ _ h1
    have i2 := parseAll_converted _ _ h2
    intro t ht
    rcases List.mem_cons.mp ht with rfl | ht
    · exact i1
    · exact i2 t ht
theorem parseFields_converted : ∀ (hs : List (String × HType)) (ts : List RType),
    parseFields hs = .ok ts → ∀ t ∈ ts, Converted t
  | [], ts, h => by
    rw [parseFields] at h
    cases h
    simp
  | (n, t) :: hs, ts, h => by
    rw [parseFields] at h
    obtain ⟨u, h1, h⟩ := bind_ok h
    obtain ⟨us, h2, h⟩ := bind_ok h
    cases h
    have i1 := parse_converted _ _ _ h1
    have i2 := parseFields_converted _ _ h2
    intro t ht
    rcases List.mem_cons.mp ht with rfl | ht
    · exact i1
    · exact i2 t ht
end

theorem parseColumns_converted : ∀ (cs : List HColumn) (ts : List RType),
    parseColumns cs = .ok ts → ∀ t ∈ ts, Converted t
  | [], ts, h => by
    rw [parseColumns] at h
    cases h
    simp
  | c :: cs, ts, h => by
    rw [parseColumns] at h
    obtain ⟨u, h1, h⟩ := bind_ok h
    obtain ⟨us, h2, h⟩ := bind_ok h
    cases h
    have i1 := parse_converted _ _ _ h1
    have i2 := parseColumns_converted _ _ h2
    intro t ht
    rcases List.mem_cons.mp ht with rfl | ht
    · exact i1
    · exact i2 t ht

end Recap.Hive
