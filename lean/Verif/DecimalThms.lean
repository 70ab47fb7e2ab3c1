import Verif.BigQueryThms

/-!
# Valid types and decimals that fit, for Hive, BigQuery, MySQL, PostgreSQL and Snowflake
-/

set_option autoImplicit false

namespace Recap

open RType Spec

namespace Hive

open Relational (bind_ok)

/-- The checks of `validate()` on one type, without the types in it. -/
def CheckedNode : RType → Prop
  | .int b _ _ => checkRange b 1 2147483647 = .ok ()
  | .float b _ => checkRange b 1 2147483647 = .ok ()
  | .string b v _ => checkSize b v = .ok ()
  | .bytes b v _ => checkSize b v = .ok ()
  | .list _ l v _ => checkSize l v = .ok ()
  | _ => True

mutual
theorem validate_checked : ∀ t : RType, Everywhere CheckedNode t → t.validate = .ok ()
  | .int .., h => (everywhere_iff.mp h).1
  | .float .., h => (everywhere_iff.mp h).1
  | .string .., h => (everywhere_iff.mp h).1
  | .bytes .., h => (everywhere_iff.mp h).1
  | .list t l v a, h => by
    have h1 : checkSize l v = .ok () := (everywhere_iff.mp h).1
    rw [validate, h1]
    exact validate_checked t ((everywhere_iff.mp h).2 t (List.mem_singleton.mpr rfl))
  | .map k v a, h => by
    rw [validate, validate_checked k ((everywhere_iff.mp h).2 k (by simp [children]))]
    exact validate_checked v ((everywhere_iff.mp h).2 v (by simp [children]))
  | .struct fs a, h => by
    rw [validate]
    exact validateList_checked fs (everywhere_iff.mp h).2
  | .null _, _ => rfl
  | .bool _, _ => rfl
  | .enum _ _, _ => rfl
  | .union _ _, _ => rfl
  | .proxy _ _, _ => rfl
theorem validateList_checked : ∀ ts : List RType, (∀ t ∈ ts, Everywhere CheckedNode t) →
    validateList ts = .ok ()
  | [], _ => rfl
  | t :: ts, h => by
    rw [validateList, validate_checked t (h t (List.mem_cons_self ..))]
    exact validateList_checked ts (fun u hu => h u (List.mem_cons_of_mem _ hu))
end

theorem allValid_of_checked {t : RType} (h : Everywhere CheckedNode t) : AllValid t := by
  intro u hu
  exact validate_checked u (fun w hw => h w (hw.trans hu))

/-- A property of single types that does not mind lists, maps, unions and structs with other
attributes, nor names, docs and defaults. -/
structure Local (P : RType → Prop) : Prop where
  list : ∀ t a, P (.list t .none (.bool true) a)
  map : ∀ k v a, P (.map k v a)
  struct : ∀ fs a, P (.struct fs a)
  union : ∀ ts a, P (.union ts a)
  null : ∀ a, P (.null a)
  demote : ∀ t : RType, P t →
    P (t.withAttrs { t.attrs with doc := .none, extra := demoted t.attrs.extra })

theorem finish_local {P : RType → Prop} (hP : Local P) {t : RType} (h : Everywhere P t) :
    Everywhere P (finish t) := by
  rcases finish_cases t with ⟨-, e⟩ | ⟨hu, hn, e⟩
  · rw [e]; exact h
  · rw [e]
    refine everywhere_iff.mpr ⟨hP.union _ _, ?_⟩
    intro m hm
    simp only [children, List.mem_cons, List.not_mem_nil, or_false] at hm
    rcases hm with rfl | rfl
    · exact everywhere_leaf (hP.null _) rfl
    · refine everywhere_iff.mpr ⟨hP.demote t (everywhere_iff.mp h).1, ?_⟩
      rw [children_withAttrs]
      exact (everywhere_iff.mp h).2

mutual
theorem flatten_local {P : RType → Prop} (hP : Local P) : ∀ t : RType, Everywhere P t →
    Everywhere P (flatten t)
  | .union ts a, h => by
    have ih := flattenAll_local hP ts (everywhere_iff.mp h).2
    rw [flatten]
    refine everywhere_iff.mpr ⟨hP.union _ _, ?_⟩
    intro m hm
    rcases mem_foldl_absorb hm with h | ⟨h, -⟩ | ⟨f, hf, -, hm⟩
    · cases h
    · exact ih m h
    · exact (everywhere_iff.mp (ih f hf)).2 m hm
  | .struct fs a, h => by
    rw [flatten]
    exact everywhere_iff.mpr ⟨hP.struct _ _, flattenAll_local hP fs (everywhere_iff.mp h).2⟩
  | .list t l v a, h => by
    have ih := flatten_local hP t ((everywhere_iff.mp h).2 t (by simp [children]))
    rw [flatten]
    exact everywhere_iff.mpr ⟨hP.list _ _, fun c hc => by rw [List.mem_singleton.mp hc]; exact ih⟩
  | .map k v a, h => by
    have ih := flatten_local hP k ((everywhere_iff.mp h).2 k (by simp [children]))
    have ih' := flatten_local hP v ((everywhere_iff.mp h).2 v (by simp [children]))
    rw [flatten]
    exact everywhere_iff.mpr ⟨hP.map _ _ _, by simpa [children] using ⟨ih, ih'⟩⟩
  | .null a, h => h
  | .bool a, h => h
  | .int .., h => h
  | .float .., h => h
  | .string .., h => h
  | .bytes .., h => h
  | .enum .., h => h
  | .proxy .., h => h
theorem flattenAll_local {P : RType → Prop} (hP : Local P) : ∀ ts : List RType,
    (∀ t ∈ ts, Everywhere P t) → ∀ f ∈ flattenAll ts, Everywhere P f
  | [], _ => by simp [flattenAll]
  | t :: ts, h => by
    have h1 := flatten_local hP t (h t (List.mem_cons_self ..))
    have h2 := flattenAll_local hP ts (fun u hu => h u (List.mem_cons_of_mem _ hu))
    rw [flattenAll]
    intro f hf
    rcases List.mem_cons.mp hf with rfl | hf
    · exact h1
    · exact h2 f hf
end

/-- What a local property must say about the Hive types without parts that satisfy `Q`. -/
structure Leaves (P : RType → Prop) (Q : HType → Prop) : Prop where
  prim : ∀ x c t, x.logical = .none → Q (.prim c) → primitive x c = .ok t → P t
  decimal : ∀ (x : Attrs) (p s : Int), Q (.decimal p s) → p ≤ 38 →
    P (.bytes (.int 16) (.bool false) { x with
      logical := .str "build.recap.Decimal",
      extra := ("precision", .int p) :: ("scale", .int s) :: x.extra })
  varchar : ∀ x n, Q (.varchar n) → P (.string (.int n) (.bool true) x)
  char : ∀ x n, Q (.char n) → P (.string (.int n) (.bool false) x)

/-- A condition on Hive types that passes to their parts. -/
structure Inherited (Q : HType → Prop) : Prop where
  map : ∀ k v, Q (.map k v) → Q k ∧ Q v
  list : ∀ e, Q (.list e) → Q e
  union : ∀ ts, Q (.union ts) → ∀ t ∈ ts, Q t
  struct : ∀ fs, Q (.struct fs) → ∀ f ∈ fs, Q f.2

mutual
theorem parse_local {P : RType → Prop} (hP : Local P) {Q : HType → Prop} (hQ : Inherited Q) (hL : Leaves P Q) :
    ∀ (x : Attrs) (h : HType) (t : RType), x.logical = .none → Q h →
      parse x h = .ok t → Everywhere P t
  | x, .prim c, t, hx, hg, h => by
    rw [parse] at h
    obtain ⟨u, h1, h⟩ := bind_ok h
    cases h
    exact finish_local hP (everywhere_leaf (hL.prim x c u hx hg h1) (primitive_leaf h1).1)
  | x, .decimal p s, t, hx, hg, h => by
    rw [parse] at h
    split at h
    · cases h
    · cases h
      exact finish_local hP (everywhere_leaf (hL.decimal x p s hg (by omega)) rfl)
  | x, .varchar n, t, hx, hg, h => by
    rw [parse] at h
    cases h
    exact finish_local hP (everywhere_leaf (hL.varchar x n hg) rfl)
  | x, .char n, t, hx, hg, h => by
    rw [parse] at h
    cases h
    exact finish_local hP (everywhere_leaf (hL.char x n hg) rfl)
  | x, .map k v, t, hx, hg, h => by
    rw [parse] at h
    obtain ⟨k', h1, h⟩ := bind_ok h
    obtain ⟨v', h2, h⟩ := bind_ok h
    cases h
    have i1 := parse_local hP hQ hL _ _ _ rfl (hQ.map _ _ hg).1 h1
    have i2 := parse_local hP hQ hL _ _ _ rfl (hQ.map _ _ hg).2 h2
    exact finish_local hP (everywhere_iff.mpr ⟨hP.map _ _ _, by simpa [children] using ⟨i1, i2⟩⟩)
  | x, .list e, t, hx, hg, h => by
    rw [parse] at h
    obtain ⟨e', h1, h⟩ := bind_ok h
    cases h
    have i1 := parse_local hP hQ hL _ _ _ rfl (hQ.list _ hg) h1
    exact finish_local hP (everywhere_iff.mpr ⟨hP.list _ _,
      fun c hc => by rw [List.mem_singleton.mp hc]; exact i1⟩)
  | x, .union ts, t, hx, hg, h => by
    rw [parse] at h
    obtain ⟨ts', h1, h⟩ := bind_ok h
    cases h
    have i := parseAll_local hP hQ hL _ _ (hQ.union _ hg) h1
    refine finish_local hP (flatten_local hP _ (everywhere_iff.mpr ⟨hP.union _ _, ?_⟩))
    intro c hc
    rcases List.mem_cons.mp hc with rfl | hc
    · exact everywhere_leaf (hP.null _) rfl
    · exact i c hc
  | x, .struct fs, t, hx, hg, h => by
    rw [parse] at h
    obtain ⟨fs', h1, h⟩ := bind_ok h
    cases h
    exact finish_local hP (everywhere_iff.mpr ⟨hP.struct _ _, parseFields_local hP hQ hL _ _ (hQ.struct _ hg) h1⟩)
theorem parseAll_local {P : RType → Prop} (hP : Local P) {Q : HType → Prop} (hQ : Inherited Q) (hL : Leaves P Q) :
    ∀ (hs : List HType) (ts : List RType), (∀ t ∈ hs, Q t) → parseAll hs = .ok ts →
      ∀ t ∈ ts, Everywhere P t
  | [], ts, _, h => by
    rw [parseAll] at h
    cases h
    simp
  | t :: hs, ts, hg, h => by
    rw [parseAll] at h
    obtain ⟨u, h1, h⟩ := bind_ok h
    obtain ⟨us, h2, h⟩ := bind_ok h
    cases h
    have i1 := parse_local hP hQ hL _ _ _ rfl (hg _ (List.mem_cons_self ..)) h1
    have i2 := parseAll_local hP hQ hL _ _ (fun d hd => hg d (List.mem_cons_of_mem _ hd)) h2
    intro t ht
    rcases List.mem_cons.mp ht with rfl | ht
    · exact i1
    · exact i2 t ht
theorem parseFields_local {P : RType → Prop} (hP : Local P) {Q : HType → Prop} (hQ : Inherited Q) (hL : Leaves P Q) :
    ∀ (hs : List (String × HType)) (ts : List RType), (∀ f ∈ hs, Q f.2) →
      parseFields hs = .ok ts → ∀ t ∈ ts, Everywhere P t
  | [], ts, _, h => by
    rw [parseFields] at h
    cases h
    simp
  | (n, t) :: hs, ts, hg, h => by
    rw [parseFields] at h
    obtain ⟨u, h1, h⟩ := bind_ok h
    obtain ⟨us, h2, h⟩ := bind_ok h
    cases h
    have i1 := parse_local hP hQ hL _ _ _ rfl (hg _ (List.mem_cons_self ..)) h1
    have i2 := parseFields_local hP hQ hL _ _ (fun d hd => hg d (List.mem_cons_of_mem _ hd)) h2
    intro t ht
    rcases List.mem_cons.mp ht with rfl | ht
    · exact i1
    · exact i2 t ht
end

theorem parseColumns_local {P : RType → Prop} (hP : Local P) {Q : HType → Prop} (hQ : Inherited Q) (hL : Leaves P Q) :
    ∀ (cs : List HColumn) (ts : List RType), (∀ c ∈ cs, Q c.type) →
      parseColumns cs = .ok ts → ∀ t ∈ ts, Everywhere P t
  | [], ts, _, h => by
    rw [parseColumns] at h
    cases h
    simp
  | c :: cs, ts, hg, h => by
    rw [parseColumns] at h
    obtain ⟨u, h1, h⟩ := bind_ok h
    obtain ⟨us, h2, h⟩ := bind_ok h
    cases h
    have i1 := parse_local hP hQ hL _ _ _ rfl (hg c (List.mem_cons_self ..)) h1
    have i2 := parseColumns_local hP hQ hL _ _ (fun d hd => hg d (List.mem_cons_of_mem _ hd)) h2
    intro t ht
    rcases List.mem_cons.mp ht with rfl | ht
    · exact i1
    · exact i2 t ht

theorem toRecap_local {P : RType → Prop} (hP : Local P) {Q : HType → Prop} (hQ : Inherited Q) (hL : Leaves P Q) {table : HTable}
    {t : RType} (hg : ∀ c ∈ table.columns, Q c.type) (h : toRecap table = .ok t) :
    Everywhere P t := by
  obtain ⟨fs, h1, rfl⟩ := hive_ok h
  exact everywhere_iff.mpr ⟨hP.struct _ _, parseColumns_local hP hQ hL _ _ hg h1⟩

theorem goodHiveAll_iff {ts : List HType} : GoodHiveAll ts ↔ ∀ t ∈ ts, GoodHive t := by
  induction ts with
  | nil => simp [GoodHiveAll]
  | cons t ts ih => simp [GoodHiveAll, ih]

theorem goodHiveFields_iff {fs : List (String × HType)} :
    GoodHiveFields fs ↔ ∀ f ∈ fs, GoodHive f.2 := by
  induction fs with
  | nil => simp [GoodHiveFields]
  | cons t ts ih => rw [GoodHiveFields, ih]; simp

theorem goodHive_inherited : Inherited GoodHive where
  map k v h := by rwa [GoodHive] at h
  list e h := by rwa [GoodHive] at h
  union ts h := by rw [GoodHive] at h; exact goodHiveAll_iff.mp h
  struct fs h := by rw [GoodHive] at h; exact goodHiveFields_iff.mp h

theorem checked_local : Local CheckedNode where
  list _ _ := rfl
  map _ _ _ := trivial
  struct _ _ := trivial
  union _ _ := trivial
  null _ := trivial
  demote t h := by cases t <;> exact h

theorem checked_leaves : Leaves CheckedNode GoodHive where
  prim x c t _ _ h := by cases c <;> cases h <;> first | rfl | trivial
  decimal x p s _ _ := rfl
  varchar x n h := by
    rw [GoodHive] at h
    exact Relational.checkSize_good ⟨n, rfl, h.1, by have := h.2; omega⟩ _
  char x n h := by
    rw [GoodHive] at h
    exact Relational.checkSize_good ⟨n, rfl, h.1, by have := h.2; omega⟩ _

theorem fits_digits {n p : Int} (k : Nat) (hp : p ≤ k) (hk : 10 ^ k ≤ 2 ^ (8 * n - 1).toNat) :
    10 ^ p.toNat ≤ 2 ^ (8 * n - 1).toNat :=
  Nat.le_trans (Nat.pow_le_pow_right (by omega) (by omega)) hk

theorem fits_local : Local DecimalFits where
  list _ _ := by intro _ _ _ h; cases h
  map _ _ _ := by intro _ _ _ h; cases h
  struct _ _ := by intro _ _ _ h; cases h
  union _ _ := by intro _ _ _ h; cases h
  null _ := by intro _ _ _ h; cases h
  demote t h := by
    intro b v a e hl
    cases t <;> cases e
    obtain ⟨n, p, h1, h2, h3⟩ := h _ _ _ rfl hl
    refine ⟨n, p, h1, ?_, h3⟩
    simp only [attrs, demoted]
    rw [Dict.get?_erase_ne _ (by decide), Dict.get?_erase_ne _ (by decide)]
    exact h2

/-- Only decimals are marked as decimals. -/
theorem fits_leaves : Leaves DecimalFits (fun _ => True) where
  prim x c t hx _ h := by
    intro b v a e hl
    cases c <;> cases h <;> cases e
    all_goals first
      | (rw [hx] at hl; cases hl; done)
      | (simp at hl; done)
  decimal x p s _ hp := by
    intro b v a e hl
    cases e
    exact ⟨16, p, rfl, rfl, fits_digits 38 hp (by decide)⟩
  varchar x n _ := by intro b v a e hl; cases e
  char x n _ := by intro b v a e hl; cases e

end Hive

/-! ## C83 for Hive -/

/-- **C83 for Hive.**  A converted table passes `validate()` at every depth if the declared
lengths lie in the documented range. -/
theorem C83_hive_valid (table : Hive.HTable) (t : RType) (h : Hive.toRecap table = .ok t)
    (hg : ∀ c ∈ table.columns, GoodHive c.type) : AllValid t :=
  Hive.allValid_of_checked
    (Hive.toRecap_local Hive.checked_local Hive.goodHive_inherited Hive.checked_leaves hg h)

example : ∀ c ∈ eventsTable.columns, GoodHive c.type := by
  simp [eventsTable, GoodHive, GoodHiveAll, GoodHiveFields]

/-- The condition is needed: nothing of length 0 is valid. -/
example : ∃ t, Hive.toRecap { name := "t", columns := [{ name := "c", type := .varchar 0 }] } = .ok t ∧
    ¬AllValid t := by
  refine ⟨_, rfl, fun h => ?_⟩
  have := h (.string (.int 0) (.bool true) {}) (.field (List.mem_singleton.mpr rfl)
    (.member (List.mem_cons_of_mem _ (List.mem_singleton.mpr rfl)) .refl))
  cases this

/-! ## C85: decimals fit -/

/-- **C85 for Hive.**  Every decimal in a converted table can hold all numbers of its
precision. -/
theorem C85_hive_decimals_fit (table : Hive.HTable) (t : RType) (h : Hive.toRecap table = .ok t) :
    Everywhere DecimalFits t :=
  Hive.toRecap_local (Q := fun _ => True) Hive.fits_local
    ⟨fun _ _ _ => ⟨trivial, trivial⟩, fun _ _ => trivial, fun _ _ _ _ => trivial,
      fun _ _ _ _ => trivial⟩
    Hive.fits_leaves (fun _ _ => trivial) h

namespace BigQuery

open Relational (bind_ok)
open Hive (everywhere_iff everywhere_leaf fits_local fits_digits)

theorem scalar_fits {ft : String} {l p s : PyVal} {t : RType} (h : scalar ft l p s = .ok t)
    (hg : ∀ n, (ft, n) ∈ decimalDigits →
      p.truthy = false ∨ ∃ q : Int, p = .int q ∧ q ≤ n) : Everywhere DecimalFits t := by
  have any : ∀ {xs : List String}, xs.contains ft = true → ft ∈ xs := by simp
  have key : ∀ k : Nat, (ft, k) ∈ decimalDigits →
      ∃ q : Int, orElse p (.int k) = .int q ∧ q ≤ k := by
    intro k hk
    rcases hg k hk with h' | ⟨q, rfl, h'⟩
    · exact ⟨k, by simp [orElse, h'], by omega⟩
    · unfold orElse
      split
      · exact ⟨q, rfl, h'⟩
      · exact ⟨k, rfl, by omega⟩
  unfold scalar at h
  repeat' split at h
  all_goals first
    | cases h; done
    | (cases h
       refine everywhere_leaf ?_ rfl
       intro b v a e hl
       first
         | (cases e; done)
         | (cases e; cases hl; done)
         | skip)
  · rename_i hf
    cases e
    obtain ⟨q, e, hq⟩ := key 38 (by
      have := any hf
      simp only [List.mem_cons, List.not_mem_nil, or_false] at this
      rcases this with rfl | rfl <;> decide)
    refine ⟨16, q, rfl, ?_, fits_digits 38 hq (by decide)⟩
    rw [← e]
    rfl
  · rename_i hf
    cases e
    obtain ⟨q, e, hq⟩ := key 76 (by
      have := any hf
      simp only [List.mem_cons, List.not_mem_nil, or_false] at this
      rcases this with rfl | rfl <;> decide)
    refine ⟨32, q, rfl, ?_, fits_digits 76 hq (by decide)⟩
    rw [← e]
    rfl

theorem fits_withAttrs {t : RType} {x : Attrs} (h : DecimalFits t)
    (hl : x.logical = t.attrs.logical)
    (he : Dict.get? x.extra "precision" = Dict.get? t.attrs.extra "precision") :
    DecimalFits (t.withAttrs x) := by
  intro b v a e hd
  cases t <;> cases e
  rw [hl] at hd
  rw [he]
  exact h _ _ _ rfl hd

theorem everywhere_makeNullable {t : RType} (h : Everywhere DecimalFits t) :
    Everywhere DecimalFits (makeNullable t) := by
  have addNull_mem : ∀ (ts : List RType) (m : RType), m ∈ addNull ts → m = .null {} ∨ m ∈ ts := by
    intro ts m hm
    unfold addNull at hm
    split at hm
    · exact .inr hm
    · exact List.mem_cons.mp hm
  have single : ∀ m ∈ addNull [t.withAttrs
      { t.attrs with doc := .none, extra := demoted t.attrs.extra }], Everywhere DecimalFits m := by
    intro m hm
    rcases addNull_mem _ _ hm with rfl | hm
    · exact everywhere_leaf (fits_local.null _) rfl
    · rw [List.mem_singleton.mp hm]
      refine everywhere_iff.mpr ⟨fits_local.demote t (everywhere_iff.mp h).1, ?_⟩
      rw [Hive.children_withAttrs]
      exact (everywhere_iff.mp h).2
  cases t with
  | union ts a =>
    refine everywhere_iff.mpr ⟨fits_local.union _ _, ?_⟩
    intro m hm
    rcases addNull_mem _ _ hm with rfl | hm
    · exact everywhere_leaf (fits_local.null _) rfl
    · exact (everywhere_iff.mp h).2 m hm
  | _ => exact everywhere_iff.mpr ⟨fits_local.union _ _, single⟩

theorem everywhere_withAttrs {t : RType} {x : Attrs} (h : Everywhere DecimalFits t)
    (hl : x.logical = t.attrs.logical)
    (he : Dict.get? x.extra "precision" = Dict.get? t.attrs.extra "precision") :
    Everywhere DecimalFits (t.withAttrs x) := by
  refine everywhere_iff.mpr ⟨fits_withAttrs (everywhere_iff.mp h).1 hl he, ?_⟩
  rw [Hive.children_withAttrs]
  exact (everywhere_iff.mp h).2

theorem decorate_fits {mode : String} {name description dflt : PyVal} {t : RType}
    (h : Everywhere DecimalFits t) :
    Everywhere DecimalFits (decorate mode name description dflt t) := by
  obtain ⟨x, e, -, -, -, h4, h5, -⟩ := decorate_annotated mode name description dflt t
  rw [e]
  refine everywhere_withAttrs ?_ h5 (h4 _ (by decide) (by decide))
  have hlist : Everywhere DecimalFits (.list t .none (.bool true) {}) :=
    everywhere_iff.mpr ⟨fits_local.list _ _,
      fun c hc => by rw [List.mem_singleton.mp hc]; exact h⟩
  simp only [wrap]
  repeat' split
  · exact everywhere_makeNullable hlist
  · exact everywhere_makeNullable h
  · exact hlist
  · exact h

mutual
theorem fieldOf_fits : ∀ (f : Field) (t : RType), fieldOf f = .ok t → GoodPrecisions f →
    Everywhere DecimalFits t
  | .mk ft mode name desc dflt l p s fields, t, h, hg => by
    rw [GoodPrecisions] at hg
    rw [fieldOf] at h
    split at h
    · obtain ⟨fs, h1, h⟩ := bind_ok h
      cases h
      exact decorate_fits (everywhere_iff.mpr ⟨fits_local.struct _ _, fieldsOf_fits _ _ h1 hg.2⟩)
    · obtain ⟨v, h1, h⟩ := bind_ok h
      cases h
      exact decorate_fits (scalar_fits h1 hg.1)
theorem fieldsOf_fits : ∀ (fs : List Field) (ts : List RType), fieldsOf fs = .ok ts →
    GoodPrecisionsAll fs → ∀ t ∈ ts, Everywhere DecimalFits t
  | [], ts, h, _, t, ht => by
    rw [fieldsOf] at h
    cases h
    cases ht
  | f :: fs, ts, h, hg, t, ht => by
    rw [GoodPrecisionsAll] at hg
    rw [fieldsOf] at h
    obtain ⟨t', h1, h⟩ := bind_ok h
    obtain ⟨ts', h2, h⟩ := bind_ok h
    cases h
    rcases List.mem_cons.mp ht with rfl | ht
    · exact fieldOf_fits f _ h1 hg.1
    · exact fieldsOf_fits fs ts' h2 hg.2 t ht
end

end BigQuery

/-- **C85 for BigQuery.**  Every decimal in a converted schema can hold all numbers of its
precision, if the precisions are within BigQuery's limits. -/
theorem C85_bigquery_decimals_fit (fields : List BigQuery.Field) (t : RType)
    (h : BigQuery.toRecap fields = .ok t) (hg : GoodPrecisionsAll fields) :
    Everywhere DecimalFits t := by
  unfold BigQuery.toRecap at h
  obtain ⟨fs, h1, h⟩ := Relational.bind_ok h
  cases h
  exact Hive.everywhere_iff.mpr ⟨Hive.fits_local.struct _ _, BigQuery.fieldsOf_fits _ _ h1 hg⟩

example : GoodPrecisionsAll ordersFields := by
  simp [ordersFields, GoodPrecisionsAll, GoodPrecisions, decimalDigits]

namespace Relational

open Hive (everywhere_iff everywhere_leaf fits_local fits_digits)

theorem fits_other {t : RType} (h : t.attrs.logical ≠ .str "build.recap.Decimal") :
    DecimalFits t := by
  rintro b v a rfl hl
  exact absurd hl h

theorem fits_decimal {n q : Int} {s : PyVal} (k : Nat) (hq : q ≤ k)
    (hk : 10 ^ k ≤ 2 ^ (8 * n - 1).toNat) : DecimalFits (decimalType n (.int q) s) := by
  intro b v a e hl
  cases e
  exact ⟨n, q, rfl, rfl, fits_digits k hq hk⟩

theorem mysqlType_fits {dt : String} {o p s : PyVal} {c : Dict}
    (h : dt ∈ ["dec", "decimal", "numeric"] → ∃ q : Int, p = .int q ∧ q ≤ 76) :
    Yields DecimalFits (mysqlType dt o p s c) := by
  unfold mysqlType
  branches
  all_goals first
    | (refine fits_other ?_; simp [attrs, timeType]; done)
    | (rename_i hdt
       obtain ⟨q, rfl, hq⟩ := h (by simpa using hdt)
       exact fits_decimal 76 hq (by decide))

theorem snowflakeType_fits {dt : String} {o : PyVal} {c : Dict}
    (h : ∀ v, Dict.get? c "NUMERIC_PRECISION" = some v →
      v.truthy = false ∨ ∃ q : Int, v = .int q ∧ q ≤ 38) :
    Yields DecimalFits (snowflakeType dt o c) := by
  unfold snowflakeType
  branches
  all_goals first
    | (refine fits_other ?_; simp [attrs, timeType]; done)
    | (rename_i v hv _ _
       rcases h v (item_ok hv) with h | ⟨q, rfl, h⟩
       · simp only [orElse, h]
         exact fits_decimal 38 (Int.le_refl _) (by decide)
       · unfold orElse
         split
         · exact fits_decimal 38 h (by decide)
         · exact fits_decimal 38 (Int.le_refl _) (by decide))

theorem mysqlType_leaf {dt : String} {o p s : PyVal} {c : Dict} :
    Yields (fun t => children t = []) (mysqlType dt o p s c) := by
  unfold mysqlType
  branches
  all_goals rfl

theorem snowflakeType_leaf {dt : String} {o : PyVal} {c : Dict} :
    Yields (fun t => children t = []) (snowflakeType dt o c) := by
  unfold snowflakeType
  branches
  all_goals rfl

theorem fits_setExtra {t : RType} {k : String} {v : PyVal} (hk : k ≠ "precision")
    (h : Everywhere DecimalFits t) : Everywhere DecimalFits (setExtra t k v) :=
  BigQuery.everywhere_withAttrs h rfl (Dict.get?_set_ne _ _ hk)

theorem fits_fieldOf {cm : CaseMap} {col : Dict} {base f : RType}
    (hb : Everywhere DecimalFits base) (h : fieldOf cm col base = .ok f) :
    Everywhere DecimalFits f := by
  obtain ⟨n, dflt, name, -, -, -, rfl⟩ := fieldOf_ok h
  refine fits_setExtra (by decide) ?_
  have : Everywhere DecimalFits
      (if (cm.upper n == "YES") = true then base.makeNullable else base) := by
    split
    · exact BigQuery.everywhere_makeNullable hb
    · exact hb
  split
  · exact fits_setExtra (by decide) this
  · exact this

theorem toRecap_fits {cm : CaseMap} {d : Dialect} {cols : List Dict} {reg reg' : Registry}
    {t : RType} (h : d.toRecap cm cols reg = (.ok t, reg'))
    (hp : ∀ c ∈ cols, ∀ b r r', d.parse cm c r = (.ok b, r') → Everywhere DecimalFits b) :
    Everywhere DecimalFits t := by
  obtain ⟨fs, heq, h'⟩ := toRecap_ok h
  subst heq
  obtain ⟨hlen, hi⟩ := fieldsOf_index h'
  refine everywhere_iff.mpr ⟨fits_local.struct _ _, ?_⟩
  intro f hf
  obtain ⟨i, hi1⟩ := List.getElem?_of_mem hf
  obtain ⟨c, hc⟩ : ∃ c, cols[i]? = some c := by
    have : i < fs.length := (List.getElem?_eq_some_iff.mp hi1).1
    exact ⟨_, List.getElem?_eq_getElem (by omega)⟩
  obtain ⟨b, s, s', h1, h2⟩ := hi i c f hc hi1
  exact fits_fieldOf (hp c (List.mem_of_getElem? hc) b _ _ h1) h2

end Relational

open Relational in
/-- **C85 for MySQL.**  Every decimal in a converted table can hold all numbers of its precision,
if the precisions of decimal columns are at most 76 (MySQL's limit is 65). -/
theorem C85_mysql_decimals_fit (cm : CaseMap) (cols : List Dict) (reg reg' : Registry) (t : RType)
    (h : Dialect.mysql.toRecap cm cols reg = (.ok t, reg'))
    (hp : ∀ c ∈ cols, ∀ dt, DataType cm c dt → dt ∈ ["dec", "decimal", "numeric"] →
      ∃ q : Int, Dict.get? c "NUMERIC_PRECISION" = some (.int q) ∧ q ≤ 76) :
    Everywhere DecimalFits t := by
  refine toRecap_fits h ?_
  intro c hc b r r' hb
  simp only [Dialect.parse, stateless, Prod.mk.injEq] at hb
  have h1 := hb.1
  unfold mysqlParse at h1
  obtain ⟨v, hv, h1⟩ := bind_ok h1
  obtain ⟨dt, hdt, h1⟩ := bind_ok h1
  obtain ⟨_, -, h1⟩ := bind_ok h1
  obtain ⟨p, hpr, h1⟩ := bind_ok h1
  obtain ⟨_, -, h1⟩ := bind_ok h1
  obtain ⟨r, rfl, rfl⟩ := strMethod_ok hdt
  refine Hive.everywhere_leaf (mysqlType_fits ?_ _ h1) (mysqlType_leaf _ h1)
  intro hm
  obtain ⟨q, hq, hle⟩ := hp c hc _ ⟨r, item_ok hv, rfl⟩ hm
  rw [item_ok hpr] at hq
  cases hq
  exact ⟨q, rfl, hle⟩

open Relational in
/-- **C85 for Snowflake.**  Every decimal in a converted table can hold all numbers of its
precision, if precisions are absent or at most 38, which is Snowflake's limit. -/
theorem C85_snowflake_decimals_fit (cm : CaseMap) (cols : List Dict) (reg reg' : Registry)
    (t : RType) (h : Dialect.snowflake.toRecap cm cols reg = (.ok t, reg'))
    (hp : ∀ c ∈ cols, ∀ v, Dict.get? c "NUMERIC_PRECISION" = some v →
      v.truthy = false ∨ ∃ q : Int, v = .int q ∧ q ≤ 38) :
    Everywhere DecimalFits t := by
  refine toRecap_fits h ?_
  intro c hc b r r' hb
  simp only [Dialect.parse, stateless, Prod.mk.injEq] at hb
  have h1 := hb.1
  unfold snowflakeParse at h1
  obtain ⟨v, hv, h1⟩ := bind_ok h1
  obtain ⟨dt, hdt, h1⟩ := bind_ok h1
  obtain ⟨_, -, h1⟩ := bind_ok h1
  exact Hive.everywhere_leaf (snowflakeType_fits (hp c hc) _ h1) (snowflakeType_leaf _ h1)

open Relational in
/-- **C85 is false of PostgreSQL**: `NUMERIC(100, 0)` is converted to a decimal of 32 bytes, and
PostgreSQL's limit is 1000 digits. -/
theorem C85_postgresql_refuted :
    ∃ c t, ((Dialect.postgresql {}).toRecap asciiCase [c] newRegistry).1 = .ok t ∧
      Dict.get? c "NUMERIC_PRECISION" = some (.int 100) ∧ ¬Everywhere DecimalFits t := by
  refine ⟨Dict.set (Dict.set (pgColumn "n" "numeric" "numeric" "NO" .none (.int 0))
      "NUMERIC_PRECISION" (.int 100)) "NUMERIC_SCALE" (.int 0),
    .struct [setExtra (decimalType 32 (.int 100) (.int 0)) "name" (.str "n")] {},
    by decide +kernel, by decide +kernel, ?_⟩
  intro h
  obtain ⟨n, p, h1, h2, h3⟩ := h _ (.field (List.mem_singleton.mpr rfl) .refl) _ _ _ rfl rfl
  cases h1
  cases h2
  revert h3
  decide

end Recap
