import Verif.ValuesLemmas
import Verif.HiveLemmas
import Verif.EqLemmas

/-!
# Helpers for C126: BigQuery and Hive
-/

set_option autoImplicit false

namespace Recap.Values

open RType
open Avro.Spec (IntValue)

theorem decimals_micro {ns : Int} (h : Decimals 6 ns) : ∃ k, ns = k * 1000 := by
  obtain ⟨k, rfl⟩ := h
  exact ⟨k, rfl⟩

/-! ## BigQuery -/

section
open BigQuery
open Relational (bind_ok)

theorem orElse_pos {p : Nat} (h : 1 ≤ p) (d : PyVal) : BigQuery.orElse (.int p) d = .int p := by
  unfold BigQuery.orElse
  rw [if_pos]
  have : p ≠ 0 := by omega
  simpa [PyVal.truthy] using this

theorem orElse_scale (q : Nat) : BigQuery.orElse (.int q) (.int 0) = .int q := by
  unfold BigQuery.orElse
  split
  · rfl
  · rename_i hn
    cases q with
    | zero => rfl
    | succ n => exact absurd (by simp [PyVal.truthy]; omega) hn

theorem bq_scalar {ft mode : String} {n d df l p s : PyVal} {fs : List Field} {t : RType} {x : Val}
    (h : scalar ft l p s = .ok t) (hx : BigQueryScalar (.mk ft mode n d df l p s fs) x)
    (hf : BigQueryFits (.mk ft mode n d df l p s fs) x) : Holds t x := by
  cases hx with
  | string => cases h; exact .string rfl (.inl rfl)
  | stringMax hl =>
    cases h
    cases hf with
    | other h1 => exact absurd rfl (h1 _)
    | narrow he => exact .string rfl (.inr ⟨_, rfl, by rw [he]; exact hl⟩)
  | json => cases h; exact .string rfl (.inl rfl)
  | bytes hl => cases h; exact .bytes rfl hl
  | int hm hi =>
    simp only [List.mem_cons, List.not_mem_nil, or_false] at hm
    rcases hm with rfl | rfl <;> cases h <;> exact .int rfl hi
  | float hm =>
    simp only [List.mem_cons, List.not_mem_nil, or_false] at hm
    rcases hm with rfl | rfl <;> cases h <;> exact .float (Int.le_refl _)
  | bool => cases h; exact .bool
  | instant hm hd hc =>
    obtain ⟨k, rfl⟩ := decimals_micro hd
    have hi : IntValue (64 : Int).toNat true k := intValue_64.mpr (by have := hc.1; have := hc.2; omega)
    simp only [List.mem_cons, List.not_mem_nil, or_false] at hm
    rcases hm with rfl | rfl <;> cases h <;> exact .instant rfl rfl rfl hi
  | date hc =>
    cases h
    exact .date rfl rfl (intValue_32.mpr (by have := hc.1; have := hc.2; omega))
  | time hd hc =>
    obtain ⟨k, rfl⟩ := decimals_micro hd
    cases h
    cases hf with
    | other _ h1 => exact absurd rfl (h1 _)
    | time ht => exact .time rfl rfl rfl (intValue_32.mpr (by have := hc.1; omega))
  | numeric _ =>
    cases hf with
    | other _ _ h1 => exact absurd rfl (h1 _ _)
  | @numericP _ _ _ _ _ _ p _ h1 h29 hm =>
    cases h
    rw [orElse_pos h1]
    exact holds_decimal (q := 0) rfl rfl rfl hm (Nat.le_trans (pow_mono h29) (by decide +kernel))
  | @numericPS _ _ _ _ _ _ p q _ h1 h38 hm =>
    cases h
    rw [orElse_pos h1, orElse_scale]
    exact holds_decimal rfl rfl rfl hm (Nat.le_trans (pow_mono h38) (by decide +kernel))
  | bignumeric _ =>
    cases hf with
    | other _ _ h1 => exact absurd rfl (h1 _ _)
  | @bignumericP _ _ _ _ _ _ p _ h1 h38 hm =>
    cases h
    rw [orElse_pos h1]
    exact holds_decimal (q := 0) rfl rfl rfl hm (Nat.le_trans (pow_mono h38) (by decide +kernel))
  | @bignumericPS _ _ _ _ _ _ p q _ h1 h76 hm =>
    cases h
    rw [orElse_pos h1, orElse_scale]
    exact holds_decimal rfl rfl rfl hm (Nat.le_trans (pow_mono h76) (by decide +kernel))

theorem decorate_holds {mode : String} {n d df : PyVal} {t : RType} {x : Val}
    (h1 : mode = "NULLABLE" → x = .null ∨ Holds t x)
    (h2 : mode = "REPEATED" → ∃ vs, x = .list vs ∧ ∀ y ∈ vs, Holds t y)
    (h3 : mode ≠ "NULLABLE" → mode ≠ "REPEATED" → Holds t x) : Holds (decorate mode n d df t) x := by
  have key : Holds (if mode == "NULLABLE" then makeNullable (if mode == "REPEATED" then .list t .none (.bool true) {} else t)
      else if mode == "REPEATED" then .list t .none (.bool true) {} else t) x := by
    by_cases hn : mode = "NULLABLE"
    · subst hn
      rcases h1 rfl with rfl | h
      · exact holds_null_makeNullable _
      · exact holds_makeNullable h
    · rw [if_neg (by simpa using hn)]
      by_cases hr : mode = "REPEATED"
      · obtain ⟨vs, rfl, h⟩ := h2 hr
        rw [if_pos (by simpa using hr)]
        exact .list h
      · rw [if_neg (by simpa using hr)]
        exact h3 hn hr
  unfold decorate
  simp only
  have kn : ∀ {t : RType} {v : PyVal}, Holds t x → Holds (BigQuery.setExtra t "name" v) x := fun h => holds_name h _
  have kd : ∀ {t : RType} {v : PyVal}, Holds t x → Holds (BigQuery.setExtra t "default" v) x := fun h => holds_default h _
  have kc : ∀ {t : RType} {v : PyVal}, Holds t x → Holds (BigQuery.setDoc t v) x :=
    fun h => holds_withAttrs h ⟨rfl, rfl, rfl, rfl⟩
  split
  · refine kd ?_
    split
    · refine kc ?_
      split
      · exact kn key
      · exact key
    · split
      · exact kn key
      · exact key
  · split
    · refine kc ?_
      split
      · exact kn key
      · exact key
    · split
      · exact kn key
      · exact key

theorem decorate_stored {ft mode : String} {n d df l p s : PyVal} {fs : List Field} {t : RType} {x : Val}
    (hx : BigQueryStored BigQueryFits (.mk ft mode n d df l p s fs) x)
    (he : ∀ y, BigQueryElement BigQueryFits (.mk ft mode n d df l p s fs) y → Holds t y) :
    Holds (decorate mode n d df t) x := by
  cases hx with
  | null => exact decorate_holds (fun _ => .inl rfl) (fun h => by simp at h) (fun h => absurd rfl h)
  | single hm h => exact decorate_holds (fun _ => .inr (he _ h)) (fun h' => absurd h' hm) (fun _ _ => he _ h)
  | repeated h =>
    exact decorate_holds (fun h' => by simp at h') (fun _ => ⟨_, rfl, fun y hy => he y (h y hy)⟩) (fun _ h' => absurd rfl h')

mutual
theorem bq_field : ∀ (f : Field) (t : RType), BigQuery.fieldOf f = .ok t →
    ∀ x, BigQueryStored BigQueryFits f x → Holds t x
  | .mk ft mode n d df l p s fields, t, h, x, hx => by
    rw [BigQuery.fieldOf] at h
    split at h
    · rename_i hr
      obtain ⟨ts, h1, h⟩ := bind_ok h
      cases h
      obtain ⟨hl, hfs⟩ := bq_fields fields ts h1
      refine decorate_stored hx (fun y hy => ?_)
      cases hy with
      | leaf hsc _ =>
        simp at hr
        exfalso
        cases hsc <;> simp_all <;> grind
      | record _ hlen hrec =>
        refine .struct (by omega) (fun i u z hu hz => ?_)
        have hi : i < fields.length := by
          have := (List.getElem?_eq_some_iff.mp hu).1
          omega
        exact hfs i _ u (List.getElem?_eq_getElem hi) hu z (hrec i _ z (List.getElem?_eq_getElem hi) hz)
    · rename_i hr
      obtain ⟨t', h1, h⟩ := bind_ok h
      cases h
      refine decorate_stored hx (fun y hy => ?_)
      cases hy with
      | leaf hsc hf => exact bq_scalar h1 hsc hf
      | record hm => exact absurd (by simpa using hm) hr
theorem bq_fields : ∀ (fs : List Field) (ts : List RType), BigQuery.fieldsOf fs = .ok ts →
    ts.length = fs.length ∧ ∀ (i : Nat) f t, fs[i]? = some f → ts[i]? = some t →
      ∀ x, BigQueryStored BigQueryFits f x → Holds t x
  | [], ts, h => by
    rw [BigQuery.fieldsOf] at h
    cases h
    exact ⟨rfl, by simp⟩
  | f :: fs, ts, h => by
    rw [BigQuery.fieldsOf] at h
    obtain ⟨t', h1, h⟩ := bind_ok h
    obtain ⟨ts', h2, h⟩ := bind_ok h
    cases h
    obtain ⟨hl, hfs⟩ := bq_fields fs ts' h2
    refine ⟨by simp [hl], ?_⟩
    intro i g t hg ht x hx
    cases i with
    | zero =>
      simp at hg ht
      subst hg ht
      exact bq_field f _ h1 x hx
    | succ i => exact hfs i g t (by simpa using hg) (by simpa using ht) x hx
end

end

/-! ## Hive -/

section
open Hive
open Relational (bind_ok)

/-- Attributes as the converter makes them. -/
structure GoodAttrs (a : Attrs) : Prop where
  logical : a.logical = .none ∨ ∃ s, a.logical = .str s
  timestamp : a.logical = .str "build.recap.Timestamp" → ∃ s, Dict.get? a.extra "unit" = some (.str s)
  date : a.logical = .str "build.recap.Date" → ∃ s, Dict.get? a.extra "unit" = some (.str s)
  time : a.logical = .str "build.recap.Time" → ∃ s, Dict.get? a.extra "unit" = some (.str s)
  decimal : a.logical = .str "build.recap.Decimal" → ∃ p q, Dict.get? a.extra "precision" = some (.int p) ∧
    Dict.get? a.extra "scale" = some (.int q)

/-- Types as the converter makes them. -/
inductive Good : RType → Prop
  | null {a} : Good (.null a)
  | bool {a} : Good (.bool a)
  | int {n b a} : GoodAttrs a → Good (.int (.int n) (.bool b) a)
  | float {n a} : Good (.float (.int n) a)
  | string {l v a} : l = .none ∨ (∃ n, l = .int n) → GoodAttrs a → Good (.string l v a)
  | bytes {n v a} : GoodAttrs a → Good (.bytes (.int n) v a)
  | list {t v a} : Good t → Good (.list t .none v a)
  | map {k v a} : Good k → Good v → Good (.map k v a)
  | struct {fs a} : (∀ f ∈ fs, Good f) → Good (.struct fs a)
  | union {ts a} : (∀ t ∈ ts, Good t) → Good (.union ts a)

theorem pyEq_str {v : PyVal} {s : String} (h : PyVal.pyEq (.str s) v = true) : v = .str s := by
  cases v <;> simp [PyVal.pyEq] at h
  rw [h]

theorem get_pyEq {d e : Dict} (h : Dict.pyEq d e = true) {k : String} {v : PyVal} (hv : Dict.get? d k = some v) :
    ∃ w, Dict.get? e k = some w ∧ PyVal.pyEq v w = true := by
  simp only [Dict.pyEq, Bool.and_eq_true, pyEqDict_iff] at h
  exact h.2 _ (Dict.mem_of_get? hv)

theorem logical_eq {a b : Attrs} (h : attrsEq a b = true) (ha : GoodAttrs a) : a.logical = b.logical := by
  simp only [attrsEq, Bool.and_eq_true] at h
  rcases ha.logical with hl | ⟨s, hl⟩
  · rw [hl] at h ⊢
    have := h.1.1.1
    cases hb : b.logical <;> rw [hb] at this <;> simp [PyVal.pyEq] at this ⊢
  · rw [hl] at h ⊢
    exact (pyEq_str h.1.1.1).symm

theorem unit_eq {a b : Attrs} (h : attrsEq a b = true) (ha : ∃ s, Dict.get? a.extra "unit" = some (.str s)) :
    Dict.get? a.extra "unit" = Dict.get? b.extra "unit" := by
  simp only [attrsEq, Bool.and_eq_true] at h
  obtain ⟨s, hs⟩ := ha
  obtain ⟨w, h1, h2⟩ := get_pyEq h.2 hs
  rw [hs, h1, pyEq_str h2]

theorem decimal_eq {a b : Attrs} {k : String} {p q : Int} (h : attrsEq a b = true)
    (ha : Dict.get? a.extra k = some (.int p)) (hb : Dict.get? b.extra k = some (.int q)) : p = q := by
  simp only [attrsEq, Bool.and_eq_true] at h
  obtain ⟨w, h1, h2⟩ := get_pyEq h.2 ha
  cases hb.symm.trans h1
  simpa [PyVal.pyEq] using h2

theorem pyEqList_get : ∀ {ts us : List RType}, pyEqList ts us = true →
    ts.length = us.length ∧ ∀ (i : Nat) t u, ts[i]? = some t → us[i]? = some u → pyEq t u = true
  | [], [], _ => ⟨rfl, by simp⟩
  | [], _ :: _, h => by simp [pyEqList] at h
  | _ :: _, [], h => by simp [pyEqList] at h
  | t :: ts, u :: us, h => by
    simp only [pyEqList, Bool.and_eq_true] at h
    obtain ⟨h1, h2⟩ := pyEqList_get h.2
    refine ⟨by simp [h1], ?_⟩
    intro i a b ha hb
    cases i with
    | zero =>
      simp at ha hb
      subst ha hb
      exact h.1
    | succ i => exact h2 i a b (by simpa using ha) (by simpa using hb)

/-- Types that are equal in Python hold the same values. -/
theorem holds_pyEq {u : RType} {x : Val} (hx : Holds u x) : ∀ {w : RType}, pyEq w u = true → Good w → Holds w x := by
  induction hx with
  | null =>
    intro w h hw
    cases hw <;> simp [pyEq] at h
    exact .null
  | bool =>
    intro w h hw
    cases hw <;> simp [pyEq] at h
    exact .bool
  | int hl hi =>
    intro w h hw
    cases hw <;> simp [pyEq] at h
    rename_i ha
    obtain ⟨h1, h2, h3⟩ := h
    simp [PyVal.pyEq] at h2 h3
    subst h2 h3
    exact .int ((logical_eq h1 ha).trans hl) hi
  | float hn =>
    intro w h hw
    cases hw <;> simp [pyEq] at h
    have := h.2
    simp [PyVal.pyEq] at this
    subst this
    exact .float hn
  | string hl hf =>
    intro w h hw
    cases hw <;> simp [pyEq] at h
    rename_i hsz ha
    obtain ⟨h1, h2, h3⟩ := h
    refine .string ((logical_eq h1 ha).trans hl) ?_
    rcases hsz with rfl | ⟨n, rfl⟩
    · exact .inl rfl
    · rcases hf with rfl | ⟨k, rfl, hk⟩
      · simp [PyVal.pyEq] at h2
      · simp [PyVal.pyEq] at h2
        subst h2
        exact .inr ⟨_, rfl, hk⟩
  | uuid hl hs hf =>
    intro w h hw
    cases hw <;> simp [pyEq] at h
    rename_i hsz ha
    obtain ⟨h1, h2, h3⟩ := h
    refine .uuid ((logical_eq h1 ha).trans hl) hs ?_
    rcases hsz with rfl | ⟨n, rfl⟩
    · exact .inl rfl
    · rcases hf with rfl | ⟨k, rfl, hk⟩
      · simp [PyVal.pyEq] at h2
      · simp [PyVal.pyEq] at h2
        subst h2
        exact .inr ⟨_, rfl, hk⟩
  | bytes hl hf =>
    intro w h hw
    cases hw <;> simp [pyEq] at h
    rename_i ha
    obtain ⟨h1, h2, h3⟩ := h
    refine .bytes ((logical_eq h1 ha).trans hl) ?_
    rcases hf with rfl | ⟨k, rfl, hk⟩
    · simp [PyVal.pyEq] at h2
    · simp [PyVal.pyEq] at h2
      subst h2
      exact .inr ⟨_, rfl, hk⟩
  | decimal hl hp hq hu hd hi =>
    intro w h hw
    cases hw <;> simp [pyEq] at h
    rename_i ha
    obtain ⟨h1, h2, h3⟩ := h
    simp [PyVal.pyEq] at h2
    subst h2
    have hl' := (logical_eq h1 ha).trans hl
    obtain ⟨p', q', e1, e2⟩ := ha.decimal hl'
    cases decimal_eq h1 e1 hp
    cases decimal_eq h1 e2 hq
    exact .decimal hl' e1 e2 hu hd hi
  | instant hl hu hp hi =>
    intro w h hw
    cases hw <;> simp [pyEq] at h
    rename_i ha
    obtain ⟨h1, h2, h3⟩ := h
    simp [PyVal.pyEq] at h2 h3
    subst h2 h3
    have hl' := (logical_eq h1 ha).trans hl
    exact .instant hl' ((unit_eq h1 (ha.timestamp hl')).trans hu) hp hi
  | date hl hu hi =>
    intro w h hw
    cases hw <;> simp [pyEq] at h
    rename_i ha
    obtain ⟨h1, h2, h3⟩ := h
    simp [PyVal.pyEq] at h2 h3
    subst h2 h3
    have hl' := (logical_eq h1 ha).trans hl
    exact .date hl' ((unit_eq h1 (ha.date hl')).trans hu) hi
  | time hl hu hp hi =>
    intro w h hw
    cases hw <;> simp [pyEq] at h
    rename_i ha
    obtain ⟨h1, h2, h3⟩ := h
    simp [PyVal.pyEq] at h2 h3
    subst h2 h3
    have hl' := (logical_eq h1 ha).trans hl
    exact .time hl' ((unit_eq h1 (ha.time hl')).trans hu) hp hi
  | enum =>
    intro w h hw
    cases hw <;> simp [pyEq] at h
  | list _ ih =>
    intro w h hw
    cases hw <;> simp [pyEq] at h
    rename_i ht
    exact .list (fun y hy => ih y hy h.2.1.1 ht)
  | map _ _ ihk ihv =>
    intro w h hw
    cases hw <;> simp [pyEq] at h
    rename_i hk hv
    exact .map (fun p hp => ihk p hp h.2.1 hk) (fun p hp => ihv p hp h.2.2 hv)
  | @struct fs vs a hl _ ih =>
    intro w h hw
    cases hw <;> simp [pyEq] at h
    rename_i fs' a' hg
    obtain ⟨h1, h2⟩ := pyEqList_get h.2
    refine .struct (h1.trans hl) (fun i f y hf hy => ?_)
    have hi : i < fs.length := by
      have := (List.getElem?_eq_some_iff.mp hf).1
      omega
    exact ih i _ y (List.getElem?_eq_getElem hi) hy (h2 i f _ hf (List.getElem?_eq_getElem hi)) (hg f (List.mem_of_getElem? hf))
  | @union ts t y a hm _ ih =>
    intro w h hw
    cases hw <;> simp [pyEq] at h
    rename_i ts' a' hg
    obtain ⟨h1, h2⟩ := pyEqList_get h.2
    obtain ⟨i, hi, rfl⟩ := List.getElem_of_mem hm
    have hi' : i < ts'.length := by omega
    exact .union (List.getElem_mem hi') (ih (h2 i _ _ (List.getElem?_eq_getElem hi') (List.getElem?_eq_getElem hi))
      (hg _ (List.getElem_mem hi')))

/-! ### Flattening -/

theorem good_foldl {fs : List RType} (h : ∀ f ∈ fs, Good f) : ∀ m ∈ fs.foldl absorb [], Good m := by
  intro m hm
  rcases mem_foldl_absorb hm with hm | ⟨hm, -⟩ | ⟨f, hf, hu, hm⟩
  · cases hm
  · exact h m hm
  · have := h f hf
    cases this <;> simp [isUnion] at hu
    rename_i hg
    exact hg m hm

mutual
theorem good_flatten : ∀ {t : RType}, Good t → Good (flatten t)
  | .null _, h => h
  | .bool _, h => h
  | .int _ _ _, h => h
  | .float _ _, h => h
  | .string _ _ _, h => h
  | .bytes _ _ _, h => h
  | .enum _ _, h => h
  | .proxy _ _, h => h
  | .list t l v a, h => by
    cases h with
    | list h => rw [flatten]; exact .list (good_flatten h)
  | .map k v a, h => by
    cases h with
    | map hk hv => rw [flatten]; exact .map (good_flatten hk) (good_flatten hv)
  | .struct fs a, h => by
    cases h with
    | struct h => rw [flatten]; exact .struct (good_flattenAll h)
  | .union ts a, h => by
    cases h with
    | union h => rw [flatten]; exact .union (good_foldl (good_flattenAll h))
theorem good_flattenAll : ∀ {ts : List RType}, (∀ t ∈ ts, Good t) → ∀ u ∈ flattenAll ts, Good u
  | [], _, u, hu => by rw [flattenAll] at hu; cases hu
  | t :: ts, h, u, hu => by
    rw [flattenAll] at hu
    rcases List.mem_cons.mp hu with rfl | hu
    · exact good_flatten (h t (List.mem_cons_self ..))
    · exact good_flattenAll (fun t' ht' => h t' (List.mem_cons_of_mem _ ht')) u hu
end

/-- Flattening loses no values. -/
theorem holds_flatten {t : RType} {x : Val} (h : Holds t x) : Good t → Holds (flatten t) x := by
  induction h with
  | null => intro _; exact .null
  | bool => intro _; exact .bool
  | int hl hi => intro _; exact .int hl hi
  | float h => intro _; exact .float h
  | string hl h => intro _; exact .string hl h
  | uuid hl hs h => intro _; exact .uuid hl hs h
  | bytes hl h => intro _; exact .bytes hl h
  | decimal hl hp hq hu hd hi => intro _; exact .decimal hl hp hq hu hd hi
  | instant hl hu hp hi => intro _; exact .instant hl hu hp hi
  | date hl hu hi => intro _; exact .date hl hu hi
  | time hl hu hp hi => intro _; exact .time hl hu hp hi
  | enum h => intro _; exact .enum h
  | list _ ih =>
    intro hg
    cases hg with
    | list hg => rw [flatten]; exact .list (fun y hy => ih y hy hg)
  | map _ _ ihk ihv =>
    intro hg
    cases hg with
    | map hk hv => rw [flatten]; exact .map (fun p hp => ihk p hp hk) (fun p hp => ihv p hp hv)
  | struct hl _ ih =>
    intro hg
    cases hg with
    | struct hg =>
      rw [flatten, flattenAll_eq]
      refine .struct (by simpa using hl) (fun i f y hf hy => ?_)
      simp only [List.getElem?_map, Option.map_eq_some_iff] at hf
      obtain ⟨f', hf', rfl⟩ := hf
      exact ih i f' y hf' hy (hg f' (List.mem_of_getElem? hf'))
  | @union ts t y a hm _ ih =>
    intro hg
    cases hg with
    | union hg =>
      rw [flatten]
      have h1 := ih (hg t hm)
      have hmem : flatten t ∈ flattenAll ts := by rw [flattenAll_eq]; exact List.mem_map_of_mem hm
      have hgf := good_foldl (good_flattenAll hg)
      have key : ∀ m, ((flatten t).isUnion = false ∧ m = flatten t ∨ (flatten t).isUnion = true ∧ m ∈ Spec.children (flatten t)) →
          Holds m y → Holds (.union ((flattenAll ts).foldl absorb []) a) y := by
        intro m hm' hy
        rcases represented (acc := []) hmem hm' with h | ⟨m', h, he⟩
        · exact .union h hy
        · exact .union h (holds_pyEq hy he (hgf m' h))
      generalize flatten t = ft at h1 key
      by_cases hu : ft.isUnion = true
      · cases ft <;> simp [isUnion] at hu
        cases h1 with
        | union hm'' hy => exact key _ (.inr ⟨rfl, hm''⟩) hy
      · exact key ft (.inl ⟨by simpa using hu, rfl⟩) h1

/-! ### Conversion -/

theorem good_withAttrs {t : RType} (h : Good t) {b : Attrs} (hs : Same b t.attrs) : Good (t.withAttrs b) := by
  have key : GoodAttrs t.attrs → GoodAttrs b := by
    obtain ⟨h1, h2, h3, h4⟩ := hs
    rintro ⟨g1, g2, g3, g4, g5⟩
    exact ⟨by rw [h1]; exact g1, by rw [h1, h2]; exact g2, by rw [h1, h2]; exact g3, by rw [h1, h2]; exact g4,
      by rw [h1, h3, h4]; exact g5⟩
  cases h with
  | null => exact .null
  | bool => exact .bool
  | int ha => exact .int (key ha)
  | float => exact .float
  | string hl ha => exact .string hl (key ha)
  | bytes ha => exact .bytes (key ha)
  | list h => exact .list h
  | map hk hv => exact .map hk hv
  | struct h => exact .struct h
  | union h => exact .union h

theorem good_addNull {ts : List RType} (h : ∀ t ∈ ts, Good t) : ∀ t ∈ addNull ts, Good t := by
  intro t ht
  unfold addNull at ht
  split at ht
  · exact h t ht
  · rcases List.mem_cons.mp ht with rfl | ht
    · exact .null
    · exact h t ht

theorem good_finish {t : RType} (h : Good t) : Good (Hive.finish t) := by
  rcases finish_cases t with ⟨-, e⟩ | ⟨-, -, e⟩ <;> rw [e]
  · exact h
  · refine .union (fun u hu => ?_)
    simp only [List.mem_cons, List.not_mem_nil, or_false] at hu
    rcases hu with rfl | rfl
    · exact .null
    · exact good_withAttrs h ⟨rfl, demoted_get (by decide) (by decide), demoted_get (by decide) (by decide),
        demoted_get (by decide) (by decide)⟩

theorem holds_finish {t : RType} {x : Val} (h : Holds t x) : Holds (Hive.finish t) x := by
  unfold Hive.finish
  split
  · exact h
  · exact holds_makeNullable h

theorem null_finish {t : RType} (h : t.isUnion = true → Holds t .null) : Holds (Hive.finish t) .null := by
  unfold Hive.finish
  split
  · rename_i hu
    rcases Bool.or_eq_true_iff.mp hu with hu | hu
    · exact h hu
    · cases t <;> simp [isNull] at hu
      exact .null
  · exact holds_null_makeNullable t

theorem goodAttrs_plain {x : Attrs} (h : x.logical = .none) : GoodAttrs x :=
  ⟨.inl h, by simp [h], by simp [h], by simp [h], by simp [h]⟩

theorem good_primitive {x : Attrs} {c : Primitive} {t : RType} (hx : x.logical = .none) (h : primitive x c = .ok t) :
    Good t ∧ t.isUnion = false := by
  have hg := goodAttrs_plain hx
  cases c <;> cases h
  · exact ⟨.bool, rfl⟩
  · exact ⟨.int hg, rfl⟩
  · exact ⟨.int hg, rfl⟩
  · exact ⟨.int hg, rfl⟩
  · exact ⟨.int hg, rfl⟩
  · exact ⟨.float, rfl⟩
  · exact ⟨.float, rfl⟩
  · exact ⟨.null, rfl⟩
  · exact ⟨.string (.inl rfl) hg, rfl⟩
  · exact ⟨.bytes hg, rfl⟩
  · exact ⟨.int ⟨.inr ⟨_, rfl⟩, fun _ => ⟨_, rfl⟩, fun _ => ⟨_, rfl⟩, fun _ => ⟨_, rfl⟩, fun h => by simp at h⟩, rfl⟩
  · exact ⟨.int ⟨.inr ⟨_, rfl⟩, fun _ => ⟨_, rfl⟩, fun _ => ⟨_, rfl⟩, fun _ => ⟨_, rfl⟩, fun h => by simp at h⟩, rfl⟩
  · exact ⟨.int ⟨.inr ⟨_, rfl⟩, fun _ => ⟨_, rfl⟩, fun _ => ⟨_, rfl⟩, fun _ => ⟨_, rfl⟩, fun h => by simp at h⟩, rfl⟩
  · exact ⟨.bytes ⟨.inr ⟨_, rfl⟩, fun _ => ⟨_, rfl⟩, fun _ => ⟨_, rfl⟩, fun _ => ⟨_, rfl⟩, fun h => by simp at h⟩, rfl⟩
  · exact ⟨.bytes ⟨.inr ⟨_, rfl⟩, fun _ => ⟨_, rfl⟩, fun _ => ⟨_, rfl⟩, fun _ => ⟨_, rfl⟩, fun h => by simp at h⟩, rfl⟩

theorem hive_primitive {x : Attrs} {c : Primitive} {t : RType} {v : Val} (hx : x.logical = .none)
    (h : primitive x c = .ok t) (hv : HivePrimitive c v) (hf : HiveFits (.prim c) v) : Holds t v := by
  cases hv with
  | bool => cases h; exact .bool
  | byte hi => cases h; exact .int hx hi
  | short hi => cases h; exact .int hx hi
  | int hi => cases h; exact .int hx hi
  | long hi => cases h; exact .int hx hi
  | float => cases h; exact .float (Int.le_refl _)
  | double => cases h; exact .float (Int.le_refl _)
  | string => cases h; exact .string hx (.inl rfl)
  | binary hn => cases h; exact .bytes hx (.inr ⟨_, rfl, by omega⟩)
  | date hc => cases h; exact .date rfl rfl (intValue_32.mpr (by have := hc.1; have := hc.2; omega))
  | @timestamp ns hc =>
    cases h
    cases hf with
    | other _ h1 => exact absurd rfl (h1 _)
    | instant h1 h2 =>
      rw [show ns = ns * 1 from (Int.mul_one ns).symm]
      exact .instant rfl rfl rfl (intValue_64.mpr ⟨h1, h2⟩)
  | @timestampLocalTz ns hc =>
    cases h
    cases hf with
    | other _ h1 => exact absurd rfl (h1 _)
    | instant h1 h2 =>
      rw [show ns = ns * 1 from (Int.mul_one ns).symm]
      exact .instant rfl rfl rfl (intValue_64.mpr ⟨h1, h2⟩)

mutual
theorem hive_parse : ∀ (t : HType) (x : Attrs) (r : RType), x.logical = .none → Hive.parse x t = .ok r →
    Good r ∧ ∀ v, HiveStored HiveFits t v → Holds r v
  | .prim c, x, r, hx, h => by
    rw [Hive.parse] at h
    obtain ⟨t, h1, h⟩ := bind_ok h
    cases h
    obtain ⟨hg, hu⟩ := good_primitive hx h1
    refine ⟨good_finish hg, fun v hv => ?_⟩
    cases hv with
    | null => exact null_finish (fun h => by rw [hu] at h; cases h)
    | prim hp hf => exact holds_finish (hive_primitive hx h1 hp hf)
  | .decimal p s, x, r, hx, h => by
    rw [Hive.parse] at h
    split at h
    · cases h
    cases h
    refine ⟨good_finish (.bytes ⟨.inr ⟨_, rfl⟩, fun h => by simp at h, fun h => by simp at h, fun h => by simp at h,
      fun _ => ⟨_, _, rfl, rfl⟩⟩), fun v hv => ?_⟩
    cases hv with
    | null => exact null_finish (fun h => by cases h)
    | decimal h38 hm =>
      exact holds_finish (holds_decimal rfl rfl rfl hm (Nat.le_trans (pow_mono h38) (by decide +kernel)))
  | .varchar n, x, r, hx, h => by
    rw [Hive.parse] at h
    cases h
    refine ⟨good_finish (.string (.inr ⟨_, rfl⟩) (goodAttrs_plain hx)), fun v hv => ?_⟩
    cases hv with
    | null => exact null_finish (fun h => by cases h)
    | varchar hn hf =>
      cases hf with
      | other h1 => exact absurd rfl (h1 _)
      | narrow he => exact holds_finish (.string hx (.inr ⟨_, rfl, by rw [he]; exact hn⟩))
  | .char n, x, r, hx, h => by
    rw [Hive.parse] at h
    cases h
    refine ⟨good_finish (.string (.inr ⟨_, rfl⟩) (goodAttrs_plain hx)), fun v hv => ?_⟩
    cases hv with
    | null => exact null_finish (fun h => by cases h)
    | char hn hf =>
      cases hf with
      | other h1 => exact absurd rfl (h1 _)
      | narrow he => exact holds_finish (.string hx (.inr ⟨_, rfl, by rw [he]; exact hn⟩))
  | .map k w, x, r, hx, h => by
    rw [Hive.parse] at h
    obtain ⟨k', h1, h⟩ := bind_ok h
    obtain ⟨w', h2, h⟩ := bind_ok h
    cases h
    obtain ⟨g1, e1⟩ := hive_parse k {} k' rfl h1
    obtain ⟨g2, e2⟩ := hive_parse w {} w' rfl h2
    refine ⟨good_finish (.map g1 g2), fun v hv => ?_⟩
    cases hv with
    | null => exact null_finish (fun h => by cases h)
    | map hk hw => exact holds_finish (.map (fun p hp => e1 _ (hk p hp)) (fun p hp => e2 _ (hw p hp)))
  | .list e, x, r, hx, h => by
    rw [Hive.parse] at h
    obtain ⟨e', h1, h⟩ := bind_ok h
    cases h
    obtain ⟨g1, e1⟩ := hive_parse e {} e' rfl h1
    refine ⟨good_finish (.list g1), fun v hv => ?_⟩
    cases hv with
    | null => exact null_finish (fun h => by cases h)
    | list hl => exact holds_finish (.list (fun y hy => e1 y (hl y hy)))
  | .union ts, x, r, hx, h => by
    rw [Hive.parse] at h
    obtain ⟨us, h1, h⟩ := bind_ok h
    cases h
    have ih := hive_parseAll ts us h1
    have hg : ∀ a, Good (.union (.null {} :: us) a) := by
      intro a
      refine .union (fun u hu => ?_)
      rcases List.mem_cons.mp hu with rfl | hu
      · exact .null
      · exact ih.1 u hu
    have hn : ∀ a, Holds (flatten (.union (.null {} :: us) a)) .null :=
      fun a => holds_flatten (.union (List.mem_cons_self ..) .null) (hg a)
    refine ⟨good_finish (good_flatten (hg _)), fun v hv => ?_⟩
    cases hv with
    | null => exact null_finish (fun _ => hn _)
    | union hm hv =>
      obtain ⟨u, hu, hv⟩ := ih.2 _ hm _ hv
      exact holds_finish (holds_flatten (.union (List.mem_cons_of_mem _ hu) hv) (hg _))
  | .struct fs, x, r, hx, h => by
    rw [Hive.parse] at h
    obtain ⟨us, h1, h⟩ := bind_ok h
    cases h
    obtain ⟨hl, ih⟩ := hive_parseFields fs us h1
    have hlen := hl
    refine ⟨good_finish (.struct (fun u hu => ?_)), fun v hv => ?_⟩
    · obtain ⟨i, hi, rfl⟩ := List.getElem_of_mem hu
      have hi' : i < fs.length := by omega
      exact (ih i _ _ (List.getElem?_eq_getElem hi') (List.getElem?_eq_getElem hi)).1
    · cases hv with
      | null => exact null_finish (fun h => by cases h)
      | struct hlv hv =>
        refine holds_finish (.struct (by omega) (fun i u y hu hy => ?_))
        have hi' : i < fs.length := by
          have := (List.getElem?_eq_some_iff.mp hu).1
          omega
        exact (ih i _ u (List.getElem?_eq_getElem hi') hu).2 y (hv i _ y (List.getElem?_eq_getElem hi') hy)
theorem hive_parseAll : ∀ (ts : List HType) (us : List RType), Hive.parseAll ts = .ok us →
    (∀ u ∈ us, Good u) ∧ ∀ t ∈ ts, ∀ v, HiveStored HiveFits t v → ∃ u ∈ us, Holds u v
  | [], us, h => by
    rw [Hive.parseAll] at h
    cases h
    exact ⟨by simp, by simp⟩
  | t :: ts, us, h => by
    rw [Hive.parseAll] at h
    obtain ⟨u, h1, h⟩ := bind_ok h
    obtain ⟨us', h2, h⟩ := bind_ok h
    cases h
    obtain ⟨g1, e1⟩ := hive_parse t {} u rfl h1
    obtain ⟨g2, e2⟩ := hive_parseAll ts us' h2
    refine ⟨fun w hw => ?_, fun w hw v hv => ?_⟩
    · rcases List.mem_cons.mp hw with rfl | hw
      · exact g1
      · exact g2 w hw
    · rcases List.mem_cons.mp hw with rfl | hw
      · exact ⟨u, List.mem_cons_self .., e1 v hv⟩
      · obtain ⟨z, hz, hv⟩ := e2 w hw v hv
        exact ⟨z, List.mem_cons_of_mem _ hz, hv⟩
theorem hive_parseFields : ∀ (fs : List (String × HType)) (us : List RType), Hive.parseFields fs = .ok us →
    us.length = fs.length ∧ ∀ (i : Nat) f u, fs[i]? = some f → us[i]? = some u →
      Good u ∧ ∀ v, HiveStored HiveFits f.2 v → Holds u v
  | [], us, h => by
    rw [Hive.parseFields] at h
    cases h
    exact ⟨rfl, by simp⟩
  | (n, t) :: fs, us, h => by
    rw [Hive.parseFields] at h
    obtain ⟨u, h1, h⟩ := bind_ok h
    obtain ⟨us', h2, h⟩ := bind_ok h
    cases h
    have e1 := hive_parse t (columnAttrs n .none) u rfl h1
    obtain ⟨hl, e2⟩ := hive_parseFields fs us' h2
    refine ⟨by simp [hl], fun i f w hf hw => ?_⟩
    cases i with
    | zero =>
      simp at hf hw
      subst hf hw
      exact e1
    | succ i => exact e2 i f w (by simpa using hf) (by simpa using hw)
end

theorem hive_columns : ∀ (cs : List HColumn) (us : List RType), Hive.parseColumns cs = .ok us →
    us.length = cs.length ∧ ∀ (i : Nat) c u, cs[i]? = some c → us[i]? = some u →
      ∀ v, HiveStored HiveFits c.type v → Holds u v
  | [], us, h => by
    rw [Hive.parseColumns] at h
    cases h
    exact ⟨rfl, by simp⟩
  | c :: cs, us, h => by
    rw [Hive.parseColumns] at h
    obtain ⟨u, h1, h⟩ := bind_ok h
    obtain ⟨us', h2, h⟩ := bind_ok h
    cases h
    have e1 := hive_parse c.type (columnAttrs c.name c.comment) u rfl h1
    obtain ⟨hl, e2⟩ := hive_columns cs us' h2
    refine ⟨by simp [hl], fun i f w hf hw => ?_⟩
    cases i with
    | zero =>
      simp at hf hw
      subst hf hw
      exact e1.2
    | succ i => exact e2 i f w (by simpa using hf) (by simpa using hw)

end

end Recap.Values
