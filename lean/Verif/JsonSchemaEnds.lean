import Verif.JsonSchemaRefs

/-!
# References in written JSON Schemas end at definitions

C69.
-/

set_option autoImplicit false

namespace Recap.Json

open Recap.Url Spec

variable {live : Registry}

/-! ## References to built-in aliases -/

/-- No other type is nested in this one, and it is no reference. -/
def isLeaf : RType → Bool
  | .null _ | .bool _ | .int .. | .float .. | .string .. | .bytes .. | .enum .. => true
  | _ => false

theorem builtin_leaf {s : String} {t : RType} (h : (s, t) ∈ builtinAliases) :
    isLeaf t = true ∧ t.attrs.alias = .none := by
  have : ∀ kt ∈ builtinAliases, isLeaf kt.2 = true ∧ kt.2.attrs.alias = .none := by
    decide +kernel
  exact this _ h

theorem withAttrs_leaf {t : RType} {a : Attrs} (h : isLeaf t = true) : isLeaf (t.withAttrs a) = true := by
  cases t <;> simp_all [isLeaf, RType.withAttrs]

theorem applyOverride_leaf {t t' : RType} {k : String} {v : PyVal} (ht : isLeaf t = true)
    (hk : k ≠ "alias") (h : applyOverride t k v = .ok t') :
    isLeaf t' = true ∧ t'.attrs.alias = t.attrs.alias := by
  unfold applyOverride at h
  extract_lets a at h
  split at h
  · cases h
  · split at h
    · cases h; exact ⟨withAttrs_leaf ht, by simp [attrs_withAttrs, a]⟩
    · by_cases hd : k = "doc"
      · rw [if_pos hd] at h
        cases h; exact ⟨withAttrs_leaf ht, by simp [attrs_withAttrs, a]⟩
      · rw [if_neg hd] at h
        cases t <;> simp only [isLeaf, Bool.false_eq_true] at ht <;> simp only at h <;>
          (repeat' split at h) <;> cases h <;> exact ⟨rfl, rfl⟩

theorem applyOverrides_leaf {t t' : RType} {e : Dict} (ht : isLeaf t = true)
    (hk : "alias" ∉ Dict.keys e) (h : applyOverrides t e = .ok t') :
    isLeaf t' = true ∧ t'.attrs.alias = t.attrs.alias := by
  induction e generalizing t with
  | nil => cases h; exact ⟨ht, rfl⟩
  | cons kv e ih =>
    obtain ⟨k, v⟩ := kv
    simp only [applyOverrides] at h
    obtain ⟨t1, h1, h⟩ := ok_bind h
    simp only [Dict.keys, List.map_cons, List.mem_cons, not_or] at hk
    obtain ⟨h2, h3⟩ := applyOverride_leaf ht (Ne.symm hk.1) h1
    obtain ⟨h4, h5⟩ := ih h2 hk.2 h
    exact ⟨h4, h5.trans h3⟩

theorem deepcopy_leaf {t : RType} (reg : Registry) (h : isLeaf t = true) : t.deepcopy reg = t := by
  cases t <;> simp_all [isLeaf, RType.deepcopy]

theorem target_leaf {t : RType} {r : Option (List (String × RType))} {a : Attrs} (hb : Builtin a.alias)
    (hk : "alias" ∉ Dict.keys a.extra)
    (hr : ∀ s u, (s, u) ∈ builtinAliases → Registry.find? (r.getD live) s = some u)
    (h : resolve live r a = .ok t) : isLeaf t = true ∧ t.attrs.alias = .none := by
  obtain ⟨s, u, he, hm⟩ := hb
  unfold resolve at h
  simp only [he, Registry.fromAlias, hr s u hm] at h
  obtain ⟨hl, hn⟩ := builtin_leaf hm
  obtain ⟨h1, h2⟩ := applyOverrides_leaf (t := u) hl hk (by
    rw [← deepcopy_leaf (r.getD live) hl]; exact h)
  exact ⟨h1, h2.trans hn⟩

theorem spans_leaf {t u : RType} (h : isLeaf t = true) (hs : Spans live t u) : u = t := by
  cases hs <;> first | rfl | simp [isLeaf] at h

theorem spans_inside {t u : RType} (hb : BuiltinOnly live t) (h : Spans live t u) :
    Inside u t ∨ isLeaf u = true ∧ u.attrs.alias = .none := by
  induction h with
  | refl => exact Or.inl .refl
  | list _ ih => exact (ih (fun r a h => hb r a (.list h))).imp .list id
  | value _ ih => exact (ih (fun r a h => hb r a (.value h))).imp .value id
  | field hm _ ih => exact (ih (fun r a h => hb r a (.field hm h))).imp (.field hm) id
  | member hm _ ih => exact (ih (fun r a h => hb r a (.member hm h))).imp (.member hm) id
  | target hr hs _ =>
    obtain ⟨h1, h2, h3⟩ := hb _ _ .refl
    have := target_leaf h1 h2 h3 hr
    rw [spans_leaf this.1 hs]
    exact Or.inr this

/-! ## Aliases -/

theorem own_mem {a : Attrs} {s : String} (h : a.alias = .str s) : PyVal.str s ∈ Recap.Spec.own a := by
  simp [Recap.Spec.own, h]

theorem mem_definedAliasesAll {ts : List RType} {t : RType} {v : PyVal} (ht : t ∈ ts)
    (hv : v ∈ Recap.Spec.definedAliases t) : v ∈ Recap.Spec.definedAliasesAll ts := by
  induction ts with
  | nil => cases ht
  | cons x ts ih =>
    simp only [Recap.Spec.definedAliasesAll, List.mem_append]
    rcases List.mem_cons.mp ht with rfl | ht
    · exact Or.inl hv
    · exact Or.inr (ih ht)

theorem inside_alias {t u : RType} {s : String} (h : Inside u t) (hn : ¬ IsReference u)
    (hs : u.attrs.alias = .str s) : PyVal.str s ∈ Recap.Spec.definedAliases t := by
  induction h with
  | refl =>
    cases u with
    | proxy r a => exact absurd ⟨r, a, rfl⟩ hn
    | _ =>
      have h' := own_mem hs
      simp only [RType.attrs] at h'
      simp [Recap.Spec.definedAliases, h']
  | list _ ih => simp [Recap.Spec.definedAliases, ih]
  | value _ ih => simp [Recap.Spec.definedAliases, ih]
  | field hm _ ih => simp [Recap.Spec.definedAliases, mem_definedAliasesAll hm ih]
  | member hm _ ih => simp [Recap.Spec.definedAliases, mem_definedAliasesAll hm ih]

theorem nodup_all {ts : List RType} {t1 t2 : RType} {v : PyVal}
    (h : (Recap.Spec.definedAliasesAll ts).Nodup) (h1 : t1 ∈ ts) (h2 : t2 ∈ ts)
    (hv1 : v ∈ Recap.Spec.definedAliases t1) (hv2 : v ∈ Recap.Spec.definedAliases t2) :
    t1 = t2 ∧ (Recap.Spec.definedAliases t1).Nodup := by
  induction ts with
  | nil => cases h1
  | cons x ts ih =>
    simp only [Recap.Spec.definedAliasesAll, List.nodup_append] at h
    obtain ⟨hx, hts, hd⟩ := h
    rcases List.mem_cons.mp h1 with e1 | h1'
    · rcases List.mem_cons.mp h2 with e2 | h2'
      · subst e1; exact ⟨e2.symm, hx⟩
      · subst e1; exact absurd rfl (hd _ hv1 _ (mem_definedAliasesAll h2' hv2))
    · rcases List.mem_cons.mp h2 with e2 | h2'
      · subst e2; exact absurd rfl (hd _ hv2 _ (mem_definedAliasesAll h1' hv1))
      · exact ih hts h1' h2'

theorem alias_unique {t u1 u2 : RType} {s : String} (hn : (Recap.Spec.definedAliases t).Nodup)
    (h1 : Inside u1 t) (h2 : Inside u2 t) (n1 : ¬ IsReference u1) (n2 : ¬ IsReference u2)
    (s1 : u1.attrs.alias = .str s) (s2 : u2.attrs.alias = .str s) : u1 = u2 := by
  induction h1 with
  | refl =>
    cases h2 with
    | refl => rfl
    | list h2 =>
      simp only [Recap.Spec.definedAliases, List.nodup_append] at hn
      exact absurd rfl (hn.2.2 _ (inside_alias h2 n2 s2) _ (own_mem s1))
    | value h2 =>
      simp only [Recap.Spec.definedAliases, List.nodup_append] at hn
      exact absurd rfl (hn.2.2 _ (by simp [inside_alias h2 n2 s2]) _ (own_mem s1))
    | field hm h2 =>
      simp only [Recap.Spec.definedAliases, List.nodup_append] at hn
      exact absurd rfl (hn.2.2 _ (mem_definedAliasesAll hm (inside_alias h2 n2 s2)) _ (own_mem s1))
    | member hm h2 =>
      simp only [Recap.Spec.definedAliases, List.nodup_append] at hn
      exact absurd rfl (hn.2.2 _ (mem_definedAliasesAll hm (inside_alias h2 n2 s2)) _ (own_mem s1))
  | list h1 ih =>
    simp only [Recap.Spec.definedAliases, List.nodup_append] at hn
    cases h2 with
    | refl => exact absurd rfl (hn.2.2 _ (inside_alias h1 n1 s1) _ (own_mem s2))
    | list h2 => exact ih hn.1 h2
  | value h1 ih =>
    simp only [Recap.Spec.definedAliases, List.nodup_append] at hn
    cases h2 with
    | refl => exact absurd rfl (hn.2.2 _ (by simp [inside_alias h1 n1 s1]) _ (own_mem s2))
    | value h2 => exact ih hn.1.2.1 h2
  | field hm h1 ih =>
    simp only [Recap.Spec.definedAliases, List.nodup_append] at hn
    cases h2 with
    | refl => exact absurd rfl (hn.2.2 _ (mem_definedAliasesAll hm (inside_alias h1 n1 s1)) _ (own_mem s2))
    | field hm' h2 =>
      obtain ⟨e, hnd⟩ := nodup_all hn.1 hm hm' (inside_alias h1 n1 s1) (inside_alias h2 n2 s2)
      subst e
      exact ih hnd h2
  | member hm h1 ih =>
    simp only [Recap.Spec.definedAliases, List.nodup_append] at hn
    cases h2 with
    | refl => exact absurd rfl (hn.2.2 _ (mem_definedAliasesAll hm (inside_alias h1 n1 s1)) _ (own_mem s2))
    | member hm' h2 =>
      obtain ⟨e, hnd⟩ := nodup_all hn.1 hm hm' (inside_alias h1 n1 s1) (inside_alias h2 n2 s2)
      subst e
      exact ih hnd h2

theorem inside_size {t u : RType} (h : Inside u t) : sizeOf u ≤ sizeOf t := by
  induction h with
  | refl => exact Nat.le_refl _
  | list _ ih => simp; omega
  | value _ ih => simp; omega
  | field hm _ ih => have := List.sizeOf_lt_of_mem hm; simp; omega
  | member hm _ ih => have := List.sizeOf_lt_of_mem hm; simp; omega

theorem inside_trans {t u x : RType} (h : Inside u t) (h' : Inside x u) : Inside x t := by
  induction h with
  | refl => exact h'
  | list _ ih => exact .list ih
  | value _ ih => exact .value ih
  | field hm _ ih => exact .field hm ih
  | member hm _ ih => exact .member hm ih

/-! ## Definitions that are references -/

theorem convertF_own_ref {n : Nat} {b : Bool} {t : RType} {d : Dict} {v : PyVal}
    (hb : BuiltinOnly live t ∨ isLeaf t = true ∧ t.attrs.alias = .none)
    (h : convertF live n b t = .ok d) (hv : Dict.get? d "$ref" = some v) :
    ∃ x s, Inside x t ∧ ¬ IsReference x ∧ x.attrs.alias = .str s ∧ v = .str ("#/$defs/" ++ s) ∧
      (b = false → sizeOf x < sizeOf t) := by
  induction n generalizing b t d with
  | zero => cases h
  | succ n ih =>
    have hdesc : ∀ a : Attrs, Dict.get? (describe a) "$ref" = .none := by
      intro a
      rw [Dict.get?_eq_none_iff]
      intro hk
      rcases describe_keys a _ hk with h | h <;> simp at h
    have key : ∀ (a : Attrs) (e : Dict), (Dict.keys e).Nodup → Dict.get? e "$ref" = .none →
        Dict.get? (Dict.update (describe a) e) "$ref" = some v → False := by
      intro a e he hg hh
      rw [get?_update _ _ _ he, hg, hdesc] at hh
      cases hh
    simp only [convertF] at h
    split at h
    · rename_i alias ha
      cases h
      split at ha
      · rename_i hbt
        obtain ⟨h1, h2⟩ := ownAlias_some ha
        simp only [defsRef, Dict.get?_cons, if_true, Option.some.injEq] at hv
        exact ⟨t, alias, .refl, h1, h2, hv.symm, fun hf => by rw [hf] at hbt; cases hbt⟩
      · cases ha
    · split at h
      · rename_i ts a _
        split at h
        · split at h
          · rename_i m hf
            obtain ⟨d', hd', h⟩ := ok_bind h
            cases h
            have hm : m ∈ ts := (List.mem_filter.mp (by rw [hf]; simp : m ∈ ts.filter _)).1
            rw [get?_update _ _ _ (convertF_nodup hd'), hdesc, Option.or_none] at hv
            have hb' : BuiltinOnly live m := by
              rcases hb with hb | hb
              · exact fun r a h => hb r a (.member hm h)
              · simp [isLeaf] at hb
            obtain ⟨x, s, h1, h2, h3, h4, _⟩ := ih (Or.inl hb') hd' hv
            refine ⟨x, s, .member hm h1, h2, h3, h4, fun _ => ?_⟩
            have := inside_size h1
            have := List.sizeOf_lt_of_mem hm
            simp; omega
          · cases h
        · obtain ⟨d', _, h⟩ := ok_bind h
          cases h
          exact (key _ _ (by simp [Dict.keys]) (by simp [Dict.get?_cons]) hv).elim
      · obtain ⟨⟨d', _⟩, _, h⟩ := ok_bind h
        cases h
        dsimp only at hv
        split at hv <;> exact (key _ _ (by simp [Dict.keys]) (by simp [Dict.get?_cons]) hv).elim
      · obtain ⟨d', _, h⟩ := ok_bind h
        cases h; exact (key _ _ (by simp [Dict.keys]) (by simp [Dict.get?_cons]) hv).elim
      · obtain ⟨d', _, h⟩ := ok_bind h
        cases h; exact (key _ _ (by simp [Dict.keys]) (by simp [Dict.get?_cons]) hv).elim
      all_goals try
        (cases h; exact (key _ _ (by simp [Dict.keys]) (by simp [Dict.get?_cons]) hv).elim)
      rename_i r a _
      rcases hb with hb | hb
      · obtain ⟨h1, h2, h3⟩ := hb r a .refl
        obtain ⟨b', hb', h⟩ := ok_bind h
        rw [(isBuiltin_ok hb').mpr h1] at h
        simp only [Bool.true_or, if_true] at h
        obtain ⟨t', ht', h⟩ := ok_bind h
        have hl := target_leaf h1 h2 h3 ht'
        obtain ⟨x, s, hx, _, hs, _⟩ := ih (Or.inr hl) h hv
        have : x = t' := by
          cases hx <;> first | rfl | simp [isLeaf] at hl
        rw [this, hl.2] at hs
        cases hs
      · simp [isLeaf] at hb

/-- C69.  Every reference in a written schema leads to a definition in it, if the type refers only
to built-in aliases and its aliases are distinct and well-formed. -/
theorem C69_ends_partial {t : RType} {d : Dict} (hb : BuiltinOnly live t)
    (hn : (Recap.Spec.definedAliases t).Nodup)
    (hw : ∀ u s, Inside u t → ¬ IsReference u → u.attrs.alias = .str s → s ≠ "" ∧ ¬ Builtin (.str s))
    (h : fromRecap live t = .ok d) {r : String} (href : Refers (.dict d) r) :
    Ends (defsOf d) r := by
  obtain ⟨n, s, defs, hs, hd, rfl⟩ := fromRecap_ok h
  have hok := aliasDefs_ok t hd
  rw [defsOf_written (convertF_no_defs hs)]
  have ha : ∀ u, Spans live t u → ¬ IsReference u → ∀ s, u.attrs.alias = .str s →
      Inside u t ∧ s ≠ "" ∧ ¬ Builtin (.str s) := by
    intro u hu hnr s hs
    rcases spans_inside hb hu with hi | ⟨_, hl⟩
    · exact ⟨hi, hw u s hi hnr hs⟩
    · rw [hs] at hl; cases hl
  have hr : ∀ r a, Spans live t (.proxy r a) → Builtin a.alias ∨ a.extra ≠ [] := by
    intro r a hu
    rcases spans_inside hb hu with hi | hl
    · exact Or.inl (hb r a hi).1
    · simp [isLeaf] at hl
  have hdef : ∀ u s, Inside u t → ¬ IsReference u → u.attrs.alias = .str s →
      ∃ d, Dict.get? defs s = some (.dict d) ∧ convertF live n false u = .ok d := by
    intro u s hi hnr hs
    obtain ⟨h2, h3⟩ := hw u s hi hnr hs
    have hk := hok.complete u hi s hs h2 h3
    obtain ⟨v, hv⟩ : ∃ v, Dict.get? defs s = some v := by
      cases hg : Dict.get? defs s with
      | none => exact absurd hk (Dict.get?_eq_none_iff.mp hg)
      | some v => exact ⟨v, rfl⟩
    obtain ⟨u', d', hi', rfl, hf, hs', _⟩ := hok.sound s v (Dict.mem_of_get? hv)
    have hnr' : ¬ IsReference u' := by
      rintro ⟨r, a, rfl⟩
      exact h3 (hs' ▸ (hb r a hi').1)
    cases alias_unique hn hi hi' hnr hnr' hs hs'
    exact ⟨d', hv, hf⟩
  have hends : ∀ k u s, sizeOf u ≤ k → Inside u t → ¬ IsReference u → u.attrs.alias = .str s →
      Ends defs ("#/$defs/" ++ s) := by
    intro k
    induction k with
    | zero =>
      intro u s hk
      cases u <;> simp at hk <;> omega
    | succ k ih =>
      intro u s hk hi hnr hs
      obtain ⟨d, hd, hf⟩ := hdef u s hi hnr hs
      cases hg : Dict.get? d "$ref" with
      | none => exact .here hd hg
      | some v =>
        obtain ⟨x, s', hx, hxr, hxs, rfl, hlt⟩ :=
          convertF_own_ref (Or.inl (fun r a h => hb r a (inside_trans hi h))) hf hg
        exact .next hd hg (ih x s' (by have := hlt rfl; omega) (inside_trans hi hx) hxr hxs)
  have hrefs := refs_written (P := fun s => ∃ u, Inside u t ∧ ¬ IsReference u ∧ u.attrs.alias = .str s)
    (convertF_refs (fun u hu hnr s hs => ⟨u, (ha u hu hnr s hs).1, hnr, hs⟩) hr hs) (defs := defs) (by
    intro m v hm
    obtain ⟨u, d, hu, rfl, hf, _⟩ := hok.sound m v hm
    exact convertF_refs (fun x hx hnr s hs => ⟨x, (ha x (trans_spans hu hx) hnr s hs).1, hnr, hs⟩)
      (fun r a hx => hr r a (trans_spans hu hx)) hf)
  obtain ⟨a, rfl, u, hu, hnr, h1⟩ := hrefs r href
  exact hends _ u a (Nat.le_refl _) hu hnr h1

end Recap.Json
