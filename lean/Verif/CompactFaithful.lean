import Verif.CompactNestedThms

/-! # Writing a type twice -/

set_option autoImplicit false

namespace Recap
open Spec Dict

theorem alias_none_of_pyEq {t u : RType} (h : RType.pyEq t u = true) : t.attrs.alias = .none ↔ u.attrs.alias = .none := by
  have ha := attrs_of_pyEq h
  unfold RType.attrsEq at ha
  simp only [Bool.and_eq_true] at ha
  exact pyEq_none_iff ha.1.1.2

theorem hasAlias_of_pyEq {t u : RType} (h : RType.pyEq t u = true) : HasAlias t ↔ HasAlias u := by
  unfold HasAlias
  rw [isProxy_of_typeName (typeName_of_pyEq h), ne_eq, ne_eq, alias_none_of_pyEq h]

theorem defined_hasAlias {t : RType} (h : definedAliases t ≠ []) : ∃ s, Sub s t ∧ HasAlias s := by
  by_cases hp : t.isProxy = true
  · cases t <;> simp [RType.isProxy] at hp
    simp [definedAliases] at h
  · by_cases ha : t.attrs.alias = .none
    · by_cases hc : ∀ c ∈ children t, definedAliases c = []
      · rw [defined_own (by simpa using hp) hc] at h
        simp [own, ha] at h
      · simp only [Classical.not_forall] at hc
        obtain ⟨c, hc, hd⟩ := hc
        have := size_child hc
        obtain ⟨s, h1, h2⟩ := defined_hasAlias hd
        exact ⟨s, h1.trans (.child hc), h2⟩
    · exact ⟨t, .refl, by simpa using hp, ha⟩
termination_by sizeOf t

theorem guarded_of_pyEq {compact : Bool} {t u : RType} (h : RType.pyEq t u = true) (ht : RealType t) (hu : RealType u)
    (hg : Guarded compact u) : Guarded compact t := by
  rcases hg with hg | ⟨hg, x, ⟨n, b, rfl, h1, h2, h3, h4⟩, hx⟩
  · exact .inl ((hasAlias_of_pyEq h).mpr hg)
  · cases t <;> simp only [RType.pyEq, Bool.and_eq_true, Bool.false_eq_true] at h
    rename_i ts a
    obtain ⟨hab, h⟩ := h
    rcases ts with _ | ⟨n', _ | ⟨x', _ | ⟨_, _⟩⟩⟩ <;>
      simp only [RType.pyEqList, Bool.and_eq_true, Bool.false_eq_true, and_false, and_true] at h
    refine .inr ⟨hg, x', ⟨n', a, rfl, ?_, ?_, ?_, ?_⟩, (hasAlias_of_pyEq h.2).mpr hx⟩
    · exact (plainNull_of_pyEq h.1 (ht.child (by simp [children])) (hu.child (by simp [children]))).mpr h1
    · unfold RType.attrsEq at hab
      simp only [Bool.and_eq_true] at hab
      exact (pyEq_none_iff hab.1.1.2).mpr h2
    · unfold RType.attrsEq at hab
      simp only [Bool.and_eq_true] at hab
      exact (pyEq_none_iff hab.1.1.1).mpr h3
    · exact (attrsEq_keys hab (ht _ .refl).2.2.2.1.1 (hu _ .refl).2.2.2.1.1 _).mpr h4

theorem separate_of_pyEq {compact : Bool} {t u : RType} (h : RType.pyEq t u = true) (ht : RealType t) (hu : RealType u)
    (hs : Separate compact u) : Separate compact t := by
  intro x' hx' hnone c' hc'
  obtain ⟨x, hx, ex⟩ := pyEq_sub h hx'
  obtain ⟨c, hc, ec⟩ := pyEq_child ex hc'
  have rc' : Sub c' t := (Sub.child hc').trans hx'
  have rc : Sub c u := (Sub.child hc).trans hx
  rcases hs x hx ((alias_none_of_pyEq ex).mp hnone) c hc with hg | ⟨hd, hq⟩
  · exact .inl (guarded_of_pyEq ec (realType_sub ht rc') (realType_sub hu rc) hg)
  · refine .inr ⟨?_, fun w' s' hw' hs' ha' => ?_⟩
    · cases g : decide (definedAliases c' = []) with
      | true => simpa using g
      | false =>
        obtain ⟨s', h1, h2⟩ := defined_hasAlias (by simpa using g)
        obtain ⟨s, h3, h4⟩ := pyEq_sub ec h1
        exact absurd (defined_sub h3 hd) (hasAlias_defined ((hasAlias_of_pyEq h4).mp h2))
    · obtain ⟨w, hw, ew⟩ := pyEq_sub ec hw'
      obtain ⟨s, hs2, es⟩ := pyEq_sub ex hs'
      have := hq w s hw hs2 ((hasAlias_of_pyEq es).mp ha')
      cases g : RType.pyEq w' (definition s') with
      | false => rfl
      | true =>
        have k := RType.pyEq_trans _ _ _ (RType.pyEq_trans _ _ _ (RType.pyEq_symm _ _ (realType_sub ht (hw'.trans rc'))
          (realType_sub hu (hw.trans rc)) ew) g)
          (Nested.pyEq_definition es (realType_sub ht (hs'.trans hx')) (realType_sub hu (hs2.trans hx)))
        rw [this] at k; cases k

/-- What a type must satisfy for its default form to be faithful. -/
structure Faithful (t : RType) : Prop where
  wellFormed : WellFormed (names newRegistry) t
  real : RealType t
  canonical : Canonical t
  keys : PlainKeys t
  separate : Separate true (aliased t)

theorem Faithful.plain {t : RType} (h : Faithful t) : Plain t := ⟨h.wellFormed.1, h.real, h.wellFormed.2.1, h.keys⟩

/-- The default form reads back as a type that is again faithful. -/
theorem Faithful.write {t : RType} (h : Faithful t) :
    ∃ v t', toDict true true t = .ok v ∧ parse v = .ok t' ∧ RType.pyEq t' (aliased t) = true ∧ Faithful t' := by
  obtain ⟨v, t', h1, h3, h4⟩ := C03_nested_round_trip_partial t h.wellFormed h.real h.canonical h.keys h.separate
  refine ⟨v, t', h1, h3, h4, ?_⟩
  have hv : Real v := real_toDict h.real h1
  have hw : WellFormed (names newRegistry) t' ∧ RealType t' := by
    unfold parse at h3
    cases g : fromDict v newRegistry with
    | error e => rw [g] at h3; cases h3
    | ok r =>
      rw [g] at h3
      cases h3
      exact C71_parsed_types_well_formed v hv _ _ _ g
  have hnod : ∀ x, Sub x t' → x.attrs.extra.keys.Nodup := fun x hx => (hw.2 x hx).2.2.2.1.1
  have hra := aliased_real h.real
  have e2 := aliased_congr t' (aliased t) hw.2 hra h4
  rw [aliased_idem] at e2
  exact ⟨hw.1, hw.2, canonical_of_pyEq h4 hw.2 hra (canonical_aliased h.canonical),
    plainKeys_of_pyEq h4 hnod (fun x hx => (hra x hx).2.2.2.1.1) (aliased_plain h.keys),
    separate_of_pyEq e2 (aliased_real hw.2) hra h.separate⟩

/-- Writing, reading and writing again. -/
theorem Faithful.twice {t : RType} (h : Faithful t) :
    ∃ v t' v' t'', toDict true true t = .ok v ∧ parse v = .ok t' ∧ toDict true true t' = .ok v' ∧
      parse v' = .ok t'' ∧ RType.pyEq t'' (aliased t) = true := by
  obtain ⟨v, t', h1, h2, h3, h4⟩ := h.write
  obtain ⟨v', t'', g1, g2, g3, -⟩ := h4.write
  refine ⟨v, t', v', t'', h1, h2, g1, g2, RType.pyEq_trans _ _ _ g3 ?_⟩
  have := aliased_congr t' (aliased t) h4.real (aliased_real h.real) h3
  rwa [aliased_idem] at this

end Recap
