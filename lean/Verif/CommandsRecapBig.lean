import Verif.CommandsSpec
import Verif.CommandsRecap
import Verif.BigQueryThms
import Verif.DecimalThms

/-! # Tables of BigQuery and Hive in Recap's own format: helper lemmas for C115 -/

set_option autoImplicit false

namespace Recap

open RType Spec

theorem Tame.doc_set {t : RType} (h : Tame t) {v : PyVal} (hv : Real v) : Tame (BigQuery.setDoc t v) := by
  unfold BigQuery.setDoc
  have ea : (t.withAttrs { t.attrs with doc := v }).attrs = { t.attrs with doc := v } := by cases t <;> rfl
  have ec : children (t.withAttrs { t.attrs with doc := v }) = children t := by cases t <;> rfl
  have ep : Spec.params (t.withAttrs { t.attrs with doc := v }) = Spec.params t := by cases t <;> rfl
  constructor
  · rw [proxy_withAttrs]; exact h.proxy
  · intro ts a e
    cases t <;> cases e
    exact h.union _ _ rfl
  · rw [ea]; exact h.alias
  · rw [ea]; exact h.logical
  · rw [ea]; exact hv
  · rw [ea]; exact h.nodup
  · rw [ea]; exact h.keys
  · rw [ea]; exact h.real
  · rw [ep]; exact h.params
  · rw [ec]; exact h.parts

end Recap

namespace Recap.BigQuery

open RType Spec Relational

theorem scalar_leafy {ft : String} {l p s : PyVal} (hl : Real l) (hp : Real p) (hs : Real s) :
    Yields Leafy (scalar ft l p s) := by
  have ro : ∀ {v : PyVal} (_ : Real v) (n : Int), Real (orElse v (.int n)) := by
    intro v hv n; unfold orElse; split <;> trivial
  unfold scalar
  branches
  all_goals first
    | plainly
    | (refine ⟨rfl, rfl, fun _ _ h => (nomatch h), rfl, rfl, trivial, ?_, ?_, ?_, ?_⟩ <;>
        simp [RType.attrs, Dict.keys, Real, Spec.params, ro hp, ro hs])

/-- The field for a type that is not nullable. -/
theorem decorate_shown {mode : String} {name description dflt : PyVal} {u : RType}
    (hn : Real name) (hd : Real description) (hv : Real dflt)
    (hdoc : mode = "NULLABLE" → description.truthy = false)
    (ht : Tame u) (hb : Bare u) (hu : u.isNullable = false) : Shown (decorate mode name description dflt u) := by
  have tame : ∀ {w : RType}, Tame w → Shown
      (let t := w
       let t := if name.truthy then BigQuery.setExtra t "name" name else t
       let t := if description.truthy then setDoc t description else t
       if dflt.truthy then BigQuery.setExtra t "default" dflt else t) := by
    intro w hw
    have h1 : Tame (if name.truthy then BigQuery.setExtra w "name" name else w) := by
      split
      · exact hw.set (.inr rfl) hn
      · exact hw
    have key : ∀ w1 : RType, Tame w1 → Shown
        (let t := if description.truthy then setDoc w1 description else w1
         if dflt.truthy then BigQuery.setExtra t "default" dflt else t) := by
      intro w1 h1
      have h2 : Tame (if description.truthy then setDoc w1 description else w1) := by
        split
        · exact h1.doc_set hd
        · exact h1
      have last : ∀ w2 : RType, Tame w2 → Shown (if dflt.truthy then BigQuery.setExtra w2 "default" dflt else w2) := by
        intro w2 h2
        split
        · exact (h2.set (.inl rfl) hv).shown
        · exact h2.shown
      exact last _ h2
    exact key _ h1
  by_cases h1 : mode = "REPEATED"
  · subst h1
    exact tame (w := .list u .none (.bool true) {}) ⟨rfl, fun _ _ h => (nomatch h), rfl, trivial, trivial, .nil, by simp [RType.attrs, Dict.keys],
      by simp [RType.attrs], by simp [Spec.params, Real],
      by simp only [children, List.mem_singleton, forall_eq]; exact ht.shown⟩
  · by_cases h2 : mode = "NULLABLE"
    · subst h2
      have hd' := hdoc rfl
      have e : decorate "NULLABLE" name description dflt u =
        (let t := wrap "NULLABLE" u
         let t := if name.truthy then BigQuery.setExtra t "name" name else t
         let t := if description.truthy then setDoc t description else t
         if dflt.truthy then BigQuery.setExtra t "default" dflt else t) := rfl
      rw [e, wrap_nullable hb hu ht.union, hd']
      have fin : ∀ {x : Dict}, FieldExtra x → Shown (.union [.null {}, u] { extra := x }) := by
        intro x hx
        refine shown_union hx (fun t ht' => by rw [List.mem_singleton.mp ht']; exact ht.shown) ?_ ?_
        · intro t ht'
          rw [List.mem_singleton.mp ht']
          cases u <;> simp [RType.isNullable] at hu <;> simp [RType.typeName]
        · intro w hw
          cases hw
          refine ⟨?_, Dict.get?_eq_none_iff.mp hb.name, Dict.get?_eq_none_iff.mp hb.default⟩
          have := ht.union
          cases u <;> first | exact absurd rfl (this _ _) | simp [RType.typeName]
      by_cases hnt : name.truthy = true
      · have hne : name ≠ .none := by rintro rfl; cases hnt
        by_cases hvt : dflt.truthy = true
        · simp only [hnt, hvt, if_true, Bool.false_eq_true, if_false]
          exact fin (.both hv hn hne)
        · simp only [hnt, hvt, if_true, Bool.false_eq_true, if_false]
          exact fin (.both trivial hn hne)
      · by_cases hvt : dflt.truthy = true
        · simp only [hnt, hvt, if_true, Bool.false_eq_true, if_false]
          exact fin (.default hv)
        · simp only [hnt, hvt, Bool.false_eq_true, if_false]
          exact fin (.default trivial)
    · have e : decorate mode name description dflt u =
        (let t := wrap mode u
         let t := if name.truthy then BigQuery.setExtra t "name" name else t
         let t := if description.truthy then setDoc t description else t
         if dflt.truthy then BigQuery.setExtra t "default" dflt else t) := rfl
      rw [e, wrap_other h1 h2]
      exact tame ht

open Recap.Commands.Spec in
mutual
theorem fieldOf_shown : ∀ (f : Field) (t : RType), fieldOf f = .ok t → Undocumented f → Shown t
  | .mk fieldType mode name description dflt maxLength precision scale fields, t, h, hu => by
    rw [Undocumented] at hu
    obtain ⟨⟨r1, r2, r3, r4, r5, r6⟩, hd, hs⟩ := hu
    rw [fieldOf] at h
    split at h
    · obtain ⟨fs, h1, h⟩ := bind_ok h
      cases h
      have ih := fieldsOf_shown fields fs h1 hs
      exact decorate_shown r1 r2 r3 hd ⟨rfl, fun _ _ h => (nomatch h), rfl, trivial, trivial, .nil,
        by simp [RType.attrs, Dict.keys], by simp [RType.attrs], by simp [Spec.params], ih⟩ ⟨rfl, rfl, rfl⟩ rfl
    · obtain ⟨u, h1, h⟩ := bind_ok h
      cases h
      exact decorate_shown r1 r2 r3 hd (scalar_leafy r4 r5 r6 _ h1).tame (scalar_fresh h1).1 (scalar_fresh h1).2.1
theorem fieldsOf_shown : ∀ (fs : List Field) (ts : List RType), fieldsOf fs = .ok ts → UndocumentedAll fs →
    ∀ t ∈ ts, Shown t
  | [], ts, h, _ => by
    rw [fieldsOf] at h
    cases h
    simp
  | f :: fs, ts, h, hu => by
    rw [UndocumentedAll] at hu
    rw [fieldsOf] at h
    obtain ⟨t, h1, h⟩ := bind_ok h
    obtain ⟨us, h2, h⟩ := bind_ok h
    cases h
    have i1 := fieldOf_shown f t h1 hu.1
    have i2 := fieldsOf_shown fs us h2 hu.2
    intro u hu'
    rcases List.mem_cons.mp hu' with rfl | hu'
    · exact i1
    · exact i2 u hu'
end

end Recap.BigQuery
