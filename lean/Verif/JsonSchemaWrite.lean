import Verif.JsonSchemaRead
import Verif.TypesSpec

/-!
# Properties of writing JSON Schemas

C68.
-/

set_option autoImplicit false

namespace Recap.Json

open Recap.Url Spec

variable {live : Registry}

/-! ## Dictionaries with a default and a description -/

theorem describe_keys (a : Attrs) : ∀ k ∈ Dict.keys (describe a), k = "default" ∨ k = "description" := by
  intro k hk
  unfold describe at hk
  cases h : Dict.get? a.extra "default" <;> cases h' : a.doc.truthy <;>
    simp only [h, h'] at hk <;> simp_all [Dict.keys]

theorem describe_nodup (a : Attrs) : (Dict.keys (describe a)).Nodup := by
  unfold describe
  cases Dict.get? a.extra "default" <;> cases a.doc.truthy <;> simp [Dict.keys]

/-- Keys other than those of `describe`. -/
def BodyKeys (e : Dict) : Prop := ∀ k ∈ Dict.keys e, k ≠ "default" ∧ k ≠ "description"

theorem update_describe {a : Attrs} {e : Dict} (hb : BodyKeys e) (hn : (Dict.keys e).Nodup) :
    Dict.update (describe a) e = describe a ++ e := by
  apply Dict.update_of_disjoint _ hn
  intro k hk hk'
  obtain ⟨h1, h2⟩ := hb k hk
  rcases describe_keys a k hk' with h | h
  · exact h1 h
  · exact h2 h

theorem get?_describe (a : Attrs) (e : Dict) {k : String} (h1 : k ≠ "default") (h2 : k ≠ "description") :
    Dict.get? (describe a ++ e) k = Dict.get? e k := by
  rw [Dict.get?_append]
  have : Dict.get? (describe a) k = .none := by
    rw [Dict.get?_eq_none_iff]
    intro hk
    rcases describe_keys a k hk with h | h
    · exact h1 h
    · exact h2 h
  simp [this]

/-! ## Fields -/

theorem requiredNames_cons (t : RType) (ts : List RType) {name : String} (h : nameOf t = some (.str name)) :
    requiredNames (t :: ts) =
      if isOptionalField t then requiredNames ts else .str name :: requiredNames ts := by
  cases t with
  | union us a =>
    cases ho : RType.isOptional us a.extra <;>
      simp [requiredNames, isOptionalField, h, List.filter_cons, ho]
  | _ => simp [requiredNames, isOptionalField, h]

theorem mem_set {d : Dict} {k n : String} {v s : PyVal} (h : (n, s) ∈ Dict.set d k v) :
    (n, s) ∈ d ∨ s = v := by
  induction d with
  | nil =>
    simp only [Dict.set, List.mem_singleton, Prod.mk.injEq] at h
    exact Or.inr h.2
  | cons kv d ih =>
    obtain ⟨k', v'⟩ := kv
    simp only [Dict.set] at h
    split at h
    · rcases List.mem_cons.mp h with e | h
      · simp only [Prod.mk.injEq] at e; exact Or.inr e.2
      · exact Or.inl (by simp [h])
    · rcases List.mem_cons.mp h with e | h
      · exact Or.inl (by simp [e])
      · rcases ih h with h | h
        · exact Or.inl (by simp [h])
        · exact Or.inr h

theorem mem_set' {d : Dict} {k n : String} {v s : PyVal} (h : (n, s) ∈ Dict.set d k v) :
    (n, s) ∈ d ∨ (n, s) = (k, v) := by
  induction d with
  | nil =>
    simp only [Dict.set, List.mem_singleton] at h
    exact Or.inr h
  | cons kv d ih =>
    obtain ⟨k', v'⟩ := kv
    simp only [Dict.set] at h
    split at h
    · rename_i hk
      rcases List.mem_cons.mp h with e | h
      · exact Or.inr e
      · exact Or.inl (by simp [h])
    · rcases List.mem_cons.mp h with e | h
      · exact Or.inl (by simp [e])
      · rcases ih h with h | h
        · exact Or.inl (by simp [h])
        · exact Or.inr h

theorem convertFields_ok {f : RType → Except PyErr Dict} {ts : List RType} {props props' : Dict}
    {req req' : List PyVal} (h : convertFields f ts props req = .ok (props', req')) :
    req' = req ++ requiredNames ts ∧
    ((Dict.keys props).Nodup → (Dict.keys props').Nodup) ∧
    (∀ name, name ∈ Dict.keys props' ↔ name ∈ Dict.keys props ∨ ∃ t ∈ ts, nameOf t = some (.str name)) ∧
    (∀ t ∈ ts, ∃ name d, name ≠ "" ∧ nameOf t = some (.str name) ∧ f t = .ok d) ∧
    (∀ name s, (name, s) ∈ props' → (name, s) ∈ props ∨ ∃ t ∈ ts, ∃ d, f t = .ok d ∧ s = .dict d) := by
  induction ts generalizing props req with
  | nil =>
    simp only [convertFields, Except.ok.injEq, Prod.mk.injEq] at h
    obtain ⟨rfl, rfl⟩ := h
    simp [requiredNames]
  | cons t ts ih =>
    simp only [convertFields] at h
    split at h
    · rename_i name hname
      split at h
      · cases h
      · rename_i hne
        obtain ⟨d, hd, h⟩ := ok_bind h
        obtain ⟨h1, h2, h3, h4, h5⟩ := ih h
        have hn : nameOf t = some (.str name) := hname
        refine ⟨?_, ?_, ?_, ?_, ?_⟩
        · rw [h1, requiredNames_cons _ _ hn]
          cases ho : isOptionalField t <;> simp
        · exact fun hnd => h2 (Dict.nodup_keys_set _ _ hnd)
        · intro n
          rw [h3, mem_keys_set]
          constructor
          · rintro ((rfl | h) | ⟨t', ht', hh⟩)
            · exact Or.inr ⟨t, by simp, hn⟩
            · exact Or.inl h
            · exact Or.inr ⟨t', by simp [ht'], hh⟩
          · rintro (h | ⟨t', ht', hh⟩)
            · exact Or.inl (Or.inr h)
            · rcases List.mem_cons.mp ht' with rfl | ht'
              · rw [hn] at hh; cases hh; exact Or.inl (Or.inl rfl)
              · exact Or.inr ⟨t', ht', hh⟩
        · intro t' ht'
          rcases List.mem_cons.mp ht' with rfl | ht'
          · exact ⟨name, d, hne, hn, hd⟩
          · exact h4 t' ht'
        · intro n s hs
          rcases h5 n s hs with hs | ⟨t', ht', d', hd', e⟩
          · have := mem_set hs
            rcases this with h | h
            · exact Or.inl h
            · exact Or.inr ⟨t, by simp, d, hd, h⟩
          · exact Or.inr ⟨t', by simp [ht'], d', hd', e⟩
    · split at h <;> cases h
    · cases h

end Recap.Json
