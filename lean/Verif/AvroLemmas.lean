import Verif.AvroSpec
import Verif.DictLemmas
import Verif.TypesState

/-!
# Lemmas on the Avro converter
-/

set_option autoImplicit false

namespace Recap.Avro

/-- The keys that `describe` writes. -/
theorem describe_keys {a : Attrs} {s : Dict} (h : describe a = .ok s) :
    (Dict.keys s).Nodup ∧ ∀ k ∈ Dict.keys s, k ∈ ["doc", "name", "default", "aliases"] := by
  unfold describe at h
  obtain ⟨al, hal, h⟩ := ok_bind h
  simp only [pure, Except.pure] at h
  cases h
  have h1 : docOf a = [] ∨ ∃ v, docOf a = [("doc", v)] := by
    unfold docOf; split
    · exact Or.inr ⟨_, rfl⟩
    · exact Or.inl rfl
  have h2 : nameOf a = [] ∨ ∃ v, nameOf a = [("name", v)] := by
    unfold nameOf; split
    · split
      · exact Or.inr ⟨_, rfl⟩
      · exact Or.inl rfl
    · exact Or.inl rfl
  have h3 : copied a.extra "default" = [] ∨ ∃ v, copied a.extra "default" = [("default", v)] := by
    unfold copied; split
    · exact Or.inr ⟨_, rfl⟩
    · exact Or.inl rfl
  have h4 : al = [] ∨ ∃ v, al = [("aliases", v)] := by
    unfold aliasesOf at hal
    split at hal
    · split at hal
      · cases hal
        split
        · exact Or.inr ⟨_, rfl⟩
        · exact Or.inl rfl
      all_goals cases hal
    · cases hal; exact Or.inl rfl
  rcases h1 with h1 | ⟨v1, h1⟩ <;> rcases h2 with h2 | ⟨v2, h2⟩ <;> rcases h3 with h3 | ⟨v3, h3⟩ <;>
    rcases h4 with h4 | ⟨v4, h4⟩ <;> rw [h1, h2, h3, h4] <;> simp [Dict.keys]

/-- What is added to a description is appended. -/
theorem update_describe {a : Attrs} {s : Dict} (h : describe a = .ok s) {d : Dict}
    (hd : ∀ k ∈ Dict.keys d, k ∉ ["doc", "name", "default", "aliases"]) (hn : (Dict.keys d).Nodup) :
    Dict.update s d = s ++ d :=
  Dict.update_of_disjoint (fun k hk hs => hd k hk ((describe_keys h).2 k hs)) hn

theorem get_describe {a : Attrs} {s : Dict} (h : describe a = .ok s) {k : String}
    (hk : k ∉ ["doc", "name", "default", "aliases"]) : Dict.get? s k = .none :=
  Dict.get?_eq_none_iff.mpr (fun hs => hk ((describe_keys h).2 k hs))

theorem get_described {a : Attrs} {s : Dict} (h : describe a = .ok s) {d : Dict} {k : String}
    (hk : k ∉ ["doc", "name", "default", "aliases"]) : Dict.get? (s ++ d) k = Dict.get? d k := by
  rw [Dict.get?_append, get_describe h hk]

/-- A shortened schema is the schema, or its type alone. -/
theorem shorten_cases (d : Dict) : shorten d = .dict d ∨ ∃ s, d = [("type", .str s)] ∧ shorten d = .str s := by
  unfold shorten
  split
  · exact Or.inr ⟨_, rfl, rfl⟩
  · exact Or.inl rfl

/-- A name alone has no nested schemas. -/
theorem parseDict_short (f g : PyVal → Option String → Registry → Except PyErr (RType × Registry)) (s : String)
    (ns : Option String) (reg : Registry) :
    parseDict f [("type", .str s)] ns reg = parseDict g [("type", .str s)] ns reg := by
  simp [parseDict, header, namespaceOf, Dict.get?, Dict.getD, copied, parseType, parseComplex, bind,
    Except.bind, pure, Except.pure, PyVal.truthy]

end Recap.Avro
