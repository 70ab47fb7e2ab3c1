import Verif.CommandsJsonMore
import Verif.AvroValid
import Verif.Avro

/-! # Tables as Avro: helper lemmas for C117 -/

set_option autoImplicit false

namespace Recap.Avro

open RType Recap.Avro.Spec

/-- Records without a name are no schemas. -/
theorem not_valid_nameless {d : Dict} (ht : Dict.get? d "type" = some (.str "record")) (hn : Dict.get? d "name" = .none) :
    ¬ValidSchema (.dict d) := by
  intro h
  cases h with
  | primitive h1 h2 => rw [ht] at h1; cases h1; revert h2; decide
  | array h1 => rw [ht] at h1; simp at h1
  | map h1 => rw [ht] at h1; simp at h1
  | record h1 h2 => rw [hn] at h2; cases h2
  | enum h1 => rw [ht] at h1; simp at h1
  | fixed h1 => rw [ht] at h1; simp at h1

/-- A schema is not an object with a union for its type. -/
theorem not_valid_union_type {d : Dict} {vs : List PyVal} (ht : Dict.get? d "type" = some (.list vs)) :
    ¬ValidSchema (.dict d) := by
  intro h
  cases h with
  | primitive h1 h2 => rw [ht] at h1; simp at h1
  | array h1 => rw [ht] at h1; simp at h1
  | map h1 => rw [ht] at h1; simp at h1
  | record h1 h2 => rw [ht] at h1; simp at h1
  | enum h1 => rw [ht] at h1; simp at h1
  | fixed h1 => rw [ht] at h1; simp at h1

/-- What is written for a struct without attributes. -/
theorem bare_struct {live : Registry} {n : Nat} {fs : List RType} {v : PyVal}
    (h : convertF live n (.struct fs {}) = .ok v) :
    ∃ vs, v = .dict [("type", .str "record"), ("fields", .list vs)] := by
  cases n with
  | zero => cases h
  | succ n =>
    rw [convertF] at h
    obtain ⟨s, h1, h⟩ := Relational.bind_ok h
    cases h1
    simp only [RType.attrs] at h
    obtain ⟨vs, -, h⟩ := Relational.bind_ok h
    cases h
    exact ⟨_, rfl⟩

theorem bare_struct_invalid {live : Registry} {fs : List RType} {d : Dict}
    (h : fromRecap live (.struct fs {}) = .ok d) : ¬ValidSchema (.dict d) := by
  unfold fromRecap at h
  obtain ⟨v, h1, h⟩ := Relational.bind_ok h
  obtain ⟨vs, rfl⟩ := bare_struct h1
  cases h
  exact not_valid_nameless rfl rfl

end Recap.Avro

namespace Recap.Hive

open RType Recap.Avro Recap.Avro.Spec Recap.Commands.Spec

/-- A type that is written as a primitive type. -/
theorem written {P : Prop} {live : Registry} {n : Nat} {m : RType} {k : String} (s : String)
    (e : convertF live (n + 1) m = .ok (.str s)) (hP : P) (h1 : s ∈ primitives) (h3 : s = k) :
    (P → ∃ v, convertF live (n + 1) m = .ok v ∧ ValidSchema v ∧ (∀ us, v ≠ .list us) ∧ kind v = some (.str k)) ∧
      (∀ v, convertF live (n + 1) m = .ok v → ValidSchema v → P) :=
  ⟨fun _ => ⟨_, e, .name h1, fun _ h => (nomatch h), by rw [← h3]; rfl⟩, fun _ _ _ => hP⟩

/-- A type that is written as a logical type. -/
theorem written_logical {P : Prop} {live : Registry} {n : Nat} {m : RType} {k : String} (s : String) (d : Dict)
    (e : convertF live (n + 1) m = .ok (.dict (("type", .str s) :: d)))
    (hP : P) (h1 : s ∈ primitives) (h3 : s = k) :
    (P → ∃ v, convertF live (n + 1) m = .ok v ∧ ValidSchema v ∧ (∀ us, v ≠ .list us) ∧ kind v = some (.str k)) ∧
      (∀ v, convertF live (n + 1) m = .ok v → ValidSchema v → P) := by
  refine ⟨fun _ => ⟨_, e, .primitive rfl h1, fun _ h => (nomatch h), ?_⟩, fun _ _ _ => hP⟩
  have : ¬ (s = "record" ∨ s = "enum" ∨ s = "fixed") := by
    rintro (rfl | rfl | rfl) <;> revert h1 <;> decide
  subst h3
  simp [kind, Dict.get?, this]

/-- A type that is not written. -/
theorem refused {P : Prop} {live : Registry} {n : Nat} {m : RType} {k : String} (hP : ¬P)
    (e : ∀ v, convertF live (n + 1) m = .ok v → ¬ValidSchema v) :
    (P → ∃ v, convertF live (n + 1) m = .ok v ∧ ValidSchema v ∧ (∀ us, v ≠ .list us) ∧ kind v = some (.str k)) ∧
      (∀ v, convertF live (n + 1) m = .ok v → ValidSchema v → P) :=
  ⟨fun h => absurd h hP, fun v h hv => absurd hv (e v h)⟩

theorem write_string {live : Registry} {n : Nat} {k : Int} {v : PyVal} :
    convertF live (n + 1) (.string (.int k) v {}) =
      if k ≤ 9223372036854775807 then .ok (.str "string") else .error .valueError := by
  have : ((asInt (.int k)).any (· ≤ maxLong)) = decide (k ≤ 9223372036854775807) := rfl
  rw [convertF]
  show (leafSchema (.string (.int k) v {}) >>= _) = _
  simp only [leafSchema, this, decide_eq_true_eq]
  split <;> rfl

/-- Everything but void is made nullable. -/
theorem parse_isUnion {h : HType} {t : RType} (hv : h ≠ .prim .void) (hp : Hive.parse {} h = .ok t) :
    ∃ ts a, t = .union ts a ∧ a.logical = .none := by
  have hs := parse_h (P := fun _ => True) (N := fun _ => True) trivial {} h t given_empty trivial (fieldNames_true h) hp
  have hun : t.isUnion = true := by
    by_cases hu : ∃ ts, h = .union ts
    · obtain ⟨ts, rfl⟩ := hu
      rw [Hive.parse] at hp
      obtain ⟨us, -, hp⟩ := Relational.bind_ok hp
      cases hp
      rfl
    · have := parse_optional hv (fun ts e => hu ⟨ts, e⟩) hp
      cases t <;> first | rfl | cases this
  cases t <;> first | (cases hun; done) | skip
  obtain ⟨rest, -, -, hl, -⟩ := (everywhere_iff.mp hs.1).1.union _ _ rfl
  exact ⟨_, _, rfl, hl⟩

/-- What is written for a union is no schema, except as the type of a field. -/
theorem union_written {live : Registry} {n : Nat} {ts : List RType} {a : Attrs} {v : PyVal} (hl : a.logical = .none)
    (h : convertF live n (.union ts a) = .ok v) : ¬ValidSchema v := by
  cases n with
  | zero => cases h
  | succ n =>
    rw [convertF] at h
    obtain ⟨s, h1, h⟩ := Relational.bind_ok h
    simp only [RType.attrs, hl] at h
    obtain ⟨vs, -, h⟩ := Relational.bind_ok h
    cases h
    have e : Dict.get? (Dict.update s [("type", .list vs)]) "type" = some (.list vs) := by
      simp only [Dict.update, List.foldl_cons, List.foldl_nil]
      exact Dict.get?_set_self _ _ _
    have : Avro.shorten (Dict.update s [("type", .list vs)]) = .dict (Dict.update s [("type", .list vs)]) := by
      generalize Dict.update s [("type", .list vs)] = d at e ⊢
      unfold Avro.shorten
      split
      · simp [Dict.get?] at e
      · rfl
    rw [this]
    exact not_valid_union_type e

end Recap.Hive
