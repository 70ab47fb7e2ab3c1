import Verif.AvroNames

/-!
# C63: the names in written Avro schemas
-/

set_option autoImplicit false

namespace Recap.Avro

open Recap.Avro.Spec

variable {live : Registry}

/-- **C63** (partial): in a written schema, every type name is one of Avro's own or is given as an
alias of a type in the schema, when the references are to aliases of types inside the type, or are
record fields that refer to built-in aliases.

Missing: references that have no name (`C63_nameless_refuted`), and references to Avro names instead
of Avro aliases (`C63_names_refuted`): both are false of the code. -/
theorem C63_names_partial {t : RType} {d : Dict} (h : fromRecap live t = .ok d)
    (hr : ∀ r a, Inside (.proxy r a) t →
      (∃ s, a.alias = .str s ∧ Qualified s ∧ Defines t s) ∨ NamedBuiltin live r a)
    {s : String} (hu : Uses (.dict d) s) : s ∈ keywords ∨ Aliased (.dict d) s := by
  unfold fromRecap at h
  obtain ⟨v, hv, h⟩ := ok_bind h
  have hok : RefsOK live t := fun r a hi => by
    rcases hr r a hi with ⟨s, h1, h2, -⟩ | hb
    · exact Or.inl ⟨s, h1, h2⟩
    · exact Or.inr hb
  have hv' : Uses v s ∧ (Aliased v s → Aliased (.dict d) s) := by
    split at h
    · cases h
      exact ⟨hu, id⟩
    · cases h
      refine ⟨?_, fun ⟨d', hp, h2⟩ => ⟨d', .type rfl hp, h2⟩⟩
      cases hu with
      | type h1 h2 => simp only [Dict.get?] at h1; cases h1; exact h2
      | items h1 _ => simp [Dict.get?] at h1
      | values h1 _ => simp [Dict.get?] at h1
      | field h1 _ _ => simp [Dict.get?] at h1
  rcases convert_uses hv hok hv'.1 with hk | ⟨r, a, hi, ha, hq⟩
  · exact Or.inl hk
  · rcases hr r a hi with ⟨s', h1, h2, u, hu1, hu2, hu3⟩ | ⟨⟨s', t', h1, h2, -⟩, -⟩
    · rw [ha] at h1
      cases h1
      exact Or.inr (hv'.2 (convert_aliased hv hu1 hu2 hu3 hq))
    · rw [ha] at h1
      cases h1
      exact absurd (hasDot_iff.mpr hq) (by simp [builtin_noDot h2])

/-- A linked list, with a 16-bit number. -/
def linked : RType :=
  .struct [
    .proxy .none { alias := .str "int16", extra := [("name", .str "value")] },
    .union [.null {}, .proxy .none { alias := .str "app.Node" }] { extra := [("name", .str "next")] }]
    { alias := .str "app.Node", extra := [("name", .str "Node")] }

/-- C63 of a linked list. -/
example : ∃ d, fromRecap newRegistry linked = .ok d ∧ Uses (.dict d) "app.Node" ∧ Uses (.dict d) "int" ∧
    ∀ s, Uses (.dict d) s → s ∈ keywords ∨ Aliased (.dict d) s := by
  refine ⟨_, rfl, ?_, ?_, fun s hs => C63_names_partial (live := newRegistry) (t := linked) rfl ?_ hs⟩
  · exact .field rfl (.tail _ (.head _)) (.type rfl (.member (.tail _ (.head _)) .name))
  · exact .field rfl (.head _) (.type rfl .name)
  · intro r a hi
    unfold linked at hi
    cases hi with
    | field h1 h2 =>
      simp only [List.mem_cons, List.not_mem_nil, or_false] at h1
      rcases h1 with rfl | rfl
      · cases h2
        refine Or.inr ⟨⟨"int16", .int (.int 16) (.bool true) {}, rfl, by decide +kernel, by decide +kernel⟩, by simp [Dict.keys],
          "value", by decide, rfl⟩
      · cases h2 with
        | member h3 h4 =>
          simp only [List.mem_cons, List.not_mem_nil, or_false] at h3
          rcases h3 with rfl | rfl
          · cases h4
          · cases h4
            exact Or.inl ⟨_, rfl, by unfold Qualified; decide, linked, .refl, (by rintro ⟨r, a, h⟩; cases h), rfl⟩

/-- What is written of a list of `int32`. -/
def numbers : Dict :=
  [("type", .str "record"), ("fields", .list [
    .dict [("name", .str "xs"), ("type", .str "array"), ("items", .str "int32")]])]

theorem parts_numbers {d : Dict} (h : Part (.dict numbers) (.dict d)) : d = numbers ∨
    d = [("name", .str "xs"), ("type", .str "array"), ("items", .str "int32")] := by
  cases h with
  | refl => exact Or.inl rfl
  | type h1 h2 => simp only [numbers, Dict.get?] at h1; simp at h1; subst h1; cases h2
  | items h1 _ => simp [numbers, Dict.get?] at h1
  | values h1 _ => simp [numbers, Dict.get?] at h1
  | field h1 h2 h3 =>
    simp [numbers, Dict.get?] at h1
    subst h1
    simp only [List.mem_cons, List.not_mem_nil, or_false] at h2
    subst h2
    cases h3 with
    | refl => exact Or.inr rfl
    | type h1 h2 => simp [Dict.get?] at h1; subst h1; cases h2
    | items h1 h2 => simp [Dict.get?] at h1; subst h1; cases h2
    | values h1 _ => simp [Dict.get?] at h1
    | field h1 _ _ => simp [Dict.get?] at h1

/-- C63 is false of references without a name: a list of `int32` becomes an array of the undefined
type `int32`. -/
theorem C63_nameless_refuted : ∃ v t live d s, fromDict v newRegistry = .ok (t, live) ∧
    fromRecap live t = .ok d ∧ Uses (.dict d) s ∧ s ∉ keywords ∧ ¬ Aliased (.dict d) s ∧ ¬ Named (.dict d) s := by
  refine ⟨.dict [("type", .str "struct"), ("fields", .list [
      .dict [("type", .str "list"), ("values", .str "int32"), ("name", .str "xs")]])], _, _, numbers, "int32",
    rfl, rfl, .field rfl (.head _) (.items rfl .name), by decide, ?_, ?_⟩
  · rintro ⟨d, hp, xs, hg, -⟩
    rcases parts_numbers hp with rfl | rfl <;> simp [numbers, Dict.get?] at hg
  · rintro ⟨d, hp, hg, -⟩
    rcases parts_numbers hp with rfl | rfl <;> simp [numbers, Dict.get?] at hg

/-- The Avro schema of a linked list. -/
def linkedSchema : Dict :=
  [("type", .str "record"), ("name", .str "Node"), ("fields", .list [
    .dict [("name", .str "next"), ("type", .list [.str "null", .str "Node"])]])]

/-- What is written after it was read. -/
def linkedWritten : Dict :=
  [("name", .str "Node"), ("aliases", .list [.str "app.Node"]), ("type", .str "record"), ("fields", .list [
    .dict [("name", .str "next"), ("aliases", .list [.str "app.next"]),
      ("type", .list [.str "null", .str "app.Node"])]])]

theorem parts_linked {d : Dict} (h : Part (.dict linkedWritten) (.dict d)) : d = linkedWritten ∨
    d = [("name", .str "next"), ("aliases", .list [.str "app.next"]),
      ("type", .list [.str "null", .str "app.Node"])] := by
  cases h with
  | refl => exact Or.inl rfl
  | type h1 h2 => simp [linkedWritten, Dict.get?] at h1; subst h1; cases h2
  | items h1 _ => simp [linkedWritten, Dict.get?] at h1
  | values h1 _ => simp [linkedWritten, Dict.get?] at h1
  | field h1 h2 h3 =>
    simp [linkedWritten, Dict.get?] at h1
    subst h1
    simp only [List.mem_cons, List.not_mem_nil, or_false] at h2
    subst h2
    cases h3 with
    | refl => exact Or.inr rfl
    | type h1 h2 =>
      simp [Dict.get?] at h1
      subst h1
      cases h2 with
      | member h3 h4 =>
        simp only [List.mem_cons, List.not_mem_nil, or_false] at h3
        rcases h3 with rfl | rfl <;> cases h4
    | items h1 h2 => simp [Dict.get?] at h1
    | values h1 _ => simp [Dict.get?] at h1
    | field h1 _ _ => simp [Dict.get?] at h1

/-- C63 is false of names proper: the schema of a linked list, read and written again, refers to the
type `app.Node`, but no type of this name is defined: it is only an alias of `Node`. -/
theorem C63_names_refuted : ∃ v ns t live d s, toRecap v (some ns) newRegistry = .ok (t, live) ∧
    fromRecap live t = .ok d ∧ Uses (.dict d) s ∧ s ∉ keywords ∧ ¬ Named (.dict d) s := by
  refine ⟨.dict linkedSchema, "app", _, _, linkedWritten, "app.Node", rfl, rfl,
    .field rfl (.head _) (.type rfl (.member (.tail _ (.head _)) .name)), by decide, ?_⟩
  rintro ⟨d, hp, hg, -⟩
  rcases parts_linked hp with rfl | rfl <;> simp [linkedWritten, Dict.get?] at hg

end Recap.Avro
