import Verif.AvroWriteLemmas

/-!
# C129: the values of a type are data of the Avro schema that is written for it
-/

set_option autoImplicit false

namespace Recap.AvroWrite

open Values (Val Holds)
open Avro
open Avro.Spec (IntValue)
open AvroData (Datum Env Primitive)

/-- **C129.**  What is missing: fields other than of unions, of UUIDs and of types without parts and logical type
(`C129_inline_refuted`, `C129_logical_refuted`), unions inside lists, maps and unions
(`C129_items_refuted`), integers wider than a `long` (C60), byte strings of a fixed length, decimals
without digits or with more of them after the point than there are, and references (C63). -/
theorem C129_values_partial {live : Registry} {t : RType} {d : Dict} {x : Val} (ht : AsSchema t)
    (hr : fromRecap live t = .ok d) (hx : Holds t x) : Datum [] .none (.dict d) x := by
  obtain ⟨n, v, hv, hd⟩ := fromRecap_datum hr
  have h : Datum [] .none v x := values_written ht hv hx .none
  rcases hd with rfl | ⟨s, rfl, rfl⟩
  · exact h
  · cases h with
    | primitiveName h => exact .primitive rfl (unannotated (by simp [Dict.get?])) h
    | reference _ h => cases h

/-- A structure with a field that is an enum, a list, a map, a structure or a byte string of a fixed length
is written as a schema without any data: its field has the type `"enum"`, `"array"`, `"map"`, `"record"` or
`"fixed"`, which Avro takes for the name of a type. -/
theorem C129_inline_refuted {live : Registry} {fs : List RType} {a : Attrs} {f : RType} {d : Dict}
    (hf : f ∈ fs) (hi : Inline f) (hr : fromRecap live (.struct fs a) = .ok d) (env : Env) (ns : Option String)
    (x : Val) : ¬Datum env ns (.dict d) x := by
  intro hx
  obtain ⟨n, q, xs, rfl, h⟩ := struct_datum hr hx
  obtain ⟨i, hi'⟩ := List.mem_iff_getElem?.mp hf
  obtain ⟨v, D, w, y, h1, h2, h3, h4, h5⟩ := h i f hi'
  obtain ⟨s, rfl, hs⟩ := inline_written hi h1 h2 h3
  exact datum_keyword h5 hs

/-- A structure with a field that is a timestamp, a date, a time or a decimal is written as a schema of which
no value of the structure is a datum: Avro takes the logical type that is written for an attribute of
the field. -/
theorem C129_logical_refuted {live : Registry} {fs : List RType} {a : Attrs} {f : RType} {d : Dict} {l : String}
    (hf : f ∈ fs) (hl : f.attrs.logical = .str l) (hu : l ≠ "build.recap.UUID")
    (hr : fromRecap live (.struct fs a) = .ok d) (env : Env) (ns : Option String) (x : Val)
    (hx : Holds (.struct fs a) x) : ¬Datum env ns (.dict d) x := by
  intro hd
  obtain ⟨n, q, xs, rfl, h⟩ := struct_datum hr hd
  obtain ⟨i, hi'⟩ := List.mem_iff_getElem?.mp hf
  obtain ⟨v, D, w, y, h1, h2, h3, h4, h5⟩ := h i f hi'
  obtain ⟨s, e, hs, he, rfl⟩ := convert_annotated hl h1
  rw [fieldSchema_shorten] at h2
  cases h2
  rw [get_described hs (by simp)] at h3
  obtain ⟨b, hb, hbs⟩ := logical_primitive he
  rw [hb] at h3
  cases h3
  have hy := datum_base h5 hbs
  cases hx with
  | struct hlen hxs =>
    have hh := hxs i f y hi' h4
    cases f <;> simp [logicalSchema] at he
    all_goals
      simp only [RType.attrs] at hl
      rcases hy with ⟨_, rfl⟩ | ⟨_, rfl⟩ | ⟨_, rfl⟩ <;> cases hh <;> simp_all

/-- A list of a union is written as a schema of which only the empty list is a datum: its items have the
schema `{"type": [...]}`, which is none. -/
theorem C129_items_refuted {live : Registry} {ts : List RType} {b a : Attrs} {l v : PyVal} {d : Dict}
    (hr : fromRecap live (.list (.union ts b) l v a) = .ok d) (env : Env) (ns : Option String) (x : Val)
    (hx : Datum env ns (.dict d) x) : x = .list [] := by
  obtain ⟨n, w, xs, hw, rfl, h⟩ := list_datum hr hx
  cases xs with
  | nil => rfl
  | cons y xs => exact absurd (h y (List.mem_cons_self ..)) (union_written hw)

/-- A list of strings, with the name of a field. -/
def tags : RType := .list (.string (.int 10) (.bool true) {}) .none (.bool true) { extra := [("name", .str "tags")] }

/-- A structure with this field. -/
def tagged : RType := .struct [tags] {}

/-- So C129 does not hold: the structure with a list of strings as its field has the value with an empty
list, but its schema has no data. -/
theorem C129_values_refuted : ¬ValuesWritten := by
  intro h
  obtain ⟨d, hd⟩ : ∃ d, fromRecap [] tagged = .ok d := ⟨_, rfl⟩
  refine C129_inline_refuted (f := tags) (List.mem_cons_self ..) (.list rfl) hd [] .none (.struct [.list []]) ?_
  refine h [] tagged d _ hd (Holds.struct (fs := [tags]) rfl fun i f x hf hx => ?_)
  cases i with
  | zero => simp at hf hx; subst hf hx; exact .list (by simp)
  | succ i => simp at hf

/-! ### Cases that meet the hypotheses -/

/-- A structure with an integer, an optional list of timestamps and a string. -/
def visit : RType :=
  .struct [.int (.int 32) (.bool true) { extra := [("name", .str "id")] },
    .union [.null {}, .list (.int (.int 64) (.bool true) { logical := .str "build.recap.Timestamp", extra := [("unit", .str "millisecond")] })
      .none (.bool true) {}] { extra := [("name", .str "at"), ("default", .none)] },
    .string (.int 20) (.bool true) { doc := .str "who", extra := [("name", .str "who")] }]
    { extra := [("name", .str "Visit")] }

/-- Its schema. -/
def visitSchema : Dict :=
  [("name", .str "Visit"), ("type", .str "record"), ("fields", .list [
    .dict [("name", .str "id"), ("type", .str "int")],
    .dict [("name", .str "at"), ("default", .none), ("type", .list [.str "null",
      .dict [("type", .str "array"), ("items", .dict [("type", .str "long"), ("logicalType", .str "timestamp-millis")])]])],
    .dict [("doc", .str "who"), ("name", .str "who"), ("type", .str "string")]])]

example : fromRecap [] visit = .ok visitSchema := by decide +kernel

theorem visit_schema : AsSchema visit := by
  refine .struct rfl (.inr (.inl ⟨"Visit", rfl, by decide⟩)) fun f hf => ?_
  simp only [List.mem_cons, List.not_mem_nil, or_false] at hf
  rcases hf with rfl | rfl | rfl
  · exact .plain (.signed rfl (by decide))
  · refine .union rfl fun t ht => ?_
    simp only [List.mem_cons, List.not_mem_nil, or_false] at ht
    rcases ht with rfl | rfl
    · exact .plain (.null rfl)
    · exact .list rfl (.annotated (.timestamp rfl))
  · exact .plain (.string rfl)

/-- A visit at two points in time is a datum of the schema. -/
example : Datum [] .none (.dict visitSchema)
    (.struct [.int 7, .list [.instant 1700000000123000000, .instant 0], .str "Ada"]) := by
  refine C129_values_partial visit_schema (live := []) (by decide +kernel) (.struct rfl fun i f x hf hx => ?_)
  match i with
  | 0 => simp at hf hx; subst hf hx; exact .int rfl (by simp [IntValue])
  | 1 =>
    simp at hf hx; subst hf hx
    refine .union (List.mem_cons_of_mem _ (List.mem_cons_self ..)) (.list fun y hy => ?_)
    simp only [List.mem_cons, List.not_mem_nil, or_false] at hy
    rcases hy with rfl | rfl
    · exact .instant (u := "millisecond") (per := 1000000) (k := 1700000000123) rfl rfl rfl (by simp [IntValue])
    · exact .instant (u := "millisecond") (per := 1000000) (k := 0) rfl rfl rfl (by simp [IntValue])
  | 2 => simp at hf hx; subst hf hx; exact .string rfl (.inr ⟨20, rfl, by decide +kernel⟩)
  | i + 3 => simp at hf

/-- A structure with a date. -/
def birth : RType :=
  .struct [.int (.int 32) (.bool true) { logical := .str "build.recap.Date", extra := [("name", .str "born"), ("unit", .str "day")] }] {}

/-- Its value is none of its schema, which has integers as data. -/
example : ∃ d, fromRecap [] birth = .ok d ∧ Holds birth (.struct [.date 19000]) ∧
    ¬Datum [] .none (.dict d) (.struct [.date 19000]) ∧ Datum [] .none (.dict d) (.struct [.int 19000]) := by
  have hh : Holds birth (.struct [.date 19000]) := by
    refine .struct rfl fun i f x hf hx => ?_
    cases i with
    | zero => simp at hf hx; subst hf hx; exact .date rfl rfl (by simp [IntValue])
    | succ i => simp at hf
  refine ⟨_, rfl, hh, C129_logical_refuted (live := []) (List.mem_cons_self ..) rfl (by decide) rfl [] .none _ hh, ?_⟩
  refine .record rfl (.anonymous (.inherited rfl) rfl) rfl (.cons rfl .nil) rfl fun i w x hw hx => ?_
  cases i with
  | zero => simp at hw hx; subst hw hx; exact .primitiveName (.int (by simp [IntValue]))
  | succ i => simp at hw

/-- A list of optional integers has a schema, and values that are not empty. -/
example : (fromRecap [] (.list (.union [.null {}, .int (.int 32) (.bool true) {}] {}) .none (.bool true) {})).toOption.isSome ∧
    Holds (.list (.union [.null {}, .int (.int 32) (.bool true) {}] {}) .none (.bool true) {}) (.list [.null]) :=
  ⟨by decide +kernel, .list fun x hx => by
    simp only [List.mem_cons, List.not_mem_nil, or_false] at hx
    subst hx
    exact .union (List.mem_cons_self ..) .null⟩

end Recap.AvroWrite
