import Verif.AvroRefs
import Verif.AvroStoredThms

/-!
# C129 and C137 for types with references
-/

set_option autoImplicit false

namespace Recap.AvroWrite

open Values (Val Holds)
open Avro
open Avro.Spec (IntValue)
open AvroData (Datum HoldsIn Primitive)

theorem expanded_datum {live : Registry} {t u : RType} (he : Expanded live t u) {d : Dict} (hr : fromRecap live t = .ok d)
    (x : Val) : Datum [] .none (.dict d) x ↔ Stored u x := by
  obtain ⟨n, v, hv, hd⟩ := fromRecap_datum hr
  have hs := (stored_written (env := []) (expanded_whole he) (convert_expanded he hv)).1 .none x
  rcases hd with rfl | ⟨s, rfl, rfl⟩
  · exact hs
  · rw [← hs]
    constructor
    · intro h
      exact datum_shorten h
    · intro h
      cases h with
      | primitiveName h => exact .primitive (s := s) rfl (unannotated (by simp [Dict.get?])) h
      | reference _ h => cases h

/-- **C129 (references).**  When references are to built-in aliases, and what they refer to has a name, a default or a
logical type, the values of the type are data of the schema, for the same types as in `C129_values_partial` otherwise. -/
theorem C129_references_partial {live : Registry} {t u : RType} {d : Dict} {x : Val} (he : Expanded live t u)
    (hu : AsSchema u) (hr : fromRecap live t = .ok d) (hx : HoldsIn live t x) : Datum [] .none (.dict d) x := by
  obtain ⟨n, v, hv, hd⟩ := fromRecap_datum hr
  have h : Datum [] .none v x := values_written hu (convert_expanded he hv) ((holds_expanded he x).mp hx) .none
  rcases hd with rfl | ⟨s, rfl, rfl⟩
  · exact h
  · cases h with
    | primitiveName h => exact .primitive rfl (unannotated (by simp [Dict.get?])) h
    | reference _ h => cases h

/-- **C137 (references).**  The data of the schema are then those of the type without references. -/
theorem C137_references_partial {live : Registry} {t u : RType} {d : Dict} (he : Expanded live t u)
    (hr : fromRecap live t = .ok d) (x : Val) : Datum [] .none (.dict d) x ↔ Stored u x :=
  expanded_datum he hr x

/-- No other data than values, for the same types as in `C137_only_partial` otherwise. -/
theorem C137_references_only_partial {live : Registry} {t u : RType} {d : Dict} {x : Val} (he : Expanded live t u)
    (hk : Kept u) (hr : fromRecap live t = .ok d) (hx : Datum [] .none (.dict d) x) : HoldsIn live t x :=
  (holds_expanded he x).mpr (kept_holds ((expanded_datum he hr x).mp hx) hk)

/-- A list of references to a built-in alias such as `int32`, without any attributes, has only one datum, the empty
list: Avro takes `int32` for the name of a type, and there is none. -/
theorem C129_bare_refuted {live : Registry} {r : Option (List (String × RType))} {a b : Attrs} {s : String} {l w : PyVal}
    {d : Dict} {x : Val} (hb : ToBuiltin live r a) (ha : a.alias = .str s) (hs : s ∈ plainNames) (he : a.extra = [])
    (hr : fromRecap live (.list (.proxy r a) l w b) = .ok d) (hx : Datum [] .none (.dict d) x) : x = .list [] := by
  obtain ⟨n, v, hv, hd⟩ := fromRecap_datum hr
  cases n with
  | zero => cases hv
  | succ n =>
    unfold convertF at hv
    obtain ⟨D, hD, hv⟩ := ok_bind hv
    split at hv
    · obtain ⟨e, h1, hv⟩ := ok_bind hv
      cases h1
    · obtain ⟨v', hv', hv⟩ := ok_bind hv
      have hbare := convert_bare hb ha hs he hv'
      rw [update_describe hD (by simp [Dict.keys]) (by simp [Dict.keys]), shorten_long] at hv
      cases hv
      rcases hd with hd | ⟨_, hd, -⟩ <;> cases hd
      have ht : Dict.get? (D ++ [("type", .str "array"), ("items", v')]) "type" = some (.str "array") := by
        rw [get_described hD (by simp)]; rfl
      have hi : Dict.get? (D ++ [("type", .str "array"), ("items", v')]) "items" = some v' := by
        rw [get_described hD (by simp)]; rfl
      have hg : ∀ k, k ∈ ["logicalType"] → Dict.get? (D ++ [("type", .str "array"), ("items", v')]) k = .none := by
        intro k hk
        simp at hk
        subst hk
        rw [get_described hD (by simp)]; rfl
      have none : ∀ y, ¬Datum [] .none v' y := by
        intro y hy
        have hpr : ∀ z, ¬Primitive s z := by
          intro z hz
          cases hz <;> exact absurd hs (by decide)
        rw [hbare] at hy
        rcases shorten_cases (docOf a ++ [("type", .str s)]) with h | ⟨z, h, h'⟩
        · rw [h] at hy
          have hk : ∀ k, k ≠ "doc" → Dict.get? (docOf a ++ [("type", .str s)]) k = Dict.get? [("type", .str s)] k := by
            intro k hk
            rcases docOf_cases a with hd | ⟨x, hd⟩ <;> rw [hd]
            · rfl
            · simp [Dict.get?, Ne.symm hk]
          have hty : Dict.get? (docOf a ++ [("type", .str s)]) "type" = some (.str s) := by rw [hk _ (by decide)]; rfl
          have bad : ∀ q : String, q ∈ ["fixed", "enum", "array", "map", "record"] →
              Dict.get? (docOf a ++ [("type", .str s)]) "type" ≠ some (.str q) := by
            intro q hq e
            rw [hty] at e
            cases e
            have : ∀ q ∈ ["fixed", "enum", "array", "map", "record"], q ∉ plainNames := by decide
            exact this _ hq hs
          cases hy with
          | primitive h1 _ h2 => unfold AvroData.Is at h1; rw [hty] at h1; cases h1; exact hpr _ h2
          | logical h1 => rw [hk _ (by decide)] at h1; simp [Dict.get?] at h1
          | fixed h1 | enum h1 | array h1 | map h1 | record h1 => exact bad _ (by decide) h1
        · rw [h'] at hy
          have hz : z = s := by
            rcases docOf_cases a with hd | ⟨x, hd⟩ <;> rw [hd] at h <;> simp at h
            exact h.symm
          subst hz
          cases hy with
          | primitiveName h => exact hpr _ h
          | reference _ h => cases h
      cases hx with
      | primitive h1 _ h3 =>
        unfold AvroData.Is at h1
        rw [ht] at h1
        injection h1 with h1
        injection h1 with h1
        subst h1
        have : ∀ {q z}, Primitive q z → q ≠ "array" := fun h => by cases h <;> decide
        exact absurd rfl (this h3)
      | logical h1 => rw [hg _ (by simp)] at h1; cases h1
      | fixed h1 | enum h1 | map h1 | record h1 => unfold AvroData.Is at h1; rw [ht] at h1; exact absurd h1 (by decide)
      | @array _ _ _ xs _ h1 h2 =>
        rw [hi] at h1
        cases h1
        cases xs with
        | nil => rfl
        | cons y ys => exact absurd (h2 y (by simp)) (none y)

/-! ### Cases that meet the hypotheses -/

/-- A structure with a reference to `int32`, as the field of a table has, and an optional list of `uuid`. -/
def ride : RType :=
  .struct [.proxy .none { alias := .str "int32", doc := .str "kilometres", extra := [("name", .str "distance")] },
    .union [.null {}, .list (.proxy .none { alias := .str "uuid" }) .none (.bool true) {}]
      { extra := [("name", .str "passengers"), ("default", .none)] }] { extra := [("name", .str "Ride")] }

/-- Its schema. -/
def rideSchema : Dict :=
  [("name", .str "Ride"), ("type", .str "record"), ("fields", .list [
    .dict [("doc", .str "kilometres"), ("name", .str "distance"), ("type", .str "int")],
    .dict [("name", .str "passengers"), ("default", .none), ("type", .list [.str "null",
      .dict [("type", .str "array"), ("items", .dict [("type", .str "string"), ("logicalType", .str "uuid")])]])]])]

theorem ride_schema : fromRecap newRegistry ride = .ok rideSchema := by decide +kernel

/-- The same without references. -/
def rideExpanded : RType :=
  .struct [.int (.int 32) (.bool true) { doc := .str "kilometres", extra := [("name", .str "distance")] },
    .union [.null {}, .list (.string (.int 36) (.bool false) { logical := .str "build.recap.UUID" }) .none (.bool true) {}]
      { extra := [("name", .str "passengers"), ("default", .none)] }] { extra := [("name", .str "Ride")] }

theorem ride_expanded : Expanded newRegistry ride rideExpanded := by
  refine .struct rfl fun i f g hf hg => ?_
  match i with
  | 0 =>
    simp at hf hg
    subst hf hg
    exact .reference (u := .int (.int 32) (.bool true) { extra := [("name", .str "distance")] })
      ⟨⟨_, _, rfl, by decide +kernel, rfl⟩, by decide, rfl, rfl⟩ rfl (.name rfl (by decide))
  | 1 =>
    simp at hf hg
    subst hf hg
    refine .union rfl fun i f g hf hg => ?_
    match i with
    | 0 => simp at hf hg; subst hf hg; exact .leaf rfl (by simp)
    | 1 =>
      simp at hf hg
      subst hf hg
      exact .list (.reference (u := .string (.int 36) (.bool false) { logical := .str "build.recap.UUID" })
        ⟨⟨_, _, rfl, by decide +kernel, rfl⟩, by decide, rfl, rfl⟩ rfl (.logical rfl))
    | i + 2 => simp at hf
  | i + 2 => simp at hf

theorem ride_as_schema : AsSchema rideExpanded := by
  refine .struct rfl (.inr (.inl ⟨"Ride", rfl, by decide⟩)) fun f hf => ?_
  simp only [List.mem_cons, List.not_mem_nil, or_false] at hf
  rcases hf with rfl | rfl
  · exact .plain (.signed rfl (by decide))
  · refine .union rfl fun t ht => ?_
    simp only [List.mem_cons, List.not_mem_nil, or_false] at ht
    rcases ht with rfl | rfl
    · exact .plain (.null rfl)
    · exact .list rfl (.annotated (.uuid rfl))

theorem ride_kept : Kept rideExpanded := by
  refine .struct fun f hf => ?_
  simp only [List.mem_cons, List.not_mem_nil, or_false] at hf
  rcases hf with rfl | rfl
  · exact .simple rfl (by simp) (.int rfl)
  · refine .union fun t ht => ?_
    simp only [List.mem_cons, List.not_mem_nil, or_false] at ht
    rcases ht with rfl | rfl
    · exact .null
    · exact .list (.uuid rfl (by decide))

/-- The data of the schema are the values of the type. -/
example (x : Val) : Datum [] .none (.dict rideSchema) x ↔ HoldsIn newRegistry ride x :=
  ⟨C137_references_only_partial ride_expanded ride_kept ride_schema,
    C129_references_partial ride_expanded ride_as_schema ride_schema⟩

/-- A ride without passengers. -/
example : Datum [] .none (.dict rideSchema) (.struct [.int 12, .list []]) := by
  refine C129_references_partial ride_expanded ride_as_schema ride_schema ((holds_expanded ride_expanded _).mpr ?_)
  refine .struct rfl fun i f x hf hx => ?_
  match i with
  | 0 => simp at hf hx; subst hf hx; exact .int rfl (by simp [IntValue])
  | 1 => simp at hf hx; subst hf hx; exact .union (List.mem_cons_of_mem _ (List.mem_cons_self ..)) (.list (by simp))
  | i + 2 => simp at hf

/-- A list of `int32` has values other than the empty list, and a schema. -/
example : ∃ d, fromRecap newRegistry (.list (.proxy .none { alias := .str "int32" }) .none (.bool true) {}) = .ok d ∧
    HoldsIn newRegistry (.list (.proxy .none { alias := .str "int32" }) .none (.bool true) {}) (.list [.int 7]) ∧
    ¬Datum [] .none (.dict d) (.list [.int 7]) := by
  refine ⟨[("type", .str "array"), ("items", .str "int32")], by decide +kernel, .list fun x hx => ?_, fun h => ?_⟩
  · simp at hx
    subst hx
    exact .reference (t := .int (.int 32) (.bool true) {}) rfl (.leaf rfl (.int rfl (by simp [IntValue])))
  · have := C129_bare_refuted (live := newRegistry) (r := .none) (a := { alias := .str "int32" }) (s := "int32")
      (l := .none) (w := .bool true) (b := {})
      ⟨⟨_, _, rfl, by decide +kernel, rfl⟩, by decide, rfl, rfl⟩ rfl (by decide) rfl (by decide +kernel) h
    simp at this

end Recap.AvroWrite
