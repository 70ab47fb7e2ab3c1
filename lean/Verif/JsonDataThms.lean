import Verif.JsonDataOnly

/-!
# JSON values of JSON Schemas and of types (C130, C131, C132)
-/

set_option autoImplicit false

namespace Recap.JsonData

open Json
open Avro.Spec (IntValue)
open Values (Fits)
open Json.Spec (nameOf OptionalField defsOf Inside Spans IsReference Builtin BuiltinOnly Without)

/-! ## C130 -/

/-- C130.  Every value that is valid against an accepted schema is one of the type that is read, if there are no
references in the schema, all whole numbers in the value have at most 32 bits, and all other numbers at most 53
binary digits. -/
theorem C130_instances_partial {env : Url.Env} {refs : String → PyVal → Prop} {v : PyVal} {ids ids' : Ids} {t : RType}
    {j : PyVal} (h : toRecap env v ids = .ok (t, ids')) (hw : Without ["$ref", "$dynamicRef"] v)
    (hj : Valid refs v j) (hm : Moderate j) (live : Registry) : Carries live true t j := by
  unfold toRecap at h
  obtain ⟨⟨t', i⟩, hp, h⟩ := ok_bind h
  have : t' = t := by
    simp only at h
    split at h
    · cases h; rfl
    · cases h
  subst this
  refine (instance_read (refs := refs) hp hw ?_ hm).1
  cases v with
  | str s => exact hj.elim
  | _ => exact hj

/-- A schema with a list and an optional property of one of two types. -/
def orderSchema : PyVal :=
  .dict [("type", .str "object"), ("properties", .dict [
      ("ids", .dict [("type", .str "array"), ("items", .dict [("type", .str "integer")])]),
      ("note", .dict [("type", .list [.str "string", .str "number"])])]),
    ("required", .list [.str "ids"])]

/-- A value of it; 7.5 is 15 / 2. -/
def order : PyVal := .dict [("ids", .list [.int 1, .int 2]), ("note", .float 15 1)]

theorem order_valid (refs : String → PyVal → Prop) : Valid refs orderSchema order := by
  rw [orderSchema, valid_iff]
  intro kv hm
  simp only [List.mem_cons, List.not_mem_nil, or_false] at hm
  rcases hm with rfl | rfl | rfl
  · exact ⟨fun _ => .object, by simp, by simp, by simp, by simp, by simp, by simp, by simp⟩
  · refine ⟨by simp, by simp, by simp, by simp, by simp, by simp, fun _ => ?_, by simp⟩
    rw [Properties, propertiesAll_iff]
    intro p hp o w e hw
    cases e
    simp only [List.mem_cons, List.not_mem_nil, or_false] at hp
    rcases hp with rfl | rfl
    · simp only [Dict.get?_cons, if_true, Option.some.injEq] at hw
      subst hw
      refine valid_type .array fun kv hm => ?_
      cases List.mem_singleton.mp hm
      refine ⟨by simp, by simp, by simp, by simp, fun _ xs e x hx => ?_, by simp, by simp, by simp⟩
      cases e
      simp only [List.mem_cons, List.not_mem_nil, or_false] at hx
      rcases hx with rfl | rfl <;> exact valid_type .integer (by simp)
    · simp [Dict.get?_cons] at hw
      subst hw
      rw [valid_iff]
      intro kv hm
      cases List.mem_singleton.mp hm
      exact ⟨fun _ => ⟨"number", by simp, .number⟩, by simp, by simp, by simp, by simp, by simp, by simp, by simp⟩
  · refine ⟨by simp, by simp, fun _ o e x hx => ?_, by simp, by simp, by simp, by simp, by simp⟩
    cases e
    exact ⟨"ids", List.mem_singleton.mp hx, by simp [Dict.keys]⟩

-- the order is one of the struct that is read
example (env : Url.Env) : ∃ t ids', toRecap env orderSchema [] = .ok (t, ids') ∧ Carries [] true t order := by
  refine ⟨_, _, rfl, C130_instances_partial (env := env) (ids := []) rfl ?_ (order_valid fun _ _ => False) ?_ []⟩
  · simp [orderSchema, Without, Json.Spec.WithoutPairs, Json.Spec.WithoutAll]
  · simp [order, Moderate, ModeratePairs, ModerateAll, IntValue]
    exact ⟨⟨15, 0, by decide, by simp⟩, fun q hq => by omega⟩

/-- A schema with one required property, an integer. -/
def countSchema : PyVal :=
  .dict [("type", .str "object"), ("properties", .dict [("n", .dict [("type", .str "integer")])]),
    ("required", .list [.str "n"])]

theorem count_read (env : Url.Env) (ids : Ids) :
    toRecap env countSchema ids = .ok (.struct [.int (.int 32) (.bool true) { extra := [("name", .str "n")] }] {}, ids) := by
  rfl

theorem count_valid (refs : String → PyVal → Prop) (i : Int) : Valid refs countSchema (.dict [("n", .int i)]) := by
  rw [countSchema, valid_iff]
  intro kv hm
  simp only [List.mem_cons, List.not_mem_nil, or_false] at hm
  rcases hm with rfl | rfl | rfl
  · exact ⟨fun _ => .object, by simp, by simp, by simp, by simp, by simp, by simp, by simp⟩
  · refine ⟨by simp, by simp, by simp, by simp, by simp, by simp, fun _ => ?_, by simp⟩
    rw [Properties, propertiesAll_iff]
    intro p hp o w e hw
    cases List.mem_singleton.mp hp
    cases e
    simp only [Dict.get?_cons, if_true, Option.some.injEq] at hw
    subst hw
    exact valid_type .integer (by simp)
  · refine ⟨by simp, by simp, fun _ o e x hx => ?_, by simp, by simp, by simp, by simp, by simp⟩
    cases e
    exact ⟨"n", List.mem_singleton.mp hx, by simp [Dict.keys]⟩

/-- C130 does not hold of all values: integers in JSON Schema have no bound, those of the type that is read have
32 bits. -/
theorem C130_integers_refuted (env : Url.Env) (ids : Ids) (refs : String → PyVal → Prop) (live : Registry) (i : Int)
    (hi : i < -2 ^ 31 ∨ 2 ^ 31 ≤ i) :
    ∃ t, toRecap env countSchema ids = .ok (t, ids) ∧ Valid refs countSchema (.dict [("n", .int i)]) ∧
      ¬Carries live true t (.dict [("n", .int i)]) := by
  refine ⟨_, count_read env ids, count_valid refs i, fun h => ?_⟩
  cases h with
  | struct _ h _ =>
    have := h _ (List.mem_singleton.mpr rfl) "n" (.int i) rfl (by simp)
    cases this with
    | int h => simp [IntValue] at h; omega

/-- C130 does not hold of all schemas and values. -/
theorem C130_instances_refuted (env : Url.Env) : ¬InstancesHeld env := by
  intro h
  obtain ⟨t, h1, h2, h3⟩ := C130_integers_refuted env [] (fun _ _ => False) [] (2 ^ 31) (.inr (by decide))
  exact h3 (h _ _ _ _ _ _ h1 h2 [])

/-! ## C131 -/

/-- C131.  Every value of a type is valid against the schema that is written: if optional fields are left out rather
than null, and other fields are there; if in unions that are not optional, each member is of another kind; and if it is
definite what the references are to. -/
theorem C131_values_partial {refs : String → PyVal → Prop} {live : Registry} {t : RType} {d : Dict} {j : PyVal}
    (h : fromRecap live t = .ok d) (hd : Definite live t)
    (hr : Interprets refs d) (ht : ∀ u, Spans live t u → Distinct u) (hj : Carries live false t j) : Valid refs (.dict d) j := by
  obtain ⟨n, s, defs, hs, ha, rfl⟩ := fromRecap_ok h
  rw [Interprets, defsOf_written (convertF_no_defs hs)] at hr
  have hdef : Defined refs live t := definite_defined hd ha hr
  have hv := convert_valid ht hdef hs (carries_shaped hj)
  split
  · exact hv
  · exact (valid_defs (convertF_no_defs hs)).mpr hv

/-- There is always a meaning of the references in such a schema. -/
theorem C131_interpretation {live : Registry} {t : RType} {d : Dict}
    (h : fromRecap live t = .ok d) (hd : Definite live t) : ∃ refs, Interprets refs d := by
  have hb : Inlined live t := ⟨hd.inlined, hd.clean⟩
  obtain ⟨n, s, defs, hs, ha, rfl⟩ := fromRecap_ok h
  obtain ⟨g1, g2⟩ := defs_of hd ha
  refine ⟨level defs (sizeOf t), ?_⟩
  rw [Interprets, defsOf_written (convertF_no_defs hs)]
  intro alias e he j
  obtain ⟨u, d', hi, hs', rfl, hf⟩ := g2 alias e he
  by_cases hnr : IsReference u
  · obtain ⟨r, a, rfl⟩ := hnr
    have hz : 0 < sizeOf t := by have := inside_size hi; simp at this; omega
    obtain ⟨k, hk⟩ : ∃ k, sizeOf t = k + 1 := ⟨sizeOf t - 1, by omega⟩
    rw [hk, level_succ he]
    refine convert_congr (hb.mono hi) hf (fun x s' hx hxr _ _ => ?_) j
    cases hx
    exact absurd ⟨r, a, rfl⟩ hxr
  · rw [level_stable hb g1 (sizeOf t) u alias hi hnr hs' (inside_size hi), level_succ he]

/-- A struct with an aliased field, a reference to a built-in alias, a map of unions and an optional field. -/
def parcel : RType :=
  .struct [
    .struct [.string (.int 10) (.bool true) { extra := [("name", .str "zip")] }]
      { alias := .str "x.Address", extra := [("name", .str "to")] },
    .proxy .none { alias := .str "int32", extra := [("name", .str "grams")] },
    .map (.string .none (.bool true) {}) (.union [.bool {}, .string .none (.bool true) {}] {})
      { extra := [("name", .str "tags")] },
    .union [.null {}, .bool {}] { extra := [("name", .str "fragile"), ("default", .none)] }] {}

/-- What is written for it. -/
def parcelSchema : Dict := [("type", .str "object"), ("properties", .dict [
    ("to", .dict [("$ref", .str "#/$defs/x.Address")]),
    ("grams", .dict [("type", .str "integer")]),
    ("tags", .dict [("type", .str "object"), ("additionalProperties", .dict [("oneOf", .list [
      .dict [("type", .str "boolean")], .dict [("type", .str "string")]])])]),
    ("fragile", .dict [("default", .none), ("type", .str "boolean")])]),
  ("required", .list [.str "to", .str "grams", .str "tags"]),
  ("$defs", .dict [("x.Address", .dict [("type", .str "object"), ("properties", .dict [
    ("zip", .dict [("type", .str "string")])]), ("required", .list [.str "zip"])])])]

/-- A value of it. -/
def parcelValue : PyVal :=
  .dict [("to", .dict [("zip", .str "12345")]), ("grams", .int 250), ("tags", .dict [("a", .bool true), ("b", .str "x")])]

theorem parcel_written : fromRecap newRegistry parcel = .ok parcelSchema := by decide +kernel

theorem parcel_distinct : Distinct parcel := by
  refine .struct fun f hf => ?_
  simp only [List.mem_cons, List.not_mem_nil, or_false] at hf
  rcases hf with rfl | rfl | rfl | rfl
  · refine .struct fun f hf => ?_
    cases List.mem_singleton.mp hf
    exact .string
  · exact .reference
  · refine .map (.union (fun t ht => ?_) (fun t ht => ?_) (by decide))
    · simp only [List.mem_cons, List.not_mem_nil, or_false] at ht
      rcases ht with rfl | rfl
      · exact .bool
      · exact .string
    · simp only [List.mem_cons, List.not_mem_nil, or_false] at ht
      rcases ht with rfl | rfl <;> rfl
  · refine .optional ⟨_, _, rfl, by decide +kernel⟩ fun t ht => ?_
    simp only [List.mem_cons, List.not_mem_nil, or_false] at ht
    rcases ht with rfl | rfl
    · exact .null
    · exact .bool

theorem parcel_inside {u : RType} (h : Inside u parcel) :
    (∃ r a, u = .proxy r a ∧ r = .none ∧ a = { alias := .str "int32", extra := [("name", .str "grams")] }) ∨
      ¬IsReference u ∧ (u.attrs.alias = .none ∨ u.attrs.alias = .str "x.Address") := by
  have leaf : ∀ {v : RType}, isLeaf v = true → Inside u v → u = v := by
    intro v hv hi
    cases hi <;> first | rfl | simp [isLeaf] at hv
  have free : ∀ {v : RType}, v.isProxy = false → ¬IsReference v := by
    rintro v hv ⟨r, a, rfl⟩
    cases hv
  cases h with
  | refl => exact .inr ⟨free rfl, .inl rfl⟩
  | field hm h =>
    simp only [List.mem_cons, List.not_mem_nil, or_false] at hm
    rcases hm with rfl | rfl | rfl | rfl
    · cases h with
      | refl => exact .inr ⟨free rfl, .inr rfl⟩
      | field hm h =>
        cases List.mem_singleton.mp hm
        cases leaf rfl h
        exact .inr ⟨free rfl, .inl rfl⟩
    · cases h
      exact .inl ⟨_, _, rfl, rfl, rfl⟩
    · cases h with
      | refl => exact .inr ⟨free rfl, .inl rfl⟩
      | value h =>
        cases h with
        | refl => exact .inr ⟨free rfl, .inl rfl⟩
        | member hm h =>
          simp only [List.mem_cons, List.not_mem_nil, or_false] at hm
          rcases hm with rfl | rfl <;> cases leaf rfl h <;> exact .inr ⟨free rfl, .inl rfl⟩
    · cases h with
      | refl => exact .inr ⟨free rfl, .inl rfl⟩
      | member hm h =>
        simp only [List.mem_cons, List.not_mem_nil, or_false] at hm
        rcases hm with rfl | rfl <;> cases leaf rfl h <;> exact .inr ⟨free rfl, .inl rfl⟩

theorem parcel_builtin : BuiltinOnly newRegistry parcel := by
  intro r a h
  rcases parcel_inside h with ⟨r', a', e, rfl, rfl⟩ | ⟨h, _⟩
  · cases e
    refine ⟨⟨"int32", _, rfl, by simp [builtinAliases]; rfl⟩, by decide, ?_⟩
    intro s u hm
    have : ∀ kt ∈ builtinAliases, Registry.find? newRegistry kt.1 = some kt.2 := by decide +kernel
    exact this (s, u) hm
  · exact absurd ⟨r, a, rfl⟩ h

theorem parcel_aliases : ∀ u s, Inside u parcel → ¬ IsReference u → u.attrs.alias = .str s → s ≠ "" ∧ ¬ Builtin (.str s) := by
  intro u s h hr hs
  rcases parcel_inside h with ⟨r, a, e, _⟩ | ⟨_, h | h⟩
  · exact absurd ⟨r, a, e⟩ hr
  · rw [h] at hs; cases hs
  · rw [h] at hs
    cases hs
    refine ⟨by decide, ?_⟩
    rintro ⟨s, t, e, hm⟩
    cases e
    have : ∀ kt ∈ builtinAliases, kt.1 ≠ "x.Address" := by decide +kernel
    exact this _ hm rfl

theorem parcel_definite : Definite newRegistry parcel :=
  builtin_definite parcel_builtin (by decide +kernel) parcel_aliases

theorem parcel_carries : Carries newRegistry false parcel parcelValue := by
  refine .struct (fun f hf => ?_) (fun f hf n v hn hv => ?_) (fun f hf n hn hv => ?_)
  all_goals
    simp only [List.mem_cons, List.not_mem_nil, or_false] at hf
    rcases hf with rfl | rfl | rfl | rfl
  · exact ⟨_, rfl⟩
  · exact ⟨_, rfl⟩
  · exact ⟨_, rfl⟩
  · exact ⟨_, rfl⟩
  all_goals cases hn
  · simp only [Dict.get?_cons, if_true, Option.some.injEq] at hv
    subst hv
    refine .struct (fun f hf => ?_) (fun f hf n v hn hv => ?_) (fun f hf n hn hv => ?_)
    all_goals cases List.mem_singleton.mp hf
    · exact ⟨_, rfl⟩
    all_goals cases hn
    · simp only [Dict.get?_cons, if_true, Option.some.injEq] at hv
      subst hv
      exact .string (.inr ⟨10, rfl, by decide⟩)
    · simp at hv
  · simp [Dict.get?_cons] at hv
    subst hv
    exact .reference (t := .int (.int 32) (.bool true) { extra := [("name", .str "grams")] }) rfl
      (.int (by simp [IntValue]))
  · simp [Dict.get?_cons] at hv
    subst hv
    refine .map (fun kv _ => .string (.inl rfl)) fun kv hm => ?_
    simp only [List.mem_cons, List.not_mem_nil, or_false] at hm
    rcases hm with rfl | rfl
    · exact .union (List.mem_cons_self ..) (.inr fun _ => rfl) .bool
    · exact .union (List.mem_cons_of_mem _ (List.mem_singleton.mpr rfl)) (.inr fun _ => rfl) (.string (.inl rfl))
  · simp [Dict.get?_cons] at hv
  · simp [Dict.get?_cons] at hv
  · simp [Dict.get?_cons] at hv
  · simp [Dict.get?_cons] at hv
  · exact ⟨_, _, rfl, by decide +kernel⟩

-- the parcel is valid, whatever meets the definitions; and something does
example : ∃ refs, Interprets refs parcelSchema ∧ Valid refs (.dict parcelSchema) parcelValue := by
  obtain ⟨refs, hr⟩ := C131_interpretation parcel_written parcel_definite
  exact ⟨refs, hr, C131_values_partial parcel_written parcel_definite hr
    (distinct_spans parcel_builtin parcel_distinct) parcel_carries⟩

/-- A registry with an alias of the user. -/
def addresses : Registry :=
  newRegistry ++ [("x.Address", .struct [.string (.int 10) (.bool true) { extra := [("name", .str "zip")] }] {})]

/-- A struct with two fields that refer to it. -/
def trip : RType :=
  .struct [.proxy .none { alias := .str "x.Address", extra := [("name", .str "from")] },
    .proxy .none { alias := .str "x.Address", extra := [("name", .str "to")] }] {}

/-- What is written for it. -/
def tripSchema : Dict :=
  let address : PyVal := .dict [("type", .str "object"), ("properties", .dict [("zip", .dict [("type", .str "string")])]),
    ("required", .list [.str "zip"])]
  [("type", .str "object"), ("properties", .dict [("from", address), ("to", address)]),
    ("required", .list [.str "from", .str "to"]), ("$defs", .dict [("x.Address", address)])]

theorem trip_written : fromRecap addresses trip = .ok tripSchema := by decide +kernel

/-- What a field refers to. -/
def addressNamed (n : String) : RType :=
  .struct [.string (.int 10) (.bool true) { extra := [("name", .str "zip")] }] { extra := [("name", .str n)] }

theorem trip_resolve : resolve addresses .none { alias := .str "x.Address", extra := [("name", .str "from")] } =
      .ok (addressNamed "from") ∧
    resolve addresses .none { alias := .str "x.Address", extra := [("name", .str "to")] } = .ok (addressNamed "to") := by
  decide +kernel

theorem address_spans {n : String} {u : RType} (h : Spans addresses (addressNamed n) u) :
    u = addressNamed n ∨ u = .string (.int 10) (.bool true) { extra := [("name", .str "zip")] } := by
  cases h with
  | refl => exact .inl rfl
  | field hm h =>
    cases List.mem_singleton.mp hm
    cases h
    exact .inr rfl

theorem trip_inside {u : RType} (h : Inside u trip) :
    u = trip ∨ ∃ n, (n = "from" ∨ n = "to") ∧ u = .proxy .none { alias := .str "x.Address", extra := [("name", .str n)] } := by
  cases h with
  | refl => exact .inl rfl
  | field hm h =>
    simp only [List.mem_cons, List.not_mem_nil, or_false] at hm
    rcases hm with rfl | rfl <;> cases h
    · exact .inr ⟨_, .inl rfl, rfl⟩
    · exact .inr ⟨_, .inr rfl, rfl⟩

theorem trip_definite : Definite addresses trip := by
  refine ⟨fun r a h => ?_, fun r a u h hr => ?_, by decide +kernel, fun u s h hn hs => ?_, fun r a u s _ h hn hs => ?_⟩
  · rcases trip_inside h with e | ⟨n, -, e⟩ <;> cases e
    exact .inr (by simp)
  · have : ∃ n, u = addressNamed n := by
      rcases trip_inside h with e | ⟨n, rfl | rfl, e⟩ <;> cases e
      · rw [trip_resolve.1] at hr; cases hr; exact ⟨_, rfl⟩
      · rw [trip_resolve.2] at hr; cases hr; exact ⟨_, rfl⟩
    obtain ⟨n, rfl⟩ := this
    refine ⟨fun r a h => ?_, fun u h _ => ?_⟩
    · rcases address_spans h with e | e <;> cases e
    · rcases address_spans h with rfl | rfl <;> rfl
  · rcases trip_inside h with rfl | ⟨n, -, rfl⟩
    · cases hs
    · exact absurd ⟨_, _, rfl⟩ hn
  · rcases trip_inside h with rfl | ⟨n, -, rfl⟩
    · cases hs
    · exact absurd ⟨_, _, rfl⟩ hn

theorem trip_spans {u : RType} (h : Spans addresses trip u) : Inside u trip ∨ ∃ n, Spans addresses (addressNamed n) u := by
  cases h with
  | refl => exact .inl .refl
  | field hm h =>
    have hm' := hm
    simp only [List.mem_cons, List.not_mem_nil, or_false] at hm
    rcases hm with rfl | rfl
    · cases h with
      | refl => exact .inl (.field hm' .refl)
      | target hr h => rw [trip_resolve.1] at hr; cases hr; exact .inr ⟨_, h⟩
    · cases h with
      | refl => exact .inl (.field hm' .refl)
      | target hr h => rw [trip_resolve.2] at hr; cases hr; exact .inr ⟨_, h⟩

theorem trip_distinct (u : RType) (h : Spans addresses trip u) : Distinct u := by
  rcases trip_spans h with h | ⟨n, h⟩
  · rcases trip_inside h with rfl | ⟨n, -, rfl⟩
    · refine .struct fun f hf => ?_
      simp only [List.mem_cons, List.not_mem_nil, or_false] at hf
      rcases hf with rfl | rfl <;> exact .reference
    · exact .reference
  · rcases address_spans h with rfl | rfl
    · refine .struct fun f hf => ?_
      cases List.mem_singleton.mp hf
      exact .string
    · exact .string

/-- An address with a code of at most 10 bytes. -/
theorem address_carries {n : String} {z : String} (hz : z.utf8ByteSize ≤ 10) :
    Carries addresses false (addressNamed n) (.dict [("zip", .str z)]) := by
  refine .struct (fun f hf => ?_) (fun f hf m v hn hv => ?_) (fun f hf m hn hv => ?_) <;> cases List.mem_singleton.mp hf
  · exact ⟨"zip", rfl⟩
  · cases hn
    simp only [Dict.get?_cons, if_true, Option.some.injEq] at hv
    subst hv
    exact .string (.inr ⟨10, rfl, by omega⟩)
  · cases hn
    simp [Dict.get?_cons] at hv

-- trips between any two addresses are valid, whatever meets the definitions; and something does
example (x y : String) (hx : x.utf8ByteSize ≤ 10) (hy : y.utf8ByteSize ≤ 10) : ∃ refs, Interprets refs tripSchema ∧
    Valid refs (.dict tripSchema) (.dict [("from", .dict [("zip", .str x)]), ("to", .dict [("zip", .str y)])]) := by
  obtain ⟨refs, hr⟩ := C131_interpretation trip_written trip_definite
  refine ⟨refs, hr, C131_values_partial trip_written trip_definite hr trip_distinct ?_⟩
  refine .struct (fun f hf => ?_) (fun f hf m v hn hv => ?_) (fun f hf m hn hv => ?_) <;>
    simp only [List.mem_cons, List.not_mem_nil, or_false] at hf <;> rcases hf with rfl | rfl
  · exact ⟨"from", rfl⟩
  · exact ⟨"to", rfl⟩
  · cases hn
    simp only [Dict.get?_cons, if_true, Option.some.injEq] at hv
    subst hv
    exact .reference trip_resolve.1 (address_carries hx)
  · cases hn
    simp [Dict.get?_cons] at hv
    subst hv
    exact .reference trip_resolve.2 (address_carries hy)
  · cases hn; simp [Dict.get?_cons] at hv
  · cases hn; simp [Dict.get?_cons] at hv

/-- C131, C132 do not hold of references without attributes of their own to an alias that is not built in, whatever they
refer to: the definition of the alias is a reference to itself, so that the definitions allow every list of one element,
and as well none. -/
theorem C131_reference_refuted (live : Registry) (r : Option (List (String × RType))) (s : String) (v : PyVal) (hs : s ≠ "")
    (hb : ¬Builtin (.str s)) : ∃ d, fromRecap live (.list (.proxy r { alias := .str s }) .none v {}) = .ok d ∧
      (∃ refs, Interprets refs d ∧ ∀ j, ¬Valid refs (.dict d) (.list [j])) ∧
      ∃ refs, Interprets refs d ∧ ∀ j, Valid refs (.dict d) (.list [j]) := by
  refine ⟨[("type", .str "array"), ("items", .dict (defsRef s)), ("$defs", .dict [(s, .dict (defsRef s))])], ?_, ?_, ?_⟩
  · have hi : isBuiltin (.str s) = .ok false := by
      cases hx : isBuiltin (.str s) with
      | error e => simp [isBuiltin] at hx
      | ok b =>
        cases b with
        | false => rfl
        | true => exact absurd ((isBuiltin_ok hx).mp rfl) hb
    have hc : ∀ n b, convertF live (n + 1) b (.proxy r { alias := .str s }) = .ok (defsRef s) := by
      intro n b
      cases b <;> simp [convertF, ownAlias, hi, describe, Dict.update, defsRef, bind, Except.bind, pure, Except.pure] <;>
        simp [RType.attrs, PyVal.truthy, Dict.set]
    obtain ⟨n, hn⟩ : ∃ n, weight (weightReg 0 live) (.list (.proxy r { alias := .str s }) .none v {}) = n + 2 := by
      cases r with
      | none => exact ⟨weightReg 0 live, by simp only [weight]; omega⟩
      | some reg => exact ⟨weightReg (weightReg 0 live) reg, by simp only [weight]; omega⟩
    unfold fromRecap
    rw [hn]
    have h1 : convertF live (n + 2) true (.list (.proxy r { alias := .str s }) .none v {}) =
        .ok [("type", .str "array"), ("items", .dict (defsRef s))] := by
      rw [convertF]
      simp only [ownAlias, RType.attrs, if_true, hc, bind, Except.bind, pure, Except.pure]
      simp [describe, Dict.get?, PyVal.truthy, Dict.update, Dict.set]
    have h2 : aliasDefs (convertF live (n + 2)) (.list (.proxy r { alias := .str s }) .none v {}) =
        .ok [(s, .dict (defsRef s))] := by
      have h0 : isBuiltin .none = .ok false := rfl
      simp [aliasDefs, ownDefs, RType.attrs, h0, hs, hi, hc, bind, Except.bind, pure, Except.pure, PyVal.truthy, Dict.update]
      simp [Dict.set]
    simp only [h1, h2, bind, Except.bind, pure, Except.pure]
    rfl
  · refine ⟨fun _ _ => False, fun alias e he j => ?_, fun j h => ?_⟩
    · have he : Dict.get? [(s, PyVal.dict (defsRef s))] alias = some e := he
      simp only [Dict.get?_cons] at he
      split at he
      · cases he
        rw [valid_ref]
      · cases he
    · have := (valid_get h (k := "items") rfl).items rfl [j] rfl j (by simp)
      exact valid_ref.mp this
  · refine ⟨fun _ _ => True, fun alias e he j => ?_, fun j => ?_⟩
    · have he : Dict.get? [(s, PyVal.dict (defsRef s))] alias = some e := he
      simp only [Dict.get?_cons] at he
      split at he
      · cases he
        rw [valid_ref]
      · cases he
    · refine valid_type .array fun kv hm => ?_
      simp only [List.mem_cons, List.not_mem_nil, or_false] at hm
      rcases hm with rfl | rfl
      · exact ⟨by simp, by simp, by simp, by simp, fun _ xs e x hm => valid_ref.mpr trivial, by simp, by simp, by simp⟩
      · exact ⟨by simp, by simp, by simp, by simp, by simp, by simp, by simp, by simp⟩

-- so it is with a list of addresses, which has values
example : ∃ d, fromRecap addresses (.list (.proxy .none { alias := .str "x.Address" }) .none (.bool true) {}) = .ok d ∧
    Carries addresses true (.list (.proxy .none { alias := .str "x.Address" }) .none (.bool true) {})
      (.list [.dict [("zip", .str "12345")]]) ∧
    ∃ refs, Interprets refs d ∧ ¬Valid refs (.dict d) (.list [.dict [("zip", .str "12345")]]) := by
  have hb : ¬Builtin (.str "x.Address") := by
    rintro ⟨s, t, e, hm⟩
    cases e
    have : ∀ kt ∈ builtinAliases, kt.1 ≠ "x.Address" := by decide +kernel
    exact this _ hm rfl
  obtain ⟨d, h1, ⟨refs, h2, h3⟩, -⟩ := C131_reference_refuted addresses .none "x.Address" (.bool true) (by decide) hb
  refine ⟨d, h1, .list fun x hx => ?_, refs, h2, h3 _⟩
  cases List.mem_singleton.mp hx
  refine .reference (t := .struct [.string (.int 10) (.bool true) { extra := [("name", .str "zip")] }] {})
    (by decide +kernel) ?_
  refine .struct (fun f hf => ?_) (fun f hf m v hn hv => ?_) (fun f hf m hn hv => ?_) <;> cases List.mem_singleton.mp hf
  · exact ⟨"zip", rfl⟩
  · cases hn
    simp only [Dict.get?_cons, if_true, Option.some.injEq] at hv
    subst hv
    exact .string (.inr ⟨10, rfl, by decide +kernel⟩)
  · cases hn
    simp [Dict.get?_cons] at hv

/-- C131 does not hold of all types: of a union of an integer and a float, no whole number is valid. -/
theorem C131_oneOf_refuted (refs : String → PyVal → Prop) (live : Registry) (b s b' : PyVal) (i : Int) :
    ∃ d, fromRecap live (.union [.int b s {}, .float b' {}] {}) = .ok d ∧ ¬Valid refs (.dict d) (.int i) := by
  refine ⟨[("oneOf", .list [.dict [("type", .str "integer")], .dict [("type", .str "number")]])], rfl, fun h => ?_⟩
  have := (valid_iff.mp h _ (List.mem_singleton.mpr rfl)).oneOf rfl
  simp only [OneOf, ExactlyOne, NoneOf] at this
  rcases this with ⟨_, h, _⟩ | ⟨h, _⟩
  · exact h (valid_type .whole (by simp))
  · exact h (valid_type .integer (by simp))

/-- C131 does not hold of all values: null is not valid for an optional field. -/
theorem C131_null_refuted (refs : String → PyVal → Prop) (live : Registry) :
    ∃ t d, t = .struct [.union [.null {}, .bool {}] { extra := [("name", .str "f"), ("default", .none)] }] {} ∧
      fromRecap live t = .ok d ∧ Carries live true t (.dict [("f", .none)]) ∧ ¬Valid refs (.dict d) (.dict [("f", .none)]) := by
  refine ⟨_, [("type", .str "object"), ("properties", .dict [("f", .dict [("default", .none), ("type", .str "boolean")])])],
    rfl, rfl, ?_, fun h => ?_⟩
  · refine .struct (fun f hf => ?_) (fun f hf n v hn hv => ?_) (fun f hf n hn hv => ?_)
    · cases List.mem_singleton.mp hf
      exact ⟨"f", rfl⟩
    · cases List.mem_singleton.mp hf
      cases hn
      simp only [Dict.get?_cons, if_true, Option.some.injEq] at hv
      subst hv
      exact .union (List.mem_cons_self ..) (.inl rfl) .null
    · cases List.mem_singleton.mp hf
      cases hn
      simp at hv
  · have := (valid_get h (k := "properties") rfl).properties rfl
    rw [Properties, propertiesAll_iff] at this
    have := this _ (List.mem_singleton.mpr rfl) _ .none rfl (by simp [Dict.get?_cons])
    have := (valid_get this (k := "type") rfl).type rfl
    simp only [TypeOk] at this
    generalize hs : "boolean" = s at this
    cases this
    simp at hs

/-- C131 does not hold of all values: a field that has a default but is not optional cannot be left out. -/
theorem C131_default_refuted (refs : String → PyVal → Prop) (live : Registry) (b : Bool) :
    ∃ t d, t = .struct [.bool { extra := [("name", .str "f"), ("default", .bool b)] }] {} ∧
      fromRecap live t = .ok d ∧ Carries live true t (.dict []) ∧ ¬Valid refs (.dict d) (.dict []) := by
  refine ⟨_, [("type", .str "object"), ("properties", .dict [("f", .dict [("default", .bool b), ("type", .str "boolean")])]),
    ("required", .list [.str "f"])], rfl, rfl, ?_, fun h => ?_⟩
  · refine .struct (fun f hf => ?_) (fun f hf n v hn hv => ?_) (fun f hf n hn hv => ?_)
    · cases List.mem_singleton.mp hf
      exact ⟨"f", rfl⟩
    · cases hv
    · cases List.mem_singleton.mp hf
      simp [Omissible, RType.attrs, Dict.keys]
  · have := (valid_get h (k := "required") rfl).required rfl
    obtain ⟨n, _, hn⟩ := this [] rfl _ (List.mem_singleton.mpr rfl)
    simp [Dict.keys] at hn

/-- C131 does not hold of all types and values. -/
theorem C131_values_refuted : ¬ValuesAccepted := by
  intro h
  obtain ⟨t, d, _, h1, h2, h3⟩ := C131_null_refuted (fun _ _ => False) []
  rename_i ht
  subst ht
  cases h1
  refine h3 (h _ _ _ _ _ rfl ?_ h2)
  intro alias s he
  cases he

/-! ## C132 -/

/-- C132.  Only values of a type are valid against the schema that is written, apart from the range of numbers, the
length of strings and lists and the keys of maps: if the fields of each structure have different names, and it is
definite what the references are to. -/
theorem C132_only_partial {refs : String → PyVal → Prop} {live : Registry} {t : RType} {d : Dict} {j : PyVal}
    (h : fromRecap live t = .ok d) (hd : Definite live t)
    (hr : Interprets refs d) (ht : ∀ u, Spans live t u → NamesDiffer u) (hj : Valid refs (.dict d) j) : Shaped live t j := by
  obtain ⟨n, s, defs, hs, ha, rfl⟩ := fromRecap_ok h
  rw [Interprets, defsOf_written (convertF_no_defs hs)] at hr
  have hdef : Defined refs live t := definite_defined hd ha hr
  refine convert_shaped (sizeOf t) (Nat.le_refl _) ht hdef hs ?_
  split at hj
  · exact hj
  · exact (valid_defs (convertF_no_defs hs)).mp hj

/-- C131, C132.  If also the members of unions that are not optional are of different kinds, the values that are valid
against the schema are exactly those. -/
theorem C132_exactly_partial {refs : String → PyVal → Prop} {live : Registry} {t : RType} {d : Dict} {j : PyVal}
    (h : fromRecap live t = .ok d) (hd : Definite live t)
    (hr : Interprets refs d) (ht : ∀ u, Spans live t u → NamesDiffer u) (hk : ∀ u, Spans live t u → Distinct u) : Valid refs (.dict d) j ↔ Shaped live t j := by
  refine ⟨C132_only_partial h hd hr ht, fun hj => ?_⟩
  obtain ⟨n, s, defs, hs, ha, rfl⟩ := fromRecap_ok h
  rw [Interprets, defsOf_written (convertF_no_defs hs)] at hr
  have hdef : Defined refs live t := definite_defined hd ha hr
  have hv := convert_valid hk hdef hs hj
  split
  · exact hv
  · exact (valid_defs (convertF_no_defs hs)).mpr hv

theorem parcel_names : NamesDiffer parcel := by
  intro fs a h
  cases h with
  | refl => decide +kernel
  | field hm h =>
    simp only [List.mem_cons, List.not_mem_nil, or_false] at hm
    rcases hm with rfl | rfl | rfl | rfl
    · cases h with
      | refl => decide +kernel
      | field hm h =>
        cases List.mem_singleton.mp hm
        cases h
    · cases h
    · cases h with
      | value h =>
        cases h with
        | member hm h =>
          simp only [List.mem_cons, List.not_mem_nil, or_false] at hm
          rcases hm with rfl | rfl <;> cases h
    · cases h with
      | member hm h =>
        simp only [List.mem_cons, List.not_mem_nil, or_false] at hm
        rcases hm with rfl | rfl <;> cases h

-- a parcel without an address is not valid, whatever meets the definitions
example {refs : String → PyVal → Prop} (hr : Interprets refs parcelSchema) :
    ¬Valid refs (.dict parcelSchema) (.dict [("grams", .int 250), ("tags", .dict [])]) := by
  intro h
  have := C132_only_partial parcel_written parcel_definite hr
    (names_spans parcel_builtin parcel_names) h
  cases this with
  | struct _ _ h =>
    obtain ⟨_, _, e, _⟩ := h _ (List.mem_cons_self ..) "to" rfl (by simp [Dict.get?_cons])
    cases e

/-- C132 does not hold of all types: integers outside the range of the type are valid. -/
theorem C132_range_refuted (refs : String → PyVal → Prop) (live : Registry) {n : Int} {s : Bool} {i : Int}
    (hi : ¬IntValue n.toNat s i) : ∃ d, fromRecap live (.int (.int n) (.bool s) {}) = .ok d ∧
      Valid refs (.dict d) (.int i) ∧ ¬Carries live true (.int (.int n) (.bool s) {}) (.int i) := by
  refine ⟨[("type", .str "integer")], rfl, valid_type .integer (by simp), fun h => ?_⟩
  cases h with
  | int h => exact hi h

/-- C132 does not hold of all types: strings that are too long are valid. -/
theorem C132_length_refuted (refs : String → PyVal → Prop) (live : Registry) {n : Int} {v : PyVal} {s : String}
    (hs : n < s.utf8ByteSize) : ∃ d, fromRecap live (.string (.int n) v {}) = .ok d ∧
      Valid refs (.dict d) (.str s) ∧ ¬Carries live true (.string (.int n) v {}) (.str s) := by
  refine ⟨[("type", .str "string")], rfl, valid_type .string (by simp), fun h => ?_⟩
  cases h with
  | string h =>
    rcases h with e | ⟨k, e, h⟩
    · cases e
    · cases e; omega

/-- Without the condition on names, only the last of the fields with a name is checked. -/
theorem C132_names_refuted (refs : String → PyVal → Prop) (live : Registry) (s : String) :
    ∃ t d, t = .struct [.bool { extra := [("name", .str "f")] }, .string .none (.bool true) { extra := [("name", .str "f")] }] {} ∧
      fromRecap live t = .ok d ∧ Valid refs (.dict d) (.dict [("f", .str s)]) ∧ ¬Shaped live t (.dict [("f", .str s)]) := by
  refine ⟨_, [("type", .str "object"), ("properties", .dict [("f", .dict [("type", .str "string")])]),
    ("required", .list [.str "f", .str "f"])], rfl, rfl, ?_, fun h => ?_⟩
  · refine valid_type .object fun kv hm => ?_
    simp only [List.mem_cons, List.not_mem_nil, or_false] at hm
    rcases hm with rfl | rfl
    · refine ⟨by simp, by simp, by simp, by simp, by simp, by simp, fun _ => ?_, by simp⟩
      rw [Properties, propertiesAll_iff]
      intro p hp o w e hw
      cases List.mem_singleton.mp hp
      cases e
      simp only [Dict.get?_cons, if_true, Option.some.injEq] at hw
      subst hw
      exact valid_type .string (by simp)
    · refine ⟨by simp, by simp, fun _ o e x hx => ?_, by simp, by simp, by simp, by simp, by simp⟩
      cases e
      simp only [List.mem_cons, List.not_mem_nil, or_false, or_self] at hx
      exact ⟨"f", hx, by simp [Dict.keys]⟩
  · cases h with
    | struct _ h _ =>
      have := h _ (List.mem_cons_self ..) "f" (.str s) rfl (by simp)
      cases this

/-- C132 does not hold of all types and values. -/
theorem C132_only_refuted : ¬OnlyValuesAccepted := by
  intro h
  obtain ⟨d, h1, h2, h3⟩ := C132_range_refuted (fun _ _ => False) [] (n := 8) (s := true) (i := 128) (by simp [IntValue])
  cases h1
  exact h3 (h _ _ _ _ _ rfl (fun alias s he => by cases he) h2)

end Recap.JsonData
