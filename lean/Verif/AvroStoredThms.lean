import Verif.AvroStoredLemmas2
import Verif.AvroWriteThms

/-!
# The data of the Avro schemas that are written (C137)
-/

set_option autoImplicit false

namespace Recap.AvroWrite

open Values (Val Holds Fits)
open Avro
open Avro.Spec (IntValue)
open AvroData (Datum Primitive)

/-- **C137 (exactly which data).**  When the type has no references, the data of the schema that is written are those of
`Stored`. -/
theorem C137_exactly_partial {live : Registry} {t : RType} {d : Dict} (ht : Whole t) (hr : fromRecap live t = .ok d)
    (x : Val) : Datum [] .none (.dict d) x ↔ Stored t x :=
  stored_schema ht hr .none x

theorem kept_base {t : RType} (hk : Kept t) : ∀ b s a, t = .int b (.bool s) a → ¬Wide b s := by
  rintro b s a rfl ⟨n, h1, h2⟩
  cases hk <;> (cases h1; simp at h2)

theorem kept_base_holds {t : RType} (hk : Kept t) (hl : Unlabelled t.attrs) {w : String} (hb : Base t w) {x : Val}
    (hx : Primitive w x) : Holds t x := by
  have key : ∀ {v}, Base t v → w = v := fun h => base_unique hb h
  cases hk with
  | null => have e := key (.null hl); cases hx <;> first | exact .null | exact absurd e (by decide)
  | bool => have e := key (.bool hl); cases hx <;> first | exact .bool | exact absurd e (by decide)
  | int h =>
    have e := key (.int hl rfl (by decide))
    cases hx with
    | int hi => exact .int h hi
    | _ => exact absurd e (by decide)
  | long h =>
    have e := key (.long hl rfl (by decide) (by decide))
    cases hx with
    | long hi => exact .int h hi
    | _ => exact absurd e (by decide)
  | float =>
    have e := key (.float hl rfl (by decide))
    cases hx with
    | float hi => exact .float hi
    | _ => exact absurd e (by decide)
  | double =>
    have e := key (.double hl rfl (by decide))
    cases hx with
    | double hi => exact .float hi
    | _ => exact absurd e (by decide)
  | string h =>
    have e := key (.string hl)
    cases hx with
    | string hi => exact .string h (.inr ⟨_, rfl, by omega⟩)
    | _ => exact absurd e (by decide)
  | bytes h =>
    have e : w = "bytes" := by cases hb <;> rfl
    cases hx with
    | bytes hi => exact .bytes h (.inr ⟨_, rfl, by omega⟩)
    | _ => exact absurd e (by decide)
  | fixed h => cases hb; exact absurd ‹_› (hl _)
  | interval h | decimal h | timestamp h | date h | timeMillis h | timeMicros h | uuid h => exact absurd h (hl _)
  | enum | list | map | struct | union => cases hb

mutual
theorem kept_holds : ∀ {t : RType} {x : Val}, Stored t x → Kept t → Holds t x
  | _, _, .primitive hl hb _ hx, hk => kept_base_holds hk hl hb hx
  | _, _, .wide hl h1 hw _ _ _ _ _, hk => by
    obtain ⟨n, h1, h2⟩ := hw
    cases hk <;> (cases h1; simp at h2)
  | _, _, .fixed hl, hk => by
    cases hk with
    | bytes h | fixed h => exact .bytes h (.inr ⟨_, rfl, by simp⟩)
    | interval h | decimal h => exact absurd h (hl _)
  | _, _, .decimal hl hp h1 h2 h3, hk => by
    cases hk with
    | bytes h | fixed h => rw [hl] at h; cases h
    | interval h => rw [hl] at h; exact absurd h (by simp)
    | decimal _ hp' hs =>
      have e1 := hp.precision.symm.trans hp'.precision
      have e2 := hp.scale.symm.trans hp'.scale
      simp only [Option.some.injEq, PyVal.int.injEq, Int.natCast_inj] at e1 e2
      subst e1 e2
      exact .decimal hl hp.precision hs h1 h2 h3
  | _, _, .undecided hl hp h1, hk => by
    cases hk with
    | bytes h | fixed h => rw [hl] at h; cases h
    | interval h => rw [hl] at h; exact absurd h (by simp)
    | decimal _ hp' hs => exact absurd hp' (hp _ _)
  | _, _, .timestamp hl h1 h2 h3, hk => by
    cases hk with
    | int h | long h => rw [hl] at h; cases h
    | timestamp => exact .instant hl h1 h2 h3
    | date h | timeMillis h | timeMicros h => rw [hl] at h; exact absurd h (by simp)
  | _, _, .date hl h1, hk => by
    cases hk with
    | int h | long h => rw [hl] at h; cases h
    | date _ h => exact .date hl h h1
    | timestamp h | timeMillis h | timeMicros h => rw [hl] at h; exact absurd h (by simp)
  | _, _, .timeMillis hl h1 h2, hk => by
    cases hk with
    | int h | long h => rw [hl] at h; cases h
    | timeMillis _ h => exact .time hl h1 rfl h2
    | timeMicros _ h => rw [h1] at h; exact absurd h (by simp)
    | timestamp h | date h => rw [hl] at h; exact absurd h (by simp)
  | _, _, .timeMicros hl h1 h2, hk => by
    cases hk with
    | int h | long h => rw [hl] at h; cases h
    | timeMicros _ h => exact .time hl h1 rfl h2
    | timeMillis _ h => rw [h1] at h; exact absurd h (by simp)
    | timestamp h | date h => rw [hl] at h; exact absurd h (by simp)
  | _, _, .uuid hl h1, hk => by
    cases hk with
    | string h => rw [hl] at h; cases h
    | uuid _ h => exact .uuid hl h1 (.inr ⟨_, rfl, by omega⟩)
  | _, _, .enum hl h, hk => .enum h
  | _, _, .list hl hxs, hk => by
    cases hk with
    | list hk => exact .list fun x hx => kept_holds (hxs x hx) hk
  | _, _, .map hl hks hxs, hk => by
    cases hk with
    | map hb hk =>
      refine .map (fun p hp => ?_) fun p hp => kept_holds (hxs p hp) hk
      have := hks p hp
      generalize hw : "string" = w at this
      generalize Prod.fst p = y at this
      cases this with
      | string h => exact .string hb (.inr ⟨_, rfl, by omega⟩)
      | _ => exact absurd hw (by decide)
  | _, _, .struct hl hn hlen hxs, hk => by
    cases hk with
    | struct hk =>
      exact .struct hlen fun i f x h1 h2 => keptField_holds (hxs i f x h1 h2) (hk f (List.mem_of_getElem? h1))
theorem keptField_holds : ∀ {t : RType} {x : Val}, StoredField t x → KeptField t → Holds t x
  | _, _, .base hb hx, hk => by
    cases hk with
    | simple hn _ hk =>
      exact kept_base_holds hk (fun l h => by rw [hn] at h; cases h) hb hx
    | inline h => cases h <;> cases hb <;> simp_all
    | union => cases hb
  | _, _, .union hl ht hx, hk => by
    cases hk with
    | simple _ h => exact absurd rfl (h _ _)
    | inline h => cases h
    | union hk => exact .union ht (kept_holds hx (hk _ ht))
end

/-- **C137 (no other data).**  When no bits and no lengths are fewer than those of Avro's types, and the fields have no
logical types, each datum is a value of the type. -/
theorem C137_only_partial {live : Registry} {t : RType} {d : Dict} {x : Val} (ht : Whole t) (hk : Kept t)
    (hr : fromRecap live t = .ok d) (hx : Datum [] .none (.dict d) x) : Holds t x :=
  kept_holds ((stored_schema ht hr .none x).mp hx) hk

/-- The data of the schema are then the values of the type, when C129 holds of the type too. -/
theorem C137_same_partial {live : Registry} {t : RType} {d : Dict} (ht : Whole t) (hk : Kept t) (hs : AsSchema t)
    (hr : fromRecap live t = .ok d) (x : Val) : Datum [] .none (.dict d) x ↔ Holds t x :=
  ⟨C137_only_partial ht hk hr, C129_values_partial hs hr⟩

/-! ### Types with data that are not values -/

/-- Integers with other than 32 or 64 bits, or without a sign, have data that are not values: at least the
largest `int` or `long`, or minus one. -/
theorem C137_bits_refuted {live : Registry} {n : Int} {s : Bool} {a : Attrs} {d : Dict} (hl : a.logical = .none)
    (h0 : 0 ≤ n) (hn : n ≤ if s then 64 else 32) (hb : s = true → n ≠ 32 ∧ n ≠ 64)
    (hr : fromRecap live (.int (.int n) (.bool s) a) = .ok d) :
    ∃ i, Datum [] .none (.dict d) (.int i) ∧ ¬Holds (.int (.int n) (.bool s) a) (.int i) := by
  have hu : Unlabelled a := fun l h => by rw [hl] at h; cases h
  have hw : Whole (.int (.int n) (.bool s) a) := .mk (by simp) (by simp [Recap.Spec.children])
  have hnw : ∀ b s' a', RType.int (.int n) (.bool s) a = .int b (.bool s') a' → ¬Wide b s' := by
    rintro b s' a' h ⟨k, h1, h2⟩
    cases h; cases h1
    omega
  cases s with
  | false =>
    refine ⟨-1, (C137_exactly_partial hw hr _).mpr (.primitive hu (.unsigned hu rfl (by simpa using hn)) hnw
      (.long (by simp [IntValue]))), fun h => ?_⟩
    cases h with
    | int _ h => simp [IntValue] at h
  | true =>
    have hb := hb rfl
    simp only [if_true] at hn
    by_cases h32 : n ≤ 32
    · refine ⟨2147483647, (C137_exactly_partial hw hr _).mpr (.primitive hu (.int hu rfl h32) hnw
        (.int (by simp [IntValue]))), fun h => ?_⟩
      cases h with
      | int _ h =>
        simp only [IntValue, if_true] at h
        have h1 : ((2 ^ (n.toNat - 1) : Nat) : Int) ≤ ((2 ^ 30 : Nat) : Int) :=
          Int.ofNat_le.mpr (Nat.pow_le_pow_right (by decide) (by omega))
        rw [Int.natCast_pow, Int.natCast_pow] at h1
        have := Int.lt_of_lt_of_le h.2 h1
        simp at this
    · refine ⟨9223372036854775807, (C137_exactly_partial hw hr _).mpr (.primitive hu (.long hu rfl (by omega) hn) hnw
        (.long (by simp [IntValue]))), fun h => ?_⟩
      cases h with
      | int _ h =>
        simp only [IntValue, if_true] at h
        have h1 : ((2 ^ (n.toNat - 1) : Nat) : Int) ≤ ((2 ^ 62 : Nat) : Int) :=
          Int.ofNat_le.mpr (Nat.pow_le_pow_right (by decide) (by omega))
        rw [Int.natCast_pow, Int.natCast_pow] at h1
        have := Int.lt_of_lt_of_le h.2 h1
        simp at this

/-- None of the data of a wider integer is one of its values: they are decimals. -/
theorem C137_wide_refuted {live : Registry} {b : PyVal} {s : Bool} {a : Attrs} {d : Dict} {x : Val}
    (hl : a.logical = .none) (hb : Wide b s) (hr : fromRecap live (.int b (.bool s) a) = .ok d)
    (hx : Datum [] .none (.dict d) x) : ¬Holds (.int b (.bool s) a) x := by
  have hw : Whole (.int b (.bool s) a) := .mk (by simp) (by simp [Recap.Spec.children])
  intro hh
  have hs := (C137_exactly_partial hw hr _).mp hx
  clear hx hr
  cases hs with
  | primitive _ _ h => exact h _ _ _ rfl hb
  | wide => cases hh
  | timestamp h | date h | timeMillis h | timeMicros h => rw [hl] at h; cases h

/-- There are strings of each length. -/
theorem exists_string (n : Nat) : ∃ s : String, s.utf8ByteSize = n := by
  induction n with
  | zero => exact ⟨"", rfl⟩
  | succ n ih =>
    obtain ⟨s, hs⟩ := ih
    exact ⟨s ++ "a", by rw [String.utf8ByteSize_append, hs]; rfl⟩

/-- Strings that are longer than the limit are data. -/
theorem C137_strings_refuted {live : Registry} {k : Nat} {v : PyVal} {a : Attrs} {d : Dict} (hl : a.logical = .none)
    (hk : k < 9223372036854775807) (hr : fromRecap live (.string (.int k) v a) = .ok d) :
    ∃ s, Datum [] .none (.dict d) (.str s) ∧ ¬Holds (.string (.int k) v a) (.str s) := by
  have hu : Unlabelled a := fun l h => by rw [hl] at h; cases h
  have hw : Whole (.string (.int k) v a) := .mk (by simp) (by simp [Recap.Spec.children])
  obtain ⟨s, hs⟩ := exists_string (k + 1)
  refine ⟨s, (C137_exactly_partial hw hr _).mpr (.primitive hu (.string hu) (by simp) (.string (by omega))), fun h => ?_⟩
  cases h with
  | string _ h | uuid _ _ h =>
    rcases h with h | ⟨j, h, hj⟩
    · cases h
    · cases h; omega

/-- So are byte strings. -/
theorem C137_length_refuted {live : Registry} {k : Nat} {a : Attrs} {d : Dict} (hl : a.logical = .none)
    (hk : k < 9223372036854775807) (hr : fromRecap live (.bytes (.int k) (.bool true) a) = .ok d) :
    Datum [] .none (.dict d) (.bytes (k + 1)) ∧ ¬Holds (.bytes (.int k) (.bool true) a) (.bytes (k + 1)) := by
  have hu : Unlabelled a := fun l h => by rw [hl] at h; cases h
  have hw : Whole (.bytes (.int k) (.bool true) a) := .mk (by simp) (by simp [Recap.Spec.children])
  refine ⟨(C137_exactly_partial hw hr _).mpr (.primitive hu (.bytes hu) (by simp) (.bytes (by omega))), fun h => ?_⟩
  cases h with
  | bytes _ h =>
    rcases h with h | ⟨j, h, hj⟩
    · cases h
    · cases h; omega

/-- Small integers have data of 32 bits, so C137 does not hold. -/
theorem C137_only_refuted : ¬OnlyValuesWritten := by
  intro h
  obtain ⟨d, hd⟩ : ∃ d, fromRecap [] (.int (.int 8) (.bool true) {}) = .ok d := ⟨_, rfl⟩
  obtain ⟨i, h1, h2⟩ := C137_bits_refuted rfl (by decide) (by decide) (by decide) hd
  exact h2 (h [] _ d _ hd h1)

/-! ### Cases that meet the hypotheses -/

/-- A structure with a number, an optional list of timestamps and a string without a limit. -/
def stay : RType :=
  .struct [.int (.int 32) (.bool true) { extra := [("name", .str "id")] },
    .union [.null {}, .list (.int (.int 64) (.bool true) { logical := .str "build.recap.Timestamp", extra := [("unit", .str "millisecond")] })
      .none (.bool true) {}] { extra := [("name", .str "at"), ("default", .none)] },
    .string (.int 9223372036854775807) (.bool true) { extra := [("name", .str "who")] }]
    { extra := [("name", .str "Stay")] }

example : (fromRecap [] stay).toOption.isSome := by decide +kernel

theorem stay_whole : Whole stay := by
  refine .mk (by simp [stay]) fun u hu => ?_
  simp only [stay, Recap.Spec.children, List.mem_cons, List.not_mem_nil, or_false] at hu
  rcases hu with rfl | rfl | rfl
  · exact .mk (by simp) (by simp [Recap.Spec.children])
  · refine .mk (by simp) fun u hu => ?_
    simp only [Recap.Spec.children, List.mem_cons, List.not_mem_nil, or_false] at hu
    rcases hu with rfl | rfl
    · exact .mk (by simp) (by simp [Recap.Spec.children])
    · refine .mk (by simp) fun u hu => ?_
      simp only [Recap.Spec.children, List.mem_cons, List.not_mem_nil, or_false] at hu
      subst hu
      exact .mk (by simp) (by simp [Recap.Spec.children])
  · exact .mk (by simp) (by simp [Recap.Spec.children])

theorem stay_kept : Kept stay := by
  refine .struct fun f hf => ?_
  simp only [List.mem_cons, List.not_mem_nil, or_false] at hf
  rcases hf with rfl | rfl | rfl
  · exact .simple rfl (by simp) (.int rfl)
  · refine .union fun t ht => ?_
    simp only [List.mem_cons, List.not_mem_nil, or_false] at ht
    rcases ht with rfl | rfl
    · exact .null
    · exact .list (.timestamp rfl)
  · exact .simple rfl (by simp) (.string rfl)

theorem stay_schema : AsSchema stay := by
  refine .struct rfl (.inr (.inl ⟨"Stay", rfl, by decide⟩)) fun f hf => ?_
  simp only [List.mem_cons, List.not_mem_nil, or_false] at hf
  rcases hf with rfl | rfl | rfl
  · exact .plain (.signed rfl (by decide))
  · refine .union rfl fun t ht => ?_
    simp only [List.mem_cons, List.not_mem_nil, or_false] at ht
    rcases ht with rfl | rfl
    · exact .plain (.null rfl)
    · exact .list rfl (.annotated (.timestamp rfl))
  · exact .plain (.string rfl)

/-- The data of its schema are its values. -/
example : ∃ d, fromRecap [] stay = .ok d ∧ ∀ x, Datum [] .none (.dict d) x ↔ Holds stay x := by
  obtain ⟨d, hd⟩ : ∃ d, fromRecap [] stay = .ok d := ⟨_, rfl⟩
  exact ⟨d, hd, C137_same_partial stay_whole stay_kept stay_schema hd⟩

/-- The data of a date in a field are integers, and those of one in a list are dates. -/
example : StoredField (.int (.int 32) (.bool true) { logical := .str "build.recap.Date", extra := [("unit", .str "day")] }) (.int 19000) ∧
    Stored (.int (.int 32) (.bool true) { logical := .str "build.recap.Date", extra := [("unit", .str "day")] }) (.date 19000) :=
  ⟨.base (.date rfl) (.int (by simp [IntValue])), .date rfl (by simp [IntValue])⟩

/-- Unsigned integers of 64 bits are decimals of 19 digits, which are fewer than some of them have. -/
example : Stored (.int (.int 64) (.bool false) {}) (.decimal 9999999999999999999 0) ∧
    ¬Stored (.int (.int 64) (.bool false) {}) (.decimal 10000000000000000000 0) := by
  have hu : Unlabelled ({} : Attrs) := fun l h => by cases h
  refine ⟨.wide (p := 19) (u := 9999999999999999999) hu rfl ⟨64, rfl, by decide⟩ (by decide) (by decide) (by decide)
    (by decide) ?_, fun h => ?_⟩
  · exact AvroData.intValue_mono (a := 65) (by simp [IntValue]) (by decide)
  · cases h with
    | primitive _ _ _ h => cases h
    | @wide _ n _ _ m j p u _ h1 _ h2 h3 h4 h5 =>
      cases h1
      have := digits_unique h2 h3 (q := 19) (by decide) (by decide)
      subst this
      simp at h4
      subst h4
      exact absurd h5 (by decide)

/-- Bytes, strings, integers that are narrow and integers that are wide. -/
example : (fromRecap [] (.bytes (.int 16) (.bool true) {})).toOption.isSome ∧
    (fromRecap [] (.string (.int 255) (.bool true) {})).toOption.isSome ∧
    (fromRecap [] (.int (.int 16) (.bool false) {})).toOption.isSome ∧
    (fromRecap [] (.int (.int 64) (.bool false) {})).toOption.isSome ∧ Wide (.int 64) false :=
  ⟨by decide +kernel, by decide +kernel, by decide +kernel, by decide +kernel, 64, rfl, by decide⟩

end Recap.AvroWrite
