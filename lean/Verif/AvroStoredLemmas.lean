import Verif.AvroStoredSpec
import Verif.AvroWriteLemmas
import Verif.AvroInts

/-!
# Lemmas on the data of written Avro schemas (C137)
-/

set_option autoImplicit false

namespace Recap.AvroWrite

open Values (Val Holds)
open Avro
open Avro.Spec (IntValue Header Around Other HasType)
open AvroData (Datum Primitive Is Digits Applies Unannotated Logical FieldTypes Env)

theorem base_unique {t : RType} {v w : String} (h : Base t v) (h' : Base t w) : v = w := by
  cases h <;> cases h' <;> first
    | rfl
    | (exfalso; simp_all [Unlabelled, Wide]; done)
    | (exfalso; simp_all [Unlabelled, Wide]; omega)

theorem base_primitive {t : RType} {w : String} (h : Base t w) : ∃ x, Primitive w x := by
  cases h <;> first
    | exact ⟨_, .null⟩
    | exact ⟨.bool true, .boolean⟩
    | exact ⟨.int 0, .int (by simp [IntValue])⟩
    | exact ⟨.int 0, .long (by simp [IntValue])⟩
    | exact ⟨.float 0, .float (by decide)⟩
    | exact ⟨.float 0, .double (by decide)⟩
    | exact ⟨.bytes 0, .bytes (by decide)⟩
    | exact ⟨.str "", .string (by decide)⟩

theorem datum_str {env : Env} {ns : Option String} {w : String} (hw : ∃ x, Primitive w x) {x : Val} :
    Datum env ns (.str w) x ↔ Primitive w x :=
  ⟨fun h => AvroData.datum_name h hw, .primitiveName⟩

theorem datum_shortened {env : Env} {ns : Option String} {D : Dict} {w : String} (h1 : Is D w)
    (h2 : Dict.get? D "logicalType" = .none) (hw : ∃ x, Primitive w x) {x : Val} :
    Datum env ns (Avro.shorten D) x ↔ Primitive w x := by
  refine ⟨fun h => ?_, fun h => datum_shorten (.primitive h1 (unannotated h2) h)⟩
  rcases shorten_cases D with h' | ⟨s, rfl, h'⟩
  · rw [h'] at h
    exact AvroData.datum_primitive h ⟨h1, h2⟩ hw
  · rw [h'] at h
    cases h1
    exact AvroData.datum_name h hw

/-- What is written for a type without parts and without logical type. -/
theorem leaf_written {t : RType} {d : Dict} (hl : Unlabelled t.attrs) (h : leafSchema t = .ok d) :
    (∃ w, d = [("type", .str w)] ∧ Base t w ∧ ∀ b s a, t = .int b (.bool s) a → ¬Wide b s) ∨
    (∃ b s a n p, t = .int b (.bool s) a ∧ asInt b = some n ∧ Wide b s ∧ 1 ≤ p ∧
      10 ^ p ≤ 2 ^ (n - if s then 1 else 0).toNat ∧ 2 ^ (n - if s then 1 else 0).toNat < 10 ^ (p + 1) ∧
      d = [("type", .str "bytes"), ("logicalType", .str "decimal"), ("precision", .int (p : Nat))]) ∨
    (∃ b a, t = .bytes b (.bool false) a ∧ d = [("type", .str "fixed"), ("size", b)]) ∨
    (∃ xs a, t = .enum (.list xs) a ∧ d = [("type", .str "enum"), ("symbols", .list xs)]) := by
  cases t with
  | null a => cases h; exact .inl ⟨_, rfl, .null hl, by simp⟩
  | bool a => cases h; exact .inl ⟨_, rfl, .bool hl, by simp⟩
  | int b s a =>
    simp only [leafSchema] at h
    split at h
    · rename_i bits signed hb
      simp only [intSchema] at h
      split at h
      · rename_i hc
        cases h
        obtain ⟨rfl, hc⟩ := hc
        refine .inl ⟨_, rfl, .int hl hb hc, ?_⟩
        rintro b' s' a' he ⟨n, h1, h2⟩
        cases he
        rw [hb] at h1
        cases h1
        simp at h2
        omega
      · split at h
        · rename_i hc
          cases h
          refine .inl ⟨_, rfl, ?_, ?_⟩
          · rcases hc with ⟨hc, rfl⟩ | ⟨hc, rfl⟩
            · exact .unsigned hl hb hc
            · exact .long hl hb (by simp_all) hc
          · rintro b' s' a' he ⟨n, h1, h2⟩
            cases he
            rw [hb] at h1
            cases h1
            rcases hc with ⟨hc, rfl⟩ | ⟨hc, rfl⟩ <;> simp at h2 <;> omega
        · rename_i hc
          have hw : (if signed then 64 else 32) < bits := by
            cases signed <;> simp_all
          obtain ⟨k, hk⟩ : ∃ k, (bits - if signed then 1 else 0).toNat = k := ⟨_, rfl⟩
          have hk32 : 32 ≤ k := by
            rw [← hk]
            cases signed <;> simp at hw ⊢ <;> omega
          simp only [hk] at h
          split at h
          · cases h
          · cases h
            obtain ⟨g1, g2⟩ := digits_short (k := k) (by omega)
            refine .inr (.inl ⟨b, signed, a, bits, (Nat.toDigits 10 (2 ^ k)).length - 1, rfl, hb, ⟨bits, hb, hw⟩, g2, ?_, ?_, ?_⟩)
            · rw [hk]; omega
            · rw [hk]
              exact (Nat.length_toDigits_le_iff (by decide : 1 < 10) (by omega)).mp (by omega)
            · have : (((Nat.toDigits 10 (2 ^ k)).length - 1 : Nat) : Int) = (Nat.toDigits 10 (2 ^ k)).length - 1 := by omega
              rw [this]
    · cases h
  | float b a =>
    simp only [leafSchema] at h
    split at h
    · rename_i bits hb
      split at h
      · cases h; exact .inl ⟨_, rfl, .float hl hb ‹_›, by simp⟩
      · split at h
        · cases h; exact .inl ⟨_, rfl, .double hl hb (by omega), by simp⟩
        · cases h
    · cases h
  | string l v a =>
    simp only [leafSchema] at h
    split at h <;> cases h
    exact .inl ⟨_, rfl, .string hl, by simp⟩
  | bytes l v a =>
    simp only [leafSchema] at h
    split at h
    · split at h
      · rename_i hv; subst hv; cases h; exact .inl ⟨_, rfl, .bytes hl, by simp⟩
      · split at h
        · rename_i hv; subst hv; cases h; exact .inr (.inr (.inl ⟨_, _, rfl, rfl⟩))
        · cases h
    · cases h
  | enum xs a =>
    simp only [leafSchema] at h
    split at h <;> cases h
    exact .inr (.inr (.inr ⟨_, _, rfl, rfl⟩))
  | _ => simp [leafSchema] at h

/-- There is only one number of digits. -/
theorem digits_unique {p q N : Nat} (h1 : 10 ^ p ≤ N) (h2 : N < 10 ^ (p + 1)) (h3 : 10 ^ q ≤ N) (h4 : N < 10 ^ (q + 1)) :
    p = q := by
  have a : p < q + 1 := (Nat.pow_lt_pow_iff_right (by decide : 1 < 10)).mp (Nat.lt_of_le_of_lt h1 h4)
  have b : q < p + 1 := (Nat.pow_lt_pow_iff_right (by decide : 1 < 10)).mp (Nat.lt_of_le_of_lt h3 h2)
  omega

theorem datum_decimal {env : Env} {ns : Option String} {D : Dict} {p q : Nat} (h1 : Is D "bytes")
    (h2 : Dict.get? D "logicalType" = some (.str "decimal")) (h3 : Digits D p q) {x : Val} :
    Datum env ns (.dict D) x ↔ ∃ (m : Int) (s : Nat) (u : Int), x = .decimal m s ∧ u * 10 ^ s = m * 10 ^ q ∧
      u.natAbs < 10 ^ p ∧ IntValue (8 * 9223372036854775807) true u := by
  have uniq : ∀ {p' q'}, Digits D p' q' → p' = p ∧ q' = q := by
    intro p' q' h
    have e1 := h.precision.symm.trans h3.precision
    simp only [Option.some.injEq, PyVal.int.injEq, Int.natCast_inj] at e1
    refine ⟨e1, ?_⟩
    rcases h.scale with e2 | ⟨e2, rfl⟩ <;> rcases h3.scale with e3 | ⟨e3, rfl⟩
    · have := e2.symm.trans e3
      simpa only [Option.some.injEq, PyVal.int.injEq, Int.natCast_inj] using this
    · rw [e2] at e3; cases e3
    · rw [e2] at e3; cases e3
    · rfl
  constructor
  · intro h
    have := AvroData.datum_logical h h2 (.decimal h1 h3)
    generalize hw : "decimal" = w at this
    cases this with
    | @decimal p' q' n s m u g1 g2 g3 g4 g5 g6 =>
      obtain ⟨rfl, rfl⟩ := uniq g2
      exact ⟨m, s, u, rfl, g3, g4, AvroData.intValue_mono g6 (by omega)⟩
    | fixedDecimal g1 => exact absurd (AvroData.is_eq h1 g1) (by decide)
    | _ => exact absurd hw (by decide)
  · rintro ⟨m, s, u, rfl, g1, g2, g3⟩
    exact .logical h2 (.decimal h1 h3) (.decimal (n := 9223372036854775807) h1 h3 g1 g2 (by decide) g3)

theorem leaf_stored {env : Env} {ns : Option String} {t : RType} {s d : Dict} (hl : Unlabelled t.attrs)
    (hs : describe t.attrs = .ok s) (h : leafSchema t = .ok d) {x : Val} :
    Datum env ns (Avro.shorten (s ++ d)) x ↔ Stored t x := by
  rcases leaf_written hl h with ⟨w, rfl, hb, hw⟩ | ⟨b, sg, a, n, p, rfl, hn, hw, h1, h2, h3, rfl⟩ | ⟨b, a, rfl, rfl⟩ | ⟨xs, a, rfl, rfl⟩ <;> clear h
  · rw [datum_shortened (w := w) (by rw [Is, get_described hs (by simp)]; rfl)
      (by rw [get_described hs (by simp)]; simp [Dict.get?]) (base_primitive hb)]
    refine ⟨fun h => .primitive hl hb hw h, fun h => ?_⟩
    cases h with
    | primitive _ hb' _ h => rw [base_unique hb hb']; exact h
    | wide _ _ h => exact absurd h (hw _ _ _ rfl)
    | fixed => cases hb; exact absurd ‹_› (hl _)
    | decimal h | undecided h | timestamp h | date h | timeMillis h | timeMicros h | uuid h => exact absurd h (hl _)
    | enum | list | map | struct => cases hb
  · have hi : Is (s ++ [("type", .str "bytes"), ("logicalType", .str "decimal"), ("precision", .int (p : Nat))]) "bytes" := by
      rw [Is, get_described hs (by simp)]; rfl
    have hd : Dict.get? (s ++ [("type", .str "bytes"), ("logicalType", .str "decimal"), ("precision", .int (p : Nat))]) "logicalType" =
        some (.str "decimal") := by rw [get_described hs (by simp)]; simp [Dict.get?]
    have hg : Digits (s ++ [("type", .str "bytes"), ("logicalType", .str "decimal"), ("precision", .int (p : Nat))]) p 0 :=
      ⟨by rw [get_described hs (by simp)]; simp [Dict.get?],
        .inr ⟨by rw [get_described hs (by simp)]; simp [Dict.get?], rfl⟩, h1, by omega⟩
    have hsh : Avro.shorten (s ++ [("type", .str "bytes"), ("logicalType", .str "decimal"), ("precision", .int (p : Nat))]) =
        .dict (s ++ [("type", .str "bytes"), ("logicalType", .str "decimal"), ("precision", .int (p : Nat))]) := by
      rcases shorten_cases (s ++ [("type", .str "bytes"), ("logicalType", .str "decimal"), ("precision", .int (p : Nat))]) with h | ⟨y, h, _⟩
      · exact h
      · have := congrArg List.length h
        simp at this
    rw [hsh, datum_decimal hi hd hg]
    constructor
    · rintro ⟨m, j, u, rfl, g1, g2, g3⟩
      exact .wide hl hn hw h2 h3 (by simpa using g1) g2 g3
    · intro h
      cases h with
      | primitive _ _ h => exact absurd hw (h _ _ _ rfl)
      | @wide _ n' _ _ m j p' u _ e1 _ e2 e3 e4 e5 e6 =>
        rw [hn] at e1
        cases e1
        cases digits_unique h2 h3 e2 e3
        exact ⟨m, j, u, rfl, by simpa using e4, e5, e6⟩
      | timestamp h | date h | timeMillis h | timeMicros h => exact absurd h (hl _)
  · have hi : Is (s ++ [("type", .str "fixed"), ("size", b)]) "fixed" := by rw [Is, get_described hs (by simp)]; rfl
    have hd : Dict.get? (s ++ [("type", .str "fixed"), ("size", b)]) "logicalType" = .none := by
      rw [get_described hs (by simp)]; simp [Dict.get?]
    have hz : Dict.get? (s ++ [("type", .str "fixed"), ("size", b)]) "size" = some b := by
      rw [get_described hs (by simp)]; simp [Dict.get?]
    rw [shorten_long]
    constructor
    · intro h
      cases h with
      | primitive h1 _ h2 => exact (AvroData.not_primitive (s := "fixed") ⟨hi, hd⟩ h1 h2 (by decide)).elim
      | logical h1 => rw [hd] at h1; cases h1
      | fixed _ _ h => rw [hz] at h; cases h; exact .fixed hl
      | enum h1 | array h1 | map h1 | record h1 => exact absurd (AvroData.is_eq hi h1) (by decide)
    · intro h
      cases h with
      | primitive _ h => cases h; exact absurd ‹_› (hl _)
      | fixed => exact .fixed hi (unannotated hd) hz
      | decimal h | undecided h => exact absurd h (hl _)
  · have hi : Is (s ++ [("type", .str "enum"), ("symbols", .list xs)]) "enum" := by rw [Is, get_described hs (by simp)]; rfl
    have hd : Dict.get? (s ++ [("type", .str "enum"), ("symbols", .list xs)]) "logicalType" = .none := by
      rw [get_described hs (by simp)]; simp [Dict.get?]
    have hz : Dict.get? (s ++ [("type", .str "enum"), ("symbols", .list xs)]) "symbols" = some (.list xs) := by
      rw [get_described hs (by simp)]; simp [Dict.get?]
    rw [shorten_long]
    constructor
    · intro h
      obtain ⟨y, rfl, hy⟩ := AvroData.datum_enum h ⟨hi, hd⟩ hz
      exact .enum hl hy
    · intro h
      cases h with
      | primitive _ h => cases h
      | enum _ h => exact .enum hi hz h

theorem leaf_field {env : Env} {ns : Option String} {t : RType} {s d : Dict} {w : PyVal} (hl : Unlabelled t.attrs)
    (hs : describe t.attrs = .ok s) (h : leafSchema t = .ok d) (hw : Dict.get? (s ++ d) "type" = some w) {x : Val} :
    Datum env ns w x ↔ StoredField t x := by
  have key : ∀ {b : String}, Base t b → w = .str b → (Datum env ns w x ↔ StoredField t x) := by
    rintro b hb rfl
    rw [datum_str (base_primitive hb)]
    refine ⟨fun h => .base hb h, fun h => ?_⟩
    cases h with
    | base hb' h => rw [base_unique hb hb']; exact h
    | union => cases hb
  rw [get_described hs (by simp)] at hw
  rcases leaf_written hl h with ⟨b, rfl, hb, -⟩ | ⟨b, sg, a, n, p, rfl, hn, hw', h1, h2, h3, rfl⟩ | ⟨b, a, rfl, rfl⟩ | ⟨xs, a, rfl, rfl⟩
  · cases hw; exact key hb rfl
  · cases hw; exact key (.wide hl hw') rfl
  · cases hw
    refine ⟨fun h => (datum_keyword h (by simp)).elim, fun h => ?_⟩
    cases h with
    | base h => cases h; exact absurd ‹_› (hl _)
  · cases hw
    refine ⟨fun h => (datum_keyword h (by simp)).elim, fun h => ?_⟩
    cases h with
    | base h => cases h

end Recap.AvroWrite
