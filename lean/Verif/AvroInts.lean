import Verif.AvroLemmas

/-!
# C60: integers in Avro
-/

set_option autoImplicit false

namespace Recap.Avro

open Recap.Avro.Spec

variable {live : Registry}

/-- An integer type is written as the schema that `intSchema` gives. -/
theorem int_written {bits : PyVal} {signed : Bool} {a : Attrs} {d : Dict} {b : Int}
    (hb : asInt bits = some b) (ha : ∀ s, a.logical ≠ .str s)
    (h : fromRecap live (.int bits (.bool signed) a) = .ok d) :
    ∃ e, intSchema b signed = .ok e ∧
      ∀ k ∈ ["type", "logicalType", "precision", "scale"], Dict.get? d k = Dict.get? e k := by
  unfold fromRecap at h
  obtain ⟨v, hv, h⟩ := ok_bind h
  have hw : weight (weightReg 0 live) (.int bits (.bool signed) a) = 0 + 1 := rfl
  rw [hw, convertF] at hv
  obtain ⟨s, hs, hv⟩ := ok_bind hv
  have hv' : (do
      let d ← leafSchema (.int bits (.bool signed) a)
      pure (shorten (Dict.update s d)) : Except PyErr PyVal) = .ok v := by
    rw [← hv]
    show _ = (match a.logical with | .str _ => _ | _ => _)
    split
    · rename_i s' hs'; exact absurd hs' (ha s')
    · rfl
  obtain ⟨e, he, hv'⟩ := ok_bind hv'
  simp only [leafSchema, hb] at he
  refine ⟨e, he, ?_⟩
  have hkeys : (∀ k ∈ Dict.keys e, k ∉ ["doc", "name", "default", "aliases"]) ∧ (Dict.keys e).Nodup := by
    unfold intSchema at he
    split at he
    · cases he; simp [Dict.keys]
    · split at he
      · cases he; simp [Dict.keys]
      · extract_lets digits at he
        by_cases hd : digitLimit < digits
        · rw [if_pos hd] at he; cases he
        · rw [if_neg hd] at he
          injection he with he
          subst he
          simp [Dict.keys]
  rw [update_describe hs hkeys.1 hkeys.2] at hv'
  simp only [pure, Except.pure] at hv'
  intro k hk
  have hk' : k ∉ ["doc", "name", "default", "aliases"] := by
    revert k; decide
  rcases shorten_cases (s ++ e) with h' | ⟨t, h1, h2⟩
  · rw [h'] at hv'
    cases hv'
    cases h
    exact get_described hs hk'
  · rw [h2] at hv'
    cases hv'
    cases h
    rw [← h1]
    exact get_described hs hk'

/-- **C60** (partial): signed integers of at most 64 bits and unsigned integers of at most 32 bits
are written as an Avro type that holds all their values.  Missing: wider integers, for which it is
false (`C60_wide_refuted`). -/
theorem C60_integers_partial {bits : Nat} {signed : Bool} {a : Attrs} {d : Dict}
    (hb : bits ≤ if signed then 64 else 32) (hpos : 0 < bits) (ha : ∀ s, a.logical ≠ .str s)
    (h : fromRecap live (.int (.int bits) (.bool signed) a) = .ok d) (v : Int)
    (hv : IntValue bits signed v) : Holds d v := by
  obtain ⟨e, he, hk⟩ := int_written rfl ha h
  have ht := hk "type" (by simp)
  have hl := hk "logicalType" (by simp)
  unfold intSchema at he
  have pow_le : ∀ {m n : Nat}, m ≤ n → (2 : Int) ^ m ≤ (2 : Int) ^ n := by
    intro m n hmn
    exact_mod_cast Nat.pow_le_pow_right (by decide : 0 < 2) hmn
  cases signed with
  | true =>
    simp only [IntValue, if_true] at hv hb
    by_cases h32 : bits ≤ 32
    · rw [if_pos ⟨rfl, by omega⟩] at he
      cases he
      refine .int (ht.trans rfl) (hl.trans rfl) ?_ ?_
      · have : (2 : Int) ^ (bits - 1) ≤ 2147483648 := Int.le_trans (pow_le (show bits - 1 ≤ 31 by omega)) (by decide)
        omega
      · have : (2 : Int) ^ (bits - 1) ≤ 2147483648 := Int.le_trans (pow_le (show bits - 1 ≤ 31 by omega)) (by decide)
        omega
    · rw [if_neg (by omega), if_pos (Or.inr ⟨by omega, rfl⟩)] at he
      cases he
      refine .long (ht.trans rfl) (hl.trans rfl) ?_ ?_
      · have : (2 : Int) ^ (bits - 1) ≤ 9223372036854775808 := Int.le_trans (pow_le (show bits - 1 ≤ 63 by omega)) (by decide)
        omega
      · have : (2 : Int) ^ (bits - 1) ≤ 9223372036854775808 := Int.le_trans (pow_le (show bits - 1 ≤ 63 by omega)) (by decide)
        omega
  | false =>
    simp only [IntValue, Bool.false_eq_true, if_false] at hv hb
    rw [if_neg (by simp), if_pos (Or.inl ⟨by omega, rfl⟩)] at he
    cases he
    refine .long (ht.trans rfl) (hl.trans rfl) ?_ ?_
    · omega
    · have : (2 : Int) ^ (bits) ≤ 4294967296 := Int.le_trans (pow_le (show bits ≤ 32 by omega)) (by decide)
      omega

/-- A power of two is no multiple of five. -/
theorem two_pow_mod (k : Nat) : 2 ^ k % 5 ≠ 0 := by
  induction k with
  | zero => decide
  | succ k ih => rw [Nat.pow_succ]; omega

/-- The number of digits less one is too few for numbers up to a power of two. -/
theorem digits_short {k : Nat} (hk : 4 ≤ k) :
    10 ^ ((Nat.toDigits 10 (2 ^ k)).length - 1) < 2 ^ k ∧ 0 < (Nat.toDigits 10 (2 ^ k)).length - 1 := by
  have h16 : 16 ≤ 2 ^ k := Nat.pow_le_pow_right (by decide : 0 < 2) hk
  have hlen : 1 < (Nat.toDigits 10 (2 ^ k)).length := by
    rcases Nat.lt_or_ge 1 (Nat.toDigits 10 (2 ^ k)).length with h | h
    · exact h
    · have := (Nat.length_toDigits_le_iff (by decide : 1 < 10) (by decide : 0 < 1)).mp h
      omega
  have hpos : 0 < (Nat.toDigits 10 (2 ^ k)).length - 1 := by omega
  refine ⟨?_, hpos⟩
  have hle : 10 ^ ((Nat.toDigits 10 (2 ^ k)).length - 1) ≤ 2 ^ k := by
    rcases Nat.lt_or_ge (2 ^ k) (10 ^ ((Nat.toDigits 10 (2 ^ k)).length - 1)) with h | h
    · have := (Nat.length_toDigits_le_iff (by decide : 1 < 10) hpos).mpr h
      omega
    · exact h
  rcases Nat.lt_or_eq_of_le hle with h | h
  · exact h
  · exfalso
    have := two_pow_mod k
    rw [← h] at this
    obtain ⟨m, hm⟩ : ∃ m, (Nat.toDigits 10 (2 ^ k)).length - 1 = m + 1 := ⟨_, (Nat.succ_pred_eq_of_pos hpos).symm⟩
    rw [hm, Nat.pow_succ] at this
    omega

/-- C60 is false of every wider integer type that is written at all: its largest value has one digit
more than the decimal that is written. -/
theorem C60_wide_refuted {bits : Nat} {signed : Bool} {a : Attrs} {d : Dict}
    (hb : (if signed then 64 else 32) < bits) (ha : ∀ s, a.logical ≠ .str s)
    (h : fromRecap live (.int (.int bits) (.bool signed) a) = .ok d) :
    ∃ v, IntValue bits signed v ∧ ¬ Holds d v := by
  obtain ⟨e, he, hk⟩ := int_written rfl ha h
  have ht := hk "type" (by simp)
  have hp := hk "precision" (by simp)
  let k := bits - if signed then 1 else 0
  have hk32 : 32 < k := by
    cases signed <;> simp at hb <;> simp only [k, if_true, Bool.false_eq_true, if_false] <;> omega
  have hkk : ((bits : Int) - if signed then 1 else 0).toNat = k := by
    cases signed <;> simp only [k, if_true, Bool.false_eq_true, if_false] <;> omega
  obtain ⟨h1, h2⟩ := digits_short (k := k) (by omega)
  refine ⟨((2 ^ k - 1 : Nat) : Int), ?_, ?_⟩
  · have hpos : 0 < 2 ^ k := Nat.two_pow_pos k
    have hcast : ((2 ^ k : Nat) : Int) = (2 : Int) ^ k := by norm_cast
    cases signed with
    | true =>
      simp only [IntValue, if_true]
      simp only [k, if_true] at hcast hpos ⊢
      omega
    | false =>
      simp only [IntValue, Bool.false_eq_true, if_false]
      simp only [k, Bool.false_eq_true, if_false, Nat.sub_zero] at hcast hpos ⊢
      omega
  · unfold intSchema at he
    rw [if_neg (by cases signed <;> simp at hb ⊢; omega),
      if_neg (by cases signed <;> simp at hb ⊢ <;> omega)] at he
    simp only [hkk] at he
    split at he
    · cases he
    · cases he
      have ht' := ht.trans (show _ = some (PyVal.str "bytes") from rfl)
      have hp' := hp.trans (show _ = some (PyVal.int _) from rfl)
      intro hh
      cases hh with
      | int h' => rw [ht'] at h'; simp at h'
      | long h' => rw [ht'] at h'; simp at h'
      | decimal p _ _ h' _ _ hlt =>
        rw [hp'] at h'
        simp only [Option.some.injEq, PyVal.int.injEq] at h'
        have hpe : p = (Nat.toDigits 10 (2 ^ k)).length - 1 := by omega
        subst hpe
        have : 2 ^ k - 1 < 10 ^ ((Nat.toDigits 10 (2 ^ k)).length - 1) := by exact_mod_cast hlt
        omega

/-- C60 on 24-bit integers with a name. -/
example (v : Int) (hv : IntValue 24 true v) :
    Holds [("name", .str "x"), ("type", .str "int")] v :=
  C60_integers_partial (live := newRegistry) (a := { extra := [("name", .str "x")] }) (bits := 24)
    (by decide) (by decide) (fun s h => by cases h) (by decide +kernel) v hv

/-- 64-bit unsigned integers are written, as a decimal that cannot hold them. -/
example : ∃ v, IntValue 64 false v ∧ ¬ Holds [("type", .str "bytes"), ("logicalType", .str "decimal"),
    ("precision", .int 19)] v :=
  C60_wide_refuted (live := newRegistry) (a := {}) (bits := 64) (by decide) (fun s h => by cases h)
    (by decide +kernel)

end Recap.Avro
