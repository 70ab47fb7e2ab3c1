import Verif.JsonTextWrite

/-!
# A way to write and read floats

Exact decimal expansions.  Python writes the shortest text that is read back as the same float; this
instance only shows that what `Lawful` asks for can be had.
-/

set_option autoImplicit false

namespace Recap.JsonText

open Spec

/-- `e` digits. -/
def pad : Nat → Nat → Str
  | 0, _ => []
  | e + 1, n => pad e (n / 10) ++ [Char.ofNat (48 + n % 10)]

/-- The exact decimal expansion of `m / 2^e`. -/
def exactText (m : Int) (e : Nat) : Str :=
  (if m < 0 then ['-'] else []) ++ natDigits (m.natAbs * 5 ^ e / 10 ^ e) ++ '.' :: pad e (m.natAbs * 5 ^ e % 10 ^ e)

/-- The number `m` of which the text could be the exact decimal expansion of `m / 2^e`, without its
sign. -/
def mantissa (s : Str) : Nat :=
  number (s.takeWhile (· != '.') ++ (s.dropWhile (· != '.')).drop 1) / 5 ^ ((s.dropWhile (· != '.')).drop 1).length

/-- The `m` and `e` of which the text could be the exact decimal expansion. -/
def guess (s : Str) : Int × Nat :=
  match s with
  | '-' :: u => (-(mantissa u : Int), ((u.dropWhile (· != '.')).drop 1).length)
  | u => ((mantissa u : Int), ((u.dropWhile (· != '.')).drop 1).length)

/-- Floats as exact decimal expansions. -/
def exactFloats : Floats where
  repr := exactText
  read s := if s = exactText (guess s).1 (guess s).2 ∧ Recap.Spec.IsDouble (guess s).1 (guess s).2 then
    some (.float (guess s).1 (guess s).2) else none

theorem pad_spec (e : Nat) : ∀ n, (pad e n).length = e ∧ (∀ c ∈ pad e n, Digit c) := by
  induction e with
  | zero => intro n; simp [pad]
  | succ e ih =>
    intro n
    obtain ⟨h1, h2⟩ := ih (n / 10)
    refine ⟨by simp [pad, h1], ?_⟩
    intro c hc
    rw [pad] at hc
    rcases List.mem_append.mp hc with hc | hc
    · exact h2 c hc
    · rw [List.mem_singleton] at hc
      rw [hc]
      exact (digit_ofNat (by omega)).1

theorem number_pad (s : Str) (e : Nat) : ∀ n, n < 10 ^ e → number (s ++ pad e n) = number s * 10 ^ e + n := by
  induction e with
  | zero => intro n hn; simp at hn; simp [pad, hn]
  | succ e ih =>
    intro n hn
    rw [Nat.pow_succ] at hn ⊢
    rw [pad, ← List.append_assoc, number_snoc, ih (n / 10) (by omega), (digit_ofNat (d := n % 10) (by omega)).2]
    have : number s * (10 ^ e * 10) = number s * 10 ^ e * 10 := by rw [Nat.mul_assoc]
    omega

theorem digit_not_dot {c : Char} (h : Digit c) : (c != '.') = true := by
  have key : ∀ c ∈ "0123456789".toList, (c != '.') = true := by decide +kernel
  exact key c h

theorem split_dot {a b : Str} (ha : ∀ c ∈ a, Digit c) :
    (a ++ '.' :: b).takeWhile (· != '.') = a ∧ (a ++ '.' :: b).dropWhile (· != '.') = '.' :: b := by
  induction a with
  | nil => simp
  | cons c a ih =>
    obtain ⟨h1, h2⟩ := ih fun c hc => ha c (List.mem_cons_of_mem _ hc)
    have hc := digit_not_dot (ha c List.mem_cons_self)
    simp only [List.cons_append, List.takeWhile_cons, List.dropWhile_cons, hc, if_true]
    exact ⟨by rw [h1], h2⟩

theorem pow_split (e : Nat) : (10 : Nat) ^ e = 2 ^ e * 5 ^ e := by
  rw [← Nat.mul_pow]

/-- The digits of an exact decimal expansion. -/
def exactBody (k e : Nat) : Str := natDigits (k * 5 ^ e / 10 ^ e) ++ '.' :: pad e (k * 5 ^ e % 10 ^ e)

theorem mantissa_exact (k e : Nat) : mantissa (exactBody k e) = k ∧
    ((exactBody k e).dropWhile (· != '.')).drop 1 = pad e (k * 5 ^ e % 10 ^ e) := by
  obtain ⟨h1, h2, -⟩ := natDigits_number (k * 5 ^ e / 10 ^ e)
  obtain ⟨s1, s2⟩ := split_dot (b := pad e (k * 5 ^ e % 10 ^ e)) h1.2
  have hd : ((exactBody k e).dropWhile (· != '.')).drop 1 = pad e (k * 5 ^ e % 10 ^ e) := by
    rw [exactBody, s2]
    rfl
  refine ⟨?_, hd⟩
  have hlt : k * 5 ^ e % 10 ^ e < 10 ^ e := Nat.mod_lt _ (Nat.pow_pos (by decide))
  rw [mantissa, hd, exactBody, s1, number_pad _ _ _ hlt, h2, (pad_spec e _).1]
  rw [Nat.mul_comm (k * 5 ^ e / 10 ^ e), Nat.div_add_mod]
  exact Nat.mul_div_cancel _ (Nat.pow_pos (by decide))

theorem exactText_neg {m : Int} (h : m < 0) (e : Nat) : exactText m e = '-' :: exactBody m.natAbs e := by
  rw [exactText, if_pos h]
  rfl

theorem exactText_pos {m : Int} (h : ¬ m < 0) (e : Nat) : exactText m e = exactBody m.natAbs e := by
  rw [exactText, if_neg h]
  rfl

theorem exactBody_head (k e : Nat) : (exactBody k e).head? ≠ some '-' := by
  obtain ⟨h1, -, -⟩ := natDigits_number (k * 5 ^ e / 10 ^ e)
  rw [exactBody]
  cases hn : natDigits (k * 5 ^ e / 10 ^ e) with
  | nil => exact absurd hn h1.1
  | cons c cs =>
    rw [hn] at h1
    have hc := h1.2 c List.mem_cons_self
    rw [List.cons_append, List.head?_cons]
    intro he
    cases he
    revert hc
    unfold Digit
    decide +kernel

theorem guess_exact (m : Int) (e : Nat) : guess (exactText m e) = (m, e) := by
  obtain ⟨h1, h2⟩ := mantissa_exact m.natAbs e
  have h3 := (pad_spec e (m.natAbs * 5 ^ e % 10 ^ e)).1
  by_cases h : m < 0
  · rw [exactText_neg h, guess]
    simp only [h1, h2, h3]
    congr 1
    omega
  · rw [exactText_pos h]
    have hh := exactBody_head m.natAbs e
    unfold guess
    split
    · rename_i u he
      rw [he] at hh
      exact absurd rfl hh
    · simp only [h1, h2, h3]
      congr 1
      omega

theorem exactFloats_lawful : Lawful exactFloats where
  text m e h := by
    obtain ⟨-, -, he, -⟩ := h
    have hp := pad_spec e (m.natAbs * 5 ^ e % 10 ^ e)
    have hf : Fraction ('.' :: pad e (m.natAbs * 5 ^ e % 10 ^ e)) := by
      refine .inr ⟨_, ⟨?_, hp.2⟩, rfl⟩
      intro h0
      have := hp.1
      rw [h0] at this
      simp at this
      omega
    by_cases hm : m < 0
    · exact ⟨_, _, _, [], .neg (natDigits_natural (m.natAbs * 5 ^ e / 10 ^ e)), hf, .inl rfl, .inl (by simp),
        by show exactText m e = _; rw [exactText_neg hm, exactBody]; simp⟩
    · exact ⟨_, _, _, [], .pos (natDigits_natural (m.natAbs * 5 ^ e / 10 ^ e)), hf, .inl rfl, .inl (by simp),
        by show exactText m e = _; rw [exactText_pos hm, exactBody]; simp⟩
  exact m e h := by
    show (if _ then _ else _) = _
    rw [show exactFloats.repr m e = exactText m e from rfl, guess_exact, if_pos ⟨rfl, h⟩]
  double s v h := by
    have h : (if _ then _ else _) = some v := h
    split at h
    · rename_i hc
      cases h
      exact ⟨_, _, rfl, hc.2⟩
    · cases h
  nan := by decide +kernel
  infinity := by decide +kernel
  minusInfinity := by decide +kernel

end Recap.JsonText
