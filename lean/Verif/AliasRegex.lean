import Verif.TypesSpec

/-!
# The alias grammar

`ALIAS_REGEX` (types.py 8) as a regular expression with a denotational semantics, and the
proof that the matcher used by the model accepts exactly its language, which is the set of
fully qualified names of `TypesSpec.lean`.
-/

namespace Recap.Spec

/-- Regular expressions over characters. -/
inductive Re where
  | cls (p : Char → Prop)
  | seq (a b : Re)
  | star (a : Re)
  | plus (a : Re)

/-- The language of a regular expression. -/
inductive Re.Matches : Re → List Char → Prop
  | cls {p c} : p c → Re.Matches (.cls p) [c]
  | seq {a b s t} : Re.Matches a s → Re.Matches b t → Re.Matches (.seq a b) (s ++ t)
  | starNil {a} : Re.Matches (.star a) []
  | starCons {a s t} : Re.Matches a s → Re.Matches (.star a) t → Re.Matches (.star a) (s ++ t)
  | plus {a s t} : Re.Matches a s → Re.Matches (.star a) t → Re.Matches (.plus a) (s ++ t)

/-- `[a-zA-Z_][a-zA-Z0-9_]*` -/
def identRe : Re := .seq (.cls Letter) (.star (.cls (fun c => Letter c ∨ Digit c)))

/-- `^[a-zA-Z_][a-zA-Z0-9_]*(?:\.[a-zA-Z_][a-zA-Z0-9_]*)+$` (types.py 8). -/
def aliasRe : Re := .seq identRe (.plus (.seq (.cls (fun c => c = '.')) identRe))

end Recap.Spec

namespace Recap

open Spec

theorem identStart_iff (c : Char) : identStart c = true ↔ Letter c := by
  simp only [identStart, Letter, Bool.or_eq_true, Bool.and_eq_true, decide_eq_true_eq,
    beq_iff_eq, Char.le_def, UInt32.le_iff_toNat_le, or_assoc]
  rfl

theorem identRest_iff (c : Char) : identRest c = true ↔ (Letter c ∨ Digit c) := by
  simp only [identRest, Bool.or_eq_true, identStart_iff, Digit, Bool.and_eq_true,
    decide_eq_true_eq, Char.le_def, UInt32.le_iff_toNat_le]
  rfl

theorem not_letter_dot : ¬ (Letter '.' ∨ Digit '.') := by
  simp [Letter, Digit]

/-- The characters of `.p1.p2...pn`. -/
def dotted (parts : List (List Char)) : List Char := parts.flatMap (fun p => '.' :: p)

theorem intercalate_dotted (p : List Char) (parts : List (List Char)) :
    List.intercalate ['.'] (p :: parts) = p ++ dotted parts := by
  induction parts generalizing p with
  | nil => simp [List.intercalate, dotted]
  | cons q parts ih =>
    have := ih q
    simp only [List.intercalate, List.intersperse, List.flatten_cons] at this ⊢
    simp only [dotted, List.flatMap_cons] at this ⊢
    rw [this]
    simp

mutual
theorem aliasRun_start (d : Bool) : ∀ cs : List Char, aliasRun (.start d) cs = true ↔
    ∃ p parts, Ident p ∧ (∀ q ∈ parts, Ident q) ∧ (d = true ∨ parts ≠ []) ∧ cs = p ++ dotted parts
  | [] => by
    simp only [aliasRun, Bool.false_eq_true, false_iff, not_exists]
    rintro p parts ⟨⟨c, rest, rfl, -, -⟩, -, -, h⟩
    simp at h
  | c :: cs => by
    simp only [aliasRun, Bool.and_eq_true, identStart_iff, aliasRun_inside d cs]
    constructor
    · rintro ⟨hc, w, parts, hw, hp, hd, rfl⟩
      exact ⟨c :: w, parts, ⟨c, w, rfl, hc, hw⟩, hp, hd, by simp⟩
    · rintro ⟨p, parts, ⟨c', rest, rfl, hc, hr⟩, hp, hd, h⟩
      simp only [List.cons_append, List.cons.injEq] at h
      obtain ⟨rfl, rfl⟩ := h
      exact ⟨hc, rest, parts, hr, hp, hd, rfl⟩
theorem aliasRun_inside (d : Bool) : ∀ cs : List Char, aliasRun (.inside d) cs = true ↔
    ∃ w parts, (∀ x ∈ w, Letter x ∨ Digit x) ∧ (∀ q ∈ parts, Ident q) ∧ (d = true ∨ parts ≠ []) ∧
      cs = w ++ dotted parts
  | [] => by
    simp only [aliasRun]
    constructor
    · intro h; exact ⟨[], [], by simp, by simp, .inl h, by simp [dotted]⟩
    · rintro ⟨w, parts, -, -, h, hcs⟩
      cases parts with
      | nil => simpa using h
      | cons q qs => simp [dotted] at hcs
  | c :: cs => by
    simp only [aliasRun]
    split
    · rename_i hc
      subst hc
      rw [aliasRun_start true cs]
      constructor
      · rintro ⟨p, parts, hp, hps, -, rfl⟩
        refine ⟨[], p :: parts, by simp, ?_, by simp, by simp [dotted]⟩
        intro q hq
        rcases List.mem_cons.mp hq with rfl | hq
        · exact hp
        · exact hps q hq
      · rintro ⟨w, parts, hw, hps, -, h⟩
        cases w with
        | cons x w =>
          simp only [List.cons_append, List.cons.injEq] at h
          obtain ⟨rfl, -⟩ := h
          exact absurd (hw '.' (by simp)) not_letter_dot
        | nil =>
          cases parts with
          | nil => simp [dotted] at h
          | cons p parts =>
            simp only [dotted, List.flatMap_cons, List.nil_append, List.cons_append,
              List.cons.injEq, true_and] at h
            exact ⟨p, parts, hps p (by simp), fun q hq => hps q (by simp [hq]), .inl rfl, h⟩
    · rename_i hc
      simp only [Bool.and_eq_true, identRest_iff, aliasRun_inside d cs]
      constructor
      · rintro ⟨hx, w, parts, hw, hps, hd, rfl⟩
        refine ⟨c :: w, parts, ?_, hps, hd, by simp⟩
        intro x hxm
        rcases List.mem_cons.mp hxm with rfl | hxm
        · exact hx
        · exact hw x hxm
      · rintro ⟨w, parts, hw, hps, hd, h⟩
        cases w with
        | nil =>
          cases parts with
          | nil => simp [dotted] at h
          | cons p parts =>
            simp only [dotted, List.flatMap_cons, List.nil_append, List.cons_append,
              List.cons.injEq] at h
            exact absurd h.1 hc
        | cons x w =>
          simp only [List.cons_append, List.cons.injEq] at h
          obtain ⟨rfl, rfl⟩ := h
          exact ⟨hw c (by simp), w, parts, fun y hy => hw y (by simp [hy]), hps, hd, rfl⟩
end

theorem aliasOk_iff (s : String) : aliasOk s = true ↔ FullyQualified s := by
  unfold aliasOk FullyQualified
  rw [aliasRun_start]
  constructor
  · rintro ⟨p, parts, hp, hps, hd, h⟩
    refine ⟨p :: parts, ?_, ?_, ?_⟩
    · cases parts with
      | nil => simp at hd
      | cons => simp
    · intro q hq
      rcases List.mem_cons.mp hq with rfl | hq
      · exact hp
      · exact hps q hq
    · rw [intercalate_dotted]; exact h
  · rintro ⟨parts, hlen, hps, h⟩
    cases parts with
    | nil => simp at hlen
    | cons p parts =>
      refine ⟨p, parts, hps p (by simp), fun q hq => hps q (by simp [hq]), .inr ?_, ?_⟩
      · rintro rfl; simp at hlen
      · rw [← intercalate_dotted]; exact h

/-! ## The regular expression -/

theorem matches_cls {p : Char → Prop} {cs : List Char} (h : Re.Matches (.cls p) cs) :
    ∃ c, p c ∧ cs = [c] := by
  cases h with | cls hc => exact ⟨_, hc, rfl⟩

theorem matches_star_cls {p : Char → Prop} {cs : List Char} :
    Re.Matches (.star (.cls p)) cs ↔ ∀ x ∈ cs, p x := by
  constructor
  · intro h
    generalize hr : Re.star (.cls p) = r at h
    induction h with
    | starNil => simp
    | starCons h1 h2 _ ih2 =>
      cases hr
      obtain ⟨c, hc, rfl⟩ := matches_cls h1
      intro x hx
      simp only [List.singleton_append, List.mem_cons] at hx
      rcases hx with rfl | hx
      · exact hc
      · exact ih2 rfl x hx
    | _ => cases hr
  · induction cs with
    | nil => intro _; exact .starNil
    | cons c cs ih =>
      intro h
      have : c :: cs = [c] ++ cs := rfl
      rw [this]
      exact .starCons (.cls (h c (by simp))) (ih (fun x hx => h x (by simp [hx])))

theorem matches_identRe {cs : List Char} : Re.Matches identRe cs ↔ Ident cs := by
  constructor
  · intro h
    unfold identRe at h
    cases h with
    | seq h1 h2 =>
      cases h1
      rename_i c hc
      exact ⟨c, _, rfl, hc, matches_star_cls.mp h2⟩
  · rintro ⟨c, rest, rfl, hc, hr⟩
    have : c :: rest = [c] ++ rest := rfl
    rw [this]
    exact .seq (.cls hc) (matches_star_cls.mpr hr)

theorem matches_dotIdent {cs : List Char} :
    Re.Matches (.seq (.cls (fun c => c = '.')) identRe) cs ↔ ∃ p, Ident p ∧ cs = '.' :: p := by
  constructor
  · intro h
    cases h with
    | seq h1 h2 =>
      cases h1
      rename_i c hc
      exact ⟨_, matches_identRe.mp h2, by simp [hc]⟩
  · rintro ⟨p, hp, rfl⟩
    have : '.' :: p = ['.'] ++ p := rfl
    rw [this]
    exact .seq (.cls rfl) (matches_identRe.mpr hp)

theorem matches_starDotted {cs : List Char} :
    Re.Matches (.star (.seq (.cls (fun c => c = '.')) identRe)) cs ↔
      ∃ parts, (∀ q ∈ parts, Ident q) ∧ cs = dotted parts := by
  constructor
  · intro h
    generalize hr : Re.star (.seq (.cls (fun c => c = '.')) identRe) = r at h
    induction h with
    | starNil => exact ⟨[], by simp, rfl⟩
    | starCons h1 h2 _ ih2 =>
      cases hr
      obtain ⟨p, hp, rfl⟩ := matches_dotIdent.mp h1
      obtain ⟨parts, hps, rfl⟩ := ih2 rfl
      refine ⟨p :: parts, ?_, by simp [dotted]⟩
      intro q hq
      rcases List.mem_cons.mp hq with rfl | hq
      · exact hp
      · exact hps q hq
    | _ => cases hr
  · rintro ⟨parts, hps, rfl⟩
    induction parts with
    | nil => exact .starNil
    | cons p parts ih =>
      have : dotted (p :: parts) = ('.' :: p) ++ dotted parts := by simp [dotted]
      rw [this]
      exact .starCons (matches_dotIdent.mpr ⟨p, hps p (by simp), rfl⟩)
        (ih (fun q hq => hps q (by simp [hq])))

theorem aliasOk_iff_regex (s : String) : aliasOk s = true ↔ Re.Matches aliasRe s.toList := by
  unfold aliasOk
  rw [aliasRun_start]
  constructor
  · rintro ⟨p, parts, hp, hps, hd, h⟩
    rw [h]
    refine .seq (matches_identRe.mpr hp) ?_
    cases parts with
    | nil => simp at hd
    | cons q parts =>
      have : dotted (q :: parts) = ('.' :: q) ++ dotted parts := by simp [dotted]
      rw [this]
      exact .plus (matches_dotIdent.mpr ⟨q, hps q (by simp), rfl⟩)
        (matches_starDotted.mpr ⟨parts, fun x hx => hps x (by simp [hx]), rfl⟩)
  · intro h
    unfold aliasRe at h
    generalize hs : s.toList = cs at h
    cases h with
    | seq h1 h2 =>
      cases h2 with
      | plus h3 h4 =>
        obtain ⟨q, hq, rfl⟩ := matches_dotIdent.mp h3
        obtain ⟨parts, hps, rfl⟩ := matches_starDotted.mp h4
        refine ⟨_, q :: parts, matches_identRe.mp h1, ?_, .inr (by simp), by simp [dotted]⟩
        intro x hx
        rcases List.mem_cons.mp hx with rfl | hx
        · exact hq
        · exact hps x hx

end Recap
