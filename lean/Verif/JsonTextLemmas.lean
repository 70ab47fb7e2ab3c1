import Verif.JsonTextSpec
import Verif.DictLemmas

/-! # Lemmas about JSON texts: what the scanner does with texts of the grammar -/

set_option autoImplicit false

namespace Recap.JsonText

open Spec

/-! ## Characters -/

/-- White space, as `skip` tests it. -/
theorem blank_iff {c : Char} : c ∈ [' ', '\t', '\n', '\r'] ↔ c = ' ' ∨ c = '\t' ∨ c = '\n' ∨ c = '\r' := by simp

theorem skip_blank {w : Str} (h : Blank w) (s : Str) : skip (w ++ s) = skip s := by
  induction w with
  | nil => rfl
  | cons c w ih =>
    have hc := blank_iff.mp (h c List.mem_cons_self)
    rw [List.cons_append, skip, if_pos hc]
    exact ih fun x hx => h x (List.mem_cons_of_mem _ hx)

theorem skip_solid {c : Char} (h : c ∉ [' ', '\t', '\n', '\r']) (s : Str) : skip (c :: s) = c :: s := by
  rw [skip, if_neg (fun hc => h (blank_iff.mpr hc))]

theorem skip_all {w : Str} (h : Blank w) : skip w = [] := by
  have := skip_blank h []
  rwa [List.append_nil] at this

theorem hex_lt {c : Char} {d : Nat} (h : Hex c d) : d < 16 := by
  rcases h with h | h <;>
  · have := (List.getElem?_eq_some_iff.mp h).1
    simpa using this

theorem hexValue_of {c : Char} {d : Nat} (h : Hex c d) : hexValue c = some d := by
  have hd := hex_lt h
  have key : ∀ d : Fin 16, ∀ c, Hex c d.val → hexValue c = some d.val := by
    have e : ∀ d : Fin 16, ("0123456789abcdef".toList[d.val]?.all fun c => hexValue c == some d.val) = true ∧
        ("0123456789ABCDEF".toList[d.val]?.all fun c => hexValue c == some d.val) = true := by decide +kernel
    intro d c h
    rcases h with h | h
    · have := (e d).1
      rw [h] at this
      simpa using this
    · have := (e d).2
      rw [h] at this
      simpa using this
  exact key ⟨d, hd⟩ c h

instance (c : Char) (d : Nat) : Decidable (Hex c d) := inferInstanceAs (Decidable (_ ∨ _))

theorem char_ofNat (c : Char) : Char.ofNat c.toNat = c := by simp

theorem hex_of {c : Char} {d : Nat} (h : hexValue c = some d) : Hex c d := by
  have e : ∀ n : Fin 128, ((hexValue (Char.ofNat n.val)).all fun d => decide (Hex (Char.ofNat n.val) d)) = true := by
    decide +kernel
  have hc : c.toNat < 128 := by
    unfold hexValue at h
    repeat' split at h
    all_goals first | omega | cases h
  have := e ⟨c.toNat, hc⟩
  simp only [char_ofNat, h, Option.all_some, decide_eq_true_eq] at this
  exact this

theorem isDigit_iff {c : Char} : isDigit c = true ↔ Digit c := by
  constructor
  · intro h
    have e : ∀ n : Fin 58, isDigit (Char.ofNat n.val) = true → Char.ofNat n.val ∈ "0123456789".toList := by decide +kernel
    have hc : c.toNat < 58 := by
      simp only [isDigit, Bool.and_eq_true, decide_eq_true_eq] at h
      omega
    have := e ⟨c.toNat, hc⟩
    rw [char_ofNat] at this
    exact this h
  · intro h
    have e : ∀ c ∈ "0123456789".toList, isDigit c = true := by decide +kernel
    exact e c h

theorem charOf_toNat (c : Char) : charOf c.toNat = some c := by
  have h : c.toNat.isValidChar := c.valid
  unfold charOf
  rw [dif_pos h]
  congr 1
  apply Char.ext
  simp only
  show UInt32.ofNat c.val.toNat = c.val
  exact UInt32.ofNat_toNat

theorem strOf_map (cs : List Char) : strOf (cs.map Char.toNat) = some cs := by
  induction cs with
  | nil => rfl
  | cons c cs ih => rw [List.map_cons, strOf, charOf_toNat, ih]

theorem charOf_some {n : Nat} {c : Char} (h : charOf n = some c) : c.toNat = n := by
  unfold charOf at h
  split at h
  · rename_i hv
    cases h
    have : n < 2 ^ 32 := by rcases hv with h | h <;> omega
    show (UInt32.ofNat n).toNat = n
    rw [UInt32.toNat_ofNat']
    exact Nat.mod_eq_of_lt this
  · cases h

theorem strOf_some {ns : List Nat} {cs : List Char} (h : strOf ns = some cs) : ns = cs.map Char.toNat := by
  induction ns generalizing cs with
  | nil => cases h; rfl
  | cons n ns ih =>
    rw [strOf] at h
    split at h
    · rename_i c cs' h1 h2
      cases h
      rw [List.map_cons, charOf_some h1, ← ih h2]
    · cases h

/-! ## Strings -/

theorem readHex4_of {n : Nat} {h : Str} (hh : Hex4 n h) (s : Str) : readHex4 (h ++ s) = .ok (n, s) := by
  obtain ⟨ha, hb, hc, hd⟩ := hh
  simp only [List.cons_append, List.nil_append, readHex4, hexValue_of ha, hexValue_of hb, hexValue_of hc, hexValue_of hd]

theorem hex4_lt {n : Nat} {h : Str} (hh : Hex4 n h) : n < 65536 := by
  obtain ⟨ha, hb, hc, hd⟩ := hh
  have := hex_lt ha
  have := hex_lt hb
  have := hex_lt hc
  have := hex_lt hd
  omega

theorem not_surrogate (c : Char) : ¬ (55296 ≤ c.toNat ∧ c.toNat ≤ 57343) := by
  intro h
  rcases c.valid with hv | hv <;> simp only [Char.toNat] at h <;> omega

theorem readUnicode_unit {c : Char} {h : Str} (hh : Hex4 c.toNat h) (s : Str) :
    readUnicode (h ++ s) = .ok (c.toNat, s) := by
  have := not_surrogate c
  simp only [readUnicode, readHex4_of hh]
  rw [if_neg (by omega)]

theorem readUnicode_pair {h h' : Str} {x y : Nat} (hh : Hex4 (0xD800 + x) h) (hh' : Hex4 (0xDC00 + y) h')
    (hx : x < 1024) (hy : y < 1024) (s : Str) :
    readUnicode (h ++ '\\' :: 'u' :: h' ++ s) = .ok (0x10000 + x * 1024 + y, s) := by
  rw [List.append_assoc]
  unfold readUnicode
  rw [readHex4_of hh]
  simp only [List.cons_append, readHex4_of hh']
  rw [if_pos (by omega), if_pos (by omega)]
  have e : 65536 + (55296 + x - 55296) * 1024 + (56320 + y - 56320) = 65536 + x * 1024 + y := by omega
  rw [e]

theorem readPoint_plain {c : Char} (h2 : c ≠ '\\') (h3 : 32 ≤ c.toNat) (s : Str) :
    readPoint (c :: s) = .ok (c.toNat, s) := by
  unfold readPoint
  split
  · simp_all
  · simp_all
  · simp_all
  · simp_all
  · rename_i heq
    cases heq
    rw [if_neg (by omega)]

theorem readPoint_short {e : Char} {n : Nat} (h : (e, n) ∈ escapes) (s : Str) :
    readPoint ('\\' :: e :: s) = .ok (n, s) := by
  have key : ∀ p ∈ escapes, p.1 ≠ 'u' ∧ readShort p.1 = some p.2 := by decide +kernel
  obtain ⟨h1, h2⟩ := key _ h
  unfold readPoint
  split
  · simp_all
  · simp_all
  · simp_all
  · rename_i heq
    cases heq
    simp_all
  · rename_i _ h4 heq
    cases heq
    exact (h4 _ _ rfl rfl).elim

theorem readPoint_unicode (s : Str) : readPoint ('\\' :: 'u' :: s) = readUnicode s := by
  rw [readPoint]

theorem readStr_quote (n : Nat) (s : Str) : readStr (n + 1) ('"' :: s) = .ok ([], s) := by
  rw [readStr]

theorem readStr_step {n : Nat} {s : Str} (h : s.head? ≠ some '"') : readStr (n + 1) s =
    match readPoint s with
    | .error e => .error e
    | .ok (p, s1) =>
      match readStr n s1 with
      | .error e => .error e
      | .ok (ps, s2) => .ok (p :: ps, s2) := by
  rw [readStr.eq_def]
  split
  · omega
  · simp at h
  · rename_i heq _
    cases heq
    rfl

theorem readStr_point {n : Nat} {s s1 : Str} {p : Nat} (h : s.head? ≠ some '"') (hp : readPoint s = .ok (p, s1)) :
    readStr (n + 1) s =
      match readStr n s1 with
      | .error e => .error e
      | .ok (ps, s2) => .ok (p :: ps, s2) := by
  rw [readStr_step h, hp]

theorem readStr_of {cs : List Char} {s : Str} (h : Quoted cs s) (rest : Str) :
    ∀ n, s.length < n → readStr n (s ++ '"' :: rest) = .ok (cs.map Char.toNat, rest) := by
  induction h with
  | nil =>
    intro n hn
    obtain ⟨n, rfl⟩ : ∃ m, n = m + 1 := ⟨n - 1, by simp at hn; omega⟩
    exact readStr_quote n rest
  | @plain c cs s h1 h2 h3 h ih =>
    intro n hn
    rw [List.length_cons] at hn
    obtain ⟨n, rfl⟩ : ∃ m, n = m + 1 := ⟨n - 1, by omega⟩
    rw [List.cons_append, readStr_point (by simpa using h1) (readPoint_plain h2 h3 _), ih n (by omega)]
    rfl
  | @short e c cs s he h ih =>
    intro n hn
    simp only [List.length_cons] at hn
    obtain ⟨n, rfl⟩ : ∃ m, n = m + 1 := ⟨n - 1, by omega⟩
    simp only [List.cons_append]
    rw [readStr_point (by simp) (readPoint_short he _), ih n (by omega)]
    rfl
  | @unit c h s cs hh hq ih =>
    intro n hn
    simp only [List.cons_append, List.length_cons, List.length_append] at hn
    obtain ⟨n, rfl⟩ : ∃ m, n = m + 1 := ⟨n - 1, by omega⟩
    simp only [List.cons_append, List.append_assoc]
    rw [readStr_point (by simp) ((readPoint_unicode _).trans (readUnicode_unit hh _)), ih n (by omega)]
    rfl
  | @pair c h h' s x y cs hh hh' hx hy hc hq ih =>
    intro n hn
    simp only [List.cons_append, List.length_cons, List.length_append] at hn
    obtain ⟨n, rfl⟩ : ∃ m, n = m + 1 := ⟨n - 1, by omega⟩
    have e : '\\' :: 'u' :: h ++ '\\' :: 'u' :: h' ++ s ++ '"' :: rest =
        '\\' :: 'u' :: (h ++ '\\' :: 'u' :: h' ++ (s ++ '"' :: rest)) := by simp
    rw [e, readStr_point (by simp) ((readPoint_unicode _).trans (readUnicode_pair hh hh' hx hy _)), ih n (by omega), ← hc]
    rfl

/-! ## Numbers -/

/-- What follows a value inside a text: nothing, white space, or the end of an item. -/
def Ends (rest : Str) : Prop := ∀ c, rest.head? = some c → c ∈ [' ', '\t', '\n', '\r', ',', ']', '}']

/-- The rest does not begin with a digit. -/
def NoDigit (rest : Str) : Prop := ∀ c, rest.head? = some c → isDigit c = false

theorem Ends.noDigit {rest : Str} (h : Ends rest) : NoDigit rest := by
  intro c hc
  have key : ∀ c ∈ [' ', '\t', '\n', '\r', ',', ']', '}'], isDigit c = false := by decide +kernel
  exact key c (h c hc)

theorem takeWhile_digits {d rest : Str} (hd : ∀ c ∈ d, Digit c) (hr : NoDigit rest) :
    (d ++ rest).takeWhile isDigit = d ∧ (d ++ rest).dropWhile isDigit = rest := by
  induction d with
  | nil =>
    cases rest with
    | nil => exact ⟨rfl, rfl⟩
    | cons c rest =>
      have := hr c rfl
      simp [this]
  | cons c d ih =>
    have hc := isDigit_iff.mpr (hd c List.mem_cons_self)
    have := ih fun x hx => hd x (List.mem_cons_of_mem _ hx)
    simp [hc, this]

theorem digit_facts {c : Char} (h : Digit c) : c ≠ '-' ∧ c ≠ '+' ∧ digitValue c = some (c.toNat - 48) ∧
    c ∉ ['"', '{', '[', 'n', 't', 'f', 'N', 'I', ' ', '\t', '\n', '\r', ',', ']', '}', ':', '.', 'e', 'E'] ∧
    c ≠ Char.ofNat 65279 := by
  have key : ∀ c ∈ "0123456789".toList, c ≠ '-' ∧ c ≠ '+' ∧ digitValue c = some (c.toNat - 48) ∧
    c ∉ ['"', '{', '[', 'n', 't', 'f', 'N', 'I', ' ', '\t', '\n', '\r', ',', ']', '}', ':', '.', 'e', 'E'] ∧
    c ≠ Char.ofNat 65279 := by
    decide +kernel
  exact key c h

theorem digitsValue_number {s : Str} (h : ∀ c ∈ s, Digit c) (acc : Nat) :
    digitsValue acc s = some (s.foldl (fun n c => 10 * n + (c.toNat - 48)) acc) := by
  induction s generalizing acc with
  | nil => rfl
  | cons c s ih =>
    rw [digitsValue, (digit_facts (h c List.mem_cons_self)).2.2.1, List.foldl_cons, Nat.mul_comm 10 acc]
    exact ih (fun x hx => h x (List.mem_cons_of_mem _ hx)) _

theorem strInt_of {i : Int} {s : Str} (h : Integer i s) : strInt s = some i := by
  cases h with
  | pos hn =>
    obtain ⟨⟨hne, hd⟩, -⟩ := hn
    cases s with
    | nil => exact absurd rfl hne
    | cons c s =>
      have := digit_facts (hd c List.mem_cons_self)
      unfold strInt
      split
      · simp_all
      · simp_all
      · simp_all
      · rename_i heq
        cases heq
        rw [digitsValue_number hd]
        rfl
  | @neg d hn =>
    obtain ⟨⟨hne, hd⟩, -⟩ := hn
    cases d with
    | nil => exact absurd rfl hne
    | cons c s =>
      simp only [strInt, digitsValue_number hd]
      rfl

theorem takeInt_of {i : Int} {s : Str} (h : Integer i s) {rest : Str} (hr : NoDigit rest) :
    takeInt (s ++ rest) = some (s, rest) := by
  cases h with
  | pos hn =>
    obtain ⟨⟨hne, hd⟩, hz⟩ := hn
    cases s with
    | nil => exact absurd rfl hne
    | cons c s =>
      have hc := hd c List.mem_cons_self
      have hf := digit_facts hc
      by_cases h0 : c = '0'
      · subst h0
        have := hz rfl
        cases this
        rfl
      · have ht := takeWhile_digits (fun x hx => hd x (List.mem_cons_of_mem _ hx)) hr
        rw [List.cons_append]
        unfold takeInt
        split
        · simp_all
        · simp_all
        · simp_all
        · rename_i heq
          cases heq
          rw [if_pos (isDigit_iff.mpr hc), ht.1, ht.2]
        · simp_all
  | @neg d hn =>
    obtain ⟨⟨hne, hd⟩, hz⟩ := hn
    cases d with
    | nil => exact absurd rfl hne
    | cons c s =>
      have hc := hd c List.mem_cons_self
      by_cases h0 : c = '0'
      · subst h0
        have := hz rfl
        cases this
        rfl
      · have ht := takeWhile_digits (fun x hx => hd x (List.mem_cons_of_mem _ hx)) hr
        simp only [List.cons_append]
        unfold takeInt
        split
        · simp_all
        · simp_all
        · rename_i heq
          cases heq
          rw [if_pos (isDigit_iff.mpr hc), ht.1, ht.2]
        · rename_i h3 heq
          cases heq
          exact absurd rfl (h3 _ _ rfl)
        · simp_all

theorem takeFrac_of {f rest : Str} (h : Fraction f) (hr : NoDigit rest)
    (hd : f = [] → rest.head? ≠ some '.') : takeFrac (f ++ rest) = (f, rest) := by
  rcases h with rfl | ⟨d, ⟨hne, hdig⟩, rfl⟩
  · unfold takeFrac
    split
    · rename_i heq
      rw [List.nil_append] at heq
      have := hd rfl
      rw [heq] at this
      simp at this
    · rfl
  · cases d with
    | nil => exact absurd rfl hne
    | cons c d =>
      have ht := takeWhile_digits (fun x hx => hdig x (List.mem_cons_of_mem _ hx)) hr
      simp only [List.cons_append, takeFrac]
      rw [if_pos (isDigit_iff.mpr (hdig c List.mem_cons_self)), ht.1, ht.2]

theorem takeExp_of {x rest : Str} (h : Exponent x) (hr : Ends rest) : takeExp (x ++ rest) = (x, rest) := by
  rcases h with rfl | ⟨e, d, he, ⟨hne, hdig⟩, hx⟩
  · unfold takeExp
    split
    · rename_i e c s heq
      rw [List.nil_append] at heq
      have h1 := hr e (by rw [heq]; rfl)
      have : ¬ (e = 'e' ∨ e = 'E') := by
        rintro (rfl | rfl) <;> simp at h1
      rw [if_neg this]
      simp [heq]
    · rfl
  · cases d with
    | nil => exact absurd rfl hne
    | cons c d =>
      have hc := hdig c List.mem_cons_self
      have hf := digit_facts hc
      have ht := takeWhile_digits (fun x hx => hdig x (List.mem_cons_of_mem _ hx)) hr.noDigit
      rcases hx with rfl | rfl | rfl
      · simp only [List.cons_append, takeExp]
        rw [if_pos he, if_neg (by simp [hf.1, hf.2.1]), if_pos (isDigit_iff.mpr hc), ht.1, ht.2]
      · simp only [List.cons_append, takeExp]
        rw [if_pos he, if_pos (by simp), if_pos (isDigit_iff.mpr hc), ht.1, ht.2]
      · simp only [List.cons_append, takeExp]
        rw [if_pos he, if_pos (by simp), if_pos (isDigit_iff.mpr hc), ht.1, ht.2]

theorem readNumber_int {i : Int} {s rest : Str} (h : Integer i s) (hr : Ends rest) :
    readNumber (s ++ rest) = .ok (.int i, rest) := by
  have h1 := takeFrac_of (f := []) (.inl rfl) hr.noDigit (by
    intro _ hh
    have := hr _ hh
    simp at this)
  have h2 := takeExp_of (x := []) (.inl rfl) hr
  rw [List.nil_append] at h1 h2
  simp only [readNumber, takeInt_of h hr.noDigit, h1, h2, and_self, if_true, strInt_of h]

theorem head_append {s r : Str} (h : s ≠ []) : (s ++ r).head? = s.head? := by
  cases s with
  | nil => exact absurd rfl h
  | cons => rfl

theorem exponent_head {x : Str} (h : Exponent x) (hne : x ≠ []) : x.head? = some 'e' ∨ x.head? = some 'E' := by
  rcases h with rfl | ⟨e, d, he, -, hx⟩
  · exact absurd rfl hne
  · rcases hx with rfl | rfl | rfl <;> rcases he with rfl | rfl <;> simp

theorem readNumber_float {s rest : Str} (h : FloatText s) (hr : Ends rest) :
    readNumber (s ++ rest) = .ok (.float s, rest) := by
  obtain ⟨k, i, f, x, hi, hf, hx, hne, rfl⟩ := h
  have hxr : NoDigit (x ++ rest) ∧ (x ++ rest).head? ≠ some '.' := by
    by_cases he : x = []
    · subst he
      refine ⟨hr.noDigit, ?_⟩
      intro hh
      have := hr _ hh
      simp at this
    · unfold NoDigit
      rw [head_append he]
      rcases exponent_head hx he with e | e <;> rw [e] <;>
        exact ⟨by rintro _ ⟨⟩; decide +kernel, by decide⟩
  have hfr : NoDigit (f ++ (x ++ rest)) := by
    rcases hf with rfl | ⟨d, -, rfl⟩
    · exact hxr.1
    · rintro _ ⟨⟩; decide +kernel
  have e : i ++ f ++ x ++ rest = i ++ (f ++ (x ++ rest)) := by simp
  have hn : ¬ (f = [] ∧ x = []) := by
    rintro ⟨rfl, rfl⟩
    simp at hne
  rw [e]
  simp only [readNumber, takeInt_of hi hfr, takeFrac_of hf hxr.1 (fun _ => hxr.2), takeExp_of hx hr, if_neg hn]

/-- A number begins with a minus sign and a digit or with a digit. -/
theorem integer_head {i : Int} {s : Str} (h : Integer i s) :
    (∃ c r, s = c :: r ∧ Digit c) ∨ ∃ c r, s = '-' :: c :: r ∧ Digit c := by
  cases h with
  | pos hn =>
    obtain ⟨⟨hne, hd⟩, -⟩ := hn
    cases s with
    | nil => exact absurd rfl hne
    | cons c s => exact .inl ⟨c, s, rfl, hd c List.mem_cons_self⟩
  | @neg d hn =>
    obtain ⟨⟨hne, hd⟩, -⟩ := hn
    cases d with
    | nil => exact absurd rfl hne
    | cons c s => exact .inr ⟨c, s, rfl, hd c List.mem_cons_self⟩

theorem scan_number {n : Nat} {s : Str}
    (h : (∃ c r, s = c :: r ∧ Digit c) ∨ ∃ c r, s = '-' :: c :: r ∧ Digit c) : scan (n + 1) s = readNumber s := by
  rcases h with ⟨c, r, rfl, hc⟩ | ⟨c, r, rfl, hc⟩
  · have := (digit_facts hc).2.2.2.1
    have h0 := (digit_facts hc).1
    unfold scan
    split <;> first | rfl | (rename_i heq; cases heq; simp at this h0)
  · have := (digit_facts hc).2.2.2.1
    unfold scan
    split <;> first | rfl | (rename_i heq; cases heq <;> simp at this)

/-! ## Texts -/

theorem json_head {F : Floats} {v : PyVal} {s : Str} (h : Json F v s) :
    ∃ c r, s = c :: r ∧ c ∉ [' ', '\t', '\n', '\r', ',', ']', '}', ':'] ∧ c ≠ Char.ofNat 65279 := by
  have num : ∀ {k i} (r : Str), Integer k i →
      ∃ c r', i ++ r = c :: r' ∧ c ∉ [' ', '\t', '\n', '\r', ',', ']', '}', ':'] ∧ c ≠ Char.ofNat 65279 := by
    intro k i r hi
    rcases integer_head hi with ⟨c, r', rfl, hc⟩ | ⟨c, r', rfl, hc⟩
    · have := digit_facts hc
      refine ⟨c, r' ++ r, rfl, ?_, this.2.2.2.2⟩
      have h4 := this.2.2.2.1
      simp only [List.mem_cons, List.not_mem_nil, or_false, not_or] at h4 ⊢
      simp [h4]
    · exact ⟨'-', c :: r' ++ r, rfl, by decide, by decide⟩
  cases h with
  | null => exact ⟨'n', _, rfl, by decide, by decide⟩
  | true_ => exact ⟨'t', _, rfl, by decide, by decide⟩
  | false_ => exact ⟨'f', _, rfl, by decide, by decide⟩
  | int hi =>
    have := num [] hi
    rwa [List.append_nil] at this
  | float hf _ =>
    obtain ⟨k, i, f, x, hi, -, -, -, rfl⟩ := hf
    rw [List.append_assoc]
    exact num _ hi
  | str _ => exact ⟨'"', _, rfl, by decide, by decide⟩
  | emptyList _ => exact ⟨'[', _, rfl, by decide, by decide⟩
  | list _ => exact ⟨'[', _, rfl, by decide, by decide⟩
  | emptyDict _ => exact ⟨'{', _, rfl, by decide, by decide⟩
  | dict _ => exact ⟨'{', _, rfl, by decide, by decide⟩

theorem skip_json {F : Floats} {v : PyVal} {s : Str} (h : Json F v s) (r : Str) : skip (s ++ r) = s ++ r := by
  obtain ⟨c, r', rfl, hc, -⟩ := json_head h
  rw [List.cons_append, skip_solid]
  simp only [List.mem_cons, List.not_mem_nil, or_false, not_or] at hc ⊢
  simp [hc]

theorem ends_blank {w r : Str} (hw : Blank w) (hr : Ends r) : Ends (w ++ r) := by
  cases w with
  | nil => exact hr
  | cons c w =>
    rintro _ ⟨⟩
    have := blank_iff.mp (hw c List.mem_cons_self)
    simp only [List.mem_cons]
    rcases this with h | h | h | h <;> simp [h]

theorem ends_cons {c : Char} (h : c ∈ [',', ']', '}']) (r : Str) : Ends (c :: r) := by
  rintro _ ⟨⟩
  simp only [List.mem_cons, List.not_mem_nil, or_false] at h ⊢
  rcases h with h | h | h <;> simp [h]

/-- The text `s` is read as `v`, with `rest` left. -/
def Reads (F : Floats) (n : Nat) (s rest : Str) (v : PyVal) : Prop :=
  ∃ t, scan n (s ++ rest) = .ok (t, rest) ∧ valueOf F t = some v

theorem scan_quote (n : Nat) (s : Str) : scan (n + 1) ('"' :: s) =
    match readStr n s with
    | .error e => .error e
    | .ok (ps, s) => .ok (.str ps, s) := by
  rw [scan]
  rfl

theorem scan_bracket {n : Nat} {s : Str} (h : (skip s).head? ≠ some ']') : scan (n + 1) ('[' :: s) =
    match scanItems n (skip s) with
    | .error e => .error e
    | .ok (xs, s) => .ok (.list xs, s) := by
  rw [scan]
  split
  · rename_i heq
    rw [heq] at h
    exact absurd rfl h
  · rfl

theorem scan_brace {n : Nat} {s : Str} (h : (skip s).head? ≠ some '}') : scan (n + 1) ('{' :: s) =
    match scanPairs n (skip s) with
    | .error e => .error e
    | .ok (kvs, s) => .ok (.dict kvs, s) := by
  rw [scan]
  split
  · rename_i heq
    rw [heq] at h
    exact absurd rfl h
  · rfl

theorem items_head {F : Floats} {xs : List PyVal} {s : Str} (h : Items F xs s) (r : Str) :
    (skip (s ++ r)).head? ≠ some ']' := by
  have key : ∀ {x s w} (r' : Str), Blank w → Json F x s → (skip (w ++ (s ++ r'))).head? ≠ some ']' := by
    intro x s w r' hw hj
    rw [skip_blank hw, skip_json hj]
    obtain ⟨c, r'', rfl, hc, -⟩ := json_head hj
    intro hh
    rw [List.cons_append, List.head?_cons] at hh
    cases hh
    simp at hc
  cases h with
  | one hw hj _ => rw [List.append_assoc, List.append_assoc]; exact key _ hw hj
  | cons hw hj _ _ =>
    simp only [List.append_assoc]
    exact key _ hw hj

theorem pairs_head {F : Floats} {kvs : List (String × PyVal)} {s : Str} (h : Pairs F kvs s) (r : Str) :
    ∃ r', skip (s ++ r) = '"' :: r' := by
  cases h with
  | one hw =>
    simp only [List.append_assoc, List.cons_append]
    rw [skip_blank hw, skip_solid (by decide)]
    exact ⟨_, rfl⟩
  | cons hw =>
    simp only [List.append_assoc, List.cons_append]
    rw [skip_blank hw, skip_solid (by decide)]
    exact ⟨_, rfl⟩

mutual
theorem scan_of {F : Floats} {v : PyVal} {s : Str} (h : Json F v s) {rest : Str} (hr : Ends rest) {n : Nat}
    (hn : 2 * s.length ≤ n) : Reads F (n + 1) s rest v := by
  match h with
  | .null => exact ⟨.null, rfl, rfl⟩
  | .true_ => exact ⟨.bool true, rfl, rfl⟩
  | .false_ => exact ⟨.bool false, rfl, rfl⟩
  | .int hi =>
    refine ⟨.int _, ?_, rfl⟩
    rw [scan_number, readNumber_int hi hr]
    rcases integer_head hi with ⟨c, r, rfl, hc⟩ | ⟨c, r, rfl, hc⟩
    · exact .inl ⟨c, _, rfl, hc⟩
    · exact .inr ⟨c, _, rfl, hc⟩
  | .float hf hv =>
    refine ⟨.float s, ?_, hv⟩
    rw [scan_number, readNumber_float hf hr]
    obtain ⟨k, i, f, x, hi, -, -, -, rfl⟩ := hf
    rcases integer_head hi with ⟨c, r, rfl, hc⟩ | ⟨c, r, rfl, hc⟩
    · exact .inl ⟨c, _, rfl, hc⟩
    · exact .inr ⟨c, _, rfl, hc⟩
  | @Json.str _ cs s hq =>
    refine ⟨.str (cs.map Char.toNat), ?_, by rw [valueOf, strOf_map]; rfl⟩
    simp only [List.cons_append, List.length_cons, List.length_append, List.append_assoc, List.nil_append] at hn ⊢
    rw [scan_quote, readStr_of hq rest n (by omega)]
  | @Json.emptyList _ w hw =>
    refine ⟨.list [], ?_, rfl⟩
    simp only [List.cons_append, List.append_assoc, List.nil_append]
    rw [scan, skip_blank hw, skip_solid (by decide)]
    rfl
  | @Json.emptyDict _ w hw =>
    refine ⟨.dict [], ?_, rfl⟩
    simp only [List.cons_append, List.append_assoc, List.nil_append]
    rw [scan, skip_blank hw, skip_solid (by decide)]
    rfl
  | @Json.list _ xs s hi =>
    simp only [List.cons_append, List.length_cons, List.length_append] at hn
    obtain ⟨ts, h1, h2⟩ := items_of hi (rest := rest) (n := n) (by omega)
    refine ⟨.list ts, ?_, by rw [valueOf, h2]; rfl⟩
    simp only [List.cons_append, List.append_assoc, List.nil_append]
    rw [scan_bracket (items_head hi _), h1]
  | @Json.dict _ kvs s hi =>
    simp only [List.cons_append, List.length_cons, List.length_append] at hn
    obtain ⟨ts, h1, h2⟩ := pairs_of hi (rest := rest) (n := n) (by omega)
    refine ⟨.dict ts, ?_, by rw [valueOf, h2]; rfl⟩
    simp only [List.cons_append, List.append_assoc, List.nil_append]
    rw [scan_brace, h1]
    obtain ⟨r', e⟩ := pairs_head hi ('}' :: rest)
    rw [e]
    simp
theorem items_of {F : Floats} {xs : List PyVal} {s : Str} (h : Items F xs s) {rest : Str} {n : Nat}
    (hn : 2 * s.length + 2 ≤ n) :
    ∃ ts, scanItems n (skip (s ++ ']' :: rest)) = .ok (ts, rest) ∧ valuesOf F ts = some xs := by
  match h with
  | @Items.one _ x w s w' hw hj hw' =>
    simp only [List.length_append] at hn
    obtain ⟨n, rfl⟩ : ∃ m, n = m + 2 := ⟨n - 2, by omega⟩
    obtain ⟨t, h1, h2⟩ := scan_of hj (ends_blank hw' (ends_cons (c := ']') (by decide) rest)) (n := n) (by omega)
    refine ⟨[t], ?_, by rw [valuesOf, h2]; rfl⟩
    simp only [List.append_assoc]
    rw [skip_blank hw, skip_json hj, scanItems, h1]
    simp only [skip_blank hw', skip_solid (c := ']') (by decide)]
  | @Items.cons _ x xs w s w' r hw hj hw' hi =>
    simp only [List.length_append, List.length_cons] at hn
    obtain ⟨n, rfl⟩ : ∃ m, n = m + 2 := ⟨n - 2, by omega⟩
    obtain ⟨t, h1, h2⟩ := scan_of hj (ends_blank hw' (ends_cons (c := ',') (by decide) (r ++ ']' :: rest)))
      (n := n) (by omega)
    obtain ⟨ts, h3, h4⟩ := items_of hi (rest := rest) (n := n + 1) (by omega)
    refine ⟨t :: ts, ?_, by rw [valuesOf, h2, h4]⟩
    simp only [List.append_assoc, List.cons_append]
    rw [skip_blank hw, skip_json hj, scanItems, h1]
    simp only [skip_blank hw', skip_solid (c := ',') (by decide), h3]
theorem pairs_of {F : Floats} {kvs : List (String × PyVal)} {s : Str} (h : Pairs F kvs s) {rest : Str} {n : Nat}
    (hn : 2 * s.length + 2 ≤ n) :
    ∃ ts, scanPairs n (skip (s ++ '}' :: rest)) = .ok (ts, rest) ∧
      ∀ d, pairsOf F ts d = some (kvs.foldl (fun d kv => Dict.set d kv.1 kv.2) d) := by
  match h with
  | @Pairs.one _ cs k x w w1 w2 s w' hw hq hw1 hw2 hj hw' =>
    simp only [List.length_append, List.length_cons] at hn
    obtain ⟨n, rfl⟩ : ∃ m, n = m + 2 := ⟨n - 2, by omega⟩
    obtain ⟨t, h1, h2⟩ := scan_of hj (ends_blank hw' (ends_cons (c := '}') (by decide) rest)) (n := n) (by omega)
    refine ⟨[(cs.map Char.toNat, t)], ?_, fun d => by rw [pairsOf, strOf_map, h2]; rfl⟩
    simp only [List.append_assoc, List.cons_append]
    rw [skip_blank hw, skip_solid (by decide), scanPairs]
    simp only [readStr_of hq _ (n + 1) (by omega), skip_blank hw1, skip_solid (c := ':') (by decide), skip_blank hw2,
      skip_json hj, h1, skip_blank hw', skip_solid (c := '}') (by decide)]
  | @Pairs.cons _ cs k x kvs w w1 w2 s w' r hw hq hw1 hw2 hj hw' hi =>
    simp only [List.length_append, List.length_cons] at hn
    obtain ⟨n, rfl⟩ : ∃ m, n = m + 2 := ⟨n - 2, by omega⟩
    obtain ⟨t, h1, h2⟩ := scan_of hj (ends_blank hw' (ends_cons (c := ',') (by decide) (r ++ '}' :: rest)))
      (n := n) (by omega)
    obtain ⟨ts, h3, h4⟩ := pairs_of hi (rest := rest) (n := n + 1) (by omega)
    refine ⟨(cs.map Char.toNat, t) :: ts, ?_, fun d => by rw [pairsOf, strOf_map, h2]; exact h4 _⟩
    simp only [List.append_assoc, List.cons_append]
    rw [skip_blank hw, skip_solid (by decide), scanPairs]
    simp only [readStr_of hq _ (n + 1) (by omega), skip_blank hw1, skip_solid (c := ':') (by decide), skip_blank hw2,
      skip_json hj, h1, skip_blank hw', skip_solid (c := ',') (by decide), h3]
end

theorem skip_le (s : Str) : (skip s).length ≤ s.length := by
  induction s with
  | nil => simp [skip]
  | cons c s ih =>
    rw [skip]
    split
    · simp only [List.length_cons]; omega
    · exact Nat.le_refl _

/-- Every JSON text is read as the value that it denotes. -/
theorem loads_of {F : Floats} {v : PyVal} {s : Str} (h : IsJson F v s) : loads F s = .ok v := by
  obtain ⟨w, body, w', hw, hj, hw', rfl⟩ := h
  have hb : (w ++ body ++ w').head? ≠ some (Char.ofNat 65279) := by
    cases w with
    | nil =>
      obtain ⟨c, r, rfl, -, hc⟩ := json_head hj
      simpa using hc
    | cons c w =>
      have := hw c List.mem_cons_self
      simp only [List.cons_append, List.head?_cons]
      rintro ⟨⟩
      revert this
      decide
  have hl : 2 * body.length ≤ 2 * (w ++ body ++ w').length + 1 := by
    simp only [List.length_append]; omega
  obtain ⟨t, h1, h2⟩ := scan_of hj (rest := w') (by
    have := ends_blank (r := []) hw' (by rintro _ ⟨⟩)
    rwa [List.append_nil] at this) hl
  unfold loads scanText
  rw [if_neg hb, List.append_assoc, skip_blank hw, skip_json hj, ← List.append_assoc, h1]
  simp only [skip_all hw', if_true, h2]

end Recap.JsonText
