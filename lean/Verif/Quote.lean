/-!
# Names as directory names

Model of `urllib.parse.quote_plus` and `unquote_plus` of the Python standard library, as used by
`recap/storage/registry.py` (lines 3, 18, 28, 50, 66), of the split of a path at `/` and of decimal
numbers.  A Python string is a list of characters here; lone surrogates are not modelled.
-/

set_option autoImplicit false

namespace Recap

/-- A Python string, character by character. -/
abbrev Str := List Char

/-! ## UTF-8 -/

/-- `s.encode("utf-8")`. -/
def utf8 (s : Str) : List UInt8 := s.flatMap String.utf8EncodeChar

/-- `b.decode("utf-8")`; `none` if the bytes are not valid UTF-8 (the replacement characters that
`unquote` would insert are not modelled). -/
def utf8Decode (b : List UInt8) : Option Str := (b.toByteArray.utf8Decode?).map (·.toList)

/-! ## Quoting -/

/-- The characters that `quote` leaves alone (`_ALWAYS_SAFE`): letters, digits and `_.-~`. -/
def alwaysSafe (b : UInt8) : Bool :=
  (97 ≤ b.toNat && b.toNat ≤ 122) || (65 ≤ b.toNat && b.toNat ≤ 90) || (48 ≤ b.toNat && b.toNat ≤ 57) ||
    b.toNat == 95 || b.toNat == 46 || b.toNat == 45 || b.toNat == 126

/-- Upper-case hexadecimal digit. -/
def hexDigit (n : Nat) : Char := if n < 10 then Char.ofNat (48 + n) else Char.ofNat (55 + n)

/-- How `quote_plus` writes one byte: as itself, `+` for a space, or `%XX`. -/
def quoteByte (b : UInt8) : Str :=
  if alwaysSafe b then [Char.ofNat b.toNat]
  else if b.toNat = 32 then ['+']
  else ['%', hexDigit (b.toNat / 16), hexDigit (b.toNat % 16)]

/-- `quote_plus(name)` (storage/registry.py 28, 50, 66). -/
def quotePlus (name : Str) : Str := (utf8 name).flatMap quoteByte

/-- Value of a hexadecimal digit, upper or lower case. -/
def hexValue (c : Char) : Option Nat :=
  if 48 ≤ c.toNat ∧ c.toNat ≤ 57 then some (c.toNat - 48)
  else if 65 ≤ c.toNat ∧ c.toNat ≤ 70 then some (c.toNat - 55)
  else if 97 ≤ c.toNat ∧ c.toNat ≤ 102 then some (c.toNat - 87)
  else none

/-- `unquote_to_bytes` after the replacement of `+` by a space: `%XX` gives one byte, everything
else stays.  Only for ASCII text: directory names written by `quote_plus` are ASCII. -/
def unquoteBytes : Str → List UInt8
  | '%' :: a :: b :: rest =>
    match hexValue a, hexValue b with
    | some x, some y => UInt8.ofNat (x * 16 + y) :: unquoteBytes rest
    | _, _ => UInt8.ofNat '%'.toNat :: unquoteBytes (a :: b :: rest)
  | '+' :: rest => 32 :: unquoteBytes rest
  | c :: rest => UInt8.ofNat c.toNat :: unquoteBytes rest
  | [] => []
termination_by s => s.length

/-- `unquote_plus(s)` (storage/registry.py 18). -/
def unquotePlus (s : Str) : Option Str := utf8Decode (unquoteBytes s)

/-! ## Paths -/

/-- The parts of a path between slashes. -/
def splitSlash : Str → List Str
  | [] => [[]]
  | c :: cs =>
    match splitSlash cs with
    | [] => [[c]]
    | p :: ps => if c = '/' then [] :: p :: ps else (c :: p) :: ps

/-- How the operating system follows the parts of a path from the directory `acc`: empty parts and
`.` stay, `..` goes up.  Simplification: symbolic links do not exist. -/
def walk (acc : List Str) : List Str → List Str
  | [] => acc
  | p :: ps =>
    if p = [] ∨ p = ['.'] then walk acc ps
    else if p = ['.', '.'] then walk acc.dropLast ps
    else walk (acc ++ [p]) ps

/-- The place in the file system that an absolute path denotes. -/
def locate (path : Str) : List Str := walk [] (splitSlash path)

/-! ## Decimal numbers -/

/-- Digits of a natural number. -/
def natDigits (n : Nat) : Str :=
  if n < 10 then [Char.ofNat (48 + n)] else natDigits (n / 10) ++ [Char.ofNat (48 + n % 10)]
termination_by n

/-- `str(i)` for a Python int. -/
def intStr (i : Int) : Str :=
  match i with
  | .ofNat n => natDigits n
  | .negSucc n => '-' :: natDigits (n + 1)

/-- Value of a decimal digit. -/
def digitValue (c : Char) : Option Nat :=
  if 48 ≤ c.toNat ∧ c.toNat ≤ 57 then some (c.toNat - 48) else none

/-- Value of a string of digits. -/
def digitsValue : Nat → Str → Option Nat
  | acc, [] => some acc
  | acc, c :: cs =>
    match digitValue c with
    | some d => digitsValue (acc * 10 + d) cs
    | none => none

/-- `int(s)`: optional sign and digits.  Simplification: the white space, underscores and
non-ASCII digits that Python allows as well are refused; the storage never writes them. -/
def strInt (s : Str) : Option Int :=
  match s with
  | [] => none
  | '-' :: c :: cs => (digitsValue 0 (c :: cs)).map (fun n => -(n : Int))
  | '+' :: c :: cs => (digitsValue 0 (c :: cs)).map (fun n => (n : Int))
  | c :: cs => (digitsValue 0 (c :: cs)).map (fun n => (n : Int))

/-- The part of a string before its last dot, and whether there is a dot. -/
def beforeLastDot : Str → Option Str
  | [] => none
  | c :: cs =>
    match beforeLastDot cs with
    | some p => some (c :: p)
    | none => if c = '.' then some [] else none

/-- `Path(file_name).stem` (storage/registry.py 72): the part before the last dot, unless that dot
is the first or the last character. -/
def stem (s : Str) : Str :=
  match beforeLastDot s with
  | some (c :: p) => if s.getLast? = some '.' then s else c :: p
  | _ => s

/-! ## Facts about quoting -/

theorem utf8Decode_utf8 (s : Str) : utf8Decode (utf8 s) = some s := by
  have := List.utf8Decode?_utf8Encode (l := s)
  unfold utf8Decode utf8
  unfold List.utf8Encode at this
  rw [this]; simp

theorem byte_cases (P : UInt8 → Prop) (h : ∀ n, n < 256 → P (UInt8.ofNat n)) (b : UInt8) : P b := by
  have := h b.toNat b.toNat_lt
  simpa using this

theorem unquoteBytes_pct {a b : Char} {x y : Nat} (rest : Str) (ha : hexValue a = some x)
    (hb : hexValue b = some y) :
    unquoteBytes ('%' :: a :: b :: rest) = UInt8.ofNat (x * 16 + y) :: unquoteBytes rest := by
  rw [unquoteBytes]; simp [ha, hb]

theorem unquoteBytes_plus (rest : Str) : unquoteBytes ('+' :: rest) = 32 :: unquoteBytes rest := by
  rw [unquoteBytes]

theorem unquoteBytes_other {c : Char} (rest : Str) (h1 : c ≠ '%') (h2 : c ≠ '+') :
    unquoteBytes (c :: rest) = UInt8.ofNat c.toNat :: unquoteBytes rest := by
  rw [unquoteBytes]
  · intro a b r h; exact absurd h h1
  · exact h2

theorem quoteByte_facts : ∀ b : UInt8,
    (alwaysSafe b = true ∧ quoteByte b = [Char.ofNat b.toNat] ∧ Char.ofNat b.toNat ≠ '%' ∧
      Char.ofNat b.toNat ≠ '+' ∧ UInt8.ofNat (Char.ofNat b.toNat).toNat = b) ∨
    (b = 32 ∧ quoteByte b = ['+']) ∨
    (quoteByte b = ['%', hexDigit (b.toNat / 16), hexDigit (b.toNat % 16)] ∧
      hexValue (hexDigit (b.toNat / 16)) = some (b.toNat / 16) ∧
      hexValue (hexDigit (b.toNat % 16)) = some (b.toNat % 16) ∧
      UInt8.ofNat (b.toNat / 16 * 16 + b.toNat % 16) = b) :=
  byte_cases _ (by decide +kernel)

theorem quoteByte_unquote (b : UInt8) (rest : Str) :
    unquoteBytes (quoteByte b ++ rest) = b :: unquoteBytes rest := by
  rcases quoteByte_facts b with ⟨-, h, h1, h2, h3⟩ | ⟨rfl, h⟩ | ⟨h, h1, h2, h3⟩
  · rw [h, List.singleton_append, unquoteBytes_other _ h1 h2, h3]
  · rw [h, List.singleton_append, unquoteBytes_plus]
  · rw [h]
    simp only [List.cons_append, List.nil_append]
    rw [unquoteBytes_pct _ h1 h2, h3]

theorem unquoteBytes_quote (bs : List UInt8) : unquoteBytes (bs.flatMap quoteByte) = bs := by
  induction bs with
  | nil => simp [unquoteBytes]
  | cons b bs ih => rw [List.flatMap_cons, quoteByte_unquote, ih]

theorem unquotePlus_quotePlus (s : Str) : unquotePlus (quotePlus s) = some s := by
  unfold unquotePlus quotePlus
  rw [unquoteBytes_quote, utf8Decode_utf8]

theorem quotePlus_injective {s t : Str} (h : quotePlus s = quotePlus t) : s = t := by
  have := congrArg unquotePlus h
  rw [unquotePlus_quotePlus, unquotePlus_quotePlus] at this
  exact Option.some.inj this

theorem quoteByte_no_slash : ∀ b : UInt8, '/' ∉ quoteByte b ∧ quoteByte b ≠ [] :=
  byte_cases _ (by decide +kernel)

theorem quotePlus_no_slash (s : Str) : '/' ∉ quotePlus s := by
  unfold quotePlus
  rw [List.mem_flatMap]
  rintro ⟨b, -, h⟩
  exact (quoteByte_no_slash b).1 h

theorem quotePlus_ordinary {s : Str} (h1 : s ≠ []) (h2 : s ≠ ['.']) (h3 : s ≠ ['.', '.']) :
    quotePlus s ≠ [] ∧ quotePlus s ≠ ['.'] ∧ quotePlus s ≠ ['.', '.'] := by
  have e1 : quotePlus [] = [] := by decide +kernel
  have e2 : quotePlus ['.'] = ['.'] := by decide +kernel
  have e3 : quotePlus ['.', '.'] = ['.', '.'] := by decide +kernel
  exact ⟨fun h => h1 (quotePlus_injective (h.trans e1.symm)),
    fun h => h2 (quotePlus_injective (h.trans e2.symm)),
    fun h => h3 (quotePlus_injective (h.trans e3.symm))⟩

/-! ## Facts about paths -/

theorem splitSlash_ne_nil (s : Str) : splitSlash s ≠ [] := by
  cases s with
  | nil => simp [splitSlash]
  | cons c cs =>
    simp only [splitSlash]
    split
    · simp
    · split <;> simp

theorem splitSlash_part {p : Str} (h : '/' ∉ p) : splitSlash p = [p] := by
  induction p with
  | nil => rfl
  | cons c cs ih =>
    simp only [List.mem_cons, not_or] at h
    simp only [splitSlash, ih h.2, Ne.symm h.1, if_false]

theorem splitSlash_append {p : Str} (h : '/' ∉ p) (s : Str) :
    splitSlash (p ++ '/' :: s) = p :: splitSlash s := by
  induction p with
  | nil =>
    simp only [List.nil_append, splitSlash]
    split
    · rename_i hs; exact absurd hs (splitSlash_ne_nil s)
    · simp_all
  | cons c cs ih =>
    simp only [List.mem_cons, not_or] at h
    simp only [List.cons_append, splitSlash, ih h.2, Ne.symm h.1, if_false]

theorem walk_plain {ps : List Str} (h : ∀ p ∈ ps, p ≠ [] ∧ p ≠ ['.'] ∧ p ≠ ['.', '.']) (acc : List Str) :
    walk acc ps = acc ++ ps := by
  induction ps generalizing acc with
  | nil => simp [walk]
  | cons p ps ih =>
    have hp := h p List.mem_cons_self
    simp only [walk, hp.1, hp.2.1, hp.2.2, or_self, if_false]
    rw [ih fun q hq => h q (List.mem_cons_of_mem _ hq)]
    simp

/-! ## Facts about decimal numbers -/

theorem digitValue_digit : ∀ n, n < 10 → digitValue (Char.ofNat (48 + n)) = some n := by decide +kernel

theorem digitsValue_append (acc : Nat) (s t : Str) :
    digitsValue acc (s ++ t) = match digitsValue acc s with
      | some n => digitsValue n t
      | none => none := by
  induction s generalizing acc with
  | nil => rfl
  | cons c cs ih =>
    simp only [List.cons_append, digitsValue]
    split
    · exact ih _
    · rfl

theorem digitsValue_natDigits (n : Nat) : digitsValue 0 (natDigits n) = some n := by
  induction n using Nat.strongRecOn with
  | ind n ih =>
    rw [natDigits]
    split
    · rename_i h
      simp [digitsValue, digitValue_digit n h]
    · rename_i h
      rw [digitsValue_append, ih (n / 10) (by omega)]
      have := digitValue_digit (n % 10) (by omega)
      simp only [digitsValue, this]
      congr 1; omega

theorem natDigits_cons (n : Nat) : ∃ c cs, natDigits n = c :: cs ∧ ∀ x ∈ c :: cs, ∃ d, d < 10 ∧ x = Char.ofNat (48 + d) := by
  induction n using Nat.strongRecOn with
  | ind n ih =>
    rw [natDigits]
    split
    · rename_i h
      exact ⟨_, [], rfl, by simp; exact ⟨n, h, rfl⟩⟩
    · rename_i h
      obtain ⟨c, cs, h1, h2⟩ := ih (n / 10) (by omega)
      refine ⟨c, cs ++ [Char.ofNat (48 + n % 10)], by rw [h1]; rfl, ?_⟩
      intro x hx
      rw [← List.cons_append, List.mem_append, List.mem_singleton] at hx
      rcases hx with hx | rfl
      · exact h2 x hx
      · exact ⟨n % 10, by omega, rfl⟩

theorem digit_plain : ∀ d, d < 10 → Char.ofNat (48 + d) ≠ '-' ∧ Char.ofNat (48 + d) ≠ '+' ∧
    Char.ofNat (48 + d) ≠ '.' ∧ Char.ofNat (48 + d) ≠ '/' := by decide +kernel

theorem strInt_intStr (i : Int) : strInt (intStr i) = some i := by
  cases i with
  | ofNat n =>
    obtain ⟨c, cs, h1, h2⟩ := natDigits_cons n
    obtain ⟨d, hd, rfl⟩ := h2 c List.mem_cons_self
    have h3 := digitsValue_natDigits n
    simp only [intStr]
    rw [h1] at h3 ⊢
    have := digit_plain d hd
    unfold strInt
    split
    · simp_all
    · simp_all
    · simp_all
    · rename_i h; cases h; rw [h3]; rfl
  | negSucc n =>
    obtain ⟨c, cs, h1, h2⟩ := natDigits_cons (n + 1)
    have h3 := digitsValue_natDigits (n + 1)
    simp only [intStr]
    rw [h1] at h3 ⊢
    simp only [strInt, h3]
    rfl

theorem intStr_injective {i j : Int} (h : intStr i = intStr j) : i = j := by
  have := congrArg strInt h
  rw [strInt_intStr, strInt_intStr] at this
  exact Option.some.inj this

theorem intStr_chars (i : Int) : (∃ c cs, intStr i = c :: cs) ∧ '.' ∉ intStr i ∧ '/' ∉ intStr i := by
  have key : ∀ n, '.' ∉ natDigits n ∧ '/' ∉ natDigits n := by
    intro n
    obtain ⟨c, cs, h1, h2⟩ := natDigits_cons n
    rw [h1]
    constructor <;>
    · intro hm
      obtain ⟨d, hd, e⟩ := h2 _ hm
      obtain ⟨-, -, e1, e2⟩ := digit_plain d hd
      first | exact e1 e.symm | exact e2 e.symm
  cases i with
  | ofNat n =>
    obtain ⟨c, cs, h1, -⟩ := natDigits_cons n
    exact ⟨⟨c, cs, h1⟩, key n⟩
  | negSucc n =>
    refine ⟨⟨_, _, rfl⟩, ?_, ?_⟩ <;>
    · simp only [intStr, List.mem_cons, not_or]
      exact ⟨by decide, by first | exact (key _).1 | exact (key _).2⟩

theorem beforeLastDot_none {s : Str} (h : '.' ∉ s) : beforeLastDot s = none := by
  induction s with
  | nil => rfl
  | cons c cs ih =>
    simp only [List.mem_cons, not_or] at h
    simp only [beforeLastDot, ih h.2, Ne.symm h.1, if_false]

theorem beforeLastDot_append {s t : Str} (h : '.' ∉ t) : beforeLastDot (s ++ '.' :: t) = some s := by
  induction s with
  | nil => simp [beforeLastDot, beforeLastDot_none h]
  | cons c cs ih => simp [beforeLastDot, ih]

theorem stem_json {s : Str} (h : s ≠ []) : stem (s ++ ".json".toList) = s := by
  have h1 : beforeLastDot (s ++ '.' :: "json".toList) = some s := beforeLastDot_append (by decide)
  have e : ".json".toList = '.' :: "json".toList := by decide
  unfold stem
  rw [e, h1]
  cases s with
  | nil => exact absurd rfl h
  | cons c p =>
    simp only
    rw [if_neg]
    rw [List.getLast?_append]
    have : ('.' :: "json".toList).getLast? = some 'n' := by decide
    rw [this]; simp

end Recap
