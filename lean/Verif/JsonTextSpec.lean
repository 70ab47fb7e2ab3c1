import Verif.JsonText
import Verif.TypesSpec

/-!
# Specification of JSON texts

The grammar of RFC 8259, with the values that texts denote.  Independent of the scanner: only
`Floats` (how a text denotes a float) is shared with the model.
-/

set_option autoImplicit false

namespace Recap.JsonText.Spec

open Recap

/-- White space. -/
def Blank (s : Str) : Prop := ∀ c ∈ s, c ∈ [' ', '\t', '\n', '\r']

/-- The hexadecimal digit `c` has the value `d`. -/
def Hex (c : Char) (d : Nat) : Prop :=
  "0123456789abcdef".toList[d]? = some c ∨ "0123456789ABCDEF".toList[d]? = some c

/-- Four hexadecimal digits and their value. -/
inductive Hex4 : Nat → Str → Prop
  | mk {a b c d : Char} {w x y z : Nat} : Hex a w → Hex b x → Hex c y → Hex d z →
      Hex4 (w * 4096 + x * 256 + y * 16 + z) [a, b, c, d]

/-- The escapes of one letter and the code points that they stand for. -/
def escapes : List (Char × Nat) :=
  [('"', 34), ('\\', 92), ('/', 47), ('b', 8), ('f', 12), ('n', 10), ('r', 13), ('t', 9)]

/-- The text between the quotes of a string with these characters. -/
inductive Quoted : List Char → Str → Prop
  | nil : Quoted [] []
  | plain {c : Char} {cs : List Char} {s : Str} : c ≠ '"' → c ≠ '\\' → 32 ≤ c.toNat → Quoted cs s →
      Quoted (c :: cs) (c :: s)
  | short {e c : Char} {cs : List Char} {s : Str} : (e, c.toNat) ∈ escapes → Quoted cs s →
      Quoted (c :: cs) ('\\' :: e :: s)
  | unit {c : Char} {h s : Str} {cs : List Char} : Hex4 c.toNat h → Quoted cs s →
      Quoted (c :: cs) ('\\' :: 'u' :: h ++ s)
  | pair {c : Char} {h h' s : Str} {x y : Nat} {cs : List Char} : Hex4 (0xD800 + x) h → Hex4 (0xDC00 + y) h' →
      x < 1024 → y < 1024 → c.toNat = 0x10000 + x * 1024 + y → Quoted cs s →
      Quoted (c :: cs) ('\\' :: 'u' :: h ++ '\\' :: 'u' :: h' ++ s)

/-- A decimal digit. -/
def Digit (c : Char) : Prop := c ∈ "0123456789".toList

/-- One or more digits. -/
def Digits (s : Str) : Prop := s ≠ [] ∧ ∀ c ∈ s, Digit c

/-- The number that digits denote. -/
def number (s : Str) : Nat := s.foldl (fun n c => 10 * n + (c.toNat - 48)) 0

/-- Digits without superfluous zeros in front. -/
def Natural (s : Str) : Prop := Digits s ∧ (s.head? = some '0' → s = ['0'])

/-- The text of an integer. -/
inductive Integer : Int → Str → Prop
  | pos {s : Str} : Natural s → Integer (number s) s
  | neg {s : Str} : Natural s → Integer (-(number s : Int)) ('-' :: s)

/-- A fraction, or nothing. -/
def Fraction (s : Str) : Prop := s = [] ∨ ∃ d, Digits d ∧ s = '.' :: d

/-- An exponent, or nothing. -/
def Exponent (s : Str) : Prop :=
  s = [] ∨ ∃ e d, (e = 'e' ∨ e = 'E') ∧ Digits d ∧ (s = e :: d ∨ s = e :: '-' :: d ∨ s = e :: '+' :: d)

/-- The text of a number with a fraction or an exponent. -/
def FloatText (s : Str) : Prop :=
  ∃ k i f x, Integer k i ∧ Fraction f ∧ Exponent x ∧ (f ≠ [] ∨ x ≠ []) ∧ s = i ++ f ++ x

/-- What is known about `float.__repr__` and `float()`: a float that is neither integral nor infinite
is written as a number with a fraction or an exponent, from which it is read again, and only such
floats are in `PyVal`. -/
structure Lawful (F : Floats) : Prop where
  text : ∀ m e, Recap.Spec.IsDouble m e → FloatText (F.repr m e)
  exact : ∀ m e, Recap.Spec.IsDouble m e → F.read (F.repr m e) = some (.float m e)
  double : ∀ s v, F.read s = some v → ∃ m e, v = .float m e ∧ Recap.Spec.IsDouble m e
  nan : F.read "NaN".toList = none
  infinity : F.read "Infinity".toList = none
  minusInfinity : F.read "-Infinity".toList = none

mutual
/-- `s` is a JSON text of `v`, without white space around it.  If a name occurs more than once in an
object, its last value counts. -/
inductive Json (F : Floats) : PyVal → Str → Prop
  | null : Json F .none "null".toList
  | true_ : Json F (.bool true) "true".toList
  | false_ : Json F (.bool false) "false".toList
  | int {i : Int} {s : Str} : Integer i s → Json F (.int i) s
  | float {v : PyVal} {s : Str} : FloatText s → F.read s = some v → Json F v s
  | str {cs : List Char} {s : Str} : Quoted cs s → Json F (.str (String.ofList cs)) ('"' :: s ++ ['"'])
  | emptyList {w : Str} : Blank w → Json F (.list []) ('[' :: w ++ [']'])
  | list {xs : List PyVal} {s : Str} : Items F xs s → Json F (.list xs) ('[' :: s ++ [']'])
  | emptyDict {w : Str} : Blank w → Json F (.dict []) ('{' :: w ++ ['}'])
  | dict {kvs : List (String × PyVal)} {s : Str} : Pairs F kvs s →
      Json F (.dict (kvs.foldl (fun d kv => Dict.set d kv.1 kv.2) [])) ('{' :: s ++ ['}'])
/-- The items of an array. -/
inductive Items (F : Floats) : List PyVal → Str → Prop
  | one {x : PyVal} {w s w' : Str} : Blank w → Json F x s → Blank w' → Items F [x] (w ++ s ++ w')
  | cons {x : PyVal} {xs : List PyVal} {w s w' r : Str} : Blank w → Json F x s → Blank w' → Items F xs r →
      Items F (x :: xs) (w ++ s ++ w' ++ ',' :: r)
/-- The items of an object. -/
inductive Pairs (F : Floats) : List (String × PyVal) → Str → Prop
  | one {cs : List Char} {k : Str} {x : PyVal} {w w1 w2 s w' : Str} : Blank w → Quoted cs k → Blank w1 → Blank w2 →
      Json F x s → Blank w' →
      Pairs F [(String.ofList cs, x)] (w ++ '"' :: k ++ '"' :: w1 ++ ':' :: w2 ++ s ++ w')
  | cons {cs : List Char} {k : Str} {x : PyVal} {kvs : List (String × PyVal)} {w w1 w2 s w' r : Str} : Blank w →
      Quoted cs k → Blank w1 → Blank w2 → Json F x s → Blank w' → Pairs F kvs r →
      Pairs F ((String.ofList cs, x) :: kvs) (w ++ '"' :: k ++ '"' :: w1 ++ ':' :: w2 ++ s ++ w' ++ ',' :: r)
end

/-- `s` is a JSON text of `v`. -/
def IsJson (F : Floats) (v : PyVal) (s : Str) : Prop :=
  ∃ w body w', Blank w ∧ Json F v body ∧ Blank w' ∧ s = w ++ body ++ w'

end Recap.JsonText.Spec
