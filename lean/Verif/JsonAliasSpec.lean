import Verif.JsonRefsSpec
import Verif.SettingsSpec

/-!
# The aliases of types that are read from JSON Schemas with identifiers (C145)
-/

set_option autoImplicit false

namespace Recap.JsonAlias

open Url (Chars Env)
open Url.Spec (Parts WellFormed netlocText render)
open Recap.Spec (Digit Ident FullyQualified)
open Json.Spec (Inside IsReference)

/-- A letter or a digit of ASCII. -/
def Alnum (c : Char) : Prop := (97 ≤ c.toNat ∧ c.toNat ≤ 122) ∨ (65 ≤ c.toNat ∧ c.toNat ≤ 90) ∨ Digit c

/-- Letters and digits, of which the first is a letter. -/
def Word (w : Chars) : Prop := ∃ c rest, w = c :: rest ∧ Alnum c ∧ ¬Digit c ∧ ∀ x ∈ rest, Alnum x

/-- The words with one other character between any two, and any other characters at the end. -/
inductive Follow : List Chars → Chars → Prop
  | last {w post} : (∀ c ∈ post, ¬Alnum c) → Follow [w] (w ++ post)
  | more {w c ws s} : ¬Alnum c → Follow ws s → Follow (w :: ws) (w ++ c :: s)

/-- The text has these words, with one other character between any two and any others around them.  A text without words
has at most one character. -/
def Spelled (ws : List Chars) (s : Chars) : Prop :=
  (ws = [] ∧ (s = [] ∨ ∃ c, s = [c] ∧ ¬Alnum c)) ∨ ∃ pre s', s = pre ++ s' ∧ (∀ c ∈ pre, ¬Alnum c) ∧ Follow ws s'

/-- The host is made of these labels and the path, with the fragment, of these words; all can be part of an alias, and there
are at least two. -/
structure Names (p : Parts) (labels words : List Chars) : Prop where
  host : netlocText p = List.intercalate ['.'] labels
  some_label : labels ≠ []
  label : ∀ l ∈ labels, Ident l
  path : Spelled words (p.path ++ p.fragment)
  word : ∀ w ∈ words, Word w
  two : 2 ≤ labels.length + words.length

/-- The identifier is a URL with these parts and without parameters, possibly with `#` at the end. -/
structure Identifier (env : Env) (id : String) (p : Parts) : Prop where
  wf : WellFormed env p
  plain : ';' ∉ p.path
  ends : (render p).getLast? ≠ some '#'
  text : ∃ m, id.toList = render p ++ List.replicate m '#'

/-- **C145**: every alias of a type that a new converter reads from a schema is one that Recap accepts. -/
def AliasesQualified (env : Env) : Prop :=
  ∀ (v : PyVal) (t : RType) (ids' : Json.Ids), Json.toRecap env v [] = .ok (t, ids') →
    ∀ u s, Inside u t → u.attrs.alias = .str s → FullyQualified s

end Recap.JsonAlias
