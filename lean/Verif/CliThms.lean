import Verif.CliSpec
import Verif.CommandsThms
import Verif.JsonTextThms

/-! # The command line prints what the gateway answers (C148) -/

set_option autoImplicit false

namespace Recap.Commands

open Recap.Url Recap.Clients Recap.Commands.Spec Recap.JsonText Recap.JsonText.Spec
open Recap.Relational (bind_ok)

/-- A URL that is used with `strict` is used in the same way without it. -/
theorem unsafe_lax {env : Env} {urls : List Chars} {url conn : Chars} (h : unsafeUrl env urls url true = .ok conn) :
    unsafeUrl env urls url false = .ok conn := by
  unfold unsafeUrl at h ⊢
  obtain ⟨s, h1, h⟩ := bind_ok h
  obtain ⟨m, h2, h⟩ := bind_ok h
  simp only [h1, h2, bind, Except.bind]
  cases m with
  | none => cases h
  | some m => exact h

/-- Without `strict` it is used as with it, or as it is. -/
theorem unsafe_cases {env : Env} {urls : List Chars} {url conn : Chars} (h : unsafeUrl env urls url false = .ok conn) :
    unsafeUrl env urls url true = .ok conn ∨
      (unsafeUrl env urls url true = .error .valueError ∧ unsafeUrl env [] url false = .ok conn) := by
  unfold unsafeUrl at h ⊢
  obtain ⟨s, h1, h⟩ := bind_ok h
  obtain ⟨m, h2, h⟩ := bind_ok h
  simp only [h1, h2, bind, Except.bind, findConf, pure, Except.pure]
  cases m with
  | none => right; exact ⟨rfl, h⟩
  | some m => left; exact h

theorem parse_lax {env : Env} {urls : List Chars} {method : String} {url : Chars} {r : Chars × List PyVal}
    (h : parseUrl env urls method url true = .ok r) : parseUrl env urls method url false = .ok r := by
  unfold parseUrl at h ⊢
  obtain ⟨d, h1, h⟩ := bind_ok h
  obtain ⟨c, h2, h⟩ := bind_ok h
  obtain ⟨⟨conn, args⟩, h3, h⟩ := bind_ok h
  obtain ⟨conn', h4, h⟩ := bind_ok h
  simp only [h1, h2, h3, unsafe_lax h4, bind, Except.bind]
  exact h

theorem parse_cases {env : Env} {urls : List Chars} {method : String} {url : Chars} {r : Chars × List PyVal}
    (h : parseUrl env urls method url false = .ok r) :
    parseUrl env urls method url true = .ok r ∨
      (parseUrl env urls method url true = .error .valueError ∧ parseUrl env [] method url false = .ok r) := by
  unfold parseUrl at h ⊢
  obtain ⟨d, h1, h⟩ := bind_ok h
  obtain ⟨c, h2, h⟩ := bind_ok h
  obtain ⟨⟨conn, args⟩, h3, h⟩ := bind_ok h
  obtain ⟨conn', h4, h⟩ := bind_ok h
  simp only [h1, h2, h3, bind, Except.bind]
  rcases unsafe_cases h4 with h5 | ⟨h5, h6⟩
  · left; rw [h5]; exact h
  · right; rw [h5, h6]; exact ⟨rfl, h⟩

theorem schema_lax {s : System} {url : Chars} {f : Format} {o : Output} (h : schema s url f true = .ok o) :
    schema s url f false = .ok o := by
  unfold schema reading at h ⊢
  obtain ⟨r, h1, h⟩ := bind_ok h
  obtain ⟨p, h2, h1⟩ := bind_ok h1
  simp only [parse_lax h2, bind, Except.bind] at h1 h ⊢
  rw [h1]
  exact h

theorem ls_lax {s : System} {url : Option Chars} {l : List Chars} (h : ls s url true = .ok l) : ls s url false = .ok l := by
  match url, h with
  | .none, h => exact h
  | some [], h => exact h
  | some (c :: cs), h =>
    simp only [ls] at h ⊢
    unfold listing at h ⊢
    obtain ⟨r, h1, h⟩ := bind_ok h
    obtain ⟨p, h2, h1⟩ := bind_ok h1
    simp only [parse_lax h2, bind, Except.bind] at h1 h ⊢
    rw [h1]
    exact h

theorem schema_cases {s : System} {url : Chars} {f : Format} {o : Output} (h : schema s url f false = .ok o) :
    schema s url f true = .ok o ∨
      (schema s url f true = .error .valueError ∧ schema { s with urls := [] } url f false = .ok o) := by
  unfold schema reading at h ⊢
  obtain ⟨r, h1, h⟩ := bind_ok h
  obtain ⟨p, h2, h1⟩ := bind_ok h1
  rcases parse_cases h2 with h3 | ⟨h3, h4⟩
  · left
    simp only [h3, bind, Except.bind] at h1 h ⊢
    rw [h1]
    exact h
  · right
    simp only [h3, h4, bind, Except.bind] at h1 h ⊢
    rw [h1]
    exact ⟨trivial, h⟩

theorem ls_cases {s : System} {url : Option Chars} {l : List Chars} (h : ls s url false = .ok l) :
    ls s url true = .ok l ∨ (ls s url true = .error .valueError ∧ ls { s with urls := [] } url false = .ok l) := by
  match url, h with
  | .none, h => exact .inl h
  | some [], h => exact .inl h
  | some (c :: cs), h =>
    simp only [ls] at h ⊢
    unfold listing at h ⊢
    obtain ⟨r, h1, h⟩ := bind_ok h
    obtain ⟨p, h2, h1⟩ := bind_ok h1
    rcases parse_cases h2 with h3 | ⟨h3, h4⟩
    · left
      simp only [h3, bind, Except.bind] at h1 h ⊢
      rw [h1]
      exact h
    · right
      simp only [h3, h4, bind, Except.bind] at h1 h ⊢
      rw [h1]
      exact ⟨trivial, h⟩

theorem real_strings (l : List Chars) : Recap.Spec.Real (strings l) := by
  unfold strings
  rw [Recap.Spec.Real]
  induction l with
  | nil => exact trivial
  | cons c l ih => exact ⟨trivial, ih⟩

theorem printed {F : Floats} (hF : Lawful F) {v : PyVal} (hv : Recap.Spec.Real v) : IsJson F v (dumps F .pretty v) :=
  isJson_of (json_dump hF proper_pretty v 0 hv)

/-- **C148** for schemas: what the gateway answers in some format, `recap schema` prints in that format. -/
theorem C148_schema {F : Floats} (hF : Lawful F) (s : System) (url : Chars) (header : Option String) (f : Format) (o : Output)
    (hf : Asks header f) (h : getSchema s url header = .ok o) (hp : Possible o) :
    ∃ p, recapSchema F s url f = .ok p ∧ Says F p o := by
  rw [getSchema_asks hf, respond_ok] at h
  refine ⟨printOutput F o, by simp [recapSchema, cliSchema, schema_lax h, bind, Except.bind, pure, Except.pure], ?_⟩
  cases o with
  | dict d => exact .text (printed hF hp)
  | file es => exact .file

/-- **C148** for listings (partial): `recap ls` prints what the gateway lists.  Missing: an empty list, for which it is
false, see below. -/
theorem C148_ls_partial {F : Floats} (hF : Lawful F) (s : System) (url : Chars) (l : List Chars) (h : getLs s url = .ok l)
    (hl : l ≠ []) : ∃ text, recapLs F s (some url) = .ok (some text) ∧ IsJson F (strings l) text := by
  have h := ls_lax (respond_ok.mp h)
  exact ⟨_, by simp [recapLs, cliLs, h, hl, bind, Except.bind, pure, Except.pure], printed hF (real_strings l)⟩

/-- **C148 does not hold: nothing to list.** If the gateway answers with an empty list, `recap ls` prints nothing, which is
no JSON. -/
theorem C148_empty_refuted {F : Floats} (s : System) (url : Chars) (h : getLs s url = .ok []) :
    recapLs F s (some url) = .ok .none := by
  have h := ls_lax (respond_ok.mp h)
  simp [recapLs, cliLs, h, bind, Except.bind, pure, Except.pure]

/-- The full statement fails. -/
theorem C148_refuted (F : Floats) : ¬SamePrinted F := by
  intro h
  obtain ⟨text, h1, -⟩ := (h oneTable "mysql://db/shop".toList).2 [] rfl
  rw [C148_empty_refuted oneTable "mysql://db/shop".toList rfl] at h1
  cases h1

/-- **C148**, the other direction: what `recap schema` prints is what the gateway answers for the same URL, or the gateway
refuses the URL, and then the configured URLs have no influence on what is printed. -/
theorem C148_only_schema {F : Floats} (s : System) (url : Chars) (header : Option String) (f : Format) (p : Printed)
    (hf : Asks header f) (h : recapSchema F s url f = .ok p) :
    (∃ o, getSchema s url header = .ok o ∧ p = printOutput F o) ∨
      (getSchema s url header = .failed 500 ∧ recapSchema F { s with urls := [] } url f = .ok p) := by
  obtain ⟨o, h1, h⟩ := bind_ok h
  cases h
  rw [getSchema_asks hf]
  rcases schema_cases h1 with h2 | ⟨h2, h3⟩
  · exact .inl ⟨o, by rw [h2]; rfl, rfl⟩
  · refine .inr ⟨by rw [h2]; rfl, ?_⟩
    simp only [recapSchema, cliSchema, h3, bind, Except.bind]
    rfl

/-- The same for listings. -/
theorem C148_only_ls {F : Floats} (s : System) (url : Chars) (r : Option Str) (h : recapLs F s (some url) = .ok r) :
    (∃ l, getLs s url = .ok l ∧ r = if l = [] then .none else some (dumps F .pretty (strings l))) ∨
      (getLs s url = .failed 500 ∧ recapLs F { s with urls := [] } (some url) = .ok r) := by
  obtain ⟨o, h1, h⟩ := bind_ok h
  cases h
  obtain ⟨l, h2, h⟩ := bind_ok h1
  cases h
  rcases ls_cases h2 with h2 | ⟨h2, h3⟩
  · exact .inl ⟨l, by rw [getLs, h2]; rfl, by split <;> rfl⟩
  · refine .inr ⟨by rw [getLs, h2]; rfl, ?_⟩
    simp only [recapLs, cliLs, h3, bind, Except.bind]
    rfl

/-! ### Cases that meet the hypotheses -/

/-- A table behind a configured URL: what is printed. -/
example : recapSchema exactFloats oneTable "mysql://db/shop/orders".toList .recap = .ok (.text
    "{\n  \"type\": \"struct\",\n  \"fields\": [\n    {\n      \"type\": \"bool\",\n      \"name\": \"a\"\n    }\n  ]\n}".toList) := by
  rfl

/-- `C148_schema` says that it is the JSON of what the gateway answers. -/
example : ∃ o p, getSchema oneTable "mysql://db/shop/orders".toList .none = .ok o ∧
    recapSchema exactFloats oneTable "mysql://db/shop/orders".toList .recap = .ok p ∧ Says exactFloats p o := by
  obtain ⟨p, h⟩ := C148_schema exactFloats_lawful oneTable "mysql://db/shop/orders".toList .none .recap
    (.dict [("type", .str "struct"), ("fields", .list [.dict [("type", .str "bool"), ("name", .str "a")]])]) .absent rfl
    (by simp [Possible, Recap.Spec.Real, Recap.Spec.RealPairs, Recap.Spec.RealAll])
  exact ⟨_, p, rfl, h⟩

/-- The list of configured URLs is printed. -/
example : ∃ text, recapLs exactFloats oneTable (some []) = .ok (some text) ∧
    IsJson exactFloats (strings ["mysql://db/shop".toList]) text :=
  C148_ls_partial exactFloats_lawful oneTable [] _ rfl (by simp)

/-- A URL that is not configured: the command line reads it, the gateway refuses it. -/
example : (∃ p, recapSchema exactFloats oneTable "mysql://other/shop/orders".toList .recap = .ok p) ∧
    getSchema oneTable "mysql://other/shop/orders".toList .none = .failed 500 :=
  ⟨⟨_, rfl⟩, rfl⟩

end Recap.Commands
