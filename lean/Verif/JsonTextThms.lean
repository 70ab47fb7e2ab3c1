import Verif.JsonTextBytes
import Verif.JsonTextFloats
import Verif.ServerBytes
import Verif.CompactStable

/-! # Properties of JSON texts: C122, C123, C125 -/

set_option autoImplicit false

namespace Recap.JsonText

open JsonText.Spec

/-! ## Lemmas -/

theorem utf8_of_decode {b : List UInt8} {s : Str} (h : utf8Decode b = some s) : b = utf8 s := by
  unfold utf8Decode at h
  obtain ⟨a, ha, rfl⟩ := Option.map_eq_some_iff.mp h
  have hs : b.toByteArray.utf8Decode?.isSome := by rw [ha]; rfl
  have h1 := ByteArray.utf8Encode_get_utf8Decode? (b := b.toByteArray) (h := hs)
  have h2 : b.toByteArray.utf8Decode?.get hs = a := by simp [ha]
  rw [h2] at h1
  unfold List.utf8Encode at h1
  have h3 := congrArg (fun x : ByteArray => x.data.toList) h1
  simp only [List.data_toByteArray] at h3
  exact h3.symm

theorem bodyOf_utf8 (F : Floats) (s : Str) : bodyOf F (utf8 s) = match loads F s with
    | .ok v => some (.json v)
    | .error .decode => some (.text (String.ofList s))
    | .error _ => none := by
  rw [bodyOf, utf8Decode_utf8]
  rfl

/-! ## C122: the layout of a posted document does not matter -/

/-- `json.loads` reads the texts that the grammar of JSON has, as the values that they denote. -/
theorem C122_exactly_json {F : Floats} (hF : Lawful F) (s : Str) (v : PyVal) :
    loads F s = .ok v ↔ IsJson F v s :=
  ⟨loads_sound hF, loads_of⟩

/-- A text is the text of one value only. -/
theorem C122_unambiguous {F : Floats} {s : Str} {v w : PyVal} (hv : IsJson F v s) (hw : IsJson F w s) : v = w := by
  have h1 := loads_of hv
  rw [loads_of hw] at h1
  cases h1
  rfl

/-- The server takes a body for a document if and only if its bytes are a JSON text of it in UTF-8, and
for a name only if they are not. -/
theorem C122_bodies {F : Floats} (hF : Lawful F) (b : List UInt8) :
    (∀ v, bodyOf F b = some (.json v) ↔ ∃ s, b = utf8 s ∧ IsJson F v s) ∧
    ∀ t, bodyOf F b = some (.text t) → b = utf8 t.toList ∧ ∀ v, ¬ IsJson F v t.toList := by
  constructor
  · intro v
    constructor
    · intro h
      unfold bodyOf at h
      split at h
      · cases h
      · rename_i s hs
        refine ⟨s, utf8_of_decode hs, ?_⟩
        split at h
        · rename_i w hw
          cases h
          exact loads_sound hF hw
        · cases h
        · cases h
    · rintro ⟨s, rfl, h⟩
      rw [bodyOf_utf8, loads_of h]
  · intro t h
    unfold bodyOf at h
    split at h
    · cases h
    · rename_i s hs
      split at h
      · cases h
      · rename_i hd
        cases h
        rw [String.toList_ofList]
        refine ⟨utf8_of_decode hs, ?_⟩
        intro v hv
        rw [loads_of hv] at hd
        cases hd
      · cases h

/-- Whatever its layout, a document is answered and stored as the document. -/
theorem C122_any_layout {F : Floats} {v : PyVal} {s : Str} (h : IsJson F v s) (root : Str) (fs : FS) (name : Str)
    (version : Int) (contentType : Option Str) :
    postBytes F root fs name contentType (utf8 s) = some (serve root fs (.post name contentType (.json v))) ∧
    putBytes F root fs name version contentType (utf8 s) =
      some (serve root fs (.put name version contentType (.json v))) := by
  have e : bodyOf F (utf8 s) = some (.json v) := by rw [bodyOf_utf8, loads_of h]
  rw [postBytes, putBytes, e]
  exact ⟨rfl, rfl⟩

/-- A document with white space, escapes, a name that occurs twice and a float. -/
def sampleText : Str := " {\"type\" : \"\\u0069nt32\",\n\"x\":[1 , -2.5e-1,null],\"x\" : \"\\ud83d\\ude00\"} ".toList

/-- What it says. -/
def sampleValue : PyVal := .dict [("type", .str "int32"), ("x", .str "😀")]

/-- Exact decimal expansions, and one more text. -/
def sampleFloats : Floats where
  repr := exactText
  read s := if s = "-2.5e-1".toList then some (.float (-1) 2) else exactFloats.read s

example : loads sampleFloats sampleText = .ok sampleValue := by decide +kernel

example : IsJson exactFloats (.list [.float 5 1, .str "a\nb"]) "[2.5, \"a\\nb\"]\n".toList :=
  loads_sound exactFloats_lawful (by decide +kernel)

/-- Two layouts of the same document. -/
example : IsJson exactFloats (.dict [("type", .str "int"), ("bits", .int 32)]) "{\"type\": \"int\", \"bits\": 32}".toList ∧
    IsJson exactFloats (.dict [("type", .str "int"), ("bits", .int 32)])
      " {\n \"type\":\"\\u0069nt\"\t,\"bits\":32 } ".toList :=
  ⟨loads_sound exactFloats_lawful (by decide +kernel), loads_sound exactFloats_lawful (by decide +kernel)⟩

/-! ## C123: what is written can be read -/

/-- The styles that the registry's files, the server's answers and the command line have. -/
def Used (st : Style) : Prop := st = .default ∨ st = .compact ∨ st = .pretty

theorem Used.proper {st : Style} (h : Used st) : st.Proper := by
  rcases h with rfl | rfl | rfl
  · exact proper_default
  · exact proper_compact
  · exact proper_pretty

/-- The document of every type is written as a JSON text of it and of nothing else, which `json.loads`
reads as the document: in the registry's files, in the answers of the server and on the command line. -/
theorem C123_read_back {F : Floats} (hF : Lawful F) {st : Style} (hs : Used st) {clean alias : Bool} {t : RType}
    (ht : Recap.Spec.RealType t) {d : PyVal} (hd : toDict clean alias t = .ok d) :
    IsJson F d (dumps F st d) ∧ (∀ w, IsJson F w (dumps F st d) → w = d) ∧ loads F (dumps F st d) = .ok d := by
  have hr := real_toDict ht hd
  have h := isJson_of (json_dump hF hs.proper d 0 hr)
  exact ⟨h, fun w hw => C122_unambiguous hw h, loads_of h⟩

/-- What is written to files consists of printable ASCII characters: the bytes are the same in every
encoding that agrees with ASCII, and are read as the document. -/
theorem C123_any_encoding {F : Floats} (hF : Lawful F) {clean alias : Bool} {t : RType} (ht : Recap.Spec.RealType t)
    {d : PyVal} (hd : toDict clean alias t = .ok d) :
    (∀ c ∈ dumps F .default d, 32 ≤ c.toNat ∧ c.toNat ≤ 126) ∧
    ∀ enc, AsciiCompatible enc → encode enc (dumps F .default d) = utf8 (dumps F .default d) ∧
      loadBytes F (encode enc (dumps F .default d)) = .ok d := by
  have hr := real_toDict ht hd
  have hp := printable_dump hF d 0 hr
  refine ⟨hp, fun enc he => ⟨?_, loadBytes_dumps hF he hr⟩⟩
  rw [dumps, encode_printable he hp, ← encode_printable utf8_compatible hp]
  rfl

example : dumps exactFloats .default (.dict [("type", .str "int32"), ("doc", .str "é😀\n"), ("default", .float (-3) 2)]) =
    "{\"type\": \"int32\", \"doc\": \"\\u00e9\\ud83d\\ude00\\n\", \"default\": -0.75}".toList := by decide +kernel

example : dumps exactFloats .pretty (.dict [("type", .str "list"), ("values", .str "é"), ("x", .list [.int 1, .none])]) =
    "{\n  \"type\": \"list\",\n  \"values\": \"é\",\n  \"x\": [\n    1,\n    null\n  ]\n}".toList := by decide +kernel

/-! ## C125: a type name alone may be posted -/

/-- Names as they are used for types: a letter or `_` first, and no white space. -/
def BareName (s : Str) : Prop :=
  (∃ c r, s = c :: r ∧ (c.isAlpha ∨ c = '_')) ∧ ∀ c ∈ s, c ∉ [' ', '\t', '\n', '\r']

/-- The words that mean something else in JSON texts as Python reads them. -/
def words : List Str := ["null".toList, "true".toList, "false".toList, "NaN".toList, "Infinity".toList]

/-- The full statement: posting a name is the same as posting the JSON text of the string. -/
def C125_statement : Prop :=
  ∀ (F : Floats), Lawful F → ∀ (root : Str) (fs : FS) (name : Str) (contentType : Option Str) (s : Str), BareName s →
    postBytes F root fs name contentType (utf8 s) =
      some (serve root fs (.post name contentType (.json (.str (String.ofList s)))))

theorem letter_facts {c : Char} (h : c.isAlpha ∨ c = '_') : c ≠ '"' ∧ c ≠ '{' ∧ c ≠ '[' ∧ c ≠ '-' ∧ isDigit c = false ∧
    c ≠ Char.ofNat 65279 := by
  have hn : (65 ≤ c.toNat ∧ c.toNat ≤ 90) ∨ (97 ≤ c.toNat ∧ c.toNat ≤ 122) ∨ c.toNat = 95 := by
    rcases h with h | rfl
    · simp only [Char.isAlpha, Char.isUpper, Char.isLower, Bool.or_eq_true, Bool.and_eq_true, decide_eq_true_eq] at h
      rcases h with h | h
      · left
        exact ⟨by have := h.1; simpa [UInt32.le_iff_toNat_le] using this, by have := h.2; simpa [UInt32.le_iff_toNat_le] using this⟩
      · right; left
        exact ⟨by have := h.1; simpa [UInt32.le_iff_toNat_le] using this, by have := h.2; simpa [UInt32.le_iff_toNat_le] using this⟩
    · right; right; rfl
  have ne : ∀ d : Char, (¬ ((65 ≤ d.toNat ∧ d.toNat ≤ 90) ∨ (97 ≤ d.toNat ∧ d.toNat ≤ 122) ∨ d.toNat = 95)) → c ≠ d := by
    rintro d hd rfl
    exact hd hn
  refine ⟨ne _ (by decide), ne _ (by decide), ne _ (by decide), ne _ (by decide), ?_, ne _ (by decide)⟩
  unfold isDigit
  rw [Bool.and_eq_false_iff]
  simp only [decide_eq_false_iff_not]
  omega

theorem takeInt_letter {c : Char} {r : Str} (h : c.isAlpha ∨ c = '_') : takeInt (c :: r) = none := by
  obtain ⟨-, -, -, h4, h5, -⟩ := letter_facts h
  unfold takeInt
  split
  · rename_i he
    cases he
    exact absurd rfl h4
  · rename_i he
    cases he
    exact absurd h5 (by decide)
  · rename_i he
    cases he
    exact absurd rfl h4
  · rename_i he
    cases he
    rw [if_neg (by rw [h5]; decide)]
  · rfl

theorem scan_letter {c : Char} {r : Str} (h : c.isAlpha ∨ c = '_') (n : Nat) :
    scan (n + 1) (c :: r) = .error .decode ∨
      ∃ p t q, p ∈ words ∧ c :: r = p ++ q ∧ scan (n + 1) (c :: r) = .ok (t, q) := by
  obtain ⟨h1, h2, h3, h4, -, -⟩ := letter_facts h
  unfold scan
  split
  · rename_i he; cases he; exact absurd rfl h1
  · rename_i he; cases he; exact absurd rfl h2
  · rename_i he; cases he; exact absurd rfl h3
  · rename_i q he; exact .inr ⟨"null".toList, _, q, by decide, he, rfl⟩
  · rename_i q he; exact .inr ⟨"true".toList, _, q, by decide, he, rfl⟩
  · rename_i q he; exact .inr ⟨"false".toList, _, q, by decide, he, rfl⟩
  · rename_i q he; exact .inr ⟨"NaN".toList, _, q, by decide, he, rfl⟩
  · rename_i q he; exact .inr ⟨"Infinity".toList, _, q, by decide, he, rfl⟩
  · rename_i he; cases he; exact absurd rfl h4
  · left
    rw [readNumber, takeInt_letter h]

theorem bare_rest {r : Str} (h : ∀ c ∈ r, c ∉ [' ', '\t', '\n', '\r']) : skip r = r := by
  cases r with
  | nil => rfl
  | cons c r => exact skip_solid (h c List.mem_cons_self) r

theorem loads_bare (F : Floats) {s : Str} (h : BareName s) (hw : s ∉ words) : loads F s = .error .decode := by
  obtain ⟨⟨c, r, rfl, hc⟩, hb⟩ := h
  obtain ⟨h1, h2, h3, h4, h5, h6⟩ := letter_facts hc
  have hs : scanText (c :: r) = .error .decode := by
    unfold scanText
    rw [if_neg (by simpa using h6), bare_rest hb]
    rcases scan_letter (r := r) hc (2 * (c :: r).length + 1) with e | ⟨p, t, q, hp, e, e'⟩
    · rw [e]
    · rw [e']
      simp only
      rw [if_neg]
      rw [bare_rest fun x hx => hb x (by rw [e]; exact List.mem_append_right _ hx)]
      rintro rfl
      rw [List.append_nil] at e
      exact hw (e ▸ hp)
  rw [loads, hs]

/-- **C125, in part** A name other than `null`, `true`, `false`, `NaN` and `Infinity` may be posted without quotes:
the answer and what is stored are those for the JSON text of the string.  What is missing: these five names. -/
theorem C125_bare_names_partial (F : Floats) (root : Str) (fs : FS) (name : Str) (version : Int)
    (contentType : Option Str) {s : Str} (h : BareName s) (hw : s ∉ words) :
    postBytes F root fs name contentType (utf8 s) =
      some (serve root fs (.post name contentType (.json (.str (String.ofList s))))) ∧
    putBytes F root fs name version contentType (utf8 s) =
      some (serve root fs (.put name version contentType (.json (.str (String.ofList s))))) := by
  have e : bodyOf F (utf8 s) = some (.text (String.ofList s)) := by rw [bodyOf_utf8, loads_bare F h hw]
  rw [postBytes, putBytes, e]
  exact ⟨rfl, rfl⟩

example : BareName "int32".toList ∧ "int32".toList ∉ words :=
  ⟨⟨⟨'i', "nt32".toList, rfl, .inl (by decide)⟩, by decide +kernel⟩, by decide +kernel⟩

example : BareName "com.example.User".toList ∧ "com.example.User".toList ∉ words :=
  ⟨⟨⟨'c', "om.example.User".toList, rfl, .inl (by decide)⟩, by decide +kernel⟩, by decide +kernel⟩

/-- The name of the null type. -/
theorem null_bareName : BareName "null".toList := ⟨⟨'n', "ull".toList, rfl, .inl (by decide)⟩, by decide +kernel⟩

/-- **C125 is false**: the name of the null type cannot be posted without quotes.  It is answered with 400, whatever
the storage, while the JSON text `"null"` is stored. -/
theorem C125_null_refuted : ¬ C125_statement ∧
    (∀ (F : Floats) (root : Str) (fs fs1 : FS) (name : Str), openStorage root fs = .ok fs1 →
      postBytes F root fs name none (utf8 "null".toList) = some (.status 400, fs1)) ∧
    (∀ F : Floats, (postBytes F "/data".toList [(["data".toList], .dir)] "n".toList none
      (utf8 "\"null\"".toList)).map (·.1) = some (.stored 1)) := by
  have hbody : ∀ F : Floats, bodyOf F (utf8 "null".toList) = some (.json .none) := by
    intro F
    rw [bodyOf_utf8]
    rfl
  have hquoted : ∀ F : Floats, bodyOf F (utf8 "\"null\"".toList) = some (.json (.str "null")) := by
    intro F
    have e : "\"null\"".toList = writeStr true "null" := by decide +kernel
    rw [bodyOf_utf8, e, loads_of (v := .str "null") (isJson_of (json_writeStr F true "null"))]
  have h400 : ∀ (F : Floats) (root : Str) (fs fs1 : FS) (name : Str), openStorage root fs = .ok fs1 →
      postBytes F root fs name none (utf8 "null".toList) = some (.status 400, fs1) := by
    intro F root fs fs1 name ho
    rw [postBytes, hbody, Option.map_some, serve, ho]
    rfl
  refine ⟨?_, h400, ?_⟩
  · intro h
    have h1 := h exactFloats exactFloats_lawful "/data".toList [(["data".toList], .dir)] "n".toList none _ null_bareName
    rw [h400 exactFloats "/data".toList _ [(["data".toList], .dir)] _ (by decide +kernel)] at h1
    revert h1
    decide +kernel
  · intro F
    rw [postBytes, hquoted]
    decide +kernel

end Recap.JsonText
