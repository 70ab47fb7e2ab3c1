import Verif.JsonTextCut
import Verif.JsonTextWrite

/-! # Lemmas about JSON texts: the bytes of files -/

set_option autoImplicit false

namespace Recap.JsonText

open Spec

/-! ## What is written consists of printable ASCII characters -/

theorem printable_numberChar {c : Char} (h : c ∈ numberChars) : Printable c := by
  have key : ∀ c ∈ numberChars, 32 ≤ c.toNat ∧ c.toNat ≤ 126 := by decide +kernel
  exact key c h

theorem printable_of {s : Str} (h : (s.all fun c => 32 ≤ c.toNat && c.toNat ≤ 126) = true) : ∀ c ∈ s, Printable c := by
  intro c hc
  have := List.all_eq_true.mp h c hc
  simpa [Printable] using this

theorem forall_append {P : Char → Prop} {a b : Str} (ha : ∀ c ∈ a, P c) (hb : ∀ c ∈ b, P c) : ∀ c ∈ a ++ b, P c := by
  intro c hc
  rcases List.mem_append.mp hc with h | h
  · exact ha c h
  · exact hb c h

theorem forall_cons {P : Char → Prop} {a : Char} {b : Str} (ha : P a) (hb : ∀ c ∈ b, P c) : ∀ c ∈ a :: b, P c := by
  intro c hc
  rcases List.mem_cons.mp hc with rfl | h
  · exact ha
  · exact hb c h

theorem newline_default (n : Nat) : Style.default.newline n = [] := rfl

mutual
theorem printable_dump {F : Floats} (hF : Lawful F) : ∀ (v : PyVal) (n : Nat), Recap.Spec.Real v →
    ∀ c ∈ dump F .default n v, Printable c
  | .none, n, _ => by rw [dump]; exact printable_of (by decide +kernel)
  | .bool true, n, _ => by rw [dump]; exact printable_of (by decide +kernel)
  | .bool false, n, _ => by rw [dump]; exact printable_of (by decide +kernel)
  | .int i, n, _ => by
    rw [dump]
    exact fun c hc => printable_numberChar (integer_chars (integer_intStr i) c hc)
  | .float m e, n, h => by
    rw [dump]
    rw [Recap.Spec.Real] at h
    exact fun c hc => printable_numberChar (float_chars (hF.text m e h) c hc)
  | .str s, n, _ => by rw [dump]; exact printable_str s
  | .list [], n, _ => by rw [dump]; exact printable_of (by decide +kernel)
  | .list (x :: xs), n, h => by
    rw [Recap.Spec.Real, Recap.Spec.RealAll] at h
    rw [dump, newline_default, newline_default]
    refine forall_cons ⟨by decide, by decide⟩ (forall_append ?_ (printable_of (by decide +kernel)))
    exact forall_append (forall_append (forall_append (by simp) (printable_dump hF x _ h.1))
      (printable_items hF xs _ h.2)) (by simp)
  | .dict [], n, _ => by rw [dump]; exact printable_of (by decide +kernel)
  | .dict ((k, x) :: kvs), n, h => by
    rw [Recap.Spec.Real, Recap.Spec.RealPairs] at h
    rw [dump, newline_default, newline_default]
    refine forall_cons ⟨by decide, by decide⟩ (forall_append ?_ (printable_of (by decide +kernel)))
    exact forall_append (forall_append (forall_append (by simp)
      (forall_append (forall_append (printable_str k) (printable_of (by decide +kernel)))
        (printable_dump hF x _ h.2.1))) (printable_pairs hF kvs _ h.2.2)) (by simp)
theorem printable_items {F : Floats} (hF : Lawful F) : ∀ (xs : List PyVal) (n : Nat), Recap.Spec.RealAll xs →
    ∀ c ∈ dumpItems F .default n xs, Printable c
  | [], n, _ => by rw [dumpItems]; simp
  | x :: xs, n, h => by
    rw [Recap.Spec.RealAll] at h
    rw [dumpItems, newline_default]
    exact forall_append (forall_append (forall_append (printable_of (by decide +kernel)) (by simp))
      (printable_dump hF x _ h.1)) (printable_items hF xs _ h.2)
theorem printable_pairs {F : Floats} (hF : Lawful F) : ∀ (kvs : List (String × PyVal)) (n : Nat),
    Recap.Spec.RealPairs kvs → ∀ c ∈ dumpPairs F .default n kvs, Printable c
  | [], n, _ => by rw [dumpPairs]; simp
  | (k, x) :: kvs, n, h => by
    rw [Recap.Spec.RealPairs] at h
    rw [dumpPairs, newline_default]
    exact forall_append (forall_append (forall_append (printable_of (by decide +kernel)) (by simp))
      (forall_append (forall_append (printable_str k) (printable_of (by decide +kernel)))
        (printable_dump hF x _ h.1))) (printable_pairs hF kvs _ h.2)
end

/-! ## Texts that are no numbers -/

theorem head_dump {F : Floats} {st : Style} {n : Nat} {v : PyVal} (h1 : ∀ i, v ≠ .int i) (h2 : ∀ m e, v ≠ .float m e) :
    ∃ c ∈ dump F st n v, c ∉ numberChars := by
  match v with
  | .none => exact ⟨'n', by rw [dump]; decide +kernel, by decide +kernel⟩
  | .bool true => exact ⟨'t', by rw [dump]; decide +kernel, by decide +kernel⟩
  | .bool false => exact ⟨'f', by rw [dump]; decide +kernel, by decide +kernel⟩
  | .int i => exact absurd rfl (h1 i)
  | .float m e => exact absurd rfl (h2 m e)
  | .str s => exact ⟨'"', by rw [dump, writeStr]; simp, by decide +kernel⟩
  | .list [] => exact ⟨'[', by rw [dump]; decide +kernel, by decide +kernel⟩
  | .list (x :: xs) => exact ⟨'[', by rw [dump]; simp, by decide +kernel⟩
  | .dict [] => exact ⟨'{', by rw [dump]; decide +kernel, by decide +kernel⟩
  | .dict ((k, x) :: kvs) => exact ⟨'{', by rw [dump]; simp, by decide +kernel⟩

/-! ## Bytes -/

/-- The bytes of a text in an encoding that writes characters one by one. -/
def encode (enc : Char → List UInt8) (s : Str) : List UInt8 := s.flatMap enc

/-- The encoding is one of the many that agree with ASCII (UTF-8, ISO 8859-1, Windows-1252, …). -/
def AsciiCompatible (enc : Char → List UInt8) : Prop :=
  ∀ c : Char, c.toNat < 128 → enc c = [UInt8.ofNat c.toNat]

theorem utf8_compatible : AsciiCompatible String.utf8EncodeChar := by
  intro c hc
  unfold String.utf8EncodeChar
  have e : c.val.toNat = c.toNat := rfl
  simp only [e]
  rw [if_pos (by omega)]

theorem encode_printable {enc : Char → List UInt8} (he : AsciiCompatible enc) {s : Str} (hs : ∀ c ∈ s, Printable c) :
    encode enc s = s.map fun c => UInt8.ofNat c.toNat := by
  induction s with
  | nil => rfl
  | cons c s ih =>
    have hc := hs c List.mem_cons_self
    rw [encode, List.flatMap_cons, he c (by have := hc.2; omega), List.map_cons]
    have := ih fun c hc => hs c (List.mem_cons_of_mem _ hc)
    rw [encode] at this
    rw [this]
    rfl

theorem encode_length {enc : Char → List UInt8} (he : AsciiCompatible enc) {s : Str} (hs : ∀ c ∈ s, Printable c) :
    (encode enc s).length = s.length := by
  rw [encode_printable he hs, List.length_map]

theorem encode_take {enc : Char → List UInt8} (he : AsciiCompatible enc) {s : Str} (hs : ∀ c ∈ s, Printable c)
    (n : Nat) : (encode enc s).take n = encode enc (s.take n) := by
  rw [encode_printable he hs, encode_printable he fun c hc => hs c (List.mem_of_mem_take hc), List.map_take]

theorem printable_byte {c : Char} (h : Printable c) : UInt8.ofNat c.toNat ≠ 254 ∧ UInt8.ofNat c.toNat ≠ 255 ∧
    UInt8.ofNat c.toNat ≠ 239 ∧ UInt8.ofNat c.toNat ≠ 0 := by
  have key : ∀ n < 127, 32 ≤ n → UInt8.ofNat n ≠ 254 ∧ UInt8.ofNat n ≠ 255 ∧ UInt8.ofNat n ≠ 239 ∧ UInt8.ofNat n ≠ 0 := by
    decide +kernel
  exact key c.toNat (by have := h.2; omega) h.1

/-- Bytes of printable ASCII characters are read as these characters. -/
theorem loadBytes_encode {F : Floats} {enc : Char → List UInt8} (he : AsciiCompatible enc) {s : Str}
    (hs : ∀ c ∈ s, Printable c) : loadBytes F (encode enc s) = loads F s := by
  have hu : encode enc s = utf8 s := by
    rw [encode_printable he hs, ← encode_printable utf8_compatible hs]
    rfl
  have hb : ∀ b ∈ encode enc s, b ≠ 254 ∧ b ≠ 255 ∧ b ≠ 239 ∧ b ≠ 0 := by
    rw [encode_printable he hs]
    intro b hb
    obtain ⟨c, hc, rfl⟩ := List.mem_map.mp hb
    exact printable_byte (hs c hc)
  have hd : utf8Decode (encode enc s) = some s := by rw [hu, utf8Decode_utf8]
  have hn : ¬ ((encode enc s).take 2 = [254, 255] ∨ (encode enc s).take 2 = [255, 254] ∨
      (encode enc s).take 3 = [239, 187, 191] ∨ (0 : UInt8) ∈ (encode enc s).take 4) := by
    have hm : ∀ {n : Nat} {b : UInt8}, b ∈ (encode enc s).take n → b ≠ 254 ∧ b ≠ 255 ∧ b ≠ 239 ∧ b ≠ 0 :=
      fun h => hb _ (List.mem_of_mem_take h)
    rintro (h | h | h | h)
    · exact (hm (n := 2) (b := 254) (by rw [h]; simp)).1 rfl
    · exact (hm (n := 2) (b := 255) (by rw [h]; simp)).2.1 rfl
    · exact (hm (n := 3) (b := 239) (by rw [h]; simp)).2.2.1 rfl
    · exact (hm h).2.2.2 rfl
  rw [loadBytes, if_neg hn, hd]

theorem loads_dumps {F : Floats} (hF : Lawful F) {st : Style} (hs : st.Proper) {v : PyVal} (hv : Recap.Spec.Real v) :
    loads F (dumps F st v) = .ok v :=
  loads_of (isJson_of (json_dump hF hs v 0 hv))

/-- A file with a complete document is read as the document. -/
theorem loadBytes_dumps {F : Floats} (hF : Lawful F) {enc : Char → List UInt8} (he : AsciiCompatible enc) {v : PyVal}
    (hv : Recap.Spec.Real v) : loadBytes F (encode enc (dumps F .default v)) = .ok v := by
  rw [loadBytes_encode (s := dumps F .default v) he (printable_dump hF v 0 hv), loads_dumps hF proper_default hv]

/-- A file with the beginning of a document other than a number is not read. -/
theorem loadBytes_cut {F : Floats} (hF : Lawful F) {enc : Char → List UInt8} (he : AsciiCompatible enc) {v : PyVal}
    (hv : Recap.Spec.Real v) (h1 : ∀ i, v ≠ .int i) (h2 : ∀ m e, v ≠ .float m e) {n : Nat}
    (hn : n < (encode enc (dumps F .default v)).length) :
    loadBytes F ((encode enc (dumps F .default v)).take n) = .error .decode := by
  have hp := printable_dump hF v 0 hv
  rw [dumps] at hn ⊢
  rw [encode_length he hp] at hn
  rw [encode_take he hp, loadBytes_encode he fun c hc => hp c (List.mem_of_mem_take hc)]
  refine loads_cut (json_dump hF proper_default v 0 hv) (head_dump h1 h2) (List.take_prefix _ _) ?_
  intro h
  have := congrArg List.length h
  rw [List.length_take] at this
  omega

end Recap.JsonText
