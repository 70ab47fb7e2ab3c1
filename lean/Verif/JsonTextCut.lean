import Verif.JsonTextSound

/-! # Lemmas about JSON texts: texts that are cut off -/

set_option autoImplicit false

namespace Recap.JsonText

open Spec

theorem prefix_split {p a b : Str} (h : p <+: a ++ b) :
    (p.length < a.length ∧ p <+: a) ∨ ∃ p', p = a ++ p' ∧ p' <+: b := by
  obtain ⟨q, hq⟩ := h
  rcases List.append_eq_append_iff.mp hq with ⟨a', rfl, -⟩ | ⟨c', rfl, h2⟩
  · cases a' with
    | nil => exact .inr ⟨[], by simp, List.nil_prefix⟩
    | cons c a' =>
      refine .inl ⟨by simp, ⟨c :: a', rfl⟩⟩
  · exact .inr ⟨c', rfl, ⟨q, h2.symm⟩⟩

theorem prefix_cons {p b : Str} {c : Char} (h : p <+: c :: b) : p = [] ∨ ∃ p', p = c :: p' ∧ p' <+: b :=
  List.prefix_cons_iff.mp h

theorem blank_prefix {p w : Str} (h : p <+: w) (hw : Blank w) : Blank p := fun c hc => hw c (h.subset hc)

theorem ends_of_blank {w : Str} (h : Blank w) : Ends w := by
  have := ends_blank (r := []) h (by rintro _ ⟨⟩)
  rwa [List.append_nil] at this

/-! ## Strings -/

theorem readStr_nil {n : Nat} (hn : 0 < n) : readStr n [] = .error .decode := by
  obtain ⟨n, rfl⟩ : ∃ m, n = m + 1 := ⟨n - 1, by omega⟩
  rfl

theorem readStr_backslash {n : Nat} (hn : 0 < n) : readStr n ['\\'] = .error .decode := by
  obtain ⟨n, rfl⟩ : ∃ m, n = m + 1 := ⟨n - 1, by omega⟩
  rfl

theorem readHex4_short {p : Str} (h : p.length < 4) : readHex4 p = .error .decode := by
  match p, h with
  | [], _ => rfl
  | [_], _ => rfl
  | [_, _], _ => rfl
  | [_, _, _], _ => rfl
  | _ :: _ :: _ :: _ :: _, h => simp only [List.length_cons] at h; omega

theorem hex4_length {n : Nat} {h : Str} (hh : Hex4 n h) : h.length = 4 := by
  obtain ⟨_, _, _, _⟩ := hh
  rfl

theorem readStr_error {n : Nat} {s : Str} (h : s.head? ≠ some '"') (hp : readPoint s = .error .decode) :
    readStr (n + 1) s = .error .decode := by
  rw [readStr_step h, hp]

theorem readStr_after {n p : Nat} {s s1 : Str} (h : s.head? ≠ some '"') (hp : readPoint s = .ok (p, s1))
    (hs : readStr n s1 = .error .decode) : readStr (n + 1) s = .error .decode := by
  rw [readStr_point h hp, hs]

/-- A string without its closing quote, or a part of it, is not read. -/
theorem readStr_cut {cs : List Char} {s : Str} (h : Quoted cs s) :
    ∀ p n, p <+: s → p.length < n → readStr n p = .error .decode := by
  induction h with
  | nil =>
    intro p n hp hn
    have := List.prefix_nil.mp hp
    subst this
    exact readStr_nil hn
  | @plain c cs s h1 h2 h3 h ih =>
    intro p n hp hn
    replace hp := prefix_cons hp
    rcases hp with rfl | ⟨p, rfl, hp⟩
    · exact readStr_nil hn
    · rw [List.length_cons] at hn
      obtain ⟨n, rfl⟩ : ∃ m, n = m + 1 := ⟨n - 1, by omega⟩
      exact readStr_after (by simpa using h1) (readPoint_plain h2 h3 _) (ih p n hp (by omega))
  | @short e c cs s he h ih =>
    intro p n hp hn
    replace hp := prefix_cons hp
    rcases hp with rfl | ⟨p, rfl, hp⟩
    · exact readStr_nil hn
    replace hp := prefix_cons hp
    rcases hp with rfl | ⟨p, rfl, hp⟩
    · exact readStr_backslash (by simp at hn; omega)
    simp only [List.length_cons] at hn
    obtain ⟨n, rfl⟩ : ∃ m, n = m + 1 := ⟨n - 1, by omega⟩
    exact readStr_after (by simp) (readPoint_short he _) (ih p n hp (by omega))
  | @unit c h s cs hh hq ih =>
    intro p n hp hn
    simp only [List.cons_append] at hp
    replace hp := prefix_cons hp
    rcases hp with rfl | ⟨p, rfl, hp⟩
    · exact readStr_nil hn
    replace hp := prefix_cons hp
    rcases hp with rfl | ⟨p, rfl, hp⟩
    · exact readStr_backslash (by simp at hn; omega)
    simp only [List.length_cons] at hn
    obtain ⟨n, rfl⟩ : ∃ m, n = m + 1 := ⟨n - 1, by omega⟩
    replace hp := prefix_split hp
    rcases hp with ⟨hl, -⟩ | ⟨p, rfl, hp⟩
    · rw [hex4_length hh] at hl
      refine readStr_error (by simp) ?_
      rw [readPoint_unicode]
      unfold readUnicode
      rw [readHex4_short hl]
    · rw [List.length_append] at hn
      exact readStr_after (by simp) ((readPoint_unicode _).trans (readUnicode_unit hh _)) (ih p n hp (by omega))
  | @pair c h h' s x y cs hh hh' hx hy hc hq ih =>
    intro p n hp hn
    simp only [List.cons_append, List.append_assoc] at hp
    replace hp := prefix_cons hp
    rcases hp with rfl | ⟨p, rfl, hp⟩
    · exact readStr_nil hn
    replace hp := prefix_cons hp
    rcases hp with rfl | ⟨p, rfl, hp⟩
    · exact readStr_backslash (by simp at hn; omega)
    simp only [List.length_cons] at hn
    obtain ⟨n, rfl⟩ : ∃ m, n = m + 1 := ⟨n - 1, by omega⟩
    replace hp := prefix_split hp
    rcases hp with ⟨hl, -⟩ | ⟨p, rfl, hp⟩
    · rw [hex4_length hh] at hl
      refine readStr_error (by simp) ?_
      rw [readPoint_unicode]
      unfold readUnicode
      rw [readHex4_short hl]
    have hi : 55296 ≤ 0xD800 + x ∧ 0xD800 + x ≤ 56319 := by omega
    rw [List.length_append, hex4_length hh] at hn
    replace hp := prefix_cons hp
    rcases hp with rfl | ⟨p, rfl, hp⟩
    · refine readStr_after (by simp) (p := 0xD800 + x) (s1 := []) ?_ (readStr_nil (by omega))
      rw [readPoint_unicode]
      unfold readUnicode
      rw [readHex4_of hh]
      simp only [if_pos hi]
    replace hp := prefix_cons hp
    rcases hp with rfl | ⟨p, rfl, hp⟩
    · refine readStr_after (by simp) (p := 0xD800 + x) (s1 := ['\\']) ?_ (readStr_backslash (by omega))
      rw [readPoint_unicode]
      unfold readUnicode
      rw [readHex4_of hh]
      simp only [if_pos hi]
    replace hp := prefix_split hp
    rcases hp with ⟨hl, -⟩ | ⟨p, rfl, hp⟩
    · rw [hex4_length hh'] at hl
      refine readStr_error (by simp) ?_
      rw [readPoint_unicode]
      unfold readUnicode
      rw [readHex4_of hh]
      simp only [if_pos hi, readHex4_short hl]
    · have e : h ++ '\\' :: 'u' :: (h' ++ p) = h ++ '\\' :: 'u' :: h' ++ p := by simp
      simp only [List.length_cons, List.length_append] at hn
      refine readStr_after (p := 0x10000 + x * 1024 + y) (by simp) ?_ (ih p n hp (by omega))
      rw [readPoint_unicode, e, readUnicode_pair hh hh' hx hy]

/-! ## Numbers -/

/-- The characters of numbers. -/
def numberChars : List Char := "0123456789+-.eE".toList

theorem digit_numberChar {c : Char} (h : Digit c) : c ∈ numberChars := by
  have key : ∀ c ∈ "0123456789".toList, c ∈ numberChars := by decide +kernel
  exact key c h

theorem integer_chars {k : Int} {s : Str} (h : Integer k s) : ∀ c ∈ s, c ∈ numberChars := by
  cases h with
  | pos hn => exact fun c hc => digit_numberChar (hn.1.2 c hc)
  | neg hn =>
    intro c hc
    rcases List.mem_cons.mp hc with rfl | hc
    · decide
    · exact digit_numberChar (hn.1.2 c hc)

theorem float_chars {s : Str} (h : FloatText s) : ∀ c ∈ s, c ∈ numberChars := by
  obtain ⟨k, i, f, x, hi, hf, hx, -, rfl⟩ := h
  intro c hc
  simp only [List.mem_append, or_assoc] at hc
  rcases hc with hc | hc | hc
  · exact integer_chars hi c hc
  · rcases hf with rfl | ⟨d, hd, rfl⟩
    · cases hc
    · rcases List.mem_cons.mp hc with rfl | hc
      · decide
      · exact digit_numberChar (hd.2 c hc)
  · rcases hx with rfl | ⟨e, d, he, hd, hx⟩
    · cases hc
    · have he' : e ∈ numberChars := by rcases he with rfl | rfl <;> decide
      rcases hx with rfl | rfl | rfl
      · rcases List.mem_cons.mp hc with rfl | hc
        · exact he'
        · exact digit_numberChar (hd.2 c hc)
      · rcases List.mem_cons.mp hc with rfl | hc
        · exact he'
        · rcases List.mem_cons.mp hc with rfl | hc
          · decide
          · exact digit_numberChar (hd.2 c hc)
      · rcases List.mem_cons.mp hc with rfl | hc
        · exact he'
        · rcases List.mem_cons.mp hc with rfl | hc
          · decide
          · exact digit_numberChar (hd.2 c hc)

theorem readNumber_error {s : Str} {e : JErr} (h : readNumber s = .error e) : e = .decode := by
  unfold readNumber at h
  split at h
  · cases h; rfl
  · split at h
    split at h
    split at h
    · split at h
      · cases h
      · cases h; rfl
    · cases h

theorem scan_numberChars {n : Nat} {s : Str} (h : ∀ c ∈ s, c ∈ numberChars) : scan (n + 1) s = readNumber s := by
  unfold scan
  split
  all_goals first
    | rfl
    | (exfalso
       have h1 := h _ List.mem_cons_self
       revert h1
       decide)
    | (exfalso
       have h1 := h _ (List.mem_cons_of_mem _ List.mem_cons_self)
       revert h1
       decide)

/-- What is left of a text that is cut off inside a number ends no item. -/
def Dead (r : Str) : Prop := ∀ c, (skip r).head? = some c → c ∉ [',', ']', '}']

theorem dead_numberChars {r : Str} (h : ∀ c ∈ r, c ∈ numberChars) : Dead r := by
  have key : ∀ c ∈ numberChars, c ∉ [' ', '\t', '\n', '\r'] ∧ c ∉ [',', ']', '}'] := by decide +kernel
  cases r with
  | nil => rintro c hc; cases hc
  | cons c r =>
    have hc := key c (h c List.mem_cons_self)
    rw [Dead, skip_solid hc.1]
    rintro d ⟨⟩
    exact hc.2

theorem scan_dead {n : Nat} {s : Str} (h : ∀ c ∈ s, c ∈ numberChars) :
    scan (n + 1) s = .error .decode ∨ ∃ t r, scan (n + 1) s = .ok (t, r) ∧ Dead r := by
  rw [scan_numberChars h]
  cases hs : readNumber s with
  | error e => rw [readNumber_error hs]; exact .inl rfl
  | ok tr =>
    obtain ⟨t, r⟩ := tr
    obtain ⟨b, rfl, -, -⟩ := readNumber_sound hs
    exact .inr ⟨t, r, rfl, dead_numberChars fun c hc => h c (List.mem_append_right _ hc)⟩

/-! ## Texts -/

theorem skip_prefix {p s : Str} (h : p <+: s) : skip p = [] ∨ (skip p).head? = (skip s).head? := by
  induction s generalizing p with
  | nil =>
    have := List.prefix_nil.mp h
    subst this
    exact .inl rfl
  | cons c s ih =>
    rcases prefix_cons h with rfl | ⟨p, rfl, hp⟩
    · exact .inl rfl
    · rw [skip, skip]
      split
      · exact ih hp
      · exact .inr rfl

theorem scan_nil (n : Nat) : scan (n + 1) [] = .error .decode := rfl

theorem scanItems_nil {n : Nat} (h : 2 ≤ n) : scanItems n [] = .error .decode := by
  obtain ⟨n, rfl⟩ : ∃ m, n = m + 2 := ⟨n - 2, by omega⟩
  rfl

theorem scanPairs_nil {n : Nat} (h : 1 ≤ n) : scanPairs n [] = .error .decode := by
  obtain ⟨n, rfl⟩ : ∃ m, n = m + 1 := ⟨n - 1, by omega⟩
  rfl

/-- A text that is cut off is not read, or is a number. -/
def Cut (n : Nat) (s p : Str) : Prop :=
  scan n p = .error .decode ∨ ((∀ c ∈ s, c ∈ numberChars) ∧ ∃ t r, scan n p = .ok (t, r) ∧ Dead r)

theorem literal_cut {n : Nat} {p s : Str} (hs : s = "null".toList ∨ s = "true".toList ∨ s = "false".toList)
    (hp : p <+: s) (hl : p.length < s.length) : scan (n + 1) p = .error .decode := by
  have e : p = s.take p.length := List.prefix_iff_eq_take.mp hp
  have key : ∀ k, k < s.length → scan (n + 1) (s.take k) = .error .decode := by
    intro k hk
    rcases hs with rfl | rfl | rfl
    · match k, hk with
      | 0, _ | 1, _ | 2, _ | 3, _ => rfl
    · match k, hk with
      | 0, _ | 1, _ | 2, _ | 3, _ => rfl
    · match k, hk with
      | 0, _ | 1, _ | 2, _ | 3, _ | 4, _ => rfl
  rw [e]
  exact key _ hl

theorem skip_json_prefix {F : Floats} {v : PyVal} {s p : Str} (h : Json F v s) (hp : p <+: s) : skip p = p := by
  obtain ⟨c, r, rfl, hc, -⟩ := json_head h
  replace hp := prefix_cons hp
  rcases hp with rfl | ⟨p, rfl, -⟩
  · rfl
  · apply skip_solid
    simp only [List.mem_cons, List.not_mem_nil, or_false, not_or] at hc ⊢
    simp [hc]

theorem scanItems_cut {n : Nat} {s p : Str} (h : Cut n s p) : scanItems (n + 1) p = .error .decode := by
  rw [scanItems]
  rcases h with h | ⟨-, t, r, h, hd⟩
  · rw [h]
  · rw [h]
    simp only
    split
    · rename_i e
      exact absurd (by simp) (hd ']' (by rw [e]; rfl))
    · rename_i e
      exact absurd (by simp) (hd ',' (by rw [e]; rfl))
    · rfl

theorem scanItems_ends {n : Nat} {s p : Str} {t : Tree} (h : scan n s = .ok (t, p)) (hp : Blank p) :
    scanItems (n + 1) s = .error .decode := by
  rw [scanItems, h]
  simp only [skip_all hp]

theorem pairs_value {n : Nat} {s p : Str} (h : Cut n s p) (k : List Nat)
    (rest : Nat → Str → Except JErr (List (List Nat × Tree) × Str)) :
    (match scan n p with
    | .error e => .error e
    | .ok (x, s) =>
      match skip s with
      | '}' :: s => .ok ([(k, x)], s)
      | ',' :: s =>
        match rest n (skip s) with
        | .error e => .error e
        | .ok (kvs, s) => .ok ((k, x) :: kvs, s)
      | _ => .error .decode : Except JErr (List (List Nat × Tree) × Str)) = .error .decode := by
  rcases h with h | ⟨-, t, r, h, hd⟩
  · rw [h]
  · rw [h]
    simp only
    split
    · rename_i e
      exact absurd (by simp) (hd '}' (by rw [e]; rfl))
    · rename_i e
      exact absurd (by simp) (hd ',' (by rw [e]; rfl))
    · rfl

mutual
theorem cut_of {F : Floats} {v : PyVal} {s : Str} (h : Json F v s) {p : Str} (hp : p <+: s) (hl : p.length < s.length)
    {n : Nat} (hn : 2 * p.length ≤ n) : Cut (n + 1) s p := by
  match h with
  | .null => exact .inl (literal_cut (.inl rfl) hp hl)
  | .true_ => exact .inl (literal_cut (.inr (.inl rfl)) hp hl)
  | .false_ => exact .inl (literal_cut (.inr (.inr rfl)) hp hl)
  | .int hi =>
    have hc := integer_chars hi
    rcases scan_dead (n := n) (fun c h => hc c (hp.subset h)) with h | h
    · exact .inl h
    · exact .inr ⟨hc, h⟩
  | .float hf hv =>
    have hc := float_chars hf
    rcases scan_dead (n := n) (fun c h => hc c (hp.subset h)) with h | h
    · exact .inl h
    · exact .inr ⟨hc, h⟩
  | @Json.str _ cs s hq =>
    refine .inl ?_
    simp only [List.cons_append] at hp
    replace hp := prefix_cons hp
    rcases hp with rfl | ⟨p, rfl, hp⟩
    · rfl
    simp only [List.length_cons, List.length_append, List.cons_append, List.length_nil] at hn hl
    replace hp := prefix_split hp
    rcases hp with ⟨-, hp⟩ | ⟨p', rfl, hp⟩
    · rw [scan_quote, readStr_cut hq p n hp (by omega)]
    · rw [List.length_append] at hl hn
      have : p' = [] := List.length_eq_zero_iff.mp (by omega)
      subst this
      rw [scan_quote, List.append_nil, readStr_cut hq s n (List.prefix_refl _) (by omega)]
  | @Json.emptyList _ w hw =>
    refine .inl ?_
    simp only [List.cons_append] at hp
    replace hp := prefix_cons hp
    rcases hp with rfl | ⟨p, rfl, hp⟩
    · rfl
    simp only [List.length_cons, List.length_append, List.cons_append, List.length_nil] at hn hl
    have hb : Blank p := by
      replace hp := prefix_split hp
      rcases hp with ⟨-, hp⟩ | ⟨p', rfl, hp⟩
      · exact blank_prefix hp hw
      · rw [List.length_append] at hl
        have : p' = [] := List.length_eq_zero_iff.mp (by omega)
        subst this
        rwa [List.append_nil]
    rw [scan_bracket (by rw [skip_all hb]; simp), skip_all hb, scanItems_nil (by omega)]
  | @Json.emptyDict _ w hw =>
    refine .inl ?_
    simp only [List.cons_append] at hp
    replace hp := prefix_cons hp
    rcases hp with rfl | ⟨p, rfl, hp⟩
    · rfl
    simp only [List.length_cons, List.length_append, List.cons_append, List.length_nil] at hn hl
    have hb : Blank p := by
      replace hp := prefix_split hp
      rcases hp with ⟨-, hp⟩ | ⟨p', rfl, hp⟩
      · exact blank_prefix hp hw
      · rw [List.length_append] at hl
        have : p' = [] := List.length_eq_zero_iff.mp (by omega)
        subst this
        rwa [List.append_nil]
    rw [scan_brace (by rw [skip_all hb]; simp), skip_all hb, scanPairs_nil (by omega)]
  | @Json.list _ xs s hi =>
    refine .inl ?_
    simp only [List.cons_append] at hp
    replace hp := prefix_cons hp
    rcases hp with rfl | ⟨p, rfl, hp⟩
    · rfl
    simp only [List.length_cons, List.length_append, List.cons_append, List.length_nil] at hn hl
    have hp' : p <+: s := by
      replace hp := prefix_split hp
      rcases hp with ⟨-, hp⟩ | ⟨p', rfl, hp⟩
      · exact hp
      · rw [List.length_append] at hl
        have : p' = [] := List.length_eq_zero_iff.mp (by omega)
        subst this
        rw [List.append_nil]
        exact List.prefix_refl _
    rw [scan_bracket, items_cut hi hp' (by omega)]
    rcases skip_prefix hp' with e | e
    · rw [e]; simp
    · rw [e]
      have := items_head hi []
      rwa [List.append_nil] at this
  | @Json.dict _ kvs s hi =>
    refine .inl ?_
    simp only [List.cons_append] at hp
    replace hp := prefix_cons hp
    rcases hp with rfl | ⟨p, rfl, hp⟩
    · rfl
    simp only [List.length_cons, List.length_append, List.cons_append, List.length_nil] at hn hl
    have hp' : p <+: s := by
      replace hp := prefix_split hp
      rcases hp with ⟨-, hp⟩ | ⟨p', rfl, hp⟩
      · exact hp
      · rw [List.length_append] at hl
        have : p' = [] := List.length_eq_zero_iff.mp (by omega)
        subst this
        rw [List.append_nil]
        exact List.prefix_refl _
    rw [scan_brace, pairs_cut hi hp' (by omega)]
    rcases skip_prefix hp' with e | e
    · rw [e]; simp
    · rw [e]
      obtain ⟨r', hr'⟩ := pairs_head hi []
      rw [List.append_nil] at hr'
      rw [hr']
      simp
theorem items_cut {F : Floats} {xs : List PyVal} {s : Str} (h : Items F xs s) {p : Str} (hp : p <+: s) {n : Nat}
    (hn : 2 * p.length + 2 ≤ n) : scanItems n (skip p) = .error .decode := by
  match h with
  | @Items.one _ x w s w' hw hj hw' =>
    rw [List.append_assoc] at hp
    replace hp := prefix_split hp
    rcases hp with ⟨-, hp⟩ | ⟨p, rfl, hp⟩
    · rw [skip_all (blank_prefix hp hw)]
      exact scanItems_nil (by omega)
    rw [List.length_append] at hn
    rw [skip_blank hw]
    obtain ⟨n, rfl⟩ : ∃ m, n = m + 2 := ⟨n - 2, by omega⟩
    replace hp := prefix_split hp
    rcases hp with ⟨hl, hp⟩ | ⟨p, rfl, hp⟩
    · rw [skip_json_prefix hj hp]
      exact scanItems_cut (cut_of hj hp hl (n := n) (by omega))
    · rw [List.length_append] at hn
      have hb := blank_prefix hp hw'
      obtain ⟨t, h1, -⟩ := scan_of hj (ends_of_blank hb) (n := n) (by omega)
      rw [skip_json hj]
      exact scanItems_ends h1 hb
  | @Items.cons _ x xs w s w' r hw hj hw' hi =>
    rw [List.append_assoc, List.append_assoc] at hp
    replace hp := prefix_split hp
    rcases hp with ⟨-, hp⟩ | ⟨p, rfl, hp⟩
    · rw [skip_all (blank_prefix hp hw)]
      exact scanItems_nil (by omega)
    rw [List.length_append] at hn
    rw [skip_blank hw]
    obtain ⟨n, rfl⟩ : ∃ m, n = m + 2 := ⟨n - 2, by omega⟩
    replace hp := prefix_split hp
    rcases hp with ⟨hl, hp⟩ | ⟨p, rfl, hp⟩
    · rw [skip_json_prefix hj hp]
      exact scanItems_cut (cut_of hj hp hl (n := n) (by omega))
    rw [List.length_append] at hn
    rw [skip_json hj]
    replace hp := prefix_split hp
    rcases hp with ⟨-, hp⟩ | ⟨p, rfl, hp⟩
    · have hb := blank_prefix hp hw'
      obtain ⟨t, h1, -⟩ := scan_of hj (ends_of_blank hb) (n := n) (by omega)
      exact scanItems_ends h1 hb
    rw [List.length_append] at hn
    replace hp := prefix_cons hp
    rcases hp with rfl | ⟨p, rfl, hp⟩
    · rw [List.append_nil]
      obtain ⟨t, h1, -⟩ := scan_of hj (ends_of_blank hw') (n := n) (by omega)
      exact scanItems_ends h1 hw'
    · rw [List.length_cons] at hn
      obtain ⟨t, h1, -⟩ := scan_of hj (ends_blank hw' (ends_cons (c := ',') (by decide) p)) (n := n) (by omega)
      rw [scanItems, h1]
      simp only [skip_blank hw', skip_solid (c := ',') (by decide)]
      rw [items_cut hi hp (n := n + 1) (by omega)]
theorem pairs_cut {F : Floats} {kvs : List (String × PyVal)} {s : Str} (h : Pairs F kvs s) {p : Str} (hp : p <+: s)
    {n : Nat} (hn : 2 * p.length + 2 ≤ n) : scanPairs n (skip p) = .error .decode := by
  match h with
  | @Pairs.one _ cs k x w w1 w2 s w' hw hq hw1 hw2 hj hw' =>
    simp only [List.append_assoc, List.cons_append] at hp
    replace hp := prefix_split hp
    rcases hp with ⟨-, hp⟩ | ⟨p, rfl, hp⟩
    · rw [skip_all (blank_prefix hp hw)]
      exact scanPairs_nil (by omega)
    rw [List.length_append] at hn
    rw [skip_blank hw]
    obtain ⟨n, rfl⟩ : ∃ m, n = m + 2 := ⟨n - 2, by omega⟩
    replace hp := prefix_cons hp
    rcases hp with rfl | ⟨p, rfl, hp⟩
    · exact scanPairs_nil (by omega)
    rw [skip_solid (by decide), scanPairs]
    rw [List.length_cons] at hn
    replace hp := prefix_split hp
    rcases hp with ⟨-, hp⟩ | ⟨p, rfl, hp⟩
    · simp only [readStr_cut hq p (n + 1) hp (by omega)]
    rw [List.length_append] at hn
    replace hp := prefix_cons hp
    rcases hp with rfl | ⟨p, rfl, hp⟩
    · rw [List.append_nil]
      simp only [readStr_cut hq k (n + 1) (List.prefix_refl _) (by omega)]
    rw [List.length_cons] at hn
    simp only [readStr_of hq p (n + 1) (by omega)]
    replace hp := prefix_split hp
    rcases hp with ⟨-, hp⟩ | ⟨p, rfl, hp⟩
    · simp only [skip_all (blank_prefix hp hw1)]
    rw [List.length_append] at hn
    simp only [skip_blank hw1]
    replace hp := prefix_cons hp
    rcases hp with rfl | ⟨p, rfl, hp⟩
    · rfl
    rw [List.length_cons] at hn
    simp only [skip_solid (c := ':') (by decide)]
    replace hp := prefix_split hp
    rcases hp with ⟨-, hp⟩ | ⟨p, rfl, hp⟩
    · simp only [skip_all (blank_prefix hp hw2), scan_nil]
    rw [List.length_append] at hn
    simp only [skip_blank hw2]
    replace hp := prefix_split hp
    rcases hp with ⟨hl, hp⟩ | ⟨p, rfl, hp⟩
    · simp only [skip_json_prefix hj hp]
      exact pairs_value (cut_of hj hp hl (n := n) (by omega)) _ scanPairs
    rw [List.length_append] at hn
    have hb := blank_prefix hp hw'
    obtain ⟨t, h1, -⟩ := scan_of hj (ends_of_blank hb) (n := n) (by omega)
    simp only [skip_json hj, h1, skip_all hb]
  | @Pairs.cons _ cs k x kvs w w1 w2 s w' r hw hq hw1 hw2 hj hw' hi =>
    simp only [List.append_assoc, List.cons_append] at hp
    replace hp := prefix_split hp
    rcases hp with ⟨-, hp⟩ | ⟨p, rfl, hp⟩
    · rw [skip_all (blank_prefix hp hw)]
      exact scanPairs_nil (by omega)
    rw [List.length_append] at hn
    rw [skip_blank hw]
    obtain ⟨n, rfl⟩ : ∃ m, n = m + 2 := ⟨n - 2, by omega⟩
    replace hp := prefix_cons hp
    rcases hp with rfl | ⟨p, rfl, hp⟩
    · exact scanPairs_nil (by omega)
    rw [skip_solid (by decide), scanPairs]
    rw [List.length_cons] at hn
    replace hp := prefix_split hp
    rcases hp with ⟨-, hp⟩ | ⟨p, rfl, hp⟩
    · simp only [readStr_cut hq p (n + 1) hp (by omega)]
    rw [List.length_append] at hn
    replace hp := prefix_cons hp
    rcases hp with rfl | ⟨p, rfl, hp⟩
    · rw [List.append_nil]
      simp only [readStr_cut hq k (n + 1) (List.prefix_refl _) (by omega)]
    rw [List.length_cons] at hn
    simp only [readStr_of hq p (n + 1) (by omega)]
    replace hp := prefix_split hp
    rcases hp with ⟨-, hp⟩ | ⟨p, rfl, hp⟩
    · simp only [skip_all (blank_prefix hp hw1)]
    rw [List.length_append] at hn
    simp only [skip_blank hw1]
    replace hp := prefix_cons hp
    rcases hp with rfl | ⟨p, rfl, hp⟩
    · rfl
    rw [List.length_cons] at hn
    simp only [skip_solid (c := ':') (by decide)]
    replace hp := prefix_split hp
    rcases hp with ⟨-, hp⟩ | ⟨p, rfl, hp⟩
    · simp only [skip_all (blank_prefix hp hw2), scan_nil]
    rw [List.length_append] at hn
    simp only [skip_blank hw2]
    replace hp := prefix_split hp
    rcases hp with ⟨hl, hp⟩ | ⟨p, rfl, hp⟩
    · simp only [skip_json_prefix hj hp]
      exact pairs_value (cut_of hj hp hl (n := n) (by omega)) _ scanPairs
    rw [List.length_append] at hn
    simp only [skip_json hj]
    replace hp := prefix_split hp
    rcases hp with ⟨-, hp⟩ | ⟨p, rfl, hp⟩
    · have hb := blank_prefix hp hw'
      obtain ⟨t, h1, -⟩ := scan_of hj (ends_of_blank hb) (n := n) (by omega)
      simp only [h1, skip_all hb]
    rw [List.length_append] at hn
    replace hp := prefix_cons hp
    rcases hp with rfl | ⟨p, rfl, hp⟩
    · rw [List.append_nil]
      obtain ⟨t, h1, -⟩ := scan_of hj (ends_of_blank hw') (n := n) (by omega)
      simp only [h1, skip_all hw']
    · rw [List.length_cons] at hn
      obtain ⟨t, h1, -⟩ := scan_of hj (ends_blank hw' (ends_cons (c := ',') (by decide) p)) (n := n) (by omega)
      simp only [h1, skip_blank hw', skip_solid (c := ',') (by decide)]
      rw [pairs_cut hi hp (n := n + 1) (by omega)]
end

/-- A JSON text of anything but a number that is cut off is no JSON text. -/
theorem loads_cut {F : Floats} {v : PyVal} {s p : Str} (h : Json F v s) (hs : ∃ c ∈ s, c ∉ numberChars)
    (hp : p <+: s) (hl : p ≠ s) : loads F p = .error .decode := by
  have hlen : p.length < s.length := by
    obtain ⟨q, rfl⟩ := hp
    cases q with
    | nil => simp at hl
    | cons => simp
  unfold loads scanText
  obtain ⟨c, hc, hc'⟩ := hs
  have hb : p.head? ≠ some (Char.ofNat 65279) := by
    obtain ⟨d, r, rfl, -, hd⟩ := json_head h
    replace hp := prefix_cons hp
    rcases hp with rfl | ⟨p, rfl, -⟩
    · simp
    · simpa using hd
  rw [if_neg hb, skip_json_prefix h hp]
  rcases cut_of h hp hlen (n := 2 * p.length + 1) (by omega) with h1 | ⟨h1, -⟩
  · rw [h1]
  · exact absurd (h1 c hc) hc'

end Recap.JsonText
