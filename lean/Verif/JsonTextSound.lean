import Verif.JsonTextLemmas

/-! # Lemmas about JSON texts: what the scanner reads is in the grammar; it never runs out of fuel -/

set_option autoImplicit false

namespace Recap.JsonText

open Spec

/-! ## Strings -/

theorem readHex4_sound {s r : Str} {n : Nat} (h : readHex4 s = .ok (n, r)) : ∃ t, s = t ++ r ∧ Hex4 n t := by
  unfold readHex4 at h
  split at h
  · split at h
    · rename_i h1 h2 h3 h4
      cases h
      exact ⟨_, rfl, .mk (hex_of h1) (hex_of h2) (hex_of h3) (hex_of h4)⟩
    · cases h
  · cases h

theorem readUnicode_sound {s r : Str} {n : Nat} (h : readUnicode s = .ok (n, r)) :
    (∃ t, s = t ++ r ∧ Hex4 n t) ∨
      ∃ x y t t', s = t ++ '\\' :: 'u' :: t' ++ r ∧ Hex4 (0xD800 + x) t ∧ Hex4 (0xDC00 + y) t' ∧ x < 1024 ∧ y < 1024 ∧
        n = 0x10000 + x * 1024 + y := by
  unfold readUnicode at h
  split at h
  · cases h
  · rename_i x s1 h1
    obtain ⟨t, rfl, ht⟩ := readHex4_sound h1
    split at h
    · rename_i hx
      split at h
      · split at h
        · cases h
        · rename_i y s3 h2
          obtain ⟨t', rfl, ht'⟩ := readHex4_sound h2
          split at h
          · rename_i hy
            injection h with h
            injection h with h h'
            refine .inr ⟨x - 55296, y - 56320, t, t', ?_, ?_, ?_, by omega, by omega, ?_⟩
            · rw [h']; simp
            · have e : 0xD800 + (x - 55296) = x := by omega
              rwa [e]
            · have e : 0xDC00 + (y - 56320) = y := by omega
              rwa [e]
            · exact h.symm
          · cases h
            exact .inl ⟨t, rfl, ht⟩
      · cases h
        exact .inl ⟨t, rfl, ht⟩
    · cases h
      exact .inl ⟨t, rfl, ht⟩

theorem readShort_sound {e : Char} {n : Nat} (h : readShort e = some n) : (e, n) ∈ escapes := by
  unfold readShort at h
  repeat' split at h
  all_goals first | (cases h; subst_vars; decide) | cases h

/-- What one code point is read from. -/
inductive Piece : Nat → Str → Prop
  | plain {c : Char} : c ≠ '\\' → 32 ≤ c.toNat → Piece c.toNat [c]
  | short {e : Char} {n : Nat} : (e, n) ∈ escapes → Piece n ['\\', e]
  | unit {n : Nat} {h : Str} : Hex4 n h → Piece n ('\\' :: 'u' :: h)
  | pair {h h' : Str} {x y : Nat} : Hex4 (0xD800 + x) h → Hex4 (0xDC00 + y) h' → x < 1024 → y < 1024 →
      Piece (0x10000 + x * 1024 + y) ('\\' :: 'u' :: h ++ '\\' :: 'u' :: h')

theorem readPoint_sound {s r : Str} {n : Nat} (h : readPoint s = .ok (n, r)) : ∃ t, s = t ++ r ∧ Piece n t := by
  unfold readPoint at h
  split at h
  · cases h
  · cases h
  · rcases readUnicode_sound h with ⟨t, rfl, ht⟩ | ⟨x, y, t, t', rfl, ht, ht', hx, hy, rfl⟩
    · exact ⟨_, rfl, .unit ht⟩
    · exact ⟨'\\' :: 'u' :: t ++ '\\' :: 'u' :: t', by simp, .pair ht ht' hx hy⟩
  · split at h
    · rename_i hs
      cases h
      exact ⟨_, rfl, .short (readShort_sound hs)⟩
    · cases h
  · rename_i c s h1 h2 h3
    split at h
    · cases h
    · cases h
      refine ⟨[c], rfl, .plain ?_ (by omega)⟩
      rintro rfl
      cases r with
      | nil => exact h1 rfl rfl
      | cons d s => exact h3 _ _ rfl rfl

theorem piece_length {n : Nat} {t : Str} (h : Piece n t) : 0 < t.length := by
  cases h <;> simp

theorem Piece.quoted {c : Char} {t : Str} (h : Piece c.toNat t) (hq : t.head? ≠ some '"') {cs : List Char} {s : Str}
    (hs : Quoted cs s) : Quoted (c :: cs) (t ++ s) := by
  generalize hn : c.toNat = n at h
  cases h with
  | @plain d h1 h2 =>
    have : d = c := by
      have := congrArg Char.ofNat hn
      rw [char_ofNat, char_ofNat] at this
      exact this.symm
    subst this
    exact .plain (by simpa using hq) h1 h2 hs
  | short h => subst hn; exact .short h hs
  | unit h => subst hn; exact .unit h hs
  | @pair h h' x y h1 h2 h3 h4 =>
    have e : '\\' :: 'u' :: h ++ '\\' :: 'u' :: h' ++ s = '\\' :: 'u' :: h ++ '\\' :: 'u' :: h' ++ s := rfl
    rw [e]
    exact .pair h1 h2 h3 h4 hn hs

theorem readStr_sound : ∀ (n : Nat) {s r : Str} {ps : List Nat}, readStr n s = .ok (ps, r) →
    r.length < s.length ∧ ∀ cs, strOf ps = some cs → ∃ q, s = q ++ '"' :: r ∧ Quoted cs q := by
  intro n
  induction n with
  | zero => intro s r ps h; cases h
  | succ n ih =>
    intro s r ps h
    by_cases hq : s.head? = some '"'
    · cases s with
      | nil => cases hq
      | cons c s =>
        cases hq
        rw [readStr_quote] at h
        cases h
        refine ⟨by simp, fun cs hcs => ?_⟩
        cases hcs
        exact ⟨[], rfl, .nil⟩
    · rw [readStr_step hq] at h
      split at h
      · cases h
      · rename_i p s1 hp
        obtain ⟨t, rfl, ht⟩ := readPoint_sound hp
        split at h
        · cases h
        · rename_i ps' s2 hs
          cases h
          obtain ⟨h1, h2⟩ := ih hs
          refine ⟨by rw [List.length_append]; omega, fun cs hcs => ?_⟩
          rw [strOf] at hcs
          split at hcs
          · rename_i c cs' e1 e2
            cases hcs
            obtain ⟨q, rfl, hq'⟩ := h2 _ e2
            refine ⟨t ++ q, by simp, ?_⟩
            have hc := charOf_some e1
            subst hc
            refine ht.quoted ?_ hq'
            intro hh
            apply hq
            rw [head_append, hh]
            rintro rfl
            cases hh
          · cases hcs

/-! ## Numbers -/

theorem takeWhile_sound (s : Str) : (∀ c ∈ s.takeWhile isDigit, Digit c) ∧
    s = s.takeWhile isDigit ++ s.dropWhile isDigit := by
  refine ⟨fun c hc => isDigit_iff.mp ?_, (List.takeWhile_append_dropWhile).symm⟩
  exact List.all_eq_true.mp List.all_takeWhile c hc

theorem digit_cons {c : Char} {s : Str} (h : isDigit c = true) : Digits (c :: s.takeWhile isDigit) := by
  refine ⟨by simp, ?_⟩
  intro x hx
  rcases List.mem_cons.mp hx with rfl | hx
  · exact isDigit_iff.mp h
  · exact (takeWhile_sound s).1 x hx

theorem takeInt_sound {s i r : Str} (h : takeInt s = some (i, r)) : s = i ++ r ∧ ∃ k, Integer k i := by
  have zero : Natural ['0'] := ⟨⟨by simp, by simp [Digit]⟩, fun _ => rfl⟩
  have nat : ∀ {c : Char} {s : Str}, c ≠ '0' → isDigit c = true → Natural (c :: s.takeWhile isDigit) := by
    intro c s hc hd
    exact ⟨digit_cons hd, fun hh => absurd (Option.some.inj hh) hc⟩
  unfold takeInt at h
  split at h
  · cases h
    exact ⟨rfl, _, .neg zero⟩
  · cases h
    exact ⟨rfl, _, .pos zero⟩
  · rename_i c s hc
    split at h
    · rename_i hd
      cases h
      refine ⟨by rw [List.cons_append, List.cons_append, ← (takeWhile_sound s).2], _, .neg (nat ?_ hd)⟩
      rintro rfl
      exact hc rfl
    · cases h
  · rename_i c s h1 h2 h3
    split at h
    · rename_i hd
      cases h
      refine ⟨by rw [List.cons_append, ← (takeWhile_sound s).2], _, .pos (nat ?_ hd)⟩
      rintro rfl
      exact h2 rfl
    · cases h
  · cases h

theorem takeFrac_sound {s f r : Str} (h : takeFrac s = (f, r)) : s = f ++ r ∧ Fraction f := by
  unfold takeFrac at h
  split at h
  · rename_i c s
    split at h
    · rename_i hd
      cases h
      exact ⟨by simp only [List.cons_append]; rw [← (takeWhile_sound s).2], .inr ⟨_, digit_cons hd, rfl⟩⟩
    · cases h; exact ⟨rfl, .inl rfl⟩
  · cases h; exact ⟨rfl, .inl rfl⟩

theorem takeExp_sound {s x r : Str} (h : takeExp s = (x, r)) : s = x ++ r ∧ Exponent x := by
  unfold takeExp at h
  split at h
  · rename_i e c s
    split at h
    · rename_i he
      split at h
      · rename_i hc
        split at h
        · rename_i d s'
          split at h
          · rename_i hd
            cases h
            refine ⟨by simp only [List.cons_append]; rw [← (takeWhile_sound s').2], .inr ⟨e, d :: s'.takeWhile isDigit, he, digit_cons hd, ?_⟩⟩
            rcases hc with rfl | rfl
            · exact .inr (.inl rfl)
            · exact .inr (.inr rfl)
          · cases h; exact ⟨rfl, .inl rfl⟩
        · cases h; exact ⟨rfl, .inl rfl⟩
      · split at h
        · rename_i hd
          cases h
          exact ⟨by simp only [List.cons_append]; rw [← (takeWhile_sound s).2],
            .inr ⟨e, _, he, digit_cons hd, .inl rfl⟩⟩
        · cases h; exact ⟨rfl, .inl rfl⟩
    · cases h; exact ⟨rfl, .inl rfl⟩
  · cases h; exact ⟨rfl, .inl rfl⟩

theorem integer_length {k : Int} {i : Str} (h : Integer k i) : 0 < i.length := by
  rcases integer_head h with ⟨c, r, rfl, -⟩ | ⟨c, r, rfl, -⟩ <;> simp

theorem readNumber_sound {s r : Str} {t : Tree} (h : readNumber s = .ok (t, r)) :
    ∃ b, s = b ++ r ∧ 0 < b.length ∧ ((∃ k, t = .int k ∧ Integer k b) ∨ (t = .float b ∧ FloatText b)) := by
  unfold readNumber at h
  split at h
  · cases h
  · rename_i i s1 hi
    obtain ⟨rfl, k, hk⟩ := takeInt_sound hi
    split at h
    rename_i f s2 hf
    obtain ⟨rfl, hf'⟩ := takeFrac_sound hf
    split at h
    rename_i x s3 hx
    obtain ⟨rfl, hx'⟩ := takeExp_sound hx
    split at h
    · rename_i he
      obtain ⟨rfl, rfl⟩ := he
      rw [strInt_of hk] at h
      cases h
      exact ⟨i, rfl, integer_length hk, .inl ⟨k, rfl, hk⟩⟩
    · rename_i he
      cases h
      refine ⟨i ++ f ++ x, by simp, ?_, .inr ⟨rfl, k, i, f, x, hk, hf', hx', ?_, rfl⟩⟩
      · have := integer_length hk
        simp only [List.length_append]; omega
      · by_cases h1 : f = []
        · exact .inr fun h2 => he ⟨h1, h2⟩
        · exact .inl h1

theorem readNumber_fuel (s : Str) : readNumber s ≠ .error .fuel := by
  unfold readNumber
  split
  · simp
  · split
    split
    split
    · split <;> simp
    · simp

/-! ## Lengths and fuel -/

theorem skip_sound (s : Str) : ∃ w, Blank w ∧ s = w ++ skip s := by
  induction s with
  | nil => exact ⟨[], (by intro c h; cases h), rfl⟩
  | cons c s ih =>
    rw [skip]
    split
    · rename_i hc
      obtain ⟨w, hw, e⟩ := ih
      refine ⟨c :: w, ?_, by rw [List.cons_append, ← e]⟩
      intro x hx
      rcases List.mem_cons.mp hx with rfl | hx
      · exact blank_iff.mpr hc
      · exact hw x hx
    · exact ⟨[], (by intro c h; cases h), rfl⟩

theorem skip_cons_le {s r : Str} {c : Char} (h : skip s = c :: r) : r.length < s.length := by
  have := skip_le s
  rw [h, List.length_cons] at this
  omega

/-- What is left is shorter than what was given. -/
theorem scan_shorter : ∀ n : Nat,
    (∀ s t r, scan n s = .ok (t, r) → r.length < s.length) ∧
    (∀ s ts r, scanItems n s = .ok (ts, r) → r.length < s.length) ∧
    (∀ s ts r, scanPairs n s = .ok (ts, r) → r.length < s.length) := by
  intro n
  induction n with
  | zero =>
    refine ⟨?_, ?_, ?_⟩ <;> intro s t r h <;> cases h
  | succ n ih =>
    obtain ⟨ih1, ih2, ih3⟩ := ih
    refine ⟨?_, ?_, ?_⟩
    · intro s t r h
      unfold scan at h
      split at h
      · split at h
        · cases h
        · rename_i hs
          cases h
          have := (readStr_sound n hs).1
          simp only [List.length_cons]; omega
      · rename_i s'
        split at h
        · rename_i hs
          cases h
          have := skip_cons_le hs
          simp only [List.length_cons]; omega
        · split at h
          · cases h
          · rename_i hs
            cases h
            have h1 := ih3 _ _ _ hs
            have h2 := skip_le s'
            simp only [List.length_cons]; omega
      · rename_i s'
        split at h
        · rename_i hs
          cases h
          have := skip_cons_le hs
          simp only [List.length_cons]; omega
        · split at h
          · cases h
          · rename_i hs
            cases h
            have h1 := ih2 _ _ _ hs
            have h2 := skip_le s'
            simp only [List.length_cons]; omega
      all_goals first
        | (cases h; simp only [List.length_cons]; omega)
        | (obtain ⟨b, rfl, hb, -⟩ := readNumber_sound h
           rw [List.length_append]; omega)
    · intro s ts r h
      unfold scanItems at h
      split at h
      · cases h
      · rename_i x s1 hx
        have h1 := ih1 _ _ _ hx
        split at h
        · rename_i hs
          cases h
          have := skip_cons_le hs
          omega
        · rename_i s2 hs
          have h2 := skip_cons_le hs
          split at h
          · cases h
          · rename_i hi
            cases h
            have h3 := ih2 _ _ _ hi
            have h4 := skip_le s2
            omega
        · cases h
    · intro s ts r h
      unfold scanPairs at h
      split at h
      · split at h
        · cases h
        · rename_i k s1 hk
          have h1 := (readStr_sound n hk).1
          split at h
          · rename_i s2 hs
            have h2 := skip_cons_le hs
            split at h
            · cases h
            · rename_i x s3 hx
              have h3 := ih1 _ _ _ hx
              have h3' := skip_le s2
              split at h
              · rename_i hs
                cases h
                have := skip_cons_le hs
                simp only [List.length_cons]; omega
              · rename_i s4 hs
                have h4 := skip_cons_le hs
                split at h
                · cases h
                · rename_i hi
                  cases h
                  have h5 := ih3 _ _ _ hi
                  have h6 := skip_le s4
                  simp only [List.length_cons]; omega
              · cases h
          · cases h
      · cases h

theorem readStr_fuel : ∀ (n : Nat) (s : Str), s.length < n → readStr n s ≠ .error .fuel := by
  intro n
  induction n with
  | zero => intro s h; omega
  | succ n ih =>
    intro s hs
    by_cases hq : s.head? = some '"'
    · cases s with
      | nil => cases hq
      | cons c s =>
        cases hq
        rw [readStr_quote]
        simp
    · rw [readStr_step hq]
      split
      · rename_i e he
        intro hh
        cases hh
        unfold readPoint at he
        have hex : ∀ s, readHex4 s ≠ .error .fuel := by
          intro s
          unfold readHex4
          repeat' split
          all_goals simp
        repeat' split at he
        all_goals first
          | cases he
          | (unfold readUnicode at he
             split at he
             · rename_i h1; cases he; exact hex _ h1
             · split at he
               · split at he
                 · split at he
                   · rename_i h1; cases he; exact hex _ h1
                   · split at he <;> cases he
                 · cases he
               · cases he)
      · rename_i p s1 hp
        obtain ⟨t, rfl, ht⟩ := readPoint_sound hp
        have := piece_length ht
        rw [List.length_append] at hs
        split
        · rename_i e he
          intro hh
          cases hh
          exact ih s1 (by omega) he
        · simp

/-- The fuel of `loads` is enough. -/
theorem scan_fuel : ∀ n : Nat,
    (∀ s, 2 * s.length < n → scan n s ≠ .error .fuel) ∧
    (∀ s, 2 * s.length + 1 < n → scanItems n s ≠ .error .fuel) ∧
    (∀ s, 2 * s.length + 1 < n → scanPairs n s ≠ .error .fuel) := by
  intro n
  induction n with
  | zero => refine ⟨?_, ?_, ?_⟩ <;> intro s h <;> omega
  | succ n ih =>
    obtain ⟨ih1, ih2, ih3⟩ := ih
    refine ⟨?_, ?_, ?_⟩
    · intro s hn h
      unfold scan at h
      split at h
      · simp only [List.length_cons] at hn
        split at h
        · rename_i he
          cases h
          exact readStr_fuel n _ (by omega) he
        · cases h
      · rename_i s'
        simp only [List.length_cons] at hn
        split at h
        · cases h
        · split at h
          · rename_i he
            cases h
            have := skip_le s'
            exact ih3 _ (by omega) he
          · cases h
      · rename_i s'
        simp only [List.length_cons] at hn
        split at h
        · cases h
        · split at h
          · rename_i he
            cases h
            have := skip_le s'
            exact ih2 _ (by omega) he
          · cases h
      all_goals first
        | cases h
        | exact readNumber_fuel _ h
    · intro s hn h
      unfold scanItems at h
      split at h
      · rename_i he
        cases h
        exact ih1 _ (by omega) he
      · rename_i x s1 hx
        have h1 := (scan_shorter n).1 _ _ _ hx
        split at h
        · cases h
        · rename_i s2 hs
          have h2 := skip_cons_le hs
          split at h
          · rename_i he
            cases h
            have := skip_le s2
            exact ih2 _ (by omega) he
          · cases h
        · cases h
    · intro s hn h
      unfold scanPairs at h
      split at h
      · simp only [List.length_cons] at hn
        split at h
        · rename_i he
          cases h
          exact readStr_fuel n _ (by omega) he
        · rename_i k s1 hk
          have h1 := (readStr_sound n hk).1
          split at h
          · rename_i s2 hs
            have h2 := skip_cons_le hs
            have h2' := skip_le s2
            split at h
            · rename_i he
              cases h
              exact ih1 _ (by omega) he
            · rename_i x s3 hx
              have h3 := (scan_shorter n).1 _ _ _ hx
              split at h
              · cases h
              · rename_i s4 hs
                have h4 := skip_cons_le hs
                have h4' := skip_le s4
                split at h
                · rename_i he
                  cases h
                  exact ih3 _ (by omega) he
                · cases h
              · cases h
          · cases h
      · cases h

theorem scanText_fuel (s : Str) : scanText s ≠ .error .fuel := by
  unfold scanText
  split
  · simp
  · have := skip_le s
    split
    · rename_i he
      intro hh
      cases hh
      exact (scan_fuel _).1 _ (by omega) he
    · split <;> simp

/-! ## Soundness -/

theorem valuesOf_cons {F : Floats} {t : Tree} {ts : List Tree} {vs : List PyVal}
    (h : valuesOf F (t :: ts) = some vs) : ∃ v vs', valueOf F t = some v ∧ valuesOf F ts = some vs' ∧ vs = v :: vs' := by
  rw [valuesOf] at h
  split at h
  · rename_i v vs' h1 h2
    cases h
    exact ⟨v, vs', h1, h2, rfl⟩
  · cases h

theorem pairsOf_cons {F : Floats} {k : List Nat} {t : Tree} {ts : List (List Nat × Tree)} {d d' : Dict}
    (h : pairsOf F ((k, t) :: ts) d = some d') :
    ∃ cs v, strOf k = some cs ∧ valueOf F t = some v ∧ pairsOf F ts (Dict.set d (String.ofList cs) v) = some d' := by
  rw [pairsOf] at h
  split at h
  · rename_i cs v h1 h2
    exact ⟨cs, v, h1, h2, h⟩
  · cases h


theorem blank_append {w w' : Str} (h : Blank w) (h' : Blank w') : Blank (w ++ w') := by
  intro c hc
  rcases List.mem_append.mp hc with hc | hc
  · exact h c hc
  · exact h' c hc

theorem items_lead {F : Floats} {xs : List PyVal} {s w : Str} (hw : Blank w) (h : Items F xs s) :
    Items F xs (w ++ s) := by
  cases h with
  | @one x w0 s w' h1 h2 h3 =>
    have e : w ++ (w0 ++ s ++ w') = (w ++ w0) ++ s ++ w' := by simp
    rw [e]
    exact .one (blank_append hw h1) h2 h3
  | @cons x xs w0 s w' r h1 h2 h3 h4 =>
    have e : w ++ (w0 ++ s ++ w' ++ ',' :: r) = (w ++ w0) ++ s ++ w' ++ ',' :: r := by simp
    rw [e]
    exact .cons (blank_append hw h1) h2 h3 h4

theorem pairs_lead {F : Floats} {kvs : List (String × PyVal)} {s w : Str} (hw : Blank w) (h : Pairs F kvs s) :
    Pairs F kvs (w ++ s) := by
  cases h with
  | @one cs k x w0 w1 w2 s w' h1 h2 h3 h4 h5 h6 =>
    have e : w ++ (w0 ++ '"' :: k ++ '"' :: w1 ++ ':' :: w2 ++ s ++ w') =
      (w ++ w0) ++ '"' :: k ++ '"' :: w1 ++ ':' :: w2 ++ s ++ w' := by simp
    rw [e]
    exact .one (blank_append hw h1) h2 h3 h4 h5 h6
  | @cons cs k x kvs w0 w1 w2 s w' r h1 h2 h3 h4 h5 h6 h7 =>
    have e : w ++ (w0 ++ '"' :: k ++ '"' :: w1 ++ ':' :: w2 ++ s ++ w' ++ ',' :: r) =
      (w ++ w0) ++ '"' :: k ++ '"' :: w1 ++ ':' :: w2 ++ s ++ w' ++ ',' :: r := by simp
    rw [e]
    exact .cons (blank_append hw h1) h2 h3 h4 h5 h6 h7


theorem scan_sound {F : Floats} (hF : Lawful F) : ∀ n : Nat,
    (∀ s t r v, scan n s = .ok (t, r) → valueOf F t = some v → ∃ b, s = b ++ r ∧ Json F v b) ∧
    (∀ s ts r vs, scanItems n s = .ok (ts, r) → valuesOf F ts = some vs →
      ∃ b, s = b ++ ']' :: r ∧ Items F vs b) ∧
    (∀ s ts r d d', scanPairs n s = .ok (ts, r) → pairsOf F ts d = some d' →
      ∃ b kvs, s = b ++ '}' :: r ∧ Pairs F kvs b ∧ d' = kvs.foldl (fun d kv => Dict.set d kv.1 kv.2) d) := by
  have nil : Blank [] := by intro c h; cases h
  intro n
  induction n with
  | zero =>
    refine ⟨?_, ?_, ?_⟩
    · intro s t r v h; cases h
    · intro s t r v h; cases h
    · intro s t r d d' h; cases h
  | succ n ih =>
    obtain ⟨ih1, ih2, ih3⟩ := ih
    refine ⟨?_, ?_, ?_⟩
    · intro s t r v h hv
      unfold scan at h
      split at h
      · split at h
        · cases h
        · rename_i hs
          cases h
          rw [valueOf, Option.map_eq_some_iff] at hv
          obtain ⟨cs, h1, rfl⟩ := hv
          obtain ⟨q, rfl, hq⟩ := (readStr_sound n hs).2 cs h1
          exact ⟨'"' :: q ++ ['"'], by simp, .str hq⟩
      · rename_i s'
        obtain ⟨w, hw, e⟩ := skip_sound s'
        split at h
        · rename_i hs
          cases h
          cases hv
          rw [hs] at e
          subst e
          exact ⟨'{' :: w ++ ['}'], by simp, .emptyDict hw⟩
        · split at h
          · cases h
          · rename_i hs
            cases h
            rw [valueOf, Option.map_eq_some_iff] at hv
            obtain ⟨d, h1, rfl⟩ := hv
            obtain ⟨b, kvs, h2, h3, rfl⟩ := ih3 _ _ _ _ _ hs h1
            rw [h2] at e
            subst e
            exact ⟨'{' :: (w ++ b) ++ ['}'], by simp, .dict (pairs_lead hw h3)⟩
      · rename_i s'
        obtain ⟨w, hw, e⟩ := skip_sound s'
        split at h
        · rename_i hs
          cases h
          cases hv
          rw [hs] at e
          subst e
          exact ⟨'[' :: w ++ [']'], by simp, .emptyList hw⟩
        · split at h
          · cases h
          · rename_i hs
            cases h
            rw [valueOf, Option.map_eq_some_iff] at hv
            obtain ⟨d, h1, rfl⟩ := hv
            obtain ⟨b, h2, h3⟩ := ih2 _ _ _ _ hs h1
            rw [h2] at e
            subst e
            exact ⟨'[' :: (w ++ b) ++ [']'], by simp, .list (items_lead hw h3)⟩
      · cases h; cases hv; exact ⟨_, rfl, .null⟩
      · cases h; cases hv; exact ⟨_, rfl, .true_⟩
      · cases h; cases hv; exact ⟨_, rfl, .false_⟩
      · cases h; rw [valueOf, hF.nan] at hv; cases hv
      · cases h; rw [valueOf, hF.infinity] at hv; cases hv
      · cases h; rw [valueOf, hF.minusInfinity] at hv; cases hv
      · obtain ⟨b, rfl, -, ⟨k, rfl, hk⟩ | ⟨rfl, hb⟩⟩ := readNumber_sound h
        · cases hv
          exact ⟨b, rfl, .int hk⟩
        · exact ⟨b, rfl, .float hb hv⟩
    · intro s ts r vs h hv
      unfold scanItems at h
      split at h
      · cases h
      · rename_i x s1 hx
        obtain ⟨w', hw', e⟩ := skip_sound s1
        split at h
        · rename_i hs
          cases h
          obtain ⟨v, vs', h1, h2, rfl⟩ := valuesOf_cons hv
          cases h2
          obtain ⟨b, rfl, hb⟩ := ih1 _ _ _ _ hx h1
          rw [hs] at e
          subst e
          exact ⟨[] ++ b ++ w', by simp, .one nil hb hw'⟩
        · rename_i s2 hs
          obtain ⟨w, hw, e'⟩ := skip_sound s2
          split at h
          · cases h
          · rename_i hi
            cases h
            obtain ⟨v, vs', h1, h2, rfl⟩ := valuesOf_cons hv
            obtain ⟨b, rfl, hb⟩ := ih1 _ _ _ _ hx h1
            obtain ⟨b', h3, hb'⟩ := ih2 _ _ _ _ hi h2
            rw [h3] at e'
            subst e'
            rw [hs] at e
            subst e
            exact ⟨[] ++ b ++ w' ++ ',' :: (w ++ b'), by simp, .cons nil hb hw' (items_lead hw hb')⟩
        · cases h
    · intro s ts r d d' h hv
      unfold scanPairs at h
      split at h
      · split at h
        · cases h
        · rename_i k s1 hk
          obtain ⟨w1, hw1, e1⟩ := skip_sound s1
          split at h
          · rename_i s2 hs1
            obtain ⟨w2, hw2, e2⟩ := skip_sound s2
            split at h
            · cases h
            · rename_i x s3 hx
              obtain ⟨w', hw', e3⟩ := skip_sound s3
              split at h
              · rename_i hs
                cases h
                obtain ⟨cs, v, h1, h2, h3⟩ := pairsOf_cons hv
                cases h3
                obtain ⟨b, h4, hb⟩ := ih1 _ _ _ _ hx h2
                obtain ⟨q, rfl, hq⟩ := (readStr_sound n hk).2 cs h1
                rw [hs] at e3
                subst e3
                rw [h4] at e2
                subst e2
                rw [hs1] at e1
                subst e1
                exact ⟨[] ++ '"' :: q ++ '"' :: w1 ++ ':' :: w2 ++ b ++ w', _, by simp,
                  .one nil hq hw1 hw2 hb hw', rfl⟩
              · rename_i s4 hs
                obtain ⟨w, hw, e4⟩ := skip_sound s4
                split at h
                · cases h
                · rename_i hi
                  cases h
                  obtain ⟨cs, v, h1, h2, h3⟩ := pairsOf_cons hv
                  obtain ⟨b, h4, hb⟩ := ih1 _ _ _ _ hx h2
                  obtain ⟨q, rfl, hq⟩ := (readStr_sound n hk).2 cs h1
                  obtain ⟨b', kvs, h5, h6, h7⟩ := ih3 _ _ _ _ _ hi h3
                  rw [h5] at e4
                  subst e4
                  rw [hs] at e3
                  subst e3
                  rw [h4] at e2
                  subst e2
                  rw [hs1] at e1
                  subst e1
                  exact ⟨[] ++ '"' :: q ++ '"' :: w1 ++ ':' :: w2 ++ b ++ w' ++ ',' :: (w ++ b'), _, by simp,
                    .cons nil hq hw1 hw2 hb hw' (pairs_lead hw h6), h7⟩
              · cases h
          · cases h
      · cases h

/-- What is read is what a JSON text denotes. -/
theorem loads_sound {F : Floats} (hF : Lawful F) {s : Str} {v : PyVal} (h : loads F s = .ok v) : IsJson F v s := by
  unfold loads at h
  split at h
  · cases h
  · rename_i t ht
    split at h
    · rename_i v' hv
      cases h
      unfold scanText at ht
      split at ht
      · cases ht
      · split at ht
        · cases ht
        · rename_i t' rest hs
          split at ht
          · rename_i hr
            cases ht
            obtain ⟨w, hw, e⟩ := skip_sound s
            obtain ⟨b, h1, hb⟩ := (scan_sound hF _).1 _ _ _ _ hs hv
            obtain ⟨w', hw', e'⟩ := skip_sound rest
            rw [hr, List.append_nil] at e'
            rw [h1, e'] at e
            exact ⟨w, b, w', hw, hb, hw', by rw [e]; simp⟩
          · cases ht
    · cases h

end Recap.JsonText
