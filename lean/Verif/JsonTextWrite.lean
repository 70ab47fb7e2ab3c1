import Verif.JsonTextSound

/-! # Lemmas about JSON texts: what is written -/

set_option autoImplicit false

namespace Recap.JsonText

open Spec

/-! ## Strings -/

theorem hexLower_hex {d : Nat} (h : d < 16) : Hex (hexLower d) d := by
  have key : ∀ d < 16, "0123456789abcdef".toList[d]? = some (hexLower d) := by decide +kernel
  exact .inl (key d h)

theorem hex4_eq {n : Nat} (hn : n < 65536) : ∃ h, hex4 n = '\\' :: 'u' :: h ∧ Hex4 n h := by
  refine ⟨_, rfl, ?_⟩
  have h := Hex4.mk (hexLower_hex (d := n / 4096 % 16) (by omega)) (hexLower_hex (d := n / 256 % 16) (by omega))
    (hexLower_hex (d := n / 16 % 16) (by omega)) (hexLower_hex (d := n % 16) (by omega))
  have e : n / 4096 % 16 * 4096 + n / 256 % 16 * 256 + n / 16 % 16 * 16 + n % 16 = n := by omega
  rwa [e] at h

theorem shortEscape_some {c e : Char} (h : shortEscape c = some e) : (e, c.toNat) ∈ escapes := by
  unfold shortEscape at h
  repeat' split at h
  all_goals first
    | (cases h; rename_i hc; first | (subst hc; decide) | (rw [hc]; decide))
    | cases h

theorem shortEscape_none {c : Char} (h : shortEscape c = none) : c ≠ '"' ∧ c ≠ '\\' := by
  unfold shortEscape at h
  constructor
  · rintro rfl; revert h; decide
  · rintro rfl; revert h; decide

theorem char_lt (c : Char) : c.toNat < 1114112 := by
  have h := c.valid
  have e : c.toNat = c.val.toNat := rfl
  rw [e]
  rcases h with h | ⟨-, h⟩ <;> omega

theorem quoted_char (ascii : Bool) (c : Char) {cs : List Char} {s : Str} (h : Quoted cs s) :
    Quoted (c :: cs) (writeChar ascii c ++ s) := by
  unfold writeChar
  split
  · rename_i e he
    exact .short (shortEscape_some he) h
  · rename_i he
    obtain ⟨h1, h2⟩ := shortEscape_none he
    split
    · rename_i hc
      exact .plain h1 h2 hc.1 h
    · split
      · rename_i hc
        obtain ⟨x, e, hx⟩ := hex4_eq hc
        rw [e]
        exact .unit hx h
      · rename_i hc
        have := char_lt c
        obtain ⟨x, e, hx⟩ := hex4_eq (n := 55296 + (c.toNat - 65536) / 1024) (by omega)
        obtain ⟨y, e', hy⟩ := hex4_eq (n := 56320 + (c.toNat - 65536) % 1024) (by omega)
        rw [e, e']
        have := Quoted.pair (c := c) hx hy (by omega) (by omega) (by omega) h
        simpa using this

theorem quoted_write (ascii : Bool) (cs : List Char) : Quoted cs (cs.flatMap (writeChar ascii)) := by
  induction cs with
  | nil => exact .nil
  | cons c cs ih =>
    rw [List.flatMap_cons]
    exact quoted_char ascii c ih

theorem json_writeStr (F : Floats) (ascii : Bool) (s : String) : Json F (.str s) (writeStr ascii s) := by
  have := Json.str (F := F) (quoted_write ascii s.toList)
  rwa [String.ofList_toList] at this

/-! ## Integers -/

theorem digit_ofNat {d : Nat} (h : d < 10) : Digit (Char.ofNat (48 + d)) ∧ (Char.ofNat (48 + d)).toNat = 48 + d := by
  have key : ∀ d < 10, (Char.ofNat (48 + d)) ∈ "0123456789".toList ∧ (Char.ofNat (48 + d)).toNat = 48 + d := by
    decide +kernel
  exact key d h

theorem number_snoc (s : Str) (c : Char) : number (s ++ [c]) = 10 * number s + (c.toNat - 48) := by
  unfold number
  rw [List.foldl_append]
  rfl

theorem natDigits_number (n : Nat) : Digits (natDigits n) ∧ number (natDigits n) = n ∧
    ((natDigits n).head? = some '0' → n = 0) := by
  induction n using Nat.strongRecOn with
  | ind n ih =>
    rw [natDigits]
    split
    · rename_i h
      obtain ⟨h1, h2⟩ := digit_ofNat h
      refine ⟨⟨by simp, ?_⟩, ?_, ?_⟩
      · simpa using h1
      · have := number_snoc [] (Char.ofNat (48 + n))
        rw [List.nil_append] at this
        rw [this, h2]
        have e : number [] = 0 := rfl
        omega
      · intro h3
        have h4 : Char.ofNat (48 + n) = '0' := by simpa using h3
        rw [h4] at h2
        have : '0'.toNat = 48 := rfl
        omega
    · rename_i h
      obtain ⟨i1, i2, i3⟩ := ih (n / 10) (by omega)
      obtain ⟨h1, h2⟩ := digit_ofNat (d := n % 10) (by omega)
      refine ⟨⟨by simp, ?_⟩, ?_, ?_⟩
      · intro c hc
        rcases List.mem_append.mp hc with hc | hc
        · exact i1.2 c hc
        · rw [List.mem_singleton] at hc
          rw [hc]
          exact h1
      · rw [number_snoc, i2, h2]
        omega
      · intro h3
        have h4 : (natDigits (n / 10)).head? = some '0' := by
          cases hd : natDigits (n / 10) with
          | nil => exact absurd hd i1.1
          | cons c cs => rw [hd] at h3; exact h3
        have := i3 h4
        omega

theorem natDigits_natural (n : Nat) : Natural (natDigits n) := by
  obtain ⟨h1, h2, h3⟩ := natDigits_number n
  refine ⟨h1, ?_⟩
  intro h
  rw [h3 h]
  decide +kernel

theorem integer_intStr (i : Int) : Integer i (intStr i) := by
  cases i with
  | ofNat n =>
    have := Integer.pos (natDigits_natural n)
    rwa [(natDigits_number n).2.1] at this
  | negSucc n =>
    have := Integer.neg (natDigits_natural (n + 1))
    rw [(natDigits_number (n + 1)).2.1] at this
    exact this

/-! ## Values -/

/-- The separators of a style are a comma and a colon with white space around them. -/
structure Style.Proper (st : Style) : Prop where
  item : ∃ w w', Blank w ∧ Blank w' ∧ st.item = w ++ ',' :: w'
  key : ∃ w w', Blank w ∧ Blank w' ∧ st.key = w ++ ':' :: w'

instance (s : Str) : Decidable (Blank s) := by unfold Blank; infer_instance

theorem proper_default : Style.default.Proper :=
  ⟨⟨[], [' '], by decide, by decide, rfl⟩, ⟨[], [' '], by decide, by decide, rfl⟩⟩

theorem proper_compact : Style.compact.Proper :=
  ⟨⟨[], [], by decide, by decide, rfl⟩, ⟨[], [], by decide, by decide, rfl⟩⟩

theorem proper_pretty : Style.pretty.Proper :=
  ⟨⟨[], [], by decide, by decide, rfl⟩, ⟨[], [' '], by decide, by decide, rfl⟩⟩

theorem blank_newline (st : Style) (n : Nat) : Blank (st.newline n) := by
  unfold Style.newline
  split
  · intro c hc; cases hc
  · intro c hc
    rcases List.mem_cons.mp hc with rfl | hc
    · decide
    · rw [(List.mem_replicate.mp hc).2]
      decide

theorem set_new {d : Dict} {k : String} {v : PyVal} (h : k ∉ d.map (·.1)) : Dict.set d k v = d ++ [(k, v)] := by
  induction d with
  | nil => rfl
  | cons kv d ih =>
    obtain ⟨j, w⟩ := kv
    simp only [List.map_cons, List.mem_cons, not_or] at h
    rw [Dict.set, if_neg (by simpa using Ne.symm h.1), ih h.2]
    rfl

theorem foldl_set {kvs d : Dict} (h : ((d ++ kvs).map (·.1)).Nodup) :
    kvs.foldl (fun d kv => Dict.set d kv.1 kv.2) d = d ++ kvs := by
  induction kvs generalizing d with
  | nil => simp
  | cons kv kvs ih =>
    obtain ⟨k, v⟩ := kv
    rw [List.foldl_cons]
    have hk : k ∉ d.map (·.1) := by
      intro hk
      rw [List.map_append, List.nodup_append] at h
      exact h.2.2 k hk k (by simp) rfl
    rw [set_new hk, ih]
    · simp
    · simpa using h

mutual
theorem json_dump {F : Floats} (hF : Lawful F) {st : Style} (hs : st.Proper) : ∀ (v : PyVal) (n : Nat),
    Recap.Spec.Real v → Json F v (dump F st n v)
  | .none, n, _ => by rw [dump]; exact .null
  | .bool true, n, _ => by rw [dump]; exact .true_
  | .bool false, n, _ => by rw [dump]; exact .false_
  | .int i, n, _ => by rw [dump]; exact .int (integer_intStr i)
  | .float m e, n, h => by
    rw [dump]
    rw [Recap.Spec.Real] at h
    exact .float (hF.text m e h) (hF.exact m e h)
  | .str s, n, _ => by rw [dump]; exact json_writeStr F st.ascii s
  | .list [], n, _ => by rw [dump]; exact .emptyList (w := []) (by intro c hc; cases hc)
  | .list (x :: xs), n, h => by
    rw [Recap.Spec.Real, Recap.Spec.RealAll] at h
    rw [dump]
    exact .list (items_dump hF hs xs (n + 1) h.2 (json_dump hF hs x (n + 1) h.1) (blank_newline st (n + 1))
      (blank_newline st n))
  | .dict [], n, _ => by rw [dump]; exact .emptyDict (w := []) (by intro c hc; cases hc)
  | .dict ((k, x) :: kvs), n, h => by
    rw [Recap.Spec.Real, Recap.Spec.RealPairs] at h
    rw [dump]
    have := Json.dict (pairs_dump hF hs kvs (n + 1) h.2.2 k (json_dump hF hs x (n + 1) h.2.1)
      (blank_newline st (n + 1)) (blank_newline st n))
    rwa [foldl_set (d := []) (by simpa using h.1), List.nil_append] at this
theorem items_dump {F : Floats} (hF : Lawful F) {st : Style} (hs : st.Proper) : ∀ (xs : List PyVal) (n : Nat),
    Recap.Spec.RealAll xs → ∀ {x : PyVal} {s w w' : Str}, Json F x s → Blank w → Blank w' →
    Items F (x :: xs) (w ++ s ++ dumpItems F st n xs ++ w')
  | [], n, _, x, s, w, w', hx, hw, hw' => by
    rw [dumpItems, List.append_nil]
    exact .one hw hx hw'
  | y :: xs, n, h, x, s, w, w', hx, hw, hw' => by
    rw [Recap.Spec.RealAll] at h
    obtain ⟨a, b, ha, hb, e⟩ := hs.item
    have hy := items_dump hF hs xs n h.2 (json_dump hF hs y n h.1) (blank_append hb (blank_newline st n)) hw'
    have := Items.cons hw hx ha hy
    rw [dumpItems, e]
    simpa using this
theorem pairs_dump {F : Floats} (hF : Lawful F) {st : Style} (hs : st.Proper) : ∀ (kvs : List (String × PyVal))
    (n : Nat), Recap.Spec.RealPairs kvs → ∀ (k : String) {x : PyVal} {s w w' : Str}, Json F x s → Blank w → Blank w' →
    Pairs F ((k, x) :: kvs) (w ++ (writeStr st.ascii k ++ st.key ++ s) ++ dumpPairs F st n kvs ++ w')
  | [], n, _, k, x, s, w, w', hx, hw, hw' => by
    obtain ⟨a, b, ha, hb, e⟩ := hs.key
    have := Pairs.one hw (quoted_write st.ascii k.toList) ha hb hx hw'
    rw [String.ofList_toList] at this
    rw [dumpPairs, e, writeStr]
    simpa using this
  | (j, y) :: kvs, n, h, k, x, s, w, w', hx, hw, hw' => by
    rw [Recap.Spec.RealPairs] at h
    obtain ⟨a, b, ha, hb, e⟩ := hs.key
    obtain ⟨a', b', ha', hb', e'⟩ := hs.item
    have hy := pairs_dump hF hs kvs n h.2 j (json_dump hF hs y n h.1) (blank_append hb' (blank_newline st n)) hw'
    have := Pairs.cons hw (quoted_write st.ascii k.toList) ha hb hx ha' hy
    rw [String.ofList_toList] at this
    rw [dumpPairs, e']
    rw [e] at this ⊢
    conv => rhs; rw [writeStr]
    simpa using this
end

theorem isJson_of {F : Floats} {v : PyVal} {s : Str} (h : Json F v s) : IsJson F v s :=
  ⟨[], s, [], (by intro c hc; cases hc), h, (by intro c hc; cases hc), by simp⟩

/-! ## Printable ASCII characters -/

/-- The printable characters of ASCII. -/
def Printable (c : Char) : Prop := 32 ≤ c.toNat ∧ c.toNat ≤ 126

theorem printable_hexLower {d : Nat} (h : d < 16) : Printable (hexLower d) := by
  have key : ∀ d < 16, 32 ≤ (hexLower d).toNat ∧ (hexLower d).toNat ≤ 126 := by decide +kernel
  exact key d h

theorem printable_hex4 (n : Nat) : ∀ c ∈ hex4 n, Printable c := by
  intro c hc
  have key : ∀ c ∈ ['\\', 'u'], 32 ≤ c.toNat ∧ c.toNat ≤ 126 := by decide +kernel
  simp only [hex4, List.mem_cons, List.not_mem_nil, or_false] at hc
  rcases hc with rfl | rfl | rfl | rfl | rfl | rfl
  · exact key _ (by simp)
  · exact key _ (by simp)
  all_goals exact printable_hexLower (by omega)

theorem printable_char (c : Char) : ∀ x ∈ writeChar true c, Printable x := by
  unfold writeChar
  split
  · rename_i e he
    have h := shortEscape_some he
    have key : ∀ p ∈ escapes, 32 ≤ p.1.toNat ∧ p.1.toNat ≤ 126 := by decide +kernel
    have h0 : Printable '\\' := ⟨by decide, by decide⟩
    intro x hx
    simp only [List.mem_cons, List.not_mem_nil, or_false] at hx
    rcases hx with rfl | rfl
    · exact h0
    · exact key _ h
  · split
    · rename_i hc
      intro x hx
      rw [List.mem_singleton] at hx
      subst hx
      rcases hc with ⟨h1, h2 | h2⟩
      · exact ⟨h1, h2⟩
      · cases h2
    · split
      · exact printable_hex4 _
      · intro x hx
        rcases List.mem_append.mp hx with hx | hx
        · exact printable_hex4 _ x hx
        · exact printable_hex4 _ x hx

theorem printable_str (s : String) : ∀ x ∈ writeStr true s, Printable x := by
  intro x hx
  have h0 : Printable '"' := ⟨by decide, by decide⟩
  simp only [writeStr, List.cons_append, List.mem_cons, List.mem_append, List.mem_flatMap, List.not_mem_nil,
    or_false] at hx
  rcases hx with rfl | ⟨c, -, hx⟩ | rfl
  · exact h0
  · exact printable_char c x hx
  · exact h0

end Recap.JsonText
