import Verif.UrlLemmas

/-! # Lemmas about query strings -/

set_option autoImplicit false

namespace Recap.Url

/-! ## Splitting and joining -/

theorem splitOn_ne (sep : Char) (s : Chars) : splitOn sep s ≠ [] := by
  cases s with
  | nil => simp [splitOn]
  | cons c cs =>
    simp only [splitOn]
    split
    · simp
    · split <;> simp

theorem splitOn_none {sep : Char} {a : Chars} (h : ∀ c ∈ a, c ≠ sep) : splitOn sep a = [a] := by
  induction a with
  | nil => rfl
  | cons c a ih =>
    simp [splitOn, h c (by simp), ih (fun x hx => h x (by simp [hx]))]

theorem splitOn_sep {sep : Char} {a : Chars} (b : Chars) (h : ∀ c ∈ a, c ≠ sep) :
    splitOn sep (a ++ sep :: b) = a :: splitOn sep b := by
  induction a with
  | nil => simp [splitOn]
  | cons c a ih =>
    simp [splitOn, h c (by simp), ih (fun x hx => h x (by simp [hx]))]

theorem splitOn_joinWith {sep : Char} {ps : List Chars} (hne : ps ≠ [])
    (h : ∀ p ∈ ps, ∀ c ∈ p, c ≠ sep) : splitOn sep (joinWith sep ps) = ps := by
  induction ps with
  | nil => exact absurd rfl hne
  | cons p ps ih =>
    cases ps with
    | nil => exact splitOn_none (h p (by simp))
    | cons q qs =>
      rw [joinWith, splitOn_sep _ (h p (by simp)), ih (by simp) (fun x hx => h x (by simp [hx]))]
      simp

theorem splitOn_mem {sep : Char} (s : Chars) : ∀ p ∈ splitOn sep s, ∀ c ∈ p, c ≠ sep ∧ c ∈ s := by
  induction s with
  | nil => intro p hp c hc; simp [splitOn] at hp; subst hp; cases hc
  | cons d s ih =>
    intro p hp c hc
    simp only [splitOn] at hp
    split at hp
    · rcases List.mem_cons.mp hp with rfl | hp
      · cases hc
      · exact ⟨(ih p hp c hc).1, List.mem_cons_of_mem _ (ih p hp c hc).2⟩
    · rename_i hd
      split at hp
      · rename_i he; exact absurd he (splitOn_ne sep s)
      · rename_i q qs he
        rcases List.mem_cons.mp hp with rfl | hp
        · rcases List.mem_cons.mp hc with rfl | hc
          · exact ⟨hd, by simp⟩
          · have := ih q (by simp [he]) c hc
            exact ⟨this.1, List.mem_cons_of_mem _ this.2⟩
        · have := ih p (by simp [he, hp]) c hc
          exact ⟨this.1, List.mem_cons_of_mem _ this.2⟩

/-! ## Quoting -/

theorem hexVal_hexDigit : ∀ n < 16, hexVal (hexDigit n) = some n := by decide

theorem hexDigit_alnum : ∀ n < 16, (hexDigit n).isAlphanum = true := by decide

theorem hexDigit_ascii : ∀ n < 16, isAscii (hexDigit n) = true := by decide

/-- The characters that `quote_plus` writes. -/
def Written (c : Char) : Prop := isSafe c = true ∨ c = '+' ∨ c = '%'

theorem safe_of_hex {n : Nat} (h : n < 16) : isSafe (hexDigit n) = true := by
  simp [isSafe, hexDigit_alnum n h, hexDigit_ascii n h]

theorem byte_lt (b : UInt8) : b.toNat < 256 := b.toNat_lt

theorem percent_written (b : UInt8) : ∀ c ∈ percent b, Written c := by
  intro c hc
  have := byte_lt b
  simp only [percent, List.mem_cons, List.not_mem_nil, or_false] at hc
  rcases hc with rfl | rfl | rfl
  · exact Or.inr (Or.inr rfl)
  · exact Or.inl (safe_of_hex (by omega))
  · exact Or.inl (safe_of_hex (by omega))

theorem quotePlus_written (s : Chars) : ∀ c ∈ quotePlus s, Written c := by
  intro c hc
  simp only [quotePlus, List.mem_flatMap] at hc
  obtain ⟨d, _, hc⟩ := hc
  simp only [quoteChar] at hc
  split at hc
  · rw [List.mem_singleton.mp hc]; exact Or.inl (by assumption)
  · split at hc
    · rw [List.mem_singleton.mp hc]; exact Or.inr (Or.inl rfl)
    · obtain ⟨b, _, hc⟩ := List.mem_flatMap.mp hc
      exact percent_written b c hc

theorem written_ne {c d : Char} (h : Written c)
    (hd : isSafe d = false ∧ d ≠ '+' ∧ d ≠ '%') : c ≠ d := by
  rintro rfl
  rcases h with h | h | h
  · rw [h] at hd; cases hd.1
  · exact hd.2.1 h
  · exact hd.2.2 h

/-- `quoteChar` with blanks put back. -/
def quoteChar' (c : Char) : Chars :=
  if isSafe c then [c] else if c = ' ' then [' '] else (String.utf8EncodeChar c).flatMap percent

theorem map_percent (bs : List UInt8) :
    (bs.flatMap percent).map (fun c => if c = '+' then ' ' else c) = bs.flatMap percent := by
  conv => rhs; rw [← List.map_id (bs.flatMap percent)]
  apply List.map_congr_left
  intro c hc
  obtain ⟨b, _, hc⟩ := List.mem_flatMap.mp hc
  have := byte_lt b
  have key : c ≠ '+' := by
    simp only [percent, List.mem_cons, List.not_mem_nil, or_false] at hc
    rcases hc with rfl | rfl | rfl
    · decide
    · exact fun e => by have := safe_of_hex (n := b.toNat / 16) (by omega); rw [e] at this; revert this; decide
    · exact fun e => by have := safe_of_hex (n := b.toNat % 16) (by omega); rw [e] at this; revert this; decide
  simp [key]

theorem map_quoteChar (c : Char) :
    (quoteChar c).map (fun c => if c = '+' then ' ' else c) = quoteChar' c := by
  simp only [quoteChar, quoteChar']
  split
  · rename_i h
    have : c ≠ '+' := by rintro rfl; revert h; decide
    simp [this]
  · split
    · rfl
    · exact map_percent _

theorem map_quotePlus (s : Chars) :
    (quotePlus s).map (fun c => if c = '+' then ' ' else c) = s.flatMap quoteChar' := by
  simp [quotePlus, List.map_flatMap, map_quoteChar]

theorem unquoteToBytes_other {c : Char} (h : c ≠ '%') (rest : Chars) :
    unquoteToBytes (c :: rest) = UInt8.ofNat c.toNat :: unquoteToBytes rest := by
  rw [unquoteToBytes.eq_def]
  split
  · rename_i heq; cases heq; exact absurd rfl h
  · rename_i heq; cases heq; rfl
  · rename_i heq; cases heq

theorem unquoteToBytes_percent (b : UInt8) (rest : Chars) :
    unquoteToBytes (percent b ++ rest) = b :: unquoteToBytes rest := by
  have hb := byte_lt b
  have h1 := hexVal_hexDigit (b.toNat / 16) (by omega)
  have h2 := hexVal_hexDigit (b.toNat % 16) (by omega)
  simp only [percent, List.cons_append, List.nil_append]
  rw [unquoteToBytes, h1, h2]
  simp only
  have : 16 * (b.toNat / 16) + b.toNat % 16 = b.toNat := by omega
  rw [this, UInt8.ofNat_toNat]

theorem unquoteToBytes_percents (bs : List UInt8) (rest : Chars) :
    unquoteToBytes (bs.flatMap percent ++ rest) = bs ++ unquoteToBytes rest := by
  induction bs with
  | nil => rfl
  | cons b bs ih =>
    simp only [List.flatMap_cons, List.append_assoc, unquoteToBytes_percent, ih, List.cons_append]

theorem encode_ascii {c : Char} (h : isAscii c = true) :
    String.utf8EncodeChar c = [UInt8.ofNat c.toNat] := by
  simp only [isAscii, decide_eq_true_eq, Char.toNat] at h
  have : c.val.toNat ≤ 127 := by omega
  simp only [String.utf8EncodeChar, Char.toNat, if_pos this]

theorem isSafe_ascii {c : Char} (h : isSafe c = true) : isAscii c = true := by
  simp only [isSafe, Bool.and_eq_true] at h; exact h.1

theorem unquoteToBytes_quoteChar (c : Char) (rest : Chars) :
    unquoteToBytes (quoteChar' c ++ rest) = String.utf8EncodeChar c ++ unquoteToBytes rest := by
  simp only [quoteChar']
  split
  · rename_i h
    have : c ≠ '%' := by rintro rfl; revert h; decide
    simp [unquoteToBytes_other this, encode_ascii (isSafe_ascii h)]
  · split
    · rename_i h; subst h
      simp [unquoteToBytes_other (show ' ' ≠ '%' by decide), encode_ascii (show isAscii ' ' = true by decide)]
    · exact unquoteToBytes_percents _ _

theorem unquoteToBytes_quote (s : Chars) :
    unquoteToBytes (s.flatMap quoteChar') = s.flatMap String.utf8EncodeChar := by
  induction s with
  | nil => simp [unquoteToBytes]
  | cons c s ih => simp [unquoteToBytes_quoteChar, ih]

theorem unquoteRuns_ascii (env : Env) {s : Chars} (run : Chars) (h : ∀ c ∈ s, isAscii c = true) :
    unquoteRuns env run s = flush env (s.reverse ++ run) := by
  induction s generalizing run with
  | nil => rfl
  | cons c s ih =>
    simp [unquoteRuns, h c (by simp), ih (c :: run) (fun x hx => h x (by simp [hx]))]

theorem quoteChar'_ascii (c : Char) : ∀ d ∈ quoteChar' c, isAscii d = true := by
  intro d hd
  simp only [quoteChar'] at hd
  split at hd
  · rw [List.mem_singleton.mp hd]; exact isSafe_ascii (by assumption)
  · split at hd
    · rw [List.mem_singleton.mp hd]; decide
    · obtain ⟨b, _, hd⟩ := List.mem_flatMap.mp hd
      rcases percent_written b d hd with h | rfl | rfl
      · exact isSafe_ascii h
      · decide
      · decide

theorem decode_encode (env : Env) (s : Chars) :
    decode env (s.flatMap String.utf8EncodeChar) = s := by
  have : (s.flatMap String.utf8EncodeChar).toByteArray = s.utf8Encode := rfl
  simp [decode, this]

theorem quoteChar'_plain {c : Char} (h : ∀ d ∈ quoteChar' c, d ≠ '%') : quoteChar' c = [c] := by
  simp only [quoteChar'] at h ⊢
  split
  · rfl
  · rename_i hs
    simp only [hs, Bool.false_eq_true, ↓reduceIte] at h
    split
    · rename_i h'; subst h'; rfl
    · rename_i hc
      simp only [hc, ↓reduceIte] at h
      exfalso
      cases he : String.utf8EncodeChar c with
      | nil => exact absurd (congrArg List.length he) (by have := c.utf8Size_pos; simp; omega)
      | cons b bs =>
        rw [he] at h
        exact h '%' (by simp [percent]) rfl

theorem unquotePlus_quotePlus (env : Env) (s : Chars) : unquotePlus env (quotePlus s) = s := by
  rw [unquotePlus, map_quotePlus, unquote]
  split
  · rw [unquoteRuns_ascii]
    · rw [List.append_nil, flush]
      split
      · rename_i h1 h2
        exfalso
        rw [List.reverse_eq_nil_iff.mp h2] at h1
        cases h1
      · rw [List.reverse_reverse, unquoteToBytes_quote, decode_encode]
    · intro c hc
      obtain ⟨d, _, hc⟩ := List.mem_flatMap.mp hc
      exact quoteChar'_ascii d c hc
  · rename_i h
    have h' : ∀ d ∈ s.flatMap quoteChar', d ≠ '%' := by
      rintro d hd rfl
      exact h (by simpa using hd)
    clear h
    induction s with
    | nil => rfl
    | cons c s ih =>
      rw [List.flatMap_cons] at h' ⊢
      rw [quoteChar'_plain (fun d hd => h' d (by simp [hd])), ih (fun d hd => h' d (by
        rw [List.mem_append]; exact Or.inr hd))]
      rfl

theorem quotePlus_ne {s : Chars} (h : s ≠ []) (env : Env) : quotePlus s ≠ [] := by
  intro he
  have := unquotePlus_quotePlus env s
  rw [he] at this
  exact h this.symm

/-! ## Reading a query -/

/-- The names of a query. -/
def names (q : Query) : List Chars := q.map (·.1)

/-- A query as `parse_qs` returns it: each name once, each with values, none of them empty. -/
def Proper (q : Query) : Prop :=
  (names q).Nodup ∧ ∀ kv ∈ q, kv.2 ≠ [] ∧ ∀ v ∈ kv.2, v ≠ []

theorem addParam_names (q : Query) (n v : Chars) :
    names (addParam q n v) = if n ∈ names q then names q else names q ++ [n] := by
  induction q with
  | nil => simp [addParam, names]
  | cons kv q ih =>
    obtain ⟨k, vs⟩ := kv
    simp only [addParam]
    split
    · rename_i h; subst h; simp [names]
    · rename_i h
      have h' : ¬ n = k := fun e => h e.symm
      simp only [names, List.map_cons] at ih ⊢
      rw [ih]
      by_cases hm : n ∈ q.map (·.1)
      · simp [hm]
      · simp [hm, h']

theorem proper_addParam {q : Query} (h : Proper q) {n v : Chars} (hv : v ≠ []) :
    Proper (addParam q n v) := by
  constructor
  · rw [addParam_names]
    split
    · exact h.1
    · rw [List.nodup_append]
      refine ⟨h.1, by simp, ?_⟩
      intro a ha b hb
      rw [List.mem_singleton.mp hb]
      rintro rfl
      contradiction
  · have h2 := h.2
    clear h
    induction q with
    | nil => intro kv hkv; simp [addParam] at hkv; subst hkv; simp [hv]
    | cons e q ih =>
      obtain ⟨k, vs⟩ := e
      intro kv hkv
      simp only [addParam] at hkv
      split at hkv
      · rcases List.mem_cons.mp hkv with rfl | hkv
        · refine ⟨by simp, ?_⟩
          intro x hx
          rcases List.mem_append.mp hx with hx | hx
          · exact (h2 (k, vs) (by simp)).2 x hx
          · rw [List.mem_singleton.mp hx]; exact hv
        · exact h2 kv (by simp [hkv])
      · rcases List.mem_cons.mp hkv with rfl | hkv
        · exact h2 _ (by simp)
        · exact ih (fun x hx => h2 x (by simp [hx])) kv hkv

theorem decode_ne (env : Env) {b : List UInt8} (h : b ≠ []) : decode env b ≠ [] := by
  rw [decode]
  split
  · rename_i cs hcs
    intro he
    have h1 : b.toByteArray.utf8Decode?.isSome = true := by rw [hcs]; rfl
    have h2 := ByteArray.utf8Encode_get_utf8Decode? (b := b.toByteArray) (h := h1)
    simp only [hcs, Option.get_some, he, List.utf8Encode_nil] at h2
    have h3 := congrArg ByteArray.size h2
    simp at h3
    exact h (List.length_eq_zero_iff.mp h3.symm)
  · exact env.repair_ne b

theorem unquoteToBytes_ne {s : Chars} (h : s ≠ []) : unquoteToBytes s ≠ [] := by
  cases s with
  | nil => exact absurd rfl h
  | cons c s =>
    rw [unquoteToBytes.eq_def]
    split
    · split <;> simp
    · simp
    · simp_all

theorem flush_ne (env : Env) {run : Chars} (h : run ≠ []) : flush env run ≠ [] := by
  simp only [flush, h, ↓reduceIte]
  exact decode_ne env (unquoteToBytes_ne (by simpa using h))

theorem unquoteRuns_ne (env : Env) {s : Chars} (run : Chars) (h : s ≠ [] ∨ run ≠ []) :
    unquoteRuns env run s ≠ [] := by
  induction s generalizing run with
  | nil => exact flush_ne env (h.resolve_left (fun h => h rfl))
  | cons c s ih =>
    simp only [unquoteRuns]
    split
    · exact ih _ (Or.inr (by simp))
    · simp

theorem unquotePlus_ne (env : Env) {s : Chars} (h : s ≠ []) : unquotePlus env s ≠ [] := by
  rw [unquotePlus, unquote]
  split
  · exact unquoteRuns_ne env _ (Or.inl (by simpa using h))
  · simpa using h

theorem proper_field (env : Env) {q : Query} (h : Proper q) (s : Chars) : Proper (field env q s) := by
  simp only [field]
  split
  · split
    · exact h
    · exact proper_addParam h (unquotePlus_ne env (by assumption))
  · exact h

theorem proper_foldl (env : Env) (ss : List Chars) {q : Query} (h : Proper q) :
    Proper (ss.foldl (field env) q) := by
  induction ss generalizing q with
  | nil => exact h
  | cons s ss ih => exact ih (proper_field env h s)

theorem proper_parseQs (env : Env) (s : Chars) : Proper (parseQs env s) :=
  proper_foldl env _ ⟨by simp [names], by simp⟩

/-! ## Writing a query and reading it back -/

/-- One field as `urlencode` writes it. -/
def fieldText (k v : Chars) : Chars := quotePlus k ++ '=' :: quotePlus v

theorem field_fieldText (env : Env) (q : Query) (k : Chars) {v : Chars} (hv : v ≠ []) :
    field env q (fieldText k v) = addParam q k v := by
  rw [field, fieldText, partition_sep]
  · simp [quotePlus_ne hv env, unquotePlus_quotePlus]
  · exact fun c hc => written_ne (quotePlus_written k c hc) (by decide)

theorem addParam_new {q : Query} {k : Chars} (v : Chars) (h : k ∉ names q) :
    addParam q k v = q ++ [(k, [v])] := by
  induction q with
  | nil => rfl
  | cons e q ih =>
    obtain ⟨k', vs⟩ := e
    simp only [names, List.map_cons, List.mem_cons, not_or] at h
    simp only [addParam, Ne.symm h.1, ↓reduceIte, ih h.2, List.cons_append]

theorem addParam_last {q : Query} {k : Chars} (vs : List Chars) (v : Chars) (h : k ∉ names q) :
    addParam (q ++ [(k, vs)]) k v = q ++ [(k, vs ++ [v])] := by
  induction q with
  | nil => simp [addParam]
  | cons e q ih =>
    obtain ⟨k', ws⟩ := e
    simp only [names, List.map_cons, List.mem_cons, not_or] at h
    simp only [List.cons_append, addParam, Ne.symm h.1, ↓reduceIte, ih h.2]

theorem foldl_fields (env : Env) {q : Query} {k : Chars} (vs ws : List Chars) (h : k ∉ names q)
    (hv : ∀ v ∈ vs, v ≠ []) :
    (vs.map (fieldText k)).foldl (field env) (q ++ [(k, ws)]) = q ++ [(k, ws ++ vs)] := by
  induction vs generalizing ws with
  | nil => simp
  | cons v vs ih =>
    rw [List.map_cons, List.foldl_cons, field_fieldText env _ _ (hv v (by simp)), addParam_last _ _ h,
      ih _ (fun x hx => hv x (by simp [hx]))]
    simp

theorem foldl_query (env : Env) (d q : Query) (hn : (names (q ++ d)).Nodup)
    (hd : ∀ kv ∈ d, kv.2 ≠ [] ∧ ∀ v ∈ kv.2, v ≠ []) :
    (d.flatMap (fun kv => kv.2.map (fieldText kv.1))).foldl (field env) q = q ++ d := by
  induction d generalizing q with
  | nil => simp
  | cons kv d ih =>
    obtain ⟨k, vs⟩ := kv
    have hkv := hd (k, vs) (by simp)
    have hk : k ∉ names q := by
      intro hk
      simp only [names, List.map_append, List.map_cons] at hn hk
      rw [List.nodup_append] at hn
      exact hn.2.2 k hk k (by simp) rfl
    cases vs with
    | nil => exact absurd rfl hkv.1
    | cons v vs =>
      rw [List.flatMap_cons, List.foldl_append, List.map_cons, List.foldl_cons,
        field_fieldText env _ _ (hkv.2 v (by simp)), addParam_new _ hk,
        foldl_fields env vs [v] hk (fun x hx => hkv.2 x (by simp [hx])), ih]
      · simp
      · simpa [List.append_assoc, names] using hn
      · exact fun x hx => hd x (by simp [hx])

theorem fieldText_chars (k v : Chars) : ∀ c ∈ fieldText k v, Written c ∨ c = '=' := by
  intro c hc
  simp only [fieldText, List.mem_append, List.mem_cons] at hc
  rcases hc with hc | rfl | hc
  · exact Or.inl (quotePlus_written k c hc)
  · exact Or.inr rfl
  · exact Or.inl (quotePlus_written v c hc)

theorem parseQs_urlencode (env : Env) {d : Query} (h : Proper d) :
    parseQs env (urlencode d) = d := by
  rw [parseQs, urlencode]
  by_cases hne : (d.flatMap (fun kv => kv.2.map (fun v => quotePlus kv.1 ++ '=' :: quotePlus v))) = []
  · rw [hne]
    cases d with
    | nil => rfl
    | cons kv d =>
      exfalso
      obtain ⟨k, vs⟩ := kv
      have := (h.2 (k, vs) (by simp)).1
      simp at hne
      exact this hne.1
  · rw [splitOn_joinWith hne]
    · have := foldl_query env d [] (by simpa using h.1) h.2
      rw [List.nil_append] at this
      exact this
    · intro p hp c hc
      obtain ⟨kv, _, hp⟩ := List.mem_flatMap.mp hp
      obtain ⟨v, _, rfl⟩ := List.mem_map.mp hp
      rcases fieldText_chars kv.1 v c hc with h' | rfl
      · exact written_ne h' (by decide)
      · decide

theorem joinWith_mem {sep : Char} {ps : List Chars} {c : Char} (h : c ∈ joinWith sep ps) :
    c = sep ∨ ∃ p ∈ ps, c ∈ p := by
  induction ps with
  | nil => cases h
  | cons p ps ih =>
    cases ps with
    | nil => exact Or.inr ⟨p, by simp, h⟩
    | cons q qs =>
      rw [joinWith] at h
      · rcases List.mem_append.mp h with h | h
        · exact Or.inr ⟨p, by simp, h⟩
        · rcases List.mem_cons.mp h with rfl | h
          · exact Or.inl rfl
          · rcases ih h with h | ⟨x, hx, hc⟩
            · exact Or.inl h
            · exact Or.inr ⟨x, List.mem_cons_of_mem _ hx, hc⟩
      · simp

theorem urlencode_chars (d : Query) : ∀ c ∈ urlencode d, Written c ∨ c = '=' ∨ c = '&' := by
  intro c hc
  rcases joinWith_mem hc with h | ⟨p, hp, hc⟩
  · exact Or.inr (Or.inr h)
  · obtain ⟨kv, _, hp⟩ := List.mem_flatMap.mp hp
    obtain ⟨v, _, rfl⟩ := List.mem_map.mp hp
    rcases fieldText_chars kv.1 v c hc with h | h
    · exact Or.inl h
    · exact Or.inr (Or.inl h)

/-! ## Merging -/

theorem setParam_names (q : Query) (n : Chars) (vs : List Chars) :
    names (setParam q n vs) = if n ∈ names q then names q else names q ++ [n] := by
  induction q with
  | nil => simp [setParam, names]
  | cons kv q ih =>
    obtain ⟨k, ws⟩ := kv
    simp only [setParam]
    split
    · rename_i h; subst h; simp [names]
    · rename_i h
      have h' : ¬ n = k := fun e => h e.symm
      simp only [names, List.map_cons] at ih ⊢
      rw [ih]
      by_cases hm : n ∈ q.map (·.1)
      · simp [hm]
      · simp [hm, h']

theorem setParam_mem {q : Query} {n : Chars} {vs : List Chars} {kv : Chars × List Chars}
    (h : kv ∈ setParam q n vs) : kv = (n, vs) ∨ kv ∈ q := by
  induction q with
  | nil => simp [setParam] at h; exact Or.inl h
  | cons e q ih =>
    obtain ⟨k, ws⟩ := e
    simp only [setParam] at h
    split at h
    · rename_i hk; subst hk
      rcases List.mem_cons.mp h with h | h
      · exact Or.inl h
      · exact Or.inr (by simp [h])
    · rcases List.mem_cons.mp h with h | h
      · exact Or.inr (by simp [h])
      · rcases ih h with h | h
        · exact Or.inl h
        · exact Or.inr (by simp [h])

theorem proper_setParam {q : Query} (h : Proper q) {n : Chars} {vs : List Chars} (hne : vs ≠ [])
    (hv : ∀ v ∈ vs, v ≠ []) : Proper (setParam q n vs) := by
  constructor
  · rw [setParam_names]
    split
    · exact h.1
    · rw [List.nodup_append]
      refine ⟨h.1, by simp, ?_⟩
      intro a ha b hb
      rw [List.mem_singleton.mp hb]
      rintro rfl
      contradiction
  · intro kv hkv
    rcases setParam_mem hkv with rfl | hkv
    · exact ⟨hne, hv⟩
    · exact h.2 kv hkv

theorem proper_mergeQs {a b : Query} (ha : Proper a)
    (hb : ∀ kv ∈ b, kv.2 ≠ [] ∧ ∀ v ∈ kv.2, v ≠ []) : Proper (mergeQs a b) := by
  induction b generalizing a with
  | nil => exact ha
  | cons kv b ih =>
    have := hb kv (by simp)
    exact ih (proper_setParam ha this.1 this.2) (fun x hx => hb x (by simp [hx]))

theorem param_setParam (q : Query) (n : Chars) (vs : List Chars) (m : Chars) :
    param (setParam q n vs) m = if n = m then some vs else param q m := by
  induction q with
  | nil => simp [setParam, param]
  | cons e q ih =>
    obtain ⟨k, ws⟩ := e
    simp only [setParam]
    split
    · rename_i h; subst h
      simp only [param]
      split <;> rfl
    · rename_i h
      simp only [param, ih]
      by_cases h1 : k = m
      · subst h1; simp [Ne.symm h]
      · simp [h1]

theorem param_none {q : Query} {m : Chars} (h : m ∉ names q) : param q m = .none := by
  induction q with
  | nil => rfl
  | cons e q ih =>
    obtain ⟨k, ws⟩ := e
    simp only [names, List.map_cons, List.mem_cons, not_or] at h
    simp [param, Ne.symm h.1, ih h.2]

theorem param_mergeQs (a : Query) {b : Query} (hb : (names b).Nodup) (m : Chars) :
    param (mergeQs a b) m = (param b m).or (param a m) := by
  induction b generalizing a with
  | nil => rfl
  | cons e b ih =>
    obtain ⟨k, ws⟩ := e
    simp only [names, List.map_cons, List.nodup_cons] at hb
    rw [mergeQs, List.foldl_cons]
    have := ih (setParam a k ws) hb.2
    rw [mergeQs] at this
    rw [this, param_setParam]
    simp only [param]
    by_cases h : k = m
    · subst h
      simp [param_none hb.1]
    · simp [h]

end Recap.Url
