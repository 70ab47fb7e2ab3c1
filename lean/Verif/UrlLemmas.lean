import Verif.SettingsSpec

/-! # Lemmas about splitting and writing URLs -/

set_option autoImplicit false

namespace Recap.Url

open Spec

theorem partition_sep {sep : Char} {a : Chars} (b : Chars) (h : ∀ c ∈ a, c ≠ sep) :
    partition sep (a ++ sep :: b) = (a, true, b) := by
  induction a with
  | nil => simp [partition]
  | cons c a ih =>
    have := h c (by simp)
    simp [partition, this, ih (fun x hx => h x (by simp [hx]))]

theorem partition_none {sep : Char} {a : Chars} (h : ∀ c ∈ a, c ≠ sep) :
    partition sep a = (a, false, []) := by
  induction a with
  | nil => simp [partition]
  | cons c a ih =>
    have := h c (by simp)
    simp [partition, this, ih (fun x hx => h x (by simp [hx]))]

theorem rpartition_sep {sep : Char} (a : Chars) {b : Chars} (h : ∀ c ∈ b, c ≠ sep) :
    rpartition sep (a ++ sep :: b) = (a, true, b) := by
  have : (a ++ sep :: b).reverse = b.reverse ++ sep :: a.reverse := by simp
  simp [rpartition, this, partition_sep (a := b.reverse) a.reverse (by simpa using h)]

theorem rpartition_none {sep : Char} {a : Chars} (h : ∀ c ∈ a, c ≠ sep) :
    rpartition sep a = ([], false, a) := by
  simp [rpartition, partition_none (a := a.reverse) (by simpa using h)]

theorem takeWhile_stop {p : Char → Bool} {a : Chars} (b : Chars) (ha : ∀ c ∈ a, p c = true)
    (hb : ∀ c ∈ b.head?, p c = false) : (a ++ b).takeWhile p = a := by
  induction a with
  | nil =>
    cases b with
    | nil => rfl
    | cons c b => simp [hb c (by simp)]
  | cons c a ih => simp [ha c (by simp), ih (fun x hx => ha x (by simp [hx]))]

theorem dropWhile_stop {p : Char → Bool} {a : Chars} (b : Chars) (ha : ∀ c ∈ a, p c = true)
    (hb : ∀ c ∈ b.head?, p c = false) : (a ++ b).dropWhile p = b := by
  induction a with
  | nil =>
    cases b with
    | nil => rfl
    | cons c b => simp [hb c (by simp)]
  | cons c a ih => simp [ha c (by simp), ih (fun x hx => ha x (by simp [hx]))]

/-! ## The network location -/

theorem digits_digit {n : Nat} {c : Char} (h : c ∈ digits n) : c.isDigit = true :=
  Nat.isDigit_of_mem_toDigits (by decide) (by decide) h

theorem digits_ne (n : Nat) : digits n ≠ [] := by
  simp [digits, Nat.toDigits_ne_nil]

theorem natOf_digits (n : Nat) : natOf (digits n) = n := Nat.ofDigitChars_ten_toDigits

theorem digit_ne {c : Char} (h : c.isDigit = true) {d : Char} (hd : d.isDigit = false) : c ≠ d := by
  rintro rfl; rw [h] at hd; cases hd

theorem digit_net {c : Char} (h : c.isDigit = true) : NetChar c ∧ c ≠ '@' ∧ c ≠ ':' := by
  refine ⟨⟨?_, ?_, ?_, ?_, ?_, ?_, ?_, ?_, ?_⟩, ?_, ?_⟩ <;> try exact digit_ne h (by decide)
  simp only [Char.isDigit, Bool.and_eq_true, decide_eq_true_eq] at h
  have := h.2
  rw [UInt32.le_iff_toNat_le] at this
  simp only [Char.toNat]
  exact Nat.lt_of_le_of_lt this (by decide)

theorem portText_mem {port : Option Nat} {c : Char} (h : c ∈ portText port) :
    NetChar c ∧ c ≠ '@' := by
  cases port with
  | none => simp [portText] at h
  | some n =>
    simp only [portText, List.mem_cons] at h
    rcases h with rfl | h
    · decide
    · have := digit_net (digits_digit (n := n) h)
      exact ⟨this.1, this.2.1⟩

variable {env : Env} {p : Parts}

theorem hostText_mem (wf : WellFormed env p) {c : Char} (h : c ∈ hostText p.host) :
    (NetChar c ∨ c = '[' ∨ c = ']') ∧ c ≠ '@' := by
  have hg := wf.host_good
  cases hh : p.host with
  | name x =>
    rw [hh] at h hg
    exact ⟨Or.inl (hg c h).1, (hg c h).2.1⟩
  | literal x =>
    rw [hh] at h hg
    simp only [hostText, List.cons_append, List.mem_cons, List.mem_append, List.not_mem_nil,
      or_false] at h
    rcases h with rfl | h | rfl
    · decide
    · exact ⟨Or.inl (hg.2.2 c h).1, (hg.2.2 c h).2⟩
    · decide

theorem userText_mem (wf : WellFormed env p) {c : Char} (h : c ∈ userText p.user) : NetChar c := by
  cases hu : p.user with
  | none => rw [hu] at h; simp [userText] at h
  | some x =>
    have hx := wf.user_chars x hu
    obtain ⟨u, w⟩ := x
    rw [hu] at h
    cases w with
    | none =>
      simp only [userText, List.mem_append, List.mem_singleton] at h
      rcases h with h | rfl
      · exact (hx.1 c h).1
      · decide
    | some w =>
      simp only [userText, List.append_assoc, List.cons_append, List.mem_append, List.mem_cons,
        List.not_mem_nil, or_false] at h
      rcases h with h | rfl | h | rfl
      · exact (hx.1 c h).1
      · decide
      · exact hx.2 w rfl c h
      · decide

theorem netloc_mem (wf : WellFormed env p) {c : Char} (h : c ∈ netlocText p) :
    c.toNat < 128 ∧ c ≠ '/' ∧ c ≠ '?' ∧ c ≠ '#' ∧ Quiet c := by
  simp only [netlocText, List.mem_append] at h
  have key : NetChar c ∨ c = '[' ∨ c = ']' := by
    rcases h with (h | h) | h
    · exact Or.inl (userText_mem wf h)
    · exact (hostText_mem wf h).1
    · exact Or.inl (portText_mem h).1
  rcases key with h | rfl | rfl
  · exact ⟨h.1, h.2.1, h.2.2.1, h.2.2.2.1, h.2.2.2.2.2.2⟩
  · decide
  · decide

/-- The part of the network location after the credentials. -/
def serverText (p : Parts) : Chars := hostText p.host ++ portText p.port

theorem serverText_no_at (wf : WellFormed env p) : ∀ c ∈ serverText p, c ≠ '@' := by
  intro c h
  simp only [serverText, List.mem_append] at h
  rcases h with h | h
  · exact (hostText_mem wf h).2
  · exact (portText_mem h).2

theorem netlocText_none (h : p.user = .none) : netlocText p = serverText p := by
  simp [netlocText, serverText, h, userText]

theorem rpartition_netloc (wf : WellFormed env p) :
    rpartition '@' (netlocText p) =
      match p.user with
      | .none => ([], false, serverText p)
      | some (u, .none) => (u, true, serverText p)
      | some (u, some w) => (u ++ ':' :: w, true, serverText p) := by
  have hn := serverText_no_at wf
  cases hu : p.user with
  | none => rw [netlocText_none hu]; exact rpartition_none hn
  | some x =>
    obtain ⟨u, w⟩ := x
    cases w with
    | none =>
      have : netlocText p = u ++ '@' :: serverText p := by
        simp [netlocText, serverText, hu, userText]
      rw [this]; exact rpartition_sep _ hn
    | some w =>
      have : netlocText p = (u ++ ':' :: w) ++ '@' :: serverText p := by
        simp [netlocText, serverText, hu, userText]
      rw [this]; exact rpartition_sep _ hn

theorem userinfo_netloc (wf : WellFormed env p) :
    userinfo (netlocText p) = (p.user.map (·.1), p.user.bind (·.2)) := by
  rw [userinfo, rpartition_netloc wf]
  cases hu : p.user with
  | none => rfl
  | some x =>
    have hx := wf.user_chars x hu
    obtain ⟨u, w⟩ := x
    cases w with
    | none => simp [partition_none (fun c hc => (hx.1 c hc).2)]
    | some w => simp [partition_sep w (fun c hc => (hx.1 c hc).2)]

theorem after_at (wf : WellFormed env p) : (rpartition '@' (netlocText p)).2.2 = serverText p := by
  rw [rpartition_netloc wf]
  split <;> rfl

theorem portText_after (port : Option Nat) :
    (if (partition ':' (portText port)).2.2 = [] then Option.none
      else some (partition ':' (portText port)).2.2) = port.map digits := by
  cases port with
  | none => simp [portText, partition]
  | some n =>
    have := digits_ne n
    simp only [digits] at this
    simp [portText, partition, this, digits]

theorem hostinfo_netloc (wf : WellFormed env p) :
    hostinfo (netlocText p) = (p.host.text, p.port.map digits) := by
  simp only [hostinfo, after_at wf]
  have hg := wf.host_good
  cases hh : p.host with
  | name x =>
    rw [hh] at hg
    have hb : ∀ c ∈ serverText p, c ≠ '[' := by
      intro c hc
      simp only [serverText, hh, hostText, List.mem_append] at hc
      rcases hc with hc | hc
      · exact (hg c hc).1.2.2.2.2.1
      · exact (portText_mem hc).1.2.2.2.2.1
    rw [partition_none hb]
    simp only [serverText, hh, hostText, Host.text]
    have hx : ∀ c ∈ x, c ≠ ':' := fun c hc => (hg c hc).2.2
    cases hp : p.port with
    | none => simp [portText, partition_none hx]
    | some n =>
      have := digits_ne n
      simp only [digits] at this
      simp [portText, partition_sep _ hx, this, digits]
  | literal x =>
    rw [hh] at hg
    have hx : ∀ c ∈ x, c ≠ ']' := fun c hc => (hg.2.2 c hc).1.2.2.2.2.2.1
    have e : serverText p = '[' :: (x ++ ']' :: portText p.port) := by
      simp [serverText, hh, hostText]
    rw [e]
    simp only [partition, ↓reduceIte, partition_sep _ hx, Host.text]
    rw [portText_after]

theorem netlocValid_netloc (wf : WellFormed env p) : netlocValid env (netlocText p) = true := by
  have hascii : (netlocText p).all isAscii = true := by
    simp only [List.all_eq_true, isAscii, decide_eq_true_eq]
    exact fun c hc => (netloc_mem wf hc).1
  have huser : ∀ c ∈ userText p.user, c ≠ '[' ∧ c ≠ ']' := fun c hc =>
    ⟨(userText_mem wf hc).2.2.2.2.1, (userText_mem wf hc).2.2.2.2.2.1⟩
  have hport : ∀ c ∈ portText p.port, c ≠ '[' ∧ c ≠ ']' := fun c hc =>
    ⟨(portText_mem hc).1.2.2.2.2.1, (portText_mem hc).1.2.2.2.2.2.1⟩
  have hg := wf.host_good
  simp only [netlocValid, hascii, Bool.true_or, Bool.and_true]
  cases hh : p.host with
  | name x =>
    rw [hh] at hg
    have h1 : ∀ c ∈ netlocText p, c ≠ '[' ∧ c ≠ ']' := by
      intro c hc
      simp only [netlocText, hh, hostText, List.mem_append] at hc
      rcases hc with (hc | hc) | hc
      · exact huser c hc
      · exact ⟨(hg c hc).1.2.2.2.2.1, (hg c hc).1.2.2.2.2.2.1⟩
      · exact hport c hc
    have h2 : (netlocText p).contains '[' = false := by
      simp only [List.contains_eq_mem, decide_eq_false_iff_not]
      exact fun hc => (h1 _ hc).1 rfl
    have h3 : (netlocText p).contains ']' = false := by
      simp only [List.contains_eq_mem, decide_eq_false_iff_not]
      exact fun hc => (h1 _ hc).2 rfl
    rw [h2, h3]; rfl
  | literal x =>
    rw [hh] at hg
    have e : netlocText p = userText p.user ++ '[' :: (x ++ ']' :: portText p.port) := by
      simp [netlocText, hh, hostText]
    have h2 : (netlocText p).contains '[' = true := by simp [e]
    have h3 : (netlocText p).contains ']' = true := by simp [e]
    rw [h2, h3, e, partition_sep _ (fun c hc => (huser c hc).1)]
    simp only [partition_sep _ (fun c hc => (hg.2.2 c hc).1.2.2.2.2.2.1)]
    simp [hg.2.1]

/-! ## The whole URL -/

/-- What `urlsplit` should find in a URL. -/
def splitOf (p : Parts) : Split :=
  { scheme := p.scheme, netloc := netlocText p, path := p.path, query := p.query,
    fragment := p.fragment }

theorem isDelim_false {c : Char} (h : c ≠ '/' ∧ c ≠ '?' ∧ c ≠ '#') : isDelim c = false := by
  simp [isDelim, h]

theorem scheme_quiet {c : Char}
    (h : c.isAlphanum = true ∨ c = '+' ∨ c = '-' ∨ c = '.') : Quiet c ∧ c ≠ ':' := by
  rcases h with h | rfl | rfl | rfl
  · refine ⟨⟨?_, ?_, ?_⟩, ?_⟩ <;> (rintro rfl; revert h; decide)
  · decide
  · decide
  · decide

theorem alpha_big {c : Char} (h : c.isAlpha = true) : ¬ c.toNat ≤ 32 := by
  intro hle
  simp only [Char.isAlpha, Char.isUpper, Char.isLower, Bool.or_eq_true, Bool.and_eq_true,
    decide_eq_true_eq, UInt32.le_iff_toNat_le] at h
  simp only [Char.toNat] at hle
  rcases h with h | h <;> exact absurd (Nat.le_trans h.1 hle) (by decide)

theorem partition_optional {sep : Char} {a : Chars} (b : Chars) (h : ∀ c ∈ a, c ≠ sep) :
    ∃ f, partition sep (a ++ (if b = [] then [] else sep :: b)) = (a, f, b) := by
  by_cases hb : b = []
  · subst hb; exact ⟨false, by simpa using partition_none h⟩
  · simp only [hb, ↓reduceIte]; exact ⟨true, partition_sep b h⟩

theorem splitScheme_eq {scheme rest : Chars} (ne : scheme ≠ [])
    (ha : ∀ c ∈ scheme.head?, c.isAlpha = true)
    (hc : ∀ c ∈ scheme, (c.isAlphanum = true ∨ c = '+' ∨ c = '-' ∨ c = '.') ∧ c.toLower = c) :
    splitScheme (scheme ++ ':' :: rest) = (scheme, rest) := by
  rw [splitScheme, partition_sep _ (fun c h => (scheme_quiet (hc c h).1).2)]
  cases scheme with
  | nil => exact absurd rfl ne
  | cons c cs =>
    have h1 : (c :: cs).all schemeChar = true := by
      simp only [List.all_eq_true, schemeChar, Bool.or_eq_true, decide_eq_true_eq]
      intro x hx
      rcases (hc x hx).1 with h | h | h | h <;> simp [h]
    have h2 : (c :: cs).map Char.toLower = c :: cs := by
      conv => rhs; rw [← List.map_id (c :: cs)]
      exact List.map_congr_left (fun x hx => (hc x hx).2)
    simp only [h1, h2, ha c (by simp), Bool.and_self, ↓reduceIte]

theorem clean_eq {url : Chars} (h1 : ∀ c ∈ url.head?, ¬ c.toNat ≤ 32) (h2 : ∀ c ∈ url, Quiet c) :
    clean url = url := by
  have : url.dropWhile (fun c => decide (c.toNat ≤ 32)) = url := by
    cases url with
    | nil => rfl
    | cons c cs => simp [h1 c (by simp)]
  rw [clean, this, List.filter_eq_self]
  intro c hc
  simpa [Quiet] using h2 c hc

theorem render_eq (p : Parts) : render p = p.scheme ++ ':' :: '/' :: '/' :: (netlocText p ++ (p.path ++
    ((if p.query = [] then [] else '?' :: p.query) ++
      (if p.fragment = [] then [] else '#' :: p.fragment)))) := by
  simp [render]

theorem urlsplit_render (wf : WellFormed env p) : urlsplit env (render p) = .ok (splitOf p) := by
  have hclean : clean (render p) = render p := by
    apply clean_eq
    · intro c hc
      rw [render_eq] at hc
      cases hs : p.scheme with
      | nil => exact absurd hs wf.scheme_ne
      | cons d ds =>
        rw [hs] at hc
        simp at hc
        subst hc
        exact alpha_big (wf.scheme_alpha _ (by simp [hs]))
    · intro c hc
      rw [render_eq] at hc
      simp only [List.mem_append, List.mem_cons] at hc
      rcases hc with hc | rfl | rfl | rfl | hc | hc | hc | hc
      · exact (scheme_quiet (wf.scheme_chars c hc).1).1
      · decide
      · decide
      · decide
      · exact (netloc_mem wf hc).2.2.2.2
      · exact (wf.path_chars c hc).2.2
      · split at hc
        · cases hc
        · rcases List.mem_cons.mp hc with rfl | hc
          · decide
          · exact (wf.query_chars c hc).2
      · split at hc
        · cases hc
        · rcases List.mem_cons.mp hc with rfl | hc
          · decide
          · exact wf.fragment_chars c hc
  rw [urlsplit, hclean, render_eq, splitScheme_eq wf.scheme_ne wf.scheme_alpha wf.scheme_chars]
  have hnet : ∀ c ∈ netlocText p, (fun c => !isDelim c) c = true := by
    intro c hc
    have := netloc_mem wf hc
    simp [isDelim_false ⟨this.2.1, this.2.2.1, this.2.2.2.1⟩]
  have hstop : ∀ c ∈ (p.path ++ ((if p.query = [] then [] else '?' :: p.query) ++
      (if p.fragment = [] then [] else '#' :: p.fragment))).head?,
      (fun c => !isDelim c) c = false := by
    intro c hc
    cases hp : p.path with
    | cons d ds =>
      have := wf.path_start
      rw [hp] at this hc
      simp at this hc
      subst hc; subst this; decide
    | nil =>
      rw [hp] at hc
      simp only [List.nil_append] at hc
      split at hc
      · split at hc
        · cases hc
        · simp at hc; subst hc; decide
      · simp at hc; subst hc; decide
  simp only [splitNetloc, takeWhile_stop _ hnet hstop, dropWhile_stop _ hnet hstop]
  have hq : ∀ c ∈ p.path ++ (if p.query = [] then [] else '?' :: p.query), c ≠ '#' := by
    intro c hc
    rcases List.mem_append.mp hc with hc | hc
    · exact (wf.path_chars c hc).2.1
    · split at hc
      · cases hc
      · rcases List.mem_cons.mp hc with rfl | hc
        · decide
        · exact (wf.query_chars c hc).1
  obtain ⟨f, hf⟩ := partition_optional p.fragment hq
  obtain ⟨g, hg⟩ := partition_optional p.query (fun c hc => (wf.path_chars c hc).1)
  rw [← List.append_assoc, hf]
  simp only [hg, netlocValid_netloc wf, ↓reduceIte]
  rfl

/-! ## Host and port -/

theorem all_ascii {h : Chars} (hn : ∀ c ∈ h, NetChar c) : h.all isAscii = true := by
  simp only [List.all_eq_true, isAscii, decide_eq_true_eq]
  exact fun c hc => (hn c hc).1

theorem host_net (wf : WellFormed env p) : ∀ c ∈ p.host.text, NetChar c := by
  have hg := wf.host_good
  intro c hc
  cases hh : p.host with
  | name x => rw [hh] at hg hc; exact (hg c hc).1
  | literal x => rw [hh] at hg hc; exact (hg.2.2 c hc).1

/-- A text in lower case up to `%`. -/
def lowerText (h : Chars) : Chars :=
  (h.takeWhile (· ≠ '%')).map Char.toLower ++ h.dropWhile (· ≠ '%')

theorem lowerHost_text (h : Host) : (lowerHost h).text = lowerText h.text := by
  cases h <;> rfl

theorem partition_percent (h : Chars) :
    (match partition '%' h with
    | (a, true, b) => (a.map Char.toLower ++ '%' :: b)
    | (a, false, _) => (a.map Char.toLower)) = lowerText h := by
  induction h with
  | nil => rfl
  | cons c cs ih =>
    by_cases hc : c = '%'
    · subst hc; simp [partition, lowerText]
    · simp only [partition, hc, ↓reduceIte, lowerText, List.takeWhile_cons, List.dropWhile_cons]
      generalize partition '%' cs = q at ih
      obtain ⟨a, f, b⟩ := q
      cases f <;> simp_all [lowerText]

theorem partition_subset (sep : Char) (s : Chars) : ∀ c ∈ (partition sep s).1, c ∈ s := by
  induction s with
  | nil => simp [partition]
  | cons d s ih =>
    intro c hc
    simp only [partition] at hc
    split at hc
    · simp at hc
    · rcases List.mem_cons.mp hc with rfl | hc
      · simp
      · exact List.mem_cons_of_mem _ (ih c hc)

theorem hostname_split (wf : WellFormed env p) :
    hostname env (splitOf p) = if p.host.text = [] then .none else some (lowerHost p.host).text := by
  simp only [hostname, splitOf, hostinfo_netloc wf]
  have hn := host_net wf
  rw [lowerHost_text]
  cases ht : p.host.text with
  | nil => simp
  | cons c cs =>
    rw [ht] at hn
    simp only [reduceCtorEq, ↓reduceIte]
    have hs := partition_subset '%' (c :: cs)
    rw [← partition_percent]
    generalize hq : partition '%' (c :: cs) = q at hs
    obtain ⟨a, f, b⟩ := q
    have hl : env.lower a = a.map Char.toLower :=
      env.lower_ascii a (all_ascii (fun x hx => hn x (hs x hx)))
    cases f <;> simp [hl]

theorem port_split (wf : WellFormed env p) : port (splitOf p) = .ok p.port := by
  simp only [port, splitOf, hostinfo_netloc wf]
  cases hp : p.port with
  | none => rfl
  | some n =>
    have h1 : (digits n).all Char.isDigit = true := by
      simp only [List.all_eq_true]
      exact fun c hc => digits_digit hc
    have h2 := wf.port_le n (by simp [hp])
    simp [h1, natOf_digits, h2]

theorem credentials_split (wf : WellFormed env p) :
    username (splitOf p) = p.user.map (·.1) ∧ password (splitOf p) = p.user.bind (·.2) := by
  simp [username, password, splitOf, userinfo_netloc wf]

end Recap.Url
