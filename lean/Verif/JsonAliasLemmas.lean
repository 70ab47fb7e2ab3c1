import Verif.JsonAliasSpec
import Verif.JsonRefsLemmas
import Verif.AliasRegex
import Verif.QueryLemmas

/-!
# Lemmas on the aliases of identifiers (C145)
-/

set_option autoImplicit false

namespace Recap.JsonAlias

open Url (Chars Env splitOn joinWith urlparse)
open Url.Spec (Parts WellFormed netlocText render)
open Recap.Spec (Digit Letter Ident FullyQualified)
open Json (isAlnum stripDots urnToAlias)

/-! ## Characters -/

theorem isAlnum_iff (c : Char) : isAlnum c = true ↔ Alnum c := by
  simp only [isAlnum, Alnum, Digit, Bool.or_eq_true, Bool.and_eq_true, decide_eq_true_eq, Char.le_def, UInt32.le_iff_toNat_le,
    or_assoc]
  rfl

instance (c : Char) : Decidable (Alnum c) := decidable_of_iff _ (isAlnum_iff c)
instance (c : Char) : Decidable (Digit c) := inferInstanceAs (Decidable (_ ∧ _))
instance (c : Char) : Decidable (Letter c) := inferInstanceAs (Decidable (_ ∨ _ ∨ _))

theorem alnum_lower {c : Char} (h : Alnum c) :
    c.toLower ≠ '.' ∧ (¬Digit c ↔ Letter c.toLower) ∧ (Letter c.toLower ∨ Digit c.toLower) := by
  have hlt : c.toNat < 123 := by
    rcases h with h | h | h
    · omega
    · omega
    · have := h.2; omega
  have key : ∀ n < 123, Alnum (Char.ofNat n) → (Char.ofNat n).toLower ≠ '.' ∧
      (¬Digit (Char.ofNat n) ↔ Letter (Char.ofNat n).toLower) ∧
      (Letter (Char.ofNat n).toLower ∨ Digit (Char.ofNat n).toLower) := by decide +kernel
  have := key c.toNat hlt
  rw [Char.ofNat_toNat] at this
  exact this h

/-- One character of a path in an alias. -/
def dot (c : Char) : Char := if isAlnum c then c.toLower else '.'

theorem dotted_eq (s : Chars) : Json.dotted s = s.map dot := rfl

theorem dot_iff (c : Char) : dot c = '.' ↔ ¬Alnum c := by
  unfold dot
  split
  · rename_i h
    have h := (isAlnum_iff c).mp h
    exact ⟨fun e => absurd e (alnum_lower h).1, fun n => absurd h n⟩
  · rename_i h
    exact ⟨fun _ => fun h' => h ((isAlnum_iff c).mpr h'), fun _ => rfl⟩

theorem dot_alnum {c : Char} (h : Alnum c) : dot c = c.toLower := by
  unfold dot; rw [if_pos ((isAlnum_iff c).mpr h)]

/-! ## Splitting -/

theorem joinWith_splitOn (sep : Char) (s : Chars) : joinWith sep (splitOn sep s) = s := by
  induction s with
  | nil => rfl
  | cons c s ih =>
    simp only [splitOn]
    split
    · rename_i hc
      cases h : splitOn sep s with
      | nil => exact absurd h (Url.splitOn_ne sep s)
      | cons p ps => rw [joinWith, ← h, ih, hc]; rfl; simp
    · cases h : splitOn sep s with
      | nil => exact absurd h (Url.splitOn_ne sep s)
      | cons p ps =>
        simp only
        rw [h] at ih
        cases ps with
        | nil => simp only [joinWith] at ih ⊢; rw [ih]
        | cons q qs => simp only [joinWith] at ih ⊢; rw [← ih]; rfl

theorem splitOn_append (sep : Char) (a b : Chars) : splitOn sep (a ++ sep :: b) = splitOn sep a ++ splitOn sep b := by
  induction a with
  | nil => simp [splitOn]
  | cons c a ih =>
    simp only [List.cons_append, splitOn, ih]
    split
    · simp
    · cases h : splitOn sep a with
      | nil => exact absurd h (Url.splitOn_ne sep a)
      | cons p ps => simp

theorem intercalate_joinWith (ps : List Chars) : List.intercalate ['.'] ps = joinWith '.' ps := by
  induction ps with
  | nil => rfl
  | cons p ps ih =>
    cases ps with
    | nil => simp [joinWith, List.intercalate]
    | cons q qs =>
      rw [joinWith, ← ih]
      · simp [List.intercalate]
      · simp

theorem ident_no_dot {l : Chars} (h : Ident l) : ∀ c ∈ l, c ≠ '.' := by
  obtain ⟨c, rest, rfl, h1, h2⟩ := h
  intro x hx e
  subst e
  rcases List.mem_cons.mp hx with rfl | hx
  · exact absurd h1 (by decide)
  · exact absurd (h2 _ hx) (by decide)

/-- A name is fully qualified if it has two parts or more, which are identifiers. -/
theorem qualified_iff (s : Chars) : FullyQualified (String.ofList s) ↔
    2 ≤ (splitOn '.' s).length ∧ ∀ q ∈ splitOn '.' s, Ident q := by
  constructor
  · rintro ⟨parts, h1, h2, h3⟩
    rw [String.toList_ofList, intercalate_joinWith] at h3
    have : splitOn '.' s = parts := by
      rw [h3]
      exact Url.splitOn_joinWith (by intro e; subst e; simp at h1) fun p hp => ident_no_dot (h2 p hp)
    rw [this]
    exact ⟨h1, h2⟩
  · rintro ⟨h1, h2⟩
    exact ⟨_, h1, h2, by rw [String.toList_ofList, intercalate_joinWith, joinWith_splitOn]⟩

/-! ## Words -/

/-- The text in lower case. -/
def lower (w : Chars) : Chars := w.map Char.toLower

theorem word_ident {w : Chars} (h : Word w) : Ident (lower w) := by
  obtain ⟨c, rest, rfl, h1, h2, h3⟩ := h
  refine ⟨c.toLower, lower rest, rfl, (alnum_lower h1).2.1.mp h2, fun x hx => ?_⟩
  obtain ⟨y, hy, rfl⟩ := List.mem_map.mp hx
  exact (alnum_lower (h3 y hy)).2.2

theorem ident_word {w : Chars} (h : Ident (lower w)) (ha : ∀ c ∈ w, Alnum c) : Word w := by
  obtain ⟨c, rest, h1, h2, h3⟩ := h
  cases w with
  | nil => simp [lower] at h1
  | cons x w =>
    simp only [lower, List.map_cons, List.cons.injEq] at h1
    obtain ⟨rfl, rfl⟩ := h1
    exact ⟨x, w, rfl, ha x (by simp), (alnum_lower (ha x (by simp))).2.1.mpr h2, fun y hy => ha y (List.mem_cons_of_mem _ hy)⟩

theorem word_alnum {w : Chars} (h : Word w) : w ≠ [] ∧ ∀ c ∈ w, Alnum c := by
  obtain ⟨c, rest, rfl, h1, -, h3⟩ := h
  refine ⟨by simp, fun x hx => ?_⟩
  rcases List.mem_cons.mp hx with rfl | hx
  · exact h1
  · exact h3 x hx

theorem lower_dotted {w : Chars} (h : ∀ c ∈ w, Alnum c) : Json.dotted w = lower w := by
  rw [dotted_eq, lower]
  exact List.map_congr_left fun c hc => dot_alnum (h c hc)

theorem dotted_other {s : Chars} (h : ∀ c ∈ s, ¬Alnum c) : Json.dotted s = List.replicate s.length '.' := by
  rw [dotted_eq]
  induction s with
  | nil => rfl
  | cons c s ih =>
    simp only [List.map_cons, List.length_cons, List.replicate_succ]
    rw [(dot_iff c).mpr (h c (by simp)), ih fun x hx => h x (List.mem_cons_of_mem _ hx)]

/-- Any text can be cut into words, which may be empty. -/
theorem follow_exists (s : Chars) : ∃ ws, splitOn '.' (Json.dotted s) = ws.map lower ∧ (∀ w ∈ ws, ∀ c ∈ w, Alnum c) ∧ Follow ws s := by
  induction s with
  | nil => exact ⟨[[]], rfl, by simp, .last (w := []) (post := []) (by simp)⟩
  | cons c s ih =>
    obtain ⟨ws, h1, h2, h3⟩ := ih
    rw [dotted_eq] at h1 ⊢
    simp only [List.map_cons, splitOn]
    by_cases hc : Alnum c
    · rw [if_neg (fun e => (dot_iff c).mp e hc), h1]
      cases ws with
      | nil => cases h3
      | cons w ws =>
        refine ⟨(c :: w) :: ws, by simp [lower, dot_alnum hc], ?_, ?_⟩
        · intro x hx y hy
          rcases List.mem_cons.mp hx with rfl | hx
          · rcases List.mem_cons.mp hy with rfl | hy
            · exact hc
            · exact h2 w (by simp) y hy
          · exact h2 x (List.mem_cons_of_mem _ hx) y hy
        · cases h3 with
          | last h => exact .last (w := c :: w) h
          | more h h' => exact .more (w := c :: w) h h'
    · rw [if_pos ((dot_iff c).mpr hc), h1]
      refine ⟨[] :: ws, rfl, ?_, .more (w := []) hc h3⟩
      intro x hx y hy
      rcases List.mem_cons.mp hx with rfl | hx
      · cases hy
      · exact h2 x hx y hy

theorem follow_post {ws : List Chars} {s post : Chars} (h : Follow ws s) (hp : ∀ c ∈ post, ¬Alnum c) : Follow ws (s ++ post) := by
  induction h with
  | last h =>
    rw [List.append_assoc]
    refine .last fun c hc => ?_
    rcases List.mem_append.mp hc with hc | hc
    · exact h c hc
    · exact hp c hc
  | more h _ ih =>
    rw [List.append_assoc, List.cons_append]
    exact .more h ih

theorem follow_dotted {ws : List Chars} {s : Chars} (h : Follow ws s) (hw : ∀ w ∈ ws, Word w) :
    ∃ m, Json.dotted s = joinWith '.' (ws.map lower) ++ List.replicate m '.' := by
  induction h with
  | @last w post h =>
    refine ⟨post.length, ?_⟩
    have := lower_dotted (word_alnum (hw w (by simp))).2
    have h2 := dotted_other h
    rw [dotted_eq] at this h2 ⊢
    rw [List.map_append, this, h2]
    rfl
  | @more w c ws s h hf ih =>
    obtain ⟨m, hm⟩ := ih fun x hx => hw x (List.mem_cons_of_mem _ hx)
    refine ⟨m, ?_⟩
    have h1 := lower_dotted (word_alnum (hw w (by simp))).2
    rw [dotted_eq] at h1 hm ⊢
    rw [List.map_append, List.map_cons, h1, hm, (dot_iff c).mpr h]
    cases ws with
    | nil => cases hf
    | cons x ws => simp [joinWith]

/-! ## Dots around the words -/

theorem dropWhile_dots (m : Nat) {x : Chars} (hx : ∀ c ∈ x.head?, c ≠ '.') :
    (List.replicate m '.' ++ x).dropWhile (· = '.') = x := by
  induction m with
  | zero =>
    cases x with
    | nil => rfl
    | cons c x => simp [hx c (by simp)]
  | succ m ih => simpa [List.replicate_succ] using ih

theorem stripDots_eq (m n : Nat) {x : Chars} (h1 : ∀ c ∈ x.head?, c ≠ '.') (h2 : ∀ c ∈ x.getLast?, c ≠ '.') :
    stripDots (List.replicate m '.' ++ (x ++ List.replicate n '.')) = x := by
  unfold stripDots
  by_cases hx : x = []
  · subst hx
    have : ((List.replicate m '.' ++ ([] ++ List.replicate n '.')).dropWhile (· = '.')) = [] := by
      simp
    rw [this]
    rfl
  · rw [dropWhile_dots]
    · rw [List.reverse_append, List.reverse_replicate, dropWhile_dots, List.reverse_reverse]
      rw [List.head?_reverse]
      exact h2
    · cases x with
      | nil => exact absurd rfl hx
      | cons c x => simpa using h1

theorem join_ends {ps : List Chars} (h : ∀ p ∈ ps, p ≠ [] ∧ ∀ c ∈ p, c ≠ '.') :
    (∀ c ∈ (joinWith '.' ps).head?, c ≠ '.') ∧ (∀ c ∈ (joinWith '.' ps).getLast?, c ≠ '.') := by
  induction ps with
  | nil => simp [joinWith]
  | cons p ps ih =>
    obtain ⟨hp, hc⟩ := h p (by simp)
    cases ps with
    | nil =>
      simp only [joinWith]
      exact ⟨fun c h => hc c (List.mem_of_mem_head? h), fun c h => hc c (List.mem_of_mem_getLast? h)⟩
    | cons q qs =>
      obtain ⟨i1, i2⟩ := ih fun x hx => h x (List.mem_cons_of_mem _ hx)
      have hne : joinWith '.' (q :: qs) ≠ [] := by
        obtain ⟨hq, -⟩ := h q (by simp)
        cases qs with
        | nil => simpa [joinWith] using hq
        | cons => simp [joinWith]
      rw [joinWith]
      · constructor
        · intro c hh
          cases p with
          | nil => exact absurd rfl hp
          | cons x p => simp at hh; subst hh; exact hc _ (by simp)
        · intro c hh
          rw [List.getLast?_append, List.getLast?_cons_of_ne_nil hne] at hh
          cases hl : (joinWith '.' (q :: qs)).getLast? with
          | none => rw [List.getLast?_eq_none_iff] at hl; exact absurd hl hne
          | some y => rw [hl] at hh; simp at hh; subst hh; exact i2 _ hl
      · simp

theorem spelled_split {ws : List Chars} {s : Chars} (h : Spelled ws s) (hne : ws ≠ []) (hw : ∀ w ∈ ws, Word w) :
    stripDots (Json.dotted s) = joinWith '.' (ws.map lower) ∧ Json.dotted s ≠ [] ∧ Json.dotted s ≠ ['.'] := by
  rcases h with ⟨rfl, -⟩ | ⟨pre, s', rfl, h1, h2⟩
  · exact absurd rfl hne
  · obtain ⟨m, hm⟩ := follow_dotted h2 hw
    have hd : Json.dotted (pre ++ s') = List.replicate pre.length '.' ++ (joinWith '.' (ws.map lower) ++ List.replicate m '.') := by
      have := dotted_other h1
      rw [dotted_eq] at this hm ⊢
      rw [List.map_append, this, hm]
    have hall : ∀ p ∈ ws.map lower, p ≠ [] ∧ ∀ c ∈ p, c ≠ '.' := by
      intro p hp
      obtain ⟨w, hw', rfl⟩ := List.mem_map.mp hp
      obtain ⟨g1, g2⟩ := word_alnum (hw w hw')
      refine ⟨by cases w <;> simp_all [lower], fun c hc => ?_⟩
      obtain ⟨y, hy, rfl⟩ := List.mem_map.mp hc
      exact (alnum_lower (g2 y hy)).1
    have hends := join_ends hall
    have hmem : ∃ c ∈ joinWith '.' (ws.map lower), c ≠ '.' := by
      cases ws with
      | nil => exact absurd rfl hne
      | cons w ws =>
        obtain ⟨g1, g2⟩ := hall (lower w) (by simp)
        cases hl : lower w with
        | nil => exact absurd hl g1
        | cons c l =>
          refine ⟨c, ?_, g2 c (by rw [hl]; simp)⟩
          rw [List.map_cons, hl]
          cases ws <;> simp [joinWith]
    refine ⟨by rw [hd]; exact stripDots_eq _ _ hends.1 hends.2, ?_, ?_⟩
    all_goals
      intro e
      obtain ⟨c, hc, hcd⟩ := hmem
      have : c ∈ Json.dotted (pre ++ s') := by
        rw [hd]; exact List.mem_append_right _ (List.mem_append_left _ hc)
      rw [e] at this
      simp at this
      try exact hcd this

/-- The middle of a text, without the other characters around it. -/
theorem middle (s : Chars) : ∃ pre mid post, s = pre ++ (mid ++ post) ∧ (∀ c ∈ pre, ¬Alnum c) ∧ (∀ c ∈ post, ¬Alnum c) ∧
    stripDots (Json.dotted s) = Json.dotted mid := by
  let other : Char → Bool := fun c => !isAlnum c
  have hother : ∀ c, other c = true ↔ ¬Alnum c := by
    intro c; simp only [other, Bool.not_eq_true', ← isAlnum_iff]; simp
  have hdrop : ∀ l : Chars, (l.map dot).dropWhile (· = '.') = (l.dropWhile other).map dot := by
    intro l
    induction l with
    | nil => rfl
    | cons c l ih =>
      simp only [List.map_cons, List.dropWhile_cons]
      by_cases hc : Alnum c
      · rw [if_neg (by simpa using fun e => (dot_iff c).mp e hc), if_neg (by rw [hother]; simpa using hc)]
        rfl
      · rw [if_pos (by simpa using (dot_iff c).mpr hc), if_pos ((hother c).mpr hc), ih]
  have htake : ∀ l : Chars, ∀ c ∈ l.takeWhile other, ¬Alnum c := by
    intro l
    induction l with
    | nil => simp
    | cons x l ih =>
      simp only [List.takeWhile_cons]
      split
      · rename_i hx
        intro c hc
        rcases List.mem_cons.mp hc with rfl | hc
        · exact (hother _).mp hx
        · exact ih c hc
      · simp
  refine ⟨s.takeWhile other, ((s.dropWhile other).reverse.dropWhile other).reverse,
    ((s.dropWhile other).reverse.takeWhile other).reverse, ?_, htake s, ?_, ?_⟩
  · rw [← List.reverse_append, List.takeWhile_append_dropWhile, List.reverse_reverse, List.takeWhile_append_dropWhile]
  · intro c hc
    exact htake _ c (List.mem_reverse.mp hc)
  · rw [stripDots, dotted_eq, dotted_eq, hdrop, ← List.map_reverse, hdrop, ← List.map_reverse]

theorem split_spelled {s : Chars} (h : ∀ q ∈ splitOn '.' (stripDots (Json.dotted s)), Ident q) :
    ∃ ws, ws ≠ [] ∧ Spelled ws s ∧ (∀ w ∈ ws, Word w) ∧ splitOn '.' (stripDots (Json.dotted s)) = ws.map lower := by
  obtain ⟨pre, mid, post, h1, h2, h3, h4⟩ := middle s
  obtain ⟨ws, g1, g2, g3⟩ := follow_exists mid
  rw [h4] at h ⊢
  refine ⟨ws, (by intro e; subst e; cases g3), .inr ⟨pre, mid ++ post, h1, h2, follow_post g3 h3⟩, fun w hw => ?_, g1⟩
  exact ident_word (h (lower w) (by rw [g1]; exact List.mem_map_of_mem hw)) (g2 w hw)

/-! ## The alias of an identifier -/

/-- The alias of a URL. -/
def aliasOf (p : Parts) : Chars :=
  let domain := joinWith '.' (splitOn '.' (netlocText p)).reverse
  let path := Json.dotted (p.path ++ p.fragment)
  if path ≠ [] ∧ path ≠ ['.'] then domain ++ '.' :: stripDots path else domain

variable {env : Env}

theorem urnToAlias_render {p : Parts} (wf : WellFormed env p) (h : ';' ∉ p.path) :
    urnToAlias env (render p) = .ok (aliasOf p) := by
  unfold urnToAlias urlparse
  rw [Url.urlsplit_render wf]
  have : (Url.splitOf p).path.contains ';' = false := by simpa [Url.splitOf] using h
  simp only [bind, Except.bind, this, Bool.and_false]
  rfl

theorem rstripHash_self {s : Chars} (h : s.getLast? ≠ some '#') (m : Nat) :
    Json.rstripHash (s ++ List.replicate m '#') = s := by
  unfold Json.rstripHash
  rw [List.reverse_append, List.reverse_replicate]
  have : ∀ m : Nat, (List.replicate m '#' ++ s.reverse).dropWhile (· = '#') = s.reverse := by
    intro m
    induction m with
    | zero =>
      cases hs : s.reverse with
      | nil => rfl
      | cons c l =>
        have : c ≠ '#' := by
          intro e
          subst e
          apply h
          rw [← List.head?_reverse, hs]
          rfl
        simp [this]
    | succ m ih => simpa [List.replicate_succ] using ih
  rw [this, List.reverse_reverse]

theorem identifier_alias {id : String} {p : Parts} (h : Identifier env id p) :
    urnToAlias env (Json.rstripHash id.toList) = .ok (aliasOf p) := by
  obtain ⟨m, hm⟩ := h.text
  rw [hm, rstripHash_self h.ends, urnToAlias_render h.wf h.plain]

theorem domain_split (n : Chars) : splitOn '.' (joinWith '.' (splitOn '.' n).reverse) = (splitOn '.' n).reverse :=
  Url.splitOn_joinWith (by simpa using Url.splitOn_ne '.' n)
    fun p hp c hc => (Url.splitOn_mem n p (List.mem_reverse.mp hp) c hc).1

theorem labels_split {labels : List Chars} (hne : labels ≠ []) (hl : ∀ l ∈ labels, Ident l) {n : Chars}
    (h : n = List.intercalate ['.'] labels) : splitOn '.' n = labels := by
  rw [h, intercalate_joinWith]
  exact Url.splitOn_joinWith hne fun l hl' => ident_no_dot (hl l hl')

/-- What the alias of a URL is, if it is a name. -/
theorem aliasOf_names {p : Parts} {labels words : List Chars} (h : Names p labels words) :
    aliasOf p = joinWith '.' (labels.reverse ++ words.map lower) := by
  have hs := labels_split h.some_label h.label h.host
  unfold aliasOf
  simp only
  rw [hs]
  by_cases hw : words = []
  · subst hw
    have : ¬(Json.dotted (p.path ++ p.fragment) ≠ [] ∧ Json.dotted (p.path ++ p.fragment) ≠ ['.']) := by
      rcases h.path with ⟨-, h | ⟨c, h, hc⟩⟩ | ⟨pre, s', -, -, h⟩
      · rw [h]; simp [Json.dotted]
      · rw [h, dotted_eq]; simp [(dot_iff c).mpr hc]
      · cases h
    rw [if_neg this]
    simp
  · obtain ⟨h1, h2, h3⟩ := spelled_split h.path hw h.word
    rw [if_pos ⟨h2, h3⟩, h1]
    have app : ∀ a b : List Chars, a ≠ [] → b ≠ [] → joinWith '.' (a ++ b) = joinWith '.' a ++ '.' :: joinWith '.' b := by
      intro a b ha hb
      induction a with
      | nil => exact absurd rfl ha
      | cons x a ih =>
        cases a with
        | nil =>
          cases b with
          | nil => exact absurd rfl hb
          | cons y b => simp [joinWith]
        | cons y a =>
          have := ih (by simp)
          simp only [List.cons_append, joinWith] at this ⊢
          rw [this]
          simp
    rw [app _ _ (by simpa using h.some_label) (by simpa using hw)]

/-- The alias of a URL is a fully qualified name exactly if the URL has the names. -/
theorem aliasOf_iff (p : Parts) :
    FullyQualified (String.ofList (aliasOf p)) ↔ ∃ labels words, Names p labels words := by
  constructor
  · intro h
    rw [qualified_iff] at h
    obtain ⟨h1, h2⟩ := h
    unfold aliasOf at h1 h2
    simp only at h1 h2
    have host : netlocText p = List.intercalate ['.'] (splitOn '.' (netlocText p)) := by
      rw [intercalate_joinWith, joinWith_splitOn]
    split at h1
    · rename_i hc
      rw [if_pos hc] at h2
      rw [splitOn_append, domain_split] at h1 h2
      obtain ⟨ws, g1, g2, g3, g4⟩ := split_spelled (s := p.path ++ p.fragment)
        fun q hq => h2 q (List.mem_append_right _ hq)
      refine ⟨splitOn '.' (netlocText p), ws, host, Url.splitOn_ne _ _,
        fun l hl => h2 l (List.mem_append_left _ (List.mem_reverse.mpr hl)), g2, g3, ?_⟩
      rw [g4] at h1
      simpa using h1
    · rename_i hc
      rw [if_neg hc] at h2
      rw [domain_split] at h1 h2
      refine ⟨splitOn '.' (netlocText p), [], host, Url.splitOn_ne _ _, fun l hl => h2 l (List.mem_reverse.mpr hl),
        .inl ⟨rfl, ?_⟩, by simp, by simpa using h1⟩
      rw [dotted_eq] at hc
      cases hs : p.path ++ p.fragment with
      | nil => exact .inl rfl
      | cons c s =>
        rw [hs] at hc
        have : (c :: s).map dot = ['.'] := by
          cases Classical.em ((c :: s).map dot = ['.']) with
          | inl h => exact h
          | inr h => exact absurd ⟨by simp, h⟩ hc
        simp only [List.map_cons, List.cons.injEq, List.map_eq_nil_iff] at this
        exact .inr ⟨c, by rw [this.2], (dot_iff c).mp this.1⟩
  · rintro ⟨labels, words, h⟩
    rw [qualified_iff, aliasOf_names h]
    have hall : ∀ q ∈ labels.reverse ++ words.map lower, Ident q := by
      intro q hq
      rcases List.mem_append.mp hq with hq | hq
      · exact h.label q (List.mem_reverse.mp hq)
      · obtain ⟨w, hw, rfl⟩ := List.mem_map.mp hq
        exact word_ident (h.word w hw)
    rw [Url.splitOn_joinWith (by have := h.two; intro e; simp at e; simp [e] at this) fun q hq => ident_no_dot (hall q hq)]
    exact ⟨by simpa using h.two, hall⟩

/-! ## Identifiers without a host -/

/-- There are two slashes after each other. -/
def Slashes (s : Chars) : Prop := ∃ a b, s = a ++ '/' :: '/' :: b

theorem slashes_append {a s : Chars} (h : Slashes s) : Slashes (a ++ s) := by
  obtain ⟨x, y, rfl⟩ := h
  exact ⟨a ++ x, y, by simp⟩

theorem partition_slashes {sep : Char} {s a b : Chars} (h : Url.partition sep s = (a, true, b)) (hb : Slashes b) : Slashes s := by
  induction s generalizing a with
  | nil => simp [Url.partition] at h
  | cons c s ih =>
    unfold Url.partition at h
    split at h
    · simp at h
      rw [h.2]
      exact slashes_append (a := [c]) hb
    · simp only [Prod.mk.injEq] at h
      have := ih (a := (Url.partition sep s).1) (by rw [← h.2.1, ← h.2.2])
      exact slashes_append (a := [c]) this

theorem splitScheme_slashes {s : Chars} (h : Slashes (Url.splitScheme s).2) : Slashes s := by
  unfold Url.splitScheme at h
  split at h
  · rename_i hp
    split at h
    · exact partition_slashes hp h
    · exact h
  · exact h

theorem clean_slashes {s : Chars} (hq : ∀ c ∈ s, Url.Spec.Quiet c) (h : Slashes (Url.clean s)) : Slashes s := by
  unfold Url.clean at h
  rw [List.filter_eq_self.mpr] at h
  · have := List.takeWhile_append_dropWhile (p := fun c : Char => decide (c.toNat ≤ 32)) (l := s)
    rw [← this]
    exact slashes_append h
  · intro c hc
    have := hq c ((List.dropWhile_sublist _).mem hc)
    simpa [Url.Spec.Quiet] using this

/-- Without a host, the alias is no fully qualified name. -/
theorem hostless_alias {id : Chars} (hq : ∀ c ∈ id, Url.Spec.Quiet c) (hs : ¬Slashes id) :
    ∃ alias, urnToAlias env id = .ok alias ∧ ¬FullyQualified (String.ofList alias) := by
  have hn : Url.splitNetloc (Url.splitScheme (Url.clean id)).2 = ([], (Url.splitScheme (Url.clean id)).2) := by
    unfold Url.splitNetloc
    split
    · rename_i rest he
      exact absurd (clean_slashes hq (splitScheme_slashes ⟨[], rest, by rw [he]; rfl⟩)) hs
    · rfl
  have hu : ∃ sp, Url.urlsplit env id = .ok sp ∧ sp.netloc = [] := by
    unfold Url.urlsplit
    simp only
    rw [hn]
    simp only
    rw [if_pos (by simp [Url.netlocValid])]
    exact ⟨_, rfl, rfl⟩
  have hp : ∃ sp ps, urlparse env id = .ok (sp, ps) ∧ sp.netloc = [] := by
    obtain ⟨sp, h1, h2⟩ := hu
    unfold urlparse
    rw [h1]
    simp only [bind, Except.bind]
    repeat' split
    all_goals exact ⟨_, _, rfl, h2⟩
  obtain ⟨sp, ps, h1, h2⟩ := hp
  unfold urnToAlias
  rw [h1]
  simp only [bind, Except.bind, h2]
  refine ⟨_, rfl, ?_⟩
  rw [qualified_iff]
  rintro ⟨g1, g2⟩
  split at g1
  · rename_i hc
    rw [if_pos hc] at g2
    have := g2 [] (by simp [splitOn, joinWith])
    obtain ⟨c, rest, h, -⟩ := this
    cases h
  · simp [splitOn, joinWith] at g1

/-! ## The aliases in the type that is read -/

open JsonData (Part parse_ids parseAll_ids parseProps_ids extraAttrs_ids parseLeaf_ok parseRef_ok of_addNull)
open Json (attrs_withAttrs named optionalField parse_dict_ok parse_ok_dict parse_str size_get size_list)
open Json.Spec (Inside)

/-- The aliases in `t'` are those in `t`. -/
def Within (t' t : RType) : Prop :=
  ∀ u s, Inside u t' → u.attrs.alias = .str s → ∃ u', Inside u' t ∧ u'.attrs.alias = .str s

theorem Within.refl (t : RType) : Within t t := fun u _ h1 h2 => ⟨u, h1, h2⟩

theorem Within.trans {t t' t'' : RType} (h : Within t'' t') (h' : Within t' t) : Within t'' t := by
  intro u s h1 h2
  obtain ⟨u1, h3, h4⟩ := h u s h1 h2
  exact h' u1 s h3 h4

theorem within_with (t : RType) (b : Attrs) (hb : b.alias = t.attrs.alias) : Within (t.withAttrs b) t := by
  intro u s h hs
  have key : u = t.withAttrs b ∨ Inside u t := by
    cases t <;> simp only [RType.withAttrs] at h ⊢ <;> cases h
    all_goals first
      | exact .inl rfl
      | exact .inr (.list (by assumption))
      | exact .inr (.value (by assumption))
      | exact .inr (.field (by assumption) (by assumption))
      | exact .inr (.member (by assumption) (by assumption))
  rcases key with rfl | key
  · exact ⟨t, .refl, by rw [attrs_withAttrs, hb] at hs; exact hs⟩
  · exact ⟨u, key, hs⟩

theorem within_makeNullable (t : RType) : Within t.makeNullable t := by
  have nul : ∀ {u : RType} {s : String}, Inside u (.null {}) → u.attrs.alias = .str s → False := by
    intro u s h1 h2
    cases h1
    cases h2
  unfold RType.makeNullable
  split
  · intro u s h hs
    cases h with
    | refl => exact ⟨_, .refl, hs⟩
    | member h1 h2 =>
      rcases of_addNull h1 with h1 | rfl
      · exact ⟨u, .member h1 h2, hs⟩
      · exact (nul h2 hs).elim
  · intro u s h hs
    cases h with
    | refl => cases hs
    | member h1 h2 =>
      rcases of_addNull h1 with h1 | rfl
      · cases List.mem_singleton.mp h1
        exact within_with t { t.attrs with doc := .none, extra := RType.demoted t.attrs.extra } rfl u s h2 hs
      · exact (nul h2 hs).elim

theorem within_field (name : String) (listed : Bool) (t : RType) :
    Within (named name (if listed then t else optionalField t)) t := by
  have key : ∀ u : RType, Within (if Dict.has u.attrs.extra "default" then u
      else u.withAttrs { u.attrs with extra := Dict.set u.attrs.extra "default" .none }) u := by
    intro u
    split
    · exact .refl u
    · exact within_with u _ rfl
  refine Within.trans (within_with _ { (if listed then t else optionalField t).attrs with extra := _ } rfl) ?_
  split
  · exact .refl t
  · unfold optionalField
    simp only
    split
    · exact key t
    · exact (key _).trans (within_makeNullable t)

/-- Every alias comes from an identifier or a reference in the document. -/
theorem parse_aliases (n : Nat) {v : PyVal} (hn : v.size ≤ n) {ids ids' : Json.Ids} {t : RType}
    (h : Json.parse env v ids = .ok (t, ids')) {u : RType} {s : String} (hi : Inside u t) (hs : u.attrs.alias = .str s) :
    ∃ id alias, id ∈ ids' ∧ urnToAlias env id = .ok alias ∧ s = String.ofList alias := by
  induction n generalizing v ids ids' t u with
  | zero => cases v <;> simp [PyVal.size] at hn
  | succ n ih =>
    have lift : ∀ {ids1 ids2 : Json.Ids}, ids1 ⊆ ids2 →
        (∃ id alias, id ∈ ids1 ∧ urnToAlias env id = .ok alias ∧ s = String.ofList alias) →
        ∃ id alias, id ∈ ids2 ∧ urnToAlias env id = .ok alias ∧ s = String.ofList alias := by
      rintro ids1 ids2 hsub ⟨id, alias, h1, h2⟩
      exact ⟨id, alias, hsub h1, h2⟩
    have own : ∀ {d e ids1}, Json.extraAttrs env (.dict d) ids = .ok (e, ids1) → (Json.attrsOf e).alias = .str s →
        ∃ id alias, id ∈ ids1 ∧ urnToAlias env id = .ok alias ∧ s = String.ofList alias := by
      intro d e ids1 h1 h2
      rcases extraAttrs_ids h1 with ⟨-, -, h3⟩ | ⟨s', a, -, h3, rfl, h4, -⟩
      · rw [h3] at h2; cases h2
      · rw [h4] at h2
        exact ⟨_, a, by simp, h3, by injection h2 with h2; exact h2.symm⟩
    have leaf : ∀ {d e ids1}, Json.extraAttrs env (.dict d) ids = .ok (e, ids1) → Json.parseLeaf env e d ids1 = .ok (t, ids') →
        ∃ id alias, id ∈ ids' ∧ urnToAlias env id = .ok alias ∧ s = String.ofList alias := by
      intro d e ids1 h1 h2
      obtain ⟨rfl, ⟨-, -, k1, k2⟩ | ⟨urn, -, hr⟩⟩ := parseLeaf_ok h2
      · cases k2 _ hi
        exact own h1 (k1.symm.trans hs)
      · obtain ⟨-, k1, -, a, k2, rfl⟩ := parseRef_ok hr
        cases hi
        exact ⟨_, a, k1, k2, by injection hs with hs; exact hs.symm⟩
    have grow : ∀ {x i i' w}, Json.parse env x i = .ok (w, i') → i ⊆ i' := fun hx => (parse_ids _ (Nat.le_refl _) hx).1
    rcases parse_ok_dict h with ⟨w, rfl⟩ | ⟨d, rfl⟩
    · rw [parse_str] at h
      obtain ⟨e, ids1, h1, h2⟩ := parse_dict_ok h
      cases h2 with
      | union hh _ => simp at hh
      | struct _ hh _ => simp [Dict.get?_cons] at hh
      | list _ hh _ => simp [Dict.get?_cons] at hh
      | leaf _ hh => exact leaf h1 hh
    · obtain ⟨e, ids1, h1, h2⟩ := parse_dict_ok h
      have size : ∀ k w, Dict.get? d k = some w → w.size ≤ n := fun k w hw => by have := size_get hw; omega
      cases h2 with
      | @union xs ts _ ht hp =>
        obtain ⟨g0, -, g, -⟩ := parseAll_ids hp fun x _ i i' u hu => grow hu
        cases hi with
        | refl => exact lift g0 (own h1 hs)
        | member k1 k2 =>
          obtain ⟨x, hx, i, i', g1, g2⟩ := g _ k1
          exact lift g2 (ih (by have := size_list xs hx; have := size _ _ ht; omega) g1 k2 hs)
      | @struct props ts _ ht hprops hp =>
        obtain ⟨g0, g, -⟩ := parseProps_ids hp fun p _ i i' u hu => grow hu
        cases hi with
        | refl => exact lift g0 (own h1 hs)
        | field k1 k2 =>
          obtain ⟨p, hp', w, l, i, i', g1, g2, -, rfl⟩ := g _ k1
          obtain ⟨u', k3, k4⟩ := within_field _ _ _ _ _ k2 hs
          exact lift g2 (ih (by have := PyVal.size_lt_of_mem_dict hp'; have := size _ _ hprops; omega) g1 k3 k4)
      | @list items w _ ht hit hp =>
        cases hi with
        | refl => exact lift (grow hp) (own h1 hs)
        | list k1 => exact ih (size _ _ hit) hp k1 hs
      | leaf _ hp => exact leaf h1 hp

end Recap.JsonAlias
