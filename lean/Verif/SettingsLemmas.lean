import Verif.Settings
import Verif.QueryLemmas

/-! # Lemmas about the configured URLs -/

set_option autoImplicit false

namespace Recap.Url

open Spec

variable {env : Env} {p : Parts}

/-! ## Writing a URL -/

theorem scheme_no_colon (wf : WellFormed env p) : ∀ c ∈ p.scheme, c ≠ ':' :=
  fun c hc => (scheme_quiet (wf.scheme_chars c hc).1).2

theorem urlunsplit_net {s : Split} (ne : s.scheme ≠ []) (hn : s.netloc ≠ [])
    (hs : s.path = [] ∨ s.path.head? = some '/') :
    urlunsplit s = s.scheme ++ ':' :: '/' :: '/' :: (s.netloc ++ (s.path ++
      (optional '?' s.query ++ optional '#' s.fragment))) := by
  have hpath : ¬ (s.path ≠ [] ∧ s.path.take 1 ≠ ['/']) := by
    rintro ⟨h3, h4⟩
    rcases hs with hs | hs
    · exact h3 hs
    · cases hp : s.path with
      | nil => exact h3 hp
      | cons c cs => rw [hp] at hs h4; simp at hs; subst hs; exact h4 rfl
  unfold urlunsplit
  extract_lets u1 u2
  have e1 : u1 = '/' :: '/' :: s.netloc ++ s.path := by
    simp only [u1]; rw [if_pos (Or.inl hn), if_neg hpath]
  have e2 : u2 = s.scheme ++ ':' :: u1 := by simp only [u2]; rw [if_pos ne]
  rw [e2, e1]
  simp

theorem urlunsplit_hostless {s : Split} (ne : s.scheme ≠ []) (hn : s.netloc = [])
    (hu : usesNetloc.contains s.scheme = false) (h2 : s.path.take 2 ≠ ['/', '/']) :
    urlunsplit s = s.scheme ++ ':' :: (s.path ++
      (optional '?' s.query ++ optional '#' s.fragment)) := by
  have hcond : ¬ (s.netloc ≠ [] ∨ (s.scheme ≠ [] ∧ usesNetloc.contains s.scheme = true) ∨
      s.path.take 2 = ['/', '/']) := by
    rw [hu]
    rintro (h | ⟨_, h⟩ | h)
    · exact h hn
    · cases h
    · exact h2 h
  unfold urlunsplit
  extract_lets u1 u2
  have e1 : u1 = s.path := by simp only [u1]; rw [if_neg hcond]
  have e2 : u2 = s.scheme ++ ':' :: u1 := by simp only [u2]; rw [if_pos ne]
  rw [e2, e1]
  simp

theorem written (ne : p.scheme ≠ []) (hc : ∀ c ∈ p.scheme, c ≠ ':')
    (hs : p.path = [] ∨ p.path.head? = some '/') (h2 : p.path.take 2 ≠ ['/', '/'])
    (hn : netlocText p ≠ [] ∨ usesNetloc.contains p.scheme = false) :
    addSlashes (netlocText p) (urlunsplit (splitOf p)) = render p := by
  rw [render_eq]
  by_cases hnet : netlocText p = []
  · have hs' : usesNetloc.contains p.scheme = false := hn.resolve_left (fun h => h hnet)
    rw [urlunsplit_hostless (s := splitOf p) ne hnet hs' h2, addSlashes, if_pos hnet, replaceColon,
      show (splitOf p).scheme = p.scheme from rfl, partition_sep _ hc, hnet]
    simp [optional, splitOf]
    rfl
  · rw [urlunsplit_net (s := splitOf p) ne hnet hs, addSlashes, if_neg hnet]
    simp [optional, splitOf]
    rfl

/-! ## Safe URLs -/

theorem present_iff (x : Option Chars) : present x = true ↔ ∃ y, x = some y ∧ y ≠ [] := by
  cases x with
  | none => simp [present]
  | some y => cases y <;> simp [present]

theorem present_credentials (wf : WellFormed env p) :
    (present (username (splitOf p)) || present (password (splitOf p))) = decide (HasCredentials p) := by
  rw [(credentials_split wf).1, (credentials_split wf).2]
  apply Bool.eq_iff_iff.mpr
  rw [Bool.or_eq_true, present_iff, present_iff, decide_eq_true_eq, HasCredentials]
  constructor
  · rintro (⟨y, h, hy⟩ | ⟨y, h, hy⟩)
    · cases hu : p.user with
      | none => rw [hu] at h; cases h
      | some x =>
        rw [hu] at h
        simp at h
        exact ⟨x.1, x.2, rfl, Or.inl (by rw [h]; exact hy)⟩
    · cases hu : p.user with
      | none => rw [hu] at h; cases h
      | some x =>
        rw [hu] at h
        simp at h
        exact ⟨x.1, x.2, rfl, Or.inr ⟨y, h, hy⟩⟩
  · rintro ⟨u, w, hu, h | ⟨x, h, hx⟩⟩
    · exact Or.inl ⟨u, by simp [hu], h⟩
    · exact Or.inr ⟨x, by simp [hu, h], hx⟩

theorem text_ne (wf : WellFormed env p) (h : HasCredentials p) : p.host.text ≠ [] := by
  obtain ⟨u, w, hu, _⟩ := h
  cases hh : p.host with
  | name x =>
    intro hx
    simp only [Host.text] at hx
    subst hx
    rw [(wf.hostless hh).1] at hu
    cases hu
  | literal x =>
    have := wf.host_good
    rw [hh] at this
    exact this.1

/-- The network location that `safe_urls` writes. -/
theorem safeNetloc_split (wf : WellFormed env p) :
    safeNetloc env (splitOf p) =
      .ok (if HasCredentials p then (lowerHost p.host).text ++ portText p.port else netlocText p) := by
  rw [safeNetloc, present_credentials wf]
  by_cases h : HasCredentials p
  · simp only [h, decide_true, ↓reduceIte, port_split wf, hostname_split wf, text_ne wf h]
    cases p.port with
    | none => simp [Except.bind, bind, portText, pure, Except.pure]
    | some n => simp [Except.bind, bind, portText, digits, pure, Except.pure]
  · simp only [h, decide_false, Bool.false_eq_true, ↓reduceIte]
    rfl

theorem safeUrl_render (wf : WellFormed env p) :
    safeUrl env (render p) = .ok (
      let n := if HasCredentials p then (lowerHost p.host).text ++ portText p.port else netlocText p
      addSlashes n (urlunsplit { splitOf p with netloc := n, path := withoutTrailing p.path })) := by
  rw [safeUrl, urlsplit_render wf]
  simp only [bind, Except.bind, safeNetloc_split wf, pure, Except.pure]
  rfl

/-! ## Paths -/

theorem dropWhile_reverse_prefix (s : Chars) : withoutTrailing s <+: s := by
  have h := List.dropWhile_suffix (fun c => decide (c = '/')) (l := s.reverse)
  have := List.reverse_prefix.mpr h
  simpa [withoutTrailing] using this

theorem trailing_start {s : Chars} (h : s = [] ∨ s.head? = some '/') :
    withoutTrailing s = [] ∨ (withoutTrailing s).head? = some '/' := by
  obtain ⟨t, ht⟩ := dropWhile_reverse_prefix s
  cases hw : withoutTrailing s with
  | nil => exact Or.inl rfl
  | cons c cs =>
    rw [hw] at ht
    rw [← ht] at h
    simpa using h

theorem trailing_single {s : Chars} (h : s.take 2 ≠ ['/', '/']) :
    (withoutTrailing s).take 2 ≠ ['/', '/'] := by
  intro hw
  obtain ⟨t, ht⟩ := dropWhile_reverse_prefix s
  apply h
  rw [← ht, List.take_append_of_le_length, hw]
  have := congrArg List.length hw
  simp at this
  omega

theorem segments_slash (t : Chars) : segments ('/' :: t) = segments t := by
  simp [segments, splitOn]

theorem asPosix_normal {path : Chars} (h1 : path.head? = some '/')
    (h2 : path.take 2 ≠ ['/', '/']) : asPosix path = normalPath path := by
  cases path with
  | nil => cases h1
  | cons c t =>
    simp at h1
    subst h1
    have hd : ('/' :: t).dropWhile (fun x => decide (x = '/')) = t := by
      cases t with
      | nil => rfl
      | cons d t =>
        have : d ≠ '/' := by rintro rfl; exact h2 rfl
        simp [this]
    have hl : ('/' :: t).length - t.length = 1 := by simp
    rw [normalPath, segments_slash]
    simp only [asPosix, hd, hl]
    simp [segments]

theorem asPosix_empty : asPosix [] = ['.'] := by decide

theorem normal_empty : normalPath [] = ['/'] := by decide

theorem urlPath_normal {path : Chars} (h1 : path = [] ∨ path.head? = some '/')
    (h2 : path.take 2 ≠ ['/', '/']) :
    asPosix (if path = [] then ['/'] else path) = normalPath path := by
  by_cases h : path = []
  · subst h; decide
  · simp only [h, ↓reduceIte]
    exact asPosix_normal (h1.resolve_left h) h2

theorem segments_mem {path s : Chars} (h : s ∈ segments path) :
    s ≠ [] ∧ s ≠ ['.'] ∧ ∀ c ∈ s, c ≠ '/' ∧ c ∈ path := by
  simp only [segments, List.mem_filter, decide_eq_true_eq] at h
  exact ⟨h.2.1, h.2.2, splitOn_mem path s h.1⟩

/-- The last character of joined segments is no separator. -/
theorem joinWith_last {ps : List Chars} (h : ∀ p ∈ ps, p ≠ [] ∧ ∀ c ∈ p, c ≠ '/') (hne : ps ≠ []) :
    ∃ a c, joinWith '/' ps = a ++ [c] ∧ c ≠ '/' := by
  induction ps with
  | nil => exact absurd rfl hne
  | cons p ps ih =>
    cases ps with
    | nil =>
      obtain ⟨hp, hc⟩ := h p (by simp)
      refine ⟨p.dropLast, p.getLast hp, ?_, hc _ (List.getLast_mem hp)⟩
      exact (List.dropLast_concat_getLast hp).symm
    | cons q qs =>
      obtain ⟨a, c, he, hc⟩ := ih (fun x hx => h x (by simp [hx])) (by simp)
      exact ⟨p ++ '/' :: a, c, by rw [joinWith, he]; simp; simp, hc⟩

theorem joinWith_head {ps : List Chars} (h : ∀ p ∈ ps, p ≠ [] ∧ ∀ c ∈ p, c ≠ '/') (hne : ps ≠ []) :
    ∃ c a, joinWith '/' ps = c :: a ∧ c ≠ '/' := by
  cases ps with
  | nil => exact absurd rfl hne
  | cons p ps =>
    obtain ⟨hp, hc⟩ := h p (by simp)
    cases p with
    | nil => exact absurd rfl hp
    | cons c p =>
      cases ps with
      | nil => exact ⟨c, p, rfl, hc c (by simp)⟩
      | cons q qs => exact ⟨c, _, by rw [joinWith]; rfl; simp, hc c (by simp)⟩

theorem segs_good (path : Chars) : ∀ s ∈ segments path, s ≠ [] ∧ ∀ c ∈ s, c ≠ '/' :=
  fun s hs => ⟨(segments_mem hs).1, fun c hc => ((segments_mem hs).2.2 c hc).1⟩

theorem trailing_normal (path : Chars) :
    withoutTrailing (normalPath path) = if segments path = [] then [] else normalPath path := by
  by_cases h : segments path = []
  · simp [normalPath, h, joinWith, withoutTrailing]
  · simp only [h, ↓reduceIte]
    obtain ⟨a, c, he, hc⟩ := joinWith_last (segs_good path) h
    rw [normalPath, he]
    simp [withoutTrailing, hc]

theorem normal_start (path : Chars) : (normalPath path).head? = some '/' := rfl

theorem normal_single (path : Chars) : (normalPath path).take 2 ≠ ['/', '/'] := by
  by_cases h : segments path = []
  · simp [normalPath, h, joinWith]
  · obtain ⟨c, a, he, hc⟩ := joinWith_head (segs_good path) h
    rw [normalPath, he]
    simp [hc]

theorem normal_mem {path : Chars} {c : Char} (h : c ∈ normalPath path) : c = '/' ∨ c ∈ path := by
  rcases List.mem_cons.mp h with h | h
  · exact Or.inl h
  · rcases joinWith_mem h with h | ⟨s, hs, hc⟩
    · exact Or.inl h
    · exact Or.inr ((segments_mem hs).2.2 c hc).2

/-- The segments of the normalised path are those of the path. -/
theorem segments_normal (path : Chars) : segments (normalPath path) = segments path := by
  rw [normalPath, segments_slash]
  by_cases h : segments path = []
  · rw [h]; rfl
  · rw [show segments (joinWith '/' (segments path)) =
      (splitOn '/' (joinWith '/' (segments path))).filter (fun s => s ≠ [] ∧ s ≠ ['.']) from rfl,
      splitOn_joinWith h (fun s hs c hc => ((segments_mem hs).2.2 c hc).1), List.filter_eq_self]
    intro s hs
    simp [(segments_mem hs).1, (segments_mem hs).2.1]

theorem splitOn_append_slash (s : Chars) : splitOn '/' (s ++ ['/']) = splitOn '/' s ++ [[]] := by
  induction s with
  | nil => rfl
  | cons c s ih =>
    simp only [List.cons_append, splitOn, ih]
    split
    · rfl
    · cases h : splitOn '/' s with
      | nil => exact absurd h (splitOn_ne _ _)
      | cons q qs => rfl

theorem segments_trailing (path : Chars) : segments (withoutTrailing path) = segments path := by
  have key : ∀ r : Chars, segments (r.dropWhile (fun c => decide (c = '/'))).reverse
      = segments r.reverse := by
    intro r
    induction r with
    | nil => rfl
    | cons c r ih =>
      by_cases hc : c = '/'
      · subst hc
        rw [show ('/' :: r).dropWhile (fun c => decide (c = '/'))
          = r.dropWhile (fun c => decide (c = '/')) by simp, ih, List.reverse_cons]
        simp [segments, splitOn_append_slash]
      · simp [hc]
  have := key path.reverse
  simpa [withoutTrailing] using this

theorem normal_trailing (path : Chars) : normalPath (withoutTrailing path) = normalPath path := by
  rw [normalPath, segments_trailing, normalPath]

/-! ## Matching -/

theorem stripPrefix_iff (a b : Chars) : (stripPrefix? a b).isSome = true ↔ a <+: b := by
  induction a generalizing b with
  | nil => simp [stripPrefix?]
  | cons c a ih =>
    cases b with
    | nil => simp [stripPrefix?]
    | cons d b =>
      simp only [stripPrefix?]
      split
      · rename_i h; subst h; simp [ih, List.cons_prefix_cons]
      · rename_i h; simp [List.cons_prefix_cons, h]

/-- The configured URL answers for the requested one: same server, and its path, unless it is
empty, is a prefix of the requested path. -/
def Answers (c u : Parts) : Prop :=
  SameServer c u ∧ c.path ≠ [] ∧ normalPath c.path <+: normalPath u.path

instance (c u : Parts) : Decidable (Answers c u) := inferInstanceAs (Decidable (_ ∧ _))

theorem lowerText_nil (h : Chars) : lowerText h = [] ↔ h = [] := by
  constructor
  · intro h'
    have := congrArg List.length h'
    simp only [lowerText, List.length_append, List.length_map, List.length_nil] at this
    have h2 := congrArg List.length (List.takeWhile_append_dropWhile (p := (fun c => decide (c ≠ '%'))) (l := h))
    simp only [List.length_append] at h2
    exact List.length_eq_zero_iff.mp (by omega)
  · rintro rfl; rfl

theorem hostname_eq {c u : Parts} (wc : WellFormed env c) (wu : WellFormed env u) :
    hostname env (splitOf c) = hostname env (splitOf u) ↔
      (lowerHost c.host).text = (lowerHost u.host).text := by
  rw [hostname_split wc, hostname_split wu, lowerHost_text, lowerHost_text]
  by_cases h1 : c.host.text = []
  · by_cases h2 : u.host.text = []
    · simp [h1, h2]
    · simp only [h1, ↓reduceIte, h2]
      constructor
      · intro h; cases h
      · intro h; exact absurd ((lowerText_nil _).mp h.symm) h2
  · by_cases h2 : u.host.text = []
    · simp only [h1, ↓reduceIte, h2]
      constructor
      · intro h; cases h
      · intro h; exact absurd ((lowerText_nil _).mp h) h1
    · simp [h1, h2]

theorem matchesConf_split {c u : Parts} (wc : WellFormed env c) (wu : WellFormed env u) :
    matchesConf env (splitOf c) (splitOf u) (normalPath u.path) = .ok (decide (Answers c u)) := by
  have hs : (splitOf c).scheme = (splitOf u).scheme ↔ c.scheme = u.scheme := Iff.rfl
  simp only [matchesConf, hostname_eq wc wu, port_split wc, port_split wu, hs]
  by_cases h1 : c.scheme = u.scheme
  · by_cases h2 : (lowerHost c.host).text = (lowerHost u.host).text
    · by_cases h3 : c.port = u.port
      · simp only [h1, h2, h3, ↓reduceIte, bind, Except.bind, pure, Except.pure]
        congr 1
        apply Bool.eq_iff_iff.mpr
        rw [stripPrefix_iff, decide_eq_true_eq, Answers, SameServer]
        simp only [h1, h2, h3, true_and, and_self]
        have hp : (splitOf c).path = c.path := rfl
        rw [hp]
        by_cases h4 : c.path = []
        · simp only [h4, asPosix_empty, ne_eq, not_true_eq_false, false_and, iff_false]
          rintro ⟨t, ht⟩
          simp [normalPath] at ht
        · simp [h4, asPosix_normal (wc.path_start.resolve_left h4) wc.path_single]
      · simp [h1, h2, h3, bind, Except.bind, pure, Except.pure, Answers, SameServer]
    · simp [h1, h2, pure, Except.pure, Answers, SameServer]
  · simp [h1, pure, Except.pure, Answers, SameServer]

theorem findConf_render {u : Parts} (wu : WellFormed env u) {cs : List Parts}
    (wcs : ∀ c ∈ cs, WellFormed env c) :
    findConf env (splitOf u) (normalPath u.path) (cs.map render) =
      .ok ((cs.find? (fun c => decide (Answers c u))).map
        (fun c => merge env (splitOf c) (splitOf u) (normalPath u.path))) := by
  induction cs with
  | nil => rfl
  | cons c cs ih =>
    have wc := wcs c (by simp)
    simp only [List.map_cons, findConf, urlsplit_render wc, bind, Except.bind,
      matchesConf_split wc wu, List.find?_cons]
    cases hm : decide (Answers c u) with
    | true => simp [pure, Except.pure]
    | false => simpa using ih (fun x hx => wcs x (by simp [hx]))

theorem unsafeUrl_render {u : Parts} (wu : WellFormed env u) {cs : List Parts}
    (wcs : ∀ c ∈ cs, WellFormed env c) (strict : Bool) :
    unsafeUrl env (cs.map render) (render u) strict =
      match cs.find? (fun c => decide (Answers c u)) with
      | some c => .ok (merge env (splitOf c) (splitOf u) (normalPath u.path))
      | .none => if strict then .error .valueError else .ok (render u) := by
  have hp : (splitOf u).path = u.path := rfl
  simp only [unsafeUrl, urlsplit_render wu, bind, Except.bind, hp,
    urlPath_normal wu.path_start wu.path_single, findConf_render wu wcs]
  cases cs.find? (fun c => decide (Answers c u)) <;> rfl

/-! ## The merged URL -/

/-- The merged query. -/
def mergedQuery (env : Env) (c u : Parts) : Chars :=
  urlencode (mergeQs (parseQs env c.query) (parseQs env u.query))

/-- What the merged URL says. -/
def merged (env : Env) (c u : Parts) : Parts where
  scheme := u.scheme
  user := c.user
  host := c.host
  port := c.port
  path := withoutTrailing (normalPath u.path)
  query := mergedQuery env c u
  fragment := if u.fragment = [] then c.fragment else u.fragment

theorem merged_query (env : Env) (c u : Parts) (name : Chars) :
    param (parseQs env (mergedQuery env c u)) name =
      (param (parseQs env u.query) name).or (param (parseQs env c.query) name) := by
  rw [mergedQuery, parseQs_urlencode env
    (proper_mergeQs (proper_parseQs env _) (proper_parseQs env _).2),
    param_mergeQs _ (proper_parseQs env _).1]

theorem written_or {c : Char} (h : Written c ∨ c = '=' ∨ c = '&') : c ≠ '#' ∧ Quiet c := by
  rcases h with h | rfl | rfl
  · exact ⟨written_ne h (by decide), written_ne h (by decide), written_ne h (by decide),
      written_ne h (by decide)⟩
  · decide
  · decide

theorem merged_wf {c u : Parts} (wc : WellFormed env c) (wu : WellFormed env u) :
    WellFormed env (merged env c u) where
  scheme_ne := wu.scheme_ne
  scheme_alpha := wu.scheme_alpha
  scheme_chars := wu.scheme_chars
  user_chars := wc.user_chars
  host_good := wc.host_good
  hostless := wc.hostless
  port_le := wc.port_le
  path_start := trailing_start (Or.inr (normal_start _))
  path_single := trailing_single (normal_single _)
  path_chars := by
    intro x hx
    have hx := (dropWhile_reverse_prefix _).subset hx
    rcases normal_mem hx with rfl | hx
    · decide
    · exact wu.path_chars x hx
  query_chars := fun x hx => written_or (urlencode_chars _ x hx)
  fragment_chars := by
    intro x hx
    simp only [merged] at hx
    split at hx
    · exact wc.fragment_chars x hx
    · exact wu.fragment_chars x hx

theorem netloc_nil {c : Parts} (h : netlocText c = []) : c.host = .name [] := by
  simp only [netlocText, List.append_eq_nil_iff] at h
  cases hh : c.host with
  | name x => rw [hh] at h; simp [hostText] at h; rw [h.1.2]
  | literal x => rw [hh] at h; simp [hostText] at h

theorem merge_render {c u : Parts} (wc : WellFormed env c) (wu : WellFormed env u)
    (hn : c.host ≠ .name [] ∨ usesNetloc.contains u.scheme = false) :
    merge env (splitOf c) (splitOf u) (normalPath u.path) = render (merged env c u) := by
  have w := merged_wf wc wu
  have hn' : netlocText (merged env c u) ≠ [] ∨ usesNetloc.contains (merged env c u).scheme = false :=
    hn.imp (fun h h' => h (netloc_nil h')) id
  rw [← written w.scheme_ne (scheme_no_colon w) w.path_start w.path_single hn']
  rfl

end Recap.Url
