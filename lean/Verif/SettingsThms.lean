import Verif.SettingsLemmas

/-!
# Properties of the configured URLs

C39 to C45.  A configured or requested URL is `render p` for well-formed parts `p`
(`SettingsSpec`), and every environment is covered.
-/

set_option autoImplicit false

namespace Recap.Url

open Spec

/-- An environment for the concrete cases. -/
def asciiEnv : Env where
  lower s := s.map Char.toLower
  lower_ascii _ _ := rfl
  netlocOk _ := true
  bracketOk _ := true
  repair _ := ['?']
  repair_ne _ := by simp

theorem regular_scheme {p : Parts} (ne : p.scheme ≠ []) (h : Regular p) :
    p.host ≠ .name [] ∨ usesNetloc.contains p.scheme = false := by
  refine h.imp id (fun h => ?_)
  apply Bool.eq_false_iff.mpr
  intro hc
  apply h
  rw [List.contains_eq_mem, decide_eq_true_eq] at hc
  obtain ⟨x, hx, he⟩ := List.mem_map.mp hc
  rw [← he, String.ofList_toList]
  have : x ∈ "" :: slashSchemes := hx
  rcases List.mem_cons.mp this with rfl | h'
  · exact absurd he.symm ne
  · exact h'

/-! ## Safe URLs -/

/-- **C39**: two configured URLs that differ in their credentials only are shown as the same URL. -/
theorem C39_credentials_hidden (env : Env) (p : Parts) (a b : Chars × Option Chars)
    (wa : WellFormed env { p with user := some a }) (wb : WellFormed env { p with user := some b })
    (ha : HasCredentials { p with user := some a }) (hb : HasCredentials { p with user := some b }) :
    safeUrl env (render { p with user := some a }) = safeUrl env (render { p with user := some b }) := by
  rw [safeUrl_render wa, safeUrl_render wb]
  simp only [ha, hb, ↓reduceIte]
  rfl

/-- **C39** for the whole list that `safe_urls` returns: two configurations that differ in
credentials only are shown alike. -/
theorem C39_list_hidden (env : Env) (ps : List (Parts × Parts))
    (h : ∀ x ∈ ps, WellFormed env x.1 ∧ WellFormed env x.2 ∧
      (x.1 = x.2 ∨ (HasCredentials x.1 ∧ HasCredentials x.2 ∧ x.2 = { x.1 with user := x.2.user }))) :
    safeUrls env (ps.map (fun x => render x.1)) = safeUrls env (ps.map (fun x => render x.2)) := by
  induction ps with
  | nil => rfl
  | cons x ps ih =>
    obtain ⟨p, q⟩ := x
    obtain ⟨wp, wq, h'⟩ := h (p, q) (by simp)
    have : safeUrl env (render p) = safeUrl env (render q) := by
      rcases h' with h' | ⟨hp, hq, he⟩
      · simp only at h'; rw [h']
      · simp only at hp hq he wp wq
        obtain ⟨u, w, hu, _⟩ := id hp
        obtain ⟨u', w', hu', _⟩ := id hq
        have e1 : p = { p with user := some (u, w) } := by rw [← hu]
        have e2 : q = { p with user := some (u', w') } := by rw [← hu', ← he]
        have := C39_credentials_hidden env p (u, w) (u', w') (e1 ▸ wp) (e2 ▸ wq) (e1 ▸ hp) (e2 ▸ hq)
        rw [← e1, ← e2] at this
        exact this
    have ih := ih (fun x hx => h x (by simp [hx]))
    simp only [safeUrls, List.map_cons, List.mapM_cons] at ih ⊢
    rw [this, ih]

theorem lowerHost_ne {h : Host} (hh : h ≠ .name []) : lowerHost h ≠ .name [] := by
  intro he
  have := congrArg Host.text he
  rw [lowerHost_text] at this
  cases h with
  | name x => exact hh (by rw [(lowerText_nil x).mp this])
  | literal x => cases he

/-- **C40** (partial): a configured URL is shown with its scheme, host, port, path, query and
fragment, up to the case of the host and slashes at the end of the path.  Missing: IPv6 hosts with
credentials and URLs of `slashSchemes` without a host, where it is false
(`C40_ipv6_refuted`, `C40_file_refuted`). -/
theorem C40_rest_kept_partial (env : Env) (p : Parts) (wf : WellFormed env p) (hr : Regular p)
    (hname : HasCredentials p → ∃ h, p.host = .name h) :
    safeUrl env (render p) = .ok (render
      (if HasCredentials p then
        { p with user := .none, host := lowerHost p.host, path := withoutTrailing p.path }
      else { p with path := withoutTrailing p.path })) := by
  rw [safeUrl_render wf]
  congr 1
  by_cases hc : HasCredentials p
  · simp only [hc, ↓reduceIte]
    obtain ⟨h, hh⟩ := hname hc
    have e : (lowerHost p.host).text ++ portText p.port =
        netlocText { p with user := .none, host := lowerHost p.host, path := withoutTrailing p.path } := by
      simp [netlocText, userText, hh, lowerHost, hostText, Host.text]
    rw [e]
    have hne : netlocText { p with user := .none, host := lowerHost p.host, path := withoutTrailing p.path }
        ≠ [] := by
      intro hn
      have := netloc_nil hn
      refine lowerHost_ne (h := p.host) ?_ this
      intro hh'
      have := text_ne wf hc
      rw [hh'] at this
      exact this rfl
    exact written wf.scheme_ne (scheme_no_colon (p := p) wf) (trailing_start wf.path_start)
      (trailing_single wf.path_single) (Or.inl hne)
  · simp only [hc, ↓reduceIte]
    have := written (p := { p with path := withoutTrailing p.path }) wf.scheme_ne
      (scheme_no_colon (p := p) wf) (trailing_start wf.path_start) (trailing_single wf.path_single)
      ((regular_scheme wf.scheme_ne hr).imp (fun h h' => h (netloc_nil h')) id)
    exact this

/-- A PostgreSQL URL with everything in it. -/
def fullUrl : Parts where
  scheme := "postgresql".toList
  user := some ("scott".toList, some "ti:g@er".toList)
  host := .name "Db.example.com".toList
  port := some 5432
  path := "/sales/".toList
  query := "sslmode=require".toList
  fragment := "top".toList

theorem fullUrl_wf : WellFormed asciiEnv fullUrl := by
  constructor <;> decide +kernel

example : render fullUrl =
    "postgresql://scott:ti:g@er@Db.example.com:5432/sales/?sslmode=require#top".toList := by
  decide +kernel

/-- The hypotheses of C39 and C40 are met, and this is what is shown. -/
example : HasCredentials fullUrl ∧ Regular fullUrl ∧
    safeUrl asciiEnv (render fullUrl) =
      .ok "postgresql://db.example.com:5432/sales?sslmode=require#top".toList := by
  refine ⟨by decide +kernel, by decide +kernel, by decide +kernel⟩

/-- The brackets around an IPv6 address are dropped with the credentials, so that the URL shown has
another host. -/
theorem C40_ipv6_refuted :
    ∃ p : Parts, WellFormed asciiEnv p ∧ Regular p ∧
      render p = "mysql://root:secret@[::1]:3306/shop".toList ∧
      safeUrl asciiEnv (render p) = .ok "mysql://::1:3306/shop".toList := by
  refine ⟨⟨"mysql".toList, some ("root".toList, some "secret".toList), .literal "::1".toList,
    some 3306, "/shop".toList, [], []⟩, ?_, ?_, ?_, ?_⟩
  · constructor <;> decide +kernel
  · decide +kernel
  · decide +kernel
  · decide +kernel

/-- A file URL is shown with extra slashes. -/
theorem C40_file_refuted :
    ∃ p : Parts, WellFormed asciiEnv p ∧ render p = "file:///data".toList ∧
      safeUrl asciiEnv (render p) = .ok "file://///data".toList := by
  refine ⟨{ scheme := "file".toList, host := .name [], path := "/data".toList }, ?_, ?_, ?_⟩
  · constructor <;> decide +kernel
  · decide +kernel
  · decide +kernel

/-! ## Unsafe URLs -/

theorem answers_covers {c u : Parts} (h : c.path ≠ []) : Answers c u ↔ Covers c u := by
  simp [Answers, Covers, h]

theorem find_first {cs : List Parts} {c u : Parts} (hp : ∀ c ∈ cs, c.path ≠ [])
    (h : FirstCovers cs c u) : cs.find? (fun c => decide (Answers c u)) = some c := by
  obtain ⟨before, after, rfl, hc, hb⟩ := h
  rw [List.find?_append, List.find?_eq_none.mpr, List.find?_cons_of_pos]
  · rfl
  · simpa using (answers_covers (hp c (by simp))).mpr hc
  · intro b hbm
    simpa using fun ha => hb b hbm ((answers_covers (hp b (by simp [hbm]))).mp ha)

/-- **C41** and **C45** (partial): `unsafe_url` returns the requested URL with the host and the
credentials of the first configured URL that covers it; every query parameter has the requested
value if there is one, and the configured value otherwise.  The path is normalised and loses its
trailing slash; the configured fragment is used when the request has none.  Missing: configured
URLs with an empty path, where it is false (`C41_empty_path_refuted`), and those of `slashSchemes`
without a host (`C41_file_refuted`); parameters without a value are dropped
(`C45_blank_refuted`). -/
theorem C41_first_match_partial (env : Env) (cs : List Parts) (u c : Parts) (strict : Bool)
    (wcs : ∀ c ∈ cs, WellFormed env c) (wu : WellFormed env u) (hp : ∀ c ∈ cs, c.path ≠ [])
    (hr : ∀ c ∈ cs, Regular c) (hf : FirstCovers cs c u) :
    ∃ q, unsafeUrl env (cs.map render) (render u) strict = .ok (render
        { u with
          user := c.user
          host := c.host
          path := if segments u.path = [] then [] else normalPath u.path
          query := q
          fragment := if u.fragment = [] then c.fragment else u.fragment }) ∧
      ∀ name, param (parseQs env q) name =
        (param (parseQs env u.query) name).or (param (parseQs env c.query) name) := by
  refine ⟨mergedQuery env c u, ?_, merged_query env c u⟩
  obtain ⟨before, after, hcs, hc, hb⟩ := id hf
  have hm : c ∈ cs := by rw [hcs]; simp
  have hs : c.scheme = u.scheme := hc.1.1
  have hport : c.port = u.port := hc.1.2.2
  have hn : c.host ≠ .name [] ∨ usesNetloc.contains u.scheme = false := by
    rw [← hs]; exact regular_scheme (wcs c hm).scheme_ne (hr c hm)
  rw [unsafeUrl_render wu wcs, find_first hp hf]
  simp only [merge_render (wcs c hm) wu hn]
  congr 1
  rw [merged, trailing_normal, hport]

/-- **C42**: when no configured URL covers the request, strict mode refuses it and the other mode
returns it unchanged. -/
theorem C42_uncovered (env : Env) (cs : List Parts) (u : Parts) (wcs : ∀ c ∈ cs, WellFormed env c)
    (wu : WellFormed env u) (h : ∀ c ∈ cs, ¬ Covers c u) :
    unsafeUrl env (cs.map render) (render u) true = .error .valueError ∧
    unsafeUrl env (cs.map render) (render u) false = .ok (render u) := by
  have : cs.find? (fun c => decide (Answers c u)) = .none := by
    rw [List.find?_eq_none]
    intro c hc
    simpa using fun ha : Answers c u => h c hc ⟨ha.1, ha.2.2⟩
  rw [unsafeUrl_render wu wcs, unsafeUrl_render wu wcs, this]
  exact ⟨rfl, rfl⟩

theorem matchesConf_true {env : Env} {c s : Split} {path : Chars}
    (h : matchesConf env c s path = .ok true) :
    c.scheme = s.scheme ∧ hostname env c = hostname env s ∧
      (∃ p, port c = .ok p ∧ port s = .ok p) ∧ asPosix c.path <+: path := by
  simp only [matchesConf] at h
  split at h
  · split at h
    · cases h1 : port c with
      | error e => rw [h1] at h; cases h
      | ok p =>
        cases h2 : port s with
        | error e => rw [h1, h2] at h; cases h
        | ok p' =>
          rw [h1, h2] at h
          simp only [bind, Except.bind] at h
          split at h
          · rename_i e1 e2 e3
            subst e3
            refine ⟨e1, e2, ⟨p, rfl, rfl⟩, ?_⟩
            rw [← stripPrefix_iff]
            exact Except.ok.inj h
          · cases h
    · cases h
  · cases h

theorem findConf_some {env : Env} {s : Split} {path : Chars} {urls : List Chars} {r : Chars}
    (h : findConf env s path urls = .ok (some r)) :
    ∃ url ∈ urls, ∃ c, urlsplit env url = .ok c ∧ matchesConf env c s path = .ok true ∧
      r = merge env c s path := by
  induction urls with
  | nil => cases h
  | cons v vs ih =>
    simp only [findConf, bind, Except.bind] at h
    cases h1 : urlsplit env v with
    | error e => rw [h1] at h; cases h
    | ok c =>
      rw [h1] at h
      simp only at h
      cases h2 : matchesConf env c s path with
      | error e => rw [h2] at h; cases h
      | ok m =>
        rw [h2] at h
        cases m with
        | true => cases h; exact ⟨v, by simp, c, h1, h2, rfl⟩
        | false =>
          obtain ⟨w, hw, rest⟩ := ih h
          exact ⟨w, by simp [hw], rest⟩

/-- **C42** for any texts at all: whatever strict mode lets pass names the scheme, host and port of
a configured URL. -/
theorem C42_strict_server (env : Env) (urls : List Chars) (url r : Chars)
    (h : unsafeUrl env urls url true = .ok r) :
    ∃ conf ∈ urls, ∃ c s, urlsplit env conf = .ok c ∧ urlsplit env url = .ok s ∧
      c.scheme = s.scheme ∧ hostname env c = hostname env s ∧ port c = port s := by
  simp only [unsafeUrl, bind, Except.bind] at h
  cases h1 : urlsplit env url with
  | error e => rw [h1] at h; cases h
  | ok s =>
    rw [h1] at h
    simp only at h
    cases h2 : findConf env s (asPosix (if s.path = [] then ['/'] else s.path)) urls with
    | error e => rw [h2] at h; cases h
    | ok o =>
      rw [h2] at h
      cases o with
      | none => cases h
      | some m =>
        obtain ⟨v, hv, c, hc, hm, _⟩ := findConf_some h2
        obtain ⟨e1, e2, ⟨p, e3, e4⟩, _⟩ := matchesConf_true hm
        exact ⟨v, hv, c, s, hc, rfl, e1, e2, by rw [e3, e4]⟩

/-! ### Concrete cases -/

def confShop : Parts where
  scheme := "mysql".toList
  user := some ("root".toList, some "secret".toList)
  host := .name "db".toList
  port := some 3306
  path := "/shop".toList
  query := "ssl=1&charset=utf8".toList

def confAll : Parts := { confShop with path := "/".toList, user := some ("guest".toList, .none) }

def request : Parts where
  scheme := "mysql".toList
  host := .name "DB".toList
  port := some 3306
  path := "/shop/./items/".toList
  query := "charset=latin1&charset=a%26b".toList

theorem confShop_wf : WellFormed asciiEnv confShop := by constructor <;> decide +kernel
theorem confAll_wf : WellFormed asciiEnv confAll := by constructor <;> decide +kernel
theorem request_wf : WellFormed asciiEnv request := by constructor <;> decide +kernel

/-- The hypotheses of C41 are met, and this is the URL returned. -/
example : FirstCovers [confShop, confAll] confShop request ∧
    unsafeUrl asciiEnv ([confShop, confAll].map render) (render request) true =
      .ok "mysql://root:secret@db:3306/shop/items?ssl=1&charset=latin1&charset=a%26b".toList := by
  refine ⟨⟨[], [confAll], rfl, by decide +kernel, by simp⟩, by decide +kernel⟩

/-- The second URL answers for paths that the first does not cover. -/
example : FirstCovers [confShop, confAll] confAll { request with path := "/other".toList } := by
  refine ⟨[confShop], [], rfl, by decide +kernel, ?_⟩
  intro b hb; rw [List.mem_singleton.mp hb]; decide +kernel

/-- The hypotheses of C42 are met. -/
example : ∀ c ∈ [confShop], ¬ Covers c { request with path := "/other".toList } := by
  intro c hc; rw [List.mem_singleton.mp hc]; decide +kernel

/-- A configured URL without a path does not answer for anything, although every path continues
it. -/
theorem C41_empty_path_refuted :
    ∃ c u : Parts, WellFormed asciiEnv c ∧ WellFormed asciiEnv u ∧ FirstCovers [c] c u ∧
      render c = "mysql://root:secret@db".toList ∧ render u = "mysql://db/shop".toList ∧
      unsafeUrl asciiEnv [render c] (render u) false = .ok (render u) ∧
      unsafeUrl asciiEnv [render c] (render u) true = .error .valueError := by
  refine ⟨⟨"mysql".toList, some ("root".toList, some "secret".toList), .name "db".toList, .none, [],
      [], []⟩,
    { scheme := "mysql".toList, host := .name "db".toList, path := "/shop".toList },
    by constructor <;> decide +kernel, by constructor <;> decide +kernel,
    ⟨[], [], rfl, by decide +kernel, by simp⟩, ?_, ?_, ?_, ?_⟩ <;> decide +kernel

/-- For a file URL the merged URL has extra slashes. -/
theorem C41_file_refuted :
    ∃ c u : Parts, WellFormed asciiEnv c ∧ WellFormed asciiEnv u ∧ FirstCovers [c] c u ∧
      render u = "file:///data/a.json".toList ∧
      unsafeUrl asciiEnv [render c] (render u) true = .ok "file://///data/a.json".toList := by
  refine ⟨{ scheme := "file".toList, host := .name [], path := "/data".toList },
    { scheme := "file".toList, host := .name [], path := "/data/a.json".toList },
    by constructor <;> decide +kernel, by constructor <;> decide +kernel,
    ⟨[], [], rfl, by decide +kernel, by simp⟩, ?_, ?_⟩ <;> decide +kernel

/-- **C43** (partial): credentials are added only when the text of the configured path is a prefix
of that of the requested path.  Missing: that the prefix ends at a slash, which is false
(`C43_sibling_refuted`). -/
theorem C43_prefix_partial (env : Env) (cs : List Parts) (u : Parts) (strict : Bool) (r : Chars)
    (wcs : ∀ c ∈ cs, WellFormed env c) (wu : WellFormed env u)
    (h : unsafeUrl env (cs.map render) (render u) strict = .ok r) (hr : r ≠ render u) :
    ∃ c ∈ cs, SameServer c u ∧ normalPath c.path <+: normalPath u.path ∧
      (Regular c → ∃ q f, r = render { u with
        user := c.user, host := c.host, query := q, fragment := f
        path := if segments u.path = [] then [] else normalPath u.path }) := by
  rw [unsafeUrl_render wu wcs] at h
  cases hf : cs.find? (fun c => decide (Answers c u)) with
  | none =>
    rw [hf] at h
    cases strict
    · cases h; exact absurd rfl hr
    · cases h
  | some c =>
    rw [hf] at h
    have hm := List.mem_of_find?_eq_some hf
    have ha : Answers c u := by simpa using List.find?_some hf
    refine ⟨c, hm, ha.1, ha.2.2, fun hreg => ?_⟩
    have hn : c.host ≠ .name [] ∨ usesNetloc.contains u.scheme = false := by
      rw [← ha.1.1]; exact regular_scheme (wcs c hm).scheme_ne hreg
    simp only [merge_render (wcs c hm) wu hn] at h
    refine ⟨mergedQuery env c u, if u.fragment = [] then c.fragment else u.fragment, ?_⟩
    cases h
    rw [merged, trailing_normal, ha.1.2.2]

/-- The credentials for `/data` are added to a URL for `/database`. -/
theorem C43_sibling_refuted :
    ∃ c u : Parts, WellFormed asciiEnv c ∧ WellFormed asciiEnv u ∧
      render c = "mysql://root:secret@db/data".toList ∧ render u = "mysql://db/database".toList ∧
      unsafeUrl asciiEnv [render c] (render u) true = .ok "mysql://root:secret@db/database".toList := by
  refine ⟨⟨"mysql".toList, some ("root".toList, some "secret".toList), .name "db".toList, .none,
      "/data".toList, [], []⟩,
    { scheme := "mysql".toList, host := .name "db".toList, path := "/database".toList },
    by constructor <;> decide +kernel, by constructor <;> decide +kernel, ?_, ?_, ?_⟩ <;>
    decide +kernel

/-! ## Using what is shown -/

theorem toLower_net {c : Char} (h : NetChar c ∧ c ≠ '@' ∧ c ≠ ':') :
    NetChar c.toLower ∧ c.toLower ≠ '@' ∧ c.toLower ≠ ':' := by
  have key : ∀ n < 128, (NetChar (Char.ofNat n) ∧ Char.ofNat n ≠ '@' ∧ Char.ofNat n ≠ ':') →
      NetChar (Char.ofNat n).toLower ∧ (Char.ofNat n).toLower ≠ '@' ∧ (Char.ofNat n).toLower ≠ ':' := by
    decide +kernel
  have := key c.toNat h.1.1
  rw [Char.ofNat_toNat] at this
  exact this h

theorem toLower_idem {c : Char} (h : c.toNat < 128) : c.toLower.toLower = c.toLower := by
  have key : ∀ n < 128, (Char.ofNat n).toLower.toLower = (Char.ofNat n).toLower := by decide +kernel
  have := key c.toNat h
  rwa [Char.ofNat_toNat] at this

theorem toLower_percent {c : Char} (h : c.toNat < 128) : c.toLower = '%' ↔ c = '%' := by
  have key : ∀ n < 128, (Char.ofNat n).toLower = '%' ↔ Char.ofNat n = '%' := by decide +kernel
  have := key c.toNat h
  rwa [Char.ofNat_toNat] at this

theorem lowerText_idem {h : Chars} (ha : ∀ c ∈ h, c.toNat < 128) : lowerText (lowerText h) = lowerText h := by
  induction h with
  | nil => rfl
  | cons c h ih =>
    have hc := ha c (by simp)
    by_cases hp : c = '%'
    · subst hp; simp [lowerText]
    · have e : lowerText (c :: h) = c.toLower :: lowerText h := by simp [lowerText, hp]
      have hp' : c.toLower ≠ '%' := fun he => hp ((toLower_percent hc).mp he)
      have e' : ∀ t, lowerText (c.toLower :: t) = c.toLower.toLower :: lowerText t := by
        intro t; simp [lowerText, hp']
      rw [e, e', toLower_idem hc, ih (fun x hx => ha x (by simp [hx]))]

theorem lowerText_net {h : Chars} (hn : ∀ c ∈ h, NetChar c ∧ c ≠ '@' ∧ c ≠ ':') :
    ∀ c ∈ lowerText h, NetChar c ∧ c ≠ '@' ∧ c ≠ ':' := by
  intro c hc
  simp only [lowerText, List.mem_append, List.mem_map] at hc
  rcases hc with ⟨d, hd, rfl⟩ | hc
  · exact toLower_net (hn d ((List.takeWhile_sublist _).subset hd))
  · exact hn c ((List.dropWhile_sublist _).subset hc)

/-- The parts that `safe_urls` shows. -/
def shown (p : Parts) : Parts :=
  if HasCredentials p then
    { p with user := .none, host := lowerHost p.host, path := withoutTrailing p.path }
  else { p with path := withoutTrailing p.path }

theorem shown_wf {env : Env} {p : Parts} (wf : WellFormed env p)
    (hname : HasCredentials p → ∃ h, p.host = .name h) : WellFormed env (shown p) := by
  have hpc : ∀ c ∈ withoutTrailing p.path, c ≠ '?' ∧ c ≠ '#' ∧ Quiet c :=
    fun c hc => wf.path_chars c ((dropWhile_reverse_prefix _).subset hc)
  rw [shown]
  split
  · rename_i hc
    obtain ⟨h, hh⟩ := hname hc
    have hg := wf.host_good
    rw [hh] at hg
    refine ⟨wf.scheme_ne, wf.scheme_alpha, wf.scheme_chars, by simp, ?_, ?_, wf.port_le,
      trailing_start wf.path_start, trailing_single wf.path_single, hpc, wf.query_chars,
      wf.fragment_chars⟩
    · show (lowerHost p.host).Good env
      rw [hh]
      exact lowerText_net hg
    · intro he
      exfalso
      refine lowerHost_ne (h := p.host) ?_ he
      intro hh'
      exact text_ne wf hc (by rw [hh']; rfl)
  · exact ⟨wf.scheme_ne, wf.scheme_alpha, wf.scheme_chars, wf.user_chars, wf.host_good, wf.hostless,
      wf.port_le, trailing_start wf.path_start, trailing_single wf.path_single, hpc, wf.query_chars,
      wf.fragment_chars⟩

/-- **C44** (partial): the URL that `safe_urls` shows for a configured URL is accepted in strict
mode, whatever else is configured.  Missing: configured URLs with an empty path, IPv6 hosts with
credentials, and `slashSchemes` without a host; the first is refuted by
`C44_empty_path_refuted`. -/
theorem C44_shown_usable_partial (env : Env) (cs : List Parts) (c : Parts) (hc : c ∈ cs)
    (wcs : ∀ c ∈ cs, WellFormed env c) (hp : c.path ≠ []) (hr : Regular c)
    (hname : HasCredentials c → ∃ h, c.host = .name h) :
    ∃ s r, safeUrl env (render c) = .ok s ∧ unsafeUrl env (cs.map render) s true = .ok r := by
  have wf := wcs c hc
  have ws := shown_wf wf hname
  refine ⟨render (shown c), ?_⟩
  rw [C40_rest_kept_partial env c wf hr hname, unsafeUrl_render ws wcs]
  have ha : Answers c (shown c) := by
    have e1 : (shown c).scheme = c.scheme := by rw [shown]; split <;> rfl
    have e2 : (shown c).port = c.port := by rw [shown]; split <;> rfl
    have e3 : (shown c).path = withoutTrailing c.path := by rw [shown]; split <;> rfl
    refine ⟨⟨e1.symm, ?_, e2.symm⟩, hp, ?_⟩
    · rw [shown]
      split
      · rw [lowerHost_text, lowerHost_text, lowerHost_text]
        exact (lowerText_idem (fun x hx => (host_net wf x hx).1)).symm
      · rfl
    · rw [e3, normal_trailing]
      exact List.prefix_refl _
  cases hf : cs.find? (fun x => decide (Answers x (shown c))) with
  | none =>
    rw [List.find?_eq_none] at hf
    exact absurd ha (by simpa using hf c hc)
  | some d => exact ⟨_, rfl, rfl⟩

/-- A configured URL without a path cannot be used in strict mode, not even as it is shown. -/
theorem C44_empty_path_refuted :
    ∃ c : Parts, WellFormed asciiEnv c ∧ Regular c ∧ render c = "bigquery://".toList ∧
      safeUrl asciiEnv (render c) = .ok (render c) ∧
      unsafeUrl asciiEnv [render c] (render c) true = .error .valueError := by
  refine ⟨{ scheme := "bigquery".toList, host := .name [] }, by constructor <;> decide +kernel,
    ?_, ?_, ?_, ?_⟩ <;> decide +kernel

/-- The hypotheses of C44 are met by the URL above. -/
example : fullUrl.path ≠ [] ∧ Regular fullUrl ∧ (∃ h, fullUrl.host = .name h) ∧
    unsafeUrl asciiEnv [render fullUrl]
      "postgresql://db.example.com:5432/sales?sslmode=require#top".toList true =
      .ok "postgresql://scott:ti:g@er@Db.example.com:5432/sales?sslmode=require#top".toList := by
  refine ⟨by decide, by decide +kernel, ⟨_, rfl⟩, by decide +kernel⟩

/-! ## Queries -/

/-- **C45** (partial): see `C41_first_match_partial`; here for one configured URL that covers the
request, with the URL returned read back. -/
theorem C45_request_wins_partial (env : Env) (c u : Parts) (wc : WellFormed env c)
    (wu : WellFormed env u) (hp : c.path ≠ []) (hr : Regular c) (hcov : Covers c u) :
    ∃ r s, unsafeUrl env [render c] (render u) true = .ok r ∧ urlsplit env r = .ok s ∧
      ∀ name, param (parseQs env s.query) name =
        (param (parseQs env u.query) name).or (param (parseQs env c.query) name) := by
  have hn : c.host ≠ .name [] ∨ usesNetloc.contains u.scheme = false := by
    rw [← hcov.1.1]; exact regular_scheme wc.scheme_ne hr
  have hf : [c].find? (fun c => decide (Answers c u)) = some c :=
    find_first (by simpa using hp) ⟨[], [], rfl, hcov, by simp⟩
  have h := unsafeUrl_render wu (cs := [c]) (by simpa using wc) true
  rw [hf] at h
  simp only [merge_render wc wu hn] at h
  exact ⟨_, _, h, urlsplit_render (merged_wf wc wu), merged_query env c u⟩

/-- A parameter without a value, or with an empty one, is dropped, and the configured value is used
in its place. -/
theorem C45_blank_refuted :
    unsafeUrl asciiEnv ["http://u:p@h/?verify=yes".toList] "http://h/?verify=&debug".toList true =
      .ok "http://u:p@h?verify=yes".toList := by
  decide +kernel

end Recap.Url
