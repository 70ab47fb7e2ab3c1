import Verif.FilesThms

/-!
# C153 with configured URLs

Which files are read if URLs with the scheme `file` are configured.  The specification is in `FilesSpec.lean`.
-/

set_option autoImplicit false

namespace Recap.Files

open Recap.Url Recap.Url.Spec Recap.Clients Recap.Clients.Spec

variable {env : Env}

/-- The URL of the root of the file system, in one of its forms, as `file:///` or `file:///.`. -/
def IsRoot (c : Parts) : Prop :=
  c.scheme = "file".toList ∧ c.host = .name [] ∧ c.path ≠ [] ∧ segments c.path = []

/-- The configured URLs of files have neither parameters nor fragments. -/
def Bare (cs : List Parts) : Prop := ∀ c ∈ cs, c.scheme = "file".toList → c.query = [] ∧ c.fragment = []

theorem host_empty {c : Parts} (wc : Url.Spec.WellFormed env c) (h : (lowerHost c.host).text = []) : c.host = .name [] := by
  have key : ∀ s : Chars, (s.takeWhile (· ≠ '%')).map Char.toLower ++ s.dropWhile (· ≠ '%') = [] → s = [] := by
    intro s hs
    obtain ⟨h1, h2⟩ := List.append_eq_nil_iff.mp hs
    rw [← List.takeWhile_append_dropWhile (p := (· ≠ '%')) (l := s), List.map_eq_nil_iff.mp h1, h2]
    rfl
  have := wc.host_good
  cases hh : c.host with
  | name s =>
    rw [hh] at h
    rw [key s h]
  | literal s =>
    rw [hh] at h this
    exact absurd (key s h) this.1

/-- Only the root of the file system covers the connection of the client for files. -/
theorem chosen_root {cs : List Parts} {c : Parts} (wcs : ∀ c ∈ cs, Url.Spec.WellFormed env c)
    (h : chosen cs fileRoot = some c) : c ∈ cs ∧ IsRoot c := by
  obtain ⟨hm, hne, ⟨e1, e2, e3⟩, hp⟩ := chosen_some h
  refine ⟨hm, e1, host_empty (wcs c hm) (e2.trans rfl), hne, ?_⟩
  have hp' : normalPath c.path <+: ['/'] := hp
  by_cases hsg : segments c.path = []
  · exact hsg
  · obtain ⟨x, a, he, hx⟩ := joinWith_head (segs_good c.path) hsg
    have := hp'.length_le
    rw [normalPath, he] at this
    simp at this

theorem covers_root {c : Parts} (wc : Url.Spec.WellFormed env c) (h : IsRoot c) : Covers c fileRoot := by
  obtain ⟨h1, h2, -, h4⟩ := h
  refine ⟨⟨h1, by rw [h2]; rfl, (wc.hostless h2).2⟩, ?_⟩
  rw [normalPath, h4]
  exact ⟨_, rfl⟩

theorem chosen_some_of {cs : List Parts} {c : Parts} (wcs : ∀ c ∈ cs, Url.Spec.WellFormed env c) (hm : c ∈ cs)
    (h : IsRoot c) : ∃ c', chosen cs fileRoot = some c' := by
  cases e : chosen cs fileRoot with
  | some c' => exact ⟨c', rfl⟩
  | none =>
    unfold chosen at e
    have := List.find?_eq_none.mp e _ hm
    exact absurd (decide_eq_true ⟨h.2.2.1, covers_root (wcs c hm) h⟩) this

theorem merge_bare {c : Parts} (wc : Url.Spec.WellFormed env c) (h : IsRoot c) (hq : c.query = []) (hf : c.fragment = []) :
    merge env (splitOf c) (splitOf fileRoot) (normalPath fileRoot.path) = "file:////".toList := by
  rw [← merge_slash (env := env)]
  have hn : netlocText c = [] := by
    obtain ⟨h1, h2⟩ := wc.hostless h.2.1
    simp [netlocText, h.2.1, h1, h2, userText, hostText, portText]
  have hn' : netlocText rootUrl = [] := by decide
  simp only [merge, splitOf, hq, hf, hn, hn']
  rfl

/-- The connection: with or without configured URLs it is one to the file system. -/
theorem connected {cs : List Parts} (wcs : ∀ c ∈ cs, Url.Spec.WellFormed env c) (hb : Bare cs) {strict : Bool}
    (hs : strict = true → ∃ c ∈ cs, IsRoot c) :
    ∃ conn, unsafeUrl env (cs.map render) (render fileRoot) strict = .ok conn ∧
      ∀ mysqlArgs, createClient env mysqlArgs conn = .ok (.filesystem, [("scheme", .str "file")]) := by
  rw [unsafeUrl_render (fileRoot_wf env) wcs, chosen_answers]
  cases h : chosen cs fileRoot with
  | some c =>
    obtain ⟨hm, hr⟩ := chosen_root wcs h
    obtain ⟨h1, h2⟩ := hb c hm hr.1
    exact ⟨_, congrArg Except.ok (merge_bare (wcs c hm) hr h1 h2), create_slash⟩
  | none =>
    cases strict with
    | false => exact ⟨_, rfl, create_root⟩
    | true =>
      obtain ⟨c, hm, hr⟩ := hs rfl
      obtain ⟨c', h'⟩ := chosen_some_of wcs hm hr
      rw [h] at h'
      cases h'

/-- **C153** for paths, whatever is configured (partial): the file at the path is read, in strict mode if the root of the file
system is configured.  Missing: as in `C153_paths_partial`, and configured URLs of files with parameters. -/
theorem C153_configured_partial (mysqlArgs : List String) (cs : List Parts) (path : Chars) (f : FileFormat) (strict : Bool)
    (wcs : ∀ c ∈ cs, Url.Spec.WellFormed env c) (hb : Bare cs) (hs : strict = true → ∃ c ∈ cs, IsRoot c) (hp : Ordinary path)
    (hf : HasFormat path f) : ReadsFile (reading env mysqlArgs (cs.map render) path strict) (place path) f := by
  obtain ⟨conn, h1, h2⟩ := connected wcs hb hs
  refine ⟨_, ?_, segments_given hp.start⟩
  simp only [reading, parse_path hp, h1, Except.map, bind, Except.bind, h2, schemaOf, text,
    String.toList_ofList, formatOf_has (hasFormat_place (segments_given hp.start) hf), pure, Except.pure]

/-- **C153** for URLs, whatever is configured (partial): the file that the URL names is read, in strict mode if the root of the
file system is configured. -/
theorem C153_configured_urls_partial (mysqlArgs : List String) (cs : List Parts) (u : Parts) (f : FileFormat)
    (at_ : Bool × List Chars) (strict : Bool) (wcs : ∀ c ∈ cs, Url.Spec.WellFormed env c) (hb : Bare cs)
    (hs : strict = true → ∃ c ∈ cs, IsRoot c) (wu : Url.Spec.WellFormed env u) (hn : UrlNames env u at_) (hh : u.host = .name [])
    (hq : Silent env fileReserved u.query) (hpc : '%' ∉ u.path) (hf : HasFormat u.path f) :
    ReadsFile (reading env mysqlArgs (cs.map render) (render u) strict) at_ f := by
  obtain ⟨p, h, h'⟩ := C153_urls_partial mysqlArgs [] u f at_ (by simp) (by simp) wu hn hh hq hpc hf
  refine ⟨p, ?_, h'⟩
  obtain ⟨conn, h1, h2⟩ := connected wcs hb hs
  have h0 : unsafeUrl env (([] : List Parts).map render) (render fileRoot) false = .ok (render fileRoot) :=
    unsafe_root (by simp) (by simp)
  rw [← h]
  simp only [reading, parse_file wu hn.1 hq, h0, h1, Except.map, bind, Except.bind, create_root, h2]

/-- In strict mode no file is read by its path if the root of the file system is not configured. -/
theorem C153_refused (mysqlArgs : List String) (cs : List Parts) (path : Chars)
    (wcs : ∀ c ∈ cs, Url.Spec.WellFormed env c) (hs : ∀ c ∈ cs, ¬IsRoot c) (hp : Ordinary path) :
    reading env mysqlArgs (cs.map render) path true = .error .valueError := by
  have : unsafeUrl env (cs.map render) (render fileRoot) true = .error .valueError := by
    rw [unsafeUrl_render (fileRoot_wf env) wcs, chosen_answers]
    cases h : chosen cs fileRoot with
    | none => rfl
    | some c => exact absurd (chosen_root wcs h).2 (hs c (chosen_root wcs h).1)
  simp only [reading, parse_path hp, this, Except.map, bind, Except.bind]

/-- **C153 does not hold: configured parameters.**  A parameter of the configured root that is named like a part of a URL replaces
it, so that no file is read by its path any more. -/
theorem C153_parameters_refuted (mysqlArgs : List String) (path : Chars) (strict : Bool) (hp : Ordinary path) :
    reading asciiEnv mysqlArgs ["file:///?scheme=s3".toList] path strict = .error .valueError := by
  have h1 : unsafeUrl asciiEnv ["file:///?scheme=s3".toList] (render fileRoot) strict = .ok "file:////?scheme=s3".toList := by
    cases strict <;> decide +kernel
  have h2 : createClient asciiEnv mysqlArgs "file:////?scheme=s3".toList = .error .valueError := by
    unfold createClient
    rfl
  simp only [reading, parse_path hp, h1, Except.map, bind, Except.bind, h2]

/-- `/data/a.json` is not read. -/
example (mysqlArgs : List String) :
    reading asciiEnv mysqlArgs ["file:///?scheme=s3".toList] "/data/a.json".toList false = .error .valueError :=
  C153_parameters_refuted mysqlArgs _ false ⟨by decide, by decide, by decide⟩

/-- A directory and the root are configured, and files are read in strict mode. -/
example (mysqlArgs : List String) :
    ReadsFile (reading asciiEnv mysqlArgs ["file:///data".toList, "file:///.".toList] "/home/a.proto".toList true)
      (true, ["home".toList, "a.proto".toList]) .protobuf :=
  C153_configured_partial mysqlArgs
    [{ scheme := "file".toList, host := .name [], path := "/data".toList },
      { scheme := "file".toList, host := .name [], path := "/.".toList }] _ _ true
    (by
      intro c hc
      simp only [List.mem_cons, List.not_mem_nil, or_false] at hc
      rcases hc with rfl | rfl <;> constructor <;> decide +kernel)
    (by
      intro c hc _
      simp only [List.mem_cons, List.not_mem_nil, or_false] at hc
      rcases hc with rfl | rfl <;> exact ⟨rfl, rfl⟩)
    (fun _ => ⟨_, List.mem_cons_of_mem _ (List.mem_cons_self ..), rfl, rfl, by decide, by decide⟩)
    ⟨by decide, by decide, by decide⟩ ⟨["home".toList], "a".toList, "proto".toList, by decide, by decide, by decide, by decide⟩

/-- With the directory only, they are not. -/
example (mysqlArgs : List String) :
    reading asciiEnv mysqlArgs ["file:///data".toList] "/data/a.proto".toList true = .error .valueError :=
  C153_refused mysqlArgs [{ scheme := "file".toList, host := .name [], path := "/data".toList }] _
    (by
      intro c hc
      simp only [List.mem_cons, List.not_mem_nil, or_false] at hc
      subst hc
      constructor <;> decide +kernel)
    (by
      intro c hc h
      simp only [List.mem_cons, List.not_mem_nil, or_false] at hc
      subst hc
      exact absurd h.2.2.2 (by decide))
    ⟨by decide, by decide, by decide⟩

end Recap.Files
