import Verif.FilesSpec
import Verif.ClientsThms3

/-!
# C153: the file that is read is the one that is named

The specification is in `FilesSpec.lean`.
-/

set_option autoImplicit false

namespace Recap.Files

open Recap.Url Recap.Url.Spec Recap.Clients Recap.Clients.Spec

variable {env : Env}

/-! ## The format -/

theorem partition_first {sep : Char} {a : Chars} (b : Chars) (h : ∀ c ∈ a, c ≠ sep) :
    partition sep (a ++ sep :: b) = (a, true, b) := by
  induction a with
  | nil => simp [partition]
  | cons c a ih =>
    simp only [List.cons_append, partition, if_neg (h c (by simp)), ih fun c hc => h c (by simp [hc])]

theorem no_dot {ext : Chars} {f : FileFormat} (h : String.ofList (ext.map Char.toLower) ∈ extensions f) :
    (∀ c ∈ ext, c ≠ '.') ∧ ext ≠ [] := by
  have key : ∀ s ∈ extensions f, '.' ∉ s.toList ∧ s.toList ≠ [] := by cases f <;> decide
  have := key _ h
  simp only [String.toList_ofList] at this
  refine ⟨fun c hc e => ?_, fun e => this.2 (by simp [e])⟩
  subst e
  exact this.1 (List.mem_map.mpr ⟨'.', hc, by decide⟩)

theorem formatOf_has {path : Chars} {f : FileFormat} (h : HasFormat path f) : formatOf env path = .ok f := by
  obtain ⟨dir, stem, ext, hs, hst, ha, he⟩ := h
  obtain ⟨hd, hne⟩ := no_dot he
  have h1 : suffixOf path = '.' :: ext := by
    unfold suffixOf
    have : ((splitOn '/' path).filter (fun s => s ≠ [] ∧ s ≠ ['.'])) = dir ++ [stem ++ '.' :: ext] := hs
    rw [this]
    have hr : rpartition '.' (stem ++ '.' :: ext) = (stem, true, ext) := by
      unfold rpartition
      rw [show (stem ++ '.' :: ext).reverse = ext.reverse ++ '.' :: stem.reverse by simp,
        partition_first _ (fun c hc => hd c (by simpa using hc))]
      simp
    simp [hr, hst, hne]
  have h2 : (env.lower (suffixOf path)).filter (· ≠ '.') = ext.map Char.toLower := by
    rw [h1, env.lower_ascii _ (by simpa [isAscii] using ha)]
    have e : Char.toLower '.' = '.' := by decide
    simp only [List.map_cons, e, List.filter_cons, ne_eq, not_true_eq_false, decide_false, Bool.false_eq_true, if_false]
    refine List.filter_eq_self.mpr fun c hc => ?_
    have key : ∀ s ∈ extensions f, '.' ∉ s.toList := by cases f <;> decide
    have := key _ he
    simp only [String.toList_ofList] at this
    simp only [decide_not, Bool.not_eq_true', decide_eq_false_iff_not]
    rintro rfl
    exact this hc
  unfold formatOf
  rw [h2]
  simp only
  revert he
  generalize String.ofList (ext.map Char.toLower) = s
  intro he
  cases f <;> simp only [extensions, List.mem_cons, List.not_mem_nil, or_false] at he
  · rcases he with rfl | rfl | rfl | rfl <;> rfl
  · rcases he with rfl | rfl | rfl <;> rfl
  · rcases he with rfl | rfl | rfl | rfl | rfl <;> rfl

/-! ## Paths -/

theorem segments_given {path : Chars} (h : path.head? = some '/') :
    place ('/' :: (path.drop 1 ++ ['/'])) = place path := by
  cases path with
  | nil => cases h
  | cons c cs =>
    simp only [List.head?_cons, Option.some.injEq] at h
    subst h
    simp only [place, List.head?_cons, List.drop_succ_cons, List.drop_zero, segments_slash]
    congr 1
    simp [segments, splitOn_append_slash]

theorem hasFormat_place {p q : Chars} {f : FileFormat} (e : place p = place q) (h : HasFormat q f) : HasFormat p f := by
  unfold HasFormat at h ⊢
  rw [show segments p = segments q from congrArg Prod.snd e]
  exact h

theorem clean_path {path : Chars} (h : Ordinary path) : clean path = path := by
  have := h.start
  cases path with
  | nil => cases this
  | cons c cs =>
    simp only [List.head?_cons, Option.some.injEq] at this
    subst this
    unfold clean
    rw [List.dropWhile_cons_of_neg (by decide)]
    exact List.filter_eq_self.mpr fun c hc => by simpa [Quiet] using (h.chars c hc).2.2

theorem splitScheme_path {path : Chars} (h : path.head? = some '/') : splitScheme path = ([], path) := by
  cases path with
  | nil => cases h
  | cons c cs =>
    simp only [List.head?_cons, Option.some.injEq] at h
    subst h
    unfold splitScheme
    split
    · rename_i d ds rest e
      simp only [partition] at e
      rw [if_neg (by decide)] at e
      have : d = '/' := by
        have := congrArg (fun x => x.1.head?) e
        simpa using this.symm
      subst this
      simp [show Char.isAlpha '/' = false by decide]
    · rfl

theorem splitNetloc_path {path : Chars} (h : path.take 2 ≠ ['/', '/']) : splitNetloc path = ([], path) := by
  unfold splitNetloc
  split
  · simp at h
  · rfl

theorem partition_absent {sep : Char} {a : Chars} (h : ∀ c ∈ a, c ≠ sep) : partition sep a = (a, false, []) := by
  induction a with
  | nil => rfl
  | cons c a ih => simp only [partition, if_neg (h c (by simp)), ih fun c hc => h c (by simp [hc])]

theorem urlsplit_path {path : Chars} (h : Ordinary path) :
    urlsplit env path = .ok { scheme := [], netloc := [], path := path, query := [], fragment := [] } := by
  unfold urlsplit
  rw [clean_path h, splitScheme_path h.start]
  simp only [splitNetloc_path h.single, partition_absent fun c hc => (h.chars c hc).2.1,
    partition_absent fun c hc => (h.chars c hc).1]
  rfl

theorem urlparse_path {path : Chars} (h : Ordinary path) :
    ∃ s params, urlparse env path = .ok (s, params) ∧ s.scheme = [] ∧ s.netloc = [] ∧ s.query = [] := by
  unfold urlparse
  rw [urlsplit_path h]
  simp only [bind, Except.bind, pure, Except.pure]
  split
  · split <;> exact ⟨_, _, rfl, rfl, rfl, rfl⟩
  · exact ⟨_, _, rfl, rfl, rfl, rfl⟩

theorem parse_path {path : Chars} (h : Ordinary path) (urls : List Chars) (method : String) (strict : Bool) :
    parseUrl env urls method path strict =
      (unsafeUrl env urls (render fileRoot) strict).map (fun conn => (conn, [text ('/' :: (path.drop 1 ++ ['/']))])) := by
  obtain ⟨s, params, hp, h1, h2, h3⟩ := urlparse_path (env := env) h
  have hpath : path ≠ [] := by
    rintro rfl
    exact absurd h.start (by simp)
  have hd : ∃ d, urlToDict env path = .ok d ∧ Dict.get? d "scheme" = some (.str "") ∧ Dict.get? d "url" = some (text path) ∧
      Dict.has d "_" = false := by
    have hport : port s = .ok .none := by
      unfold port
      rw [h2]; rfl
    simp only [urlToDict, hp, bind, Except.bind, hport, h1, dialect, List.contains_nil, Bool.false_eq_true, if_false, pure,
      Except.pure, username, hostname, h2, h3]
    refine ⟨_, rfl, ?_, ?_, ?_⟩
    · simp [baseDict, h1, h2, h3, userinfo, hostinfo, rpartition, partition, present, parseQs, splitOn, field, Dict.update,
        Dict.get?_set_ne, str]
      try rfl
    · simp [baseDict, h1, h2, h3, userinfo, hostinfo, rpartition, partition, present, parseQs, splitOn, field, Dict.update,
        Dict.get?_set_self, text, str]
    · simp [Dict.has, baseDict, h1, h2, h3, userinfo, hostinfo, rpartition, partition, present, parseQs, splitOn, field,
        Dict.update, Dict.set, str, Dict.get?_cons]
  obtain ⟨d, hu, g1, g2, g3⟩ := hd
  have hr : "file".toList ++ "://".toList = render fileRoot := by decide +kernel
  simp only [parseUrl, hu, bind, Except.bind, clientOf, g1, show clients.lookup "" = some Client.filesystem by rfl, parseClient,
    g3, Bool.false_eq_true, if_false, parseFilesystem, g2, text, String.toList_ofList, urlsplit_path h, if_true, hpath,
    pure, Except.pure, hr]
  cases unsafeUrl env urls (render fileRoot) strict <;> simp [Except.map, str]

/-! ## The connection -/

theorem create_root (mysqlArgs : List String) :
    createClient env mysqlArgs (render fileRoot) = .ok (.filesystem, [("scheme", .str "file")]) := by
  have h0 := urlToDict_render (env := env) (fileRoot_wf env) (by decide +kernel) (by decide +kernel)
  have h1 : Dict.get? (dictOf env fileRoot) "scheme" = some (.str "file") := dict_scheme (silent_nil env _)
  simp only [createClient, h0, bind, Except.bind]
  change (do
    let c ← clientOf (dictOf env fileRoot)
    let args ← create mysqlArgs c (dictOf env fileRoot)
    pure (c, args)) = _
  rw [show clientOf (dictOf env fileRoot) = .ok .filesystem by rw [clientOf, h1]; rfl]
  simp [create, bind, Except.bind, Dict.getD, h1, pure, Except.pure]

theorem chosen_none {cs : List Parts} (hc : ∀ c ∈ cs, c.scheme ≠ "file".toList) : chosen cs fileRoot = .none := by
  cases h : chosen cs fileRoot with
  | none => rfl
  | some c =>
    obtain ⟨hm, -, ⟨e, -⟩, -⟩ := chosen_some h
    exact absurd e (hc c hm)

theorem unsafe_root {cs : List Parts} (wcs : ∀ c ∈ cs, Url.Spec.WellFormed env c) (hc : ∀ c ∈ cs, c.scheme ≠ "file".toList) :
    unsafeUrl env (cs.map render) (render fileRoot) false = .ok (render fileRoot) := by
  rw [unsafeUrl_render (fileRoot_wf env) wcs, chosen_answers, chosen_none hc]
  rfl

/-- **C153** for paths (partial): for an absolute path, written as it can be in a URL, the file at that path is read, as a
schema in the format of its extension, whatever is configured for other systems than files.  Missing: relative paths, and
paths with `?` or `#`, for which it is false, see below. -/
theorem C153_paths_partial (mysqlArgs : List String) (cs : List Parts) (path : Chars) (f : FileFormat)
    (wcs : ∀ c ∈ cs, Url.Spec.WellFormed env c) (hc : ∀ c ∈ cs, c.scheme ≠ "file".toList) (hp : Ordinary path)
    (hf : HasFormat path f) : ReadsFile (reading env mysqlArgs (cs.map render) path false) (place path) f := by
  refine ⟨_, ?_, segments_given hp.start⟩
  simp only [reading, parse_path hp, unsafe_root wcs hc, Except.map, bind, Except.bind, create_root, schemaOf, text,
    String.toList_ofList, formatOf_has (hasFormat_place (segments_given hp.start) hf), pure, Except.pure]

/-- The path that is read for a `file:` URL. -/
def pathFor (u : Parts) : Chars :=
  '/' :: (if netlocText u = [] then [] else netlocText u ++ ['/']) ++ (if u.path = [] then [] else u.path.drop 1 ++ ['/'])

theorem reading_url (mysqlArgs : List String) {cs : List Parts} {u : Parts} {f : FileFormat}
    (wcs : ∀ c ∈ cs, Url.Spec.WellFormed env c) (hc : ∀ c ∈ cs, c.scheme ≠ "file".toList) (wu : Url.Spec.WellFormed env u)
    (hs : u.scheme = "file".toList) (hq : Silent env fileReserved u.query) (hf : HasFormat (pathFor u) f) :
    reading env mysqlArgs (cs.map render) (render u) false =
      .ok (.filesystem, [("scheme", .str "file")], .file (pathFor u) f) := by
  simp only [reading, parse_file wu hs hq, unsafe_root wcs hc, Except.map, bind, Except.bind, create_root]
  change schemaOf env .filesystem [text (pathFor u)] >>= _ = _
  simp only [schemaOf, text, String.toList_ofList, formatOf_has hf, bind, Except.bind, pure, Except.pure]

/-- **C153** for URLs (partial): for a `file:` URL without a host, and without a percent sign on its path, the file that it
names is read.  Missing: `localhost` and percent escapes, for which it is false, see below. -/
theorem C153_urls_partial (mysqlArgs : List String) (cs : List Parts) (u : Parts) (f : FileFormat) (at_ : Bool × List Chars)
    (wcs : ∀ c ∈ cs, Url.Spec.WellFormed env c) (hc : ∀ c ∈ cs, c.scheme ≠ "file".toList) (wu : Url.Spec.WellFormed env u)
    (hn : UrlNames env u at_) (hh : u.host = .name []) (hq : Silent env fileReserved u.query) (hpc : '%' ∉ u.path)
    (hf : HasFormat u.path f) : ReadsFile (reading env mysqlArgs (cs.map render) (render u) false) at_ f := by
  obtain ⟨hs, -, rfl⟩ := hn
  have hne : u.path ≠ [] := by
    intro e
    obtain ⟨dir, stem, ext, h, -⟩ := hf
    rw [e] at h
    simp [segments, splitOn] at h
  have hst : u.path.head? = some '/' := wu.path_start.resolve_left hne
  have hnet : netlocText u = [] := by
    obtain ⟨h1, h2⟩ := wu.hostless hh
    simp [netlocText, hh, h1, h2, userText, hostText, portText]
  have hun : (segments u.path).map (unquote env) = segments u.path := by
    refine (List.map_congr_left fun s hm => ?_).trans (List.map_id _)
    have : '%' ∉ s := fun h => hpc ((segments_mem hm).2.2 _ h).2
    simp [unquote, this]
  have he : pathFor u = '/' :: (u.path.drop 1 ++ ['/']) := by simp [pathFor, hnet, hne]
  refine ⟨_, reading_url mysqlArgs wcs hc wu hs hq ?_, ?_⟩
  · rw [he]
    exact hasFormat_place (segments_given hst) hf
  · rw [he, segments_given hst, hun]
    simp [place, hst]

/-- The URL of the root of the file system. -/
def rootUrl : Parts where
  scheme := "file".toList
  host := .name []
  path := ['/']

theorem rootUrl_wf (env : Env) : Url.Spec.WellFormed env rootUrl := by
  constructor <;> first | decide +kernel | simp [rootUrl, Host.Good]

/-- What `unsafe_url` makes of the root of the file system. -/
theorem merge_slash : merge env (splitOf rootUrl) (splitOf fileRoot) (normalPath fileRoot.path) = "file:////".toList := by
  have h : parseQs env [] = [] := by simp [parseQs, splitOn, field, partition]
  simp only [merge, fileRoot, rootUrl, splitOf, h]
  decide

theorem create_slash (mysqlArgs : List String) :
    createClient env mysqlArgs "file:////".toList = .ok (.filesystem, [("scheme", .str "file")]) := by
  unfold createClient urlToDict
  rfl

/-- **C153** for paths in strict mode, as for the gateway (partial): if the root of the file system is configured, and no
other URL for files, then the file at the path is read.  Missing: as above, and other configured URLs (C92). -/
theorem C153_strict_partial (mysqlArgs : List String) (cs : List Parts) (path : Chars) (f : FileFormat) (strict : Bool)
    (wcs : ∀ c ∈ cs, Url.Spec.WellFormed env c) (hr : rootUrl ∈ cs) (hc : ∀ c ∈ cs, c.scheme = "file".toList → c = rootUrl)
    (hp : Ordinary path) (hf : HasFormat path f) :
    ReadsFile (reading env mysqlArgs (cs.map render) path strict) (place path) f := by
  have hch : chosen cs fileRoot = some rootUrl := by
    cases h : chosen cs fileRoot with
    | none =>
      unfold chosen at h
      have := List.find?_eq_none.mp h _ hr
      exact absurd (by decide +kernel) this
    | some c =>
      obtain ⟨hm, -, ⟨e, -⟩, -⟩ := chosen_some h
      rw [hc c hm e]
  have hu : unsafeUrl env (cs.map render) (render fileRoot) strict = .ok "file:////".toList := by
    rw [unsafeUrl_render (fileRoot_wf env) wcs, chosen_answers, hch]
    exact congrArg Except.ok merge_slash
  refine ⟨_, ?_, segments_given hp.start⟩
  simp only [reading, parse_path hp, hu, Except.map, bind, Except.bind, create_slash, schemaOf, text,
    String.toList_ofList, formatOf_has (hasFormat_place (segments_given hp.start) hf), pure, Except.pure]

/-- The hypotheses of C153 are met. -/
example (mysqlArgs : List String) :
    ReadsFile (reading asciiEnv mysqlArgs [] "/data/./my schemas/a.b.JSON".toList false)
      (true, ["data".toList, "my schemas".toList, "a.b.JSON".toList]) .json :=
  C153_paths_partial mysqlArgs [] _ _ (by simp) (by simp) ⟨by decide, by decide, by decide⟩
    ⟨["data".toList, "my schemas".toList], "a.b".toList, "JSON".toList, by decide, by decide, by decide, by decide⟩

example (mysqlArgs : List String) :
    ReadsFile (reading asciiEnv mysqlArgs ["file:///".toList] "/data/a.proto".toList true)
      (true, ["data".toList, "a.proto".toList]) .protobuf :=
  C153_strict_partial mysqlArgs [rootUrl] _ _ true (by simpa using rootUrl_wf _) (by simp) (by simp)
    ⟨by decide, by decide, by decide⟩ ⟨["data".toList], "a".toList, "proto".toList, by decide, by decide, by decide, by decide⟩

example (mysqlArgs : List String) :
    ReadsFile (reading asciiEnv mysqlArgs [] "file:///data/a.avsc".toList false) (true, ["data".toList, "a.avsc".toList]) .avro :=
  C153_urls_partial mysqlArgs [] { scheme := "file".toList, host := .name [], path := "/data/a.avsc".toList } _ _ (by simp)
    (by simp) (by constructor <;> decide +kernel) ⟨rfl, .inl rfl, by decide +kernel⟩ rfl (silent_nil _ _) (by decide)
    ⟨["data".toList], "a".toList, "avsc".toList, by decide, by decide, by decide, by decide⟩

/-! ## What is false -/

/-- For a relative path, the first character of the path is dropped, and the rest is read from the root of the file
system: for `data/a.json` the file `/ata/a.json` is read. -/
theorem C153_relative_refuted (env : Env) : ¬PathsNamed env ∧ ∀ mysqlArgs : List String,
    ReadsFile (reading env mysqlArgs [] "data/a.json".toList false) (true, ["ata".toList, "a.json".toList]) .json := by
  have key : ∀ mysqlArgs : List String,
      ReadsFile (reading env mysqlArgs [] "data/a.json".toList false) (true, ["ata".toList, "a.json".toList]) .json := by
    intro mysqlArgs
    refine ⟨"/ata/a.json/".toList, ?_, by decide⟩
    have h1 : parseUrl env [] "schema" "data/a.json".toList false =
        .ok (render fileRoot, [text "/ata/a.json/".toList]) := by rfl
    simp only [reading, h1, bind, Except.bind, create_root, schemaOf, text, String.toList_ofList,
      formatOf_has (env := env) (path := "/ata/a.json/".toList) (f := .json)
        ⟨["ata".toList], "a".toList, "json".toList, by decide, by decide, by decide, by decide⟩, pure, Except.pure]
  refine ⟨fun h => ?_, key⟩
  obtain ⟨p, h1, h2⟩ := h [] "data/a.json".toList .json
    ⟨["data".toList], "a".toList, "json".toList, by decide, by decide, by decide, by decide⟩
  obtain ⟨q, h3, h4⟩ := key []
  rw [h1] at h3
  simp only [Except.ok.injEq, Prod.mk.injEq, Source.file.injEq, and_true, true_and] at h3
  rw [← h3, h2] at h4
  exact absurd h4 (by decide)

/-- For a path with `#`, what follows is taken for a fragment: the file `/data/a.json` is read for
`/data/a.json#old.json`. -/
theorem C153_hash_refuted (env : Env) (mysqlArgs : List String) :
    HasFormat "/data/a.json#old.json".toList .json ∧
    ReadsFile (reading env mysqlArgs [] "/data/a.json#old.json".toList false) (true, ["data".toList, "a.json".toList]) .json := by
  refine ⟨⟨["data".toList], "a.json#old".toList, "json".toList, by decide, by decide, by decide, by decide⟩,
    "/data/a.json/".toList, ?_, by decide⟩
  have h1 : parseUrl env [] "schema" "/data/a.json#old.json".toList false =
      .ok (render fileRoot, [text "/data/a.json/".toList]) := by rfl
  simp only [reading, h1, bind, Except.bind, create_root, schemaOf, text, String.toList_ofList,
    formatOf_has (env := env) (path := "/data/a.json/".toList) (f := .json)
      ⟨["data".toList], "a".toList, "json".toList, by decide, by decide, by decide, by decide⟩, pure, Except.pure]

/-- Percent escapes are not decoded: `file:///my%20data/a.json` names `/my data/a.json`, and `/my%20data/a.json` is read. -/
theorem C153_escapes_refuted (env : Env) : ¬UrlsNamed env := by
  intro h
  let u : Parts := { scheme := "file".toList, host := .name [], path := "/my%20data/a.json".toList }
  have hf : ∀ p : Chars, segments p = ["my%20data".toList, "a.json".toList] → HasFormat p .json := fun p hp =>
    ⟨["my%20data".toList], "a".toList, "json".toList, hp, by decide, by decide, by decide⟩
  have wu : Url.Spec.WellFormed env u := by constructor <;> first | decide +kernel | simp [u, Host.Good]
  obtain ⟨p, h1, h2⟩ := h [] u .json _ wu ⟨rfl, .inl rfl, rfl⟩ (hf _ (by decide))
  have e : pathFor u = "/my%20data/a.json/".toList := by decide
  have h3 := reading_url (env := env) [] (cs := []) (by simp) (by simp) wu rfl (silent_nil _ _) (hf (pathFor u) (by rw [e]; decide))
  simp only [List.map_nil] at h3
  rw [h3] at h1
  simp only [Except.ok.injEq, Prod.mk.injEq, Source.file.injEq, and_true, true_and] at h1
  rw [← h1, e] at h2
  have h4 : (segments u.path).map (unquote env) = ["my data".toList, "a.json".toList] := by
    have e1 : segments u.path = ["my%20data".toList, "a.json".toList] := by decide
    have e2 : unquote env "my%20data".toList = "my data".toList :=
      decode_encode env "my data".toList
    rw [e1]
    simp only [List.map_cons, List.map_nil, e2]
    rfl
  rw [h4] at h2
  exact absurd h2 (by decide)

/-- The host of a URL is taken for a directory: `file://localhost/a.json` names `/a.json`, and `/localhost/a.json` is read. -/
theorem C153_localhost_refuted (env : Env) : ∃ u : Parts, Url.Spec.WellFormed env u ∧
    render u = "file://localhost/a.json".toList ∧ UrlNames env u (true, ["a.json".toList]) ∧ ∀ mysqlArgs,
      ReadsFile (reading env mysqlArgs [] (render u) false) (true, ["localhost".toList, "a.json".toList]) .json := by
  have wu : Url.Spec.WellFormed env
      { scheme := "file".toList, host := .name "localhost".toList, path := "/a.json".toList } := by
    constructor <;> first | decide +kernel | (simp only [Host.Good]; decide +kernel)
  refine ⟨_, wu, by decide, ⟨rfl, .inr rfl, by rfl⟩, fun mysqlArgs => ?_⟩
  exact ⟨_, reading_url mysqlArgs (cs := []) (by simp) (by simp) wu rfl (silent_nil _ _)
    ⟨["localhost".toList], "a".toList, "json".toList, by decide, by decide, by decide, by decide⟩, by decide⟩

end Recap.Files
