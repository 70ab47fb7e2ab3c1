import Verif.ClientsThms2

/-!
# Properties of the clients: BigQuery and files

C46, C89 and C92.
-/

set_option autoImplicit false

namespace Recap.Clients

open Recap.Url Recap.Url.Spec Spec

variable {env : Env} {u : Parts}

/-! ## BigQuery -/

/-- The only connection URL of BigQuery. -/
def bigqueryRoot : Parts where
  scheme := "bigquery".toList
  host := .name []

theorem bigqueryRoot_wf (env : Env) : WellFormed env bigqueryRoot where
  scheme_ne := by decide +kernel
  scheme_alpha := by decide +kernel
  scheme_chars := by
    have : ∀ c ∈ "bigquery".toList,
      (c.isAlphanum = true ∨ c = '+' ∨ c = '-' ∨ c = '.') ∧ c.toLower = c := by decide +kernel
    exact this
  user_chars := fun _ h => by cases h
  host_good := fun _ h => by cases h
  hostless := fun _ => ⟨rfl, rfl⟩
  port_le := fun _ h => by cases h
  path_start := Or.inl rfl
  path_single := by decide +kernel
  path_chars := fun _ h => by cases h
  query_chars := fun _ h => by cases h
  fragment_chars := fun _ h => by cases h

theorem silent_nil (env : Env) (names : List String) : Silent env names [] := by
  intro n _
  have : parseQs env [] = [] := by simp [parseQs, splitOn, field, partition]
  rw [this]; rfl

theorem parse_bigquery (wu : WellFormed env u) (hs : u.scheme = "bigquery".toList)
    (hq : Silent env reserved u.query) (urls : List Chars) (method : String) (strict : Bool) :
    parseUrl env urls method (render u) strict =
      if method = "ls" ∨ method = "schema" then
        (unsafeUrl env urls (render bigqueryRoot) strict).map (fun conn =>
          (conn, ((pieces u.path).map str ++ [PyVal.none, PyVal.none, PyVal.none]).take 3))
      else .error .valueError := by
  have h0 : urlToDict env (render u) = .ok (dictOf env u) :=
    urlToDict_render wu (by rw [hs]; decide +kernel) (by rw [hs]; decide +kernel)
  have h1 : clientOf (dictOf env u) = .ok .bigquery := clientOf_dict hq (by rw [hs]; decide +kernel)
  have hr : "bigquery://".toList = render bigqueryRoot := by decide +kernel
  simp only [parseUrl, h0, h1, bind, Except.bind, parseClient, no_method hq, parseBigquery,
    dict_paths hq, Bool.false_eq_true, ↓reduceIte, Bool.or_eq_true, beq_iff_eq]
  by_cases h : method = "ls" ∨ method = "schema"
  · rw [if_pos h, if_pos h]
    simp only [hr]
    cases unsafeUrl env urls (render bigqueryRoot) strict <;> rfl
  · rw [if_neg h, if_neg h]

/-- No client lists anything with three arguments. -/
theorem ls_three (c : Client) (x y z : PyVal) : ls c [x, y, z] = .error .typeError := by
  cases c <;> simp [ls]

/-- **C89**: the property is false of every BigQuery URL: listing it never succeeds, whatever the
path and whatever is configured, because `parse` makes three arguments and `ls` takes two. -/
theorem C89_bigquery_refuted (env : Env) (mysqlArgs : List String) (urls : List Chars) (u : Parts)
    (strict : Bool) (wu : WellFormed env u) (hs : u.scheme = "bigquery".toList)
    (hq : Silent env reserved u.query) :
    ∀ r, listing env mysqlArgs urls (render u) strict ≠ .ok r := by
  intro r h
  have h3 : ∃ x y z, ((pieces u.path).map str ++ [PyVal.none, PyVal.none, PyVal.none]).take 3 =
      [x, y, z] := by
    match pieces u.path with
    | [] => exact ⟨_, _, _, rfl⟩
    | [a] => exact ⟨_, _, _, rfl⟩
    | [a, b] => exact ⟨_, _, _, rfl⟩
    | a :: b :: c :: rest => exact ⟨_, _, _, rfl⟩
  obtain ⟨x, y, z, h3⟩ := h3
  simp only [listing, parse_bigquery wu hs hq, true_or, ↓reduceIte, h3, bind, Except.bind] at h
  cases hu : unsafeUrl env urls (render bigqueryRoot) strict with
  | error e => rw [hu] at h; cases h
  | ok conn =>
    rw [hu] at h
    simp only [Except.map] at h
    cases hc : createClient env mysqlArgs conn with
    | error e => rw [hc] at h; cases h
    | ok c =>
      rw [hc] at h
      simp only [ls_three] at h
      cases h

/-- With a usable configuration it is a `TypeError`. -/
example : listing asciiEnv mysqlCore ["bigquery:///".toList] "bigquery:///project".toList true =
    .error .typeError := by decide +kernel

/-- **C46** for BigQuery (partial; see `C46_server_partial`). -/
theorem C46_bigquery_partial (env : Env) (mysqlArgs : List String) (cs : List Parts) (u : Parts)
    (strict : Bool) (conn : Chars) (args : List PyVal) (method : String)
    (wcs : ∀ c ∈ cs, WellFormed env c) (wu : WellFormed env u) (hs : u.scheme = "bigquery".toList)
    (hq : Silent env reserved u.query) (hcs : ∀ c ∈ cs, Silent env reserved c.query)
    (h1 : parseUrl env (cs.map render) method (render u) strict = .ok (conn, args)) :
    createClient env mysqlArgs conn = .ok (.bigquery, []) := by
  rw [parse_bigquery wu hs hq,
    unsafeUrl_target (bigqueryRoot_wf env) wcs (by decide +kernel) strict] at h1
  split at h1
  · split at h1
    · cases h1
    · cases h1
      have wt := target_wf (cs := cs) (bigqueryRoot_wf env) wcs
      have hq' : Silent env reserved (target env cs bigqueryRoot).query :=
        target_silent (silent_nil env _) hcs
      have hsch : (target env cs bigqueryRoot).scheme = "bigquery".toList := target_scheme cs _
      have h0 : urlToDict env (render (target env cs bigqueryRoot)) =
          .ok (dictOf env (target env cs bigqueryRoot)) :=
        urlToDict_render wt (by rw [hsch]; decide +kernel) (by rw [hsch]; decide +kernel)
      have h2 : clientOf (dictOf env (target env cs bigqueryRoot)) = .ok .bigquery :=
        clientOf_dict hq' (by rw [hsch]; decide +kernel)
      simp only [createClient, h0, h2, bind, Except.bind, create, pure, Except.pure]
  · cases h1

/-! ## Files -/

/-- The only connection URL of the file system. -/
def fileRoot : Parts where
  scheme := "file".toList
  host := .name []

theorem fileRoot_wf (env : Env) : WellFormed env fileRoot := by
  constructor <;> first | decide +kernel | simp [fileRoot, Host.Good]

/-- The parameters that replace what the client of the file system reads. -/
def fileReserved : List String := ["scheme", "url", "_"]

theorem parse_file (wu : WellFormed env u) (hs : u.scheme = "file".toList)
    (hq : Silent env fileReserved u.query) (urls : List Chars) (method : String) (strict : Bool) :
    parseUrl env urls method (render u) strict =
      (unsafeUrl env urls (render fileRoot) strict).map (fun conn =>
        (conn, [text ('/' :: (if netlocText u = [] then [] else netlocText u ++ ['/']) ++
          (if u.path = [] then [] else u.path.drop 1 ++ ['/']))])) := by
  have h0 : urlToDict env (render u) = .ok (dictOf env u) :=
    urlToDict_render wu (by rw [hs]; decide +kernel) (by rw [hs]; decide +kernel)
  have h1 : clientOf (dictOf env u) = .ok .filesystem := by
    have : Dict.get? (dictOf env u) "scheme" = some (str u.scheme) := by
      rw [dictOf, get?_silent hq (by decide), get?_own]; simp [baseDict, Dict.get?, splitOf]
    rw [clientOf, this, hs]; rfl
  have h2 : Dict.has (dictOf env u) "_" = false := by
    rw [Dict.has, dictOf, get?_silent hq (by decide), get?_own]
    simp [baseDict, Dict.get?]
  have h3 : Dict.get? (dictOf env u) "url" = some (str (render u)) := by
    rw [dictOf, get?_silent hq (by decide), get?_own]; simp
  have hr : "file".toList ++ "://".toList = render fileRoot := by decide +kernel
  have hsc : (if (splitOf u).scheme = [] then "file".toList else (splitOf u).scheme) = "file".toList := by
    simp [splitOf, hs]
  simp only [parseUrl, h0, h1, bind, Except.bind, parseClient, h2, parseFilesystem, h3, str,
    String.toList_ofList, urlsplit_render wu, hsc, hr, Bool.false_eq_true, ↓reduceIte, pure,
    Except.pure]
  cases unsafeUrl env urls (render fileRoot) strict <;> rfl

/-- **C92** (partial): in strict mode a file can only be listed or read when a configured URL covers
it.  Missing: that the files below a configured URL can be read, which is false unless the
configured URL is that of the root (`C92_below_refuted`). -/
theorem C92_files_partial (env : Env) (cs : List Parts) (u : Parts) (method : String)
    (r : Chars × List PyVal) (wcs : ∀ c ∈ cs, WellFormed env c) (wu : WellFormed env u)
    (hs : u.scheme = "file".toList) (hh : u.host = .name []) (hq : Silent env fileReserved u.query)
    (h : parseUrl env (cs.map render) method (render u) true = .ok r) :
    ∃ c ∈ cs, Covers c u ∧ segments c.path = [] := by
  rw [parse_file wu hs hq, unsafeUrl_render (fileRoot_wf env) wcs, chosen_answers] at h
  cases hc : chosen cs fileRoot with
  | none => rw [hc] at h; cases h
  | some c =>
    obtain ⟨hm, hne, hcov⟩ := chosen_some hc
    obtain ⟨⟨e1, e2, e3⟩, hp⟩ := hcov
    have hseg : segments c.path = [] := by
      have hp' : normalPath c.path <+: ['/'] := hp
      by_cases hsg : segments c.path = []
      · exact hsg
      · obtain ⟨x, a, he, hx⟩ := joinWith_head (segs_good c.path) hsg
        have := hp'.length_le
        rw [normalPath, he] at this
        simp at this
    refine ⟨c, hm, ⟨⟨?_, ?_, ?_⟩, ?_⟩, hseg⟩
    · rw [e1, hs]; rfl
    · rw [e2, hh]; rfl
    · rw [e3]
      exact ((wu.hostless hh).2).symm
    · rw [normalPath, hseg]
      exact ⟨_, rfl⟩

/-- With `file:///data` configured, no file below `/data` can be read in strict mode. -/
theorem C92_below_refuted :
    ∃ c u : Parts, WellFormed asciiEnv c ∧ WellFormed asciiEnv u ∧ Covers c u ∧
      render c = "file:///data".toList ∧ render u = "file:///data/a.json".toList ∧
      reading asciiEnv mysqlCore [render c] (render u) true = .error .valueError ∧
      listing asciiEnv mysqlCore [render c] (render c) true = .error .valueError := by
  refine ⟨{ scheme := "file".toList, host := .name [], path := "/data".toList },
    { scheme := "file".toList, host := .name [], path := "/data/a.json".toList },
    by constructor <;> decide +kernel, by constructor <;> decide +kernel, ?_, ?_, ?_, ?_, ?_⟩
  · decide +kernel
  · decide +kernel
  · decide +kernel
  · rfl
  · decide +kernel

/-- The hypotheses of C92 are met when the root is configured. -/
example : (listing asciiEnv mysqlCore ["file:///".toList] "file:///data".toList true) =
    .ok (.filesystem, [("scheme", .str "file")], .directory "/data/") := by rfl

end Recap.Clients
