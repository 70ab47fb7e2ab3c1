import Verif.ClientsThms3

/-!
# Properties of the clients: SQLite

C46 and C90.
-/

set_option autoImplicit false

namespace Recap.Clients

open Recap.Url Recap.Url.Spec Spec

variable {env : Env} {u : Parts}

/-- The URL of a file, relative to the working directory, or of something in it:
`sqlite:///dir/file.db`. -/
def sqliteUrl (names : List Chars) : Parts where
  scheme := "sqlite".toList
  host := .name []
  path := '/' :: joinWith '/' names

/-- Names of directories, files and tables: not empty, not `.`, without slashes. -/
def GoodNames (names : List Chars) : Prop := ∀ n ∈ names, n ≠ [] ∧ n ≠ ['.'] ∧ ∀ c ∈ n, c ≠ '/'

instance (names : List Chars) : Decidable (GoodNames names) := inferInstanceAs (Decidable (∀ n ∈ names, _))

theorem split_names {names : List Chars} (hne : names ≠ []) (hg : GoodNames names) :
    splitOn '/' ('/' :: joinWith '/' names) = [] :: names := by
  have := splitOn_joinWith hne (fun p hp => (hg p hp).2.2)
  simp [splitOn, this]

theorem pieces_names {names : List Chars} (hne : names ≠ []) (hg : GoodNames names) :
    pieces ('/' :: joinWith '/' names) = names := by
  rw [pieces, split_names hne hg]
  simp only [List.filter_cons]
  rw [if_neg (by simp)]
  exact List.filter_eq_self.mpr (fun n hn => by simpa using (hg n hn).1)

theorem segments_names {names : List Chars} (hne : names ≠ []) (hg : GoodNames names) :
    segments ('/' :: joinWith '/' names) = names := by
  rw [segments, split_names hne hg]
  simp only [List.filter_cons]
  rw [if_neg (by simp)]
  exact List.filter_eq_self.mpr (fun n hn => by simpa using ⟨(hg n hn).1, (hg n hn).2.1⟩)

theorem mergedQuery_nil (env : Env) {c u : Parts} (hc : c.query = []) (hu : u.query = []) :
    mergedQuery env c u = [] := by
  have : parseQs env [] = [] := by simp [parseQs, splitOn, field, partition]
  rw [mergedQuery, hc, hu, this]
  rfl

/-- The URL connected to is the one asked for. -/
theorem sqlite_target {cs : List Parts} {names : List Chars} (hne : names ≠ []) (hg : GoodNames names)
    (wcs : ∀ c ∈ cs, WellFormed env c)
    (hcs : ∀ c ∈ cs, c.scheme = "sqlite".toList → c.query = [] ∧ c.fragment = []) :
    target env cs (sqliteUrl names) = sqliteUrl names := by
  rw [target]
  cases h : chosen cs (sqliteUrl names) with
  | none => rfl
  | some c =>
    obtain ⟨hm, _, ⟨⟨e1, e2, e3⟩, _⟩⟩ := chosen_some h
    obtain ⟨hq, hf⟩ := hcs c hm e1
    have hh : c.host = .name [] := by
      have ht : c.host.text = [] := by
        have : (lowerHost c.host).text = [] := e2
        rw [lowerHost_text] at this
        exact (lowerText_nil _).mp this
      have hgood := (wcs c hm).host_good
      cases hc : c.host with
      | name x => rw [hc] at ht; rw [show x = [] from ht]
      | literal x => rw [hc] at ht hgood; exact absurd ht hgood.1
    obtain ⟨hu, hp⟩ := (wcs c hm).hostless hh
    have hpath : withoutTrailing (normalPath (sqliteUrl names).path) = (sqliteUrl names).path := by
      rw [trailing_normal]
      simp only [sqliteUrl, segments_names hne hg, hne, ↓reduceIte]
      rw [normalPath, segments_names hne hg]
    simp only [merged, hu, hp, hh, hpath, mergedQuery_nil env hq (show (sqliteUrl names).query = [] from rfl)]
    simp [sqliteUrl, hf]

theorem sqlite_dict (names : List Chars) (wu : WellFormed env (sqliteUrl names)) :
    urlToDict env (render (sqliteUrl names)) = .ok (dictOf env (sqliteUrl names)) :=
  urlToDict_render wu (show usesParams.contains "sqlite".toList = false by decide +kernel)
    (show "sqlite".toList.contains '+' = false by decide +kernel)

theorem sqlite_client (names : List Chars) : clientOf (dictOf env (sqliteUrl names)) = .ok .sqlite :=
  clientOf_dict (silent_nil env _)
    (show clients.lookup (String.ofList "sqlite".toList) = some .sqlite by decide +kernel)

theorem sqlite_get (names : List Chars) (k : String) :
    Dict.get? (dictOf env (sqliteUrl names)) k = Dict.get? (ownDict env (sqliteUrl names)) k := by
  rw [dictOf]
  exact get?_silent (names := [k]) (silent_nil env _) (by simp)

theorem sqlite_render (names : List Chars) :
    render (sqliteUrl names) = "sqlite:///".toList ++ joinWith '/' names := by
  simp [render, sqliteUrl, netlocText, userText, hostText, portText]

/-- Connecting to a file opens that file. -/
theorem sqlite_connect (mysqlArgs : List String) (names : List Chars)
    (wu : WellFormed env (sqliteUrl names)) :
    ∃ kwargs, createClient env mysqlArgs (render (sqliteUrl names)) = .ok (.sqlite, kwargs) ∧
      Dict.get? kwargs "database" = some (text (joinWith '/' names)) := by
  have hurl : Dict.get? (dictOf env (sqliteUrl names)) "url" = some (str (render (sqliteUrl names))) := by
    rw [sqlite_get, get?_own]; simp
  simp only [createClient, sqlite_dict names wu, sqlite_client, bind, Except.bind, create, hurl, str,
    pure, Except.pure]
  refine ⟨_, rfl, ?_⟩
  rw [get?_only, if_pos (by decide), Dict.get?_set_self, sqlite_render]
  simp [text]

theorem sqlite_silent (names : List Chars) : Silent env reserved (sqliteUrl names).query :=
  silent_nil env _

theorem sqlite_ls (names : List Chars) :
    parseClient env .sqlite "ls" (dictOf env (sqliteUrl names)) =
      .ok (render (sqliteUrl names), []) := by
  have hurl : Dict.get? (dictOf env (sqliteUrl names)) "url" = some (str (render (sqliteUrl names))) := by
    rw [sqlite_get, get?_own]; simp
  simp [parseClient, no_method (sqlite_silent names), parseSqlite, hurl, str]

theorem strings_map (names : List Chars) : strings (names.map str) = .ok names := by
  induction names with
  | nil => rfl
  | cons n rest ih => simp [strings, str, ih, bind, Except.bind, pure, Except.pure]

theorem joinWith_start {names : List Chars} (hne : names ≠ []) (hg : GoodNames names) :
    (joinWith '/' names).take 2 ≠ ['/', '/'] := by
  obtain ⟨n, rest, rfl⟩ := List.exists_cons_of_ne_nil hne
  obtain ⟨h1, _, h3⟩ := hg n (by simp)
  obtain ⟨c, cs, rfl⟩ := List.exists_cons_of_ne_nil h1
  have : c ≠ '/' := h3 c (by simp)
  cases rest <;> simp [joinWith, this]

theorem sqlite_schema {names : List Chars} {t : Chars} (hne : names ≠ [])
    (hg : GoodNames (names ++ [t])) :
    parseClient env .sqlite "schema" (dictOf env (sqliteUrl (names ++ [t]))) =
      .ok (render (sqliteUrl names), [text t]) := by
  have hq := sqlite_silent (env := env) (names ++ [t])
  have hp : pathList (dictOf env (sqliteUrl (names ++ [t]))) = .ok ((names ++ [t]).map str) := by
    rw [pathList_dict hq]
    simp only [sqliteUrl, pieces_names (by simp) hg]
  have hd : Dict.getD (dictOf env (sqliteUrl (names ++ [t]))) "dialect" PyVal.none = .none := by
    rw [Dict.getD, sqlite_get, get?_own]
    simp [baseDict, Dict.get?]
  have hn : Dict.get? (dictOf env (sqliteUrl (names ++ [t]))) "netloc" = some (str []) := dict_netloc hq
  have hu : urlunparse ⟨"sqlite".toList, [], joinWith '/' names, [], []⟩ [] =
      "sqlite:".toList ++ joinWith '/' names := by
    rw [urlunparse, if_pos rfl, urlunsplit_hostless (s := ⟨"sqlite".toList, [], joinWith '/' names, [], []⟩)
      (show "sqlite".toList ≠ [] by decide +kernel) rfl
      (show usesNetloc.contains "sqlite".toList = false by decide +kernel)
      (joinWith_start hne (fun n hn => hg n (List.mem_append_left _ hn)))]
    simp [Url.optional]
  have hc : connectionUrl (dictOf env (sqliteUrl (names ++ [t]))) "scheme" (joinWith '/' names) =
      .ok ("sqlite:".toList ++ joinWith '/' names) := by
    have h1 : component (dictOf env (sqliteUrl (names ++ [t]))) "netloc" = .ok [] := component_str hn
    simp only [connectionUrl, component_str (dict_scheme hq), h1,
      component_str (dict_params hq), component_str (dict_query hq), component_str (dict_fragment hq),
      bind, Except.bind, pure, Except.pure]
    exact congrArg _ hu
  have hpop : parsePop (dictOf env (sqliteUrl (names ++ [t]))) =
      .ok ("sqlite:".toList ++ joinWith '/' names, str t) := by
    simp [parsePop, hp, strings_map, dialectKey, hd, PyVal.truthy, bind, Except.bind, pure, Except.pure, hc]
  have hr : replaceColon ":///".toList ("sqlite:".toList ++ joinWith '/' names) =
      render (sqliteUrl names) := by
    rw [sqlite_render, replaceColon]
    simp [partition]
  have hnt : (Dict.getD (dictOf env (sqliteUrl (names ++ [t]))) "netloc" PyVal.none).truthy = false := by
    rw [Dict.getD, hn]; rfl
  have : ("schema" == "ls") = false := by decide
  simp only [parseClient, no_method hq, parseSqlite, this, hpop, hnt, bind, Except.bind, pure, Except.pure,
    hr, Bool.false_eq_true, ↓reduceIte, beq_self_eq_true]
  rfl

/-- What a listing and a reading of a URL connect to. -/
theorem sqlite_parse {cs : List Parts} {names : List Chars} (hne : names ≠ []) (hg : GoodNames names)
    (wcs : ∀ c ∈ cs, WellFormed env c) (wu : WellFormed env (sqliteUrl names))
    (hcs : ∀ c ∈ cs, c.scheme = "sqlite".toList → c.query = [] ∧ c.fragment = []) (strict : Bool) :
    unsafeUrl env (cs.map render) (render (sqliteUrl names)) strict =
      if strict = true ∧ chosen cs (sqliteUrl names) = .none then .error .valueError
      else .ok (render (sqliteUrl names)) := by
  rw [unsafeUrl_target wu wcs (show usesNetloc.contains "sqlite".toList = false by decide +kernel),
    sqlite_target hne hg wcs hcs]

/-- **C90** (partial): for a file named by a relative path, listing the URL of the file opens that
file and lists its tables, and reading the URL of a table opens the same file and reads that table;
in strict mode both are refused unless a configured URL covers the file.

Missing: absolute paths (`C90_absolute_refuted`) and URLs with parameters
(`C90_parameter_refuted`), for which the property is false. -/
theorem C90_sqlite_partial (env : Env) (mysqlArgs : List String) (cs : List Parts)
    (names : List Chars) (t : Chars) (strict : Bool)
    (hne : names ≠ []) (hg : GoodNames (names ++ [t]))
    (wcs : ∀ c ∈ cs, WellFormed env c)
    (hcs : ∀ c ∈ cs, c.scheme = "sqlite".toList → c.query = [] ∧ c.fragment = [])
    (wu : WellFormed env (sqliteUrl names)) (wv : WellFormed env (sqliteUrl (names ++ [t]))) :
    if strict = true ∧ ¬ ∃ c ∈ cs, c.path ≠ [] ∧ Covers c (sqliteUrl names) then
      listing env mysqlArgs (cs.map render) (render (sqliteUrl names)) strict = .error .valueError ∧
      reading env mysqlArgs (cs.map render) (render (sqliteUrl (names ++ [t]))) strict =
        .error .valueError
    else ∃ kwargs, Dict.get? kwargs "database" = some (text (joinWith '/' names)) ∧
      listing env mysqlArgs (cs.map render) (render (sqliteUrl names)) strict =
        .ok (.sqlite, kwargs, .sqliteTables) ∧
      reading env mysqlArgs (cs.map render) (render (sqliteUrl (names ++ [t]))) strict =
        .ok (.sqlite, kwargs, .sqliteTable (text t)) := by
  have hg' : GoodNames names := fun n hn => hg n (List.mem_append_left _ hn)
  have hnone : chosen cs (sqliteUrl names) = .none ↔
      ¬ ∃ c ∈ cs, c.path ≠ [] ∧ Covers c (sqliteUrl names) := by
    simp [chosen, List.find?_eq_none]
  have hsp := sqlite_parse hne hg' wcs wu hcs strict
  obtain ⟨kwargs, hk, hdb⟩ := sqlite_connect mysqlArgs names wu
  split
  · rename_i h
    rw [if_pos ⟨h.1, hnone.mpr h.2⟩] at hsp
    constructor
    · simp only [listing, parseUrl, sqlite_dict names wu, sqlite_client, sqlite_ls, hsp, bind, Except.bind]
    · simp only [reading, parseUrl, sqlite_dict _ wv, sqlite_client, sqlite_schema hne hg, hsp, bind,
        Except.bind]
  · rename_i h
    rw [if_neg (fun h' => h ⟨h'.1, hnone.mp h'.2⟩)] at hsp
    refine ⟨kwargs, hdb, ?_, ?_⟩
    · simp only [listing, parseUrl, sqlite_dict names wu, sqlite_client, sqlite_ls, hsp, bind,
        Except.bind, hk, pure, Except.pure, ls]
    · simp only [reading, parseUrl, sqlite_dict _ wv, sqlite_client, sqlite_schema hne hg, hsp, bind,
        Except.bind, hk, pure, Except.pure, schemaOf]

/-- The hypotheses of C90 are met: `sqlite:///data/x.db/users` with `sqlite:///data` configured. -/
example : ∃ kwargs, Dict.get? kwargs "database" = some (.str "data/x.db") ∧
    reading asciiEnv mysqlCore ["sqlite:///data".toList] "sqlite:///data/x.db/users".toList true =
      .ok (.sqlite, kwargs, .sqliteTable (.str "users")) := by
  have := C90_sqlite_partial asciiEnv mysqlCore [sqliteUrl ["data".toList]]
    ["data".toList, "x.db".toList] "users".toList true (by decide) (by decide +kernel)
    (fun c hc => by
      rw [List.mem_singleton.mp hc]
      constructor <;> decide +kernel)
    (fun c hc _ => by rw [List.mem_singleton.mp hc]; decide)
    (by constructor <;> decide +kernel) (by constructor <;> decide +kernel)
  rw [if_neg (by decide +kernel)] at this
  obtain ⟨kwargs, h1, _, h3⟩ := this
  refine ⟨kwargs, h1.trans (by decide +kernel), ?_⟩
  have hr : ([sqliteUrl ["data".toList]].map render) = ["sqlite:///data".toList] := by decide +kernel
  have hv : render (sqliteUrl (["data".toList, "x.db".toList] ++ ["users".toList])) =
    "sqlite:///data/x.db/users".toList := by decide +kernel
  rw [hr, hv] at h3
  exact h3

/-- For an absolute path the property is false: listing `sqlite:////data/x.db` opens `/data/x.db`,
and reading the table `users` of it opens `data/x.db`, relative to the working directory. -/
theorem C90_absolute_refuted :
    listing asciiEnv mysqlCore [] "sqlite:////data/x.db".toList false =
      .ok (.sqlite, [("database", .str "/data/x.db")], .sqliteTables) ∧
    reading asciiEnv mysqlCore [] "sqlite:////data/x.db/users".toList false =
      .ok (.sqlite, [("database", .str "data/x.db")], .sqliteTable (.str "users")) := by
  exact ⟨by rfl, by rfl⟩

/-- For a URL with a parameter of the connection the property is false: the parameter becomes part
of the name of the file that is opened. -/
theorem C90_parameter_refuted :
    listing asciiEnv mysqlCore [] "sqlite:///x.db?timeout=5".toList false =
      .ok (.sqlite, [("timeout", .str "5"), ("database", .str "x.db?timeout=5")], .sqliteTables) := by
  rfl

/-- **C46** for SQLite (partial; see `C46_server_partial`): what parsing a listing or a reading
returns is accepted as the URL of a connection. -/
theorem C46_sqlite_partial (env : Env) (mysqlArgs : List String) (cs : List Parts)
    (names : List Chars) (t : Chars) (strict : Bool) (conn : Chars) (args : List PyVal)
    (hne : names ≠ []) (hg : GoodNames (names ++ [t]))
    (wcs : ∀ c ∈ cs, WellFormed env c)
    (hcs : ∀ c ∈ cs, c.scheme = "sqlite".toList → c.query = [] ∧ c.fragment = [])
    (wu : WellFormed env (sqliteUrl names)) (wv : WellFormed env (sqliteUrl (names ++ [t])))
    (h : parseUrl env (cs.map render) "ls" (render (sqliteUrl names)) strict = .ok (conn, args) ∨
      parseUrl env (cs.map render) "schema" (render (sqliteUrl (names ++ [t]))) strict =
        .ok (conn, args)) :
    ∃ kwargs, createClient env mysqlArgs conn = .ok (.sqlite, kwargs) := by
  have hg' : GoodNames names := fun n hn => hg n (List.mem_append_left _ hn)
  have hsp := sqlite_parse hne hg' wcs wu hcs strict
  obtain ⟨kwargs, hk, _⟩ := sqlite_connect mysqlArgs names wu
  refine ⟨kwargs, ?_⟩
  rcases h with h | h
  · simp only [parseUrl, sqlite_dict names wu, sqlite_client, sqlite_ls, hsp, bind, Except.bind] at h
    split at h
    · cases h
    · rename_i hx
      split at hx
      · cases hx
      · cases hx; cases h; exact hk
  · simp only [parseUrl, sqlite_dict _ wv, sqlite_client, sqlite_schema hne hg, hsp, bind,
      Except.bind] at h
    split at h
    · cases h
    · rename_i hx
      split at hx
      · cases hx
      · cases hx; cases h; exact hk

end Recap.Clients
