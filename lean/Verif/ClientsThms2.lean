import Verif.ClientsThms

/-!
# Properties of the clients: schemes, credentials, BigQuery, SQLite and files

C46, C47, C89 to C92.
-/

set_option autoImplicit false

namespace Recap.Clients

open Recap.Url Recap.Url.Spec Spec

variable {env : Env} {u : Parts}

/-! ## Credentials with escapes -/

/-- What the credentials of a URL stand for: escapes `%xx` are characters (RFC 3986, 2.1). -/
def decoded (env : Env) (c : Option (Chars × Option Chars)) : Option (Chars × Option Chars) :=
  c.map (fun uw => (unquote env uw.1, uw.2.map (unquote env)))

/-- **C91** (partial): the driver is given the user and password that the URL stands for.  Missing:
credentials with escapes, which the driver is given as they are written
(`C91_escape_refuted`). -/
theorem C91_decoded_partial (env : Env) (mysqlArgs : List String) (u : Parts) (c : Client)
    (kwargs : Dict) (conn : Chars) (args : List PyVal) (method : String)
    (hm : ∀ k ∈ mysqlCore, k ∈ mysqlArgs) (wu : WellFormed env u) (hs : Server c u.scheme)
    (hh : u.host ≠ .name []) (hdot : (pieces u.path).head? ≠ some ['.'])
    (hq : Silent env reserved u.query) (hmeth : method = "ls" ∨ method = "schema")
    (hu : ∀ uw ∈ u.user, '%' ∉ uw.1 ∧ ∀ w ∈ uw.2, '%' ∉ w)
    (h1 : parseUrl env [] method (render u) false = .ok (conn, args))
    (h2 : createClient env mysqlArgs conn = .ok (c, kwargs)) :
    GivenCredentials kwargs (decoded env u.user) := by
  have hd : decoded env u.user = u.user := by
    have hnp : ∀ s : Chars, '%' ∉ s → unquote env s = s := by
      intro s hs
      rw [unquote, if_neg (by simpa using hs)]
    cases huu : u.user with
    | none => rfl
    | some uw =>
      obtain ⟨a, w⟩ := uw
      obtain ⟨ha, hw⟩ := hu (a, w) huu
      cases w with
      | none => simp [decoded, hnp a ha]
      | some w => simp [decoded, hnp a ha, hnp w (hw w rfl)]
  rw [hd]
  have hpl := server_plain hs
  have hok : ∃ args', parseClient env c method (dictOf env u) = .ok (render (databaseUrl u), args') := by
    cases hpc : parseClient env c method (dictOf env u) with
    | error e =>
      simp only [parseUrl, parsed wu hs, bind, Except.bind, clientOf_dict hq hpl.2.2.2, hpc] at h1
      cases h1
    | ok r =>
      rcases hmeth with rfl | rfl
      · rw [parse_ls wu hs hh hq] at hpc
        split at hpc <;> cases hpc
        exact ⟨_, rfl⟩
      · rw [parse_schema wu hs hh hq] at hpc
        split at hpc <;> cases hpc <;> exact ⟨_, rfl⟩
  obtain ⟨args', hp⟩ := hok
  have := through mysqlArgs [] method false c _ hm (by simp) wu hs hh hdot hq (by simp) hp
  rw [if_neg (by simp)] at this
  obtain ⟨conn', kwargs', e1, e2, _, _, e5, _⟩ := this
  rw [List.map_nil, h1] at e1
  cases e1
  rw [h2] at e2
  cases e2
  exact e5

/-- A password with an `@`, which has to be escaped in a URL, does not reach the driver. -/
theorem C91_escape_refuted :
    ∃ u : Parts, WellFormed asciiEnv u ∧ render u = "postgresql://scott:p%40ss@db/shop".toList ∧
      decoded asciiEnv u.user = some ("scott".toList, some "p@ss".toList) ∧
      ∃ kwargs, createClient asciiEnv mysqlCore (render u) = .ok (.postgresql, kwargs) ∧
        Dict.get? kwargs "password" = some (.str "p%40ss") := by
  refine ⟨⟨"postgresql".toList, some ("scott".toList, some "p%40ss".toList), .name "db".toList,
    .none, "/shop".toList, [], []⟩, by constructor <;> decide +kernel, by decide +kernel, ?_, _, rfl, ?_⟩
    <;> decide +kernel

/-! ## Supported and unsupported schemes -/

/-- **C46** (partial): the URL that `parse_url` makes of a MySQL, PostgreSQL or Snowflake URL is
accepted by `create_client`, with the same client.  Missing: the schemes of the Confluent registry
and of Hive, where it is false (`C46_registry_refuted`, `C46_hive_refuted`); for BigQuery and SQLite
see `C46_bigquery_partial` and `C46_sqlite_partial`. -/
theorem C46_server_partial (env : Env) (mysqlArgs : List String) (cs : List Parts) (u : Parts)
    (c : Client) (strict : Bool) (conn : Chars) (args : List PyVal) (method : String)
    (hm : ∀ k ∈ mysqlCore, k ∈ mysqlArgs) (wcs : ∀ c ∈ cs, WellFormed env c)
    (wu : WellFormed env u) (hs : Server c u.scheme)
    (hh : u.host ≠ .name []) (hdot : (pieces u.path).head? ≠ some ['.'])
    (hq : Silent env reserved u.query) (hcs : ∀ c ∈ cs, Silent env reserved c.query)
    (hmeth : method = "ls" ∨ method = "schema")
    (h1 : parseUrl env (cs.map render) method (render u) strict = .ok (conn, args)) :
    ∃ kwargs, createClient env mysqlArgs conn = .ok (c, kwargs) := by
  have hpl := server_plain hs
  have hok : ∃ args', parseClient env c method (dictOf env u) = .ok (render (databaseUrl u), args') := by
    cases hpc : parseClient env c method (dictOf env u) with
    | error e =>
      simp only [parseUrl, parsed wu hs, bind, Except.bind, clientOf_dict hq hpl.2.2.2, hpc] at h1
      cases h1
    | ok r =>
      rcases hmeth with rfl | rfl
      · rw [parse_ls wu hs hh hq] at hpc
        split at hpc <;> cases hpc
        exact ⟨_, rfl⟩
      · rw [parse_schema wu hs hh hq] at hpc
        split at hpc <;> cases hpc <;> exact ⟨_, rfl⟩
  obtain ⟨args', hp⟩ := hok
  have := through mysqlArgs cs method strict c _ hm wcs wu hs hh hdot hq hcs hp
  split at this
  · rw [this] at h1; cases h1
  · obtain ⟨conn', kwargs', e1, e2, _⟩ := this
    rw [h1] at e1
    cases e1
    exact ⟨kwargs', e2⟩

/-- A URL of a Confluent registry is turned into an HTTP URL, for which there is no client. -/
theorem C46_registry_refuted :
    parseUrl asciiEnv [] "ls" "http+csr://registry:8081".toList false =
      .ok ("http://registry:8081".toList, []) ∧
    createClient asciiEnv mysqlCore "http://registry:8081".toList = .error .valueError ∧
    parseUrl asciiEnv [] "schema" "https+csr://registry/topic".toList false =
      .ok ("https://registry".toList, [.str "topic"]) ∧
    createClient asciiEnv mysqlCore "https://registry".toList = .error .valueError := by
  refine ⟨rfl, rfl, rfl, rfl⟩

/-- So is a URL of a Hive metastore. -/
theorem C46_hive_refuted :
    parseUrl asciiEnv [] "ls" "thrift+hms://hive:9083/db".toList false =
      .ok ("thrift://hive:9083".toList, [.str "db"]) ∧
    createClient asciiEnv mysqlCore "thrift://hive:9083".toList = .error .valueError := by
  refine ⟨rfl, rfl⟩

/-- The scheme in the dictionary of a URL. -/
theorem urlToDict_scheme (wu : WellFormed env u) (hq : Silent env ["scheme"] u.query) :
    urlToDict env (render u) = .error .valueError ∨
      ∃ d, urlToDict env (render u) = .ok d ∧ Dict.get? d "scheme" = some (str u.scheme) := by
  have hup : ∃ s params, urlparse env (render u) = .ok (s, params) ∧ s.scheme = u.scheme ∧
      s.netloc = netlocText u ∧ s.query = u.query := by
    simp only [urlparse, urlsplit_render wu, bind, Except.bind, pure, Except.pure]
    split
    · split <;> exact ⟨_, _, rfl, rfl, rfl, rfl⟩
    · exact ⟨_, _, rfl, rfl, rfl, rfl⟩
  obtain ⟨s, params, h1, h2, h3, h4⟩ := hup
  have hport : port s = .ok u.port := by
    have := port_split wu
    rw [port] at this ⊢
    rw [h3]; exact this
  simp only [urlToDict, h1, hport, bind, Except.bind]
  cases hd : dialect s.scheme (render u) with
  | error e =>
    left
    rw [dialect] at hd
    split at hd
    · split at hd <;> cases hd; rfl
    · cases hd
  | ok r =>
    obtain ⟨extra, url⟩ := r
    right
    refine ⟨_, rfl, ?_⟩
    have hq' : (parseQs env s.query) = parseQs env u.query := by rw [h4]
    rw [show ((parseQs env s.query).map (fun kv => (String.ofList kv.1, paramVal kv.2))) =
      queryDict (parseQs env u.query) by rw [hq']; rfl]
    rw [get?_update' _ _ _ (queryDict_nodup (proper_parseQs env u.query).1), get?_queryDict,
      hq "scheme" (by simp)]
    have hbase : Dict.get? (baseDict env s params u.port ++ extra) "scheme" = some (str u.scheme) := by
      simp [baseDict, Dict.get?, h2]
    have hstep : ∀ (d : Dict) (k : String) (v : PyVal), k ≠ "scheme" →
        Dict.get? d "scheme" = some (str u.scheme) →
        Dict.get? (Dict.set d k v) "scheme" = some (str u.scheme) :=
      fun d k v hk h => by rw [Dict.get?_set_ne _ _ hk]; exact h
    simp only [Option.map_none, Option.none_or]
    refine hstep _ _ _ (by decide) (hstep _ _ _ (by decide) (hstep _ _ _ (by decide) ?_))
    have h5 : Dict.get? (if present (username s) = true then
        Dict.set (baseDict env s params u.port ++ extra) "user" (optStr (username s))
        else baseDict env s params u.port ++ extra) "scheme" = some (str u.scheme) := by
      split
      · exact hstep _ _ _ (by decide) hbase
      · exact hbase
    split
    · exact hstep _ _ _ (by decide) h5
    · exact h5

/-- **C47** (partial): a URL whose scheme has no client is refused with a `ValueError`, by
`create_client` and by `parse_url`, whatever is configured.  Missing: URLs with a query parameter
`scheme`, where it is false (`C47_parameter_refuted`). -/
theorem C47_unsupported_partial (env : Env) (mysqlArgs : List String) (urls : List Chars) (u : Parts)
    (method : String) (strict : Bool) (wu : WellFormed env u)
    (hs : String.ofList u.scheme ∉ clients.map (·.1)) (hq : Silent env ["scheme"] u.query) :
    createClient env mysqlArgs (render u) = .error .valueError ∧
    parseUrl env urls method (render u) strict = .error .valueError := by
  have hl : clients.lookup (String.ofList u.scheme) = .none := by
    rw [List.lookup_eq_none_iff]
    intro kv hkv
    simp only [bne_iff_ne, ne_eq]
    intro he
    exact hs (List.mem_map.mpr ⟨kv, hkv, he.symm⟩)
  rcases urlToDict_scheme wu hq with h | ⟨d, h, hd⟩
  · simp [createClient, parseUrl, h, bind, Except.bind]
  · have hc : clientOf d = .error .valueError := by
      rw [clientOf, hd]; simp only [str, hl]
    simp [createClient, parseUrl, h, hc, bind, Except.bind]

/-- The hypotheses are met by schemes that look supported. -/
example : String.ofList "postgres".toList ∉ clients.map (·.1) ∧
    String.ofList "http".toList ∉ clients.map (·.1) := by decide +kernel

/-- A query parameter replaces the scheme. -/
theorem C47_parameter_refuted :
    createClient asciiEnv mysqlCore "ftp://x?scheme=file".toList =
      .ok (.filesystem, [("scheme", .str "file")]) ∧
    createClient asciiEnv mysqlCore "ftp://x?scheme=file&scheme=ftp".toList = .error .typeError := by
  exact ⟨rfl, rfl⟩

end Recap.Clients
