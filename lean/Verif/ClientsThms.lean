import Verif.ClientsLemmas
import Verif.SettingsThms

/-!
# Properties of the clients of databases

C46, C47, C86 to C92.  A URL is `render u` for well-formed parts `u` (`SettingsSpec`).
-/

set_option autoImplicit false

namespace Recap.Clients

open Recap.Url Recap.Url.Spec Spec

variable {env : Env} {u : Parts}

/-- Arguments that every version of the MySQL connector takes (`DEFAULT_CONFIGURATION`). -/
def mysqlCore : List String := ["host", "port", "user", "password", "database"]

theorem database_host (u : Parts) : (databaseUrl u).host = u.host := rfl

theorem target_ne {cs : List Parts} (wu : WellFormed env u) (wcs : ∀ c ∈ cs, WellFormed env c)
    (hh : u.host ≠ .name []) : (target env cs u).host ≠ .name [] := by
  have h1 : (lowerHost u.host).text ≠ [] := by
    rw [lowerHost_text]; exact fun h => text_of_host wu hh ((lowerText_nil _).mp h)
  intro h
  have h2 := target_host (env := env) cs u
  rw [h] at h2
  exact h1 h2.symm

/-- Parsing, matching against the settings and connecting, for any method. -/
theorem through (mysqlArgs : List String) (cs : List Parts) (method : String) (strict : Bool)
    (c : Client) (args : List PyVal)
    (hm : ∀ k ∈ mysqlCore, k ∈ mysqlArgs) (wcs : ∀ c ∈ cs, WellFormed env c) (wu : WellFormed env u)
    (hs : Server c u.scheme) (hh : u.host ≠ .name []) (hdot : (pieces u.path).head? ≠ some ['.'])
    (hq : Silent env reserved u.query) (hcs : ∀ c ∈ cs, Silent env reserved c.query)
    (hp : parseClient env c method (dictOf env u) = .ok (render (databaseUrl u), args)) :
    if strict = true ∧ chosen cs (databaseUrl u) = .none then
      parseUrl env (cs.map render) method (render u) strict = .error .valueError
    else ∃ conn kwargs, parseUrl env (cs.map render) method (render u) strict = .ok (conn, args) ∧
      createClient env mysqlArgs conn = .ok (c, kwargs) ∧
      GivenHost kwargs (hostKey c) u.host ∧ GivenPort kwargs u.port ∧
      GivenCredentials kwargs (credentials cs (databaseUrl u)) ∧
      (c ≠ .snowflake → GivenDatabase kwargs (databaseKey c) u.path) := by
  have wd := database_wf wu
  have hpl := server_plain hs
  have hpu : parseUrl env (cs.map render) method (render u) strict =
      if strict = true ∧ chosen cs (databaseUrl u) = .none then .error .valueError
      else .ok (render (target env cs (databaseUrl u)), args) := by
    simp only [parseUrl, parsed wu hs, bind, Except.bind, clientOf_dict hq hpl.2.2.2, hp,
      unsafeUrl_target wd wcs hpl.2.2.1 strict, pure, Except.pure]
    by_cases h : strict = true ∧ chosen cs (databaseUrl u) = .none
    · rw [if_pos h, if_pos h]
    · rw [if_neg h, if_neg h]
  rw [hpu]
  by_cases h : strict = true ∧ chosen cs (databaseUrl u) = .none
  · rw [if_pos h, if_pos h]
  · rw [if_neg h, if_neg h]
    have hts : Server c (target env cs (databaseUrl u)).scheme := by rw [target_scheme]; exact hs
    obtain ⟨kwargs, h1, h2, h3, h4, h5⟩ := connect (target_wf wd wcs) hts (target_ne wd wcs hh)
      (target_silent hq hcs) mysqlArgs hm
    refine ⟨_, kwargs, rfl, h1, ?_, ?_, ?_, ?_⟩
    · unfold GivenHost at h2 ⊢; rw [h2, target_host]; rfl
    · rw [target_port] at h3; exact h3
    · rw [target_user] at h4; exact h4
    · intro hc a ha
      have := h5 hc a
      rw [target_path cs hdot, pieces_database] at this
      apply this
      cases hp' : pieces u.path with
      | nil => rw [hp'] at ha; exact ha
      | cons b rest => rw [hp'] at ha; simpa using ha

/-! ## Reading a table -/

/-- **C87** for PostgreSQL: the schema of `postgresql://host/catalog/schema/table` is read from that
table, over a connection to that host, port and database, with the credentials of the first
configured URL that covers the database, or those of the URL itself.  Strict mode refuses what is
not configured. -/
theorem C87_postgresql (env : Env) (mysqlArgs : List String) (cs : List Parts) (u : Parts)
    (strict : Bool) (catalog schema table : Chars) (rest : List Chars)
    (hm : ∀ k ∈ mysqlCore, k ∈ mysqlArgs)
    (wcs : ∀ c ∈ cs, WellFormed env c) (wu : WellFormed env u)
    (hs : u.scheme = "postgresql".toList) (hh : u.host ≠ .name [])
    (hp : pieces u.path = catalog :: schema :: table :: rest) (hdot : catalog ≠ ['.'])
    (hq : Silent env reserved u.query) (hcs : ∀ c ∈ cs, Silent env reserved c.query) :
    if strict = true ∧ chosen cs (databaseUrl u) = .none then
      reading env mysqlArgs (cs.map render) (render u) strict = .error .valueError
    else ∃ kwargs, reading env mysqlArgs (cs.map render) (render u) strict =
        .ok (.postgresql, kwargs, .table (text catalog) (text schema) (text table)) ∧
      GivenHost kwargs "host" u.host ∧ GivenPort kwargs u.port ∧
      GivenCredentials kwargs (credentials cs (databaseUrl u)) ∧
      Dict.get? kwargs "dbname" = some (text catalog) := by
  have hsv : Server .postgresql u.scheme := Or.inr (Or.inl ⟨rfl, hs⟩)
  have hps := parse_schema wu hsv hh hq
  rw [hp] at hps
  have := through mysqlArgs cs "schema" strict .postgresql _ hm wcs wu hsv hh
    (by rw [hp]; simpa using hdot) hq hcs hps
  split at this <;> rename_i h
  · rw [if_pos h]; simp only [reading, this, bind, Except.bind]
  · rw [if_neg h]
    obtain ⟨conn, kwargs, h1, h2, h3, h4, h5, h6⟩ := this
    refine ⟨kwargs, ?_, h3, h4, h5, ?_⟩
    · simp only [reading, h1, h2, bind, Except.bind, schemaOf, pure, Except.pure]; rfl
    · exact h6 (by decide) catalog (by rw [hp]; simp)

/-- **C87** for MySQL, whose tables are in the catalog `def`: `mysql://host/schema/table`. -/
theorem C87_mysql (env : Env) (mysqlArgs : List String) (cs : List Parts) (u : Parts)
    (strict : Bool) (schema table : Chars) (rest : List Chars)
    (hm : ∀ k ∈ mysqlCore, k ∈ mysqlArgs)
    (wcs : ∀ c ∈ cs, WellFormed env c) (wu : WellFormed env u)
    (hs : u.scheme = "mysql".toList) (hh : u.host ≠ .name [])
    (hp : pieces u.path = schema :: table :: rest) (hdot : schema ≠ ['.'])
    (hq : Silent env reserved u.query) (hcs : ∀ c ∈ cs, Silent env reserved c.query) :
    if strict = true ∧ chosen cs (databaseUrl u) = .none then
      reading env mysqlArgs (cs.map render) (render u) strict = .error .valueError
    else ∃ kwargs, reading env mysqlArgs (cs.map render) (render u) strict =
        .ok (.mysql, kwargs, .table (.str "def") (text schema) (text table)) ∧
      GivenHost kwargs "host" u.host ∧ GivenPort kwargs u.port ∧
      GivenCredentials kwargs (credentials cs (databaseUrl u)) ∧
      Dict.get? kwargs "database" = some (text schema) := by
  have hsv : Server .mysql u.scheme := Or.inl ⟨rfl, hs⟩
  have hps := parse_schema wu hsv hh hq
  rw [hp] at hps
  have := through mysqlArgs cs "schema" strict .mysql _ hm wcs wu hsv hh
    (by rw [hp]; simpa using hdot) hq hcs hps
  split at this <;> rename_i h
  · rw [if_pos h]; simp only [reading, this, bind, Except.bind]
  · rw [if_neg h]
    obtain ⟨conn, kwargs, h1, h2, h3, h4, h5, h6⟩ := this
    refine ⟨kwargs, ?_, h3, h4, h5, ?_⟩
    · simp only [reading, h1, h2, bind, Except.bind, schemaOf, pure, Except.pure]; rfl
    · exact h6 (by decide) schema (by rw [hp]; simp)

/-- **C87** for Snowflake (partial): as for PostgreSQL, with the host as the account.  Missing: the
database, which the driver is not given (`C87_snowflake_refuted`). -/
theorem C87_snowflake_partial (env : Env) (mysqlArgs : List String) (cs : List Parts) (u : Parts)
    (strict : Bool) (catalog schema table : Chars) (rest : List Chars)
    (hm : ∀ k ∈ mysqlCore, k ∈ mysqlArgs)
    (wcs : ∀ c ∈ cs, WellFormed env c) (wu : WellFormed env u)
    (hs : u.scheme = "snowflake".toList) (hh : u.host ≠ .name [])
    (hp : pieces u.path = catalog :: schema :: table :: rest) (hdot : catalog ≠ ['.'])
    (hq : Silent env reserved u.query) (hcs : ∀ c ∈ cs, Silent env reserved c.query) :
    if strict = true ∧ chosen cs (databaseUrl u) = .none then
      reading env mysqlArgs (cs.map render) (render u) strict = .error .valueError
    else ∃ kwargs, reading env mysqlArgs (cs.map render) (render u) strict =
        .ok (.snowflake, kwargs, .table (text catalog) (text schema) (text table)) ∧
      GivenHost kwargs "account" u.host ∧ GivenPort kwargs u.port ∧
      GivenCredentials kwargs (credentials cs (databaseUrl u)) := by
  have hsv : Server .snowflake u.scheme := Or.inr (Or.inr ⟨rfl, hs⟩)
  have hps := parse_schema wu hsv hh hq
  rw [hp] at hps
  have := through mysqlArgs cs "schema" strict .snowflake _ hm wcs wu hsv hh
    (by rw [hp]; simpa using hdot) hq hcs hps
  split at this <;> rename_i h
  · rw [if_pos h]; simp only [reading, this, bind, Except.bind]
  · rw [if_neg h]
    obtain ⟨conn, kwargs, h1, h2, h3, h4, h5, h6⟩ := this
    refine ⟨kwargs, ?_, h3, h4, h5⟩
    simp only [reading, h1, h2, bind, Except.bind, schemaOf, pure, Except.pure]; rfl

/-- A table of a PostgreSQL database. -/
def pgTable : Parts where
  scheme := "postgresql".toList
  host := .name "db.example.com".toList
  port := some 5432
  path := "/sales/public/orders".toList
  query := "sslmode=require".toList

theorem pgTable_wf : WellFormed asciiEnv pgTable := by constructor <;> decide +kernel

/-- The hypotheses of C87 are met by a table below the configured URL `fullUrl`, and this is what
is read and how. -/
example : pieces pgTable.path = ["sales".toList, "public".toList, "orders".toList] ∧
    Silent asciiEnv reserved pgTable.query ∧ Silent asciiEnv reserved fullUrl.query ∧
    chosen [fullUrl] (databaseUrl pgTable) = some fullUrl ∧
    (reading asciiEnv mysqlCore [render fullUrl] (render pgTable) true).toOption.map (·.2.1) =
      some [("password", .str "ti:g@er"), ("port", .int 5432), ("user", .str "scott"),
        ("host", .str "db.example.com"), ("sslmode", .str "require"), ("dbname", .str "sales")] := by
  refine ⟨?_, ?_, ?_, ?_, ?_⟩ <;> decide +kernel

/-- The Snowflake driver is not told the database of a table. -/
theorem C87_snowflake_refuted :
    ∃ kwargs, reading asciiEnv mysqlCore [] "snowflake://u:p@acc/shop/public/t".toList false =
      .ok (.snowflake, kwargs, .table (.str "shop") (.str "public") (.str "t")) ∧
      Dict.get? kwargs "database" = .none := by
  refine ⟨_, rfl, ?_⟩
  decide +kernel

/-! ## Listing -/

/-- What a URL with these names on its path should list. -/
def level (c : Client) (names : List Chars) : Option Listing :=
  match c, names with
  | .mysql, [] => some (.schemas "def")
  | .mysql, [schema] => some (.tables "def" (String.ofList schema))
  | .mysql, _ => .none
  | _, [] => some .catalogs
  | _, [catalog] => some (.schemas (String.ofList catalog))
  | _, [catalog, schema] => some (.tables (String.ofList catalog) (String.ofList schema))
  | _, _ => .none

/-- **C88** (partial): a database URL without a path lists the catalogs (for MySQL, the schemas), one
with a catalog its schemas, one with a schema its tables; for PostgreSQL and Snowflake a longer path
is refused.  Missing: MySQL lists the tables of the schema for a longer path
(`C88_mysql_refuted`). -/
theorem C88_levels_partial (env : Env) (mysqlArgs : List String) (cs : List Parts) (u : Parts)
    (strict : Bool) (c : Client) (hm : ∀ k ∈ mysqlCore, k ∈ mysqlArgs)
    (wcs : ∀ c ∈ cs, WellFormed env c) (wu : WellFormed env u) (hs : Server c u.scheme)
    (hh : u.host ≠ .name []) (hdot : (pieces u.path).head? ≠ some ['.'])
    (hq : Silent env reserved u.query) (hcs : ∀ c ∈ cs, Silent env reserved c.query)
    (hlong : c = .mysql → (pieces u.path).length ≤ 1) :
    match level c (pieces u.path) with
    | .none => listing env mysqlArgs (cs.map render) (render u) strict = .error .valueError
    | some l =>
      if strict = true ∧ chosen cs (databaseUrl u) = .none then
        listing env mysqlArgs (cs.map render) (render u) strict = .error .valueError
      else ∃ kwargs, listing env mysqlArgs (cs.map render) (render u) strict = .ok (c, kwargs, l) ∧
        GivenHost kwargs (hostKey c) u.host ∧ GivenPort kwargs u.port ∧
        GivenCredentials kwargs (credentials cs (databaseUrl u)) := by
  have hps := parse_ls wu hs hh hq
  have hpl := server_plain hs
  by_cases hlen : c ≠ .mysql ∧ 3 ≤ (pieces u.path).length
  · rw [if_pos hlen] at hps
    have : level c (pieces u.path) = .none := by
      obtain ⟨hc, hl⟩ := hlen
      match hp : pieces u.path with
      | [] => rw [hp] at hl; simp at hl
      | [_] => rw [hp] at hl; simp at hl
      | [_, _] => rw [hp] at hl; simp at hl
      | _ :: _ :: _ :: _ => cases c <;> simp [level] at hc ⊢
    rw [this]
    simp only [listing, parseUrl, parsed wu hs, bind, Except.bind, clientOf_dict hq hpl.2.2.2, hps]
  · rw [if_neg hlen] at hps
    have hls : ∃ l, level c (pieces u.path) = some l ∧ ls c (lsArgs c (pieces u.path)) = .ok l := by
      rcases hs with ⟨rfl, _⟩ | ⟨rfl, _⟩ | ⟨rfl, _⟩
      · have := hlong rfl
        match hp : pieces u.path with
        | [] => exact ⟨_, rfl, rfl⟩
        | [a] => exact ⟨_, rfl, rfl⟩
        | _ :: _ :: _ => rw [hp] at this; simp at this
      all_goals
        match hp : pieces u.path with
        | [] => exact ⟨_, rfl, rfl⟩
        | [a] => exact ⟨_, rfl, rfl⟩
        | [a, b] => exact ⟨_, rfl, rfl⟩
        | _ :: _ :: _ :: _ => exact absurd ⟨by decide, by rw [hp]; simp⟩ hlen
    obtain ⟨l, hl1, hl2⟩ := hls
    rw [hl1]
    simp only
    have := through mysqlArgs cs "ls" strict c _ hm wcs wu hs hh hdot hq hcs hps
    split at this <;> rename_i h
    · rw [if_pos h]; simp only [listing, this, bind, Except.bind]
    · rw [if_neg h]
      obtain ⟨conn, kwargs, h1, h2, h3, h4, h5, h6⟩ := this
      refine ⟨kwargs, ?_, h3, h4, h5⟩
      simp only [listing, h1, h2, bind, Except.bind, hl2, pure, Except.pure]

/-- The hypotheses are met: a PostgreSQL schema below a configured URL. -/
example : level .postgresql (pieces "/sales/public".toList) = some (.tables "sales" "public") ∧
    (listing asciiEnv mysqlCore [render fullUrl]
      "postgresql://db.example.com:5432/sales/public".toList true).toOption.map (·.2.2) =
      some (.tables "sales" "public") := by
  refine ⟨?_, ?_⟩ <;> decide +kernel

/-- Listing below a MySQL table gives the tables of the schema again. -/
theorem C88_mysql_refuted :
    (listing asciiEnv mysqlCore [] "mysql://u:p@db/shop/orders/id".toList false).toOption.map (·.2.2) =
      some (.tables "def" "shop") := by
  decide +kernel

/-! ## Strict mode -/

/-- **C86** (partial): whatever strict mode lists or reads, the driver is given the host and port of
a configured URL on the same server, and exactly the credentials of that URL.  Missing: requests and
configured URLs whose query has one of the parameters `reserved`, where it is false
(`C86_host_refuted`). -/
theorem C86_strict_partial (env : Env) (mysqlArgs : List String) (cs : List Parts) (u : Parts)
    (c cl : Client) (kwargs : Dict) (hm : ∀ k ∈ mysqlCore, k ∈ mysqlArgs)
    (wcs : ∀ c ∈ cs, WellFormed env c) (wu : WellFormed env u) (hs : Server c u.scheme)
    (hh : u.host ≠ .name []) (hdot : (pieces u.path).head? ≠ some ['.'])
    (hq : Silent env reserved u.query) (hcs : ∀ c ∈ cs, Silent env reserved c.query)
    (h : (∃ l, listing env mysqlArgs (cs.map render) (render u) true = .ok (cl, kwargs, l)) ∨
      ∃ s, reading env mysqlArgs (cs.map render) (render u) true = .ok (cl, kwargs, s)) :
    cl = c ∧ ∃ conf ∈ cs, SameServer conf u ∧ GivenHost kwargs (hostKey c) conf.host ∧
      GivenPort kwargs conf.port ∧ GivenCredentials kwargs conf.user := by
  have hpl := server_plain hs
  -- both go through `parse` and `create`
  have key : ∀ method args, parseClient env c method (dictOf env u) = .ok (render (databaseUrl u), args) →
      (∀ conn args', parseUrl env (cs.map render) method (render u) true = .ok (conn, args') →
        createClient env mysqlArgs conn = .ok (cl, kwargs)) →
      (∃ r, parseUrl env (cs.map render) method (render u) true = .ok r) →
      cl = c ∧ ∃ conf ∈ cs, SameServer conf u ∧ GivenHost kwargs (hostKey c) conf.host ∧
        GivenPort kwargs conf.port ∧ GivenCredentials kwargs conf.user := by
    intro method args hp hcc hok
    have := through mysqlArgs cs method true c _ hm wcs wu hs hh hdot hq hcs hp
    split at this <;> rename_i hch
    · obtain ⟨r, hr⟩ := hok; rw [this] at hr; cases hr
    · obtain ⟨conn, kwargs', h1, h2, h3, h4, h5, _⟩ := this
      rw [hcc _ _ h1] at h2
      cases h2
      refine ⟨rfl, ?_⟩
      cases hsome : chosen cs (databaseUrl u) with
      | none => exact absurd ⟨rfl, hsome⟩ hch
      | some conf =>
        obtain ⟨hm1, _, hcov⟩ := chosen_some hsome
        refine ⟨conf, hm1, hcov.1, ?_, ?_, ?_⟩
        · have : (lowerHost conf.host).text = (lowerHost u.host).text := hcov.1.2.1
          unfold GivenHost at h3 ⊢; rw [h3, this]
        · have : conf.port = u.port := hcov.1.2.2
          rw [this]; exact h4
        · rw [credentials, hsome] at h5; exact h5
  rcases h with ⟨l, h⟩ | ⟨s, h⟩
  · have hps := parse_ls wu hs hh hq
    by_cases hlen : c ≠ .mysql ∧ 3 ≤ (pieces u.path).length
    · rw [if_pos hlen] at hps
      simp only [listing, parseUrl, parsed wu hs, bind, Except.bind, clientOf_dict hq hpl.2.2.2, hps] at h
      cases h
    · rw [if_neg hlen] at hps
      simp only [listing, bind, Except.bind] at h
      cases hpu : parseUrl env (cs.map render) "ls" (render u) true with
      | error e => rw [hpu] at h; cases h
      | ok r =>
        rw [hpu] at h
        simp only at h
        refine key "ls" _ hps ?_ ⟨r, hpu⟩
        intro conn args' he
        rw [hpu] at he; cases he
        simp only at h
        cases hcr : createClient env mysqlArgs conn with
        | error e => rw [hcr] at h; cases h
        | ok x =>
          rw [hcr] at h
          simp only at h
          cases hl : ls x.1 args' with
          | error e => rw [hl] at h; cases h
          | ok y => rw [hl] at h; cases h; rfl
  · have hps := parse_schema wu hs hh hq
    have hok : ∃ args, parseClient env c "schema" (dictOf env u) = .ok (render (databaseUrl u), args) := by
      cases hpc : parseClient env c "schema" (dictOf env u) with
      | error e =>
        simp only [reading, parseUrl, parsed wu hs, bind, Except.bind, clientOf_dict hq hpl.2.2.2, hpc] at h
        cases h
      | ok r =>
        rw [hpc] at hps
        split at hps <;> cases hps <;> exact ⟨_, rfl⟩
    obtain ⟨args, hps⟩ := hok
    simp only [reading, bind, Except.bind] at h
    cases hpu : parseUrl env (cs.map render) "schema" (render u) true with
    | error e => rw [hpu] at h; cases h
    | ok r =>
      rw [hpu] at h
      simp only at h
      refine key "schema" _ hps ?_ ⟨r, hpu⟩
      intro conn args' he
      rw [hpu] at he; cases he
      simp only at h
      cases hcr : createClient env mysqlArgs conn with
      | error e => rw [hcr] at h; cases h
      | ok x =>
        rw [hcr] at h
        simp only at h
        cases hl : schemaOf env x.1 args' with
        | error e => rw [hl] at h; cases h
        | ok y => rw [hl] at h; cases h; rfl

/-- A query parameter of the request replaces the configured host: strict mode sends the configured
user and password to any host. -/
theorem C86_host_refuted :
    ∃ kwargs, listing asciiEnv mysqlCore ["mysql://root:secret@db/".toList]
        "mysql://db/shop?host=evil.example.com".toList true = .ok (.mysql, kwargs, .tables "def" "shop") ∧
      Dict.get? kwargs "host" = some (.str "evil.example.com") ∧
      Dict.get? kwargs "user" = some (.str "root") ∧
      Dict.get? kwargs "password" = some (.str "secret") := by
  refine ⟨_, rfl, ?_, ?_, ?_⟩ <;> decide +kernel

/-- The hypotheses of C86 are met. -/
example : ∃ kwargs s, reading asciiEnv mysqlCore [render fullUrl] (render pgTable) true =
    .ok (.postgresql, kwargs, s) := ⟨_, _, rfl⟩

end Recap.Clients
