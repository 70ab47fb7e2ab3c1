import Verif.ListedSpec
import Verif.ClientsThms
import Verif.ClientsThms4
import Verif.SqliteThms

/-!
# C127: what is listed can be read
-/

set_option autoImplicit false

namespace Recap.Listed

open Recap.Url Recap.Url.Spec Recap.Clients Recap.Clients.Spec Recap.Listed.Spec Recap.Relational

/-! ## Helpers -/

theorem splitOn_below (p t : Chars) : splitOn '/' (p ++ '/' :: t) = splitOn '/' p ++ splitOn '/' t := by
  induction p with
  | nil => simp [splitOn]
  | cons c cs ih =>
    simp only [List.cons_append, splitOn, ih]
    split
    · rfl
    · cases h : splitOn '/' cs with
      | nil => exact absurd h (splitOn_ne _ _)
      | cons a as => simp

theorem pieces_below (p : Chars) {t : Chars} (h : Segment t) : pieces (p ++ '/' :: t) = pieces p ++ [t] := by
  rw [pieces, pieces, splitOn_below, splitOn_none (fun c hc => (h.2 c hc).1), List.filter_append]
  simp [h.1]

theorem below_wf {env : Env} {u : Parts} {t : Chars} (wu : WellFormed env u) (ht : Segment t)
    (hp : pieces u.path ≠ []) : WellFormed env (below u t) := by
  have hne : u.path ≠ [] := by
    intro h; rw [h] at hp; exact hp rfl
  obtain ⟨c, cs, hc⟩ := List.exists_cons_of_ne_nil hne
  have hcs : cs ≠ [] := by
    rintro rfl
    rcases wu.path_start with h | h
    · exact hne h
    · rw [hc] at h
      simp only [List.head?_cons, Option.some.injEq] at h
      subst h
      rw [hc] at hp
      exact hp rfl
  obtain ⟨d, ds, hd⟩ := List.exists_cons_of_ne_nil hcs
  refine { wu with path_start := ?_, path_single := ?_, path_chars := ?_ }
  · have := wu.path_start
    rw [hc] at this
    simp only [below, hc]
    simpa using this
  · have := wu.path_single
    rw [hc, hd] at this
    simp only [below, hc, hd]
    simpa using this
  · intro x hx
    simp only [below, List.mem_append, List.mem_cons] at hx
    rcases hx with hx | rfl | hx
    · exact wu.path_chars x hx
    · decide
    · exact (ht.2 x hx).2

theorem database_below {u : Parts} {t : Chars} (ht : Segment t) (hp : pieces u.path ≠ []) :
    databaseUrl (below u t) = databaseUrl u := by
  cases h : pieces u.path with
  | nil => exact absurd h hp
  | cons a as =>
    simp only [databaseUrl, below, pieces_below u.path ht, h, List.cons_append]

/-! ## Databases with an `information_schema` -/

/-- **C127** for PostgreSQL, MySQL and Snowflake (partial): a table whose name can be written in a
URL is read by appending its name to the URL that lists it, over a connection to the same server
with the same credentials, and what is read are the columns of that table and no others.  The table is one
of the catalog and the schema that the URL names.

Missing: names with `/`, `?` or `#` (`C127_slash_refuted`), and MySQL URLs that go on after the
schema (`C127_mysql_refuted`), where it is false. -/
theorem C127_server_partial (env : Env) (mysqlArgs : List String) (cs : List Parts) (u : Parts)
    (strict : Bool) (c cl : Client) (kwargs : Dict) (catalog schema : String)
    (hm : ∀ k ∈ mysqlCore, k ∈ mysqlArgs)
    (wcs : ∀ c ∈ cs, WellFormed env c) (wu : WellFormed env u) (hs : Server c u.scheme)
    (hh : u.host ≠ .name []) (hdot : (pieces u.path).head? ≠ some ['.'])
    (hq : Silent env reserved u.query) (hcs : ∀ c ∈ cs, Silent env reserved c.query)
    (hlong : c = .mysql → (pieces u.path).length ≤ 1)
    (h : listing env mysqlArgs (cs.map render) (render u) strict =
      .ok (cl, kwargs, .tables catalog schema))
    (db : InfoSchema) (table : String) (hl : table ∈ namesOf db (.tables catalog schema))
    (ht : Segment table.toList) :
    (catalog, schema, table) ∈ db.tables ∧ cl = c ∧ ∃ kwargs' source,
      reading env mysqlArgs (cs.map render) (render (below u table.toList)) strict =
        .ok (c, kwargs', source) ∧
      rowsOf db source = OwnRows db catalog schema table ∧
      ∀ k ∈ [hostKey c, "port", "user", "password"], Dict.get? kwargs' k = Dict.get? kwargs k := by
  have h88 := C88_levels_partial env mysqlArgs cs u strict c hm wcs wu hs hh hdot hq hcs hlong
  -- the names on the path
  have key : ∃ rest, (c = .mysql ∧ pieces u.path = [schema.toList] ∧ catalog = "def" ∧ rest = []) ∨
      (c ≠ .mysql ∧ pieces u.path = [catalog.toList, schema.toList] ∧ rest = ([] : List Chars)) := by
    refine ⟨[], ?_⟩
    cases hl : level c (pieces u.path) with
    | none => rw [hl] at h88; rw [h] at h88; cases h88
    | some l =>
      rw [hl] at h88
      have hl' : l = .tables catalog schema := by
        simp only at h88
        split at h88
        · rw [h] at h88; cases h88
        · obtain ⟨k, h1, _⟩ := h88
          rw [h] at h1; cases h1; rfl
      subst hl'
      rcases hs with ⟨rfl, _⟩ | ⟨rfl, _⟩ | ⟨rfl, _⟩
      · left
        match hp : pieces u.path with
        | [] => rw [hp] at hl; simp [level] at hl
        | [s] =>
          rw [hp] at hl
          simp only [level, Option.some.injEq, Listing.tables.injEq] at hl
          exact ⟨rfl, by rw [← hl.2]; simp, hl.1.symm, rfl⟩
        | _ :: _ :: _ => rw [hp] at hl; simp [level] at hl
      all_goals
        right
        match hp : pieces u.path with
        | [] => rw [hp] at hl; simp [level] at hl
        | [s] => rw [hp] at hl; simp [level] at hl
        | [a, s] =>
          rw [hp] at hl
          simp only [level, Option.some.injEq, Listing.tables.injEq] at hl
          exact ⟨by simp, by rw [← hl.1, ← hl.2]; simp, rfl⟩
        | _ :: _ :: _ :: _ => rw [hp] at hl; simp [level] at hl
  obtain ⟨rest, key⟩ := key
  have hp : pieces u.path ≠ [] := by
    rcases key with ⟨_, k, _⟩ | ⟨_, k, _⟩ <;> rw [k] <;> simp
  have hlv : level c (pieces u.path) = some (.tables catalog schema) := by
    rcases key with ⟨rfl, k, rfl, _⟩ | ⟨hc, k, _⟩
    · rw [k]; simp [level]
    · rw [k]
      rcases hs with ⟨rfl, _⟩ | ⟨rfl, _⟩ | ⟨rfl, _⟩
      · exact absurd rfl hc
      · simp [level]
      · simp [level]
  rw [hlv] at h88
  simp only at h88
  split at h88
  · rw [h] at h88; cases h88
  · rename_i hstrict
    obtain ⟨k, h1, g1, g2, g3⟩ := h88
    rw [h] at h1
    cases h1
    refine ⟨?_, rfl, ?_⟩
    · simp only [namesOf, List.mem_map, List.mem_filter, Bool.and_eq_true, beq_iff_eq] at hl
      obtain ⟨⟨a, b, t⟩, ⟨ha, rfl, rfl⟩, rfl⟩ := hl
      exact ha
    have wb := below_wf wu ht hp
    have hd := database_below ht hp
    have hpb := pieces_below u.path ht
    -- in all cases the URL of the table is read with these arguments
    have hps := parse_schema (u := below u table.toList) wb hs hh hq
    have hargs : ∃ args, parseClient env c "schema" (dictOf env (below u table.toList)) =
          .ok (render (databaseUrl (below u table.toList)), args) ∧
        schemaOf env c args = .ok (.table (.str catalog) (.str schema) (.str table)) := by
      rw [hps]
      rcases key with ⟨rfl, k, rfl, _⟩ | ⟨hc, k, _⟩
      · refine ⟨[Clients.str schema.toList, Clients.str table.toList], ?_, ?_⟩
        · simp only [below, hpb, k]; rfl
        · simp [schemaOf, Clients.str]
      · rcases hs with ⟨rfl, _⟩ | ⟨rfl, _⟩ | ⟨rfl, _⟩
        · exact absurd rfl hc
        all_goals
          refine ⟨[Clients.str catalog.toList, Clients.str schema.toList, Clients.str table.toList],
            ?_, ?_⟩
          · simp only [below, hpb, k]; rfl
          · simp [schemaOf, Clients.str]
    obtain ⟨args, ha, hsrc⟩ := hargs
    have hdot' : (pieces (below u table.toList).path).head? ≠ some ['.'] := by
      simp only [below, hpb]
      cases hpc : pieces u.path with
      | nil => exact absurd hpc hp
      | cons a as => rw [hpc] at hdot; simpa using hdot
    have := through (u := below u table.toList) mysqlArgs cs "schema" strict c args hm wcs wb hs hh hdot'
      hq hcs ha
    rw [hd, if_neg hstrict] at this
    obtain ⟨conn, kw, e1, e2, e3, e4, e5, _⟩ := this
    refine ⟨kw, .table (.str catalog) (.str schema) (.str table), ?_, ?_, ?_⟩
    · simp only [reading, e1, e2, bind, Except.bind, hsrc, pure, Except.pure]
    · simp only [rowsOf, OwnRows]
      congr 2
      funext x
      grind
    · have e6 : Dict.get? kw (hostKey c) = Dict.get? kwargs (hostKey c) := e3.trans g1.symm
      have e7 : Dict.get? kw "port" = Dict.get? kwargs "port" := e4.trans g2.symm
      have e8 : Dict.get? kw "user" = Dict.get? kwargs "user" := e5.1.trans g3.1.symm
      have e9 : Dict.get? kw "password" = Dict.get? kwargs "password" := e5.2.trans g3.2.symm
      simp only [List.mem_cons, List.not_mem_nil, or_false]
      rintro k (rfl | rfl | rfl | rfl) <;> assumption

/-- The schema `sales/public` and a table in it. -/
def shopUrl : Parts where
  scheme := "postgresql".toList
  host := .name "db.example.com".toList
  port := some 5432
  path := "/sales/public".toList

def shop : InfoSchema where
  tables := [("sales", "public", "orders"), ("sales", "private", "orders"), ("sales", "public", "a/b"),
    ("sales", "public", "a")]
  columns := [⟨"sales", "private", "orders", [("COLUMN_NAME", .str "secret")]⟩,
    ⟨"sales", "public", "orders", [("COLUMN_NAME", .str "id")]⟩,
    ⟨"sales", "public", "a", [("COLUMN_NAME", .str "x")]⟩,
    ⟨"sales", "public", "a/b", [("COLUMN_NAME", .str "y")]⟩]

/-- The hypotheses are met: the table `orders` is listed, and its column is read. -/
example : WellFormed asciiEnv shopUrl ∧ Silent asciiEnv reserved shopUrl.query ∧
    (listing asciiEnv mysqlCore [render fullUrl] (render shopUrl) true).toOption.map (·.2.2) =
      some (.tables "sales" "public") ∧
    namesOf shop (.tables "sales" "public") = ["orders", "a/b", "a"] ∧
    Segment "orders".toList ∧
    (reading asciiEnv mysqlCore [render fullUrl] (render (below shopUrl "orders".toList)) true).toOption.map
      (fun r => rowsOf shop r.2.2) = some [[("COLUMN_NAME", .str "id")]] := by
  refine ⟨by constructor <;> decide +kernel, ?_, ?_, ?_, ?_, ?_⟩ <;> decide +kernel

/-- A table named `a/b` is listed, and appending its name to the URL gives another table. -/
example : "a/b" ∈ namesOf shop (.tables "sales" "public") ∧
    (reading asciiEnv mysqlCore [render fullUrl] (render (below shopUrl "a/b".toList)) true).toOption.map
      (fun r => rowsOf shop r.2.2) = some [[("COLUMN_NAME", .str "x")]] := by
  refine ⟨?_, ?_⟩ <;> decide +kernel

/-- **C127** is false of every table with a slash in its name: no URL of its database reads it,
however the name is written. -/
theorem C127_slash_refuted (env : Env) (mysqlArgs : List String) (urls : List Chars) (u : Parts)
    (strict : Bool) (c : Client) (wu : WellFormed env u) (hs : Server c u.scheme)
    (hh : u.host ≠ .name []) (hq : Silent env reserved u.query) (table : String)
    (ht : '/' ∈ table.toList) (cl : Client) (kwargs : Dict) (catalog schema : PyVal) :
    reading env mysqlArgs urls (render u) strict ≠ .ok (cl, kwargs, .table catalog schema (.str table)) := by
  intro h
  have hps := parse_schema wu hs hh hq
  have hpl := server_plain hs
  simp only [reading, parseUrl, parsed wu hs, bind, Except.bind, clientOf_dict hq hpl.2.2.2, hps] at h
  have harg : ∀ a ∈ (pieces u.path).map Clients.str, a ≠ .str table := by
    intro a ha e
    obtain ⟨p, hp, rfl⟩ := List.mem_map.mp ha
    have e' : p = table.toList := by
      simp only [Clients.str, PyVal.str.injEq] at e
      rw [← e]; simp
    have hmem : p ∈ splitOn '/' u.path := (List.mem_filter.mp hp).1
    rw [e'] at hmem
    exact (splitOn_mem u.path _ hmem _ ht).1 rfl
  have step : ∀ args : List PyVal, (∀ a ∈ args, a ≠ .str table) →
      schemaOf env cl args ≠ .ok (.table catalog schema (.str table)) := by
    intro args ha e
    unfold schemaOf at e
    repeat' split at e
    all_goals first
      | cases e; exact ha _ (by simp) rfl
      | cases e
      | (simp only [bind, Except.bind, pure, Except.pure] at e; split at e <;> cases e)
  -- whatever was parsed
  have fin : ∀ (conn : Chars) (args : List PyVal), (∀ a ∈ args, a ≠ .str table) →
      (match unsafeUrl env urls conn strict with
        | .error e => (.error e : Except PyErr (Client × Dict × Source))
        | .ok v => match createClient env mysqlArgs v with
          | .error e => .error e
          | .ok w => match schemaOf env w.1 args with
            | .error e => .error e
            | .ok x => .ok (w.1, w.2, x)) ≠ .ok (cl, kwargs, .table catalog schema (.str table)) := by
    intro conn args ha e
    split at e
    · cases e
    · split at e
      · cases e
      · split at e
        · cases e
        · rename_i w _ _ x hx
          cases e
          exact step args ha hx
  generalize hpc : pieces u.path = ps at h harg
  rcases hs with ⟨rfl, _⟩ | ⟨rfl, _⟩ | ⟨rfl, _⟩
  · match ps with
    | [] => simp at h
    | [_] => simp at h
    | a :: b :: _ =>
      refine fin (render (databaseUrl u)) [Clients.str a, Clients.str b] (fun x hx => harg x ?_) ?_
      · simp at hx ⊢; grind
      · simp only at h
        rw [← h]
        cases unsafeUrl env urls (render (databaseUrl u)) strict with
        | error e => rfl
        | ok v =>
          simp only [pure, Except.pure]
          cases createClient env mysqlArgs v with
          | error e => rfl
          | ok w =>
            simp only
            cases schemaOf env w.1 [Clients.str a, Clients.str b] <;> rfl
  all_goals
    match ps with
    | [] => simp at h
    | [_] => simp at h
    | [_, _] => simp at h
    | a :: b :: t :: _ =>
      refine fin (render (databaseUrl u)) [Clients.str a, Clients.str b, Clients.str t]
        (fun x hx => harg x ?_) ?_
      · simp at hx ⊢; grind
      · simp only at h
        rw [← h]
        cases unsafeUrl env urls (render (databaseUrl u)) strict with
        | error e => rfl
        | ok v =>
          simp only [pure, Except.pure]
          cases createClient env mysqlArgs v with
          | error e => rfl
          | ok w =>
            simp only
            cases schemaOf env w.1 [Clients.str a, Clients.str b, Clients.str t] <;> rfl

/-- A MySQL URL that goes on after the schema lists the tables of the schema, but appending the name
of one of them reads another table. -/
theorem C127_mysql_refuted :
    (listing asciiEnv mysqlCore [] "mysql://u:p@db/shop/orders".toList false).toOption.map (·.2.2) =
      some (.tables "def" "shop") ∧
    ((reading asciiEnv mysqlCore [] "mysql://u:p@db/shop/orders/items".toList false).toOption.map
      (fun r => rowsOf ⟨[("def", "shop", "orders"), ("def", "shop", "items")],
        [⟨"def", "shop", "orders", [("COLUMN_NAME", .str "id")]⟩,
          ⟨"def", "shop", "items", [("COLUMN_NAME", .str "sku")]⟩]⟩ r.2.2)) =
      some [[("COLUMN_NAME", .str "id")]] := by
  refine ⟨?_, ?_⟩ <;> decide +kernel

/-! ## SQLite -/

theorem takeWhile_all {p : Char → Bool} {s : Chars} (h : ∀ c ∈ s, p c = true) :
    s.takeWhile p = s ∧ s.dropWhile p = [] := by
  induction s with
  | nil => exact ⟨rfl, rfl⟩
  | cons c cs ih =>
    have := ih (fun x hx => h x (by simp [hx]))
    simp [h c (by simp), this]

theorem ordinary_chars {name : Chars} (h : Ordinary name) : (∀ x ∈ name, idChar x = true) ∧
    ∃ c cs, name = c :: cs ∧ idStart c = true ∧ (c == '"' || c == '`' || c == '\'') = false := by
  obtain ⟨h0, h1, h2⟩ := h
  obtain ⟨c, cs, rfl⟩ := List.exists_cons_of_ne_nil h0
  refine ⟨?_, c, cs, rfl, ?_, ?_⟩
  · intro x hx
    rcases h2 x hx with h | h | h <;> simp [idChar, Char.isAlphanum, h]
  · rcases h1 c (by simp) with h | h <;> simp [idStart, h]
  · rcases h1 c (by simp) with h | h
    · by_cases e1 : c = '"'
      · subst e1; exact absurd h (by decide)
      by_cases e2 : c = '`'
      · subst e2; exact absurd h (by decide)
      by_cases e3 : c = '\''
      · subst e3; exact absurd h (by decide)
      simp [e1, e2, e3]
    · subst h; rfl

theorem pragma_ordinary {reserved : Chars → Bool} {name : Chars} (h : Ordinary name) :
    pragmaName reserved name = if reserved name then .error .syntaxError else .ok name := by
  obtain ⟨hw, c, cs, rfl, hc, hq⟩ := ordinary_chars h
  simp only [pragmaName, hq, Bool.false_eq_true, ↓reduceIte, hc, takeWhile_all hw, closes, bind,
    Except.bind, pure, Except.pure]

theorem find_object {file : List Object} (hd : Distinct file) {o : Object} (ho : o ∈ file) :
    file.find? (fun x => sameName x.name o.name) = some o := by
  induction file with
  | nil => simp at ho
  | cons x xs ih =>
    rw [Distinct, List.pairwise_cons] at hd
    rcases List.mem_cons.mp ho with rfl | ho
    · simp [sameName]
    · have : sameName x.name o.name = false := by
        simpa [sameName] using hd.1 o ho
      simp only [List.find?_cons, this]
      exact ih hd.2 ho

/-- **C127** for SQLite (partial): a listed table with an ordinary name that is not a reserved word
is read from its own rows.  Missing: reserved words and names with other characters
(`C127_sqlite_reserved_refuted`, `C127_sqlite_space_refuted`, `C127_sqlite_quoted_refuted`), where it
is false. -/
theorem C127_sqlite_partial (cm : CaseMap) (reserved : Chars → Bool) (file : List Object)
    (hd : Distinct file) (name : Chars) (hl : name ∈ sqliteLs file) (hn : Ordinary name)
    (hr : reserved name = false) :
    ∃ o ∈ file, o.isTable = true ∧ o.name = name ∧
      sqliteRead cm reserved file name =
        match sqliteSchema cm o.rows with
        | .ok t => .ok t
        | .error e => .error (.converter e) := by
  simp only [sqliteLs, List.mem_map, List.mem_filter] at hl
  obtain ⟨o, ⟨ho, hot⟩, rfl⟩ := hl
  refine ⟨o, ho, hot, rfl, ?_⟩
  have he : tableExists file o.name = true := by
    simp only [tableExists, List.any_eq_true]
    exact ⟨o, ho, by simp [hot]⟩
  simp only [sqliteRead, he, ↓reduceIte, pragma_ordinary hn, hr, Bool.false_eq_true, bind,
    Except.bind, tableInfo, find_object hd ho]
  cases sqliteSchema cm o.rows <;> rfl

/-- A file with two tables and a view, one of which is read; the others have columns of their own. -/
example :
    let file : List Object := [⟨"v".toList, false, []⟩,
      ⟨"users".toList, true, [pragmaRow "id" "INTEGER" 1 0 .none]⟩,
      ⟨"Order_2".toList, true, [pragmaRow "sku" "TEXT" 0 0 .none]⟩]
    sqliteLs file = ["users".toList, "Order_2".toList] ∧ Ordinary "Order_2".toList ∧
    (sqliteRead asciiCase (fun w => w == "order".toList) file "Order_2".toList).toOption.isSome = true := by
  refine ⟨?_, ?_, ?_⟩ <;> decide +kernel

/-- A table named by a reserved word is listed and exists, but reading it fails: the name is not
quoted. -/
theorem C127_sqlite_reserved_refuted (cm : CaseMap) (reserved : Chars → Bool) (rows : List Dict)
    (name : Chars) (hn : Ordinary name) (hr : reserved name = true) :
    sqliteLs [⟨name, true, rows⟩] = [name] ∧
    sqliteRead cm reserved [⟨name, true, rows⟩] name = .error .syntaxError := by
  refine ⟨rfl, ?_⟩
  simp only [sqliteRead, tableExists, List.any_cons, BEq.rfl, Bool.and_self, Bool.true_or, ↓reduceIte,
    pragma_ordinary hn, hr, bind, Except.bind]

/-- So does a table whose name is two words. -/
theorem C127_sqlite_space_refuted (cm : CaseMap) (reserved : Chars → Bool) (rows : List Dict)
    (a b : Chars) (ha : Ordinary a) (hb : Ordinary b) :
    sqliteLs [⟨a ++ ' ' :: b, true, rows⟩] = [a ++ ' ' :: b] ∧
    sqliteRead cm reserved [⟨a ++ ' ' :: b, true, rows⟩] (a ++ ' ' :: b) = .error .syntaxError := by
  refine ⟨rfl, ?_⟩
  obtain ⟨hw, hs⟩ := ordinary_chars ha
  obtain ⟨_, hb'⟩ := ordinary_chars hb
  obtain ⟨c, cs, rfl, hc, hq⟩ := hs
  obtain ⟨d, ds, rfl, hd, _⟩ := hb'
  have ht : (c :: cs ++ ' ' :: d :: ds).takeWhile idChar = c :: cs ∧
      (c :: cs ++ ' ' :: d :: ds).dropWhile idChar = ' ' :: d :: ds := by
    have := takeWhile_all hw
    rw [List.takeWhile_append_of_pos hw, List.dropWhile_append_of_pos hw]
    have hsp : idChar ' ' = false := by decide
    simp [hsp]
  have hcl : closes (' ' :: d :: ds) = .error .syntaxError := by
    have h1 : sqlSpace ' ' = true := by decide
    have h2 : sqlSpace d = false ∧ (d == ')' || d == '-' || d == '/') = false := by
      constructor
      · by_cases h : sqlSpace d = true
        · simp only [sqlSpace, Bool.or_eq_true, beq_iff_eq] at h
          rcases h with (((rfl | rfl) | rfl) | rfl) | rfl <;> exact absurd hd (by decide)
        · simpa using h
      · by_cases h : (d == ')' || d == '-' || d == '/') = true
        · simp only [Bool.or_eq_true, beq_iff_eq] at h
          rcases h with (rfl | rfl) | rfl <;> exact absurd hd (by decide)
        · simpa using h
    simp only [closes, h1, ↓reduceIte, h2, Bool.false_eq_true]
  rw [List.cons_append] at ht
  simp only [sqliteRead, tableExists, List.any_cons, BEq.rfl, Bool.and_self, Bool.true_or, ↓reduceIte,
    List.cons_append, pragmaName, hq, Bool.false_eq_true, hc, ht, hcl, bind, Except.bind]
  split
  · rename_i h; split at h <;> cases h <;> rfl
  · rename_i h; split at h <;> cases h

/-- A table whose name is in quotes is listed and exists, but another table is read. -/
theorem C127_sqlite_quoted_refuted (cm : CaseMap) (reserved : Chars → Bool) (rows rows' : List Dict) :
    let file : List Object := [⟨"\"t\"".toList, true, rows⟩, ⟨"t".toList, true, rows'⟩]
    Distinct file ∧ sqliteLs file = ["\"t\"".toList, "t".toList] ∧
    sqliteRead cm reserved file "\"t\"".toList =
      match sqliteSchema cm rows' with
      | .ok t => .ok t
      | .error e => .error (.converter e) := by
  refine ⟨?_, rfl, rfl⟩
  simp only [Distinct, List.pairwise_cons, List.mem_singleton, forall_eq, List.not_mem_nil,
    false_imp_iff, implies_true, List.Pairwise.nil, and_true]
  decide +kernel

/-! ## Confluent registries -/

theorem endsWith_iff (suffix s : Chars) : endsWith suffix s = true ↔ ∃ p, s = p ++ suffix := by
  rw [endsWith, stripPrefix_iff, List.reverse_prefix]
  exact ⟨fun ⟨p, h⟩ => ⟨p, h.symm⟩, fun ⟨p, h⟩ => ⟨p, h.symm⟩⟩

theorem keyOrValue_iff (s : Chars) :
    (endsWith "-key".toList s || endsWith "-value".toList s) = true ↔ KeyOrValue s := by
  rw [Bool.or_eq_true, endsWith_iff, endsWith_iff, ← exists_or]
  rfl

/-- **C127** for Confluent registries (partial), exactly: a listed subject is read as itself if and
only if it ends in `-key` or `-value`, and then its schema is found.  Missing: all other subjects
(`C127_subject_refuted`). -/
theorem C127_subject_partial {σ : Type} (reg : Subjects σ) (s : Chars) (hl : s ∈ subjects reg) :
    (subjectOf s = s ↔ KeyOrValue s) ∧
      (KeyOrValue s → latest reg s = reg.lookup s ∧ (latest reg s).isSome = true) := by
  have hsub : KeyOrValue s → subjectOf s = s := fun h => by
    rw [subjectOf, if_pos ((keyOrValue_iff s).mpr h)]
  refine ⟨⟨fun h => ?_, hsub⟩, fun h => ?_⟩
  · by_cases hk : (endsWith "-key".toList s || endsWith "-value".toList s) = true
    · exact (keyOrValue_iff s).mp hk
    · rw [subjectOf, if_neg hk] at h
      have := congrArg List.length h
      simp at this
  · rw [latest, hsub h]
    refine ⟨rfl, ?_⟩
    simp only [subjects, List.mem_map] at hl
    obtain ⟨⟨k, v⟩, hm, rfl⟩ := hl
    clear hsub h
    induction reg with
    | nil => simp at hm
    | cons r rs ih =>
      obtain ⟨a, b⟩ := r
      by_cases hk : k = a
      · subst hk; simp
      · have : (k == a) = false := by simpa using hk
        simp only [List.lookup, this]
        rcases List.mem_cons.mp hm with e | hm
        · cases e; exact absurd rfl hk
        · exact ih hm

/-- Both kinds of subject, and both outcomes. -/
example : KeyOrValue "orders-value".toList ∧ ¬ KeyOrValue "orders".toList ∧
    latest [("orders-value".toList, 1), ("orders".toList, 2)] "orders-value".toList = some 1 ∧
    latest [("orders-value".toList, 1), ("orders".toList, 2)] "orders".toList = some 1 ∧
    latest [("orders".toList, 2)] "orders".toList = .none := by
  refine ⟨⟨"orders".toList, by decide +kernel⟩, ?_, rfl, rfl, rfl⟩
  rw [← keyOrValue_iff]
  decide +kernel

/-- A subject with another name is listed, but the registry is asked for another subject: there is
none, or one with another schema. -/
theorem C127_subject_refuted {σ : Type} (reg : Subjects σ) (s : Chars) (_hl : s ∈ subjects reg)
    (hk : ¬ KeyOrValue s) : latest reg s = reg.lookup (s ++ "-value".toList) := by
  rw [latest, subjectOf, if_neg (fun h => hk ((keyOrValue_iff s).mp h))]

end Recap.Listed
