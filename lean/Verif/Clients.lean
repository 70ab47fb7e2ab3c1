import Verif.Settings

/-!
# The clients: from a URL to a connection and a call

Model of `recap/clients/__init__.py`, of the static methods `parse` and `create` of every client
(`recap/clients/*.py`), of the way their methods `ls` and `schema` dispatch on their arguments, and
of `recap/commands.py` 28-60 up to the call of the client.

What is simplified: the drivers that a client connects with are not modelled; `create` yields the
keyword arguments given to the driver, and `ls` and `schema` yield the query that would be sent.
The key `None` of the client table cannot occur, because a scheme is always a string.
-/

set_option autoImplicit false

namespace Recap.Clients

open Recap.Url

/-! ## The URL as a dictionary -/

/-- A string value. -/
def str (s : Chars) : PyVal := .str (String.ofList s)

/-- A string value or `None`. -/
def optStr (s : Option Chars) : PyVal :=
  match s with
  | some s => str s
  | .none => .none

/-- The values of a query parameter: a string when there is one value, a list otherwise
(clients/__init__.py 124-126). -/
def paramVal (vs : List Chars) : PyVal :=
  match vs with
  | [v] => str v
  | vs => .list (vs.map str)

/-- The first attributes of the dictionary (clients/__init__.py 91-106). -/
def baseDict (env : Env) (s : Split) (params : Chars) (port : Option Nat) : Dict :=
  [("scheme", str s.scheme), ("netloc", str s.netloc), ("path", str s.path), ("params", str params),
    ("query", str s.query), ("fragment", str s.fragment), ("username", optStr (username s)),
    ("password", optStr (password s)), ("hostname", optStr (hostname env s)),
    ("port", match port with | some p => .int p | .none => .none)]

/-- Dialect and driver of a scheme with `+` (clients/__init__.py 108-112): the additional entries,
and the URL without the driver.  More than one `+` raises. -/
def dialect (scheme url : Chars) : Except PyErr (Dict × Chars) :=
  if scheme.contains '+' then
    match splitOn '+' scheme with
    | [d, r] =>
      .ok ([("dialect", str d), ("driver", str r)],
        replaceAll (d ++ '+' :: r ++ "://".toList) (d ++ "://".toList) url)
    | _ => .error .valueError
  else .ok ([], url)

/-- The segments of the path (clients/__init__.py 120-121). -/
def pathsOf (path : Chars) : List Chars := (splitOn '/' path).filter (· ≠ [])

/-- `_url_to_dict(url)` (clients/__init__.py 73-129). -/
def urlToDict (env : Env) (url : Chars) : Except PyErr Dict := do
  let (s, params) ← urlparse env url
  let port ← port s
  let (extra, url) ← dialect s.scheme url
  let d := baseDict env s params port ++ extra
  let d := if present (username s) then Dict.set d "user" (optStr (username s)) else d
  let d := if present (hostname env s) then Dict.set d "host" (optStr (hostname env s)) else d
  let path := rstripSlash s.path
  let d := Dict.set d "path" (str path)
  let d := Dict.set d "paths" (.list ((pathsOf path).map str))
  let d := Dict.set d "url" (str url)
  pure (Dict.update d
    ((parseQs env s.query).map (fun kv => (String.ofList kv.1, paramVal kv.2))))

/-! ## The client table -/

/-- The client classes. -/
inductive Client where
  | filesystem | bigquery | confluent | mysql | postgresql | snowflake | sqlite | hive
deriving DecidableEq, Repr

/-- `CLIENTS` (clients/__init__.py 12-24). -/
def clients : List (String × Client) :=
  [("", .filesystem), ("file", .filesystem), ("bigquery", .bigquery), ("http+csr", .confluent),
    ("https+csr", .confluent), ("mysql", .mysql), ("postgresql", .postgresql),
    ("snowflake", .snowflake), ("sqlite", .sqlite), ("thrift+hms", .hive)]

/-- The client of the scheme of a URL, or a `ValueError` (clients/__init__.py 37-47, 60-70).  A
list is not hashable. -/
def clientOf (d : Dict) : Except PyErr Client :=
  match Dict.get? d "scheme" with
  | some (.str s) =>
    match clients.lookup s with
    | some c => .ok c
    | .none => .error .valueError
  | some (.list _) => .error .typeError
  | _ => .error .unmodelled

/-! ## Connection URLs and arguments -/

/-- A component given to `urlunparse`: anything but a string raises (CPython 3.11, urllib/parse.py 119-133). -/
def component (d : Dict) (key : String) : Except PyErr Chars :=
  match Dict.get? d key with
  | some (.str s) => .ok s.toList
  | some .none => .ok []
  | .none => .ok []
  | _ => .error .typeError

/-- `urlunparse([scheme, netloc, path, params, query, fragment])` with components from the
dictionary. -/
def connectionUrl (d : Dict) (schemeKey : String) (path : Chars) : Except PyErr Chars := do
  let scheme ← component d schemeKey
  let netloc ← component d "netloc"
  let params ← component d "params"
  let query ← component d "query"
  let fragment ← component d "fragment"
  pure (urlunparse { scheme, netloc, path, query, fragment } params)

/-- `url_args["paths"]` as a list that `pop` can be called on; a string has no `pop`. -/
def pathList (d : Dict) : Except PyErr (List PyVal) :=
  match Dict.get? d "paths" with
  | some (.list xs) => .ok xs
  | some (.str _) => .error .attributeError
  | _ => .error .unmodelled

/-- `x or ""` as a component of a URL. -/
def orEmpty (x : Option PyVal) : Except PyErr Chars :=
  match x with
  | some (.str s) => .ok s.toList
  | .none => .ok []
  | _ => .error .unmodelled

/-- A popped path, or `None`. -/
def orNone (x : Option PyVal) : PyVal := x.getD .none

/-- `DbapiClient.parse` (dbapi.py 15-39). -/
def parseDbapi (method : String) (d : Dict) : Except PyErr (Chars × List PyVal) := do
  let paths ← pathList d
  let catalog ← orEmpty paths[0]?
  let url ← connectionUrl d "scheme" catalog
  if method == "ls" && !(orNone paths[2]?).truthy then
    pure (url, [orNone paths[0]?, orNone paths[1]?])
  else if method == "schema" && (orNone paths[0]?).truthy && (orNone paths[1]?).truthy &&
      (orNone paths[2]?).truthy then
    pure (url, [orNone paths[0]?, orNone paths[1]?, orNone paths[2]?])
  else .error .valueError

/-- `MysqlClient.parse` (mysql.py 36-59). -/
def parseMysql (method : String) (d : Dict) : Except PyErr (Chars × List PyVal) := do
  let paths ← pathList d
  let schema ← orEmpty paths[0]?
  let url ← connectionUrl d "scheme" schema
  if method == "ls" then pure (url, [orNone paths[0]?])
  else if method == "schema" && (orNone paths[0]?).truthy && (orNone paths[1]?).truthy then
    pure (url, [orNone paths[0]?, orNone paths[1]?])
  else .error .valueError

/-- `BigQueryClient.parse` (bigquery.py 23-30). -/
def parseBigquery (method : String) (d : Dict) : Except PyErr (Chars × List PyVal) :=
  match Dict.get? d "paths" with
  | some (.list xs) =>
    if method == "ls" || method == "schema" then
      .ok ("bigquery://".toList, (xs ++ [PyVal.none, PyVal.none, PyVal.none]).take 3)
    else .error .valueError
  | some (.str _) => .error .typeError
  | _ => .error .unmodelled

/-- `FilesystemClient.parse` (fs.py 20-32). -/
def parseFilesystem (env : Env) (d : Dict) : Except PyErr (Chars × List PyVal) :=
  match Dict.get? d "url" with
  | some (.str u) => do
    let s ← urlsplit env u.toList
    let root := (if s.scheme = [] then "file".toList else s.scheme) ++ "://".toList
    let path := '/' :: (if s.netloc = [] then [] else s.netloc ++ ['/']) ++
      (if s.path = [] then [] else s.path.drop 1 ++ ['/'])
    pure (root, [str path])
  | some (.list _) => .error .typeError
  | _ => .error .unmodelled

/-- The strings of a list; `join` raises on anything else. -/
def strings : List PyVal → Except PyErr (List Chars)
  | [] => .ok []
  | .str s :: xs => do
    let rest ← strings xs
    pure (s.toList :: rest)
  | _ :: _ => .error .typeError

/-- `url_args.get("dialect") or url_args.get("scheme")`. -/
def dialectKey (d : Dict) : String := if (Dict.getD d "dialect" .none).truthy then "dialect" else "scheme"

/-- The part that the parse methods of SQLite and of the Confluent registry share: the last path
segment is popped and the others are joined (sqlite.py 50-61, confluent_registry.py 45-55). -/
def parsePop (d : Dict) : Except PyErr (Chars × PyVal) := do
  let paths ← pathList d
  match paths.getLast? with
  | .none => .error .indexError
  | some last =>
    let rest ← strings paths.dropLast
    let url ← connectionUrl d (dialectKey d) (joinWith '/' rest)
    pure (url, last)

/-- `SQLiteClient.parse` (sqlite.py 43-73). -/
def parseSqlite (method : String) (d : Dict) : Except PyErr (Chars × List PyVal) :=
  if method == "ls" then
    match Dict.get? d "url" with
    | some (.str u) => .ok (u.toList, [])
    -- the list is returned, and `urlsplit` in `unsafe_url` cannot hash it
    | some (.list _) => .error .typeError
    | _ => .error .unmodelled
  else if method == "schema" then do
    let (url, table) ← parsePop d
    if (Dict.getD d "netloc" .none).truthy then pure (url, [table])
    else pure (replaceColon ":///".toList url, [table])
  else .error .valueError

/-- `ConfluentRegistryClient.parse` (confluent_registry.py 33-58). -/
def parseConfluent (method : String) (d : Dict) : Except PyErr (Chars × List PyVal) :=
  if method == "ls" then
    match Dict.get? d "url" with
    | some (.str u) =>
      .ok (replaceAll "https+csr://".toList "https://".toList
        (replaceAll "http+csr://".toList "http://".toList u.toList), [])
    | some (.list _) => .error .attributeError
    | _ => .error .unmodelled
  else if method == "schema" then do
    let (url, subject) ← parsePop d
    pure (url, [subject])
  else .error .valueError

/-- `f"{v}"` for a string or an integer. -/
def formatVal (v : PyVal) : Except PyErr Chars :=
  match v with
  | .str s => .ok s.toList
  | .int (.ofNat n) => .ok (digits n)
  | _ => .error .unmodelled

/-- `HiveMetastoreClient.parse` (hive_metastore.py 33-49). -/
def parseHive (method : String) (d : Dict) : Except PyErr (Chars × List PyVal) :=
  match Dict.get? d "host", Dict.get? d "port" with
  | some host, some port => do
    let host ← formatVal host
    let url := "thrift://".toList ++ host
    let url ← if port.truthy then do
        let p ← formatVal port
        pure (url ++ ':' :: p)
      else pure url
    match Dict.get? d "paths" with
    | some (.list paths) =>
      if method == "ls" then pure (url, paths)
      else if method == "schema" && 2 ≤ paths.length then
        pure (url, paths ++ [.bool (Dict.getD d "include_stats" .none != .none)])
      else .error .valueError
    -- the string is returned, and `*method_args` makes an argument of each character
    | some (.str s) =>
      if method == "ls" then pure (url, s.toList.map (fun c => str [c]))
      else if method == "schema" && 2 ≤ s.length then .error .typeError
      else .error .valueError
    | _ => .error .unmodelled
  | _, _ => .error .keyError

/-- `client_class.parse(method, **url_args)` (clients/__init__.py 67): a query parameter with the
name of the first parameter is a second value for it. -/
def parseClient (env : Env) (c : Client) (method : String) (d : Dict) :
    Except PyErr (Chars × List PyVal) :=
  match c with
  | .filesystem => if Dict.has d "_" then .error .typeError else parseFilesystem env d
  | .bigquery => if Dict.has d "method" then .error .typeError else parseBigquery method d
  | .confluent => if Dict.has d "method" then .error .typeError else parseConfluent method d
  | .mysql => if Dict.has d "method" then .error .typeError else parseMysql method d
  | .postgresql => if Dict.has d "method" then .error .typeError else parseDbapi method d
  | .snowflake => if Dict.has d "method" then .error .typeError else parseDbapi method d
  | .sqlite => if Dict.has d "method" then .error .typeError else parseSqlite method d
  | .hive => if Dict.has d "method" then .error .typeError else parseHive method d

/-- `parse_url(method, url, strict)` (clients/__init__.py 50-70), for the configured URLs. -/
def parseUrl (env : Env) (urls : List Chars) (method : String) (url : Chars) (strict : Bool) :
    Except PyErr (Chars × List PyVal) := do
  let d ← urlToDict env url
  let c ← clientOf d
  let (conn, args) ← parseClient env c method d
  let conn ← unsafeUrl env urls conn strict
  pure (conn, args)

/-! ## Connecting -/

/-- `PSYCOPG2_CONNECT_ARGS` (postgresql.py 10-48). -/
def psycopgArgs : List String :=
  ["host", "hostaddr", "port", "dbname", "user", "password", "passfile", "channel_binding",
    "connect_timeout", "client_encoding", "options", "application_name",
    "fallback_application_name", "keepalives", "keepalives_idle", "keepalives_interval",
    "keepalives_count", "tcp_user_timeout", "replication", "gssencmode", "sslmode", "requiressl",
    "sslcompression", "sslcert", "sslkey", "sslpassword", "sslrootcert", "sslcrl", "sslcrldir",
    "sslsni", "requirepeer", "ssl_min_protocol_version", "ssl_max_protocol_version", "krbsrvname",
    "gsslib", "service", "target_session_attrs"]

/-- `SQLITE3_CONNECT_ARGS` (sqlite.py 11-20). -/
def sqliteArgs : List String :=
  ["database", "timeout", "detect_types", "isolation_level", "check_same_thread", "factory",
    "cached_statements", "uri"]

/-- `ALLOWED_ATTRS` (confluent_registry.py 10-16). -/
def registryArgs : List String :=
  ["url", "ssl.ca.location", "ssl.key.location", "ssl.certificate.location",
    "basic.auth.user.info"]

/-- `{k: v for k, v in url_args.items() if k in allowed}`. -/
def only (allowed : List String) (d : Dict) : Dict := d.filter (fun kv => allowed.contains kv.1)

/-- `paths[0]` of a value that is true: the first element, or the first character. -/
def firstPath (v : PyVal) : Except PyErr PyVal :=
  match v with
  | .list (x :: _) => .ok x
  | .str s => match s.toList with | c :: _ => .ok (str [c]) | [] => .error .unmodelled
  | _ => .error .unmodelled

/-- `if paths: url_args[key] = paths[0]`, with `paths` removed from the arguments (mysql.py 19-27,
postgresql.py 61-68). -/
def withDatabase (d : Dict) (key : String) : Except PyErr Dict :=
  let rest := Dict.erase d "paths"
  match Dict.get? d "paths" with
  | some v => if v.truthy then do
      let p ← firstPath v
      pure (Dict.set rest key p)
    else pure rest
  | .none => pure rest

/-- `client_class.create(**url_args)` (clients/__init__.py 44): the keyword arguments given to the
driver.  `mysqlArgs` are the keys of `DEFAULT_CONFIGURATION` of the MySQL connector.
* fs.py 16-17 and bigquery.py 18-20 pass none of the URL on;
* confluent_registry.py 25-30, mysql.py 19-33, postgresql.py 61-74, snowflake.py 16-30,
  sqlite.py 30-40, hive_metastore.py 28-30. -/
def create (mysqlArgs : List String) (c : Client) (d : Dict) : Except PyErr Dict :=
  match c with
  | .filesystem => .ok [("scheme", Dict.getD d "scheme" .none)]
  | .bigquery => .ok []
  | .confluent => .ok (only registryArgs d)
  | .mysql => do
    let d ← withDatabase d "database"
    pure (only mysqlArgs d)
  | .postgresql => do
    let d ← withDatabase d "dbname"
    pure (only psycopgArgs d)
  | .snowflake =>
    match Dict.get? d "host" with
    | .none => .error .keyError
    | some host =>
      let rest := Dict.erase d "host"
      let args : Dict :=
        match Dict.get? d "paths" with
        | some (.list [.str database, .str schema]) =>
          [("account", host), ("database", .str database), ("schema", .str schema)]
        | _ => [("account", host)]
      .ok (Dict.update args rest)
  | .sqlite =>
    match Dict.get? d "url" with
    | some (.str u) =>
      .ok (only sqliteArgs (Dict.set (Dict.erase d "url") "database" (str (u.toList.drop 10))))
    | some (.list xs) =>
      .ok (only sqliteArgs (Dict.set (Dict.erase d "url") "database" (.list (xs.drop 10))))
    | _ => .error .unmodelled
  | .hive =>
    match Dict.get? d "host", Dict.get? d "port" with
    | some host, some port => .ok [("host", host), ("port", port)]
    | _, _ => .error .typeError

/-- `create_client(url)` (clients/__init__.py 27-47): the client, and what its driver is given. -/
def createClient (env : Env) (mysqlArgs : List String) (url : Chars) :
    Except PyErr (Client × Dict) := do
  let d ← urlToDict env url
  let c ← clientOf d
  let args ← create mysqlArgs c d
  pure (c, args)

/-! ## Listing -/

/-- The listings that a client can be asked for. -/
inductive Listing where
  | catalogs
  | schemas (catalog : String)
  | tables (catalog schema : String)
  | projects
  | datasets (project : String)
  | bigqueryTables (project dataset : String)
  | databases
  | hiveTables (database : String)
  | one (table : String)
  | subjects
  | sqliteTables
  | directory (path : String)
deriving DecidableEq, Repr

/-- `client.ls(*method_args)` (commands.py 41): more arguments than parameters raise a `TypeError`.
dbapi.py 41-50, mysql.py 61-68, bigquery.py 32-41, hive_metastore.py 51-60,
confluent_registry.py 60-61, sqlite.py 75-78, fs.py 34-41. -/
def ls (c : Client) (args : List PyVal) : Except PyErr Listing :=
  match c with
  | .postgresql | .snowflake =>
    match args with
    | [] | [.none] | [.none, .none] => .ok .catalogs
    | [.str catalog] | [.str catalog, .none] => .ok (.schemas catalog)
    | [.str catalog, .str schema] => .ok (.tables catalog schema)
    | [_] | [_, _] => .error .valueError
    | _ => .error .typeError
  | .mysql =>
    match args with
    | [] | [.none] => .ok (.schemas "def")
    | [.str schema] => .ok (.tables "def" schema)
    | [_] => .error .valueError
    | _ => .error .typeError
  | .bigquery =>
    match args with
    | [] | [.none] | [.none, .none] => .ok .projects
    | [.str project] | [.str project, .none] => .ok (.datasets project)
    | [.str project, .str dataset] => .ok (.bigqueryTables project dataset)
    | [_] | [_, _] => .error .valueError
    | _ => .error .typeError
  | .hive =>
    match args with
    | [] | [.none] | [.none, .none] => .ok .databases
    | [.str database] | [.str database, .none] => .ok (.hiveTables database)
    | [.str _, .str table] => .ok (.one table)
    | [_] | [_, _] => .error .valueError
    | _ => .error .typeError
  | .confluent => match args with | [] => .ok .subjects | _ => .error .typeError
  | .sqlite => match args with | [] => .ok .sqliteTables | _ => .error .typeError
  | .filesystem =>
    match args with
    | [] => .ok (.directory "/")
    | [.str path] => .ok (.directory path)
    | [_] => .error .unmodelled
    | _ => .error .typeError

/-- `commands.ls(url, strict)` (commands.py 39-41) for a URL: the client, what its driver is given,
and the listing. -/
def listing (env : Env) (mysqlArgs : List String) (urls : List Chars) (url : Chars) (strict : Bool) :
    Except PyErr (Client × Dict × Listing) := do
  let (conn, args) ← parseUrl env urls "ls" url strict
  let (c, kwargs) ← createClient env mysqlArgs conn
  let l ← ls c args
  pure (c, kwargs, l)

/-! ## Reading -/

/-- The formats of schema files. -/
inductive FileFormat where
  | avro | json | protobuf
deriving DecidableEq, Repr

/-- The schemas that a client can be asked for. -/
inductive Source where
  | table (catalog schema table : PyVal)
  | bigqueryTable (project dataset table : PyVal)
  | hiveTable (database table stats : PyVal)
  | sqliteTable (table : PyVal)
  | subject (name : Chars)
  | file (path : Chars) (format : FileFormat)
deriving Repr

/-- `Path(path).name` and `PurePath.suffix` (CPython 3.11, pathlib.py 622-642): from the last dot of
the last segment, unless it is the first or the last character. -/
def suffixOf (path : Chars) : Chars :=
  match ((splitOn '/' path).filter (fun s => s ≠ [] ∧ s ≠ ['.'])).getLast? with
  | .none => []
  | some name =>
    match rpartition '.' name with
    | (a, true, b) => if a ≠ [] ∧ b ≠ [] then '.' :: b else []
    | (_, false, _) => []

/-- The format of a file by its suffix (fs.py 44-60). -/
def formatOf (env : Env) (path : Chars) : Except PyErr FileFormat :=
  let suffix := String.ofList ((env.lower (suffixOf path)).filter (· ≠ '.'))
  if ["avsc", "avro", "avdl", "avpr"].contains suffix then .ok .avro
  else if ["json", "jsonschema", "jsons"].contains suffix then .ok .json
  else if ["proto", "protobuf", "protos", "proto3", "proto2"].contains suffix then .ok .protobuf
  else .error .valueError

/-- `subject.endswith(suffix)`. -/
def endsWith (suffix s : Chars) : Bool := (stripPrefix? suffix.reverse s.reverse).isSome

/-- The subject that is read (confluent_registry.py 64-65). -/
def subjectOf (subject : Chars) : Chars :=
  if endsWith "-key".toList subject || endsWith "-value".toList subject then subject
  else subject ++ "-value".toList

/-- `client.schema(*method_args)` (commands.py 60): a wrong number of arguments raises a `TypeError`.
dbapi.py 88-100, mysql.py 70-71, bigquery.py 53-55, hive_metastore.py 68-77, sqlite.py 80-88,
confluent_registry.py 63-66, fs.py 43-60. -/
def schemaOf (env : Env) (c : Client) (args : List PyVal) : Except PyErr Source :=
  match c, args with
  | .postgresql, [catalog, schema, table] => .ok (.table catalog schema table)
  | .snowflake, [catalog, schema, table] => .ok (.table catalog schema table)
  | .mysql, [schema, table] => .ok (.table (.str "def") schema table)
  | .bigquery, [project, dataset, table] => .ok (.bigqueryTable project dataset table)
  | .hive, [database, table] => .ok (.hiveTable database table (.bool false))
  | .hive, [database, table, stats] => .ok (.hiveTable database table stats)
  | .sqlite, [table] => .ok (.sqliteTable table)
  | .confluent, [.str subject] => .ok (.subject (subjectOf subject.toList))
  | .filesystem, [] => .error .valueError
  | .filesystem, [.str path] => do
    let f ← formatOf env path.toList
    pure (.file path.toList f)
  | _, _ => .error .typeError

/-- `commands.schema(url, format, strict)` (commands.py 58-60) up to the call of the client. -/
def reading (env : Env) (mysqlArgs : List String) (urls : List Chars) (url : Chars) (strict : Bool) :
    Except PyErr (Client × Dict × Source) := do
  let (conn, args) ← parseUrl env urls "schema" url strict
  let (c, kwargs) ← createClient env mysqlArgs conn
  let s ← schemaOf env c args
  pure (c, kwargs, s)

end Recap.Clients
