def m(definition, old, new, breaks, file="Clients.lean", **kw):
    return dict(definition=definition, old=old, new=new, breaks=breaks, file=file, **kw)

MUTANTS = [
 m("paramVal", "  | [v] => str v\n", "", "single values are lists"),
 m("dialect", "replaceAll (d ++ '+' :: r ++ \"://\".toList) (d ++ \"://\".toList) url)", "url)", "the driver stays in the URL"),
 m("dialect", "[(\"dialect\", str d), (\"driver\", str r)]", "[(\"dialect\", str r), (\"driver\", str d)]", "dialect and driver swapped"),
 m("pathsOf", "(splitOn '/' path).filter (· ≠ [])", "splitOn '/' path", "empty segments"),
 m("urlToDict", "let d := if present (username s) then Dict.set d \"user\" (optStr (username s)) else d", "let d := if present (username s) then Dict.set d \"user\" (optStr (password s)) else d", "the password is the user"),
 m("clients", "(\"mysql\", .mysql), (\"postgresql\", .postgresql)", "(\"mysql\", .postgresql), (\"postgresql\", .mysql)", "swapped clients"),
 m("clientOf", "| .none => .error .valueError\n  | some (.list _)", "| .none => .ok .filesystem\n  | some (.list _)", "unknown schemes are files"),
 m("parseDbapi", "if method == \"ls\" && !(orNone paths[2]?).truthy then", "if method == \"ls\" then", "ls of a table lists the schema"),
 m("parseDbapi", "pure (url, [orNone paths[0]?, orNone paths[1]?])\n  else if method == \"schema\" && (orNone paths[0]?).truthy && (orNone paths[1]?).truthy &&", "pure (url, [orNone paths[1]?, orNone paths[0]?])\n  else if method == \"schema\" && (orNone paths[0]?).truthy && (orNone paths[1]?).truthy &&", "catalog and schema swapped"),
 m("parseDbapi", "pure (url, [orNone paths[0]?, orNone paths[1]?, orNone paths[2]?])", "pure (url, [orNone paths[0]?, orNone paths[0]?, orNone paths[2]?])", "the schema is the catalog"),
 m("parseMysql", "if method == \"ls\" then pure (url, [orNone paths[0]?])", "if method == \"ls\" then pure (url, [orNone paths[1]?])", "ls of the wrong schema"),
 m("parseBigquery", "(xs ++ [PyVal.none, PyVal.none, PyVal.none]).take 3)", "(xs ++ [PyVal.none, PyVal.none, PyVal.none]).take 2)", "ls of BigQuery would work"),
 m("parseFilesystem", "s.path.drop 1 ++ ['/'])", "s.path.drop 1)", "no trailing slash"),
 m("parsePop", "let rest ← strings paths.dropLast", "let rest ← strings paths", "the table stays in the database path"),
 m("parseSqlite", "if (Dict.getD d \"netloc\" .none).truthy then pure (url, [table])\n    else pure (replaceColon \":///\".toList url, [table])", "pure (url, [table])", "sqlite URLs lose their slashes"),
 m("parseConfluent", "replaceAll \"https+csr://\".toList \"https://\".toList", "replaceAll \"https+csr://\".toList \"http://\".toList", "https is downgraded"),
 m("parseHive", "else if method == \"schema\" && 2 ≤ paths.length then", "else if method == \"schema\" then", "too few paths are accepted"),
 m("parseHive", "if port.truthy then do", "if !port.truthy then do", "the port is lost"),
 m("parseClient", "| .postgresql => if Dict.has d \"method\" then .error .typeError else parseDbapi method d", "| .postgresql => parseDbapi method d", "a parameter named method"),
 m("parseUrl", "let conn ← unsafeUrl env urls conn strict\n  pure (conn, args)", "pure (conn, args)", "no credentials are added and strict is ignored"),
 m("parseUrl", "let conn ← unsafeUrl env urls conn strict", "let conn ← unsafeUrl env urls conn false", "strict is ignored"),
 m("only", "d.filter (fun kv => allowed.contains kv.1)", "d", "all arguments reach the driver"),
 m("psycopgArgs", "\"connect_timeout\", \"client_encoding\"", "\"connect_timeout\", \"query\", \"client_encoding\"", "query reaches the driver"),
 m("sqliteArgs", "[\"database\", \"timeout\"", "[\"timeout\"", "no database"),
 m("withDatabase", "pure (Dict.set rest key p)", "pure rest", "the database is not given to the driver"),
 m("create", "let d ← withDatabase d \"dbname\"", "let d ← withDatabase d \"database\"", "the database has the wrong keyword"),
 m("create", "[(\"account\", host), (\"database\", .str database), (\"schema\", .str schema)]", "[(\"account\", host), (\"database\", .str schema), (\"schema\", .str database)]", "swapped"),
 m("create", "(str (u.toList.drop 10))))", "(str (u.toList.drop 9))))", "the file name keeps a slash"),
 m("create", "| some host, some port => .ok [(\"host\", host), (\"port\", port)]", "| some host, some port => .ok [(\"host\", port), (\"port\", host)]", "swapped"),
 m("ls", "| [.str catalog, .str schema] => .ok (.tables catalog schema)", "| [.str catalog, .str schema] => .ok (.tables schema catalog)", "swapped"),
 m("ls", "| [.str schema] => .ok (.tables \"def\" schema)", "| [.str schema] => .ok (.schemas schema)", "the wrong level is listed"),
 m("ls", "| [.str project] | [.str project, .none] => .ok (.datasets project)", "| [.str project] | [.str project, .none] => .ok .projects", "the wrong level is listed"),
 m("suffixOf", "if a ≠ [] ∧ b ≠ [] then '.' :: b else []", "if b ≠ [] then '.' :: b else []", "hidden files have a suffix"),
 m("formatOf", "(env.lower (suffixOf path))", "(suffixOf path)", "suffixes are case-sensitive"),
 m("formatOf", "[\"avsc\", \"avro\", \"avdl\", \"avpr\"].contains suffix then .ok .avro", "[\"avsc\", \"avro\", \"avdl\", \"avpr\"].contains suffix then .ok .json", "Avro files are read as JSON Schema"),
 m("subjectOf", "subject ++ \"-value\".toList", "subject ++ \"-key\".toList", "the key is read"),
 m("subjectOf", "endsWith \"-key\".toList subject || endsWith", "endsWith", "keys cannot be read"),
 m("schemaOf", "| .mysql, [schema, table] => .ok (.table (.str \"def\") schema table)", "| .mysql, [schema, table] => .ok (.table schema schema table)", "the wrong catalog"),
 m("schemaOf", "| .hive, [database, table] => .ok (.hiveTable database table (.bool false))", "| .hive, [database, table] => .ok (.hiveTable database table (.bool true))", "statistics are read by default"),
 m("reading", "let (conn, args) ← parseUrl env urls \"schema\" url strict\n", "let (conn, args) ← parseUrl env urls \"ls\" url strict\n", "the wrong method"),
 m("listing", "let (c, kwargs) ← createClient env mysqlArgs conn\n  let l ← ls c args", "let (c, kwargs) ← createClient env mysqlArgs url\n  let l ← ls c args", "the connection is made without credentials"),
]
