def m(definition, old, new, breaks, file, **kw):
    return dict(definition=definition, old=old, new=new, breaks=breaks, file=file, **kw)

# run with TARGETS="EndToEndBqThms EndToEndLiteThms"
MUTANTS = [
 m("addInformationSchema", 'let isNotNull ← if notNull.truthy then pure notNull else item row "PK"', "let isNotNull ← pure notNull", "the refutation of C150 for SQLite: key columns can be null", "SqliteClient.lean"),
 m("addInformationSchema", '(if isNotNull.truthy then "NO" else "YES")', '(if isNotNull.truthy then "YES" else "NO")', "C150: NOT NULL is read the wrong way round", "SqliteClient.lean"),
 m("addInformationSchema", '[("COLUMN_NAME", name)', '[("COLUMN_NAME", dflt)', "C150: the default as name", "SqliteClient.lean"),
 m("sqliteRows", "pure (c :: cs)", "pure [c]", "no claim of C150: rows may have other members (C23, C117)", "SqliteClient.lean"),
 m("typeParameters", "pure (.int precision, .int (scale.getD 0), .none)", "pure (.none, .none, .int precision)", "C150: precision as length", "SqliteClient.lean"),
 m("sqliteRead", "if tableExists file table then do", "if true then do", "no claim of C150: a table that is not there is read as an empty one (C117)", "Listed.lean"),
 m("tableExists", "o.isTable && ", "", "no claim of C150: views are read as well", "Listed.lean"),
 m("parseSqlite", "if (Dict.getD d \"netloc\" .none).truthy then pure (url, [table])", "if true then pure (url, [table])", "C150: sqlite:/ is looked up for sqlite:///", "Clients.lean"),
 m("parseSqlite", "let (url, table) ← parsePop d", "let (url, _) ← parsePop d\n    let table := Dict.getD d \"url\" .none", "C150: the URL as table", "Clients.lean"),
 m("parseBigquery", "(xs ++ [PyVal.none, PyVal.none, PyVal.none]).take 3", "(xs.reverse ++ [PyVal.none, PyVal.none, PyVal.none]).take 3", "C150: project and table swapped", "Clients.lean"),
 m("parseBigquery", "(xs ++ [PyVal.none, PyVal.none, PyVal.none]).take 3", "(xs ++ [PyVal.none, PyVal.none, PyVal.none]).take 2", "C150: the table is not given", "Clients.lean"),
 m("scalar", '"SMALLINT", "TINYINT", "BYTEINT"].contains fieldType then\n    .ok (.int (.int 64)', '"SMALLINT", "TINYINT", "BYTEINT"].contains fieldType then\n    .ok (.int (.int 32)', "C150: integers of 32 bits", "BigQuery.lean"),
 m("scalar", '["FLOAT", "FLOAT64"]', '["FLOAT"]', "C150: FLOAT64 is not known", "BigQuery.lean"),
 m("decorate", 'if mode == "REPEATED" then .list t .none (.bool true) {} else t', "t", "C150: repeated fields as single ones", "BigQuery.lean"),
 m("decorate", 'if mode == "NULLABLE" then makeNullable t else t', "t", "C150: fields with null are required", "BigQuery.lean"),
 m("decorate", 'if mode == "NULLABLE" then makeNullable t else t', 'if mode == "REQUIRED" then makeNullable t else t', "C150: modes the wrong way round", "BigQuery.lean"),
 m("fieldsOf", "let ts ← fieldsOf fs\n    pure (t :: ts)", "let ts ← fieldsOf fs\n    pure (ts ++ [t])", "no claim of C150: columns in reverse order (rows are objects; C29)", "BigQuery.lean"),
 m("fieldOf", "pure (decorate mode name description dflt (.struct fs {}))", "pure (decorate \"REQUIRED\" name description dflt (.struct fs {}))", "C150: records are always required", "BigQuery.lean"),
 m("getAffinity", "else if contains t \"INT\" then pure .integer", "else if contains t \"INT\" then pure .text", "C150: integers as strings", "Relational.lean"),
 m("convert", "let d ← Json.fromRecap live t", "let d ← Avro.fromRecap live t", "C150: Avro is printed for JSON Schema", "Commands.lean"),
 m("merge", "netloc := conf.netloc", "netloc := url.netloc", "no claim of C150 for BigQuery and SQLite: no credentials in the URL", "Settings.lean"),
]
