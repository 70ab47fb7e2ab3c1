def m(definition, old, new, breaks, file="Listed.lean", **kw):
    return dict(definition=definition, old=old, new=new, breaks=breaks, file=file, **kw)

MUTANTS = [
 m("sqliteLs", "(file.filter (·.isTable)).map (·.name)", "file.map (·.name)", "C127: views are listed, but cannot be read"),
 m("tableExists", "o.isTable && o.name == table", "o.isTable && o.name != table", "C127: listed tables do not exist"),
 m("closes", "then .error .unmodelled\n    else .error .syntaxError", "then .error .unmodelled\n    else .ok ()", "C127_sqlite_space_refuted: what follows the name is ignored"),
 m("closes", "if sqlSpace c then closes cs", "if sqlSpace c then .ok ()", "C127_sqlite_space_refuted: the name ends at a space"),
 m("pragmaName", "if reserved word then .error .syntaxError", "if false then .error .syntaxError", "C127_sqlite_reserved_refuted: reserved words are names"),
 m("pragmaName", "        closes (text.dropWhile idChar)\n        pure word", "        closes (text.dropWhile idChar)\n        pure (word.drop 1)", "C127: another name is read"),
 m("quoted", "else .ok ([], d :: cs)", "else .error .syntaxError", "quoted names end at the end of the text only (nothing is claimed)"),
 m("sameName", "a.map Char.toLower == b.map Char.toLower", "a.length == b.length", "C127: another table is read"),
 m("tableInfo", "| some o => o.rows\n  | .none => []", "| some _ => []\n  | .none => []", "C127: no columns"),
 m("sqliteRead", "sqliteSchema cm (tableInfo file name)", "sqliteSchema cm (tableInfo file.reverse name)", "equivalent for files with distinct names"),
 m("latest", "reg.lookup (Clients.subjectOf subject)", "reg.lookup subject", "C127_subject_refuted: the code would be right"),
 m("subjectOf", 'endsWith "-key".toList subject || endsWith "-value".toList subject', 'endsWith "-value".toList subject', "C127: subjects of keys are read as values", file="Clients.lean"),
 m("endsWith", "(stripPrefix? suffix.reverse s.reverse).isSome", "(stripPrefix? suffix s).isSome", "C127: prefixes for suffixes", file="Clients.lean"),
 m("namesOf", "t.1 == catalog && t.2.1 == schema", "t.1 == catalog", "tables of all schemas are listed"),
 m("rowsOf", "c.table == table && c.schema == schema &&\n      c.catalog == catalog", "c.table == table && c.schema == schema", "C127: columns of another catalog are read"),
 m("rowsOf", "c.table == table && c.schema == schema &&\n      c.catalog == catalog", "c.table == catalog && c.schema == schema &&\n      c.catalog == table", "C127: the arguments of the query in another order"),
 m("schemaOf", "| .mysql, [schema, table] => .ok (.table (.str \"def\") schema table)", "| .mysql, [schema, table] => .ok (.table schema (.str \"def\") table)", "C127: the catalog of MySQL as the schema", file="Clients.lean"),
]
