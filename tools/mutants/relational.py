def m(definition, old, new, breaks, file="Relational.lean", **kw):
    return dict(definition=definition, old=old, new=new, breaks=breaks, file=file, **kw)

MUTANTS = [
 m("fieldOf", "let base := if nullable then makeNullable base else base\n  let dflt", "let dflt", "nullable columns are not nullable"),
 m("fieldOf", "if !dflt.isNone || nullable then", "if !dflt.isNone then", "nullable columns have no default"),
 m("fieldOf", "if !dflt.isNone || nullable then setExtra base \"default\" dflt", "if !dflt.isNone || nullable then setExtra base \"default\" .none", "defaults are lost"),
 m("fieldOf", "pure (setExtra base \"name\" name)", "pure (setExtra base \"NAME\" name)", "names are lost"),
 m("fieldsOf", "| (.ok fs, st) => (.ok (f :: fs), st)", "| (.ok fs, st) => (.ok (fs ++ [f]), st)", "columns in reverse order"),
 m("mysqlType", 'dt == "mediumint" then .ok (.int (.int 24)', 'dt == "mediumint" then .ok (.int (.int 16)', "mediumint with 16 bits"),
 m("mysqlType", "(precision.gtInt 23).map (fun g => .float (.int (if g then 64 else 32)) {})\n  else if [\"text\", \"json\"", "(precision.gtInt 24).map (fun g => .float (.int (if g then 64 else 32)) {})\n  else if [\"text\", \"json\"", "boundary of float precision"),
 m("mysqlType", '["dec", "decimal", "numeric"].contains dt then .ok (decimalType 32 precision scale)', '["dec", "decimal", "numeric"].contains dt then .ok (decimalType 32 scale precision)', "precision and scale swapped"),
 m("mysqlType", '["dec", "decimal", "numeric"].contains dt then .ok (decimalType 32', '["dec", "decimal", "numeric"].contains dt then .ok (decimalType 16', "decimals of 65 digits in 16 bytes"),
 m("mysqlType", 'else if dt == "year" then .ok (.int (.int 16) (.bool false) {})', 'else if dt == "year" then .ok (.int (.int 8) (.bool false) {})', "year in 8 bits"),
 m("mysqlType", "else if dt == \"year\" then .ok (.int (.int 16) (.bool false) {})\n  else .error .valueError", "else if dt == \"year\" then .ok (.int (.int 16) (.bool false) {})\n  else .ok (.null {})", "unknown types are read as null"),
 m("mysqlType", 'startsWith dt "char" || ["enum", "set"].contains dt then\n    .ok (.string octet (.bool false) {})', 'startsWith dt "char" || ["enum", "set"].contains dt then\n    .ok (.string octet (.bool true) {})', "char is variable"),
 m("getTimeUnit", "else if n ≤ 3 then pure (some \"millisecond\")", "else if n < 3 then pure (some \"millisecond\")", "milliseconds as microseconds"),
 m("getTimeUnit", "else if n ≤ 6 then pure (some \"microsecond\")", "else if n ≤ 9 then pure (some \"microsecond\")", "nanoseconds as microseconds"),
 m("snowflakeType", "pure (decimalType 16 (orElse precision (.int 38)) (orElse scale (.int 0)))", "pure (decimalType 16 (orElse precision (.int 39)) (orElse scale (.int 0)))", "default precision 39"),
 m("snowflakeType", "(u.getD \"nanosecond\"))\n  else if startsWith dt \"time\"", "(u.getD \"microsecond\"))\n  else if startsWith dt \"time\"", "timestamp default unit"),
 m("snowflakeType", 'if startsWith dt "timestamp" || startsWith dt "datetime" then do\n    let u ← getTimeUnit (parseParameters dt)', 'if startsWith dt "timestamp" || startsWith dt "datetime" then do\n    let u ← getTimeUnit .none', "timestamp precision ignored"),
 m("snowflakeType", "if [\"float\", \"float4\", \"float8\", \"double\", \"double precision\", \"real\"].contains dt then\n    .ok (.float (.int 64) {})", "if [\"float\", \"float4\", \"float8\", \"double\", \"double precision\", \"real\"].contains dt then\n    .ok (.float (.int 32) {})", "doubles as 32 bits"),
 m("getAffinity", 'if contains t "INT" then pure .integer\n  else if contains t "CHAR" || contains t "TEXT" || contains t "CLOB" then pure .text', 'if contains t "CHAR" || contains t "TEXT" || contains t "CLOB" then pure .text\n  else if contains t "INT" then pure .integer', "order of the affinity rules: CHARINT"),
 m("getAffinity", 'contains t "REAL" || contains t "FLOA" || contains t "DOUB"', 'contains t "REAL" || contains t "FLOA"', "DOUBLE is numeric"),
 m("sqliteParse", "| .integer => pure (.int (.int 64) (.bool true) {})", "| .integer => pure (.int (.int 32) (.bool true) {})", "integers of 32 bits"),
 m("sqliteParse", ".string sqliteMax (.bool true) {}, .bytes sqliteMax (.bool true) {}] {})", ".string sqliteMax (.bool true) {}] {})", "numeric without bytes"),
 m("ceilDiv8", ".ok (.int (-((-i) / 8)))", ".ok (.int (i / 8))", "bits rounded down"),
 m("pgScalar", 'startsWith dt "char" then .ok (.string octet (.bool false) {})', 'startsWith dt "char" then .ok (.string maxLength (.bool false) {})', "length in characters"),
 m("pgScalar", 'if ["smallint", "smallserial", "serial2"].contains dt then\n    .ok (.int (.int 16) (.bool true) {})', 'if ["smallint", "smallserial", "serial2"].contains dt then\n    .ok (.int (.int 16) (.bool false) {})', "smallint unsigned"),
 m("pgScalar", "if symbols.truthy then pure (.enum symbols {}) else .error .valueError", "pure (.enum symbols {})", "enum without symbols"),
 m("nDimList", "  | n + 1 => .list (nDimList base n) .none (.bool true) {}", "  | n + 1 => .list (.union [.null {}, nDimList base n] {}) .none (.bool true) {}", "inner arrays may be null"),
 m("nDimList", "  | 0 => .union [.null {}, base] {}", "  | 0 => base", "elements may not be null"),
 m("selfList", ".union [value, .proxy .none { alias := .str alias }] {}", ".union [value] {}", "no nesting"),
 m("pgSelfArray", "| .ok reg => (.ok t, reg)", "| .ok _ => (.ok t, reg)", "the alias is not registered"),
 m("pgParseFuel", "(lstripUnderscore p.udt)) reg with", "p.udt) reg with", "array element types are unknown"),
 m("pgParseFuel", "if cfg.enforce then (createNDim value p.ndims, reg)", "if !cfg.enforce then (createNDim value p.ndims, reg)", "the flag is inverted"),
 m("addInformationSchema", "if notNull.truthy then pure notNull else item row \"PK\"", "pure notNull", "primary keys are nullable", file="SqliteClient.lean"),
 m("addInformationSchema", "(if isNotNull.truthy then \"NO\" else \"YES\")", "(if isNotNull.truthy then \"YES\" else \"NO\")", "inverted", file="SqliteClient.lean"),
 m("typeParameters", "| .text | .blob => pure (.none, .none, .int precision)", "| .text | .blob => pure (.int precision, .none, .none)", "the length is the precision", file="SqliteClient.lean"),
 m("natOf", "10 * n + (c.toNat - 48)) 0", "10 * n + (c.toNat - 48)) 1", "wrong numbers", file="SqliteClient.lean"),
 m("addInformationSchema", "(\"COLUMN_DEFAULT\", dflt)", "(\"COLUMN_DEFAULT\", .none)", "defaults are lost", file="SqliteClient.lean"),
]
