def m(definition, old, new, breaks, file="Relational.lean", **kw):
    return dict(definition=definition, old=old, new=new, breaks=breaks, file=file, **kw)

# run with TARGETS="RowsThms"
MUTANTS = [
 m("fieldOf", 'let nullable := n == "YES"', 'let nullable := n == "NO"', "C143: rows that leave out a column which can be null are not valid"),
 m("fieldOf", 'pure (setExtra base "name" name)', 'pure (setExtra base "name" (.str "x"))', "C143: all columns have the name x"),
 m("fieldOf", 'if !dflt.isNone || nullable then setExtra base "default" dflt else base', 'if !dflt.isNone then setExtra base "default" dflt else base', "C143: without the default the column is required"),
 m("fieldsOf", "| (.ok fs, st) => (.ok (f :: fs), st)", "| (.ok fs, st) => (.ok (f :: f :: fs), st)", "C143: each column twice (valid all the same; the list of the fields is wrong)"),
 m("mysqlType", 'if dt == "bigint" then .ok (.int (.int 64) (.bool true) {})', 'if dt == "bigint" then .ok (.string (.int 64) (.bool true) {})', "C143: BIGINT columns as strings"),
 m("mysqlType", 'else if dt == "double" then .ok (.float (.int 64) {})', 'else if dt == "double" then .ok (.int (.int 64) (.bool true) {})', "C143: DOUBLE columns as integers"),
 m("mysqlType", 'else if dt == "year" then .ok (.int (.int 16) (.bool false) {})', 'else if dt == "year" then .ok (.string (.int 4) (.bool false) {})', "C143: YEAR columns as strings"),
 m("mysqlType", 'else if startsWith dt "bit" then .ok (.bytes (.int 8) (.bool false) {})', 'else if startsWith dt "bit" then .ok (.int (.int 64) (.bool false) {})', "C143: BIT columns as integers"),
 m("decimalType", ".bytes (.int bytes) (.bool false)\n", ".float (.int bytes)\n", "C143: decimals as floating point numbers"),
 m("timeType", '.int (.int bits) (.bool true) { logical', '.string (.int bits) (.bool true) { logical', "C143: points in time as strings"),
 m("snowflakeType", 'then .ok (.bool {})\n  else if ["number"', 'then .ok (.int (.int 1) (.bool false) {})\n  else if ["number"', "C143: booleans as integers"),
 m("snowflakeType", '.ok (.bytes (orElse octet (.int 8388608)) (.bool true) {})', '.ok (.list (.int (.int 8) (.bool false) {}) octet (.bool true) {})', "C143: byte strings as lists"),
 m("getAffinity", 'else if contains t "BLOB" then pure .blob', 'else if contains t "BLOB" then pure .real', "C143: BLOB columns as floating point numbers"),
 m("getAffinity", 'if t = "" then pure .blob', 'if t = "" then pure .integer', "C143: columns without type as integers"),
 m("sqliteParse", "| .integer => pure (.int (.int 64) (.bool true) {})", "| .integer => pure (.float (.int 64) {})", "C143: integers as numbers (rows are valid all the same)"),
 m("sqliteParse", "| .text => pure (.string (orElse octet sqliteMax) (.bool true) {})", "| .text => pure (.union [.null {}, .string sqliteMax (.bool true) {}] {})", "C143_null_refuted: the field is required with null or string, so that null is valid"),
 m("sqliteParse", ".string sqliteMax (.bool true) {}, .bytes sqliteMax (.bool true) {}] {})", ".string sqliteMax (.bool true) {}] {})", "C143_numeric_refuted: text in NUMERIC columns is valid"),
 m("pgScalar", 'then .ok (.bool {})\n  else if ["text", "json", "jsonb"]', 'then .ok (.string (.int 1) (.bool false) {})\n  else if ["text", "json", "jsonb"]', "C143: booleans as strings"),
 m("nDimList", "| 0 => .union [.null {}, base] {}", "| 0 => base", "C143: arrays with null elements are not valid"),
 m("createNDim", ".ok (nDimList base i.toNat)", ".ok (nDimList base (i.toNat + 1))", "C143: arrays with the declared dimensions are not valid"),
 m("convertFields", "(if isOptionalField t then required else required ++ [.str name])", "(required ++ [.str name])", "C143: rows that leave out a column are not valid", file="JsonSchema.lean"),
 m("convertF", '| .float .. => .ok (Dict.update td [("type", .str "number")])', '| .float .. => .ok (Dict.update td [("type", .str "integer")])', "C143: floating point numbers as integers", file="JsonSchema.lean"),
 m("convertF", '| .bytes .. => .ok (Dict.update td [("type", .str "string"), ("format", .str "byte")])', '| .bytes .. => .ok (Dict.update td [("type", .str "array")])', "C143: byte strings as lists", file="JsonSchema.lean"),
 m("convertF", 'pure (Dict.update td [("oneOf", .list ds)])', 'pure (Dict.update td [("allOf", .list ds)])', "C143: arrays with elements: all members", file="JsonSchema.lean"),
]
