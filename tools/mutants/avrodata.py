def m(definition, old, new, breaks, file="Avro.lean", **kw):
    return dict(definition=definition, old=old, new=new, breaks=breaks, file=file, **kw)

# run with TARGETS="AvroDataThms AvroWriteThms"
MUTANTS = [
 m("primitive", 's = "int" then some (.int (.int 32)', 's = "int" then some (.int (.int 31)', "C128: an int has 31 bits"),
 m("primitive", 's = "string" then some (.string (.int maxLong)', 's = "string" then some (.string (.int 65536)', "C128: long strings are no values"),
 m("parseLogical", '("scale", Dict.getD d "scale" (.int 0))', '("scale", Dict.getD d "precision" (.int 0))', "C128: the precision as scale"),
 m("parseLogical", '(Dict.getD d "size" (.int maxLong))', '(Dict.getD d "size" (.int 8))', "C128: decimals of eight bytes"),
 m("parseLogical", '.ok (.string (.int 36) (.bool false)', '.ok (.string (.int 32) (.bool false)', "C128: UUIDs without dashes"),
 m("parseLogical", 'logical = .str "time-millis" then\n    .ok (.int (.int 32) (.bool true) (attrsOf e (logical := .str "build.recap.Time")\n      (own := [("unit", .str "millisecond")])))', 'logical = .str "time-millis" then\n    .ok (.int (.int 32) (.bool true) (attrsOf e (logical := .str "build.recap.Time")\n      (own := [("unit", .str "microsecond")])))', "C128: another unit"),
 m("parseLogical", 'logical = .str "time-micros" then\n    .ok (.int (.int 64)', 'logical = .str "time-micros" then\n    .ok (.int (.int 32)', "C128: microseconds in 32 bits"),
 m("parseLogical", 'logical = .str "timestamp-millis" then\n    .ok (.int (.int 64) (.bool true)', 'logical = .str "timestamp-millis" then\n    .ok (.int (.int 64) (.bool false)', "C128: no timestamps before 1970"),
 m("reference", "if hasDot s then s else", "if false then s else", "C128: full names get a namespace"),
 m("reference", 'ns.getD "None" ++ "." ++ s', '"None" ++ "." ++ s', "C128: references to another namespace"),
 m("stringKeys", ".string (.int maxLong) (.bool true) {}", ".string (.int 255) (.bool true) {}", "C128: short keys"),
 m("parseComplex", "registered (.list t .none (.bool true) a) reg", "registered (.list t (.int 1) (.bool true) a) reg", "C128: lists with one element"),
 m("parseComplex", "let (ts, reg) ← parseAll f ns xs reg\n      registered (.struct ts a) reg", "let (ts, reg) ← parseAll f ns xs.reverse reg\n      registered (.struct ts a) reg", "C128: fields in another order"),
 m("parseComplex", "let (ts, reg) ← parseAll f ns xs reg\n      registered (.struct ts a) reg", "let (ts, reg) ← parseAll f ns (xs.drop 1) reg\n      registered (.struct ts a) reg", "C128: a field is missing"),
 m("parseType", "let (ts, reg) ← parseAll f ns xs reg\n    registered (.union ts (attrsOf e alias)) reg", "let (ts, reg) ← parseAll f ns (xs.take 2) reg\n    registered (.union ts (attrsOf e alias)) reg", "C128: a union of two"),
 m("registered", "let reg ← reg.registerAlias t\n    pure (t, reg)", "let _ ← reg.registerAlias t\n    pure (t, reg)", "C128: names are not known"),
 m("intSchema", "if signed = true ∧ bits ≤ 32 then", "if signed = true ∧ bits ≤ 33 then", "C129: integers of 33 bits as int"),
 m("intSchema", "if signed = true ∧ bits ≤ 32 then", "if bits ≤ 32 then", "C129: unsigned integers as int"),
 m("intSchema", "(bits ≤ 32 ∧ signed = false) ∨ (bits ≤ 64 ∧ signed = true)", "bits ≤ 32 ∧ signed = false", "C129: a long as decimal"),
 m("leafSchema", 'if bits ≤ 32 then .ok [("type", .str "float")]', 'if bits ≤ 64 then .ok [("type", .str "float")]', "C129: doubles as float"),
 m("leafSchema", '.ok [("type", .str "enum"), ("symbols", symbols)]', '.ok [("type", .str "enum"), ("symbols", .list [])]', "C129: no symbols"),
 m("logicalSchema", '("scale", Dict.getD a.extra "scale" (.int 0))', '("scale", .int 0)', "C129: the scale is lost"),
 m("logicalSchema", '.ok [("type", .str "long"), ("logicalType", .str "time-micros")]', '.ok [("type", .str "int"), ("logicalType", .str "time-micros")]', "C129: the logical type does not apply"),
 m("logicalSchema", 'bits ≤ 64 ∧ a.logical = .str "build.recap.Timestamp" ∧ unit = some (.str "millisecond") then', 'bits ≤ 64 ∧ a.logical = .str "build.recap.Timestamp" ∧ unit = some (.str "second") then', "C129: seconds as milliseconds"),
 m("logicalSchema", 'bits ≤ 32 ∧ a.logical = .str "build.recap.Date" then', 'bits ≤ 64 ∧ a.logical = .str "build.recap.Date" then', "C129: dates of 64 bits"),
 m("logicalSchema", '.ok [("type", .str "string"), ("logicalType", .str "uuid")]', '.ok [("type", .str "string"), ("logicalType", .str "date")]', "C129: UUIDs as dates (which Avro ignores)"),
 m("convertF", '("items", v)]', '("items", .str "string")]', "C129: lists of strings"),
 m("convertF", '("values", v)]', '("items", v)]', "C129: maps without values"),
 m("convertF", "vs.map fieldSchema))", "(vs.drop 1).map fieldSchema))", "C129: a field is missing", count=1),
 m("convertF", "(vs.map fieldSchema)", "((vs.map fieldSchema).map (fun v => .dict [(\"type\", v)]))", "C129_inline_refuted: nested schemas in fields (the code would be right)"),
 m("convertF", 'pure (shorten (Dict.update s [("type", .list vs)]))', "pure (.list vs)", "C129_items_refuted: unions inside lists (the code would be right)"),
 m("fromRecap", '| v => pure [("type", v)]', '| v => pure [("typ", v)]', "C129: schemas of primitive types without type"),
 m("nameOf", 'some v => if v.truthy then [("name", v)] else []', 'some v => if v.truthy then [("namespace", v)] else []', "C129: a name as the namespace (data are not changed)"),
]
