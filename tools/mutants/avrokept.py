def m(definition, old, new, breaks, file="Avro.lean", **kw):
    return dict(definition=definition, old=old, new=new, breaks=breaks, file=file, **kw)

# run with TARGETS="AvroKeptThms"
MUTANTS = [
 m("logicalSchema", '("type", .str "int"), ("logicalType", .str "time-millis")', '("type", .str "int"), ("logicalType", .str "date")', "C154_same_partial: times become dates"),
 m("logicalSchema", '("scale", Dict.getD a.extra "scale" (.int 0))', '("scale", .int 0)', "C154_same_partial: decimals lose their scale"),
 m("logicalSchema", '("type", .str "long"), ("logicalType", .str "timestamp-millis")', '("type", .str "long"), ("logicalType", .str "timestamp-micros")', "C154_same_partial: milliseconds become microseconds"),
 m("parseLogical", '.ok (.string (.int 36) (.bool false) (attrsOf e (logical := .str "build.recap.UUID")))', '.ok (.string (.int 36) (.bool false) (attrsOf e))', "C154_same_partial: UUIDs become strings"),
 m("parseLogical", '(attrsOf e (logical := .str "build.recap.Time")\n      (own := [("unit", .str "microsecond")]))', '(attrsOf e (logical := .str "build.recap.Timestamp")\n      (own := [("unit", .str "microsecond")]))', "C154_same_partial: times become timestamps"),
 m("intSchema", 'if signed = true ∧ bits ≤ 32 then', 'if signed = true ∧ bits ≤ 64 then', "C154_same_partial: long becomes int"),
 m("leafSchema", 'if bits ≤ 32 then .ok [("type", .str "float")]', 'if bits ≤ 16 then .ok [("type", .str "float")]', "C154_same_partial: float becomes double"),
 m("leafSchema", 'if v = .bool true then .ok [("type", .str "bytes")]', 'if v = .bool true then .ok [("type", .str "string")]', "C154_same_partial: byte strings become strings"),
 m("leafSchema", '.ok [("type", .str "enum"), ("symbols", symbols)]', '.ok [("type", .str "enum"), ("symbols", .list [])]', "C154_same_partial: enums lose their symbols"),
 m("convertF", '[("type", .str "array"), ("items", v)]', '[("type", .str "map"), ("values", v)]', "C154_same_partial: arrays become maps"),
 m("convertF", 'pure (shorten (Dict.update s [("type", .list vs)]))', 'pure (shorten (Dict.update s [("type", .list vs.tail)]))', "C154_same_partial: unions lose their first type"),
 m("convertF", '("fields", .list (vs.map fieldSchema))', '("fields", .list (vs.map fieldSchema).reverse)', "C154_same_partial: the fields are written in another order"),
 m("convertF", '("fields", .list (vs.map fieldSchema))', '("fields", .list vs)', "C154_same_partial: fields without name are strings (no such fields are read)"),
 m("parseComplex", 'registered (.map stringKeys t a) reg', 'registered (.list t .none (.bool true) a) reg', "C154_same_partial: maps become arrays"),
 m("parseComplex", '| some v => registered (.enum v a) reg', '| some _ => registered (.enum (.list []) a) reg', "C154_same_partial: enums lose their symbols when they are read"),
 m("parseType", 'let (ts, reg) ← parseAll f ns xs reg\n    registered (.union ts (attrsOf e alias)) reg', 'let (ts, reg) ← parseAll f ns xs reg\n    registered (.union ts.reverse (attrsOf e alias)) reg', "C154: the order of the types of a union changes (the data, without the defaults, stay the same)"),
 m("nameOf", 'if v.truthy then [("name", v)] else []', 'if v.truthy then [] else [("name", v)]', "C154_same_partial: the fields lose their names"),
 m("aliasesOf", 'if hasDot s then [("aliases", .list [.str s])] else []', 'if hasDot s then [("name", .str s)] else []', "C154_reference_refuted: the full name is written (the code would be right)"),
 m("shorten", '| [("type", .str s)] => .str s', '| [("type", .str _)] => .str "null"', "C154_same_partial: the members of unions become null"),
]
