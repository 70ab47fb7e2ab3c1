def m(definition, old, new, breaks, file="Relational.lean", **kw):
    return dict(definition=definition, old=old, new=new, breaks=breaks, file=file, **kw)

# run with TARGETS="AvroRowsThms AvroRowsFixed"
MUTANTS = [
 m("mysqlType", 'startsWith dt "bit" then .ok (.bytes (.int 8) (.bool false) {})', 'startsWith dt "bit" then .ok (.bytes (.int 1) (.bool false) {})', "C149_fixed_refuted, C149_fixed_partial: bits have one byte"),
 m("mysqlType", 'startsWith dt "binary" then .ok (.bytes octet (.bool false) {})', 'startsWith dt "binary" then .ok (.bytes octet (.bool true) {})', "C149_fixed_refuted: BINARY becomes byte strings of any length"),
 m("pgType", '(ceilDiv8 maxLength).map (fun b => .bytes b (.bool false) {})', '(ceilDiv8 maxLength).map (fun _ => .bytes maxLength (.bool false) {})', "C149_fixed_partial: bits are counted as bytes"),
 m("leafSchema", '.ok [("type", .str "fixed"), ("size", b)]', '.ok [("type", .str "fixed"), ("size", .int 16)]', "C149_fixed_partial: all fixed byte strings have 16 bytes", file="Avro.lean"),
 m("fieldOf", 'let nullable := n == "YES"', 'let nullable := n == "NO"', "C149_rows_partial, C149_fixed_partial: nulls are taken for values and values for nulls"),
 m("fieldsOf", '| (.ok fs, st) => (.ok (f :: fs), st)', '| (.ok fs, st) => (.ok fs, st)', "C149: columns are dropped"),
 m("convertF", 'pure (shorten (Dict.update s [("type", .list vs)]))', 'pure (shorten (Dict.update s [("type", .list vs.tail)]))', "C149: null is no longer allowed", file="Avro.lean"),
 m("logicalSchema", '("type", .str "long"), ("logicalType", .str "timestamp-micros")', '("type", .str "long"), ("logicalType", .str "timestamp-millis")', "C149: points in time in microseconds are data of milliseconds only", file="Avro.lean"),
 m("intSchema", 'if signed = true ∧ bits ≤ 32 then', 'if signed = true ∧ bits ≤ 64 then', "C149: integers of 64 bits are written as int", file="Avro.lean"),
 # the following with TARGETS="AvroRowsArrays"
 m("nDimList", '| n + 1 => .list (nDimList base n) .none (.bool true) {}', '| n + 1 => .list (if n = 0 then base else nDimList base n) .none (.bool true) {}', "C149_dimensions_refuted: the elements are written as a schema"),
 m("selfList", '.list (.union [value, .proxy .none { alias := .str alias }] {}) .none (.bool true)', '.list value .none (.bool true)', "C149_arrays_refuted: the elements are written as a schema"),
 m("convertF", 'if isString k then do', 'if !isString k then do', "C149_hive_maps: maps are written", file="Avro.lean"),
]
