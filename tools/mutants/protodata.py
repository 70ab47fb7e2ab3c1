def m(definition, old, new, breaks, file="Protobuf.lean", **kw):
    return dict(definition=definition, old=old, new=new, breaks=breaks, file=file, **kw)

MUTANTS = [
 m("scalars", '("string", .string (.int 2147483648)', '("string", .string (.int 65536)', "C133: strings of more than 64 KiB"),
 m("scalars", '("bytes", .bytes (.int 2147483648)', '("bytes", .bytes (.int 2147483646)', "C133: bytes of 2147483647 bytes"),
 m("scalars", '("uint32", .int (.int 32) (.bool false) {})', '("uint32", .int (.int 32) (.bool true) {})', "C133: numbers from 2^31"),
 m("scalars", '("uint64", .int (.int 64) (.bool false) {})', '("uint64", .int (.int 63) (.bool false) {})', "C133: numbers from 2^63"),
 m("scalars", '("sfixed32", .int (.int 32) (.bool true) {})', '("sfixed32", .int (.int 32) (.bool false) {})', "C133: negative numbers"),
 m("scalars", '("double", .float (.int 64) {})', '("double", .float (.int 32) {})', "C133: doubles"),
 m("scalars", '("float", .float (.int 32) {})', '("float", .float (.int 64) {})', "no claim of C133: floats are doubles as well"),
 m("scalars", '("unit", .str "nanosecond"), ("timezone"', '("unit", .str "microsecond"), ("timezone"', "C133: points in time between microseconds"),
 m("scalars", 'logical := .str "build.recap.Timestamp"', 'logical := .str "build.recap.Time"', "C133: points in time"),
 m("scalars", '  ("google.protobuf.NullValue", .null {})]', '  ("google.protobuf.NullValue", .bool {})]', "C133: null"),
 m("typeOf", "some n => .ok (.proxy .none { alias := .str (n ++ \".\" ++ s) })", "some _ => .ok (.proxy .none { alias := .str s })", "C133: simple names refer to nothing"),
 m("fieldType", "let t := if card ≠ some .required then", "let t := if card = some .optional then", "C133: absent fields without a cardinality"),
 m("fieldType", "let t := if card = some .repeated then .list t .none", "let t := if card = some .repeated then .list t (.int 65535)", "C133: lists of other lengths"),
 m("fieldType", "let t := if card = some .repeated then .list", "let t := if card = some .optional then .list", "C133: optional fields as lists"),
 m("mapType", ".map k v {}] {", ".map v k {}] {", "C133: keys and values of maps"),
 m("mapType", "let v ← typeOf ns value", "let v ← typeOf ns key", "C133: values of maps"),
 m("oneofTypes", "  | .field name _ type _ :: es => do\n    let t ← typeOf ns type\n    let ts ← oneofTypes ns es\n    pure (fieldType t (some .required) name :: ts)", "  | .field name _ type _ :: _ => do\n    let t ← typeOf ns type\n    pure [fieldType t (some .required) name]", "C133: only the first member of a oneof"),
 m("parseElem", "pure ([.union (.null {} :: ts) { extra", "pure ([.union ts { extra", "C133: oneofs without a member"),
 m("parseEnum", "(.enum (.list (values.map (·.1)))", "(.enum (.list (values.map (·.1)).tail)", "C133: the first symbol of an enum"),
 m("parseElem", "  | .message name es, reg => do\n    let (fs, reg) ← parseElems ns es reg\n    let (_, reg) ← register ns name fs reg\n    pure ([], reg)", "  | .message name es, reg => do\n    let (fs, reg) ← parseElems ns es reg\n    let (t, reg) ← register ns name fs reg\n    pure ([t], reg)", "C133: nested messages as fields"),
 m("parseElems", "pure (fs ++ fs', reg)", "pure (fs' ++ fs, reg)", "C133: fields in the wrong order"),
 m("parseTop", "parseTop ns es (some (root.getD t)) reg", "parseTop ns es (some t) reg", "C133: the last message is returned"),
 m("follow", "      let u ← resolve live r a\n", "      let u ← resolve live r { a with alias := .str \"int32\" }\n", "C133: references resolved to another type"),
 m("resolveF", "      pure (.map k u a, back resolved resolved₃", "      pure (.map k k a, back resolved resolved₃", "C133: values of maps"),
 m("scalarOf", "      if bits ≤ 32 then .ok (if signed then \"int32\" else \"uint32\")", "      if bits ≤ 33 then .ok (if signed then \"int32\" else \"uint32\")", "C134: integers with 33 bits"),
 m("scalarOf", "      if bits ≤ 32 then .ok (if signed then \"int32\" else \"uint32\")", "      if bits < 32 then .ok (if signed then \"int32\" else \"uint32\")", "C135: data of integers with 32 bits"),
 m("scalarOf", "(if signed then \"int64\" else \"uint64\")", "(if signed then \"uint64\" else \"int64\")", "C134: signs of 64 bits"),
 m("scalarOf", "      else if bits ≤ 64 then .ok (if signed", "      else if bits ≤ 65 then .ok (if signed", "C134: integers with 65 bits"),
 m("scalarOf", "      if bits ≤ 32 then .ok \"float\"", "      if bits ≤ 63 then .ok \"float\"", "C134: floats with 63 bits"),
 m("scalarOf", "  | .string b _ _ => if (asInt b).any (· ≤ 2147483647) then .ok \"string\"", "  | .string b _ _ => if (asInt b).any (· ≤ 2147483648) then .ok \"string\"", "C134: strings with 2 GiB"),
 m("scalarOf", "  | .bytes b _ _ => if (asInt b).any (· ≤ 2147483647) then .ok \"bytes\"", "  | .bytes b _ _ => if (asInt b).any (· ≤ 2147483647) then .ok \"string\"", "C134: bytes"),
 m("scalarOf", "  | .null _ => .ok \"google.protobuf.NullValue\"", "  | .null _ => .ok \"bool\"", "C134: null in lists"),
 m("pathOf", "  | .str s => .ok (\".\" ++ s)", "  | .str s => .ok s", "C134: names with two parts are looked up as full names (no claim breaks by the specification for such names)"),
 m("toField", "    setCard .repeated e", "    setCard .optional e", "C134: lists"),
 m("toField", "    | [e] => setCard .optional e", "    | [e] => setCard .required e", "C134: null in optional fields"),
 m("toField", "(nameOf a number) number key value)", "(nameOf a number) number value key)", "C134: keys and values of maps"),
 m("toField", "    let e' ← toField 0 t\n    let key ← fieldTypeOf e\n    let value ← fieldTypeOf e'", "    let _ ← toField 0 t\n    let key ← fieldTypeOf e\n    let value ← fieldTypeOf e", "C134: values of maps"),
 m("toMembers", "    if t.isNull then toMembers number ts", "    if t.isNull then .ok []", "C134: members after null"),
 m("numbered", "  | n, x :: xs => (x, n) :: numbered (n + 1) xs", "  | n, _ :: xs => numbered (n + 1) xs", "C134: symbols"),
 m("gather", "    pure (insert st package (.enum name (numbered 0 xs)))", "    pure (insert st package (.enum name (numbered 0 xs.tail)))", "C134: the first symbol"),
 m("gather", "  | .union ts _, st => gatherAll ts st", "  | .union _ _, st => .ok st", "C134: structs and enums in unions"),
 m("gather", "  | .map k t _, st => do\n    let st ← gather k st\n    gather t st", "  | .map k _ _, st => gather k st", "C134: structs and enums in values of maps"),
 m("gatherFields", "    pure (e :: es, st)", "    pure (es ++ [e], st)", "C134: fields in the wrong order"),
 m("construct", "          pure (.message name (es ++ times calls sub))", "          pure (.message name es)", "C134: nested declarations"),
 m("construct", "(package ++ \".\" ++ name)\n          pure", "package\n          pure", "C134: nested declarations (the bound is reached)"),
 m("insert", "if p = package then (p, es ++ [e]) :: rest", "if p = package then (p, [e]) :: rest", "C134: other declarations of the package are lost"),
 m("fromRecap", "pure (.package package :: es)", "pure es", "C134: names without the package"),
]
