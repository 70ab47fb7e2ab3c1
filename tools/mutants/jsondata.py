def m(definition, old, new, breaks, file="JsonSchema.lean", **kw):
    return dict(definition=definition, old=old, new=new, breaks=breaks, file=file, **kw)

# run with TARGETS="JsonDataThms"
MUTANTS = [
 m("parseLeaf", '.ok (.int (.int 32) (.bool true) (attrsOf e), ids)', '.ok (.int (.int 16) (.bool true) (attrsOf e), ids)', "C130: integers of 16 bits"),
 m("parseLeaf", '.ok (.int (.int 32) (.bool true) (attrsOf e), ids)', '.ok (.int (.int 32) (.bool false) (attrsOf e), ids)', "C130: no negative integers"),
 m("parseLeaf", '.ok (.float (.int 64) (attrsOf e), ids)', '.ok (.float (.int 32) (attrsOf e), ids)', "C130: numbers of single precision"),
 m("parseLeaf", 'type = some (.str "boolean") then .ok (.bool (attrsOf e), ids)', 'type = some (.str "boolean") then .ok (.null (attrsOf e), ids)', "C130: booleans as null"),
 m("parseString", 'else .string .none (.bool true) (attrsOf e)', 'else .string (.int 65536) (.bool true) (attrsOf e)', "C130: strings of at most 65536 bytes"),
 m("parseString", '.string .none (.bool true) (attrsOf e (.str "org.iso.8601.Date"))', '.string (.int 10) (.bool true) (attrsOf e (.str "org.iso.8601.Date"))', "C130: dates of at most ten bytes (formats do not restrict the values)"),
 m("optionalField", "let t := if t.isNullable then t else t.makeNullable", "let t := if t.isNullable then t else RType.union [.null {}] {}", "C130: only null"),
 m("optionalField", 'else t.withAttrs { t.attrs with extra := Dict.set t.attrs.extra "default" .none }', 'else t', "C130: no default, so the property cannot be left out"),
 m("named", 'Dict.set t.attrs.extra "name" (.str name)', 'Dict.set t.attrs.extra "name" (.str "x")', "C130: all fields have the name x"),
 m("parseAll", "pure (t :: ts, ids)", "pure (ts, ids)", "C130: a member of the union is missing"),
 m("parseProps", "if listed then t else optionalField t", "if listed then optionalField t else t", "C130: required and optional swapped"),
 m("parseProps", "if listed then t else optionalField t", "t", "C130: all properties are required"),
 m("parseDict", "pure (.list t .none (.bool true) (attrsOf e), ids)", "pure (.list t (.int 1) (.bool true) (attrsOf e), ids)", "C130: lists with one element"),
 m("parseDict", "parseProps f (Dict.getD d \"required\" (.list [])) props ids", "parseProps f (.list (props.map (fun p => .str p.1))) props ids", "C130: all properties are required"),
 m("parseDict", "let (t, ids) ← f v ids\n        pure (.list t", "let (t, ids) ← f (.str \"string\") ids\n        pure (.list t", "C130: lists of strings"),
 m("convertF", '("type", .str "array"), ("items", .dict d)', '("type", .str "object"), ("items", .dict d)', "C131: lists as objects"),
 m("convertF", '("additionalProperties", .dict d)]', '("properties", .dict d)]', "C131: maps with the schema as properties"),
 m("convertF", '("enum", symbols)]', '("enum", .list [])]', "C131: no symbols"),
 m("convertF", '| .int .. => .ok (Dict.update td [("type", .str "integer")])', '| .int .. => .ok (Dict.update td [("type", .str "string")])', "C131: integers as strings"),
 m("convertF", '| .float .. => .ok (Dict.update td [("type", .str "number")])', '| .float .. => .ok (Dict.update td [("type", .str "integer")])', "C131: floats as integers"),
 m("convertF", '| .null _ => .ok (Dict.update td [("type", .str "null")])', '| .null _ => .ok (Dict.update td [("type", .str "none")])', "C131: null as none"),
 m("convertF", 'pure (Dict.update td [("oneOf", .list ds)])', 'pure (Dict.update td [("oneOf", .list (ds ++ ds))])', "C131: each member twice"),
 m("convertF", 'pure (Dict.update td [("oneOf", .list ds)])', 'pure (Dict.update td [("anyOf", .list ds)])', "C131_oneOf_refuted: shared values are valid (the code would be right)"),
 m("convertF", "match ts.filter (fun t => !t.isNull) with", "match ts.filter (fun t => t.isNull) with", "C131: optional fields as null"),
 m("convertFields", "(if isOptionalField t then required else required ++ [.str name])", "(required ++ [.str name])", "C131: all fields are required"),
 m("convertFields", "(if isOptionalField t then required else required ++ [.str name])", "(if isOptionalField t then required ++ [.str name] else required)", "C131: the optional fields are required"),
 m("convertFields", "(Dict.set props name (.dict d))", "(Dict.set props \"x\" (.dict d))", "C131, C132: all properties have the name x"),
 m("ownDefs", "let d ← f false t", "let d ← f true t", "C131: definitions that refer to themselves"),
 m("defsRef", '("$ref", .str ("#/$defs/" ++ alias))', '("$ref", .str ("#/definitions/" ++ alias))', "C131: references to nothing"),
 m("describe", '[("default", v)]', '[("enum", .list [v])]', "C131: only the default is valid"),
 m("fromRecap", 'Dict.set d "$defs" (.dict defs)', '[("$defs", .dict defs)]', "C132: the schema itself is missing"),
 m("convertF", 'if required.isEmpty then [] else [("required", .list required)]', '[]', "C132: nothing is required"),
 m("convertF", '("additionalProperties", .dict d)]', '("values", .dict d)]', "C132: any values"),
 m("convertF", '("items", .dict d)]', '("values", .dict d)]', "C132: any elements"),
 m("convertF", '("properties", .dict props)]', '("fields", .dict props)]', "C132: any properties"),
 m("convertF", '[("type", .str "string"), ("enum", symbols)]', '[("type", .str "string")]', "C132: any symbols"),
 m("convertF", '| .bool _ => .ok (Dict.update td [("type", .str "boolean")])', '| .bool _ => .ok td', "C132: anything for a boolean"),
 m("convertF", 'let ds ← convertAll (convertF live n true) ts', 'let ds ← convertAll (convertF live n true) (ts ++ [.null {}])', "C132: null for all unions"),
 m("convertFields", "(Dict.set props name (.dict d))", "(Dict.set props name (.dict []))", "C132: any values for properties"),
 m("convertF", "|| !a.extra.isEmpty then do", "&& !a.extra.isEmpty then do", "C131: references with attributes to aliases of the registry are written as references to definitions that nothing makes definite"),
 m("convertF", "let t ← resolve live r a\n          convertF live n true t", "let t ← resolve live r { a with extra := [] }\n          convertF live n true (.list t .none (.bool true) {})", "C131: what a reference resolves to is written as a list of it"),
]
