def m(definition, old, new, breaks, file="BigQuery.lean", **kw):
    return dict(definition=definition, old=old, new=new, breaks=breaks, file=file, **kw)

# run with TARGETS="NestedRowsThms"
MUTANTS = [
 m("decorate", 'let t := if mode == "NULLABLE" then makeNullable t else t', 'let t := t', "C147_bigquery: columns that can be null are required"),
 m("decorate", 'let t := if mode == "NULLABLE" then makeNullable t else t', 'let t := if mode == "REPEATED" then makeNullable t else t', "C147_bigquery: columns that can be null are required"),
 m("decorate", 'let t := if mode == "REPEATED" then .list t .none (.bool true) {} else t', 'let t := t', "C147_bigquery: arrays as single values"),
 m("decorate", 'let t := if mode == "REPEATED" then .list t .none (.bool true) {} else t', 'let t := if mode != "REPEATED" then .list t .none (.bool true) {} else t', "C147_bigquery: single values as arrays"),
 m("decorate", 'let t := if name.truthy then setExtra t "name" name else t', 'let t := if name.truthy then setExtra t "name" (.str "x") else t', "C147_bigquery: all columns have the name x"),
 m("decorate", 'let t := if description.truthy then setDoc t description else t', 'let t := if description.truthy then setExtra t "name" description else t', "C147_bigquery: the description as the name"),
 m("fieldOf", 'pure (decorate mode name description dflt (.struct fs {}))', 'pure (decorate mode name description dflt (.struct fs.reverse {}))', "none: the order of fields does not matter for validity (equivalent for C147)"),
 m("fieldOf", 'pure (decorate mode name description dflt (.struct fs {}))', 'pure (decorate mode name description dflt (.map (.string .none (.bool true) {}) (.union fs {}) {}))', "C147_bigquery: records as maps"),
 m("fieldsOf", 'pure (t :: ts)', 'pure (t :: t :: ts)', "C147_bigquery: each field twice (valid, but the proof counts fields)"),
 m("finish", 'if t.isUnion || t.isNull then t else makeNullable t', 't', "C147_hive_partial: columns are required", file="Hive.lean"),
 m("finish", 'if t.isUnion || t.isNull then t else makeNullable t', 'if t.isUnion || t.isNull then t else .union [.null {}, t] {}', "C147_hive_partial: optional but required, and without a name", file="Hive.lean"),
 m("parse", 'pure (finish (.list e .none (.bool true) x))', 'pure (finish (.map e e x))', "C147_hive_partial: arrays as objects", file="Hive.lean"),
 m("parse", 'pure (finish (.map k v x))', 'pure (finish (.map v k x))', "C147_hive_partial: the keys of a map as its values", file="Hive.lean"),
 m("parse", 'pure (finish (.map k v x))', 'pure (finish (.list v .none (.bool true) x))', "C147_hive_partial: maps as arrays", file="Hive.lean"),
 m("parse", 'pure (finish (.struct fs x))', 'pure (finish (.struct fs.tail x))', "C147_hive_partial: the first field is lost (valid, but the proof counts fields)", file="Hive.lean"),
 m("parseFields", 'let t ← parse (columnAttrs n .none) t', 'let t ← parse {} t', "C147_hive_partial: fields without names", file="Hive.lean"),
 m("parseColumns", 'let t ← parse (columnAttrs c.name c.comment) c.type', 'let t ← parse (columnAttrs "c" c.comment) c.type', "C147_hive_partial: all columns have the name c", file="Hive.lean"),
 m("convertFields", '(if isOptionalField t then required else required ++ [.str name])', '(required ++ [.str name])', "C147: all properties are required", file="JsonSchema.lean"),
 m("convertF", 'pure (Dict.update td [("type", .str "object"), ("additionalProperties", .dict d)])', 'pure (Dict.update td [("type", .str "array"), ("additionalProperties", .dict d)])', "C147_hive_partial: maps as arrays", file="JsonSchema.lean"),
 m("convertF", 'pure (Dict.update td [("type", .str "array"), ("items", .dict d)])', 'pure (Dict.update td [("type", .str "array"), ("items", .dict (Dict.update d [("type", .str "array")]))])', "C147: elements are arrays", file="JsonSchema.lean"),
 m("convertF", '            pure (Dict.update td d)\n', '            pure (Dict.update td [("oneOf", .list [.dict [("type", .str "null")], .dict d])])\n', "C147_bigquery_null_refuted: null is valid (the code would be right)", file="JsonSchema.lean"),
]
