def h(definition, old, new, breaks, file="Hive.lean", **kw):
    return dict(definition=definition, old=old, new=new, breaks=breaks, file=file, **kw)
def b(definition, old, new, breaks, file="BigQuery.lean", **kw):
    return dict(definition=definition, old=old, new=new, breaks=breaks, file=file, **kw)

MUTANTS = [
 h("absorb", "| .union ts _ => acc ++ ts.filter (fun t => !acc.any (fun u => pyEq u t))", "| .union ts _ => acc ++ ts", "duplicates stay in flattened unions"),
 h("absorb", "| .union ts _ => acc ++ ts.filter (fun t => !acc.any (fun u => pyEq u t))", "| .union _ _ => acc", "members of nested unions are lost"),
 h("absorb", "if acc.any (fun u => pyEq u t) then acc else acc ++ [t]", "if acc.any (fun u => pyEq u t) then acc else t :: acc", "order of members"),
 h("flatten", "| .map k v a => .map (flatten k) (flatten v) (misplaced a)", "| .map k v a => .map (flatten v) (flatten k) (misplaced a)", "keys and values swapped in unions"),
 h("flatten", "| .struct fs a => .struct (flattenAll fs) a", "| .struct fs a => .struct (flattenAll fs) {}", "names of structs in unions are lost"),
 h("primitive", "| .short => .ok (.int (.int 16) (.bool true) x)", "| .short => .ok (.int (.int 8) (.bool true) x)", "short of 8 bits"),
 h("primitive", "| .long => .ok (.int (.int 64) (.bool true) x)", "| .long => .ok (.int (.int 64) (.bool true) {})", "names of long columns are lost"),
 h("primitive", "extra := (\"unit\", .str \"nanosecond\") :: (\"timezone\", .none) :: x.extra })", "extra := (\"unit\", .str \"nanosecond\") :: (\"timezone\", .str \"UTC\") :: x.extra })", "local time zone as UTC"),
 h("primitive", "| .other => .error .valueError", "| .other => .ok (.null x)", "unknown types as null"),
 h("finish", "if t.isUnion || t.isNull then t else makeNullable t", "t", "columns are not nullable"),
 h("columnAttrs", "| some c => if c = \"\" then .none else .str c", "| some _ => .none", "comments are lost"),
 h("parse", "    if p > 38 then .error .valueError", "    if p > 39 then .error .valueError", "precision 39 accepted"),
 h("parse", "| .char n => pure (finish (.string (.int n) (.bool false) x))", "| .char n => pure (finish (.string (.int n) (.bool true) x))", "char variable"),
 h("parse", "(\"precision\", .int p) :: (\"scale\", .int s)", "(\"precision\", .int s) :: (\"scale\", .int p)", "precision and scale swapped"),
 h("parse", "pure (finish (flatten (.union (.null {} :: ts)", "pure (finish (flatten (.union ts", "unions without null"),
 h("parseFields", "let t ← parse (columnAttrs n .none) t\n    let fs ← parseFields fs", "let t ← parse {} t\n    let fs ← parseFields fs", "names of nested fields are lost"),
 h("parseColumns", "let ts ← parseColumns cs\n    pure (t :: ts)", "let ts ← parseColumns cs\n    pure (ts ++ [t])", "columns in reverse order"),
 h("toRecap", "pure (.struct fs { extra := [(\"name\", .str table.name)] })", "pure (.struct fs {})", "the table has no name"),
 b("scalar", '"SMALLINT", "TINYINT", "BYTEINT"].contains fieldType then\n    .ok (.int (.int 64)', '"SMALLINT", "TINYINT", "BYTEINT"].contains fieldType then\n    .ok (.int (.int 32)', "integers of 32 bits"),
 b("scalar", '["BIGNUMERIC", "BIGDECIMAL"].contains fieldType then\n    .ok (.bytes (.int 32)', '["BIGNUMERIC", "BIGDECIMAL"].contains fieldType then\n    .ok (.bytes (.int 16)', "76 digits in 16 bytes"),
 b("scalar", "orElse precision (.int 76)), (\"scale\", orElse scale (.int 0))", "orElse precision (.int 76)), (\"scale\", orElse scale (.int 38))", "default scale (which would be right for BigQuery)"),
 b("scalar", 'fieldType == "TIME" then\n    .ok (.int (.int 32)', 'fieldType == "TIME" then\n    .ok (.int (.int 64)', "time of 64 bits: would hold all values"),
 b("decorate", 'if mode == "REPEATED" then .list t .none (.bool true) {} else t', 'if mode == "REPEATED" then .list t .none (.bool false) {} else t', "repeated fields are fixed"),
 b("decorate", 'if mode == "NULLABLE" then makeNullable t else t', 'if mode != "REQUIRED" then makeNullable t else t', "repeated fields are nullable"),
 b("decorate", "if description.truthy then setDoc t description else t", "t", "descriptions are lost"),
 b("decorate", "if dflt.truthy then setExtra t \"default\" dflt else t", "if dflt.truthy then setExtra t \"default\" name else t", "the default is the name"),
 b("fieldOf", "pure (decorate mode name description dflt (.struct fs {}))", "pure (decorate \"NULLABLE\" name description dflt (.struct fs {}))", "records are always nullable"),
 b("fieldsOf", "let ts ← fieldsOf fs\n    pure (t :: ts)", "let _ ← fieldsOf fs\n    pure [t]", "only the first field is kept"),
]
