def m(definition, old, new, breaks, file="Types.lean", **kw):
    return dict(definition=definition, old=old, new=new, breaks=breaks, file=file, **kw)

MUTANTS = [
 m("paramDefaults", 'if name = "int" then ("signed", .bool true) :: base', 'if name = "int" then ("signed", .bool false) :: base', "unsigned integers are written without signed and read back as signed"),
 m("dropDefaults", "| some dv => !PyVal.pyEq dv kv.2)", "| some _ => false)", "attributes with defaults are always dropped"),
 m("removeNull", "if PyVal.pyEq (.str \"null\") x then xs else x :: removeNull xs", "x :: removeNull xs", "null stays in optional unions"),
 m("sugarAttributes", "(\"doc\", doc), (\"logical\", logical)", "(\"logical\", logical)", "docs of optional unions are lost"),
 m("sugarUnion", "match removeNull xs, alias.isNone && logical.isNone with", "match removeNull xs, logical.isNone with", "aliases of optional unions move to the member"),
 m("sugarOptional", "if !d.has \"default\" then .ok d", "if false then .ok d", "unions with null but no default become optional"),
 m("cleanNested", "let v' ← f v\n        pure (d.set \"keys\" v')", "let v' ← f v\n        pure (d.set \"values\" v')", "map keys replace values"),
 m("shorten", "if PyVal.pyEq ty (.str \"union\") && d.length == 2 then", "if PyVal.pyEq ty (.str \"union\") then", "attributes of unions are lost"),
 m("aliasDictF", "if !(d.getD \"alias\" .none).isNone then .ok (d, reg)\n    else do", "do", "types with an alias are aliased again"),
 m("matchAlias", "if RType.pyEq t t' then some k else matchAlias t rest", "if t.typeName = t'.typeName then some k else matchAlias t rest", "any type of the same kind gets the alias"),
 m("postProcess", "if clean then cleanDict (.dict d) else pure (.dict d)", "pure (.dict d)", "clean is ignored: still reads back"),
 m("toDict", "postProcess clean alias ((d.erase \"alias\").set \"type\" (d.getD \"alias\" .none))", "postProcess clean alias ((d.erase \"alias\").set \"type\" (.str \"proxy\"))", "references lose their target"),
 m("aliasAll", "let (xs', reg) ← aliasAll f xs reg\n    pure (x' :: xs', reg)", "let (xs', reg) ← aliasAll f xs newRegistry\n    pure (x' :: xs', reg)", "C03 with aliases: references to earlier user aliases are not found again"),
 m("aliasKeys", "aliasKeys f ks (d.set k (.list xs')) reg", "aliasKeys f ks d reg", "C03: fields and members are not replaced by references"),
 m("aliasElem", "let (d', reg) ← f d reg\n    pure (.dict d', reg)", "let (_, reg) ← f d reg\n    pure (.dict d, reg)", "C03: fields are not replaced by references"),
 m("aliasDictF", "| some k => pure ([(\"type\", .str k)], reg)", "| some k => pure (d.set \"type\" (.str k), reg)", "C03: a reference keeps the attributes of what it stands for"),
 m("sugarUnion", "| [.dict d'], true => .ok (Dict.update d' attributes)", "| [.dict d'], true => .ok (Dict.update (d'.erase \"alias\") attributes)", "C03: optional types lose their alias"),
 m("matchAlias", "if RType.pyEq t t' then some k else matchAlias t rest", "if RType.pyEq t t' && rest.isEmpty then some k else matchAlias t rest", "C03: only the last alias is used"),
]
