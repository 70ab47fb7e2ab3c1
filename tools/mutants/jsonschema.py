def m(definition, old, new, breaks, file="JsonSchema.lean", **kw):
    return dict(definition=definition, old=old, new=new, breaks=breaks, file=file, **kw)

MUTANTS = [
 m("rstripHash", "(s.reverse.dropWhile (· = '#')).reverse", "s", "identifiers keep their #"),
 m("urnToAlias", "(splitOn '.' s.netloc).reverse", "(splitOn '.' s.netloc)", "domains are not reversed"),
 m("urnToAlias", "dotted (s.path ++ s.fragment)", "dotted s.path", "fragments are dropped: aliases collide"),
 m("extraAttrs", "copied d \"description\" \"doc\" ++ copied d \"default\" \"default\"", "copied d \"description\" \"doc\"", "defaults are lost"),
 m("extraAttrs", "ids ++ [id])", "ids)", "identifiers are not known afterwards"),
 m("optionalField", "let t := if t.isNullable then t else t.makeNullable\n", "", "optional fields cannot be null"),
 m("optionalField", "if Dict.has t.attrs.extra \"default\" then t\n  else", "", "defaults are overwritten"),
 m("named", "Dict.set t.attrs.extra \"name\" (.str name)", "Dict.set t.attrs.extra \"title\" (.str name)", "fields have no names"),
 m("parseProps", "if listed then t else optionalField t", "if listed then optionalField t else t", "required is inverted"),
 m("parseRef", "if rstripHash urn.toList ∈ ids then do", "if true then do", "references to unknown documents are accepted"),
 m("parseString", "(attrsOf e (.str \"org.iso.8601.DateTime\"))", "(attrsOf e (.str \"org.iso.8601.Date\"))", "date-time as date"),
 m("parseLeaf", "type = some (.str \"integer\") then .ok (.int (.int 32)", "type = some (.str \"integer\") then .ok (.int (.int 64)", "integers have 64 bits (which would be right)"),
 m("parseLeaf", "type = some (.str \"number\") then .ok (.float (.int 64) (attrsOf e), ids)", "type = some (.str \"number\") then .ok (.float (.int 64) {}, ids)", "docs of numbers are lost"),
 m("parseLeaf", "| _, _ => .error .valueError", "| _, _ => .ok (.null {}, ids)", "unknown types are null"),
 m("parseDict", "let (ts, ids) ← parseAll f xs ids\n    pure (.union ts (attrsOf e), ids)", "let (ts, ids) ← parseAll f xs ids\n    pure (.union (.null {} :: ts) (attrsOf e), ids)", "type lists can be null"),
 m("parseDict", "pure (.list t .none (.bool true) (attrsOf e), ids)", "pure (.list t .none (.bool false) (attrsOf e), ids)", "arrays are fixed"),
 m("toRecap", "  | .struct .. => pure (t, ids)\n  | _ => .error .valueError", "  | _ => pure (t, ids)", "other types than objects at the top"),
 m("describe", "if a.doc.truthy then [(\"description\", a.doc)] else []", "[]", "docs are not written"),
 m("convertFields", "(if isOptionalField t then required else required ++ [.str name])", "(required ++ [.str name])", "all fields are required"),
 m("convertFields", "if name = \"\" then .error .valueError\n      else do", "do", "empty names are accepted"),
 m("convertF", "pure (Dict.update td [(\"oneOf\", .list ds)])", "pure (Dict.update td [(\"anyOf\", .list ds)])", "unions as anyOf"),
 m("convertF", "if required.isEmpty then [] else [(\"required\", .list required)]", "[]", "no field is required"),
 m("convertF", "pure (Dict.update td [(\"type\", .str \"object\"), (\"additionalProperties\", .dict d)])", "pure (Dict.update td [(\"type\", .str \"object\"), (\"properties\", .dict d)])", "maps as objects with properties"),
 m("convertF", "| .float .. => .ok (Dict.update td [(\"type\", .str \"number\")])", "| .float .. => .ok (Dict.update td [(\"type\", .str \"integer\")])", "floats as integers"),
 m("convertF", "if (← isBuiltin a.alias) || !a.extra.isEmpty then do", "if (← isBuiltin a.alias) then do", "overrides at references are lost"),
 m("ownDefs", "let d ← f false t", "let d ← f true t", "definitions refer to themselves"),
 m("aliasDefs", "| .map k t a => do\n    let own ← ownDefs f (.map k t a)\n    let ds ← aliasDefs f t\n    pure (Dict.update own ds)", "| .map k t a => ownDefs f (.map k t a)", "definitions in map values are lost"),
 m("aliasDefs", "let own ← ownDefs f (.union ts a)\n    aliasDefsAll f ts own", "let own ← ownDefs f (.union ts a)\n    aliasDefsAll f (ts.drop 1) own", "definitions in the first member are lost"),
 m("fromRecap", "pure (if defs.isEmpty then d else Dict.set d \"$defs\" (.dict defs))", "pure d", "no definitions"),
]
