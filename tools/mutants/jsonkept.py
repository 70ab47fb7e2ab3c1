def m(definition, old, new, breaks, file="JsonSchema.lean", **kw):
    return dict(definition=definition, old=old, new=new, breaks=breaks, file=file, **kw)

MUTANTS = [
 m("optionalField", "  if Dict.has t.attrs.extra \"default\" then t\n  else t.withAttrs", "  if true then t\n  else t.withAttrs", "C152: properties of a union that can be null already get no default, so that they become required"),
 m("optionalField", "let t := if t.isNullable then t else t.makeNullable", "let t := if t.isUnion then t else t.makeNullable", "C152: a property whose list of types has one name becomes required"),
 m("parseProps", "if listed then t else optionalField t", "if listed then optionalField t else t", "C152: what is required is optional afterwards, and the other way round"),
 m("parseProps", "if listed then t else optionalField t", "optionalField t", "C152: what is required need not be there afterwards"),
 m("parseLeaf", "else if type = some (.str \"number\") then .ok (.float (.int 64) (attrsOf e), ids)", "else if type = some (.str \"number\") then .ok (.int (.int 32) (.bool true) (attrsOf e), ids)", "C152: numbers with a fraction are not valid afterwards"),
 m("parseLeaf", "else if type = some (.str \"null\") then .ok (.null (attrsOf e), ids)", "else if type = some (.str \"null\") then .ok (.bool (attrsOf e), ids)", "C152: null becomes boolean"),
 m("parseString", "if format = some (.str \"bytes\") then .bytes .none (.bool true) (attrsOf e)", "if format = some (.str \"bytes\") then .list (.int (.int 8) (.bool false) {}) .none (.bool true) (attrsOf e)", "C152: strings with the format bytes become arrays of numbers"),
 m("parseDict", "(Dict.getD d \"required\" (.list []))", "(Dict.getD d \"requires\" (.list []))", "C152: nothing is required afterwards"),
 m("parseDict", "let (t, ids) ← f v ids\n        pure (.list t", "let (_, ids) ← f v ids\n        pure (.list (.string .none (.bool true) {})", "C152: all lists have strings afterwards"),
 m("parseAll", "pure (t :: ts, ids)", "pure (if ts.isEmpty then [t] else ts, ids)", "C152: of a list of types, only the last remains"),
 m("attrsOf", "e.filter (fun kv => kv.1 = \"default\")", "e.filter (fun kv => kv.1 = \"doc\")", "C117, C152: defaults are lost"),
 m("isOptionalField", "| .union ts a => RType.isOptional ts a.extra", "| .union ts _ => ts.any RType.isNull", "C152: what can be null is not required afterwards"),
 m("convertFields", "(if isOptionalField t then required else required ++ [.str name])", "(if isOptionalField t then required ++ [.str name] else required)", "C152: exactly the optional properties are required"),
 m("convertFields", "convertFields f ts (Dict.set props name (.dict d))", "convertFields f ts (Dict.set [] name (.dict d))", "C152: only the last property is written"),
 m("convertF", "pure (Dict.update td [(\"oneOf\", .list ds)])", "pure (Dict.update td [(\"anyOf\", .list ds)])", "C152: alternatives are written with a keyword that other types are not read with (no meaning in the model)"),
 m("convertF", "pure (Dict.update td [(\"oneOf\", .list ds)])", "pure (Dict.update td [(\"oneOf\", .list ds.tail)])", "C152: the first alternative is lost"),
 m("convertF", "ts.filter (fun t => !t.isNull)", "ts.filter (fun t => t.isNull)", "C152: optional properties are null"),
 m("convertF", "| .int .. => .ok (Dict.update td [(\"type\", .str \"integer\")])", "| .int .. => .ok (Dict.update td [(\"type\", .str \"number\")])", "C152: numbers with a fraction are valid for integers"),
 m("convertF", "if required.isEmpty then [] else [(\"required\", .list required)]", "if required.isEmpty then [(\"required\", .list required)] else []", "C152: what is required is not written"),
 m("convertF", "pure (Dict.update td [(\"type\", .str \"array\"), (\"items\", .dict d)])", "pure (Dict.update td [(\"type\", .str \"array\"), (\"contains\", .dict d)])", "C152: elements of lists can be anything"),
 m("convertF", "| .bytes .. => .ok (Dict.update td [(\"type\", .str \"string\"), (\"format\", .str \"byte\")])", "| .bytes .. => .ok (Dict.update td [(\"type\", .str \"bytes\"), (\"format\", .str \"byte\")])", "C152: strings with the format bytes become a type that no value has"),
 m("ownDefs", "let d ← f false t", "let d ← f true t", "C152: the definition of the root refers to itself"),
 m("ownDefs", "if t.attrs.alias.truthy && !(← isBuiltin t.attrs.alias) then", "if t.attrs.alias.truthy && (← isBuiltin t.attrs.alias) then", "C152: the definition of the root is missing"),
]
