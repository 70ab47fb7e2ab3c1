def m(definition, old, new, breaks, file="Protobuf.lean", **kw):
    return dict(definition=definition, old=old, new=new, breaks=breaks, file=file, **kw)

MUTANTS = [
 m("scalars", '("fixed32", .int (.int 32) (.bool false) {})', '("fixed32", .int (.int 32) (.bool true) {})', "C99: fixed32 read as signed"),
 m("scalars", '("sint64", .int (.int 64) (.bool true) {})', '("sint64", .int (.int 32) (.bool true) {})', "C99: sint64 read with 32 bits"),
 m("typeOf", "| some n => .ok (.proxy .none { alias := .str (n ++ \".\" ++ s) })\n      | .none => .error .indexError\n\n/-- `recap_type", "| some _ => .ok (.proxy .none { alias := .str s })\n      | .none => .error .indexError\n\n/-- `recap_type", "C99: references are not qualified"),
 m("fieldType", "let t := if card ≠ some .required then", "let t := if card = some .optional then", "C99: a field without a label is read as required"),
 m("fieldType", "let t := if card = some .repeated then .list t .none (.bool true) {} else t", "let t := if card = some .repeated then .list t .none (.bool false) {} else t", "C99: repeated fields are lists of fixed length"),
 m("fieldType", '"default" .none\n    else t\n  setExtra t "name" name', '"default" .none\n    else t\n  t', "C99: names are dropped"),
 m("isKey", "  | .int .. => true\n  | .string .. => true\n  | _ => false\n\n/-- `_parse_map", "  | .int .. => true\n  | .string .. => true\n  | .bool .. => true\n  | _ => false\n\n/-- `_parse_map", "C99: bool keys accepted, unlike the property says"),
 m("mapType", ".map k v {}] { extra := [(\"default\", .none)] }", ".map v k {}] { extra := [(\"default\", .none)] }", "C99: keys and values swapped"),
 m("oneofTypes", "pure (fieldType t (some .required) name :: ts)", "pure (fieldType t .none name :: ts)", "C99: the members of a oneof are unions with null"),
 m("parseEnum", ".list (values.map (·.1))", ".list (values.map (·.1)).reverse", "C99: symbols in reverse order"),
 m("parseElem", "pure ([.union (.null {} :: ts) { extra", "pure ([.union ts { extra", "C99: a oneof need not be null"),
 m("parseElem", "    let (_, reg) ← register ns name fs reg\n    pure ([], reg)", "    let (t, reg) ← register ns name fs reg\n    pure ([t], reg)", "C99: nested messages become fields"),
 m("parseTop", "parseTop ns es (some (root.getD t)) reg", "parseTop ns es (some t) reg", "C99: the last message is returned"),
 m("parse", "else pure (t, ⟨namespaces.dropLast, reg⟩)", "else pure (t, ⟨namespaces, reg⟩)", "C102: the package stays"),
 m("packageOf", "  | .package name :: _ => some name\n  | _ :: es => packageOf es\n\n/-- The namespaces after", "  | .package name :: es => some ((packageOf es).getD name)\n  | _ :: es => packageOf es\n\n/-- The namespaces after", "C99: the last package counts", tightened=["C99_package"]),
 m("follow", "if a.alias ∈ resolved ∨ a.alias ∈ seen then .ok (t, resolved)", "if a.alias ∈ seen then .ok (t, resolved)", "C109: types that are used twice are expanded twice; no claim breaks"),
 m("follow", "alias := a.alias, extra := Dict.update u.attrs.extra a.extra },", "alias := a.alias },", "no claim: resolve gives the type these attributes already"),
 m("follow", "        add resolved a.alias)", "        resolved)", "C109, C66: nothing is marked as resolved"),
 m("resolveF", "      let (k, resolved₂, seen₂) ← resolveF live n k resolved₁ seen₁\n      let (u, resolved₃, seen₃) ← resolveF live n u resolved₂ seen₂\n      pure (.map k u a, back", "      let (k, resolved₂, seen₂) ← resolveF live n k resolved₁ seen₁\n      let (u, resolved₃, seen₃) ← resolveF live n u resolved₂ seen₂\n      pure (.map u k a, back", "C99: keys and values swapped"),
 m("look", "  | t => if t.attrs.alias = .none then seen else add seen t.attrs.alias", "  | _ => seen", "C66: recursive messages are expanded without end or not read"),
 m("scalarOf", "      if bits ≤ 32 then .ok (if signed then \"int32\" else \"uint32\")", "      if bits ≤ 33 then .ok (if signed then \"int32\" else \"uint32\")", "C104: 33 bits in int32"),
 m("scalarOf", "then .ok (if signed then \"int64\" else \"uint64\")", "then .ok (if signed then \"int64\" else \"int64\")", "C104: unsigned 64 bits in int64"),
 m("scalarOf", "      if bits ≤ 32 then .ok \"float\"\n      else if bits ≤ 64", "      if bits ≤ 64 then .ok \"float\"\n      else if bits ≤ 64", "C105: doubles written as float"),
 m("scalarOf", "  | .bytes b _ _ => if (asInt b).any (· ≤ 2147483647) then .ok \"bytes\"", "  | .bytes b _ _ => if (asInt b).any (· ≤ 2147483647) then .ok \"string\"", "C105: bytes written as string"),
 m("pathOf", "  | .str s => .ok (\".\" ++ s)\n  | .none => .error .assertionError\n  | _ => .error .unmodelled\n\n/-- The name of a field", "  | .str s => .ok s\n  | .none => .error .assertionError\n  | _ => .error .unmodelled\n\n/-- The name of a field", "C108 as stated, C105_reference_refuted: references without the leading dot"),
 m("toField", "    pure (.mapField (nameOf a number) number key value)", "    pure (.mapField (nameOf a number) number value key)", "C99/C105: key and value types swapped"),
 m("toField", "    | es => pure (.oneof (nameOf a number) es)", "    | es => pure (.oneof (.str \"oneof\") es)", "C100: the name of a oneof is lost"),
 m("toField", "    | [e] => setCard .optional e", "    | [e] => pure e", "C106: optional fields lose their cardinality"),
 m("toField", "    let e ← toField number t\n    setCard .repeated e", "    let e ← toField number t\n    setCard .optional e", "C120: lists are written as optional fields", tightened=["C120_written"]),
 m("toMembers", "let es ← toMembers (number + 1) ts", "let es ← toMembers number ts", "C64: the members of a oneof have the same number"),
 m("insert", "if p = package then (p, es ++ [e]) :: rest", "if p = package then (p, [e]) :: rest", "C101: only the last declaration of a package is kept"),
 m("numbered", "(x, n) :: numbered (n + 1) xs", "(x, n + 1) :: numbered (n + 1) xs", "C103: numbered from one"),
 m("gather", "  | .map k t _, st => do\n    let st ← gather k st\n    gather t st", "  | .map k _ _, st => do\n    gather k st", "C101: structs in the values of maps are not declared"),
 m("gather", "  | .list t _ _ _, st => gather t st\n  | .enum", "  | .enum", "C101: structs in lists are not declared"),
 m("gatherFields", "let (es, st) ← gatherFields (number + 1) fs st", "let (es, st) ← gatherFields number fs st", "C64: all fields have number 1"),
 m("construct", "(package ++ \".\" ++ name)\n          pure (.message name (es ++ times calls sub))", "(package ++ \".\" ++ name)\n          pure (.message name (times calls sub ++ es))", "no claim: nested declarations come first"),
 m("construct", "pure (.message name (es ++ times calls sub))", "pure (.message name es)", "C101: nested messages are not declared"),
 m("least", "some (if before m.toList s.toList then m else s)", "some (if before m.toList s.toList then s else m)", "C101: the largest package is the root"),
 m("fromRecap", "      if st.all (fun p => package.toList.isPrefixOf p.1.toList) then do\n        let es ← construct st ((st.map (fun p => p.1.length)).sum + 1) 1 package\n        pure (.package package :: es)\n      else .error .assertionError", "      do\n        let es ← construct st ((st.map (fun p => p.1.length)).sum + 1) 1 package\n        pure (.package package :: es)", "C101: structs in other packages are dropped silently"),
 m("toField", "    pure (.mapField (nameOf a number) number key value)", "    pure (.mapField (nameOf a number) number value key)", "C120: keys and values swapped"),
 m("scalarOf", "then .ok \"bytes\" else", "then .ok \"string\" else", "C120: bytes written as strings"),
 m("pathOf", "| .str s => .ok (\".\" ++ s)", "| .str s => .ok s", "C120, C108: full names without the leading dot"),
 m("toMembers", "    if t.isNull then toMembers number ts\n    else do", "    if t.isNull then toMembers number []\n    else do", "C120: the members after null are lost"),
]
