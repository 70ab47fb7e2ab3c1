def m(definition, old, new, breaks, file="Avro.lean", **kw):
    return dict(definition=definition, old=old, new=new, breaks=breaks, file=file, **kw)

MUTANTS = [
 m("fullName", "(some a, b)\n    else (ns, name)", "(ns, b)\n    else (ns, name)", "the namespace of a dotted name is lost"),
 m("fullName", "if ns = \"\" then \"_root\" else ns", "ns", "an empty namespace gives an invalid alias"),
 m("namespaceOf", "| .none => .ok ns\n  | some .none", "| .none => .ok .none\n  | some .none", "nested types do not inherit the namespace"),
 m("header", "(\"name\", .str name) :: copied d \"default\")", "(\"name\", .str s) :: copied d \"default\")", "names keep their namespace"),
 m("header", "pure (some n, .str (n ++ \".\" ++ name),", "pure (ns, .str (n ++ \".\" ++ name),", "the namespace of a name does not reach nested types"),
 m("attrsOf", "extra := own ++ e.filter (fun kv => kv.1 ≠ \"doc\")", "extra := own ++ e", "doc is kept twice"),
 m("registered", "let reg ← reg.registerAlias t\n    pure (t, reg)", "pure (t, reg)", "types are not registered"),
 m("primitive", "s = \"long\" then some (.int (.int 64)", "s = \"long\" then some (.int (.int 32)", "long as 32 bits"),
 m("primitive", "s = \"double\" then some (.float (.int 64) a)", "s = \"double\" then some (.float (.int 64) {})", "attributes of doubles are lost"),
 m("parseLogical", "(.bool (PyVal.pyEq type (.str \"fixed\")))", "(.bool true)", "fixed decimals: variable is always true"),
 m("parseLogical", "(\"scale\", Dict.getD d \"scale\" (.int 0))", "(\"scale\", .int 0)", "the scale is lost"),
 m("parseLogical", "logical = .str \"timestamp-micros\" then\n    .ok (.int (.int 64) (.bool true) (attrsOf e (logical := .str \"build.recap.Timestamp\")\n      (own := [(\"unit\", .str \"microsecond\")])))", "logical = .str \"timestamp-micros\" then\n    .ok (.int (.int 64) (.bool true) (attrsOf e (logical := .str \"build.recap.Timestamp\")\n      (own := [(\"unit\", .str \"millisecond\")])))", "microseconds as milliseconds"),
 m("parseLogical", "else .error .valueError\n\n/-- `[self._parse", "else .ok (.null {})\n\n/-- `[self._parse", "unknown logical types are null"),
 m("parseAll", "let (ts, reg) ← parseAll f ns xs reg\n    pure (t :: ts, reg)", "let (ts, _) ← parseAll f ns xs reg\n    pure (t :: ts, reg)", "types after the first are not registered"),
 m("reference", "if hasDot s then s else ns.getD \"None\" ++ \".\" ++ s", "s", "references without namespace are not qualified"),
 m("parseComplex", "registered (.map stringKeys t a) reg", "registered (.map t stringKeys a) reg", "keys and values swapped"),
 m("parseComplex", "let (ts, reg) ← parseAll f ns xs reg\n      registered (.struct ts a) reg", "let (ts, reg) ← parseAll f .none xs reg\n      registered (.struct ts a) reg", "fields do not inherit the namespace"),
 m("parseComplex", "| some v => registered (.enum v a) reg", "| some v => .ok (.enum v a, reg)", "enums are not registered"),
 m("parseComplex", "if size ≤ maxLong then registered (.bytes v (.bool true) a) reg", "if size ≤ maxLong then registered (.bytes v (.bool false) a) reg", "fixed is fixed (which would be right)"),
 m("parseType", "Dict.update t.attrs.extra e }, reg)", "Dict.update e t.attrs.extra }, reg)", "nested attributes win over those of the field"),
 m("toRecap", "  | .struct .. => pure (t, reg)\n  | _ => .error .valueError", "  | _ => pure (t, reg)", "other types than records at the top"),
 m("docOf", "if a.doc.truthy then [(\"doc\", a.doc)] else []", "[]", "docs are not written"),
 m("aliasesOf", "if hasDot s then [(\"aliases\", .list [.str s])] else []", "[]", "aliases are not written"),
 m("intSchema", "if signed = true ∧ bits ≤ 32 then .ok [(\"type\", .str \"int\")]", "if bits ≤ 32 then .ok [(\"type\", .str \"int\")]", "unsigned 32 bits as int"),
 m("intSchema", "(bits ≤ 64 ∧ signed = true)", "(bits ≤ 64)", "unsigned 64 bits as long"),
 m("intSchema", "(\"precision\", .int (digits - 1))", "(\"precision\", .int digits)", "precision large enough (which would be right)"),
 m("logicalSchema", "(\"scale\", Dict.getD a.extra \"scale\" (.int 0))", "(\"scale\", .int 0)", "the scale is lost"),
 m("logicalSchema", "bits ≤ 32 ∧ a.logical = .str \"build.recap.Date\" then", "bits ≤ 64 ∧ a.logical = .str \"build.recap.Date\" then", "dates of 64 bits as int"),
 m("logicalSchema", "bits ≤ 32 ∧ a.logical = .str \"build.recap.Time\" ∧ unit = some (.str \"millisecond\")", "bits ≤ 32 ∧ a.logical = .str \"build.recap.Time\"", "times in seconds as time-millis"),
 m("leafSchema", "if bits ≤ 32 then .ok [(\"type\", .str \"float\")]", "if bits ≤ 64 then .ok [(\"type\", .str \"float\")]", "doubles as float"),
 m("leafSchema", "else if v = .bool false then .ok [(\"type\", .str \"fixed\"), (\"size\", b)]", "else if v = .bool false then .ok [(\"type\", .str \"bytes\")]", "fixed bytes as bytes"),
 m("fieldSchema", "| .str s => .dict [(\"type\", .str s)]", "| .str s => .str s", "fields that are strings"),
 m("convertF", "if isString k then do", "if true then do", "maps with other keys"),
 m("convertF", "pure (shorten (Dict.update s [(\"type\", .list vs)]))", "pure (.list vs)", "unions lose their attributes"),
 m("convertF", "pure (shorten (Dict.erase (Dict.set s \"type\" (.str alias)) \"aliases\"))\n          else do", "pure (shorten (Dict.set s \"type\" (.str alias)))\n          else do", "references redefine the alias"),
 m("fromRecap", "| v => pure [(\"type\", v)]", "| _ => pure []", "short schemas are lost"),
]
