def m(definition, old, new, breaks, file="Types.lean", **kw):
    return dict(definition=definition, old=old, new=new, breaks=breaks, file=file, **kw)

MUTANTS = [
 m("RType.validate", "  | float b _ => checkRange b 1 2147483647", "  | float b _ => checkRange b 0 2147483647", "C06: float bits of 0 accepted"),
 m("RType.validate", "  | struct fs _ => validateList fs\n  | null _", "  | struct _ _ | null _", "C06 stays true: nested types are validated by their own from_dict call"),
 m("RType.checkSize", "  if !variable_.truthy && v.isNone then .error .valueError\n  else if v.isNone", "  if v.isNone", "C06: fixed size type without a size accepted"),
 m("Registry.registerAlias", "    if (reg.find? s).isSome then .error .valueError\n    else if", "    if", "C08, C09: an alias can be registered twice"),
 m("Registry.registerAlias", ".ok (reg ++ [(s, stored reg t)])", ".ok ((s, stored reg t) :: reg)", "C08: order of registration; C09 still holds because duplicates are rejected"),
 m("Registry.stored", "alias := .none, doc := .none, extra := Dict.erase t.attrs.extra \"default\" }", "alias := .none, doc := .none }", "C08, C18: the default is kept in the definition"),
 m("aliasRun", "  | .inside d, [] => d", "  | .inside _, [] => true", "C10: a name without a dot accepted"),
 m("identRest", "identStart c || ('0' ≤ c && c ≤ '9')", "identStart c || ('0' ≤ c && c ≤ '9') || c == '-'", "C10: dashes accepted"),
 m("RType.pyEq", "  | list t l v a, list t' l' v' a' =>\n    attrsEq a a' && (pyEq t t' && PyVal.pyEq l l' && PyVal.pyEq v v')", "  | list t l _ a, list t' l' _ a' =>\n    attrsEq a a' && (pyEq t t' && PyVal.pyEq l l')", "C13: lists that differ in variable are equal"),
 m("RType.attrsEq", "    && PyVal.pyEq a.doc b.doc && Dict.pyEq a.extra b.extra", "    && Dict.pyEq a.extra b.extra", "C13: types that differ in doc are equal"),
 m("Dict.pyEq", "def Dict.pyEq (a b : Dict) : Bool := a.length == b.length && PyVal.pyEqDict a b", "def Dict.pyEq (a b : Dict) : Bool := PyVal.pyEqDict a b", "C12: equality of extra attributes not symmetric", file="Py.lean"),
 m("RType.promoted", "  | some n => d ++ [(\"name\", n)]", "  | some _ => d", "C14: the name is not moved to the union"),
 m("RType.makeNullable", "      { doc := a.doc, extra := promoted a }", "      { doc := a.doc, logical := a.logical, extra := promoted a }", "C14: the logical type is copied to the union", tightened=["C14_make_nullable_wraps"]),
 m("RType.addNull", "  if ts.any isNull then ts else .null {} :: ts", "  if ts.any isNull then ts else ts ++ [.null {}]", "C14: null is added last"),
 m("RType.isNullable", "  | union ts _ => ts.any isNull", "  | union ts _ => ts.all isNull", "C17: nullable only if all members are null"),
 m("RType.isOptional", "hasNull && hasDefault && hasNonNull", "hasNull && hasNonNull", "C17: optional without default"),
 m("applyOverrides", "    let t' ← applyOverride t k v\n    applyOverrides t' rest", "    let t' ← applyOverride t k v\n    pure t'", "C18: only the first override takes effect"),
 m("applyOverride", "    else if attr = \"signed\" then .ok (.int b v a)\n", "", "C18: signed override goes to the extra attributes"),
 m("resolve", "  let reg : Registry := r.getD live", "  let reg : Registry := live", "C19 would become true for recursive types"),
 m("normalise", "  | .list xs => .ok [(\"type\", .str \"union\"), (\"types\", .list xs)]\n  | .str s => .ok [(\"type\", .str s)]\n  | .dict d => .ok d", "  | .list xs => .ok [(\"type\", .str \"union\"), (\"types\", .list xs.reverse)]\n  | .str s => .ok [(\"type\", .str s)]\n  | .dict d => .ok d", "C20: members of a list in reverse order"),
 m("keepMember", "  | .str _ => true\n  | _ => false\n\n/-- `bytes` is", "  | _ => false\n\n/-- `bytes` is", "C21: strings in a type list are skipped"),
 m("restoreField", "  (if name.isNone then d else d.set \"name\" name).set \"default\" default_", "  (if name.isNone then d else d.set \"name\" name)", "C22: the default is dropped"),
 m("ensureNull", "(d.set \"types\" (.list (.str \"null\" :: xs)))", "(d.set \"types\" (.list (xs ++ [.str \"null\"])))", "C22: null is added last"),
 m("construct", "      pure (.proxy .none { a with alias := .str name }, reg)", "      pure (.proxy (some reg) { a with alias := .str name }, reg)", "C18, C23: references point to a copy of the registry"),
 m("construct", "        pure (.int bits (kw.getD \"signed\" (.bool true)) a, reg)", "        pure (.int bits (kw.getD \"signed\" (.bool false)) a, reg)", "C01 stays true (signed is always written); an omitted signed flag means unsigned"),
 m("construct", "        let (tk, reg) ← f k reg\n        let (tv, reg) ← f v reg", "        let (tk, _) ← f k reg\n        let (tv, reg) ← f v reg", "C08, C18: aliases in map keys are lost"),
 m("renameBytes", "  | some v => (kw.erase \"bytes\").set \"bytes_\" v", "  | some v => kw.set \"bytes_\" v", "C01: bytes stays in the extra attributes too"),
 m("toDict", "    postProcess clean alias (((baseDict (.map k v a)).set \"keys\" k').set \"values\" v')", "    postProcess clean alias (((baseDict (.map k v a)).set \"keys\" v').set \"values\" k')", "C01: keys and values swapped"),
 m("baseDict", "    (\"logical\", t.attrs.logical), (\"doc\", t.attrs.doc)] t.attrs.extra", "    (\"logical\", t.attrs.logical)] t.attrs.extra", "C01: doc is not written"),
 m("fromDictF", "    finish t reg\n\n/-- `from_dict` (types.py 365-485): the", "    pure (t, reg)\n\n/-- `from_dict` (types.py 365-485): the", "C06, C08: no validation, no registration"),
]
