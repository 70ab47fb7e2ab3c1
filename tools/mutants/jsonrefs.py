def m(definition, old, new, breaks, file="JsonSchema.lean", **kw):
    return dict(definition=definition, old=old, new=new, breaks=breaks, file=file, **kw)

MUTANTS = [
 m("stripDots", "((s.dropWhile (· = '.')).reverse.dropWhile (· = '.')).reverse", "s.dropWhile (· = '.')", "C145: a slash at the end of the path leaves a dot at the end of the alias"),
 m("stripDots", "((s.dropWhile (· = '.')).reverse.dropWhile (· = '.')).reverse", "(s.reverse.dropWhile (· = '.')).reverse", "C145: every path gives two dots after the domain"),
 m("isAlnum", "('A' ≤ c && c ≤ 'Z') || ", "", "C145: capital letters in a path become dots"),
 m("isAlnum", " || ('0' ≤ c && c ≤ '9')", " || ('0' ≤ c && c ≤ '9') || c = '-'", "C145: a hyphen in a path is kept"),
 m("dotted", "if isAlnum c then c.toLower else '.'", "if isAlnum c then c else '.'", "C145: words keep their case"),
 m("dotted", "if isAlnum c then c.toLower else '.'", "if isAlnum c then c.toLower else '_'", "C145: other characters become underscores"),
 m("urnToAlias", "(splitOn '.' s.netloc).reverse", "(splitOn '.' s.netloc)", "C145: the labels of the host are not reversed"),
 m("urnToAlias", "dotted (s.path ++ s.fragment)", "dotted s.path", "C145: the fragment is dropped"),
 m("urnToAlias", "dotted (s.path ++ s.fragment)", "dotted (s.path ++ s.query)", "C145: the query takes the place of the fragment"),
 m("urnToAlias", "if path ≠ [] ∧ path ≠ ['.'] then", "if path ≠ [] then", "C145: a path of one slash leaves a dot at the end"),
 m("urnToAlias", "domain ++ '.' :: stripDots path else domain", "domain ++ stripDots path else domain", "C145: no dot between domain and path"),
 m("extraAttrs", "let alias ← urnToAlias env id", "let alias ← urnToAlias env s.toList", "C144: the alias of a schema is made of the identifier with its #, that of a reference without"),
 m("extraAttrs", "ids ++ [id])", "[id])", "C144: identifiers that were known are forgotten"),
 m("extraAttrs", "ids ++ [id])", "ids ++ [s.toList])", "C144: identifiers are kept with their #, so that references are not found"),
 m("parseRef", "let alias ← urnToAlias env (rstripHash urn.toList)", "let alias ← urnToAlias env urn.toList", "C144: a reference with # has another alias than the schema"),
 m("parseRef", "alias := .str (String.ofList alias)", "alias := .str urn", "C144: a reference has the identifier as alias"),
 m("parseRef", "if rstripHash urn.toList ∈ ids then do", "if urn.toList ∈ ids then do", "C144: references with # are not found"),
 m("parseRef", "if rstripHash urn.toList ∈ ids then do", "if true then do", "C144: references to what is not in the document are accepted"),
 m("attrsOf", "alias := Dict.getD e \"alias\" .none", "alias := .none", "C144: the types that references are to have no alias"),
 m("parseProps", "let (t, ids) ← f prop ids", "let (t, _) ← f prop ids", "C144: identifiers in properties are forgotten"),
 m("parseAll", "let (t, ids) ← f x ids", "let (t, _) ← f x ids", "C144: identifiers in alternatives are forgotten"),
 m("toRecap", "  | .struct .. => pure (t, ids)", "  | .struct fs a => pure (.struct fs { a with alias := .none }, ids)", "C144: the root loses its alias"),
 m("resolve", "let reg : Registry := r.getD live", "let reg : Registry := live", "C144: references in what is resolved use the live registry (and resolve)", file="Types.lean"),
 m("Registry.registerAlias", "else if !aliasOk s then .error .valueError", "else if false then .error .valueError", "C145: any alias can be registered (and the refutation is false)", file="Types.lean"),
]
