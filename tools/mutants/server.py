def m(definition, old, new, breaks, file="Server.lean", **kw):
    return dict(definition=definition, old=old, new=new, breaks=breaks, file=file, **kw)

MUTANTS = [
 m("contentTypeOK", "  | some [] => true\n", "", "an empty content type is rejected"),
 m("contentTypeOK", "  | none => true\n  | some [] => true\n  | some c => c == recapContentType", "  | _ => true", "any content type is accepted"),
 m("contentTypeOK", "  | none => true\n  | some [] => true", "  | none => false\n  | some [] => true", "a missing content type is rejected"),
 m("bodyToType", "| .json v => match parse v with\n    | .ok t => .ok t\n    | .error _ => .error 400", "| .json v => match parse v with\n    | .ok t => .ok t\n    | .error _ => .error 500", "invalid schemas are server errors"),
 m("bodyToType", "| .text s => match parse (.str s) with\n    | .ok t => .ok t\n    | .error _ => .error 400", "| .text _ => .error 400", "texts that are no JSON are rejected"),
 m("requestToType", "else .error 415", "else .error 400", "wrong status"),
 m("schemaResponse", "| .ok none => .status 404\n  | .ok (some (t, version))", "| .ok none => .status 500\n  | .ok (some (t, version))", "wrong status for missing schemas"),
 m("schemaResponse", "match toDict true true t with\n    | .error _ => .status 500\n    | .ok d => .schema d version", "match toDict true false t with\n    | .error _ => .status 500\n    | .ok d => .schema d version", "aliases are not shared in responses"),
 m("storeBody", "| .error code => (.status code, fs)", "| .error code => (.status code, (put root fs name (.null {}) version).2)", "rejected requests store something"),
 m("storeBody", "match put root fs name t version with", "match put root fs name t none with", "PUT stores a new version instead"),
 m("storeBody", "| (.ok v, fs') => (.stored v, fs')", "| (.ok v, _) => (.stored v, fs)", "nothing is stored"),
 m("putCheck", "| .ok (some _) => some (.status 409)", "| .ok (some _) => none", "existing versions are overwritten"),
 m("putCheck", "match get root fs name (some version) with", "match get root fs name none with", "the latest version is checked"),
 m("putCheck", "| .error _ => some (.status 500)", "| .error _ => none", "unreadable versions are overwritten"),
 m("handle", "| .latest name => (schemaResponse (get root fs name none), fs)", "| .latest name => (schemaResponse (get root fs name (some 1)), fs)", "latest is version 1"),
 m("handle", "    | .ok (some []) => .status 404\n", "    | .ok (some []) => .versions []\n", "a name without versions answers 200"),
 m("handle", "| .post name contentType body => storeBody root fs name none contentType body", "| .post name contentType body => storeBody root fs name (some 1) contentType body", "POST overwrites version 1"),
 m("serve", "| .error _ => (.status 500, fs)\n  | .ok fs1 => handle root fs1 r", "| .error _ => (.status 500, fs)\n  | .ok fs1 => handle root fs r", "the root directory is not kept"),
 m("serveAll", "let as := serveAll root a.2 rs", "let as := serveAll root fs rs", "requests do not see each other"),
 m("Handling.step", "      | none => (.checked name version contentType body, fs1)", "      | none => (.checked name (version + 1) contentType body, fs1)", "the wrong version is stored after the check"),
 m("Handling.step", "| .done r response => (.done r response, fs)", "| .done r response => (.waiting r, fs)", "requests are answered twice"),
]
