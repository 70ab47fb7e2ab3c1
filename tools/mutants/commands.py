def m(definition, old, new, breaks, file="Commands.lean", **kw):
    return dict(definition=definition, old=old, new=new, breaks=breaks, file=file, **kw)

MUTANTS = [
 m("formatMap", "(\"application/schema+json\", .json), (\"application/avro+json\", .avro)", "(\"application/schema+json\", .avro), (\"application/avro+json\", .json)", "C113: formats swapped"),
 m("convert", "match ← toDict true true t with", "match ← toDict false true t with", "C115: another form of Recap's own format"),
 m("convert", "    | _ => .error .valueError\n\n/-- What the systems", "    | _ => pure (.dict [])\n\n/-- What the systems", "C115: an empty schema for a type that is written as a name"),
 m("ls", "  | .none | some [] => safeUrls s.env s.urls", "  | .none | some [] => .ok s.urls", "C112: configured URLs with their credentials"),
 m("ls", "  | .none | some [] => safeUrls s.env s.urls", "  | .none => safeUrls s.env s.urls\n  | some [] => .ok []", "an empty URL lists nothing"),
 m("schema", "reading s.env s.mysqlArgs s.urls url strict", "reading s.env s.mysqlArgs s.urls url false", "strict mode is ignored"),
 m("getLs", "respond (ls s (some url) true)", "respond (ls s (some url) false)", "the gateway is not strict"),
 m("getSchema", "respond (schema s url f true)", "respond (schema s url f false)", "the gateway is not strict"),
 m("contentType", "  | .none => \"application/x-recap+json\"\n", "  | .none => \"application/schema+json\"\n", "another default format"),
 m("getSchema", "  | .none => .failed 415", "  | .none => respond (schema s url .recap true)", "unknown formats are answered"),
 m("cliLs", "let children ← ls s url false", "let children ← ls s url true", "the command line is strict"),
 m("cliSchema", "schema s url f false", "schema s url f true", "the command line is strict"),
 m("respond", "  | .error _ => .failed 500", "  | .error _ => .failed 404", "another status"),
]
