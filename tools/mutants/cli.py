def m(definition, old, new, breaks, file="Commands.lean", **kw):
    return dict(definition=definition, old=old, new=new, breaks=breaks, file=file, **kw)

# run with TARGETS="CliThms"
MUTANTS = [
 m("cliSchema", "Except PyErr Output := schema s url f false", "Except PyErr Output := schema s url f true", "C148_only_schema: the command line refuses URLs that are not configured (weaker, the claim still holds: C148 says nothing about URLs that neither shows)"),
 m("cliSchema", "Except PyErr Output := schema s url f false", "Except PyErr Output := schema s url .recap false", "C148_schema: the format is ignored"),
 m("cliLs", "let children ← ls s url false", "let children ← ls s .none false", "C148_ls_partial: the URL is ignored"),
 m("cliLs", "pure (if children = [] then .none else some children)", "pure (some children)", "C148_empty_refuted: an empty list is printed (the code would be right)"),
 m("cliLs", "pure (if children = [] then .none else some children)", "pure (if children = [] then .none else some children.reverse)", "C148_ls_partial: the list in another order"),
 m("printOutput", ".text (dumps F .pretty (.dict d))", ".text (dumps F .pretty (.list [.dict d]))", "C148_schema: a list with the schema", file="Cli.lean"),
 m("printOutput", "| .file es => .file es", "| .file es => .file es.reverse", "C148_schema: declarations in another order", file="Cli.lean"),
 m("recapLs", "dumps F .pretty (strings l)", "dumps F .pretty (strings l.tail)", "C148_ls_partial: the first child is lost", file="Cli.lean"),
 m("unsafeUrl", "| .none => if strict then .error .valueError else pure url", "| .none => if strict then pure url else .error .valueError", "C148_schema, C148_only_schema: the command line refuses what the gateway shows", file="Settings.lean"),
 m("unsafeUrl", "| some merged => pure merged", "| some merged => if strict then pure merged else pure url", "C148_schema: the command line does not use the configured credentials", file="Settings.lean"),
 m("schema", "let (c, kwargs, src) ← reading s.env s.mysqlArgs s.urls url strict", "let (c, kwargs, src) ← reading s.env s.mysqlArgs (if strict then s.urls else []) url strict", "C148_schema: the command line does not use the configured URLs"),
 m("Style.pretty", 'item := ",".toList, key := ": ".toList, indent := some 2', 'item := ";".toList, key := ": ".toList, indent := some 2', "C148_schema: not JSON", file="JsonText.lean"),
 m("getSchema", "| some f => respond (schema s url f true)", "| some f => respond (schema s url f false)", "C148_only_schema: URLs that are not configured are answered (C148 would hold, C113 not)"),
]
