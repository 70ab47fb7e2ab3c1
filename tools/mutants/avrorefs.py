
def m(definition, old, new, breaks, file="Avro.lean", **kw):
    return dict(definition=definition, old=old, new=new, breaks=breaks, file=file, **kw)

# run with TARGETS="AvroRefsThms"
MUTANTS = [
 m("convertF", "| .dict d => pure (shorten (Dict.erase (Dict.update s d) \"aliases\"))", "| .dict d => pure (shorten (Dict.erase (Dict.set s \"type\" (.dict d)) \"aliases\"))", "C129_references: the type is nested in the field"),
 m("convertF", "| .dict d => pure (shorten (Dict.erase (Dict.update s d) \"aliases\"))", "| .dict _ => pure (shorten (Dict.erase (Dict.set s \"type\" (.str alias)) \"aliases\"))", "C129_references: built-in aliases as names"),
 m("convertF", "| .dict d => pure (shorten (Dict.erase (Dict.update s d) \"aliases\"))", "| .dict d => pure (shorten (Dict.erase (Dict.update d s) \"type\"))", "C129_references: no type"),
 m("convertF", "| _ => pure (shorten (Dict.erase (Dict.set s \"type\" (.str alias)) \"aliases\"))", "| v => pure (shorten (Dict.erase (Dict.set s \"type\" v) \"aliases\"))", "C129_bare_refuted: a list of int32 has data"),
 m("applyOverride", "if attr = \"bits\" then .ok (.int v s a)", "if attr = \"bits\" then .ok (.int b s a)", "C129_references: HoldsIn uses the same resolve, so this one is equivalent here (the override of bits is lost on both sides)", file="Types.lean"),
 m("builtinAliases", "(\"int32\", .int (.int 32) (.bool true) {})", "(\"int32\", .int (.int 64) (.bool true) {})", "the example: int32 has 64 bits", file="Types.lean"),
 m("resolve", "applyOverrides (t.deepcopy reg) a.extra", "applyOverrides (t.deepcopy reg) []", "C129_references: the name is lost, so that fields have undefined types", file="Types.lean"),
]
