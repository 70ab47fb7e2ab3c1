def m(definition, old, new, breaks, file="HiveStats.lean", **kw):
    return dict(definition=definition, old=old, new=new, breaks=breaks, file=file, **kw)

MUTANTS = [
 m("bound", "  | some v => Dict.set d k v\n", "  | some _ => d\n", "C118: bounds of dates and decimals are lost"),
 m("Stats.attrs", "    [(\"low\", low), (\"high\", high), (\"cardinality\", cardinality)]\n", "    [(\"low\", high), (\"high\", low), (\"cardinality\", cardinality)]\n", "C118: bounds swapped"),
 m("Stats.attrs", "| .boolean trues falses _ => [(\"true_count\", trues), (\"false_count\", falses)]", "| .boolean trues falses _ => [(\"true_count\", falses), (\"false_count\", trues)]", "C118: counts swapped"),
 m("Stats.attrs", "| .binary average max _ => [(\"average_length\", average), (\"max_length\", max)]", "| .binary average max _ => [(\"average_length\", average), (\"length\", max)]", "C118, C119: wrong name, which JSON Schema might read"),
 m("Stats.attrs", "[(\"true_count\", trues)", "[(\"name\", trues)", "C118, C119: the name of a column is overwritten"),
 m("Stats.nulls", "  | .decimal _ _ _ n | .other n => some n", "  | .decimal _ _ n _ | .other n => some n", "C118: the cardinality as the number of nulls"),
 m("addStats", "let extra := Dict.update t.attrs.extra s.attrs", "let extra := s.attrs", "C118: the name and default of the field are lost"),
 m("addStats", "    | some n => Dict.set extra \"null_count\" n\n", "    | some n => if Dict.has extra \"null_count\" then extra else Dict.set extra \"null_count\" n\n", "C118: the first count of nulls is kept"),
 m("addStats", "  t.withAttrs { t.attrs with extra :=", "  t.withAttrs { logical := t.attrs.logical, alias := t.attrs.alias, extra :=", "C118: docs are lost"),
 m("lookup", "(ns.reverse.find?", "(ns.find?", "C118: the first of the columns with a name"),
 m("loadAll", "    | .none => loadAll ns cs fs\n    | some s", "    | .none => pure fs\n    | some s", "C118: a column without statistics ends the loop"),
 m("loadAll", "      | .none => .error .keyError\n      | some i", "      | .none => loadAll ns cs fs\n      | some i", "C118: statistics for unknown columns are ignored"),
 m("loadAll", "fs.modify i (addStats s)", "fs.modify (i + 1) (addStats s)", "C118: the next column gets the statistics"),
 m("clientSchema", "  if includeStats then", "  if !includeStats then", "C118: statistics exactly if they are not asked for"),
]
