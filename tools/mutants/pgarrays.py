def m(definition, old, new, breaks, file="Relational.lean", **kw):
    return dict(definition=definition, old=old, new=new, breaks=breaks, file=file, **kw)

MUTANTS = [
 m("nDimList", "| 0 => .union [.null {}, base] {}", "| 0 => base", "C142: elements that are null, with enforced dimensions"),
 m("nDimList", "| n + 1 => .list (nDimList base n) .none (.bool true) {}", "| n + 1 => .list (nDimList base n) (.int 1) (.bool true) {}", "C142: arrays of one element only (lengths of lists are no part of the values, so only the shape of the type can tell)"),
 m("nDimList", "| n + 1 => .list (nDimList base n) .none (.bool true) {}", "| n + 1 => .list (.list (nDimList base n) .none (.bool true) {}) .none (.bool true) {}", "C142: twice the dimensions"),
 m("createNDim", ".ok (nDimList base i.toNat)", ".ok (nDimList base (i.toNat - 1))", "C142: one dimension less"),
 m("selfList", ".union [value, .proxy .none { alias := .str alias }] {}", ".union [.proxy .none { alias := .str alias }] {}", "C142: arrays with elements"),
 m("selfList", ".union [value, .proxy .none { alias := .str alias }] {}", "value", "C142: arrays with two dimensions"),
 m("selfList", ".union [value, .proxy .none { alias := .str alias }] {}", ".union [.null {}, value, .proxy .none { alias := .str alias }] {}", "C142_null_refuted: arrays with elements that are null are values"),
 m("pgParseFuel", "if cfg.enforce then (createNDim value p.ndims, reg)", "if !cfg.enforce then (createNDim value p.ndims, reg)", "C142: the setting is the other way round"),
 m("pgElement", '("CHARACTER_OCTET_LENGTH", .int pgMax)', '("CHARACTER_OCTET_LENGTH", .int 255)', "C142: texts with more than 255 bytes"),
 m("pgElement", '("CHARACTER_MAXIMUM_LENGTH", .int (pgMax * 8))', '("CHARACTER_MAXIMUM_LENGTH", .int pgMax)', "C142: long bit strings"),
 m("pgScalar", '["integer", "int", "int4", "serial", "serial4"]', '["integer", "int", "serial", "serial4"]', "C142: tables with int4[] are not read"),
 m("pgScalar", '["smallint", "smallserial", "serial2"]', '["smallint", "int2", "smallserial", "serial2"]', "C142_types_refuted: smallint[] is read"),
 m("pgScalar", '(.int 32) {})\n  else if dt == "boolean" then', '(.int 32) {})\n  else if dt == "boolean" || dt == "bool" then', "C142_types_refuted: boolean[] is read"),
 m("pgScalar", '["real", "float4"].contains dt then .ok (.float (.int 32) {})', '["real", "float4"].contains dt then .ok (.float (.int 16) {})', "C142: real[]"),
 m("pgScalar", '["bigint", "int8", "bigserial", "serial8"].contains dt then\n    .ok (.int (.int 64)', '["bigint", "int8", "bigserial", "serial8"].contains dt then\n    .ok (.int (.int 32)', "C142: bigint[]"),
 m("registerAlias", ".ok (reg ++ [(s, stored reg t)])", ".ok (reg ++ [(s, t)])", "C142_dimensions_refuted: the reference to itself is to the live registry", file="Types.lean"),
 m("Registry.registerAlias", "else .ok (reg ++ [(s, stored reg t)])", "else .ok ((s, stored reg t) :: reg)", "equivalent for distinct aliases: the order of registration", file="Types.lean"),
 m("pgScalar", 'if symbols.truthy then pure (.enum symbols {}) else .error .valueError\n  else .error .valueError', 'if symbols.truthy then pure (.enum symbols {}) else .error .valueError\n  else .ok (.string octet (.bool true) {})', "C142_others_refuted: arrays of other types are read as strings"),
 m("pgScalar", 'else if startsWith dt "char" then', 'else if dt == "char" then', "C142_confused_refuted: only char itself is a string"),
 m("pgScalar", 'else if startsWith dt "timestamp" then do', 'else if dt == "mood" then .ok (.string octet (.bool true) {}) else if startsWith dt "timestamp" then do', "C142_others_refuted: one more name is known"),
 m("pgScalar", 'let precision ← item col "NUMERIC_PRECISION"\n    let scale ← item col "NUMERIC_SCALE"\n    pure (decimalType 32 precision scale)\n  else if dt == "user-defined"', 'let precision := Dict.getD col "NUMERIC_PRECISION" (.int 38)\n    let scale := Dict.getD col "NUMERIC_SCALE" (.int 0)\n    pure (decimalType 32 precision scale)\n  else if dt == "user-defined"', "C142_others_refuted, C142_types_refuted: arrays of numeric are read"),
]
