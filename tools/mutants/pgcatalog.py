def m(definition, old, new, breaks, file="PgCatalog.lean", **kw):
    return dict(definition=definition, old=old, new=new, breaks=breaks, file=file, **kw)

MUTANTS = [
 m("joined", "c.name = i.table ∧ c.ns = n.oid ∧ a.rel", "c.name = i.table ∧ a.rel", "C140: the table is joined without its schema, so that columns of tables with the same name multiply"),
 m("joined", "a.rel = c.oid ∧ a.name = i.name", "a.name = i.name", "C140: attributes are joined by name only"),
 m("joined", "a.rel = c.oid ∧ a.name = i.name", "a.rel = c.oid ∧ a.num = i.position", "equivalent: the number of a column is its position"),
 m("joined", "i.table = table ∧ i.schema = schema ∧ i.catalog = catalog", "i.table = schema ∧ i.schema = table ∧ i.catalog = catalog", "C140: the parameters in another order"),
 m("joined", "i.table = table ∧ i.schema = schema ∧ i.catalog = catalog", "i.table = table ∧ i.schema = schema", "C141_catalog_refuted: the catalog is not compared"),
 m("joined", "i.table = table ∧ i.schema = schema ∧ i.catalog = catalog", "i.table = table ∧ i.catalog = catalog", "C140: columns of tables in other schemas"),
 m("joined", '(leftJoin db.types (fun t => t.oid == a.typ && t.kind == "e")).flatMap', '((db.types.filter (fun t => t.oid == a.typ && t.kind == "e")).map some).flatMap', "C140: an inner join loses columns that are no enum"),
 m("joined", '(leftJoin gs (fun g => some g.1 == t.map (·.oid))).map', '((gs.filter (fun g => some g.1 == t.map (·.oid))).map some).map', "C140: an inner join loses columns without labels"),
 m("joined", '(fun g => some g.1 == t.map (·.oid))', '(fun g => t.isSome)', "C140: labels of all enums"),
 m("joined", 't.oid == a.typ && t.kind == "e"', 't.oid == a.typ', "equivalent: types that are no enum have no labels, which is not said of the catalogs"),
 m("joined", "ndims := a.ndims, enumValues", "ndims := 0, enumValues", "C140: dimensions are lost"),
 m("columnsView", "∧ a.dropped = false ∧ c.shown = true", "∧ c.shown = true", "C140: dropped columns are fields"),
 m("columnsView", "0 < a.num ∧ a.dropped", "a.dropped", "C140: system columns are fields"),
 m("viewRow", "nullable := !(a.notNull || (t.kind == \"d\" && t.notNull))", "nullable := !a.notNull", "C140: domains that are NOT NULL are nullable"),
 m("viewRow", "default := a.default,", "default := .none,", "C140: defaults are lost"),
 m("dataType", 'if t.array then "ARRAY" else t.builtin.getD "USER-DEFINED"', 't.builtin.getD "USER-DEFINED"', "arrays are user-defined types (example)"),
 m("Answer", "rows.Pairwise (fun r s => r.col.position ≤ s.col.position)", "True", "C140: the order of the columns"),
 m("Groups", "all : ∀ g ∈ gs, g.2.Perm ((labels.filter (fun l => l.typ = g.1)).map (·.label))", "all : ∀ g ∈ gs, g.2.Perm (labels.map (·.label))", "C140: labels of other enums"),
 m("Groups", "all : ∀ g ∈ gs, g.2.Perm", "all : ∀ g ∈ gs, g.2 =", "C140_order_refuted: labels come in the order of the catalog"),
 m("Row.dict", '("COLUMN_NAME", .str r.col.name)', '("COLUMN_NAME", .str r.col.table)', "C140: names of columns"),
 m("Row.dict", 'if r.col.nullable then "YES" else "NO"', 'if r.col.nullable then "NO" else "YES"', "C140: nullability"),
 m("Row.dict", '("ENUM_VALUES", match r.enumValues with | .none => .none | some ls => .list (ls.map .str))', '("ENUM_VALUES", match r.enumValues with | .none => .none | some ls => .list ((ls.drop 1).map .str))', "C140: the first label"),
 m("Row.dict", '("ATTNDIMS", .int r.ndims)', '("ATTNDIMS", .int 0)', "C140: nullability of arrays with enforced dimensions"),
 m("pgScalar", 'else if dt == "user-defined" then do', 'else if dt == "enum" then do', "C140: tables with enums are not read (example)", file="Relational.lean"),
 m("sqliteRead", "  else .error .missing", "  else .ok (.struct [] {})", "C141: missing tables of SQLite", file="Listed.lean"),
 m("tableExists", "o.isTable && o.name == table", "o.name == table", "C141: a view is a table", file="Listed.lean"),
]
