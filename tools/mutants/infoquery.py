def m(definition, old, new, breaks, file="InfoQuery.lean", **kw):
    return dict(definition=definition, old=old, new=new, breaks=breaks, file=file, **kw)

# run with TARGETS="InfoQueryThms"
MUTANTS = [
 m("selected", "same r.table table && same r.schema schema && same r.catalog catalog", "same r.table table && same r.schema schema", "C146: tables of other catalogs with the same name"),
 m("selected", "same r.table table && same r.schema schema && same r.catalog catalog", "same r.table table && same r.catalog catalog", "C146: tables of other schemas with the same name"),
 m("selected", "same r.table table && same r.schema schema && same r.catalog catalog", "same r.table table || same r.schema schema && same r.catalog catalog", "C146: all tables of the schema"),
 m("Answer", "(selected same view table schema catalog)", "(selected same view schema table catalog)", "C146: arguments swapped"),
 m("Answer", "fun a b => a.position ≤ b.position", "fun a b => b.position ≤ a.position", "C146: columns in reverse order"),
 m("Answer", "fun a b => a.position ≤ b.position", "fun _ _ => True", "C146: no ORDER BY"),
 m("headers", "cm.upper (view.spelling n)", "view.spelling n", "C146: the names are not put in capitals"),
 m("headers", "cm.upper (view.spelling n)", "cm.lower (view.spelling n)", "C146: the names are put in small letters"),
 m("rowDict", "(view.names.map r.cell)", "(view.names.map r.cell).reverse", "C146: cells under other names"),
 m("rowDict", "(headers cm view)", "(headers cm view).tail", "C146: cells shifted by one name"),
 m("clientSchema", "out.map (rowDict cm view)", "(out.map (rowDict cm view)).drop 1", "C146: the first row is lost"),
 m("clientSchema", "out.map (rowDict cm view)", "(out.map (rowDict cm view)).reverse", "C146: columns in reverse order"),
 m("mysqlCatalog", 'String := "def"', 'String := "mysql"', "C146_mysql: no rows are selected"),
 m("fieldOf", 'let nullable := n == "YES"', 'let nullable := n == "NO"', "C146: nullable when the column is not", file="Relational.lean"),
 m("fieldOf", 'pure (setExtra base "name" name)', 'pure (setExtra base "name" (.str "x"))', "C146: all columns have the name x", file="Relational.lean"),
 m("fieldsOf", "| (.ok fs, st) => (.ok (f :: fs), st)", "| (.ok fs, st) => (.ok (f :: f :: fs), st)", "C146: each column twice", file="Relational.lean"),
 m("fieldsOf", "| (.ok fs, st) => (.ok (f :: fs), st)", "| (.ok fs, st) => (.ok (fs ++ [f]), st)", "C146: columns in reverse order", file="Relational.lean"),
]
