def m(definition, old, new, breaks, file="Hive.lean", **kw):
    return dict(definition=definition, old=old, new=new, breaks=breaks, file=file, **kw)

MUTANTS = [
 m("absorb", "  | .union ts _ => acc ++ ts.filter (fun t => !acc.any (fun u => pyEq u t))", "  | .union ts _ => acc ++ ts", "C147_hive_unions_partial: null is an alternative several times (only null itself is rejected by oneOf then, which rows with null left out do not have)"),
 m("absorb", "  | .union ts _ => acc ++ ts.filter (fun t => !acc.any (fun u => pyEq u t))", "  | .union ts _ => acc ++ ts.filter (fun t => acc.any (fun u => pyEq u t))", "C147_hive_unions_partial: the members are lost"),
 m("absorb", "  | .union ts _ => acc ++ ts.filter (fun t => !acc.any (fun u => pyEq u t))", "  | .union ts _ => ts", "C147_hive_unions_partial: only the last member is kept"),
 m("parseAll", "    let ts ← parseAll ts\n    pure (t :: ts)", "    let ts ← parseAll ts\n    pure (t :: t :: ts)", "C147_hive_unions_partial: members are there twice (equivalent after flattening)"),
 m("primitive", "  | .boolean => .ok (.bool x)", "  | .boolean => .ok (.int (.int 1) (.bool false) x)", "C147_hive_unions_partial: booleans are numbers"),
 m("parse", "pure (finish (flatten (.union (.null {} :: ts)", "pure (finish (flatten (.union (.bool {} :: ts)", "C147_hive_unions_partial: booleans match two alternatives"),
 m("flatten", "  | .struct fs a => .struct (flattenAll fs) a\n", "  | .struct fs _ => .struct (flattenAll fs) {}\n", "C147_hive_unions_partial still holds: attributes of a struct that is a member are not in its schema as a name; C59: they are lost"),
 m("flatten", "  | .struct fs a => .struct (flattenAll fs) a\n", "  | .struct _ a => .struct [] a\n", "C59, C116: the fields of structs in unions are lost (the schema then admits every object)"),
 m("flatten", "  | .list t _ _ a => .list (flatten t) .none (.bool true) (misplaced a)", "  | .list t _ _ a => .map (.string .none (.bool true) {}) (flatten t) (misplaced a)", "C147_hive_unions_partial: lists in unions are read as maps"),
 m("flatten", "  | .map k v a => .map (flatten k) (flatten v) (misplaced a)", "  | .map k v a => .map (flatten k) (flatten k) (misplaced a)", "C147_hive_unions_partial: the values of maps in unions have the type of the keys"),
 m("flattenAll", "  | t :: ts => flatten t :: flattenAll ts", "  | t :: ts => t.withAttrs {} :: flattenAll ts", "C147_hive_unions_partial: fields of structs in unions have no name"),
]
