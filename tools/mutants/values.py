def m(definition, old, new, breaks, file="Relational.lean", **kw):
    return dict(definition=definition, old=old, new=new, breaks=breaks, file=file, **kw)

MUTANTS = [
 m("pgScalar", '["integer", "int", "int4", "serial", "serial4"].contains dt then\n    .ok (.int (.int 32)', '["integer", "int", "int4", "serial", "serial4"].contains dt then\n    .ok (.int (.int 16)', "C126: integers of 16 bits"),
 m("pgScalar", ".ok (.string (.int 36) (.bool false) { logical", ".ok (.string (.int 32) (.bool false) { logical", "C126: UUIDs of 32 bytes"),
 m("pgScalar", '["text", "json", "jsonb"].contains dt || startsWith dt "character varying"\n      || startsWith dt "varchar" then\n    .ok (.string octet (.bool true) {})', '["text", "json", "jsonb"].contains dt || startsWith dt "character varying"\n      || startsWith dt "varchar" then\n    .ok (.string maxLength (.bool true) {})', "C126: lengths in characters"),
 m("pgScalar", "let u ← getTimeUnit (some [p])\n    pure (timeType 64 \"build.recap.Timestamp\" (u.getD \"microsecond\"))\n  else if startsWith dt \"decimal\"", "let u ← getTimeUnit (some [p])\n    pure (timeType 32 \"build.recap.Timestamp\" (u.getD \"microsecond\"))\n  else if startsWith dt \"decimal\"", "C126: timestamps of 32 bits"),
 m("snowflakeType", "(.int 16777216)) (.bool true) {})", "(.int 255)) (.bool true) {})", "C126: VARCHAR without length of 255 bytes"),
 m("snowflakeType", "pure (timeType 32 \"build.recap.Time\" (u.getD \"nanosecond\"))", "pure (timeType 32 \"build.recap.Time\" (u.getD \"second\"))", "C126: times of day in seconds"),
 m("sqliteMax", "def sqliteMax : PyVal := .int 2147483647", "def sqliteMax : PyVal := .int 65535", "C126: texts of 65535 bytes"),
 m("fieldOf", "let base := if nullable then makeNullable base else base\n  let dflt", "let base := if nullable then base else makeNullable base\n  let dflt", "C126, C49: NOT NULL columns are nullable"),
 m("primitive", '| .int => .ok (.int (.int 32) (.bool true) x)', '| .int => .ok (.int (.int 32) (.bool false) x)', "C126: unsigned integers", file="Hive.lean"),
 m("parse", "| .varchar n => pure (finish (.string (.int n) (.bool true) x))", "| .varchar n => pure (finish (.string (.int (n - 1)) (.bool true) x))", "C126: VARCHAR is one byte short", file="Hive.lean"),
]
