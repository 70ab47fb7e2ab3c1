def m(definition, old, new, breaks, file="Storage.lean", **kw):
    return dict(definition=definition, old=old, new=new, breaks=breaks, file=file, **kw)

MUTANTS = [
 m("FS.makeDirs", "| some (.file _) => .error (if ps.isEmpty then .fileExists else .notADirectory)", "| some (.file _) => makeDirs (write fs (acc ++ [p]) .dir) (acc ++ [p]) ps", "a put replaces a file by a directory"),
 m("FS.save", "| some (.file _) => .ok (write fs (locate path) (.file c))\n  | none =>", "| some (.file _) => .error .fileExists\n  | none =>", "versions cannot be overwritten"),
 m("FS.save", "| some .dir => .error .isADirectory\n  | some (.file _) => .ok", "| some .dir => .ok (write fs (locate path) (.file c))\n  | some (.file _) => .ok", "a put replaces a directory"),
 m("strLe", "if a = b then strLe s t else decide (a.toNat < b.toNat)", "if a = b then strLe s t else decide (b.toNat < a.toNat)", "names are listed in descending order"),
 m("insertBy", "if le x y then x :: y :: ys else y :: insertBy le x ys", "if le x y then x :: ys else y :: insertBy le x ys", "sorting drops elements"),
 m("maxInt", "| y :: ys => maxInt (if x < y then y else x) ys", "| y :: ys => maxInt (if y < x then y else x) ys", "latest is the smallest version"),
 m("maxInt", "  | [] => x\n  | y :: ys => maxInt (if x < y then y else x) ys", "  | [] => x\n  | y :: ys => maxInt y ys", "latest is the last listed version"),
 m("dirPath", "root ++ '/' :: quotePlus name", "root ++ '/' :: name", "names are not quoted"),
 m("filePath", "dirPath root name ++ '/' :: versionFile version", "dirPath root name ++ '-' :: versionFile version", "versions are next to the directory"),
 m("versionFile", "intStr version ++ \".json\".toList", "\"v\".toList ++ intStr version ++ \".json\".toList", "version files have no numeric stem"),
 m("versions", ".ok vs => .ok (some (sortBy (fun a b => decide (a ≤ b)) vs))", ".ok vs => .ok (some vs)", "versions are not sorted"),
 m("versions", "| .error .fileNotFound => .ok none\n  | .error e => .error e\n  | .ok files", "| .error .fileNotFound => .ok (some [])\n  | .error e => .error e\n  | .ok files", "unknown names have an empty list"),
 m("latest", "| .ok (some (v :: vs)) => .ok (some (maxInt v vs))", "| .ok (some (v :: _)) => .ok (some v)", "latest is the first version"),
 m("getVersion", "| .ok t => .ok (some (t, version))", "| .ok t => .ok (some (t, version + 1))", "the returned version is wrong"),
 m("getVersion", "| .error .fileNotFound => .ok none\n  | .error e => .error e\n  | .ok v", "| .error _ => .ok none\n  | .ok v", "unreadable versions look absent"),
 m("get", "| .ok none => .ok none\n    | .ok (some v) => getVersion root fs name v", "| .ok none => .ok none\n    | .ok (some v) => getVersion root fs name (v - 1)", "get returns the version before the latest"),
 m("lsNames", "| .ok ns => .ok (sortBy strLe ns)", "| .ok _ => .ok (sortBy strLe files)", "listed names are quoted"),
 m("nextVersion", "| .ok (some v) => .ok (v + 1)", "| .ok (some v) => .ok v", "put overwrites the latest version"),
 m("nextVersion", "| .ok none => .ok 1", "| .ok none => .ok 0", "the first version is 0"),
 m("writeFile", "made.save (filePath root name v) .truncated with", "made.save (filePath root name (v + 1)) .truncated with", "a put touches the next version"),
 m("writeFile", "| .ok done => (.ok v, [fs, made, opened, done])", "| .ok done => (.ok v, [fs, done, opened, done])", "the states in between"),
 m("putStates", "match toDict true true t with", "match toDict false false t with", "documents are stored verbatim"),
 m("putStates", "  | .ok v =>\n    match toDict true true t with\n    | .error e => (.error (.py e), [fs])", "  | .ok v =>\n    match toDict true true t with\n    | .error e => (.error (.py e), [[]])", "a failing put removes everything"),
 m("put", "(putStates root fs name t version).2.getLastD fs)", "(putStates root fs name t version).2.headD fs)", "a put has no effect"),
 m("alwaysSafe", "b.toNat == 95 || b.toNat == 46", "b.toNat == 95 || b.toNat == 47 || b.toNat == 46", "slashes are not quoted", file="Quote.lean"),
 m("quoteByte", "else if b.toNat = 32 then ['+']", "else if b.toNat = 32 then ['_']", "spaces and underscores collide", file="Quote.lean"),
 m("alwaysSafe", "b.toNat == 95 || b.toNat == 46", "b.toNat == 95 || b.toNat == 43 || b.toNat == 46", "plus signs are not quoted: a+b and 'a b' collide", file="Quote.lean"),
 m("unquoteBytes", "| '+' :: rest => 32 :: unquoteBytes rest", "| '+' :: rest => 43 :: unquoteBytes rest", "listed names have + for spaces", file="Quote.lean"),
 m("natDigits", "natDigits (n / 10) ++ [Char.ofNat (48 + n % 10)]", "[Char.ofNat (48 + n % 10)] ++ natDigits (n / 10)", "digits in reverse order", file="Quote.lean"),
]
