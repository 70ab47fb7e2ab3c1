def m(definition, old, new, breaks, file="JsonText.lean", **kw):
    return dict(definition=definition, old=old, new=new, breaks=breaks, file=file, **kw)

MUTANTS = [
 m("hexLower", "Char.ofNat (87 + n)", "Char.ofNat (86 + n)", "escapes name other characters"),
 m("hex4", "hexLower (n / 256 % 16), hexLower (n / 16 % 16)", "hexLower (n / 16 % 16), hexLower (n / 256 % 16)", "the digits of escapes are swapped"),
 m("shortEscape", "else if c = '\"' then some '\"'\n  else", "else", "quotes are not escaped"),
 m("shortEscape", "else if c = '\\t' then some 't' else none", "else if c = '\\t' then some 'v' else none", "tabs are written as an escape that JSON does not have"),
 m("writeChar", "c.toNat ≤ 126 ∨ ascii = false", "c.toNat ≤ 127 ∨ ascii = false", "the delete character is not escaped"),
 m("writeChar", "c.toNat ≤ 126 ∨ ascii = false", "c.toNat ≤ 255 ∨ ascii = false", "Latin-1 letters are not escaped: files depend on the encoding"),
 m("writeChar", "hex4 (56320 + (c.toNat - 65536) % 1024)", "hex4 (56320 + c.toNat % 1024 / 2)", "characters outside the BMP are written as others"),
 m("writeChar", "hex4 (55296 + (c.toNat - 65536) / 1024)", "hex4 (55296 + c.toNat / 1024)", "characters outside the BMP are written as others"),
 m("Style.default", "{ ascii := true, item := \", \".toList", "{ ascii := true, item := \"; \".toList", "items are separated by semicolons"),
 m("Style.default", "{ ascii := true, item", "{ ascii := false, item", "files are written in the encoding of the platform"),
 m("Style.pretty", "key := \": \".toList, indent := some 2", "key := \" \".toList, indent := some 2", "no colon on the command line"),
 m("dump", "| .bool true => \"true\".toList\n  | .bool false => \"false\".toList\n  | .int i", "| .bool true => \"True\".toList\n  | .bool false => \"False\".toList\n  | .int i", "booleans are written as in Python"),
 m("dump", "| .none => \"null\".toList", "| .none => \"None\".toList", "null is written as in Python"),
 m("dumpItems", "st.item ++ st.newline n ++ dump F st n x ++ dumpItems F st n xs", "st.newline n ++ dump F st n x ++ dumpItems F st n xs", "no comma between items"),
 m("dumpPairs", "(writeStr st.ascii k ++ st.key ++ dump F st n x) ++ dumpPairs F st n kvs", "(writeStr st.ascii k ++ st.key ++ dump F st n x)", "only two items of dictionaries are written"),
 m("skip", "c = '\\t' ∨ c = '\\n' ∨ c = '\\r'", "c = '\\t' ∨ c = '\\n'", "carriage returns are not white space"),
 m("readHex4", "w * 4096 + x * 256 + y * 16 + z", "w * 4096 + x * 256 + z * 16 + y", "escapes are read as other characters"),
 m("readShort", "else if e = '/' then some 47\n  else", "else", "an escaped slash is refused"),
 m("readShort", "else if e = 'b' then some 8", "else if e = 'b' then some 127", "backspaces are read as delete characters"),
 m("readUnicode", "if 56320 ≤ y ∧ y ≤ 57343 then .ok (65536 + (x - 55296) * 1024 + (y - 56320), s3) else .ok (x, s1)", ".ok (x, s1)", "surrogate pairs are not combined"),
 m("readUnicode", "55296 ≤ x ∧ x ≤ 56319", "55296 ≤ x ∧ x < 56319", "the last plane of pairs is not combined"),
 m("readPoint", "if c.toNat < 32 then .error .decode else .ok (c.toNat, s)", ".ok (c.toNat, s)", "control characters are accepted in strings"),
 m("takeInt", "  | '-' :: '0' :: s => some (['-', '0'], s)\n  | '0' :: s => some (['0'], s)\n", "", "superfluous zeros are accepted"),
 m("takeFrac", "| '.' :: c :: s => if isDigit c then", "| '.' :: c :: s => if isDigit c || c = 'e' then", "a fraction without digits"),
 m("takeExp", "if e = 'e' ∨ e = 'E' then", "if e = 'e' then", "upper-case exponents are refused"),
 m("readNumber", "if f = [] ∧ x = [] then", "if f = [] then", "numbers with an exponent are integers"),
 m("scan", "| 'n' :: 'u' :: 'l' :: 'l' :: s => .ok (.null, s)", "| 'n' :: 'u' :: 'l' :: 'l' :: s => .ok (.bool false, s)", "null is read as false"),
 m("scan", "      | ']' :: s => .ok (.list [], s)\n      | s => match scanItems n s with", "      | s => match scanItems n s with", "empty lists are refused"),
 m("scan", "      match skip s with\n      | '}' :: s => .ok (.dict [], s)", "      match s with\n      | '}' :: s => .ok (.dict [], s)", "white space after an opening brace"),
 m("scanItems", "match scanItems n (skip s) with", "match scanItems n s with", "white space after a comma is refused"),
 m("scanItems", "      | ',' :: s =>\n        match scanItems n (skip s) with", "      | ';' :: s =>\n        match scanItems n (skip s) with", "semicolons separate items"),
 m("scanItems", "| ']' :: s => .ok ([x], s)", "| [] => .ok ([x], [])\n      | ']' :: s => .ok ([x], s)", "a list that is cut off is accepted"),
 m("scanPairs", "| '}' :: s => .ok ([(k, x)], s)", "| [] => .ok ([(k, x)], [])\n            | '}' :: s => .ok ([(k, x)], s)", "a dictionary that is cut off is accepted"),
 m("readStr", "| _ + 1, '\"' :: s => .ok ([], s)", "| _ + 1, '\"' :: s => .ok ([], s)\n  | _ + 1, [] => .ok ([], [])", "a string that is cut off is accepted"),
 m("scanPairs", "| .ok (kvs, s) => .ok ((k, x) :: kvs, s)", "| .ok (kvs, s) => .ok (kvs ++ [(k, x)], s)", "the first of two values for a name counts"),
 m("pairsOf", "pairsOf F kvs (Dict.set d (String.ofList cs) v)", "pairsOf F kvs (d ++ [(String.ofList cs, v)])", "repeated names give repeated keys"),
 m("valuesOf", "| some v, some vs => some (v :: vs)\n    | _, _ => none", "| some v, some vs => some (v :: vs)\n    | none, some vs => some vs\n    | _, _ => none", "items with unknown values are dropped"),
 m("scanText", "if skip rest = [] then .ok t else .error .decode", ".ok t", "whatever follows a document is ignored"),
 m("scanText", "match scan (2 * s.length + 2) (skip s) with", "match scan (2 * s.length + 2) s with", "white space before a document is refused"),
 m("bodyOf", "| .error .decode => some (.text (String.ofList s))", "| .error .decode => some .notUtf8", "texts that are not JSON are refused", file="ServerBytes.lean"),
 m("putBytes", "serve root fs (.put name version contentType body)", "serve root fs (.post name contentType body)", "PUT ignores the version", file="ServerBytes.lean"),
 m("document", "| .error .decode => .error .jsonDecode", "| .error .decode => .ok .none", "unreadable files are null documents", file="StorageBytes.lean"),
 m("openFile", "| some (.file _) => .ok (write fs (locate path) (.file []))\n  | none", "| some (.file b) => .ok (write fs (locate path) (.file b))\n  | none", "equivalent: the first state of the write has no bytes whatever was in the file", file="StorageBytes.lean"),
 m("writeFile", "(.file ((fileBytes F enc d).take n)))", "(.file ((fileBytes F enc d).drop n)))", "files are written from the end", file="StorageBytes.lean"),
 m("writeFile", "List.range ((fileBytes F enc d).length + 1)", "List.range (fileBytes F enc d).length", "the last byte is never written", file="StorageBytes.lean"),
 m("fileBytes", "JsonText.dumps F .default d", "JsonText.dumps F .compact d", "files hold characters outside ASCII", file="StorageBytes.lean"),
 m("getVersion", "| .error .fileNotFound => .ok none\n  | .error e => .error e\n  | .ok v =>\n    match parse v", "| .error _ => .ok none\n  | .ok v =>\n    match parse v", "torn versions look absent", file="StorageBytes.lean"),
 m("nextVersion", "| .ok (some v) => .ok (v + 1)", "| .ok (some v) => .ok v", "put overwrites the latest version", file="StorageBytes.lean"),
 m("at?", "if q = p then some n else at? rest p", "if q = p then some n else some n", "any file for any other", file="StorageBytes.lean"),
]
