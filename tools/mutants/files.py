def m(definition, old, new, breaks, file="Clients.lean", **kw):
    return dict(definition=definition, old=old, new=new, breaks=breaks, file=file, **kw)

# run with TARGETS="FilesThms"
MUTANTS = [
 m("parseFilesystem", "(if s.path = [] then [] else s.path.drop 1 ++ ['/'])", "(if s.path = [] then [] else s.path ++ ['/'])", "C153_relative_refuted: nothing is dropped from a relative path (still read from the root)"),
 m("parseFilesystem", "(if s.path = [] then [] else s.path.drop 1 ++ ['/'])", "(if s.path = [] then [] else s.path.drop 2 ++ ['/'])", "C153_paths_partial: the first letter of an absolute path is dropped"),
 m("parseFilesystem", "let path := '/' :: (if s.netloc", "let path := (if s.netloc", "C153_paths_partial: an absolute path becomes relative"),
 m("parseFilesystem", "(if s.netloc = [] then [] else s.netloc ++ ['/']) ++\n", "(if s.netloc = [] then [] else []) ++\n", "C153_localhost_refuted: the host is ignored (the code would be right)"),
 m("parseFilesystem", '(if s.scheme = [] then "file".toList else s.scheme)', '(if s.scheme = [] then "local".toList else s.scheme)', "C153_paths_partial: no client for paths"),
 m("parseFilesystem", "s.path.drop 1 ++ ['/'])", "unquote env (s.path.drop 1) ++ ['/'])", "C153_escapes_refuted: percent escapes are decoded (the code would be right for URLs; paths with % are wrong then)"),
 m("suffixOf", ".getLast? with\n  | .none => []\n  | some name =>\n    match rpartition", ".head? with\n  | .none => []\n  | some name =>\n    match rpartition", "C153: the suffix of the first directory decides"),
 m("suffixOf", "if a ≠ [] ∧ b ≠ [] then '.' :: b else []", "if a ≠ [] ∧ b ≠ [] then '.' :: a else []", "C153: the stem is taken for the suffix"),
 m("formatOf", '(env.lower (suffixOf path))', '(suffixOf path)', "C153_paths_partial: suffixes in upper case are refused"),
 m("formatOf", '["avsc", "avro", "avdl", "avpr"].contains suffix then .ok .avro', '["avsc", "avro", "avdl"].contains suffix then .ok .avro', "C153_paths_partial: .avpr is refused"),
 m("formatOf", '["json", "jsonschema", "jsons"].contains suffix then .ok .json', '["json", "jsonschema", "jsons"].contains suffix then .ok .avro', "C153_paths_partial: JSON Schemas are read as Avro"),
 m("formatOf", '["proto", "protobuf", "protos", "proto3", "proto2"]', '["proto", "protobuf", "protos", "proto2"]', "C153_paths_partial: .proto3 is refused"),
 m("clients", '("", .filesystem), ("file", .filesystem)', '("file", .filesystem)', "C153_paths_partial: no client for paths"),
 m("clients", '("file", .filesystem), ("bigquery"', '("file", .sqlite), ("bigquery"', "C153: files are opened as databases"),
 m("create", '.ok [("scheme", Dict.getD d "scheme" .none)]', '.ok [("scheme", Dict.getD d "host" .none)]', "C153: another argument is given to the client"),
 m("schemaOf", "pure (.file path.toList f)", "pure (.file (path.toList.drop 1) f)", "C153: a relative path is read"),
 m("schemaOf", "let f ← formatOf env path.toList", "let f ← formatOf env (path.toList.dropLast.dropLast)", "C153: the suffix without its last letter decides"),
 m("unsafeUrl", "| .none => if strict then .error .valueError else pure url", "| .none => if strict then pure url else .error .valueError", "C153_paths_partial: paths are refused", file="Settings.lean"),
 m("merge", "scheme := url.scheme\n", "scheme := conf.netloc\n", "C153_strict_partial: the scheme is lost when file:/// is configured", file="Settings.lean"),
 m("matchesConf", "pure (stripPrefix? (asPosix conf.path) urlPath).isSome", "pure (stripPrefix? urlPath (asPosix conf.path)).isNone", "C153_strict_partial: file:/// does not allow paths", file="Settings.lean"),
 # the following with TARGETS="FilesThms FilesConfigured"
 m("unsafeUrl", 'if strict then .error .valueError else pure url', 'if strict then pure url else .error .valueError', "C153_refused, C153_configured_partial: strict mode is the other way round", file="Settings.lean"),
]
