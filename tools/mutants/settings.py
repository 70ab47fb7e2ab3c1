def m(definition, old, new, breaks, file="Settings.lean", **kw):
    return dict(definition=definition, old=old, new=new, breaks=breaks, file=file, **kw)

MUTANTS = [
 m("safeNetloc", "if present (username s) || present (password s) then do", "if present (username s) && present (password s) then do", "a user without password is shown"),
 m("safeNetloc", "| some p => pure (netloc ++ ':' :: digits p)", "| some _ => pure netloc", "the port is lost"),
 m("safeNetloc", "let netloc := (hostname env s).getD s.netloc", "let netloc := s.netloc", "the password is shown"),
 m("safeUrl", "path := rstripSlash s.path }))", "path := s.path }))", "trailing slashes stay"),
 m("safeUrl", "(urlunsplit { s with netloc := netloc,", "(urlunsplit { s with query := [], netloc := netloc,", "the query is dropped: fewer secrets would be shown"),
 m("matchesConf", "if conf.scheme = url.scheme then", "if true then", "URLs of other schemes get the credentials"),
 m("matchesConf", "if hostname env conf = hostname env url then do", "if true then do", "other hosts get the credentials"),
 m("matchesConf", "if p = p' then pure (stripPrefix? (asPosix conf.path) urlPath).isSome else pure false", "pure (stripPrefix? (asPosix conf.path) urlPath).isSome", "other ports get the credentials"),
 m("matchesConf", "if p = p' then pure (stripPrefix? (asPosix conf.path) urlPath).isSome else pure false", "if p = p' then pure true else pure false", "other paths get the credentials"),
 m("matchesConf", "(stripPrefix? (asPosix conf.path) urlPath).isSome", "(stripPrefix? urlPath (asPosix conf.path)).isSome", "swapped prefix"),
 m("merge", "mergeQs (parseQs env conf.query) (parseQs env url.query)", "mergeQs (parseQs env url.query) (parseQs env conf.query)", "configured parameters win"),
 m("merge", "netloc := conf.netloc\n    path", "netloc := url.netloc\n    path", "no credentials are added"),
 m("merge", "path := rstripSlash urlPath", "path := rstripSlash conf.path", "the configured path is used"),
 m("merge", "if url.fragment = [] then conf.fragment else url.fragment", "conf.fragment", "the fragment is lost"),
 m("findConf", "then pure (some (merge env conf url urlPath))\n    else findConf env url urlPath us", "then pure (some (merge env conf url urlPath))\n    else pure .none", "only the first configured URL is tried"),
 m("unsafeUrl", "| .none => if strict then .error .valueError else pure url", "| .none => pure url", "strict is ignored"),
 m("unsafeUrl", "| .none => if strict then .error .valueError else pure url", "| .none => if strict then .error .valueError else pure (urlunsplit s)", "unmatched URLs are rewritten"),
 m("splitScheme", "((c :: cs).map Char.toLower, rest)", "(c :: cs, rest)", "schemes keep their case", file="Url.lean"),
 m("isDelim", "c = '/' || c = '?' || c = '#'", "c = '/' || c = '?'", "fragments without path are part of the host", file="Url.lean"),
 m("userinfo", "match rpartition '@' netloc with\n  | (info, true, _) =>", "match partition '@' netloc with\n  | (info, true, _) =>", "a password with @", file="Url.lean"),
 m("hostinfo", "let info := (rpartition '@' netloc).2.2", "let info := netloc", "credentials are part of the host", file="Url.lean"),
 m("port", "if natOf p ≤ 65535 then", "if natOf p < 65535 then", "port 65535 is rejected", file="Url.lean"),
 m("hostname", "| (a, false, _) => some (env.lower a)", "| (a, false, _) => some a", "hosts are case-sensitive", file="Url.lean"),
 m("addParam", "if k = name then (k, vs ++ [value]) :: rest else (k, vs) :: addParam rest name value", "if k = name then (k, [value]) :: rest else (k, vs) :: addParam rest name value", "repeated parameters are lost", file="Url.lean"),
 m("setParam", "if k = name then (k, values) :: rest else (k, vs) :: setParam rest name values", "if k = name then (k, vs ++ values) :: rest else (k, vs) :: setParam rest name values", "configured values stay", file="Url.lean"),
 m("quoteChar", "else if c = ' ' then ['+']", "else if c = ' ' then [' ']", "spaces are not quoted", file="Url.lean"),
 m("isSafe", "c = '_' || c = '.' || c = '-' || c = '~'", "c = '_' || c = '.' || c = '-' || c = '~' || c = '&'", "ampersands in values are not quoted", file="Url.lean"),
 m("field", "if value = [] then q else addParam", "addParam", "blank values are kept", file="Url.lean"),
 m("asPosix", "p ≠ [] ∧ p ≠ ['.']))", "p ≠ []))", "dots in paths stay", file="Url.lean"),
]
