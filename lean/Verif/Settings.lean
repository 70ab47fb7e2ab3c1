import Verif.Url

/-!
# The configured URLs

Model of `RecapSettings.safe_urls` and `RecapSettings.unsafe_url` (`recap/settings.py` 38-133).

What is simplified: a configured URL is the text that pydantic prints for it (`str(url)` and
`url.unicode_string()` are the same text).  What pydantic accepts and how it rewrites a URL before
is not modelled.
-/

set_option autoImplicit false

namespace Recap.Url

/-- `if not netloc: url = url.replace(":", "://", 1)` (settings.py 70-71, 125-126). -/
def addSlashes (netloc url : Chars) : Chars :=
  if netloc = [] then replaceColon "://".toList url else url

/-- `x` is a string that is not empty. -/
def present (x : Option Chars) : Bool :=
  match x with
  | some (_ :: _) => true
  | _ => false

/-- The network location of the sanitised URL (settings.py 48-55). -/
def safeNetloc (env : Env) (s : Split) : Except PyErr Chars :=
  if present (username s) || present (password s) then do
    let netloc := (hostname env s).getD s.netloc
    match ← port s with
    | some p => pure (netloc ++ ':' :: digits p)
    | .none => pure netloc
  else pure s.netloc

/-- The loop body of `safe_urls` (settings.py 46-73). -/
def safeUrl (env : Env) (url : Chars) : Except PyErr Chars := do
  let s ← urlsplit env url
  let netloc ← safeNetloc env s
  pure (addSlashes netloc (urlunsplit { s with netloc := netloc, path := rstripSlash s.path }))

/-- `safe_urls` (settings.py 38-75). -/
def safeUrls (env : Env) (urls : List Chars) : Except PyErr (List Chars) := urls.mapM (safeUrl env)

/-- The condition of the loop in `unsafe_url` (settings.py 96-101), evaluated from left to right:
the ports are only read when scheme and host agree. -/
def matchesConf (env : Env) (conf url : Split) (urlPath : Chars) : Except PyErr Bool :=
  if conf.scheme = url.scheme then
    if hostname env conf = hostname env url then do
      let p ← port conf
      let p' ← port url
      if p = p' then pure (stripPrefix? (asPosix conf.path) urlPath).isSome else pure false
    else pure false
  else pure false

/-- The merged URL (settings.py 102-128). -/
def merge (env : Env) (conf url : Split) (urlPath : Chars) : Chars :=
  let query := urlencode (mergeQs (parseQs env conf.query) (parseQs env url.query))
  addSlashes conf.netloc (urlunsplit {
    scheme := url.scheme
    netloc := conf.netloc
    path := rstripSlash urlPath
    query := query
    fragment := if url.fragment = [] then conf.fragment else url.fragment })

/-- The loop of `unsafe_url` (settings.py 93-128). -/
def findConf (env : Env) (url : Split) (urlPath : Chars) :
    List Chars → Except PyErr (Option Chars)
  | [] => pure .none
  | u :: us => do
    let conf ← urlsplit env u
    if ← matchesConf env conf url urlPath then pure (some (merge env conf url urlPath))
    else findConf env url urlPath us

/-- `unsafe_url(url, strict)` (settings.py 77-133). -/
def unsafeUrl (env : Env) (urls : List Chars) (url : Chars) (strict : Bool) :
    Except PyErr Chars := do
  let s ← urlsplit env url
  let urlPath := asPosix (if s.path = [] then ['/'] else s.path)
  match ← findConf env s urlPath urls with
  | some merged => pure merged
  | .none => if strict then .error .valueError else pure url

end Recap.Url
