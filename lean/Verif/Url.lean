import Verif.Py

/-!
# URLs

Model of the parts of Python's standard library that `recap/settings.py` and `recap/clients/` use
to read and write URLs: `urllib.parse` and `pathlib.PurePosixPath.as_posix`.  The lines cited are
those of CPython 3.11 (`Lib/urllib/parse.py`, `Lib/pathlib.py`); the lines of recap that call each
function are cited too.  A string is a list of characters.

What is simplified: `Env` holds the operations that rest on tables outside the language (case
mapping of characters outside ASCII, NFKC normalisation, the syntax of IPv6 addresses, the repair
of malformed UTF-8).  Theorems hold for every such environment.
-/

set_option autoImplicit false

namespace Recap.Url

abbrev Chars := List Char

/-- An ASCII character (`str.isascii`). -/
def isAscii (c : Char) : Bool := c.toNat < 128

/-- The operations that are not modelled in full.
* `lower` is `str.lower`; on ASCII strings it is the ASCII map.
* `netlocOk` is `_checknetloc` (parse.py 421-437) on a string that is not ASCII.
* `bracketOk` is `_check_bracketed_host` (parse.py 441-448).
* `repair` is `bytes.decode("utf-8", "replace")` on bytes that are not UTF-8; it never drops the
  whole text. -/
structure Env where
  lower : Chars → Chars
  lower_ascii : ∀ s, s.all isAscii = true → lower s = s.map Char.toLower
  netlocOk : Chars → Bool
  bracketOk : Chars → Bool
  repair : List UInt8 → Chars
  repair_ne : ∀ b, repair b ≠ []

/-! ## Strings -/

/-- `s.partition(sep)`, with a flag for whether the separator occurs. -/
def partition (sep : Char) : Chars → Chars × Bool × Chars
  | [] => ([], false, [])
  | c :: cs =>
    if c = sep then ([], true, cs)
    else
      let (a, f, b) := partition sep cs
      (c :: a, f, b)

/-- `s.rpartition(sep)`. -/
def rpartition (sep : Char) (s : Chars) : Chars × Bool × Chars :=
  match partition sep s.reverse with
  | (a, true, b) => (b.reverse, true, a.reverse)
  | (_, false, _) => ([], false, s)

/-- `s.rstrip("/")`. -/
def rstripSlash (s : Chars) : Chars := (s.reverse.dropWhile (· = '/')).reverse

/-- `s.split(sep)` for a separator of one character. -/
def splitOn (sep : Char) : Chars → List Chars
  | [] => [[]]
  | c :: cs =>
    if c = sep then [] :: splitOn sep cs
    else
      match splitOn sep cs with
      | [] => [[c]]
      | p :: ps => (c :: p) :: ps

/-- `sep.join(parts)` for a separator of one character. -/
def joinWith (sep : Char) : List Chars → Chars
  | [] => []
  | [p] => p
  | p :: ps => p ++ sep :: joinWith sep ps

/-- `s.replace(":", new, 1)`. -/
def replaceColon (new : Chars) (s : Chars) : Chars :=
  match partition ':' s with
  | (a, true, b) => a ++ new ++ b
  | (_, false, _) => s

/-- `s.startswith(p)`; the rest of the string when it does. -/
def stripPrefix? : Chars → Chars → Option Chars
  | [], s => some s
  | _ :: _, [] => .none
  | p :: ps, c :: cs => if p = c then stripPrefix? ps cs else .none

/-- `s.replace(old, new)` for a non-empty `old`: every occurrence, from left to right.  `skip`
counts the characters of an occurrence that remain to be dropped. -/
def replaceFrom (old new : Chars) : Nat → Chars → Chars
  | _, [] => []
  | skip + 1, _ :: cs => replaceFrom old new skip cs
  | 0, c :: cs =>
    if (stripPrefix? old (c :: cs)).isSome then new ++ replaceFrom old new (old.length - 1) cs
    else c :: replaceFrom old new 0 cs

/-- `s.replace(old, new)`. -/
def replaceAll (old new s : Chars) : Chars := replaceFrom old new 0 s

/-- The digits of `str(n)`. -/
def digits (n : Nat) : Chars := Nat.toDigits 10 n

/-- `int(s)` for ASCII digits. -/
def natOf (s : Chars) : Nat := Nat.ofDigitChars 10 s 0

/-! ## Splitting a URL -/

/-- `SplitResult`. -/
structure Split where
  scheme : Chars
  netloc : Chars
  path : Chars
  query : Chars
  fragment : Chars
deriving DecidableEq, Repr

/-- `scheme_chars` (parse.py 82-85). -/
def schemeChar (c : Char) : Bool := c.isAlphanum || c = '+' || c = '-' || c = '.'

/-- What is removed before a URL is read: leading control characters and spaces, and every tab,
carriage return and line feed (parse.py 477-482). -/
def clean (url : Chars) : Chars :=
  (url.dropWhile (fun c => c.toNat ≤ 32)).filter (fun c => c ≠ '\t' ∧ c ≠ '\r' ∧ c ≠ '\n')

/-- The scheme and the rest (parse.py 486-492). -/
def splitScheme (url : Chars) : Chars × Chars :=
  match partition ':' url with
  | (c :: cs, true, rest) =>
    if c.isAlpha && (c :: cs).all schemeChar then ((c :: cs).map Char.toLower, rest)
    else ([], url)
  | _ => ([], url)

/-- The delimiters that end the network location. -/
def isDelim (c : Char) : Bool := c = '/' || c = '?' || c = '#'

/-- The network location and the rest (parse.py 413-419, 493-494). -/
def splitNetloc (url : Chars) : Chars × Chars :=
  match url with
  | '/' :: '/' :: rest => (rest.takeWhile (fun c => !isDelim c), rest.dropWhile (fun c => !isDelim c))
  | _ => ([], url)

/-- The checks on a network location (parse.py 495-500, 421-437). -/
def netlocValid (env : Env) (netloc : Chars) : Bool :=
  (netloc.contains '[' == netloc.contains ']') &&
  (!netloc.contains '[' || env.bracketOk (partition ']' (partition '[' netloc).2.2).1) &&
  (netloc.all isAscii || env.netlocOk netloc)

/-- `urlsplit(url)` (parse.py 453-507); settings.py 47, 90, 94. -/
def urlsplit (env : Env) (url : Chars) : Except PyErr Split :=
  let (scheme, rest) := splitScheme (clean url)
  let (netloc, rest) := splitNetloc rest
  let (rest, _, fragment) := partition '#' rest
  let (path, _, query) := partition '?' rest
  if netlocValid env netloc then .ok { scheme, netloc, path, query, fragment }
  else .error .valueError

/-! ## The network location -/

/-- `_userinfo` (parse.py 194-204): user and password. -/
def userinfo (netloc : Chars) : Option Chars × Option Chars :=
  match rpartition '@' netloc with
  | (info, true, _) =>
    match partition ':' info with
    | (user, true, password) => (some user, some password)
    | (user, false, _) => (some user, .none)
  | _ => (.none, .none)

/-- `_hostinfo` (parse.py 206-217): host and port as written. -/
def hostinfo (netloc : Chars) : Chars × Option Chars :=
  let info := (rpartition '@' netloc).2.2
  let (host, port) :=
    match partition '[' info with
    | (_, true, bracketed) =>
      let (host, _, rest) := partition ']' bracketed
      (host, (partition ':' rest).2.2)
    | _ =>
      let (host, _, port) := partition ':' info
      (host, port)
  (host, if port = [] then .none else some port)

/-- `username` (parse.py 157-158). -/
def username (s : Split) : Option Chars := (userinfo s.netloc).1

/-- `password` (parse.py 161-162). -/
def password (s : Split) : Option Chars := (userinfo s.netloc).2

/-- `hostname` (parse.py 165-173). -/
def hostname (env : Env) (s : Split) : Option Chars :=
  match (hostinfo s.netloc).1 with
  | [] => .none
  | host =>
    match partition '%' host with
    | (a, true, b) => some (env.lower a ++ '%' :: b)
    | (a, false, _) => some (env.lower a)

/-- `port` (parse.py 176-185). -/
def port (s : Split) : Except PyErr (Option Nat) :=
  match (hostinfo s.netloc).2 with
  | .none => .ok .none
  | some p =>
    if p.all Char.isDigit then
      if natOf p ≤ 65535 then .ok (some (natOf p)) else .error .valueError
    else .error .valueError

/-! ## Writing a URL -/

/-- `uses_netloc` (parse.py 59-63). -/
def usesNetloc : List Chars :=
  ["", "ftp", "http", "gopher", "nntp", "telnet", "imap", "wais", "file", "mms", "https", "shttp",
    "snews", "prospero", "rtsp", "rtsps", "rtspu", "rsync", "svn", "svn+ssh", "sftp", "nfs", "git",
    "git+ssh", "ws", "wss"].map String.toList

/-- `uses_params` (parse.py 65-67). -/
def usesParams : List Chars :=
  ["", "ftp", "hdl", "prospero", "http", "imap", "https", "shttp", "rtsp", "rtsps", "rtspu", "sip",
    "sips", "mms", "sftp", "tel"].map String.toList

/-- `sep + s` unless `s` is empty. -/
def optional (sep : Char) (s : Chars) : Chars := if s = [] then [] else sep :: s

/-- `urlunsplit((scheme, netloc, url, query, fragment))` (parse.py 520-537); settings.py 57-65,
112-120. -/
def urlunsplit (s : Split) : Chars :=
  let url :=
    if s.netloc ≠ [] ∨ (s.scheme ≠ [] ∧ usesNetloc.contains s.scheme) ∨ s.path.take 2 = ['/', '/']
    then '/' :: '/' :: s.netloc ++ (if s.path ≠ [] ∧ s.path.take 1 ≠ ['/'] then '/' :: s.path else s.path)
    else s.path
  let url := if s.scheme ≠ [] then s.scheme ++ ':' :: url else url
  url ++ optional '?' s.query ++ optional '#' s.fragment

/-- `urlparse(url)` (parse.py 374-411): the split URL, with the parameters taken off its last path
segment; clients/__init__.py 91. -/
def urlparse (env : Env) (url : Chars) : Except PyErr (Split × Chars) := do
  let s ← urlsplit env url
  if usesParams.contains s.scheme && s.path.contains ';' then
    if s.path.contains '/' then
      let (dir, _, last) := rpartition '/' s.path
      let (name, _, params) := partition ';' last
      pure ({ s with path := dir ++ '/' :: name }, params)
    else
      let (name, _, params) := partition ';' s.path
      pure ({ s with path := name }, params)
  else pure (s, [])

/-- `urlunparse([scheme, netloc, url, params, query, fragment])` (parse.py 509-518). -/
def urlunparse (s : Split) (params : Chars) : Chars :=
  urlunsplit { s with path := if params = [] then s.path else s.path ++ ';' :: params }

/-! ## Paths -/

/-- `Path(s).as_posix()` (pathlib.py 57-86, 290-300, 537-548, 615-625): slashes and `.` segments
collapse; two leading slashes, but not three, are kept; settings.py 91, 100. -/
def asPosix (s : Chars) : Chars :=
  let rel := s.dropWhile (· = '/')
  let root : Chars :=
    match s.length - rel.length with
    | 0 => []
    | 2 => ['/', '/']
    | _ => ['/']
  let out := root ++ joinWith '/' ((splitOn '/' rel).filter (fun p => p ≠ [] ∧ p ≠ ['.']))
  if out = [] then ['.'] else out

/-! ## Query strings -/

/-- The value of a hexadecimal digit. -/
def hexVal (c : Char) : Option Nat :=
  if c.isDigit then some (c.toNat - 48)
  else if 'a' ≤ c ∧ c ≤ 'f' then some (c.toNat - 87)
  else if 'A' ≤ c ∧ c ≤ 'F' then some (c.toNat - 55)
  else .none

/-- `unquote_to_bytes` (parse.py 627-655) of an ASCII string. -/
def unquoteToBytes : Chars → List UInt8
  | '%' :: a :: b :: rest =>
    match hexVal a, hexVal b with
    | some x, some y => UInt8.ofNat (16 * x + y) :: unquoteToBytes rest
    | _, _ => UInt8.ofNat '%'.toNat :: unquoteToBytes (a :: b :: rest)
  | c :: rest => UInt8.ofNat c.toNat :: unquoteToBytes rest
  | [] => []

/-- `bytes.decode("utf-8", "replace")`. -/
def decode (env : Env) (b : List UInt8) : Chars :=
  match b.toByteArray.utf8Decode? with
  | some cs => cs.toList
  | .none => env.repair b

/-- A run of ASCII characters, read backwards so far, is decoded (parse.py 681). -/
def flush (env : Env) (run : Chars) : Chars :=
  if run = [] then [] else decode env (unquoteToBytes run.reverse)

/-- The runs of ASCII characters are decoded, other characters are kept (parse.py 677-683). -/
def unquoteRuns (env : Env) : Chars → Chars → Chars
  | run, [] => flush env run
  | run, c :: cs =>
    if isAscii c then unquoteRuns env (c :: run) cs
    else flush env run ++ c :: unquoteRuns env [] cs

/-- `unquote(s)` (parse.py 659-684). -/
def unquote (env : Env) (s : Chars) : Chars :=
  if s.contains '%' then unquoteRuns env [] s else s

/-- `unquote(s.replace('+', ' '))` (parse.py 793-796). -/
def unquotePlus (env : Env) (s : Chars) : Chars :=
  unquote env (s.map (fun c => if c = '+' then ' ' else c))

/-- A query: names with their values, in order. -/
abbrev Query := List (Chars × List Chars)

/-- `parsed_result[name].append(value)`, or a new entry (parse.py 721-726). -/
def addParam (q : Query) (name value : Chars) : Query :=
  match q with
  | [] => [(name, [value])]
  | (k, vs) :: rest =>
    if k = name then (k, vs ++ [value]) :: rest else (k, vs) :: addParam rest name value

/-- One field of a query string (parse.py 780-798): dropped unless it has `=` and a value. -/
def field (env : Env) (q : Query) (s : Chars) : Query :=
  match partition '=' s with
  | (name, true, value) =>
    if value = [] then q else addParam q (unquotePlus env name) (unquotePlus env value)
  | _ => q

/-- `parse_qs(s)` (parse.py 687-799); settings.py 107-108, clients/__init__.py 123. -/
def parseQs (env : Env) (s : Chars) : Query := (splitOn '&' s).foldl (field env) []

/-- `_ALWAYS_SAFE` (parse.py 822-825). -/
def isSafe (c : Char) : Bool :=
  isAscii c && (c.isAlphanum || c = '_' || c = '.' || c = '-' || c = '~')

/-- An upper-case hexadecimal digit. -/
def hexDigit (n : Nat) : Char := if n < 10 then Char.ofNat (48 + n) else Char.ofNat (55 + n)

/-- `'%{:02X}'.format(b)` (parse.py 841-845). -/
def percent (b : UInt8) : Chars := ['%', hexDigit (b.toNat / 16), hexDigit (b.toNat % 16)]

/-- One character of `quote_plus` (parse.py 847-941). -/
def quoteChar (c : Char) : Chars :=
  if isSafe c then [c]
  else if c = ' ' then ['+']
  else (String.utf8EncodeChar c).flatMap percent

/-- `quote_plus(s)` (parse.py 901-917). -/
def quotePlus (s : Chars) : Chars := s.flatMap quoteChar

/-- `urlencode(q, doseq=True)` (parse.py 943-1020); settings.py 110. -/
def urlencode (q : Query) : Chars :=
  joinWith '&' (q.flatMap (fun kv => kv.2.map (fun v => quotePlus kv.1 ++ '=' :: quotePlus v)))

/-- `q[name] = values`. -/
def setParam (q : Query) (name : Chars) (values : List Chars) : Query :=
  match q with
  | [] => [(name, values)]
  | (k, vs) :: rest =>
    if k = name then (k, values) :: rest else (k, vs) :: setParam rest name values

/-- `a | b`; settings.py 109. -/
def mergeQs (a b : Query) : Query := b.foldl (fun q kv => setParam q kv.1 kv.2) a

/-- `q.get(name)`. -/
def param (q : Query) (name : Chars) : Option (List Chars) :=
  match q with
  | [] => .none
  | (k, vs) :: rest => if k = name then some vs else param rest name

end Recap.Url
