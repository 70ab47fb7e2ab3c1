import Verif.Py
import Verif.Quote

/-!
# JSON texts

Model of `json.dump`, `json.dumps`, `json.load` and `json.loads` of the Python standard library as
`recap/storage/registry.py` (lines 38, 61), `recap/server/registry.py` (line 103), `recap/cli.py`
(lines 20, 40, through `rich.print_json`) and FastAPI (the answers of `recap/server`) use them.
The C implementation of the scanner (`Modules/_json.c`) is what runs; it reads the same texts as the
Python code in `Lib/json/scanner.py` and `Lib/json/decoder.py`.

What is simplified:
* the limits on nesting (`RecursionError`) and on the digits of an int (4300) are not modelled;
* how floats are written and read (`float.__repr__`, `float()`) is a parameter;
* texts that denote a value outside `PyVal` (integral floats, infinities, NaN, lone surrogates) give
  `unmodelled`, but only if they are complete: an incomplete text is a `JSONDecodeError`.
-/

set_option autoImplicit false

namespace Recap.JsonText

/-- How floats are written and read: `float.__repr__` and `float()`; `read` gives `none` for floats
that are not in `PyVal`. -/
structure Floats where
  repr : Int → Nat → Str
  read : Str → Option PyVal

/-! ## Writing -/

/-- The keyword arguments of `json.dumps`: `ensure_ascii`, the item and the key separator and
`indent`. -/
structure Style where
  ascii : Bool
  item : Str
  key : Str
  indent : Option Nat
deriving DecidableEq, Repr

/-- `json.dump(type_dict, f)` (storage/registry.py 61), also what clients that call
`json.dumps(document)` send. -/
def Style.default : Style := { ascii := true, item := ", ".toList, key := ": ".toList, indent := none }

/-- `JSONResponse.render` of Starlette, with which FastAPI answers. -/
def Style.compact : Style := { ascii := false, item := ",".toList, key := ":".toList, indent := none }

/-- `rich.print_json(data=…)` (cli.py 20, 40). -/
def Style.pretty : Style := { ascii := false, item := ",".toList, key := ": ".toList, indent := some 2 }

/-- Lower-case hexadecimal digit. -/
def hexLower (n : Nat) : Char := if n < 10 then Char.ofNat (48 + n) else Char.ofNat (87 + n)

/-- `'\\u{0:04x}'.format(n)`. -/
def hex4 (n : Nat) : Str :=
  ['\\', 'u', hexLower (n / 4096 % 16), hexLower (n / 256 % 16), hexLower (n / 16 % 16), hexLower (n % 16)]

/-- `ESCAPE_DCT` of `json/encoder.py`. -/
def shortEscape (c : Char) : Option Char :=
  if c = '\\' then some '\\' else if c = '"' then some '"'
  else if c.toNat = 8 then some 'b' else if c.toNat = 12 then some 'f' else if c = '\n' then some 'n'
  else if c = '\r' then some 'r' else if c = '\t' then some 't' else none

/-- One character of a string: `py_encode_basestring_ascii` or `py_encode_basestring` of
`json/encoder.py`. -/
def writeChar (ascii : Bool) (c : Char) : Str :=
  match shortEscape c with
  | some e => ['\\', e]
  | none =>
    if 32 ≤ c.toNat ∧ (c.toNat ≤ 126 ∨ ascii = false) then [c]
    else if c.toNat < 65536 then hex4 c.toNat
    else hex4 (55296 + (c.toNat - 65536) / 1024) ++ hex4 (56320 + (c.toNat - 65536) % 1024)

/-- A string in quotes. -/
def writeStr (ascii : Bool) (s : String) : Str := '"' :: s.toList.flatMap (writeChar ascii) ++ ['"']

/-- What stands before an item, and before the closing bracket of level `n`: nothing, or a new line
with the indentation. -/
def Style.newline (st : Style) (n : Nat) : Str :=
  match st.indent with
  | none => []
  | some k => '\n' :: List.replicate (k * n) ' '

mutual
/-- `json.dumps(v, …)` at nesting level `n` (`_make_iterencode` of `json/encoder.py`). -/
def dump (F : Floats) (st : Style) (n : Nat) : PyVal → Str
  | .none => "null".toList
  | .bool true => "true".toList
  | .bool false => "false".toList
  | .int i => intStr i
  | .float m e => F.repr m e
  | .str s => writeStr st.ascii s
  | .list [] => "[]".toList
  | .list (x :: xs) => '[' :: (st.newline (n + 1) ++ dump F st (n + 1) x ++ dumpItems F st (n + 1) xs ++
      st.newline n) ++ [']']
  | .dict [] => "{}".toList
  | .dict ((k, x) :: kvs) => '{' :: (st.newline (n + 1) ++ (writeStr st.ascii k ++ st.key ++ dump F st (n + 1) x) ++
      dumpPairs F st (n + 1) kvs ++ st.newline n) ++ ['}']
/-- The items of a list after the first. -/
def dumpItems (F : Floats) (st : Style) (n : Nat) : List PyVal → Str
  | [] => []
  | x :: xs => st.item ++ st.newline n ++ dump F st n x ++ dumpItems F st n xs
/-- The items of a dictionary after the first. -/
def dumpPairs (F : Floats) (st : Style) (n : Nat) : List (String × PyVal) → Str
  | [] => []
  | (k, x) :: kvs => st.item ++ st.newline n ++ (writeStr st.ascii k ++ st.key ++ dump F st n x) ++ dumpPairs F st n kvs
end

/-- `json.dumps(v, …)`. -/
def dumps (F : Floats) (st : Style) (v : PyVal) : Str := dump F st 0 v

/-! ## Reading -/

/-- `decode` is a `JSONDecodeError`. -/
inductive JErr where
  | decode
  | unmodelled
  | fuel
deriving DecidableEq, Repr

/-- What a text says, before floats and strings are looked at: a float is its text, a string its
code points. -/
inductive Tree where
  | null
  | bool (b : Bool)
  | int (i : Int)
  | float (text : Str)
  | str (points : List Nat)
  | list (xs : List Tree)
  | dict (kvs : List (List Nat × Tree))
deriving Repr, Inhabited

/-- Skip white space (`WHITESPACE` of `json/decoder.py`). -/
def skip : Str → Str
  | c :: s => if c = ' ' ∨ c = '\t' ∨ c = '\n' ∨ c = '\r' then skip s else c :: s
  | [] => []

/-- Four hexadecimal digits (`_decode_uXXXX` of `json/decoder.py`). -/
def readHex4 : Str → Except JErr (Nat × Str)
  | a :: b :: c :: d :: s =>
    match hexValue a, hexValue b, hexValue c, hexValue d with
    | some w, some x, some y, some z => .ok (w * 4096 + x * 256 + y * 16 + z, s)
    | _, _, _, _ => .error .decode
  | _ => .error .decode

/-- `BACKSLASH` of `json/decoder.py`. -/
def readShort (e : Char) : Option Nat :=
  if e = '"' then some 34 else if e = '\\' then some 92 else if e = '/' then some 47
  else if e = 'b' then some 8 else if e = 'f' then some 12 else if e = 'n' then some 10
  else if e = 'r' then some 13 else if e = 't' then some 9 else none

/-- After `\u`: a surrogate pair of two escapes is one code point. -/
def readUnicode (s : Str) : Except JErr (Nat × Str) :=
  match readHex4 s with
  | .error e => .error e
  | .ok (x, s1) =>
    if 55296 ≤ x ∧ x ≤ 56319 then
      match s1 with
      | '\\' :: 'u' :: s2 =>
        match readHex4 s2 with
        | .error e => .error e
        | .ok (y, s3) =>
          if 56320 ≤ y ∧ y ≤ 57343 then .ok (65536 + (x - 55296) * 1024 + (y - 56320), s3) else .ok (x, s1)
      | _ => .ok (x, s1)
    else .ok (x, s1)

/-- One code point of a string (`py_scanstring` of `json/decoder.py`, strict). -/
def readPoint : Str → Except JErr (Nat × Str)
  | [] => .error .decode
  | '\\' :: [] => .error .decode
  | '\\' :: 'u' :: s => readUnicode s
  | '\\' :: e :: s =>
    match readShort e with
    | some n => .ok (n, s)
    | none => .error .decode
  | c :: s => if c.toNat < 32 then .error .decode else .ok (c.toNat, s)

/-- The rest of a string after the opening quote, and what follows it. -/
def readStr : Nat → Str → Except JErr (List Nat × Str)
  | 0, _ => .error .fuel
  | _ + 1, '"' :: s => .ok ([], s)
  | n + 1, s =>
    match readPoint s with
    | .error e => .error e
    | .ok (p, s1) =>
      match readStr n s1 with
      | .error e => .error e
      | .ok (ps, s2) => .ok (p :: ps, s2)

/-- `0` to `9`. -/
def isDigit (c : Char) : Bool := 48 ≤ c.toNat && c.toNat ≤ 57

/-- The integer part of a number and what follows: `-?(?:0|[1-9]\d*)` (`NUMBER_RE` of
`json/scanner.py`). -/
def takeInt : Str → Option (Str × Str)
  | '-' :: '0' :: s => some (['-', '0'], s)
  | '0' :: s => some (['0'], s)
  | '-' :: c :: s =>
    if isDigit c then some ('-' :: c :: s.takeWhile isDigit, s.dropWhile isDigit) else none
  | c :: s => if isDigit c then some (c :: s.takeWhile isDigit, s.dropWhile isDigit) else none
  | [] => none

/-- `(\.\d+)?`. -/
def takeFrac : Str → Str × Str
  | '.' :: c :: s => if isDigit c then ('.' :: c :: s.takeWhile isDigit, s.dropWhile isDigit) else ([], '.' :: c :: s)
  | s => ([], s)

/-- `([eE][-+]?\d+)?`. -/
def takeExp : Str → Str × Str
  | e :: c :: s =>
    if e = 'e' ∨ e = 'E' then
      if c = '-' ∨ c = '+' then
        match s with
        | d :: s' =>
          if isDigit d then (e :: c :: d :: s'.takeWhile isDigit, s'.dropWhile isDigit) else ([], e :: c :: s)
        | [] => ([], e :: c :: s)
      else if isDigit c then (e :: c :: s.takeWhile isDigit, s.dropWhile isDigit)
      else ([], e :: c :: s)
    else ([], e :: c :: s)
  | s => ([], s)

/-- A number (`_match_number` of `json/scanner.py`): an int if it has neither a fraction nor an
exponent. -/
def readNumber (s : Str) : Except JErr (Tree × Str) :=
  match takeInt s with
  | none => .error .decode
  | some (i, s1) =>
    match takeFrac s1 with
    | (f, s2) =>
      match takeExp s2 with
      | (x, s3) =>
        if f = [] ∧ x = [] then
          match strInt i with
          | some k => .ok (.int k, s3)
          | none => .error .decode
        else .ok (.float (i ++ f ++ x), s3)

mutual
/-- `scan_once` of `json/scanner.py`. -/
def scan : Nat → Str → Except JErr (Tree × Str)
  | 0, _ => .error .fuel
  | n + 1, s =>
    match s with
    | '"' :: s =>
      match readStr n s with
      | .error e => .error e
      | .ok (ps, s) => .ok (.str ps, s)
    | '{' :: s =>
      match skip s with
      | '}' :: s => .ok (.dict [], s)
      | s => match scanPairs n s with
        | .error e => .error e
        | .ok (kvs, s) => .ok (.dict kvs, s)
    | '[' :: s =>
      match skip s with
      | ']' :: s => .ok (.list [], s)
      | s => match scanItems n s with
        | .error e => .error e
        | .ok (xs, s) => .ok (.list xs, s)
    | 'n' :: 'u' :: 'l' :: 'l' :: s => .ok (.null, s)
    | 't' :: 'r' :: 'u' :: 'e' :: s => .ok (.bool true, s)
    | 'f' :: 'a' :: 'l' :: 's' :: 'e' :: s => .ok (.bool false, s)
    | 'N' :: 'a' :: 'N' :: s => .ok (.float "NaN".toList, s)
    | 'I' :: 'n' :: 'f' :: 'i' :: 'n' :: 'i' :: 't' :: 'y' :: s => .ok (.float "Infinity".toList, s)
    | '-' :: 'I' :: 'n' :: 'f' :: 'i' :: 'n' :: 'i' :: 't' :: 'y' :: s => .ok (.float "-Infinity".toList, s)
    | s => readNumber s
/-- The items of an array up to the closing bracket (`JSONArray` of `json/decoder.py`). -/
def scanItems : Nat → Str → Except JErr (List Tree × Str)
  | 0, _ => .error .fuel
  | n + 1, s =>
    match scan n s with
    | .error e => .error e
    | .ok (x, s) =>
      match skip s with
      | ']' :: s => .ok ([x], s)
      | ',' :: s =>
        match scanItems n (skip s) with
        | .error e => .error e
        | .ok (xs, s) => .ok (x :: xs, s)
      | _ => .error .decode
/-- The items of an object up to the closing brace (`JSONObject` of `json/decoder.py`). -/
def scanPairs : Nat → Str → Except JErr (List (List Nat × Tree) × Str)
  | 0, _ => .error .fuel
  | n + 1, s =>
    match s with
    | '"' :: s =>
      match readStr n s with
      | .error e => .error e
      | .ok (k, s) =>
        match skip s with
        | ':' :: s =>
          match scan n (skip s) with
          | .error e => .error e
          | .ok (x, s) =>
            match skip s with
            | '}' :: s => .ok ([(k, x)], s)
            | ',' :: s =>
              match scanPairs n (skip s) with
              | .error e => .error e
              | .ok (kvs, s) => .ok ((k, x) :: kvs, s)
            | _ => .error .decode
        | _ => .error .decode
    | _ => .error .decode
end

/-- A code point that is a character; `none` for a surrogate. -/
def charOf (n : Nat) : Option Char := if h : n.isValidChar then some ⟨n.toUInt32, by
  simpa [UInt32.isValidChar, Nat.toUInt32] using (by
    have : n < 2 ^ 32 := by rcases h with h | h <;> omega
    simpa [Nat.mod_eq_of_lt this] using h)⟩ else none

/-- The string with these code points. -/
def strOf : List Nat → Option (List Char)
  | [] => some []
  | n :: ns =>
    match charOf n, strOf ns with
    | some c, some cs => some (c :: cs)
    | _, _ => none

mutual
/-- The Python value of what a text says: later items of an object replace earlier ones with the
same key. -/
def valueOf (F : Floats) : Tree → Option PyVal
  | .null => some .none
  | .bool b => some (.bool b)
  | .int i => some (.int i)
  | .float s => F.read s
  | .str ps => (strOf ps).map (fun cs => .str (String.ofList cs))
  | .list xs => (valuesOf F xs).map .list
  | .dict kvs => (pairsOf F kvs []).map .dict
/-- The values of a list. -/
def valuesOf (F : Floats) : List Tree → Option (List PyVal)
  | [] => some []
  | x :: xs =>
    match valueOf F x, valuesOf F xs with
    | some v, some vs => some (v :: vs)
    | _, _ => none
/-- `dict(pairs)`, after the items in `d`. -/
def pairsOf (F : Floats) : List (List Nat × Tree) → Dict → Option Dict
  | [], d => some d
  | (k, x) :: kvs, d =>
    match strOf k, valueOf F x with
    | some cs, some v => pairsOf F kvs (Dict.set d (String.ofList cs) v)
    | _, _ => none
end

/-- `json.loads(s)` for a `str`, up to floats and strings. -/
def scanText (s : Str) : Except JErr Tree :=
  if s.head? = some (Char.ofNat 65279) then .error .decode
  else
    match scan (2 * s.length + 2) (skip s) with
    | .error e => .error e
    | .ok (t, rest) => if skip rest = [] then .ok t else .error .decode

/-- `json.loads(s)` for a `str`. -/
def loads (F : Floats) (s : Str) : Except JErr PyVal :=
  match scanText s with
  | .error e => .error e
  | .ok t =>
    match valueOf F t with
    | some v => .ok v
    | none => .error .unmodelled

/-- `json.loads(b)` for `bytes`, as `json.load` calls it for a file opened in binary mode
(storage/registry.py 37-38): `detect_encoding` chooses UTF-8 unless there is a byte order mark or a
zero among the first bytes; other encodings are outside the model. -/
def loadBytes (F : Floats) (b : List UInt8) : Except JErr PyVal :=
  if b.take 2 = [254, 255] ∨ b.take 2 = [255, 254] ∨ b.take 3 = [239, 187, 191] ∨ (0 : UInt8) ∈ b.take 4 then
    .error .unmodelled
  else
    match utf8Decode b with
    | none => .error .unmodelled
    | some s => loads F s

end Recap.JsonText
