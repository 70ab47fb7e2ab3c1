import Verif.Relational

/-!
# Column properties of SQLite tables

Model of `SQLiteClient.add_information_schema` (`recap/clients/sqlite.py` 99-141), which turns a
row of `PRAGMA table_info` into the column properties that `SQLiteConverter` reads.  The database
itself is not modelled: a row is any dictionary.

What is simplified: `\w`, `\d` and `\s` are ASCII only; a declared type with other characters
raises `unmodelled`.
-/

set_option autoImplicit false

namespace Recap.Relational

/-- `\w`. -/
def isWord (c : Char) : Bool := c.isAlphanum || c = '_'

/-- `\d+` or `\w+`: the longest run of accepted characters, and the rest. -/
def run (p : Char → Bool) : List Char → List Char × List Char
  | [] => ([], [])
  | c :: cs => if p c then ((c :: (run p cs).1), (run p cs).2) else ([], c :: cs)

/-- `int(s)` for a run of digits. -/
def natOf (s : List Char) : Nat := s.foldl (fun n c => 10 * n + (c.toNat - 48)) 0

/-- A match of `(\w+)\((\d+)(?:,\s*(\d+))?\)` (sqlite.py 124) at the start of a string, with its
three groups.  The characters after each run cannot belong to the run, so there is nothing to
backtrack. -/
def matchTypeAt (s : List Char) : Option (List Char × Nat × Option Nat) :=
  match run isWord s with
  | ([], _) => .none
  | (w, rest) =>
    match rest with
    | '(' :: rest =>
      match run Char.isDigit rest with
      | ([], _) => .none
      | (d, ')' :: _) => some (w, natOf d, .none)
      | (d, ',' :: rest) =>
        match run Char.isDigit (rest.dropWhile isSpace) with
        | ([], _) => .none
        | (d', ')' :: _) => some (w, natOf d, some (natOf d'))
        | _ => .none
      | _ => .none
    | _ => .none

/-- `numeric_pattern.search(s)` (sqlite.py 124-125). -/
def searchType : List Char → Option (List Char × Nat × Option Nat)
  | [] => .none
  | c :: cs =>
    match matchTypeAt (c :: cs) with
    | some m => some m
    | .none => searchType cs

/-- The precision, scale and octet length of a declared type (sqlite.py 115-139): either the
numeric properties or the octet length. -/
def typeParameters (cm : CaseMap) (type : PyVal) : Except PyErr (PyVal × PyVal × PyVal) :=
  match type with
  | .str s =>
    if s.toList.any (fun c => 128 ≤ c.toNat) then .error .unmodelled else
    match searchType s.toList with
    | .none => .ok (.none, .none, .none)
    | some (w, precision, scale) => do
      match ← getAffinity cm (.str (cm.upper (String.ofList w))) with
      | .integer | .real | .numeric =>
        pure (.int precision, .int (scale.getD 0), .none)
      | .text | .blob => pure (.none, .none, .int precision)
  | _ => .error .typeError

/-- `add_information_schema(row)` (sqlite.py 99-141). -/
def addInformationSchema (cm : CaseMap) (row : Dict) : Except PyErr Dict := do
  let notNull ← item row "NOTNULL"
  let isNotNull ← if notNull.truthy then pure notNull else item row "PK"
  let name ← item row "NAME"
  let dflt ← item row "DFLT_VALUE"
  let type ← item row "TYPE"
  let (precision, scale, octet) ← typeParameters cm type
  pure (Dict.update row
    [("COLUMN_NAME", name), ("IS_NULLABLE", .str (if isNotNull.truthy then "NO" else "YES")),
      ("COLUMN_DEFAULT", dflt), ("NUMERIC_PRECISION", precision), ("NUMERIC_SCALE", scale),
      ("CHARACTER_OCTET_LENGTH", octet)])

/-- `[add_information_schema(row) for row in rows]` (sqlite.py 90-95). -/
def sqliteRows (cm : CaseMap) : List Dict → Except PyErr (List Dict)
  | [] => .ok []
  | r :: rs => do
    let c ← addInformationSchema cm r
    let cs ← sqliteRows cm rs
    pure (c :: cs)

/-- `SQLiteClient.schema(table)` for a table with these `PRAGMA table_info` rows
(sqlite.py 80-97). -/
def sqliteSchema (cm : CaseMap) (rows : List Dict) : Except PyErr RType := do
  let cols ← sqliteRows cm rows
  (Dialect.sqlite.toRecap cm cols newRegistry).1

end Recap.Relational
