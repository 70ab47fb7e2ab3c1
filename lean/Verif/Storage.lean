import Verif.Types
import Verif.Quote

/-!
# Model of `recap/storage/registry.py`

A `RegistryStorage` on the local file system (`fsspec`'s `LocalFileSystem`).
-/

set_option autoImplicit false

namespace Recap

/-! ## The file system -/

/-- What a file holds: a complete JSON text, or a proper prefix of one (a write that did not
finish).  Simplification: JSON texts are the values they encode, so `json.load` of what
`json.dump` wrote is the value that was written; a proper prefix of the JSON text of a dictionary,
list or string is not a JSON text. -/
inductive Content where
  | complete (v : PyVal)
  | truncated
deriving DecidableEq, Repr, Inhabited

/-- A directory or a file. -/
inductive Node where
  | dir
  | file (c : Content)
deriving DecidableEq, Repr, Inhabited

/-- An absolute path without empty, `.` and `..` parts. -/
abbrev Place := List Str

/-- The directories and files that exist; the top directory `[]` always does. -/
abbrev FS := List (Place × Node)

/-- Exceptions of the storage. -/
inductive StoreErr where
  | fileNotFound
  | isADirectory
  | notADirectory
  | fileExists
  | valueError
  | jsonDecode
  | py (e : PyErr)
deriving DecidableEq, Repr, Inhabited

namespace FS

/-- What is at a place. -/
def at? (fs : FS) (p : Place) : Option Node :=
  match p with
  | [] => some .dir
  | p => match fs with
    | [] => none
    | (q, n) :: rest => if q = p then some n else at? rest p

/-- Put a node at a place, replacing what is there. -/
def write (fs : FS) (p : Place) (n : Node) : FS :=
  match fs with
  | [] => [(p, n)]
  | (q, m) :: rest => if q = p then (p, n) :: rest else (q, m) :: write rest p n

/-- The name of the place `q` if it is directly in the directory `p`. -/
def nameIn : Place → Place → Option Str
  | [], [c] => some c
  | d :: p, e :: q => if d = e then nameIn p q else none
  | _, _ => none

/-- The names in a directory, in the order of `os.scandir` (no particular order). -/
def names (fs : FS) (p : Place) : List Str := fs.filterMap (fun qn => nameIn p qn.1)

/-- The exception for a missing place: `NotADirectoryError` if a part of the path is a file. -/
def missing (fs : FS) (acc : Place) : List Str → StoreErr
  | [] => .fileNotFound
  | p :: ps =>
    match at? fs (acc ++ [p]) with
    | some (.file _) => .notADirectory
    | _ => missing fs (acc ++ [p]) ps

/-- `fs.ls(path)` on an existing directory gives its entries; a missing path raises
`FileNotFoundError`; for a file it gives the file itself (its last name here). -/
def ls (fs : FS) (path : Str) : Except StoreErr (List Str) :=
  match at? fs (locate path) with
  | some .dir => .ok (names fs (locate path))
  | some (.file _) => .ok [(locate path).getLastD []]
  | none => .error (missing fs [] (locate path))

/-- `os.makedirs(path, exist_ok=True)` from the top down: `acc` exists already. -/
def makeDirs (fs : FS) (acc : Place) : List Str → Except StoreErr FS
  | [] => .ok fs
  | p :: ps =>
    match at? fs (acc ++ [p]) with
    | some .dir => makeDirs fs (acc ++ [p]) ps
    | some (.file _) => .error (if ps.isEmpty then .fileExists else .notADirectory)
    | none => makeDirs (write fs (acc ++ [p]) .dir) (acc ++ [p]) ps

/-- `fs.mkdirs(path, exist_ok=True)`. -/
def mkdirs (fs : FS) (path : Str) : Except StoreErr FS := makeDirs fs [] (locate path)

/-- `fs.open(path)` for reading, and `json.load`. -/
def read (fs : FS) (path : Str) : Except StoreErr PyVal :=
  match at? fs (locate path) with
  | some (.file (.complete v)) => .ok v
  | some (.file .truncated) => .error .jsonDecode
  | some .dir => .error .isADirectory
  | none => .error (missing fs [] (locate path))

/-- `fs.open(path, "w")` creates the file or empties it; `json.dump` and the end of the `with`
statement then write `c`. -/
def save (fs : FS) (path : Str) (c : Content) : Except StoreErr FS :=
  match at? fs (locate path) with
  | some .dir => .error .isADirectory
  | some (.file _) => .ok (write fs (locate path) (.file c))
  | none =>
    match at? fs (locate path).dropLast with
    | some .dir => .ok (write fs (locate path) (.file c))
    | _ => .error (missing fs [] (locate path))

end FS

/-! ## Sorting -/

/-- Lexicographic order on strings by code points, as Python compares strings. -/
def strLe : Str → Str → Bool
  | [], _ => true
  | _ :: _, [] => false
  | a :: s, b :: t => if a = b then strLe s t else decide (a.toNat < b.toNat)

/-- Insertion into a sorted list. -/
def insertBy {α : Type} (le : α → α → Bool) (x : α) : List α → List α
  | [] => [x]
  | y :: ys => if le x y then x :: y :: ys else y :: insertBy le x ys

/-- `sorted(xs)`. -/
def sortBy {α : Type} (le : α → α → Bool) : List α → List α
  | [] => []
  | x :: xs => insertBy le x (sortBy le xs)

/-- `max(xs)` of a non-empty list of ints. -/
def maxInt (x : Int) : List Int → Int
  | [] => x
  | y :: ys => maxInt (if x < y then y else x) ys

/-! ## `RegistryStorage` -/

/-- `f"{self.root_path}/{quoted_name}"` (storage/registry.py 55, 67). -/
def dirPath (root name : Str) : Str := root ++ '/' :: quotePlus name

/-- `f"{version}.json"` (storage/registry.py 37, 60). -/
def versionFile (version : Int) : Str := intStr version ++ ".json".toList

/-- `f"{self.root_path}/{quoted_name}/{version}.json"` (storage/registry.py 37, 60). -/
def filePath (root name : Str) (version : Int) : Str := dirPath root name ++ '/' :: versionFile version

/-- `[int(Path(f).stem) for f in files]` (storage/registry.py 71-74). -/
def parseVersions : List Str → Except StoreErr (List Int)
  | [] => .ok []
  | f :: fs =>
    match strInt (stem f) with
    | none => .error .valueError
    | some v =>
      match parseVersions fs with
      | .error e => .error e
      | .ok vs => .ok (v :: vs)

/-- `versions(name)` (storage/registry.py 65-77). -/
def versions (root : Str) (fs : FS) (name : Str) : Except StoreErr (Option (List Int)) :=
  match fs.ls (dirPath root name) with
  | .error .fileNotFound => .ok none
  | .error e => .error e
  | .ok files =>
    match parseVersions files with
    | .error e => .error e
    | .ok vs => .ok (some (sortBy (fun a b => decide (a ≤ b)) vs))

/-- `latest(name)` (storage/registry.py 79-83). -/
def latest (root : Str) (fs : FS) (name : Str) : Except StoreErr (Option Int) :=
  match versions root fs name with
  | .error e => .error e
  | .ok none => .ok none
  | .ok (some []) => .ok none
  | .ok (some (v :: vs)) => .ok (some (maxInt v vs))

/-- Lines 36-42 of storage/registry.py. -/
def getVersion (root : Str) (fs : FS) (name : Str) (version : Int) :
    Except StoreErr (Option (RType × Int)) :=
  match fs.read (filePath root name version) with
  | .error .fileNotFound => .ok none
  | .error e => .error e
  | .ok v =>
    match parse v with
    | .error e => .error (.py e)
    | .ok t => .ok (some (t, version))

/-- `get(name, version)` (storage/registry.py 23-42). -/
def get (root : Str) (fs : FS) (name : Str) (version : Option Int) :
    Except StoreErr (Option (RType × Int)) :=
  match version with
  | some v => getVersion root fs name v
  | none =>
    match latest root fs name with
    | .error e => .error e
    | .ok none => .ok none
    | .ok (some v) => getVersion root fs name v

/-- `ls()` (storage/registry.py 15-21).  A directory name that is not the UTF-8 quoting of a name
is outside the model. -/
def unquoteAll : List Str → Except StoreErr (List Str)
  | [] => .ok []
  | f :: fs =>
    match unquotePlus f with
    | none => .error (.py .unmodelled)
    | some n =>
      match unquoteAll fs with
      | .error e => .error e
      | .ok ns => .ok (n :: ns)

/-- `ls()` (storage/registry.py 15-21). -/
def lsNames (root : Str) (fs : FS) : Except StoreErr (List Str) :=
  match fs.ls root with
  | .error e => .error e
  | .ok files =>
    match unquoteAll files with
    | .error e => .error e
    | .ok ns => .ok (sortBy strLe ns)

/-- Lines 52-53 of storage/registry.py: the version to store under. -/
def nextVersion (root : Str) (fs : FS) (name : Str) (version : Option Int) : Except StoreErr Int :=
  match version with
  | some v => .ok v
  | none =>
    match latest root fs name with
    | .error e => .error e
    | .ok none => .ok 1
    | .ok (some v) => .ok (v + 1)

/-- `put(name, type_, version)` (storage/registry.py 44-63) after the version has been chosen and
the type written as the document `d`: the answer and the file system states that the process goes
through (lines 58-61): first with the directory made, then with the file created or emptied, and
then with the file written and closed. -/
def writeFile (root : Str) (fs : FS) (name : Str) (v : Int) (d : PyVal) :
    Except StoreErr Int × List FS :=
  match fs.mkdirs (dirPath root name) with
  | .error e => (.error e, [fs])
  | .ok made =>
    match made.save (filePath root name v) .truncated with
    | .error e => (.error e, [fs, made])
    | .ok opened =>
      match opened.save (filePath root name v) (.complete d) with
      | .error e => (.error e, [fs, made, opened])
      | .ok done => (.ok v, [fs, made, opened, done])

/-- `put(name, type_, version)` (storage/registry.py 44-63): the answer and the file system states
that the process goes through, the last of which is the state when `put` returns or raises. -/
def putStates (root : Str) (fs : FS) (name : Str) (t : RType) (version : Option Int) :
    Except StoreErr Int × List FS :=
  match nextVersion root fs name version with
  | .error e => (.error e, [fs])
  | .ok v =>
    match toDict true true t with
    | .error e => (.error (.py e), [fs])
    | .ok d => writeFile root fs name v d

/-- `put(name, type_, version)` (storage/registry.py 44-63): the answer and the file system
afterwards. -/
def put (root : Str) (fs : FS) (name : Str) (t : RType) (version : Option Int) :
    Except StoreErr Int × FS :=
  ((putStates root fs name t version).1, (putStates root fs name t version).2.getLastD fs)

/-- `RegistryStorage(storage_url)` (storage/registry.py 11-13) makes the root directory. -/
def openStorage (root : Str) (fs : FS) : Except StoreErr FS := fs.mkdirs root

end Recap
