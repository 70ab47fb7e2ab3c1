import Verif.Storage
import Verif.JsonTextBytes

/-!
# Model of `recap/storage/registry.py` with the bytes of files

The storage of `Verif/Storage.lean` again, but files hold bytes: `put` writes the JSON text of the
document byte after byte, and `get` reads whatever bytes there are.  `enc` is the encoding of text
files (`open(path, "w")` uses the one of the platform), `F` how floats are written and read.
-/

set_option autoImplicit false

namespace Recap.Bytes

open Recap (Str Place StoreErr RType locate dirPath filePath parseVersions unquoteAll sortBy strLe maxInt)
open JsonText (Floats)

/-- A directory or a file with its bytes. -/
inductive Node where
  | dir
  | file (b : List UInt8)
deriving DecidableEq, Repr, Inhabited

/-- The directories and files that exist; the top directory `[]` always does. -/
abbrev Disk := List (Place × Node)

namespace Disk

/-- What is at a place. -/
def at? (fs : Disk) (p : Place) : Option Node :=
  match p with
  | [] => some .dir
  | p => match fs with
    | [] => none
    | (q, n) :: rest => if q = p then some n else at? rest p

/-- Put a node at a place, replacing what is there. -/
def write (fs : Disk) (p : Place) (n : Node) : Disk :=
  match fs with
  | [] => [(p, n)]
  | (q, m) :: rest => if q = p then (p, n) :: rest else (q, m) :: write rest p n

/-- The names in a directory, in the order of `os.scandir` (no particular order). -/
def names (fs : Disk) (p : Place) : List Str := fs.filterMap (fun qn => FS.nameIn p qn.1)

/-- The exception for a missing place: `NotADirectoryError` if a part of the path is a file. -/
def missing (fs : Disk) (acc : Place) : List Str → StoreErr
  | [] => .fileNotFound
  | p :: ps =>
    match at? fs (acc ++ [p]) with
    | some (.file _) => .notADirectory
    | _ => missing fs (acc ++ [p]) ps

/-- `fs.ls(path)`. -/
def ls (fs : Disk) (path : Str) : Except StoreErr (List Str) :=
  match at? fs (locate path) with
  | some .dir => .ok (names fs (locate path))
  | some (.file _) => .ok [(locate path).getLastD []]
  | none => .error (missing fs [] (locate path))

/-- `os.makedirs(path, exist_ok=True)` from the top down: `acc` exists already. -/
def makeDirs (fs : Disk) (acc : Place) : List Str → Except StoreErr Disk
  | [] => .ok fs
  | p :: ps =>
    match at? fs (acc ++ [p]) with
    | some .dir => makeDirs fs (acc ++ [p]) ps
    | some (.file _) => .error (if ps.isEmpty then .fileExists else .notADirectory)
    | none => makeDirs (write fs (acc ++ [p]) .dir) (acc ++ [p]) ps

/-- `fs.mkdirs(path, exist_ok=True)`. -/
def mkdirs (fs : Disk) (path : Str) : Except StoreErr Disk := makeDirs fs [] (locate path)

/-- `json.load` of the bytes of a file (storage/registry.py 38).  Bytes in other encodings than
UTF-8 are outside the model. -/
def document (F : Floats) (b : List UInt8) : Except StoreErr PyVal :=
  match JsonText.loadBytes F b with
  | .ok v => .ok v
  | .error .decode => .error .jsonDecode
  | .error _ => .error (.py .unmodelled)

/-- `fs.open(path)` for reading, and `json.load` (storage/registry.py 37-38). -/
def read (F : Floats) (fs : Disk) (path : Str) : Except StoreErr PyVal :=
  match at? fs (locate path) with
  | some (.file b) => document F b
  | some .dir => .error .isADirectory
  | none => .error (missing fs [] (locate path))

/-- `fs.open(path, "w")` (storage/registry.py 60) creates the file or empties it. -/
def openFile (fs : Disk) (path : Str) : Except StoreErr Disk :=
  match at? fs (locate path) with
  | some .dir => .error .isADirectory
  | some (.file _) => .ok (write fs (locate path) (.file []))
  | none =>
    match at? fs (locate path).dropLast with
    | some .dir => .ok (write fs (locate path) (.file []))
    | _ => .error (missing fs [] (locate path))

end Disk

/-- `versions(name)` (storage/registry.py 65-77). -/
def versions (root : Str) (fs : Disk) (name : Str) : Except StoreErr (Option (List Int)) :=
  match fs.ls (dirPath root name) with
  | .error .fileNotFound => .ok none
  | .error e => .error e
  | .ok files =>
    match parseVersions files with
    | .error e => .error e
    | .ok vs => .ok (some (sortBy (fun a b => decide (a ≤ b)) vs))

/-- `latest(name)` (storage/registry.py 79-83). -/
def latest (root : Str) (fs : Disk) (name : Str) : Except StoreErr (Option Int) :=
  match versions root fs name with
  | .error e => .error e
  | .ok none => .ok none
  | .ok (some []) => .ok none
  | .ok (some (v :: vs)) => .ok (some (maxInt v vs))

/-- Lines 36-42 of storage/registry.py. -/
def getVersion (F : Floats) (root : Str) (fs : Disk) (name : Str) (version : Int) :
    Except StoreErr (Option (RType × Int)) :=
  match fs.read F (filePath root name version) with
  | .error .fileNotFound => .ok none
  | .error e => .error e
  | .ok v =>
    match parse v with
    | .error e => .error (.py e)
    | .ok t => .ok (some (t, version))

/-- `get(name, version)` (storage/registry.py 23-42). -/
def get (F : Floats) (root : Str) (fs : Disk) (name : Str) (version : Option Int) :
    Except StoreErr (Option (RType × Int)) :=
  match version with
  | some v => getVersion F root fs name v
  | none =>
    match latest root fs name with
    | .error e => .error e
    | .ok none => .ok none
    | .ok (some v) => getVersion F root fs name v

/-- `ls()` (storage/registry.py 15-21). -/
def lsNames (root : Str) (fs : Disk) : Except StoreErr (List Str) :=
  match fs.ls root with
  | .error e => .error e
  | .ok files =>
    match unquoteAll files with
    | .error e => .error e
    | .ok ns => .ok (sortBy strLe ns)

/-- Lines 52-53 of storage/registry.py: the version to store under. -/
def nextVersion (root : Str) (fs : Disk) (name : Str) (version : Option Int) : Except StoreErr Int :=
  match version with
  | some v => .ok v
  | none =>
    match latest root fs name with
    | .error e => .error e
    | .ok none => .ok 1
    | .ok (some v) => .ok (v + 1)

/-- The bytes that `json.dump(type_dict, f)` writes (storage/registry.py 61). -/
def fileBytes (F : Floats) (enc : Char → List UInt8) (d : PyVal) : List UInt8 :=
  JsonText.encode enc (JsonText.dumps F .default d)

/-- The states of the file system while the document `d` is written (storage/registry.py 58-61):
before, with the directory made, with the file created or emptied, and with one byte more each. -/
def writeFile (F : Floats) (enc : Char → List UInt8) (root : Str) (fs : Disk) (name : Str) (v : Int) (d : PyVal) :
    Except StoreErr Int × List Disk :=
  match fs.mkdirs (dirPath root name) with
  | .error e => (.error e, [fs])
  | .ok made =>
    match made.openFile (filePath root name v) with
    | .error e => (.error e, [fs, made])
    | .ok opened => (.ok v, fs :: made :: (List.range ((fileBytes F enc d).length + 1)).map fun n =>
        opened.write (locate (filePath root name v)) (.file ((fileBytes F enc d).take n)))

/-- `put(name, type_, version)` (storage/registry.py 44-63): the answer and the file system states
that the process goes through, the last of which is the state when `put` returns or raises. -/
def putStates (F : Floats) (enc : Char → List UInt8) (root : Str) (fs : Disk) (name : Str) (t : RType)
    (version : Option Int) : Except StoreErr Int × List Disk :=
  match nextVersion root fs name version with
  | .error e => (.error e, [fs])
  | .ok v =>
    match toDict true true t with
    | .error e => (.error (.py e), [fs])
    | .ok d => writeFile F enc root fs name v d

/-- `put(name, type_, version)` (storage/registry.py 44-63): the answer and the file system
afterwards. -/
def put (F : Floats) (enc : Char → List UInt8) (root : Str) (fs : Disk) (name : Str) (t : RType)
    (version : Option Int) : Except StoreErr Int × Disk :=
  ((putStates F enc root fs name t version).1, (putStates F enc root fs name t version).2.getLastD fs)

/-- `RegistryStorage(storage_url)` (storage/registry.py 11-13) makes the root directory. -/
def openStorage (root : Str) (fs : Disk) : Except StoreErr Disk := fs.mkdirs root

end Recap.Bytes
