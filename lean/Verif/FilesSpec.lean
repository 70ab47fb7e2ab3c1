import Verif.SettingsSpec
import Verif.Clients

/-!
# Which file is read (C153)

What paths and `file:` URLs name (POSIX 4.13, RFC 8089).  Of the model only the result of `reading` is used: `.file path f`
says that the text of `Path(path)` is read as a schema in the format `f`.
-/

set_option autoImplicit false

namespace Recap.Files

open Recap.Url Recap.Url.Spec Recap.Clients

/-- A place in the file system: whether it is absolute, and the names on the way.  `..` is left to the operating system. -/
def place (path : Chars) : Bool × List Chars := (path.head? == some '/', segments path)

/-- The extensions of the files of a format, in lower case. -/
def extensions : FileFormat → List String
  | .avro => ["avsc", "avro", "avdl", "avpr"]
  | .json => ["json", "jsonschema", "jsons"]
  | .protobuf => ["proto", "protobuf", "protos", "proto3", "proto2"]

/-- The last name on the path is `stem.extension`, and the extension is one of the format, in lower or upper case. -/
def HasFormat (path : Chars) (f : FileFormat) : Prop :=
  ∃ dir stem ext, segments path = dir ++ [stem ++ '.' :: ext] ∧ stem ≠ [] ∧ ext.all isAscii = true ∧
    String.ofList (ext.map Char.toLower) ∈ extensions f

/-- `ReadsFile r place f`: what is done is to read the file at this place of the local file system as a schema in this
format. -/
def ReadsFile (r : Except PyErr (Client × Dict × Source)) (at_ : Bool × List Chars) (f : FileFormat) : Prop :=
  ∃ p, r = .ok (.filesystem, [("scheme", .str "file")], .file p f) ∧ place p = at_

/-- **C153** for paths: the file that is read for a path is the one at that path. -/
def PathsNamed (env : Env) : Prop :=
  ∀ (mysqlArgs : List String) (path : Chars) (f : FileFormat), HasFormat path f →
    ReadsFile (reading env mysqlArgs [] path false) (place path) f

/-- The place that a `file:` URL names: the host is this one, and percent escapes are decoded. -/
def UrlNames (env : Env) (u : Parts) (at_ : Bool × List Chars) : Prop :=
  u.scheme = "file".toList ∧ (u.host = .name [] ∨ u.host = .name "localhost".toList) ∧
    at_ = (true, (segments u.path).map (unquote env))

/-- **C153** for URLs: the file that is read for a `file:` URL is the one that it names. -/
def UrlsNamed (env : Env) : Prop :=
  ∀ (mysqlArgs : List String) (u : Parts) (f : FileFormat) (at_ : Bool × List Chars), Url.Spec.WellFormed env u →
    UrlNames env u at_ → HasFormat u.path f → ReadsFile (reading env mysqlArgs [] (render u) false) at_ f

/-- The path is absolute, and has no character that would end the path of a URL or that URLs cannot have. -/
structure Ordinary (path : Chars) : Prop where
  start : path.head? = some '/'
  single : path.take 2 ≠ ['/', '/']
  chars : ∀ c ∈ path, c ≠ '?' ∧ c ≠ '#' ∧ Quiet c

end Recap.Files
