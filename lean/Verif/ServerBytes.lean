import Verif.Server
import Verif.JsonText

/-!
# The bodies of requests

Model of lines 99-107 of `recap/server/registry.py`: how the bytes of a request become a `Body`.
-/

set_option autoImplicit false

namespace Recap

open JsonText (Floats)

/-- `type_bytes.decode("utf-8")` and `json.loads(type_str)`, or the text itself after a
`JSONDecodeError` (server/registry.py 99-107); `none` for JSON texts of values outside the model. -/
def bodyOf (F : Floats) (b : List UInt8) : Option Body :=
  match utf8Decode b with
  | none => some .notUtf8
  | some s =>
    match JsonText.loads F s with
    | .ok v => some (.json v)
    | .error .decode => some (.text (String.ofList s))
    | .error _ => none

/-- `POST /registry/{name}` with these bytes (server/registry.py 61-69). -/
def postBytes (F : Floats) (root : Str) (fs : FS) (name : Str) (contentType : Option Str) (b : List UInt8) :
    Option (Response × FS) :=
  (bodyOf F b).map fun body => serve root fs (.post name contentType body)

/-- `PUT /registry/{name}/versions/{version}` with these bytes (server/registry.py 72-87). -/
def putBytes (F : Floats) (root : Str) (fs : FS) (name : Str) (version : Int) (contentType : Option Str)
    (b : List UInt8) : Option (Response × FS) :=
  (bodyOf F b).map fun body => serve root fs (.put name version contentType body)

end Recap
