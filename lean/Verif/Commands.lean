import Verif.Clients
import Verif.JsonSchema
import Verif.Avro
import Verif.Protobuf

/-!
# The commands and the HTTP gateway

Model of `recap/commands.py` and `recap/server/gateway.py`.

What the systems behind the clients answer is a parameter: for each listing the children, for each
schema the type that the converter of the client made of it, with the registry of that converter.
What is simplified:
* the text of a Protobuf file is not modelled, the elements of the file stand for it;
* the path parameter of a request is given as the handler sees it, after FastAPI has decoded it;
* an exception that is not an `HTTPException` gives status 500, as FastAPI does by default.
-/

set_option autoImplicit false

namespace Recap.Commands

open Recap.Url Recap.Clients

/-- `SchemaFormat` (commands.py 9-17). -/
inductive Format where
  | avro | json | protobuf | recap
deriving DecidableEq, Repr

/-- `FORMAT_MAP` (commands.py 20-25). -/
def formatMap : List (String × Format) :=
  [("application/schema+json", .json), ("application/avro+json", .avro),
    ("application/x-protobuf", .protobuf), ("application/x-recap+json", .recap)]

/-- A schema in some format: a dictionary, or a Protobuf file. -/
inductive Output where
  | dict (d : Dict)
  | file (es : List Protobuf.Elem)

/-- The conversion of the type that a client returned (commands.py 61-91); `live` is the registry that
its references use. -/
def convert (live : Registry) (t : RType) (f : Format) : Except PyErr Output :=
  match f with
  | .avro => do
    let d ← Avro.fromRecap live t
    pure (.dict d)
  | .json => do
    let d ← Json.fromRecap live t
    pure (.dict d)
  | .protobuf => do
    let es ← Protobuf.fromRecap t
    pure (.file es)
  | .recap => do
    match ← toDict true true t with
    | .dict d => pure (.dict d)
    | _ => .error .valueError

/-- What the systems answer to a client with these arguments for its driver: the children for a
listing, the type for a schema. -/
structure World where
  children : Client → Dict → Listing → Except PyErr (List Chars)
  type : Client → Dict → Source → Except PyErr (RType × Registry)

/-- Recap with its settings: the parameters of MySQL's `connect`, the configured URLs, and the systems. -/
structure System where
  env : Env
  mysqlArgs : List String
  urls : List Chars
  world : World

/-- `commands.ls(url, strict)` (commands.py 28-41). -/
def ls (s : System) (url : Option Chars) (strict : Bool) : Except PyErr (List Chars) :=
  match url with
  | .none | some [] => safeUrls s.env s.urls
  | some url => do
    let (c, kwargs, l) ← listing s.env s.mysqlArgs s.urls url strict
    s.world.children c kwargs l

/-- `commands.schema(url, format, strict)` (commands.py 44-91). -/
def schema (s : System) (url : Chars) (f : Format) (strict : Bool) : Except PyErr Output := do
  let (c, kwargs, src) ← reading s.env s.mysqlArgs s.urls url strict
  let (t, live) ← s.world.type c kwargs src
  convert live t f

/-- The answer to a request. -/
inductive Response (α : Type) where
  | ok (body : α)
  | failed (status : Nat)

/-- The answer of a handler that returns or raises. -/
def respond {α : Type} : Except PyErr α → Response α
  | .ok a => .ok a
  | .error _ => .failed 500

/-- `GET /gateway/ls/{url}` (gateway.py 8-17); `commands.ls` never returns `None`. -/
def getLs (s : System) (url : Chars) : Response (List Chars) := respond (ls s (some url) true)

/-- The content type of a request, or the default (gateway.py 26). -/
def contentType (header : Option String) : String :=
  match header with
  | some h => if h = "" then "application/x-recap+json" else h
  | .none => "application/x-recap+json"

/-- `GET /gateway/schema/{url}` (gateway.py 20-33). -/
def getSchema (s : System) (url : Chars) (header : Option String) : Response Output :=
  match formatMap.lookup (contentType header) with
  | some f => respond (schema s url f true)
  | .none => .failed 415

/-- `recap ls` (cli.py 11-18): what is printed, if anything. -/
def cliLs (s : System) (url : Option Chars) : Except PyErr (Option (List Chars)) := do
  let children ← ls s url false
  pure (if children = [] then .none else some children)

/-- `recap schema` (cli.py 21-41). -/
def cliSchema (s : System) (url : Chars) (f : Format) : Except PyErr Output := schema s url f false

end Recap.Commands
