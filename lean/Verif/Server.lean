import Verif.Storage

/-!
# Model of `recap/server/registry.py`

The HTTP handlers of the schema registry.  Simplifications:

* A request has been routed: its name has at least one character and no `/` (`{name:str}`), its
  version is not negative (`{version:int}`).  The theorems hold for other names and versions too.
* JSON texts are the values they encode: a body is bytes that are not UTF-8, a JSON text, or a text
  that is not JSON.
* Error responses are their status codes; an exception that no handler catches is a 500.
* The settings are constant, so that all requests use the same storage URL.
-/

set_option autoImplicit false

namespace Recap

/-- The body of a request. -/
inductive Body where
  | json (v : PyVal)
  | text (s : String)
  | notUtf8
deriving DecidableEq, Repr

/-- The requests of the registry API. -/
inductive Request where
  | ls
  | latest (name : Str)
  | versions (name : Str)
  | version (name : Str) (version : Int)
  | post (name : Str) (contentType : Option Str) (body : Body)
  | put (name : Str) (version : Int) (contentType : Option Str) (body : Body)
deriving DecidableEq, Repr

/-- Responses: JSON bodies with status 200, and other status codes. -/
inductive Response where
  | names (l : List Str)
  | schema (d : PyVal) (version : Int)
  | versions (l : List Int)
  | stored (version : Int)
  | status (code : Nat)
deriving DecidableEq, Repr

/-- `"application/x-recap+json"` (server/registry.py 91). -/
def recapContentType : Str := "application/x-recap+json".toList

/-- Lines 91-97 of server/registry.py: the content type is missing, empty, or the one of Recap. -/
def contentTypeOK (contentType : Option Str) : Bool :=
  match contentType with
  | none => true
  | some [] => true
  | some c => c == recapContentType

/-- Lines 99-115 of server/registry.py: the type in a body, or the status of the error response. -/
def bodyToType : Body → Except Nat RType
  | .notUtf8 => .error 500
  | .json v => match parse v with
    | .ok t => .ok t
    | .error _ => .error 400
  | .text s => match parse (.str s) with
    | .ok t => .ok t
    | .error _ => .error 400

/-- `_request_to_type(request)` (server/registry.py 90-115). -/
def requestToType (contentType : Option Str) (body : Body) : Except Nat RType :=
  if contentTypeOK contentType then bodyToType body else .error 415

/-- The response to `storage.get(…)` (server/registry.py 30-34, 54-58). -/
def schemaResponse : Except StoreErr (Option (RType × Int)) → Response
  | .error _ => .status 500
  | .ok none => .status 404
  | .ok (some (t, version)) =>
    match toDict true true t with
    | .error _ => .status 500
    | .ok d => .schema d version

/-- Reading the body and storing the type (server/registry.py 67-69, 85-87). -/
def storeBody (root : Str) (fs : FS) (name : Str) (version : Option Int) (contentType : Option Str)
    (body : Body) : Response × FS :=
  match requestToType contentType body with
  | .error code => (.status code, fs)
  | .ok t =>
    match put root fs name t version with
    | (.error _, fs') => (.status 500, fs')
    | (.ok v, fs') => (.stored v, fs')

/-- `if storage.get(name, version): raise HTTPException(409)` (server/registry.py 79-83): the error
response, or `none` to go on. -/
def putCheck (root : Str) (fs : FS) (name : Str) (version : Int) : Option Response :=
  match get root fs name (some version) with
  | .error _ => some (.status 500)
  | .ok (some _) => some (.status 409)
  | .ok none => none

/-- A request that is handled without interruption (server/registry.py 20-87). -/
def handle (root : Str) (fs : FS) : Request → Response × FS
  | .ls => (match lsNames root fs with
    | .error _ => .status 500
    | .ok l => .names l, fs)
  | .latest name => (schemaResponse (get root fs name none), fs)
  | .versions name => (match versions root fs name with
    | .error _ => .status 500
    | .ok none => .status 404
    | .ok (some []) => .status 404
    | .ok (some (v :: vs)) => .versions (v :: vs), fs)
  | .version name v => (schemaResponse (get root fs name (some v)), fs)
  | .post name contentType body => storeBody root fs name none contentType body
  | .put name version contentType body =>
    match putCheck root fs name version with
    | some r => (r, fs)
    | none => storeBody root fs name (some version) contentType body

/-- Every request first makes a `RegistryStorage` (server/registry.py 13-17), which makes the root
directory. -/
def serve (root : Str) (fs : FS) (r : Request) : Response × FS :=
  match openStorage root fs with
  | .error _ => (.status 500, fs)
  | .ok fs1 => handle root fs1 r

/-- Requests that are handled one after another. -/
def serveAll (root : Str) (fs : FS) : List Request → List Response × FS
  | [] => ([], fs)
  | r :: rs =>
    let a := serve root fs r
    let as := serveAll root a.2 rs
    (a.1 :: as.1, as.2)

/-! ## Concurrent requests

A handler runs without interruption up to its next `await`.  The only `await` that can suspend a
handler is the one for the body (server/registry.py 99): a `POST` has no effect before it, a `PUT`
has checked that the version does not exist. -/

/-- A request that is being handled. -/
inductive Handling where
  /-- not started -/
  | waiting (r : Request)
  /-- a `PUT` that has found that the version does not exist, and waits for the body -/
  | checked (name : Str) (version : Int) (contentType : Option Str) (body : Body)
  /-- answered -/
  | done (r : Request) (response : Response)
deriving DecidableEq

/-- A handler runs up to its next `await`. -/
def Handling.step (root : Str) (fs : FS) : Handling → Handling × FS
  | .waiting (.put name version contentType body) =>
    match openStorage root fs with
    | .error _ => (.done (.put name version contentType body) (.status 500), fs)
    | .ok fs1 =>
      match putCheck root fs1 name version with
      | some r => (.done (.put name version contentType body) r, fs1)
      | none => (.checked name version contentType body, fs1)
  | .waiting r => (.done r (serve root fs r).1, (serve root fs r).2)
  | .checked name version contentType body =>
    (.done (.put name version contentType body)
      (storeBody root fs name (some version) contentType body).1,
      (storeBody root fs name (some version) contentType body).2)
  | .done r response => (.done r response, fs)

/-- The event loop lets one task after another run, in the order of `schedule`. -/
def runHandlers (root : Str) (fs : FS) (tasks : List Handling) : List Nat → List Handling × FS
  | [] => (tasks, fs)
  | i :: schedule =>
    match tasks[i]? with
    | none => runHandlers root fs tasks schedule
    | some task =>
      let a := task.step root fs
      runHandlers root a.2 (tasks.set i a.1) schedule

end Recap
