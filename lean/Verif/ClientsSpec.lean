import Verif.SettingsSpec
import Verif.Py

/-!
# Specification of the clients

What a URL for a database says, and what it means that a driver is asked to connect there.
-/

set_option autoImplicit false

namespace Recap.Clients.Spec

open Recap.Url Recap.Url.Spec

/-- The names on a path, which lead from the catalog to the table. -/
def pieces (path : Chars) : List Chars := (splitOn '/' path).filter (· ≠ [])

/-- The query gives no value to any of these parameters. -/
def Silent (env : Env) (names : List String) (query : Chars) : Prop :=
  ∀ n ∈ names, param (parseQs env query) n.toList = .none

instance (env : Env) (names : List String) (query : Chars) : Decidable (Silent env names query) :=
  inferInstanceAs (Decidable (∀ n ∈ names, _))

/-- The URL of the database itself: only the first name on the path. -/
def databaseUrl (u : Parts) : Parts :=
  { u with path := match pieces u.path with | [] => [] | a :: _ => '/' :: a }

/-- The configured URL whose credentials are used: the first one with a path that covers the
URL. -/
def chosen (cs : List Parts) (u : Parts) : Option Parts :=
  cs.find? (fun c => decide (c.path ≠ [] ∧ Covers c u))

/-- The credentials that are used. -/
def credentials (cs : List Parts) (u : Parts) : Option (Chars × Option Chars) :=
  match chosen cs u with
  | some c => c.user
  | .none => u.user

/-- A text as a value of a driver's argument. -/
def text (s : Chars) : PyVal := .str (String.ofList s)

/-- The driver is given this host under this key. -/
def GivenHost (kwargs : Dict) (key : String) (h : Host) : Prop :=
  Dict.get? kwargs key = some (text (lowerHost h).text)

/-- The driver is given this port, or `None`. -/
def GivenPort (kwargs : Dict) (p : Option Nat) : Prop :=
  Dict.get? kwargs "port" = some (match p with | some n => .int n | .none => .none)

/-- The driver is given these credentials and no others: a user name unless it is empty, and a
password or `None`. -/
def GivenCredentials (kwargs : Dict) (c : Option (Chars × Option Chars)) : Prop :=
  (Dict.get? kwargs "user" = match c with
    | some (u, _) => if u = [] then .none else some (text u)
    | .none => .none) ∧
  Dict.get? kwargs "password" = some (match c with
    | some (_, some w) => text w
    | _ => .none)

/-- The driver is given this database under this key; nothing when the path is empty. -/
def GivenDatabase (kwargs : Dict) (key : String) (path : Chars) : Prop :=
  ∀ a ∈ (pieces path).head?, Dict.get? kwargs key = some (text a)

/-- The parameters that recap reads from the URL itself and that a query could replace. -/
def reserved : List String :=
  ["scheme", "netloc", "params", "query", "fragment", "paths", "method", "host", "port", "user",
    "password", "account"]

end Recap.Clients.Spec
