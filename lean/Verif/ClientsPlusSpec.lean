import Verif.ClientsSpec

/-!
# Specification of the clients for Hive and for the Confluent registry (C151)
-/

set_option autoImplicit false

namespace Recap.Clients.Spec

open Recap.Url Recap.Url.Spec

/-- The parameters that a query could replace, with the URL itself. -/
def reservedPlus : List String := "url" :: "dialect" :: reserved

/-- Two ways to a registry. -/
def RegistryScheme (scheme web : Chars) : Prop :=
  (scheme = "http+csr".toList ∧ web = "http".toList) ∨ (scheme = "https+csr".toList ∧ web = "https".toList)

/-- What follows the scheme in the URL. -/
def afterScheme (u : Parts) : Chars :=
  netlocText u ++ u.path ++ (if u.query = [] then [] else '?' :: u.query) ++
    (if u.fragment = [] then [] else '#' :: u.fragment)

/-- The URL of the registry itself. -/
def webUrl (u : Parts) (web : Chars) : Parts := { u with scheme := web }

/-- The rest of the URL does not contain `+csr://`. -/
def NoMarker (u : Parts) : Prop := ∀ a b, afterScheme u ≠ a ++ "+csr://".toList ++ b

end Recap.Clients.Spec
