import Verif.JsonDataSpec
import Verif.JsonSchema

/-!
# References in JSON Schemas that are read (C130, C144)
-/

set_option autoImplicit false

namespace Recap.JsonData

open Avro.Spec (IntValue)
open Values (Fits)
open Json.Spec (nameOf Inside IsReference Builtin)

/-- The schema is the document, or a schema in it: of the elements of a list, of a property, or an alternative. -/
inductive Part : PyVal → PyVal → Prop
  | refl {v} : Part v v
  | items {d s v} : Dict.get? d "items" = some s → Part v s → Part v (.dict d)
  | property {d ps n s v} : Dict.get? d "properties" = some (.dict ps) → (n, s) ∈ ps → Part v s → Part v (.dict d)
  | alternative {d xs s v} : Dict.get? d "type" = some (.list xs) → s ∈ xs → Part v s → Part v (.dict d)

/-- Two identifiers are the same apart from `#` at the end. -/
def SameId (a b : String) : Prop :=
  ∃ (c : List Char) (m n : Nat), a.toList = c ++ List.replicate m '#' ∧ b.toList = c ++ List.replicate n '#'

/-- A reference is to the schema in the document that has this identifier. -/
def Located (refs : String → PyVal → Prop) (v : PyVal) : Prop :=
  ∀ d id urn, Part (.dict d) v → Dict.get? d "$id" = some (.str id) → SameId id urn →
    ∀ j, refs urn j ↔ Valid refs (.dict d) j

/-- `CarriesIn root t j`: the JSON value is one of the type, where a reference stands for a type in `root` that has its
alias and is not itself a reference.  Fields that have a default can be left out. -/
inductive CarriesIn (root : RType) : RType → PyVal → Prop
  | null {a} : CarriesIn root (.null a) .none
  | bool {a b} : CarriesIn root (.bool a) (.bool b)
  | int {n : Int} {s : Bool} {i a} : IntValue n.toNat s i → CarriesIn root (.int (.int n) (.bool s) a) (.int i)
  | point {n : Int} {s : Bool} {i e a} : IntValue n.toNat s i →
      CarriesIn root (.int (.int n) (.bool s) a) (.float (i * 2 ^ e) e)
  | float {n m e a} : Significant (digits n) m → CarriesIn root (.float (.int n) a) (.float m e)
  | whole {n a i} : Significant (digits n) i → CarriesIn root (.float (.int n) a) (.int i)
  | string {l v s a} : Fits l s.utf8ByteSize → CarriesIn root (.string l v a) (.str s)
  | bytes {l v s a} : CarriesIn root (.bytes l v a) (.str s)
  | enum {xs s a} : .str s ∈ xs → CarriesIn root (.enum (.list xs) a) (.str s)
  | list {t v vs a} : (∀ x ∈ vs, CarriesIn root t x) → CarriesIn root (.list t .none v a) (.list vs)
  | map {k v a} {o : Dict} : (∀ kv ∈ o, CarriesIn root k (.str (Prod.fst kv))) →
      (∀ kv ∈ o, CarriesIn root v (Prod.snd kv)) → CarriesIn root (.map k v a) (.dict o)
  | struct {fs a} {o : Dict} : (∀ f ∈ fs, ∃ n, nameOf f = some (.str n)) →
      (∀ f ∈ fs, ∀ n v, nameOf f = some (.str n) → Dict.get? o n = some v → CarriesIn root f v) →
      (∀ f ∈ fs, ∀ n, nameOf f = some (.str n) → Dict.get? o n = .none → "default" ∈ Dict.keys f.attrs.extra) →
      CarriesIn root (.struct fs a) (.dict o)
  | union {ts t j a} : t ∈ ts → CarriesIn root t j → CarriesIn root (.union ts a) j
  | reference {r a u j} : Inside u root → ¬IsReference u → u.attrs.alias = a.alias → CarriesIn root u j →
      CarriesIn root (.proxy r a) j

/-- **C144**: every reference in the type that a new converter reads from a schema resolves. -/
def ReferencesResolve (env : Url.Env) : Prop :=
  ∀ (v : PyVal) (t : RType) (ids' : Json.Ids), Json.toRecap env v [] = .ok (t, ids') →
    ∀ r a, Inside (.proxy r a) t → ∃ u, resolve newRegistry r a = .ok u

end Recap.JsonData
