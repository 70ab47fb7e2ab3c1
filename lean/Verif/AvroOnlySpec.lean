import Verif.AvroDataSpec

/-!
# Which values of a type that is read are data of the Avro schema (C136)

The data of a schema and the values of a type are those of C128.
-/

set_option autoImplicit false

namespace Recap.AvroData

open Values (Val)

/-- **C136**: every value of what is read of an accepted schema is a datum of the schema, with the
definitions in it. -/
def OnlyDataHeld : Prop :=
  ∀ (v : PyVal) (ns : Option String) (reg reg' : Registry) (t : RType) (env : Env) (x : Val),
    (∀ s ns' w, Defines ns v s ns' w → lookup env s = some (ns', w)) →
    Avro.toRecap v ns reg = .ok (t, reg') → HoldsIn reg' t x → Datum env ns v x

/-- `Shorter x y`: `x` is `y`, except that the byte strings in it may have fewer bytes. -/
inductive Shorter : Val → Val → Prop
  | same {x} : Shorter x x
  | bytes {m n} : m ≤ n → Shorter (.bytes m) (.bytes n)
  | list {xs ys} : xs.length = ys.length →
      (∀ (i : Nat) x y, xs[i]? = some x → ys[i]? = some y → Shorter x y) → Shorter (.list xs) (.list ys)
  | map {ps qs : List (Val × Val)} : ps.map Prod.fst = qs.map Prod.fst →
      (∀ (i : Nat) p q, ps[i]? = some p → qs[i]? = some q → Shorter (Prod.snd p) (Prod.snd q)) →
      Shorter (.map ps) (.map qs)
  | struct {xs ys} : xs.length = ys.length →
      (∀ (i : Nat) x y, xs[i]? = some x → ys[i]? = some y → Shorter x y) → Shorter (.struct xs) (.struct ys)

/-- No schema inside is `fixed`, unless a logical type applies to it. -/
def NoFixed (ns : Option String) (v : PyVal) : Prop :=
  ∀ ns' d, Inside ns v ns' (.dict d) → Is d "fixed" → ¬Unannotated d

end Recap.AvroData
