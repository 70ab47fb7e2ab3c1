import Verif.ProtoDataSpec

/-!
# Which values the type has that is read from a Protobuf file (C139)

Nothing here uses the converter, apart from the statement of the property.
-/

set_option autoImplicit false

namespace Recap.ProtoData

open Protobuf (Elem Card)
open Protobuf.Spec (scalar firstMessage RefersTo Within)
open AvroData (HoldsIn)
open Values (Val)

/-- **C139**: every value of the type that is read is a datum of the first message. -/
def OnlyMessagesHeld : Prop :=
  ∀ (ns : String) (file : List Elem) (t : RType) (c : Protobuf.Converter) (x : Val),
    Protobuf.toRecap (Protobuf.newConverter ns) file = .ok (t, c) → HoldsIn c.registry t x → Root file x

/-- The data of the types that are part of Protobuf, with strings and bytes of one byte more and only the points in
time that are less than 2 ^ 63 nanoseconds away from 1970. -/
inductive NearScalar : String → Val → Prop
  | scalar {s x} : Scalar s x → Near x → NearScalar s x
  | string {s : String} : s.utf8ByteSize = 2147483648 → NearScalar "string" (.str s)
  | bytes : NearScalar "bytes" (.bytes 2147483648)

mutual
/-- `NearDatum file scope s x`: `x` is nearly a datum of the type that is called `s` in the scope: a datum apart from
`NearScalar`, and from repeated fields and map fields that are null. -/
inductive NearDatum (file : List Elem) : List (List Elem) → String → Val → Prop
  | scalar {scope s x} : NearScalar s x → NearDatum file scope s x
  | other {scope s e scope' x} : scalar s = .none → Finds file scope s e scope' → NearDeclared file scope' e x →
      NearDatum file scope s x
/-- The same of a message or an enum. -/
inductive NearDeclared (file : List Elem) : List (List Elem) → Elem → Val → Prop
  | enum {scope n values s k} : (.str s, k) ∈ values → NearDeclared file scope (.enum n values) (.str s)
  | message {scope n es xs} : (fields es).length = xs.length →
      (∀ (i : Nat) e x, (fields es)[i]? = some e → xs[i]? = some x → NearElement file (es :: scope) e x) →
      NearDeclared file scope (.message n es) (.struct xs)
/-- The same of a field, a map field or a oneof. -/
inductive NearElement (file : List Elem) : List (List Elem) → Elem → Val → Prop
  | value {scope name k s card x} : card ≠ some .repeated → NearDatum file scope s x →
      NearElement file scope (.field name k s card) x
  | absent {scope name k s card} : card ≠ some .required → NearElement file scope (.field name k s card) .null
  | repeated {scope name k s xs} : (∀ x ∈ xs, NearDatum file scope s x) →
      NearElement file scope (.field name k s (some .repeated)) (.list xs)
  | noMap {scope name k key value} : NearElement file scope (.mapField name k key value) .null
  | map {scope name k key value} {ps : List (Val × Val)} : (∀ p ∈ ps, NearDatum file scope key (Prod.fst p)) →
      (∀ p ∈ ps, NearDatum file scope value (Prod.snd p)) → NearElement file scope (.mapField name k key value) (.map ps)
  | unset {scope name es} : NearElement file scope (.oneof name es) .null
  | oneof {scope name es m k s card x} : .field m k s card ∈ es → NearDatum file scope s x →
      NearElement file scope (.oneof name es) x
end

/-- Nearly a datum of the first message. -/
def NearRoot (file : List Elem) (x : Val) : Prop :=
  ∃ n es, firstMessage file = some (n, es) ∧ NearDeclared file [file] (.message n es) x

/-- Every name that a message uses means something there. -/
def Meaningful (file : List Elem) : Prop :=
  ∀ es rest s, Scope file (es :: rest) → RefersTo es s → scalar s = .none → ∃ e scope', Finds file (es :: rest) s e scope'

/-- All strings and bytes in the value are smaller than 2 GiB. -/
def Small (x : Val) : Prop :=
  (∀ s : String, Part (.str s) x → s.utf8ByteSize < 2147483648) ∧ ∀ n, Part (.bytes n) x → n < 2147483648

/-- Nothing in the value is null. -/
def Filled (x : Val) : Prop := ¬Part .null x

/-- No message has a repeated field or a map field. -/
def Single (file : List Elem) : Prop :=
  ∀ e, Within e file → (∀ name k s card, e = .field name k s card → card ≠ some .repeated) ∧
    ∀ name k key value, e ≠ .mapField name k key value

end Recap.ProtoData
