import Verif.ProtobufWritten
import Verif.AvroDataSpec

/-!
# Which data a Protobuf file describes (C133, C134, C135)

The data are taken from the language guide of Protobuf.  Nothing here uses the converter, apart from `resolve`,
which is how the user of a type finds out what a reference in it refers to.

What is simplified:
* the data of a message are listed in the order in which its fields, map fields and oneofs are declared;
* durations are no values, and neither are numbers of an enum that it does not declare;
* a field without a cardinality or an optional one can be absent, and then its datum is null; in proto3 the reader
  of a scalar field without a cardinality gets zero instead, which is a datum as well;
* a name with several parts is a full name.
-/

set_option autoImplicit false

namespace Recap.ProtoData

open Protobuf (Elem Card)
open Protobuf.Spec (Within nameOf label scalar firstMessage members Plain Nestable AllReached)
open Avro.Spec (IntValue)
open AvroData (HoldsIn)
open Values (Val CommonEra)
open Recap.Spec (children Sub)

/-! ## The data of a file -/

/-- The data of the types that are part of Protobuf.  A message, and what is in it, is smaller than 2 GiB. -/
inductive Scalar : String → Val → Prop
  | int32 {s i} : s ∈ ["int32", "sint32", "sfixed32"] → IntValue 32 true i → Scalar s (.int i)
  | int64 {s i} : s ∈ ["int64", "sint64", "sfixed64"] → IntValue 64 true i → Scalar s (.int i)
  | uint32 {s i} : s ∈ ["uint32", "fixed32"] → IntValue 32 false i → Scalar s (.int i)
  | uint64 {s i} : s ∈ ["uint64", "fixed64"] → IntValue 64 false i → Scalar s (.int i)
  | float {n} : n ≤ 32 → Scalar "float" (.float n)
  | double {n} : n ≤ 64 → Scalar "double" (.float n)
  | bool {b} : Scalar "bool" (.bool b)
  | string {s : String} : s.utf8ByteSize < 2147483648 → Scalar "string" (.str s)
  | bytes {n} : n < 2147483648 → Scalar "bytes" (.bytes n)
  | timestamp {ns} : CommonEra ns → Scalar "google.protobuf.Timestamp" (.instant ns)
  | null : Scalar "google.protobuf.NullValue" .null

/-- A scope: the elements of a message, then those of the message around it and so on, and at last those of the
file. -/
inductive Scope (file : List Elem) : List (List Elem) → Prop
  | top : Scope file [file]
  | message {n es l rest} : Scope file (l :: rest) → .message n es ∈ l → Scope file (es :: l :: rest)

/-- `Full file s e scope`: `s` is the full name of the message or enum `e`, which is in `scope`. -/
inductive Full (file : List Elem) : String → Elem → List (List Elem) → Prop
  | top {p n e} : .package p ∈ file → e ∈ file → nameOf e = some n → Full file (p ++ "." ++ n) e [file]
  | noPackage {n e} : (∀ p, .package p ∉ file) → e ∈ file → nameOf e = some n → Full file n e [file]
  | nested {s n es scope e m} : Full file s (.message n es) scope → e ∈ es → nameOf e = some m →
      Full file (s ++ "." ++ m) e (es :: scope)

/-- `Finds file scope s e scope'`: in `scope`, the name `s` means the message or enum `e`, which is in `scope'`. -/
inductive Finds (file : List Elem) : List (List Elem) → String → Elem → List (List Elem) → Prop
  /-- A simple name means what is declared in the innermost scope. -/
  | simple {inner l rest s e} : '.' ∉ s.toList → (∀ l' ∈ inner, ∀ e' ∈ l', nameOf e' ≠ some s) → e ∈ l →
      nameOf e = some s → Finds file (inner ++ l :: rest) s e (l :: rest)
  | full {scope s e scope'} : '.' ∈ s.toList → s.toList.head? ≠ some '.' → Full file s e scope' →
      Finds file scope s e scope'
  /-- A full name after a dot. -/
  | absolute {scope s e scope'} : Full file s e scope' → Finds file scope ("." ++ s) e scope'

/-- The fields, map fields and oneofs of a message. -/
def fields (es : List Elem) : List Elem := es.filter (fun e => (label e).isSome)

mutual
/-- `Datum file scope s x`: `x` is a datum of the type that is called `s` in the scope. -/
inductive Datum (file : List Elem) : List (List Elem) → String → Val → Prop
  | scalar {scope s x} : Scalar s x → Datum file scope s x
  | other {scope s e scope' x} : scalar s = .none → Finds file scope s e scope' → Declared file scope' e x →
      Datum file scope s x
/-- `Declared file scope e x`: `x` is a datum of the message or enum `e`, which is in the scope. -/
inductive Declared (file : List Elem) : List (List Elem) → Elem → Val → Prop
  | enum {scope n values s k} : (.str s, k) ∈ values → Declared file scope (.enum n values) (.str s)
  | message {scope n es xs} : (fields es).length = xs.length →
      (∀ (i : Nat) e x, (fields es)[i]? = some e → xs[i]? = some x → Element file (es :: scope) e x) →
      Declared file scope (.message n es) (.struct xs)
/-- `Element file scope e x`: `x` is what a message can have for its field, map field or oneof `e`. -/
inductive Element (file : List Elem) : List (List Elem) → Elem → Val → Prop
  | value {scope name k s card x} : card ≠ some .repeated → Datum file scope s x →
      Element file scope (.field name k s card) x
  | absent {scope name k s card} : card = .none ∨ card = some .optional →
      Element file scope (.field name k s card) .null
  | repeated {scope name k s xs} : (∀ x ∈ xs, Datum file scope s x) →
      Element file scope (.field name k s (some .repeated)) (.list xs)
  | map {scope name k key value} {ps : List (Val × Val)} : (∀ p ∈ ps, Datum file scope key (Prod.fst p)) →
      (∀ p ∈ ps, Datum file scope value (Prod.snd p)) → Element file scope (.mapField name k key value) (.map ps)
  | unset {scope name es} : Element file scope (.oneof name es) .null
  | oneof {scope name es m k s card x} : .field m k s card ∈ es → Datum file scope s x →
      Element file scope (.oneof name es) x
end

/-- A datum of the first message. -/
def Root (file : List Elem) (x : Val) : Prop :=
  ∃ n es, firstMessage file = some (n, es) ∧ Declared file [file] (.message n es) x

/-! ## The claims -/

/-- **C133**: every datum of the first message of a file that is read is a value of the type. -/
def MessagesHeld : Prop :=
  ∀ (ns : String) (file : List Elem) (t : RType) (c : Protobuf.Converter) (x : Val),
    Protobuf.toRecap (Protobuf.newConverter ns) file = .ok (t, c) → Root file x → HoldsIn c.registry t x

/-- **C134**: every value of a struct is a datum of the message that is written. -/
def ValuesWritten : Prop :=
  ∀ (live : Registry) (fs : List RType) (a : Attrs) (file : List Elem) (s : String) (x : Val),
    Protobuf.fromRecap (.struct fs a) = .ok file → a.alias = .str s → HoldsIn live (.struct fs a) x →
      Datum file [file] ("." ++ s) x

/-- **C135**: only values of a struct are data of the message that is written. -/
def OnlyValuesWritten : Prop :=
  ∀ (live : Registry) (fs : List RType) (a : Attrs) (file : List Elem) (s : String) (x : Val),
    Protobuf.fromRecap (.struct fs a) = .ok file → a.alias = .str s → Datum file [file] ("." ++ s) x →
      HoldsIn live (.struct fs a) x

/-! ## What keeps them within each other -/

/-- The value is one that the type describes, where `refs` says which values a reference has. -/
inductive HoldsWith (refs : String → Val → Prop) : RType → Val → Prop
  | leaf {t x} : children t = [] → Values.Holds t x → HoldsWith refs t x
  | list {t v vs a} : (∀ x ∈ vs, HoldsWith refs t x) → HoldsWith refs (.list t .none v a) (.list vs)
  | map {k v a} {ps : List (Val × Val)} : (∀ p ∈ ps, HoldsWith refs k (Prod.fst p)) →
      (∀ p ∈ ps, HoldsWith refs v (Prod.snd p)) → HoldsWith refs (.map k v a) (.map ps)
  | struct {fs vs a} : fs.length = vs.length →
      (∀ (i : Nat) f x, fs[i]? = some f → vs[i]? = some x → HoldsWith refs f x) →
      HoldsWith refs (.struct fs a) (.struct vs)
  | union {ts t x a} : t ∈ ts → HoldsWith refs t x → HoldsWith refs (.union ts a) x
  | reference {r a s x} : a.alias = .str s → refs s x → HoldsWith refs (.proxy r a) x

/-- The first value is the second or inside it. -/
inductive Part : Val → Val → Prop
  | refl {x} : Part x x
  | list {y x xs} : x ∈ xs → Part y x → Part y (.list xs)
  | key {y} {p : Val × Val} {ps} : p ∈ ps → Part y p.1 → Part y (.map ps)
  | value {y} {p : Val × Val} {ps} : p ∈ ps → Part y p.2 → Part y (.map ps)
  | struct {y x xs} : x ∈ xs → Part y x → Part y (.struct xs)

/-- All points in time are less than 2 ^ 63 nanoseconds away from 1970. -/
def Near (x : Val) : Prop := ∀ ns, Part (.instant ns) x → IntValue 64 true ns

/-- The names of messages and enums are identifiers, which have no dot. -/
def Identifiers (file : List Elem) : Prop := ∀ e n, Within e file → nameOf e = some n → '.' ∉ n.toList

/-- `Means ns file s x`: `x` is a datum of the message or enum of the file that a type with the alias `s` is for,
where `ns` is the package. -/
def Means (ns : String) (file : List Elem) (s : String) (x : Val) : Prop :=
  ∃ e n l rest, Scope file (l :: rest) ∧ e ∈ l ∧ nameOf e = some n ∧ s = ns ++ "." ++ n ∧
    Declared file (l :: rest) e x

/-- No reference is in the type. -/
def Closed (t : RType) : Prop := ∀ r a, ¬Sub (.proxy r a) t

/-! ## What is written -/

mutual
/-- `Stored refs t x`: `x` is a value of the type as Protobuf stores it: numbers have 32 or 64 bits, strings and bytes
less than 2 GiB, and all fields but lists and maps can be absent.  `refs` says which values a reference has. -/
inductive Stored (refs : String → Val → Prop) : RType → Val → Prop
  | null {a} : Stored refs (.null a) .null
  | bool {a b} : Stored refs (.bool a) (.bool b)
  | int {b s i a} : (∀ n : Int, b = .int n → n ≤ 32) → IntValue 32 s i → Stored refs (.int b (.bool s) a) (.int i)
  | long {n : Int} {s i a} : 32 < n → n ≤ 64 → IntValue 64 s i → Stored refs (.int (.int n) (.bool s) a) (.int i)
  | float {b m a} : (∀ n : Int, b = .int n → n ≤ 32) → m ≤ 32 → Stored refs (.float b a) (.float m)
  | double {n : Int} {m a} : 32 < n → n ≤ 64 → m ≤ 64 → Stored refs (.float (.int n) a) (.float m)
  | string {l v a} {s : String} : s.utf8ByteSize < 2147483648 → Stored refs (.string l v a) (.str s)
  | bytes {l v a n} : n < 2147483648 → Stored refs (.bytes l v a) (.bytes n)
  | enum {xs s a} : .str s ∈ xs → Stored refs (.enum (.list xs) a) (.str s)
  | struct {fs xs a} : fs.length = xs.length →
      (∀ (i : Nat) f x, fs[i]? = some f → xs[i]? = some x → StoredField refs f x) →
      Stored refs (.struct fs a) (.struct xs)
  | reference {r a s x} : a.alias = .str s → refs s x → Stored refs (.proxy r a) x
/-- `StoredField refs f x`: what a message can have for a field of a struct. -/
inductive StoredField (refs : String → Val → Prop) : RType → Val → Prop
  | absent {f} : Plain f → StoredField refs f .null
  | value {f x} : Plain f → Stored refs f x → StoredField refs f x
  | list {t l v a xs} : (∀ x ∈ xs, Stored refs t x) → StoredField refs (.list t l v a) (.list xs)
  | map {k v a} {ps : List (Val × Val)} : (∀ p ∈ ps, Stored refs k (Prod.fst p)) →
      (∀ p ∈ ps, Stored refs v (Prod.snd p)) → StoredField refs (.map k v a) (.map ps)
  | missing {ts a} : StoredField refs (.union ts a) .null
  | member {ts t x a} : t ∈ members ts → Stored refs t x → StoredField refs (.union ts a) x
end

/-- A struct or an enum. -/
def Definite (t : RType) : Prop := (∃ fs a, t = .struct fs a) ∨ ∃ symbols a, t = .enum symbols a

/-- A type that Protobuf can express, where `p` is the package. -/
structure Regular (t : RType) (p : String) : Prop where
  /-- The packages are those of messages around. -/
  reached : AllReached t p
  /-- Nothing is nested in a way that Protobuf does not have. -/
  nesting : ∀ fs a, Sub (.struct fs a) t → ∀ f ∈ fs, Nestable f
  enums : ∀ symbols a, Sub (.enum symbols a) t → ∃ xs, symbols = .list xs
  /-- Structs and enums with the same alias are the same. -/
  once : ∀ u v, Sub u t → Sub v t → Definite u → Definite v → u.attrs.alias = v.attrs.alias →
    u.withAttrs {} = v.withAttrs {}

/-- No integers and bytes in the type are numbers of another kind. -/
def Literal (t : RType) : Prop :=
  (∀ b s a, Sub (.int b s a) t → a.logical = .none) ∧ ∀ l v a, Sub (.bytes l v a) t → a.logical = .none

/-- A type that has nothing Protobuf does not keep: integers and floats have 32 or 64 bits, strings and bytes are bounded
by 2147483647, unions have null, and no list has a length; fields are lists, maps or unions. -/
structure Exact (t : RType) : Prop where
  ints : ∀ b s a, Sub (.int b s a) t → b = .int 32 ∨ b = .int 64
  floats : ∀ b a, Sub (.float b a) t → b = .int 32 ∨ b = .int 64
  strings : ∀ l v a, Sub (.string l v a) t → l = .int 2147483647 ∧ a.logical = .none
  bytes : ∀ l v a, Sub (.bytes l v a) t → l = .int 2147483647
  lists : ∀ u l v a, Sub (.list u l v a) t → l = .none
  unions : ∀ ts a, Sub (.union ts a) t → ∃ b, .null b ∈ ts
  fields : ∀ fs a, Sub (.struct fs a) t → ∀ f ∈ fs, ¬Plain f

/-- `x` is a datum of the message or enum that is declared in the file with the full name `s`. -/
def Named (file : List Elem) (s : String) (x : Val) : Prop := Datum file [file] ("." ++ s) x

end Recap.ProtoData
