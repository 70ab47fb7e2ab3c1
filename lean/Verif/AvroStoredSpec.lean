import Verif.AvroWriteSpec

/-!
# Which data have the Avro schemas that are written (C137)

The values of a type are those of `Values.Holds`, the data of a schema those of `AvroData.Datum`.
Nothing here uses the converter.
-/

set_option autoImplicit false

namespace Recap.AvroWrite

open Values (Val Holds)
open AvroData (Datum Primitive)
open Avro.Spec (IntValue)
open Avro (asInt)

/-- **C137**: every datum of the schema that is written for a type is a value of the type. -/
def OnlyValuesWritten : Prop :=
  ∀ (live : Registry) (t : RType) (d : Dict) (x : Val),
    Avro.fromRecap live t = .ok d → Datum [] .none (.dict d) x → Holds t x

/-- There are no references in the type. -/
inductive Whole : RType → Prop
  | mk {t} : (∀ r a, t ≠ .proxy r a) → (∀ u ∈ Recap.Spec.children t, Whole u) → Whole t

/-- No logical type. -/
def Unlabelled (a : Attrs) : Prop := ∀ l, a.logical ≠ .str l

/-- An integer that is wider than a `long`, or unsigned with more than 32 bits. -/
def Wide (b : PyVal) (signed : Bool) : Prop := ∃ n, asInt b = some n ∧ (if signed then 64 else 32) < n

/-- The digits of the decimals that Avro allows. -/
structure Places (a : Attrs) (p q : Nat) : Prop where
  precision : Dict.get? a.extra "precision" = some (.int p)
  scale : Dict.getD a.extra "scale" (.int 0) = .int q
  positive : 1 ≤ p
  within : q ≤ p

/-- The primitive type of Avro in which the values of a type without parts are stored. -/
inductive Base : RType → String → Prop
  | null {a} : Unlabelled a → Base (.null a) "null"
  | bool {a} : Unlabelled a → Base (.bool a) "boolean"
  | int {b n a} : Unlabelled a → asInt b = some n → n ≤ 32 → Base (.int b (.bool true) a) "int"
  | unsigned {b n a} : Unlabelled a → asInt b = some n → n ≤ 32 → Base (.int b (.bool false) a) "long"
  | long {b n a} : Unlabelled a → asInt b = some n → 32 < n → n ≤ 64 → Base (.int b (.bool true) a) "long"
  | wide {b s a} : Unlabelled a → Wide b s → Base (.int b (.bool s) a) "bytes"
  | float {b n a} : Unlabelled a → asInt b = some n → n ≤ 32 → Base (.float b a) "float"
  | double {b n a} : Unlabelled a → asInt b = some n → 32 < n → Base (.float b a) "double"
  | string {l v a} : Unlabelled a → Base (.string l v a) "string"
  | bytes {l a} : Unlabelled a → Base (.bytes l (.bool true) a) "bytes"
  | decimal {l v a} : a.logical = .str "build.recap.Decimal" → Base (.bytes l v a) "bytes"
  | timestamp {b s a} : a.logical = .str "build.recap.Timestamp" → Base (.int b s a) "long"
  | date {b s a} : a.logical = .str "build.recap.Date" → Base (.int b s a) "int"
  | timeMillis {b s a} : a.logical = .str "build.recap.Time" → Dict.get? a.extra "unit" = some (.str "millisecond") →
      Base (.int b s a) "int"
  | timeMicros {b s a} : a.logical = .str "build.recap.Time" → Dict.get? a.extra "unit" = some (.str "microsecond") →
      Base (.int b s a) "long"
  | uuid {l v a} : a.logical = .str "build.recap.UUID" → Base (.string l v a) "string"

mutual
/-- The data that Avro has for a type in a position where it expects a schema.  The logical types apply,
and unions have no data. -/
inductive Stored : RType → Val → Prop
  | primitive {t w x} : Unlabelled t.attrs → Base t w → (∀ b s a, t = .int b (.bool s) a → ¬Wide b s) →
      Primitive w x → Stored t x
  /-- Numbers of at most `p` digits, where `10 ^ p` is the largest power of ten up to `2 ^ k` and `k` are the bits
  apart from the sign. -/
  | wide {b n s a m j p} {u : Int} : Unlabelled a → asInt b = some n → Wide b s →
      10 ^ p ≤ 2 ^ (n - if s then 1 else 0).toNat → 2 ^ (n - if s then 1 else 0).toNat < 10 ^ (p + 1) →
      u * 10 ^ j = m → u.natAbs < 10 ^ p → IntValue (8 * 9223372036854775807) true u →
      Stored (.int b (.bool s) a) (.decimal m j)
  | fixed {n : Nat} {a} : Unlabelled a → Stored (.bytes (.int n) (.bool false) a) (.bytes n)
  | decimal {l v a p q m s} {u : Int} : a.logical = .str "build.recap.Decimal" → Places a p q →
      u * 10 ^ s = m * 10 ^ q → u.natAbs < 10 ^ p → IntValue (8 * 9223372036854775807) true u →
      Stored (.bytes l v a) (.decimal m s)
  | undecided {l v a n} : a.logical = .str "build.recap.Decimal" → (∀ p q, ¬Places a p q) →
      n ≤ 9223372036854775807 → Stored (.bytes l v a) (.bytes n)
  | timestamp {b s a u per k} : a.logical = .str "build.recap.Timestamp" →
      Dict.get? a.extra "unit" = some (.str u) → Values.nanoseconds u = some per → IntValue 64 true k →
      Stored (.int b s a) (.instant (k * per))
  | date {b s a k} : a.logical = .str "build.recap.Date" → IntValue 32 true k → Stored (.int b s a) (.date k)
  | timeMillis {b s a k} : a.logical = .str "build.recap.Time" → Dict.get? a.extra "unit" = some (.str "millisecond") →
      IntValue 32 true k → Stored (.int b s a) (.time (k * 1000000))
  | timeMicros {b s a k} : a.logical = .str "build.recap.Time" → Dict.get? a.extra "unit" = some (.str "microsecond") →
      IntValue 64 true k → Stored (.int b s a) (.time (k * 1000))
  | uuid {l v a} {s : String} : a.logical = .str "build.recap.UUID" → s.utf8ByteSize = 36 → Stored (.string l v a) (.str s)
  | enum {xs a s} : Unlabelled a → .str s ∈ xs → Stored (.enum (.list xs) a) (.str s)
  | list {t l v a xs} : Unlabelled a → (∀ x ∈ xs, Stored t x) → Stored (.list t l v a) (.list xs)
  | map {k v a ps} : Unlabelled a → (∀ p ∈ ps, Primitive "string" (Prod.fst p)) → (∀ p ∈ ps, Stored v (Prod.snd p)) →
      Stored (.map k v a) (.map ps)
  | struct {fs a xs} : Unlabelled a → Named a → fs.length = xs.length →
      (∀ (i : Nat) f x, fs[i]? = some f → xs[i]? = some x → StoredField f x) → Stored (.struct fs a) (.struct xs)
/-- The data that Avro has for a field: the logical types are ignored, and only unions have parts. -/
inductive StoredField : RType → Val → Prop
  | base {t w x} : Base t w → Primitive w x → StoredField t x
  | union {ts t a x} : Unlabelled a → t ∈ ts → Stored t x → StoredField (.union ts a) x
end

mutual
/-- Types of which the data are values: numbers have all the bits of Avro's types, strings and byte strings the
largest length, unless it is fixed.  There are no data of unions and of intervals here. -/
inductive Kept : RType → Prop
  | null {a} : Kept (.null a)
  | bool {a} : Kept (.bool a)
  | int {a} : a.logical = .none → Kept (.int (.int 32) (.bool true) a)
  | long {a} : a.logical = .none → Kept (.int (.int 64) (.bool true) a)
  | float {a} : Kept (.float (.int 32) a)
  | double {a} : Kept (.float (.int 64) a)
  | string {v a} : a.logical = .none → Kept (.string (.int 9223372036854775807) v a)
  | bytes {v a} : a.logical = .none → Kept (.bytes (.int 9223372036854775807) v a)
  | fixed {l a} : a.logical = .none → Kept (.bytes l (.bool false) a)
  | interval {l v a} : a.logical = .str "build.recap.Interval" → Kept (.bytes l v a)
  | decimal {v a p q} : a.logical = .str "build.recap.Decimal" → Places a p q →
      Dict.get? a.extra "scale" = some (.int q) → Kept (.bytes (.int 9223372036854775807) v a)
  | timestamp {a} : a.logical = .str "build.recap.Timestamp" → Kept (.int (.int 64) (.bool true) a)
  | date {a} : a.logical = .str "build.recap.Date" → Dict.get? a.extra "unit" = some (.str "day") →
      Kept (.int (.int 32) (.bool true) a)
  | timeMillis {a} : a.logical = .str "build.recap.Time" → Dict.get? a.extra "unit" = some (.str "millisecond") →
      Kept (.int (.int 32) (.bool true) a)
  | timeMicros {a} : a.logical = .str "build.recap.Time" → Dict.get? a.extra "unit" = some (.str "microsecond") →
      Kept (.int (.int 64) (.bool true) a)
  | uuid {l : Int} {v a} : a.logical = .str "build.recap.UUID" → 36 ≤ l → Kept (.string (.int l) v a)
  | enum {xs a} : Kept (.enum xs a)
  | list {t v a} : Kept t → Kept (.list t .none v a)
  | map {w b v a} : b.logical = .none → Kept v → Kept (.map (.string (.int 9223372036854775807) w b) v a)
  | struct {fs a} : (∀ f ∈ fs, KeptField f) → Kept (.struct fs a)
  | union {ts a} : Kept (.union ts a)
/-- The same for the types of fields, without logical types.  There are no data of enums, fixed byte strings,
lists, maps and structures here. -/
inductive KeptField : RType → Prop
  | simple {t} : t.attrs.logical = .none → (∀ ts a, t ≠ .union ts a) → Kept t → KeptField t
  | inline {t} : Inline t → KeptField t
  | union {ts a} : (∀ t ∈ ts, Kept t) → KeptField (.union ts a)
end

end Recap.AvroWrite
