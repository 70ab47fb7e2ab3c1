import Verif.AvroDataSpec

/-!
# Which values can be written with the Avro schema of their type (C129)

The values of a type are those of `Values.Holds`, the data of a schema those of `AvroData.Datum`.
Nothing here uses the converter.
-/

set_option autoImplicit false

namespace Recap.AvroWrite

open Values (Val Holds)
open AvroData (Datum)

/-- **C129**: every value of a type for which a schema is written is a datum of that schema. -/
def ValuesWritten : Prop :=
  ∀ (live : Registry) (t : RType) (d : Dict) (x : Val),
    Avro.fromRecap live t = .ok d → Holds t x → Datum [] .none (.dict d) x

/-! ## What keeps values within the schema -/

/-- Without a name, or with a name, which can be in a namespace. -/
def Named (a : Attrs) : Prop :=
  (∀ v, Dict.get? a.extra "name" = some v → v.truthy = false) ∨
    (∃ x : String, Dict.get? a.extra "name" = some (.str x) ∧ '.' ∉ x.toList) ∨
    ∃ p x : String, Dict.get? a.extra "name" = some (.str (p ++ "." ++ x)) ∧ '.' ∉ x.toList ∧ p ≠ ""

/-- Types without parts and without logical type, apart from integers that are wider than a `long` and
byte strings of a fixed length. -/
inductive Plain : RType → Prop
  | null {a} : a.logical = .none → Plain (.null a)
  | bool {a} : a.logical = .none → Plain (.bool a)
  | signed {n : Int} {a} : a.logical = .none → n ≤ 64 → Plain (.int (.int n) (.bool true) a)
  | unsigned {n : Int} {a} : a.logical = .none → n ≤ 32 → Plain (.int (.int n) (.bool false) a)
  | float {n a} : a.logical = .none → Plain (.float (.int n) a)
  | string {l v a} : a.logical = .none → Plain (.string l v a)
  | bytes {l a} : a.logical = .none → Plain (.bytes l (.bool true) a)

/-- Types without parts and with a logical type.  Avro's decimals have at least one digit, and not more
of them after the point than there are. -/
inductive Annotated : RType → Prop
  | decimal {l v a} {p q : Nat} : a.logical = .str "build.recap.Decimal" →
      Dict.get? a.extra "precision" = some (.int p) → Dict.get? a.extra "scale" = some (.int q) →
      1 ≤ p → q ≤ p → Annotated (.bytes l v a)
  | timestamp {b s a} : a.logical = .str "build.recap.Timestamp" → Annotated (.int b s a)
  | date {b s a} : a.logical = .str "build.recap.Date" → Annotated (.int b s a)
  | time {b s a} : a.logical = .str "build.recap.Time" → Annotated (.int b s a)
  | uuid {l v a} : a.logical = .str "build.recap.UUID" → Annotated (.string l v a)

mutual
/-- Types other than unions and references, where the fields of structures are as `AsField` says. -/
inductive AsSchema : RType → Prop
  | plain {t} : Plain t → AsSchema t
  | annotated {t} : Annotated t → AsSchema t
  | enum {xs a} : a.logical = .none → AsSchema (.enum xs a)
  | list {t l v a} : a.logical = .none → AsSchema t → AsSchema (.list t l v a)
  | map {l : Int} {w b v a} : a.logical = .none → l ≤ 9223372036854775807 → AsSchema v →
      AsSchema (.map (.string (.int l) w b) v a)
  | struct {fs a} : a.logical = .none → Named a → (∀ f ∈ fs, AsField f) → AsSchema (.struct fs a)
/-- Types of fields: without parts and logical type, UUIDs, or unions. -/
inductive AsField : RType → Prop
  | plain {t} : Plain t → AsField t
  | uuid {l v a} : a.logical = .str "build.recap.UUID" → AsField (.string l v a)
  | union {ts a} : a.logical = .none → (∀ t ∈ ts, AsSchema t) → AsField (.union ts a)
end

/-! ## Types whose values are not within the schema -/

/-- Types of fields that are not written as Avro has it: enums, lists, maps and structures. -/
inductive Inline : RType → Prop
  | enum {xs a} : a.logical = .none → Inline (.enum xs a)
  | fixed {l a} : a.logical = .none → Inline (.bytes l (.bool false) a)
  | list {t l v a} : a.logical = .none → Inline (.list t l v a)
  | map {k v a} : a.logical = .none → Inline (.map k v a)
  | struct {fs a} : a.logical = .none → Inline (.struct fs a)

end Recap.AvroWrite
