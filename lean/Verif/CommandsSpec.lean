import Verif.Commands
import Verif.Relational
import Verif.BigQuery
import Verif.Hive
import Verif.TypesSpec
import Verif.JsonSchemaSpec

/-!
# What the properties of the commands and the gateway mean
-/

set_option autoImplicit false

namespace Recap.Commands.Spec

open Recap.Url Recap.Clients
open Recap.Spec (Real)

/-! ## Formats -/

/-- The format that a request asks for by its content type, which is Recap's own if there is none. -/
inductive Asks : Option String → Format → Prop
  | absent : Asks .none .recap
  | empty : Asks (some "") .recap
  | recap : Asks (some "application/x-recap+json") .recap
  | json : Asks (some "application/schema+json") .json
  | avro : Asks (some "application/avro+json") .avro
  | protobuf : Asks (some "application/x-protobuf") .protobuf

/-- The schema of a type in a format is what the converter for the format makes of the type. -/
inductive Shows (live : Registry) (t : RType) : Format → Output → Prop
  | avro {d} : Avro.fromRecap live t = .ok d → Shows live t .avro (.dict d)
  | json {d} : Json.fromRecap live t = .ok d → Shows live t .json (.dict d)
  | protobuf {es} : Protobuf.fromRecap t = .ok es → Shows live t .protobuf (.file es)
  | recap {d} : toDict true true t = .ok (.dict d) → Shows live t .recap (.dict d)

/-- The media type of a content type: what comes before the first semicolon, in lower case and
without spaces (RFC 9110, section 8.3.1). -/
def mediaType (header : String) : String :=
  String.ofList (((header.toList.takeWhile (· ≠ ';')).map Char.toLower).filter (· ≠ ' '))

/-! ## Tables -/

/-- `Table t live`: `t` is what one of the converters for databases makes of a table, and `live` is the
registry of that converter. -/
inductive Table : RType → Registry → Prop
  | relational {cm d cols t live} : Relational.Dialect.toRecap cm d cols newRegistry = (.ok t, live) →
      Table t live
  | bigquery {fields t} : BigQuery.toRecap fields = .ok t → Table t newRegistry
  | hive {table t} : Hive.toRecap table = .ok t → Table t newRegistry

mutual
/-- No nullable field of BigQuery, at any depth, has a description; all properties of the fields are Python values. -/
def Undocumented : BigQuery.Field → Prop
  | .mk _ mode name description dflt maxLength precision scale fields =>
    (Real name ∧ Real description ∧ Real dflt ∧ Real maxLength ∧ Real precision ∧ Real scale) ∧
    (mode = "NULLABLE" → description.truthy = false) ∧ UndocumentedAll fields
/-- The same for a list of fields. -/
def UndocumentedAll : List BigQuery.Field → Prop
  | [] => True
  | f :: fs => Undocumented f ∧ UndocumentedAll fs
end

mutual
/-- All names of fields in a Hive type satisfy `N`. -/
def FieldNames (N : String → Prop) : Hive.HType → Prop
  | .map k v => FieldNames N k ∧ FieldNames N v
  | .list e => FieldNames N e
  | .union ts => FieldNamesAll N ts
  | .struct fs => FieldNamesIn N fs
  | _ => True
/-- The same for a list of types. -/
def FieldNamesAll (N : String → Prop) : List Hive.HType → Prop
  | [] => True
  | h :: hs => FieldNames N h ∧ FieldNamesAll N hs
/-- The same for the fields of a struct. -/
def FieldNamesIn (N : String → Prop) : List (String × Hive.HType) → Prop
  | [] => True
  | (n, h) :: fs => (N n ∧ FieldNames N h) ∧ FieldNamesIn N fs
end

mutual
/-- The field of BigQuery, and all fields below it, have names. -/
def Named : BigQuery.Field → Prop
  | .mk _ _ name _ _ _ _ _ fields => (∃ n, n ≠ "" ∧ name = .str n) ∧ NamedAll fields
/-- The same for a list of fields. -/
def NamedAll : List BigQuery.Field → Prop
  | [] => True
  | f :: fs => Named f ∧ NamedAll fs
end

/-- The JSON Schema of objects that have the properties `column` and must have those that are `required`. -/
structure ObjectSchema (d : Dict) (column required : String → Prop) : Prop where
  type : Dict.get? d "type" = some (.str "object")
  properties : ∃ ps, Dict.get? d "properties" = some (.dict ps) ∧ (Dict.keys ps).Nodup ∧
    ∀ n, n ∈ Dict.keys ps ↔ column n
  required : ∀ n, Json.Spec.Listed d n ↔ required n

/-- The Hive types, other than unions, for which there is an Avro schema. -/
def AvroColumn : Hive.HType → Prop
  | .prim c => c ∈ [.boolean, .byte, .short, .int, .long, .float, .double, .void, .binary, .date]
  | .decimal _ _ => True
  | .varchar n => n ≤ 9223372036854775807
  | .char n => n ≤ 9223372036854775807
  | .list e => e = .prim .void
  | _ => False

/-- What Avro calls the types of `AvroColumn`.  A union has no two types of the same kind. -/
def avroKind : Hive.HType → String
  | .prim .boolean => "boolean"
  | .prim .long => "long"
  | .prim .float => "float"
  | .prim .double => "double"
  | .prim .void => "null"
  | .prim .binary => "bytes"
  | .prim _ => "int"
  | .decimal _ _ => "bytes"
  | .varchar _ => "string"
  | .char _ => "string"
  | .list _ => "array"
  | .map _ _ => "map"
  | _ => "record"

mutual
/-- What a value of a Hive type may be, besides null: the type itself or, for a union, what its members may be.  With
each type goes the number of unions around it. -/
def options (depth : Nat) : Hive.HType → List (Hive.HType × Nat)
  | .union hs => optionsAll (depth + 1) hs
  | .prim c => if c = .void then [] else [(.prim c, depth)]
  | h => [(h, depth)]
/-- The same for a list of types. -/
def optionsAll (depth : Nat) : List Hive.HType → List (Hive.HType × Nat)
  | [] => []
  | h :: hs => options depth h ++ optionsAll depth hs
end

/-- The Hive types, with unions, for which there is an Avro schema: there is one for each option, and no two options are
of the same kind unless they are the same.  Two lists count as the same only if there are equally many unions around
them. -/
def AvroOptions (h : Hive.HType) : Prop :=
  ∀ p ∈ options 0 h, AvroColumn p.1 ∧
    ∀ q ∈ options 0 h, avroKind p.1 = avroKind q.1 → p.1 = q.1 ∧ (avroKind p.1 = "array" → p.2 = q.2)

end Recap.Commands.Spec

namespace Recap.BigQuery

/-- The name of a field. -/
def Field.name : Field → PyVal
  | .mk _ _ name _ _ _ _ _ _ => name

/-- The mode of a field: NULLABLE, REQUIRED or REPEATED. -/
def Field.mode : Field → String
  | .mk _ mode _ _ _ _ _ _ _ => mode

end Recap.BigQuery
