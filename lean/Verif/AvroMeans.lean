import Verif.AvroSpec

/-!
# What Avro schemas mean (C62, C94 - C96)
-/

set_option autoImplicit false

namespace Recap.Avro.Spec

/-- The namespace in which the names in `d` are, when `d` is in the namespace `ns`. -/
inductive Around (ns : Option String) (d : Dict) : Option String → Prop
  | inherited : Dict.get? d "namespace" = .none → Around ns d ns
  | null : Dict.get? d "namespace" = some .none → Around ns d .none
  | given {s} : Dict.get? d "namespace" = some (.str s) → Around ns d (some s)

/-- Names in the null namespace are in `_root`. -/
def root : Option String → String
  | some s => if s = "" then "_root" else s
  | .none => "_root"

/-- The full and the short name of `d`, if it has one, and the namespace of what is inside. -/
inductive Header (ns : Option String) (d : Dict) : Option (String × String) → Option String → Prop
  | anonymous {q} : Around ns d q → Dict.get? d "name" = .none → Header ns d .none q
  | short {q x} : Around ns d q → Dict.get? d "name" = some (.str x) → '.' ∉ x.toList →
      Header ns d (some (root q ++ "." ++ x, x)) (some (root q))
  | full {q p x} : Around ns d q → Dict.get? d "name" = some (.str (p ++ "." ++ x)) → '.' ∉ x.toList → p ≠ "" →
      Header ns d (some (p ++ "." ++ x, x)) (some p)

/-- The full name, as an alias. -/
def alias (name : Option (String × String)) : PyVal :=
  match name with
  | some (s, _) => .str s
  | .none => .none

/-- The short name and the default. -/
def extra (name : Option (String × String)) (d : Dict) : Dict :=
  (match name with
    | some (_, s) => [("name", .str s)]
    | .none => []) ++
  (match Dict.get? d "default" with
    | some v => [("default", v)]
    | .none => [])

/-- The description, the short name and the default. -/
def added (name : Option (String × String)) (d : Dict) : Dict :=
  (match Dict.get? d "doc" with
    | some v => [("doc", v)]
    | .none => []) ++ extra name d

/-- The attributes of a type that is read from `d`. -/
def attrs (name : Option (String × String)) (d : Dict) : Attrs where
  alias := alias name
  doc := Dict.getD d "doc" .none
  extra := extra name d

/-- The attributes of a logical type. -/
def logical (l : String) (own : Dict) (name : Option (String × String)) (d : Dict) : Attrs where
  logical := .str l
  doc := Dict.getD d "doc" .none
  extra := own ++ extra name d

/-- The alias that a type name in the namespace `q` refers to. -/
def target (q : Option String) (s : String) : String :=
  if '.' ∈ s.toList then s else q.getD "None" ++ "." ++ s

/-- The primitive types. -/
inductive Primitive (a : Attrs) : String → RType → Prop
  | null : Primitive a "null" (.null a)
  | boolean : Primitive a "boolean" (.bool a)
  | int : Primitive a "int" (.int (.int 32) (.bool true) a)
  | long : Primitive a "long" (.int (.int 64) (.bool true) a)
  | float : Primitive a "float" (.float (.int 32) a)
  | double : Primitive a "double" (.float (.int 64) a)
  | bytes : Primitive a "bytes" (.bytes (.int 9223372036854775807) (.bool true) a)
  | string : Primitive a "string" (.string (.int 9223372036854775807) (.bool true) a)

/-- The logical types. -/
inductive Logical (name : Option (String × String)) (d : Dict) : String → RType → Prop
  | decimal {p} : Dict.get? d "precision" = some p → Dict.get? d "type" = some (.str "bytes") →
      Dict.get? d "size" = .none →
      Logical name d "decimal" (.bytes (.int 9223372036854775807) (.bool false)
        (logical "build.recap.Decimal" [("precision", p), ("scale", Dict.getD d "scale" (.int 0))] name d))
  | fixedDecimal {p n} : Dict.get? d "precision" = some p → Dict.get? d "type" = some (.str "fixed") →
      Dict.get? d "size" = some n →
      Logical name d "decimal" (.bytes n (.bool true)
        (logical "build.recap.Decimal" [("precision", p), ("scale", Dict.getD d "scale" (.int 0))] name d))
  | uuid : Logical name d "uuid" (.string (.int 36) (.bool false) (logical "build.recap.UUID" [] name d))
  | date : Logical name d "date" (.int (.int 32) (.bool true)
      (logical "build.recap.Date" [("unit", .str "day")] name d))
  | timeMillis : Logical name d "time-millis" (.int (.int 32) (.bool true)
      (logical "build.recap.Time" [("unit", .str "millisecond")] name d))
  | timeMicros : Logical name d "time-micros" (.int (.int 64) (.bool true)
      (logical "build.recap.Time" [("unit", .str "microsecond")] name d))
  | timestampMillis : Logical name d "timestamp-millis" (.int (.int 64) (.bool true)
      (logical "build.recap.Timestamp" [("unit", .str "millisecond")] name d))
  | timestampMicros : Logical name d "timestamp-micros" (.int (.int 64) (.bool true)
      (logical "build.recap.Timestamp" [("unit", .str "microsecond")] name d))
  | duration : Logical name d "duration" (.bytes (.int 12) (.bool true)
      (logical "build.recap.Interval" [("signed", .bool true), ("unit", .str "millisecond")] name d))

/-- The type name is neither that of one of Avro's own types nor `union`. -/
def Other (s : String) : Prop := s ∉ keywords ∧ s ≠ "union"

/-- The dictionary has this `type`, and no logical type. -/
structure HasType (d : Dict) (v : PyVal) : Prop where
  type : Dict.get? d "type" = some v
  plain : Dict.get? d "logicalType" = .none

mutual
/-- `Means ns v t names`: in the namespace `ns`, the schema `v` is read as `t`.  The names that it
gives to types and to fields (with a simple type) are, in order, `names`. -/
inductive Means : Option String → PyVal → RType → List String → Prop
  | primitiveName {ns s t} : Primitive {} s t → Means ns (.str s) t []
  | referenceName {ns s} : Other s → Means ns (.str s) (.proxy .none { alias := .str (target ns s) }) []
  | primitive {ns d name q s t} : Header ns d name q → HasType d (.str s) → Primitive (attrs name d) s t →
      Means ns (.dict d) t (name.map (·.1)).toList
  | reference {ns d name q s} : Header ns d name q → HasType d (.str s) → Other s →
      Means ns (.dict d) (.proxy .none { attrs name d with alias := .str (target q s) }) []
  | fixed {ns d name q n} : Header ns d name q → HasType d (.str "fixed") → Dict.get? d "size" = some (.int n) →
      n ≤ 9223372036854775807 →
      Means ns (.dict d) (.bytes (.int n) (.bool true) (attrs name d)) (name.map (·.1)).toList
  | enum {ns d name q v} : Header ns d name q → HasType d (.str "enum") → Dict.get? d "symbols" = some v →
      Means ns (.dict d) (.enum v (attrs name d)) (name.map (·.1)).toList
  | array {ns d name q v t names} : Header ns d name q → HasType d (.str "array") →
      Dict.get? d "items" = some v → Means q v t names →
      Means ns (.dict d) (.list t .none (.bool true) (attrs name d)) (names ++ (name.map (·.1)).toList)
  | map {ns d name q v t names} : Header ns d name q → HasType d (.str "map") →
      Dict.get? d "values" = some v → Means q v t names →
      Means ns (.dict d) (.map (.string (.int 9223372036854775807) (.bool true) {}) t (attrs name d))
        (names ++ (name.map (·.1)).toList)
  | record {ns d name q vs ts names} : Header ns d name q → HasType d (.str "record") →
      Dict.get? d "fields" = some (.list vs) → MeansAll q vs ts names →
      Means ns (.dict d) (.struct ts (attrs name d)) (names ++ (name.map (·.1)).toList)
  | union {ns d name q vs ts names} : Header ns d name q → HasType d (.list vs) → MeansAll q vs ts names →
      Means ns (.dict d) (.union ts (attrs name d)) (names ++ (name.map (·.1)).toList)
  | nested {ns d name q d' t names} : Header ns d name q → HasType d (.dict d') → Means q (.dict d') t names →
      Means ns (.dict d)
        (t.withAttrs { t.attrs with extra := Dict.update t.attrs.extra (added name d) }) names
  | logical {ns d name q l t} : Header ns d name q → Dict.get? d "logicalType" = some (.str l) →
      Logical name d l t → Means ns (.dict d) t []
/-- The schemas of fields or of the members of a union. -/
inductive MeansAll : Option String → List PyVal → List RType → List String → Prop
  | nil {ns} : MeansAll ns [] [] []
  | cons {ns v vs t ts names names'} : Means ns v t names → MeansAll ns vs ts names' →
      MeansAll ns (v :: vs) (t :: ts) (names ++ names')
end

/-- `At v t d u`: where `v` is read as `t`, the schema `d` that is `v` or inside it is read as `u`. -/
inductive At : PyVal → RType → Dict → RType → Prop
  | here {d t} : At (.dict d) t d t
  | field {d vs fs a v t d' u} {i : Nat} : Dict.get? d "type" = some (.str "record") →
      Dict.get? d "fields" = some (.list vs) → vs[i]? = some v → fs[i]? = some t → At v t d' u →
      At (.dict d) (.struct fs a) d' u
  | member {d vs ts a v t d' u} {i : Nat} : Dict.get? d "type" = some (.list vs) →
      vs[i]? = some v → ts[i]? = some t → At v t d' u → At (.dict d) (.union ts a) d' u
  | items {d v t l w a d' u} : Dict.get? d "type" = some (.str "array") → Dict.get? d "items" = some v →
      At v t d' u → At (.dict d) (.list t l w a) d' u
  | values {d v k t a d' u} : Dict.get? d "type" = some (.str "map") → Dict.get? d "values" = some v →
      At v t d' u → At (.dict d) (.map k t a) d' u
  | nested {d d' t d'' u} : HasType d (.dict d') → At (.dict d') t d'' u → At (.dict d) t d'' u

/-- `FieldAt v t d u`: where `v` is read as `t`, the field `d` of a record in it is read as `u`. -/
def FieldAt (v : PyVal) (t : RType) (d : Dict) (u : RType) : Prop :=
  ∃ r vs fs a, ∃ i : Nat, At v t r (.struct fs a) ∧ Dict.get? r "type" = some (.str "record") ∧
    Dict.get? r "fields" = some (.list vs) ∧ vs[i]? = some (.dict d) ∧ fs[i]? = some u

/-- The names are distinct, well-formed and new to the registry. -/
def NewNames (reg : Registry) (names : List String) : Prop :=
  names.Nodup ∧ ∀ s ∈ names, aliasOk s = true ∧ s ∉ Recap.Spec.names reg

end Recap.Avro.Spec
