import Verif.Types

/-!
# The converter for the Hive Metastore

Model of `recap/converters/hive_metastore.py`.

Simplifications: the lists `names` and `types` of a Hive struct are one list of pairs, which is
what `zip` makes of them (line 158); lengths, precisions and scales are integers, as the patterns
at lines 73, 85 and 88 require; comments are absent or strings.
-/

set_option autoImplicit false

namespace Recap.Hive

open RType

/-- The members of `PrimitiveCategory` that the converter names (hive_metastore.py 52-138);
`other` is any further member, such as `UNKNOWN`. -/
inductive Primitive where
  | boolean | byte | short | int | long | float | double | void | string | binary | date
  | timestamp | timestampLocalTz | intervalYearMonth | intervalDayTime | other
deriving DecidableEq, Repr

/-- Hive types (the classes imported at hive_metastore.py 3-14). -/
inductive HType where
  | prim (c : Primitive)
  | decimal (precision scale : Int)
  | varchar (length : Int)
  | char (length : Int)
  | map (key value : HType)
  | list (element : HType)
  | union (types : List HType)
  | struct (fields : List (String × HType))

/-- `HColumn`. -/
structure HColumn where
  name : String
  type : HType
  comment : Option String := .none

/-- `HTable`: the attributes that the converter reads. -/
structure HTable where
  name : String
  columns : List HColumn

/-! ## Flattening -/

/-- One round of the loop that collects the members of a flattened union
(hive_metastore.py 198-205). -/
def absorb (acc : List RType) : RType → List RType
  | .union ts _ => acc ++ ts.filter (fun t => !acc.any (fun u => pyEq u t))
  | t => if acc.any (fun u => pyEq u t) then acc else acc ++ [t]

/-- The attributes of a list or map after flattening: they become the value of one extra
attribute with the name `extra_attrs` (hive_metastore.py 181-185, 219, 225). -/
def misplaced (a : Attrs) : Attrs :=
  { extra := [("extra_attrs", .dict (Dict.update a.extra
      [("logical", a.logical), ("alias", a.alias), ("doc", a.doc)]))] }

mutual
/-- `_flatten_unions` (hive_metastore.py 173-229).  The extra attributes of unions and structs
are passed on as keyword arguments; the model assumes that none of them has the name of a
constructor parameter, as is the case for the types that the converter builds. -/
def flatten : RType → RType
  | .union ts a => .union ((flattenAll ts).foldl absorb []) a
  | .struct fs a => .struct (flattenAll fs) a
  | .list t _ _ a => .list (flatten t) .none (.bool true) (misplaced a)
  | .map k v a => .map (flatten k) (flatten v) (misplaced a)
  | t => t
/-- Flattening each of a list of types (hive_metastore.py 196, 214). -/
def flattenAll : List RType → List RType
  | [] => []
  | t :: ts => flatten t :: flattenAll ts
end

/-! ## Types -/

/-- The types for primitive Hive types (hive_metastore.py 52-72, 91-138); `x` holds the name and
the doc of the column. -/
def primitive (x : Attrs) : Primitive → Except PyErr RType
  | .boolean => .ok (.bool x)
  | .byte => .ok (.int (.int 8) (.bool true) x)
  | .short => .ok (.int (.int 16) (.bool true) x)
  | .int => .ok (.int (.int 32) (.bool true) x)
  | .long => .ok (.int (.int 64) (.bool true) x)
  | .float => .ok (.float (.int 32) x)
  | .double => .ok (.float (.int 64) x)
  | .void => .ok (.null x)
  | .string => .ok (.string .none (.bool true) x)
  | .binary => .ok (.bytes (.int 2147483647) (.bool true) x)
  | .date => .ok (.int (.int 32) (.bool true)
      { x with logical := .str "build.recap.Date", extra := ("unit", .str "day") :: x.extra })
  | .timestamp => .ok (.int (.int 64) (.bool true)
      { x with logical := .str "build.recap.Timestamp",
               extra := ("unit", .str "nanosecond") :: ("timezone", .str "UTC") :: x.extra })
  | .timestampLocalTz => .ok (.int (.int 64) (.bool true)
      { x with logical := .str "build.recap.Timestamp",
               extra := ("unit", .str "nanosecond") :: ("timezone", .none) :: x.extra })
  | .intervalYearMonth => .ok (.bytes (.int 12) (.bool true)
      { x with logical := .str "build.recap.Interval",
               extra := ("signed", .bool true) :: ("unit", .str "month") :: x.extra })
  | .intervalDayTime => .ok (.bytes (.int 12) (.bool true)
      { x with logical := .str "build.recap.Interval",
               extra := ("signed", .bool true) :: ("unit", .str "second") :: x.extra })
  | .other => .error .valueError

/-- The last step: everything but unions and nulls is made nullable
(hive_metastore.py 165-171). -/
def finish (t : RType) : RType := if t.isUnion || t.isNull then t else makeNullable t

/-- The name and the doc of a column (hive_metastore.py 46-49). -/
def columnAttrs (name : String) (comment : Option String) : Attrs :=
  { doc := match comment with
      | some c => if c = "" then .none else .str c
      | .none => .none
    extra := [("name", .str name)] }

mutual
/-- `_parse_schema` (hive_metastore.py 43-171); `x` is `extra_attrs`. -/
def parse (x : Attrs) : HType → Except PyErr RType
  | .prim c => do
    let t ← primitive x c
    pure (finish t)
  | .decimal p s =>
    if p > 38 then .error .valueError
    else pure (finish (.bytes (.int 16) (.bool false)
      { x with logical := .str "build.recap.Decimal",
               extra := ("precision", .int p) :: ("scale", .int s) :: x.extra }))
  | .varchar n => pure (finish (.string (.int n) (.bool true) x))
  | .char n => pure (finish (.string (.int n) (.bool false) x))
  | .map k v => do
    let k ← parse {} k
    let v ← parse {} v
    pure (finish (.map k v x))
  | .list e => do
    let e ← parse {} e
    pure (finish (.list e .none (.bool true) x))
  | .union ts => do
    let ts ← parseAll ts
    pure (finish (flatten (.union (.null {} :: ts)
      { x with extra := ("default", .none) :: x.extra })))
  | .struct fs => do
    let fs ← parseFields fs
    pure (finish (.struct fs x))
/-- The members of a union (hive_metastore.py 152). -/
def parseAll : List HType → Except PyErr (List RType)
  | [] => pure []
  | t :: ts => do
    let t ← parse {} t
    let ts ← parseAll ts
    pure (t :: ts)
/-- The fields of a struct (hive_metastore.py 157-159). -/
def parseFields : List (String × HType) → Except PyErr (List RType)
  | [] => pure []
  | (n, t) :: fs => do
    let t ← parse (columnAttrs n .none) t
    let fs ← parseFields fs
    pure (t :: fs)
end

/-- The loop over the columns of a table (hive_metastore.py 37-40). -/
def parseColumns : List HColumn → Except PyErr (List RType)
  | [] => pure []
  | c :: cs => do
    let t ← parse (columnAttrs c.name c.comment) c.type
    let ts ← parseColumns cs
    pure (t :: ts)

/-- `to_recap(table)` (hive_metastore.py 33-41). -/
def toRecap (table : HTable) : Except PyErr RType := do
  let fs ← parseColumns table.columns
  pure (.struct fs { extra := [("name", .str table.name)] })

end Recap.Hive
