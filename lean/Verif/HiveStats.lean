import Verif.Hive

/-!
# Statistics of the Hive Metastore client

Model of `HiveMetastoreClient.schema` and `_load_stats` (`recap/clients/hive_metastore.py` 68-129).

Simplifications: what `get_table` and `get_table_stats` return is a parameter; the numbers in statistics are
Python values, among them the `Decimal` objects of the metastore, which the code only passes on; the fields of a
table are changed one after the other in a list, because no two fields of a converted table are the same object.
-/

set_option autoImplicit false

namespace Recap.Hive

/-- The classes of `pymetastore.stats` that the client names (hive_metastore.py 7-16), with the attributes that it reads;
the bounds of dates are their `daysSinceEpoch`.  `other` is any further subclass of `TypeStats` and `foreign` any object
that is no `TypeStats`. -/
inductive Stats where
  | long (low high cardinality nulls : PyVal)
  | double (low high cardinality nulls : PyVal)
  | date (low high : Option PyVal) (cardinality nulls : PyVal)
  | string (average max cardinality nulls : PyVal)
  | boolean (trues falses nulls : PyVal)
  | binary (average max nulls : PyVal)
  | decimal (low high : Option PyVal) (cardinality nulls : PyVal)
  | other (nulls : PyVal)
  | foreign

/-- `stats[k] = v` unless the value is None (hive_metastore.py 99-102, 121-124). -/
def bound (k : String) (v : Option PyVal) (d : Dict) : Dict :=
  match v with
  | some v => Dict.set d k v
  | .none => d

/-- What is added to the extra attributes of a field (hive_metastore.py 87-125). -/
def Stats.attrs : Stats → Dict
  | .long low high cardinality _ | .double low high cardinality _ =>
    [("low", low), ("high", high), ("cardinality", cardinality)]
  | .date low high cardinality _ => bound "high" high (bound "low" low [("cardinality", cardinality)])
  | .string average max cardinality _ =>
    [("average_length", average), ("max_length", max), ("cardinality", cardinality)]
  | .boolean trues falses _ => [("true_count", trues), ("false_count", falses)]
  | .binary average max _ => [("average_length", average), ("max_length", max)]
  | .decimal low high cardinality _ => bound "high" high (bound "low" low [("cardinality", cardinality)])
  | .other _ | .foreign => []

/-- `col_stats.stats.numNulls`, if these are `TypeStats` (hive_metastore.py 127-128). -/
def Stats.nulls : Stats → Option PyVal
  | .long _ _ _ n | .double _ _ _ n | .date _ _ _ n | .string _ _ _ n | .boolean _ _ n | .binary _ _ n
  | .decimal _ _ _ n | .other n => some n
  | .foreign => .none

/-- The statistics of a column: `columnName` and `stats`. -/
structure ColumnStats where
  name : String
  stats : Option Stats

/-- A field after the statistics were added to it (hive_metastore.py 86-129). -/
def addStats (s : Stats) (t : RType) : RType :=
  let extra := Dict.update t.attrs.extra s.attrs
  t.withAttrs { t.attrs with extra := match s.nulls with
    | some n => Dict.set extra "null_count" n
    | .none => extra }

/-- `{f.extra_attrs["name"]: f for f in fields}` (hive_metastore.py 80): the keys, with the places of the fields. -/
def index : Nat → List RType → Except PyErr (List (PyVal × Nat))
  | _, [] => pure []
  | i, t :: ts =>
    match Dict.get? t.attrs.extra "name" with
    | .none => .error .keyError
    | some n => do
      let rest ← index (i + 1) ts
      pure ((n, i) :: rest)

/-- `fields_dict[name]` (hive_metastore.py 84): of the fields with this name the last one. -/
def lookup (ns : List (PyVal × Nat)) (name : String) : Option Nat :=
  (ns.reverse.find? (fun p => p.1 = .str name)).map (·.2)

/-- The loop over the statistics (hive_metastore.py 82-129). -/
def loadAll (ns : List (PyVal × Nat)) : List ColumnStats → List RType → Except PyErr (List RType)
  | [], fs => pure fs
  | c :: cs, fs =>
    match c.stats with
    | .none => loadAll ns cs fs
    | some s =>
      match lookup ns c.name with
      | .none => .error .keyError
      | some i => loadAll ns cs (fs.modify i (addStats s))

/-- `_load_stats` (hive_metastore.py 79-129): the fields afterwards. -/
def loadStats (stats : List ColumnStats) (fs : List RType) : Except PyErr (List RType) := do
  let ns ← index 0 fs
  loadAll ns stats fs

/-- `schema(database, table, include_stats)` (hive_metastore.py 68-77). -/
def clientSchema (table : HTable) (stats : List ColumnStats) (includeStats : Bool) : Except PyErr RType := do
  let t ← toRecap table
  if includeStats then
    match t with
    | .struct fs a => do
      let fs ← loadStats stats fs
      pure (.struct fs a)
    | t => pure t
  else pure t

end Recap.Hive
