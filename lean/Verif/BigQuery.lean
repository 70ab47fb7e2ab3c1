import Verif.Types

/-!
# The converter for BigQuery

Model of `recap/converters/bigquery.py`.
-/

set_option autoImplicit false

namespace Recap.BigQuery

open RType

/-- `bigquery.SchemaField`: the properties that the converter reads.  All but the type, the mode
and the nested fields may be absent and are arbitrary values. -/
inductive Field where
  | mk (fieldType mode : String) (name description dflt maxLength precision scale : PyVal)
      (fields : List Field)

/-- `v or d`. -/
def orElse (v d : PyVal) : PyVal := if v.truthy then v else d

/-- `t.extra_attrs[key] = v`. -/
def setExtra (t : RType) (key : String) (v : PyVal) : RType :=
  t.withAttrs { t.attrs with extra := Dict.set t.attrs.extra key v }

/-- The `match` on the type of a field that is not a record (bigquery.py 20-72). -/
def scalar (fieldType : String) (maxLength precision scale : PyVal) : Except PyErr RType :=
  if ["STRING", "JSON"].contains fieldType then .ok (.string maxLength (.bool true) {})
  else if fieldType == "BYTES" then .ok (.bytes maxLength (.bool true) {})
  else if ["INT64", "INTEGER", "INT", "SMALLINT", "TINYINT", "BYTEINT"].contains fieldType then
    .ok (.int (.int 64) (.bool true) {})
  else if ["FLOAT", "FLOAT64"].contains fieldType then .ok (.float (.int 64) {})
  else if fieldType == "BOOLEAN" then .ok (.bool {})
  else if ["TIMESTAMP", "DATETIME"].contains fieldType then
    .ok (.int (.int 64) (.bool true)
      { logical := .str "build.recap.Timestamp", extra := [("unit", .str "microsecond")] })
  else if fieldType == "TIME" then
    .ok (.int (.int 32) (.bool true)
      { logical := .str "build.recap.Time", extra := [("unit", .str "microsecond")] })
  else if fieldType == "DATE" then
    .ok (.int (.int 32) (.bool true)
      { logical := .str "build.recap.Date", extra := [("unit", .str "day")] })
  else if ["NUMERIC", "DECIMAL"].contains fieldType then
    .ok (.bytes (.int 16) (.bool false)
      { logical := .str "build.recap.Decimal",
        extra := [("precision", orElse precision (.int 38)), ("scale", orElse scale (.int 0))] })
  else if ["BIGNUMERIC", "BIGDECIMAL"].contains fieldType then
    .ok (.bytes (.int 32) (.bool false)
      { logical := .str "build.recap.Decimal",
        extra := [("precision", orElse precision (.int 76)), ("scale", orElse scale (.int 0))] })
  else .error .valueError

/-- `field_type.doc = description`. -/
def setDoc (t : RType) (v : PyVal) : RType := t.withAttrs { t.attrs with doc := v }

/-- The rest of the loop body, after the `match` (bigquery.py 74-83). -/
def decorate (mode : String) (name description dflt : PyVal) (t : RType) : RType :=
  let t := if mode == "REPEATED" then .list t .none (.bool true) {} else t
  let t := if mode == "NULLABLE" then makeNullable t else t
  let t := if name.truthy then setExtra t "name" name else t
  let t := if description.truthy then setDoc t description else t
  if dflt.truthy then setExtra t "default" dflt else t

mutual
/-- The loop body of `to_recap` (bigquery.py 19-85).  The case of records comes first here; no
other case has the same names. -/
def fieldOf : Field → Except PyErr RType
  | .mk fieldType mode name description dflt maxLength precision scale fields =>
    if ["RECORD", "STRUCT"].contains fieldType then do
      let fs ← fieldsOf fields
      pure (decorate mode name description dflt (.struct fs {}))
    else do
      let t ← scalar fieldType maxLength precision scale
      pure (decorate mode name description dflt t)
/-- The loop of `to_recap` (bigquery.py 18-85). -/
def fieldsOf : List Field → Except PyErr (List RType)
  | [] => pure []
  | f :: fs => do
    let t ← fieldOf f
    let ts ← fieldsOf fs
    pure (t :: ts)
end

/-- `to_recap(fields)` (bigquery.py 17-87). -/
def toRecap (fields : List Field) : Except PyErr RType := do
  let fs ← fieldsOf fields
  pure (.struct fs {})

end Recap.BigQuery
