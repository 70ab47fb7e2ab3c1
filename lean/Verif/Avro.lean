import Verif.Weight

/-!
# Model of `recap/converters/avro.py`

Every definition cites the lines of `/repo/recap/converters/avro.py` it models.

What is simplified:
* a JSON document is the value that `json.loads` makes of it (line 247);
* a name that is a list or a dictionary, and a namespace that is neither a string nor null, are
  `unmodelled`;
* the registry of the converter (23-24) is an argument and a result of the functions; what it is
  after an error is not modelled.  A reference to it is a reference to the live registry.
-/

set_option autoImplicit false

namespace Recap.Avro

/-- 9_223_372_036_854_775_807. -/
def maxLong : Int := 9223372036854775807

/-- The value that the pattern `int(x)` binds; Python's `bool` is a subclass of `int`. -/
def asInt : PyVal → Option Int
  | .int i => some i
  | .bool b => some (boolInt b)
  | _ => .none

/-- `"." in s`. -/
def hasDot (s : String) : Bool := s.toList.contains '.'

/-! ## From Avro -/

/-- `s.rsplit(".", 1)` of a string with a dot (270). -/
def rsplitDot (s : String) : String × String :=
  let r := s.toList.reverse
  (String.ofList ((r.dropWhile (· ≠ '.')).drop 1).reverse, String.ofList (r.takeWhile (· ≠ '.')).reverse)

/-- The namespace and the name of a schema, where `ns` is the namespace around it (267-274). -/
def fullName (ns : Option String) (name : String) : String × String :=
  let (ns, name) := if hasDot name then
      let (a, b) := rsplitDot name
      (some a, b)
    else (ns, name)
  match ns with
  | some ns => (if ns = "" then "_root" else ns, name)
  | .none => ("_root", name)

/-- The entry `key` of the dictionary, if there is one (59-60, 263-264, 275-276). -/
def copied (d : Dict) (key : String) : Dict :=
  match Dict.get? d key with
  | some v => [(key, v)]
  | .none => []

/-- The namespace after lines 265-266. -/
def namespaceOf (d : Dict) (ns : Option String) : Except PyErr (Option String) :=
  match Dict.get? d "namespace" with
  | .none => .ok ns
  | some .none => .ok .none
  | some (.str s) => .ok (some s)
  | some _ => .error .unmodelled

/-- The namespace, the alias and `extra_attrs` after lines 257-276. -/
def header (d : Dict) (ns : Option String) : Except PyErr (Option String × PyVal × Dict) := do
  let ns ← namespaceOf d ns
  match Dict.get? d "name" with
  | .none => pure (ns, .none, copied d "doc" ++ copied d "default")
  | some (.str s) =>
    let (n, name) := fullName ns s
    pure (some n, .str (n ++ "." ++ name), copied d "doc" ++ ("name", .str name) :: copied d "default")
  | some (.list _) | some (.dict _) => .error .unmodelled
  | some _ => .error .typeError

/-- The common attributes of a type made with `logical=...`, `alias=...`, attributes of its own and
`**extra_attrs`. -/
def attrsOf (e : Dict) (alias : PyVal := .none) (logical : PyVal := .none) (own : Dict := []) : Attrs where
  logical := logical
  alias := alias
  doc := Dict.getD e "doc" .none
  extra := own ++ e.filter (fun kv => kv.1 ≠ "doc")

/-- `self.registry.register_alias(return_type)`, if it has an alias (357-360). -/
def registered (t : RType) (reg : Registry) : Except PyErr (RType × Registry) :=
  match t.attrs.alias with
  | .none => .ok (t, reg)
  | _ => do
    let reg ← reg.registerAlias t
    pure (t, reg)

/-- The primitive types (281-298, 308-313). -/
def primitive (s : String) (a : Attrs) : Option RType :=
  if s = "null" then some (.null a)
  else if s = "boolean" then some (.bool a)
  else if s = "int" then some (.int (.int 32) (.bool true) a)
  else if s = "long" then some (.int (.int 64) (.bool true) a)
  else if s = "float" then some (.float (.int 32) a)
  else if s = "double" then some (.float (.int 64) a)
  else if s = "bytes" then some (.bytes (.int maxLong) (.bool true) a)
  else if s = "string" then some (.string (.int maxLong) (.bool true) a)
  else .none

/-- `_parse_logical` (362-434) of a dictionary with this logical type. -/
def parseLogical (logical : PyVal) (d e : Dict) : Except PyErr RType :=
  if logical = .str "decimal" then
    match Dict.get? d "type", Dict.get? d "precision" with
    | some type, some precision =>
      .ok (.bytes (Dict.getD d "size" (.int maxLong)) (.bool (PyVal.pyEq type (.str "fixed")))
        (attrsOf e (logical := .str "build.recap.Decimal")
          (own := [("precision", precision), ("scale", Dict.getD d "scale" (.int 0))])))
    | _, _ => .error .keyError
  else if logical = .str "uuid" then
    .ok (.string (.int 36) (.bool false) (attrsOf e (logical := .str "build.recap.UUID")))
  else if logical = .str "date" then
    .ok (.int (.int 32) (.bool true) (attrsOf e (logical := .str "build.recap.Date")
      (own := [("unit", .str "day")])))
  else if logical = .str "time-millis" then
    .ok (.int (.int 32) (.bool true) (attrsOf e (logical := .str "build.recap.Time")
      (own := [("unit", .str "millisecond")])))
  else if logical = .str "time-micros" then
    .ok (.int (.int 64) (.bool true) (attrsOf e (logical := .str "build.recap.Time")
      (own := [("unit", .str "microsecond")])))
  else if logical = .str "timestamp-millis" then
    .ok (.int (.int 64) (.bool true) (attrsOf e (logical := .str "build.recap.Timestamp")
      (own := [("unit", .str "millisecond")])))
  else if logical = .str "timestamp-micros" then
    .ok (.int (.int 64) (.bool true) (attrsOf e (logical := .str "build.recap.Timestamp")
      (own := [("unit", .str "microsecond")])))
  else if logical = .str "duration" then
    -- `signed` is no parameter of `BytesType`
    .ok (.bytes (.int 12) (.bool true) (attrsOf e (logical := .str "build.recap.Interval")
      (own := [("signed", .bool true), ("unit", .str "millisecond")])))
  else .error .valueError

/-- `[self._parse(x, namespace) for x in xs]` (315-318, 335), for `f` = `_parse`. -/
def parseAll (f : PyVal → Option String → Registry → Except PyErr (RType × Registry)) (ns : Option String) :
    List PyVal → Registry → Except PyErr (List RType × Registry)
  | [], reg => .ok ([], reg)
  | x :: xs, reg => do
    let (t, reg) ← f x ns reg
    let (ts, reg) ← parseAll f ns xs reg
    pure (t :: ts, reg)

/-- A reference to a type (339-344). -/
def reference (ns : Option String) (e : Dict) (s : String) : RType :=
  .proxy .none (attrsOf e (alias := .str (if hasDot s then s else ns.getD "None" ++ "." ++ s)))

/-- The keys of `map` types (326). -/
def stringKeys : RType := .string (.int maxLong) (.bool true) {}

/-- The types whose name is no primitive type (299-307, 314-344), for `f` = `_parse`. -/
def parseComplex (f : PyVal → Option String → Registry → Except PyErr (RType × Registry))
    (ns : Option String) (alias : PyVal) (e d : Dict) (s : String) (reg : Registry) :
    Except PyErr (RType × Registry) :=
  let a := attrsOf e alias
  if s = "fixed" then
    match Dict.get? d "size" with
    | some v => match asInt v with
      | some size => if size ≤ maxLong then registered (.bytes v (.bool true) a) reg
        else .ok (reference ns e s, reg)
      | .none => .ok (reference ns e s, reg)
    | .none => .ok (reference ns e s, reg)
  else if s = "record" then
    match Dict.get? d "fields" with
    | some v => do
      let xs ← v.iter
      let (ts, reg) ← parseAll f ns xs reg
      registered (.struct ts a) reg
    | .none => .ok (reference ns e s, reg)
  else if s = "enum" then
    match Dict.get? d "symbols" with
    | some v => registered (.enum v a) reg
    | .none => .ok (reference ns e s, reg)
  else if s = "array" then
    match Dict.get? d "items" with
    | some v => do
      let (t, reg) ← f v ns reg
      registered (.list t .none (.bool true) a) reg
    | .none => .ok (reference ns e s, reg)
  else if s = "map" then
    match Dict.get? d "values" with
    | some v => do
      let (t, reg) ← f v ns reg
      registered (.map stringKeys t a) reg
    | .none => .ok (reference ns e s, reg)
  else if s = "union" then
    match Dict.get? d "types" with
    | some v => do
      let xs ← v.iter
      let (ts, reg) ← parseAll f ns xs reg
      registered (.union ts a) reg
    | .none => .ok (reference ns e s, reg)
  else .ok (reference ns e s, reg)

/-- The `match` on a dictionary (280-360), for `f` = `_parse`. -/
def parseType (f : PyVal → Option String → Registry → Except PyErr (RType × Registry))
    (ns : Option String) (alias : PyVal) (e d : Dict) (reg : Registry) : Except PyErr (RType × Registry) :=
  match Dict.get? d "type" with
  | some (.str s) =>
    match primitive s (attrsOf e alias) with
    | some t => registered t reg
    | .none => parseComplex f ns alias e d s reg
  | some (.list xs) => do
    let (ts, reg) ← parseAll f ns xs reg
    registered (.union ts (attrsOf e alias)) reg
  | some (.dict d') => do
    let (t, reg) ← f (.dict d') ns reg
    -- also the documentation ends up among the other attributes
    pure (t.withAttrs { t.attrs with extra := Dict.update t.attrs.extra e }, reg)
  | _ => .error .valueError

/-- Lines 263-360 of a dictionary, for `f` = `_parse`. -/
def parseDict (f : PyVal → Option String → Registry → Except PyErr (RType × Registry))
    (d : Dict) (ns : Option String) (reg : Registry) : Except PyErr (RType × Registry) := do
  let (ns, alias, e) ← header d ns
  let logical := Dict.getD d "logicalType" .none
  if logical.truthy then do
    let t ← parseLogical logical d e
    pure (t, reg)
  else parseType f ns alias e d reg

/-- `_parse` (252-360) with a bound on the recursion depth.  A list can be searched for keys, but not
be indexed by them, and has no `get`. -/
def parseF : Nat → PyVal → Option String → Registry → Except PyErr (RType × Registry)
  | 0, _, _, _ => .error .fuel
  | n + 1, .str s, ns, reg => parseDict (parseF n) [("type", .str s)] ns reg
  | n + 1, .dict d, ns, reg => parseDict (parseF n) d ns reg
  | _ + 1, .list xs, _, _ =>
    if ["doc", "namespace", "name", "default"].any (fun k => xs.any (PyVal.pyEq (.str k))) then
      .error .typeError
    else .error .attributeError
  | _ + 1, _, _, _ => .error .typeError

/-- `_parse` (252-360). -/
def parse (v : PyVal) (ns : Option String) (reg : Registry) : Except PyErr (RType × Registry) :=
  parseF v.size v ns reg

/-- `to_recap` (241-250) of the document `v` with a converter whose registry is `reg`. -/
def toRecap (v : PyVal) (ns : Option String) (reg : Registry) : Except PyErr (RType × Registry) := do
  let (t, reg) ← parse v ns reg
  match t with
  | .struct .. => pure (t, reg)
  | _ => .error .valueError

/-! ## To Avro -/

/-- `if recap_type.doc` (53-54). -/
def docOf (a : Attrs) : Dict := if a.doc.truthy then [("doc", a.doc)] else []

/-- `if name := recap_type.extra_attrs.get("name")` (56-57). -/
def nameOf (a : Attrs) : Dict :=
  match Dict.get? a.extra "name" with
  | some v => if v.truthy then [("name", v)] else []
  | .none => []

/-- `if (alias := recap_type.alias) and "." in alias` (62-67). -/
def aliasesOf (a : Attrs) : Except PyErr Dict :=
  if a.alias.truthy then
    match a.alias with
    | .str s => .ok (if hasDot s then [("aliases", .list [.str s])] else [])
    | .list _ | .dict _ => .error .unmodelled
    | _ => .error .typeError
  else .ok []

/-- What all types have (51-67). -/
def describe (a : Attrs) : Except PyErr Dict := do
  let aliases ← aliasesOf a
  pure (docOf a ++ nameOf a ++ copied a.extra "default" ++ aliases)

/-- `str(n)` has more digits than Python writes by default (`sys.int_info.default_max_str_digits`). -/
def digitLimit : Nat := 4300

/-- The schema of an integer type (76-88). -/
def intSchema (bits : Int) (signed : Bool) : Except PyErr Dict :=
  if signed = true ∧ bits ≤ 32 then .ok [("type", .str "int")]
  else if (bits ≤ 32 ∧ signed = false) ∨ (bits ≤ 64 ∧ signed = true) then .ok [("type", .str "long")]
  else
    let digits := (Nat.toDigits 10 (2 ^ (bits - if signed then 1 else 0).toNat)).length
    if digitLimit < digits then .error .valueError
    else .ok [("type", .str "bytes"), ("logicalType", .str "decimal"), ("precision", .int (digits - 1))]

/-- The schema of a logical type (158-239). -/
def logicalSchema (t : RType) : Except PyErr Dict :=
  match t with
  | .bytes b v a =>
    if (asInt b).any (· ≤ maxLong) ∧ (v = .bool true ∨ v = .bool false) ∧
        a.logical = .str "build.recap.Decimal" ∧ ((Dict.get? a.extra "precision").bind asInt).isSome then
      .ok [("type", .str "bytes"), ("logicalType", .str "decimal"),
        ("precision", Dict.getD a.extra "precision" .none), ("scale", Dict.getD a.extra "scale" (.int 0))]
    else if b = .int 12 ∧ v = .bool false ∧ a.logical = .str "build.recap.Interval" ∧
        Dict.get? a.extra "unit" = some (.str "millisecond") then
      .ok [("type", .str "fixed"), ("logicalType", .str "duration"), ("size", .int 12)]
    else .error .valueError
  | .int b s a =>
    let unit := Dict.get? a.extra "unit"
    match asInt b with
    | .none => .error .valueError
    | some bits =>
      if s ≠ .bool true then .error .valueError
      else if bits ≤ 32 ∧ a.logical = .str "build.recap.Date" then
        .ok [("type", .str "int"), ("logicalType", .str "date")]
      else if bits ≤ 32 ∧ a.logical = .str "build.recap.Time" ∧ unit = some (.str "millisecond") then
        .ok [("type", .str "int"), ("logicalType", .str "time-millis")]
      else if bits ≤ 64 ∧ a.logical = .str "build.recap.Time" ∧ unit = some (.str "microsecond") then
        .ok [("type", .str "long"), ("logicalType", .str "time-micros")]
      else if bits ≤ 64 ∧ a.logical = .str "build.recap.Timestamp" ∧ unit = some (.str "millisecond") then
        .ok [("type", .str "long"), ("logicalType", .str "timestamp-millis")]
      else if bits ≤ 64 ∧ a.logical = .str "build.recap.Timestamp" ∧ unit = some (.str "microsecond") then
        .ok [("type", .str "long"), ("logicalType", .str "timestamp-micros")]
      else .error .valueError
  | .string b _ a =>
    if (asInt b).any (· ≤ maxLong) ∧ a.logical = .str "build.recap.UUID" then
      .ok [("type", .str "string"), ("logicalType", .str "uuid")]
    else .error .valueError
  | _ => .error .valueError

/-- The schema of a type without nested types and without logical type (72-105, 120-122). -/
def leafSchema (t : RType) : Except PyErr Dict :=
  match t with
  | .null _ => .ok [("type", .str "null")]
  | .bool _ => .ok [("type", .str "boolean")]
  | .int b s _ =>
    match asInt b, s with
    | some bits, .bool signed => intSchema bits signed
    | _, _ => .error .valueError
  | .float b _ =>
    match asInt b with
    | some bits =>
      if bits ≤ 32 then .ok [("type", .str "float")]
      else if bits ≤ 64 then .ok [("type", .str "double")]
      else .error .valueError
    | .none => .error .valueError
  | .string b _ _ =>
    if (asInt b).any (· ≤ maxLong) then .ok [("type", .str "string")] else .error .valueError
  | .bytes b v _ =>
    if (asInt b).any (· ≤ maxLong) then
      if v = .bool true then .ok [("type", .str "bytes")]
      else if v = .bool false then .ok [("type", .str "fixed"), ("size", b)]
      else .error .valueError
    else .error .valueError
  | .enum symbols _ =>
    match symbols with
    | .list _ => .ok [("type", .str "enum"), ("symbols", symbols)]
    | _ => .error .valueError
  | _ => .error .valueError

/-- `{"type": "type"}` becomes `"type"` (152-154). -/
def shorten (d : Dict) : PyVal :=
  match d with
  | [("type", .str s)] => .str s
  | _ => .dict d

/-- A record field (110-117). -/
def fieldSchema : PyVal → PyVal
  | .str s => .dict [("type", .str s)]
  | v => v

/-- `self._from_recap(t)` for all types in turn (109-118, 133), for `f` = `_from_recap`. -/
def convertAll (f : RType → Except PyErr PyVal) : List RType → Except PyErr (List PyVal)
  | [] => .ok []
  | t :: ts => do
    let v ← f t
    let vs ← convertAll f ts
    pure (v :: vs)

/-- A string key type (127). -/
def isString : RType → Bool
  | .string .. => true
  | _ => false

/-- `_from_recap` (39-156) with a bound on the recursion depth, where `live` is the registry that
the references use. -/
def convertF (live : Registry) : Nat → RType → Except PyErr PyVal
  | 0, _ => .error .fuel
  | n + 1, t => do
    let s ← describe t.attrs
    match t.attrs.logical with
    | .str _ => do
      let d ← logicalSchema t
      pure (shorten (Dict.update s d))
    | _ =>
      match t with
      | .struct fs _ => do
        let vs ← convertAll (convertF live n) fs
        pure (shorten (Dict.update s [("type", .str "record"), ("fields", .list (vs.map fieldSchema))]))
      | .list u _ _ _ => do
        let v ← convertF live n u
        pure (shorten (Dict.update s [("type", .str "array"), ("items", v)]))
      | .map k u _ =>
        if isString k then do
          let v ← convertF live n u
          pure (shorten (Dict.update s [("type", .str "map"), ("values", v)]))
        else .error .valueError
      | .union ts _ => do
        let vs ← convertAll (convertF live n) ts
        pure (shorten (Dict.update s [("type", .list vs)]))
      | .proxy r a =>
        match a.alias with
        | .str alias =>
          if hasDot alias then
            pure (shorten (Dict.erase (Dict.set s "type" (.str alias)) "aliases"))
          else do
            let u ← resolve live r a
            let v ← convertF live n u
            match v with
            | .dict d => pure (shorten (Dict.erase (Dict.update s d) "aliases"))
            | _ => pure (shorten (Dict.erase (Dict.set s "type" (.str alias)) "aliases"))
        | _ => .error .valueError
      | t => do
        let d ← leafSchema t
        pure (shorten (Dict.update s d))

/-- `from_recap` (26-37), where `live` is the registry that the references use.  The bound on the
recursion is enough when `live` was made by `register_alias` (`fromRecap_ne_fuel`). -/
def fromRecap (live : Registry) (t : RType) : Except PyErr Dict := do
  let v ← convertF live (weight (weightReg 0 live) t) t
  match v with
  | .dict d => pure d
  | v => pure [("type", v)]

end Recap.Avro
