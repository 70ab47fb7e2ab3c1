import Verif.Weight
import Verif.Url

/-!
# Model of `recap/converters/json_schema.py`

Every definition cites the lines of `/repo/recap/converters/json_schema.py` it models.

What is simplified:
* a JSON document is the value that `json.loads` makes of it (line 45);
* of the library `referencing` only this is modelled: a resource has the identifier that its `$id`
  gives, without trailing `#`, and a registry finds the resources added to it by that identifier.
  `$schema` is not looked at.  References to anything else are retrieved from the network or from
  parts of the added resources (lines 126-134); they are `unmodelled`;
* the alias strategy is the default one (line 44).
-/

set_option autoImplicit false

namespace Recap.Json

open Recap.Url

/-- The identifiers in the registry of resources, `self.json_registry` (35-37). -/
abbrev Ids := List Chars

/-! ## From JSON Schema -/

/-- `s.rstrip("#")`. -/
def rstripHash (s : Chars) : Chars := (s.reverse.dropWhile (· = '#')).reverse

/-- `s.strip(".")` (303). -/
def stripDots (s : Chars) : Chars := ((s.dropWhile (· = '.')).reverse.dropWhile (· = '.')).reverse

/-- `[a-zA-Z0-9]` (297). -/
def isAlnum (c : Char) : Bool := ('a' ≤ c && c ≤ 'z') || ('A' ≤ c && c ≤ 'Z') || ('0' ≤ c && c ≤ '9')

/-- `re.sub(r"[^a-zA-Z0-9]", ".", path).lower()` (297-298); only ASCII letters are left to lower. -/
def dotted (path : Chars) : Chars := path.map (fun c => if isAlnum c then c.toLower else '.')

/-- `urn_to_alias` (269-305). -/
def urnToAlias (env : Env) (urn : Chars) : Except PyErr Chars := do
  let (s, _) ← urlparse env urn
  let domain := joinWith '.' (splitOn '.' s.netloc).reverse
  let path := dotted (s.path ++ s.fragment)
  pure (if path ≠ [] ∧ path ≠ ['.'] then domain ++ '.' :: stripDots path else domain)

/-- The entry `key` of the dictionary under the name `to`, if there is one (61-64). -/
def copied (d : Dict) (key to : String) : Dict :=
  match Dict.get? d key with
  | some v => [(to, v)]
  | .none => []

/-- `extra_attrs` and the registry of resources after lines 56-70.  A value that is no dictionary
cannot be searched for keys, or, if it is a list with such an element, not be indexed by them. -/
def extraAttrs (env : Env) (v : PyVal) (ids : Ids) : Except PyErr (Dict × Ids) :=
  match v with
  | .dict d =>
    let e := copied d "description" "doc" ++ copied d "default" "default"
    match Dict.get? d "$id" with
    | .none => .ok (e, ids)
    | some (.str s) => do
      let id := rstripHash s.toList
      let alias ← urnToAlias env id
      pure (e ++ [("alias", .str (String.ofList alias))], ids ++ [id])
    | some .none => .error .assertionError
    | some _ => .error .attributeError
  | .list xs =>
    if xs.any (PyVal.pyEq (.str "description")) || xs.any (PyVal.pyEq (.str "default")) then
      .error .typeError
    else if xs.any (PyVal.pyEq (.str "$id")) then .error .attributeError
    else .ok ([], ids)
  | _ => .error .typeError

/-- The common attributes of a type made with `logical=...` and `**extra_attrs`. -/
def attrsOf (e : Dict) (logical : PyVal := .none) : Attrs where
  logical := logical
  alias := Dict.getD e "alias" .none
  doc := Dict.getD e "doc" .none
  extra := e.filter (fun kv => kv.1 = "default")

/-- A field that need not be given: it can be null, and has a default (85-90). -/
def optionalField (t : RType) : RType :=
  let t := if t.isNullable then t else t.makeNullable
  if Dict.has t.attrs.extra "default" then t
  else t.withAttrs { t.attrs with extra := Dict.set t.attrs.extra "default" .none }

/-- `field.extra_attrs["name"] = name` (92). -/
def named (name : String) (t : RType) : RType :=
  t.withAttrs { t.attrs with extra := Dict.set t.attrs.extra "name" (.str name) }

/-- `[self._parse(s, alias_strategy) for s in type_list]` (76), for `f` = `_parse`. -/
def parseAll (f : PyVal → Ids → Except PyErr (RType × Ids)) :
    List PyVal → Ids → Except PyErr (List RType × Ids)
  | [], ids => .ok ([], ids)
  | x :: xs, ids => do
    let (t, ids) ← f x ids
    let (ts, ids) ← parseAll f xs ids
    pure (t :: ts, ids)

/-- The loop over the properties (80-93), for `f` = `_parse`. -/
def parseProps (f : PyVal → Ids → Except PyErr (RType × Ids)) (required : PyVal) :
    Dict → Ids → Except PyErr (List RType × Ids)
  | [], ids => .ok ([], ids)
  | (name, prop) :: rest, ids => do
    let (t, ids) ← f prop ids
    let listed ← required.containsStr name
    let (ts, ids) ← parseProps f required rest ids
    pure (named name (if listed then t else optionalField t) :: ts, ids)

/-- A reference (116-134): to a resource that was added already. -/
def parseRef (env : Env) (e : Dict) (urn : String) (ids : Ids) : Except PyErr (RType × Ids) :=
  if rstripHash urn.toList ∈ ids then do
    let alias ← urnToAlias env (rstripHash urn.toList)
    -- the alias is given twice
    if Dict.has e "alias" then .error .typeError
    else pure (.proxy .none { attrsOf e with alias := .str (String.ofList alias) }, ids)
  else .error .unmodelled

/-- The type of a string with this format (98-107). -/
def parseString (e : Dict) (format : Option PyVal) : RType :=
  if format = some (.str "bytes") then .bytes .none (.bool true) (attrsOf e)
  else if format = some (.str "date") then
    .string .none (.bool true) (attrsOf e (.str "org.iso.8601.Date"))
  else if format = some (.str "date-time") then
    .string .none (.bool true) (attrsOf e (.str "org.iso.8601.DateTime"))
  else if format = some (.str "time") then
    .string .none (.bool true) (attrsOf e (.str "org.iso.8601.Time"))
  else .string .none (.bool true) (attrsOf e)

/-- The cases without nested schemas (98-136). -/
def parseLeaf (env : Env) (e d : Dict) (ids : Ids) : Except PyErr (RType × Ids) :=
  let type := Dict.get? d "type"
  if type = some (.str "string") then .ok (parseString e (Dict.get? d "format"), ids)
  else if type = some (.str "number") then .ok (.float (.int 64) (attrsOf e), ids)
  else if type = some (.str "integer") then .ok (.int (.int 32) (.bool true) (attrsOf e), ids)
  else if type = some (.str "boolean") then .ok (.bool (attrsOf e), ids)
  else if type = some (.str "null") then .ok (.null (attrsOf e), ids)
  else match Dict.get? d "$ref", Dict.get? d "$dynamicRef" with
  | some (.str urn), _ => parseRef env e urn ids
  | _, some (.str urn) => parseRef env e urn ids
  | _, _ => .error .valueError

/-- The `match` on a dictionary (72-136), for `f` = `_parse`. -/
def parseDict (env : Env) (f : PyVal → Ids → Except PyErr (RType × Ids)) (e d : Dict) (ids : Ids) :
    Except PyErr (RType × Ids) :=
  match Dict.get? d "type" with
  | some (.list xs) => do
    let (ts, ids) ← parseAll f xs ids
    pure (.union ts (attrsOf e), ids)
  | type =>
    match Dict.get? d "properties", Dict.get? d "items" with
    | some props, items =>
      if type = some (.str "object") then
        match props with
        | .dict props => do
          let (ts, ids) ← parseProps f (Dict.getD d "required" (.list [])) props ids
          pure (.struct ts (attrsOf e), ids)
        | _ => .error .attributeError
      else parseArray items
    | .none, items => parseArray items
where
  /-- Lines 95-97, and the remaining cases. -/
  parseArray (items : Option PyVal) : Except PyErr (RType × Ids) :=
    match items with
    | some v =>
      if Dict.get? d "type" = some (.str "array") then do
        let (t, ids) ← f v ids
        pure (.list t .none (.bool true) (attrsOf e), ids)
      else parseLeaf env e d ids
    | .none => parseLeaf env e d ids

/-- A string stands for a basic type (59-60). -/
def schemaOf : PyVal → PyVal
  | .str s => .dict [("type", .str s)]
  | v => v

/-- `_parse` (51-136) with a bound on the recursion depth. -/
def parseF (env : Env) : Nat → PyVal → Ids → Except PyErr (RType × Ids)
  | 0, _, _ => .error .fuel
  | n + 1, v, ids => do
    let v := schemaOf v
    let (e, ids) ← extraAttrs env v ids
    match v with
    | .dict d => parseDict env (parseF env n) e d ids
    | _ => .error .valueError

/-- `_parse` (51-136). -/
def parse (env : Env) (v : PyVal) (ids : Ids) : Except PyErr (RType × Ids) := parseF env v.size v ids

/-- `to_recap` (39-49) of the document `v`, and the identifiers that the converter knows
afterwards. -/
def toRecap (env : Env) (v : PyVal) (ids : Ids) : Except PyErr (RType × Ids) := do
  let (t, ids) ← parse env v ids
  match t with
  | .struct .. => pure (t, ids)
  | _ => .error .valueError

/-! ## To JSON Schema -/

/-- `f"#/$defs/{alias}"` (212, 264). -/
def defsRef (alias : String) : Dict := [("$ref", .str ("#/$defs/" ++ alias))]

/-- `alias in BUILTIN_ALIASES` (167, 256); a list or a dictionary cannot be looked up. -/
def isBuiltin (alias : PyVal) : Except PyErr Bool :=
  match alias with
  | .str s => .ok (builtinAliases.find? s).isSome
  | .list _ | .dict _ => .error .typeError
  | _ => .ok false

/-- The default and the description of a type (198-203). -/
def describe (a : Attrs) : Dict :=
  (match Dict.get? a.extra "default" with
    | some v => [("default", v)]
    | .none => []) ++
  (if a.doc.truthy then [("description", a.doc)] else [])

/-- `RecapType(alias=str(alias))` and not a reference (206-209). -/
def ownAlias : RType → Option String
  | .proxy .. => .none
  | t => match t.attrs.alias with
    | .str s => some s
    | _ => .none

/-- `isinstance(field, UnionType) and field.is_optional` (228). -/
def isOptionalField : RType → Bool
  | .union ts a => RType.isOptional ts a.extra
  | _ => false

/-- `[self._convert_field(t) for t in types]` (221), for `f` = `_convert_field`. -/
def convertAll (f : RType → Except PyErr Dict) : List RType → Except PyErr (List PyVal)
  | [] => .ok []
  | t :: ts => do
    let d ← f t
    let ds ← convertAll f ts
    pure (.dict d :: ds)

/-- The loop over the fields of a struct (224-231), for `f` = `_convert_field`: the properties, and
the names that are required.  Simplification: a name that is no string is not modelled. -/
def convertFields (f : RType → Except PyErr Dict) :
    List RType → Dict → List PyVal → Except PyErr (Dict × List PyVal)
  | [], props, required => .ok (props, required)
  | t :: ts, props, required =>
    match Dict.get? t.attrs.extra "name" with
    | some (.str name) =>
      if name = "" then .error .valueError
      else do
        let d ← f t
        convertFields f ts (Dict.set props name (.dict d))
          (if isOptionalField t then required else required ++ [.str name])
    | some v => if v.truthy then .error .unmodelled else .error .valueError
    | .none => .error .valueError

/-- `_convert_field` (185-267) with a bound on the recursion depth, where `live` is the registry
that the references use. -/
def convertF (live : Registry) : Nat → Bool → RType → Except PyErr Dict
  | 0, _, _ => .error .fuel
  | n + 1, useRefs, t =>
    let td := describe t.attrs
    match (if useRefs then ownAlias t else .none) with
    | some alias => .ok (defsRef alias)
    | .none =>
      match t with
      | .union ts a =>
        if RType.isOptional ts a.extra then
          match ts.filter (fun t => !t.isNull) with
          | [t] => do
            let d ← convertF live n true t
            pure (Dict.update td d)
          | _ => .error .assertionError
        else do
          let ds ← convertAll (convertF live n true) ts
          pure (Dict.update td [("oneOf", .list ds)])
      | .struct fs _ => do
        let (props, required) ← convertFields (convertF live n true) fs [] []
        pure (Dict.update td ([("type", .str "object"), ("properties", .dict props)] ++
          if required.isEmpty then [] else [("required", .list required)]))
      | .list t _ _ _ => do
        let d ← convertF live n true t
        pure (Dict.update td [("type", .str "array"), ("items", .dict d)])
      | .map _ t _ => do
        let d ← convertF live n true t
        pure (Dict.update td [("type", .str "object"), ("additionalProperties", .dict d)])
      | .enum symbols _ => .ok (Dict.update td [("type", .str "string"), ("enum", symbols)])
      | .bool _ => .ok (Dict.update td [("type", .str "boolean")])
      | .int .. => .ok (Dict.update td [("type", .str "integer")])
      | .float .. => .ok (Dict.update td [("type", .str "number")])
      | .string .. => .ok (Dict.update td [("type", .str "string")])
      | .bytes .. => .ok (Dict.update td [("type", .str "string"), ("format", .str "byte")])
      | .null _ => .ok (Dict.update td [("type", .str "null")])
      | .proxy r a => do
        if (← isBuiltin a.alias) || !a.extra.isEmpty then do
          let t ← resolve live r a
          convertF live n true t
        else match a.alias with
          | .str alias => pure (Dict.update td (defsRef alias))
          | _ => .error .valueError

/-- The definition of the alias of the type itself (167-170), for `f` = `_convert_field`.
Simplification: an alias that is no string is not modelled. -/
def ownDefs (f : Bool → RType → Except PyErr Dict) (t : RType) : Except PyErr Dict := do
  if t.attrs.alias.truthy && !(← isBuiltin t.attrs.alias) then
    match t.attrs.alias with
    | .str alias => do
      let d ← f false t
      pure [(alias, .dict d)]
    | _ => .error .unmodelled
  else pure []

mutual
/-- `_generate_alias_defs` (155-183), for `f` = `_convert_field`. -/
def aliasDefs (f : Bool → RType → Except PyErr Dict) : RType → Except PyErr Dict
  | .struct fs a => do
    let own ← ownDefs f (.struct fs a)
    aliasDefsAll f fs own
  | .list t l v a => do
    let own ← ownDefs f (.list t l v a)
    let ds ← aliasDefs f t
    pure (Dict.update own ds)
  | .union ts a => do
    let own ← ownDefs f (.union ts a)
    aliasDefsAll f ts own
  | .map k t a => do
    let own ← ownDefs f (.map k t a)
    let ds ← aliasDefs f t
    pure (Dict.update own ds)
  | t => ownDefs f t
/-- `defs |= self._generate_alias_defs(t)` for all types in turn (173-174, 178-179). -/
def aliasDefsAll (f : Bool → RType → Except PyErr Dict) : List RType → Dict → Except PyErr Dict
  | [], defs => .ok defs
  | t :: ts, defs => do
    let ds ← aliasDefs f t
    aliasDefsAll f ts (Dict.update defs ds)
end

/-- `from_recap` (138-153), where `live` is the registry that the references use.  The bound on the
recursion is enough when `live` was made by `register_alias` (`fromRecap_ne_fuel`). -/
def fromRecap (live : Registry) (t : RType) : Except PyErr Dict := do
  let f := convertF live (weight (weightReg 0 live) t)
  let d ← f true t
  let defs ← aliasDefs f t
  pure (if defs.isEmpty then d else Dict.set d "$defs" (.dict defs))

end Recap.Json
