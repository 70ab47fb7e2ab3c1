import Verif.Weight
import Verif.Avro

/-!
# Model of `recap/converters/protobuf.py`

Every definition cites the lines of `/repo/recap/converters/protobuf.py` it models.

What is simplified:
* a file is its syntax tree; the parser and the generator of the library `proto_schema_parser` are not
  modelled.  Of the syntax tree, only what the converter reads or writes is modelled: all other elements
  are `other`;
* aliases that are not strings are `unmodelled` in `from_recap`;
* the registry of the converter (42) is an argument and a result of the functions; what it is after an
  error is not modelled.  A reference to it is a reference to the live registry.
-/

set_option autoImplicit false

namespace Recap.Protobuf

open Recap.Avro (asInt hasDot rsplitDot)

/-- `FieldCardinality`. -/
inductive Card where
  | optional
  | required
  | repeated
deriving DecidableEq, Repr

/-- The elements of files, messages and oneofs (1-13). -/
inductive Elem where
  | field (name : PyVal) (number : Int) (type : String) (card : Option Card)
  | mapField (name : PyVal) (number : Int) (key value : String)
  | oneof (name : PyVal) (elements : List Elem)
  | message (name : String) (elements : List Elem)
  | enum (name : String) (values : List (PyVal × Int))
  | package (name : String)
  | other
deriving Repr

/-! ## From Protobuf -/

/-- The types that have a name of their own in Protobuf (190-245). -/
def scalars : List (String × RType) := [
  ("string", .string (.int 2147483648) (.bool true) {}),
  ("bool", .bool {}),
  ("bytes", .bytes (.int 2147483648) (.bool true) {}),
  ("int32", .int (.int 32) (.bool true) {}),
  ("int64", .int (.int 64) (.bool true) {}),
  ("uint32", .int (.int 32) (.bool false) {}),
  ("uint64", .int (.int 64) (.bool false) {}),
  ("sint32", .int (.int 32) (.bool true) {}),
  ("sint64", .int (.int 64) (.bool true) {}),
  ("float", .float (.int 32) {}),
  ("double", .float (.int 64) {}),
  ("fixed32", .int (.int 32) (.bool false) {}),
  ("fixed64", .int (.int 64) (.bool false) {}),
  ("sfixed32", .int (.int 32) (.bool true) {}),
  ("sfixed64", .int (.int 64) (.bool true) {}),
  ("google.protobuf.Timestamp", .int (.int 64) (.bool true)
    { logical := .str "build.recap.Timestamp", extra := [("unit", .str "nanosecond"), ("timezone", .str "UTC")] }),
  ("google.protobuf.Duration", .int (.int 64) (.bool true)
    { logical := .str "build.recap.Duration", extra := [("unit", .str "nanosecond")] }),
  ("google.protobuf.NullValue", .null {})]

/-- `_protobuf_type_to_recap_type` (186-253), where `ns` is `self.namespaces[-1]`, if there is one. -/
def typeOf (ns : Option String) (s : String) : Except PyErr RType :=
  match scalars.lookup s with
  | some t => .ok t
  | .none =>
    if hasDot s then .ok (.proxy .none { alias := .str s })
    else match ns with
      | some n => .ok (.proxy .none { alias := .str (n ++ "." ++ s) })
      | .none => .error .indexError

/-- `recap_type.extra_attrs[key] = v`. -/
def setExtra (t : RType) (key : String) (v : PyVal) : RType :=
  t.withAttrs { t.attrs with extra := Dict.set t.attrs.extra key v }

/-- `_parse_field` (154-164) once the type is known. -/
def fieldType (t : RType) (card : Option Card) (name : PyVal) : RType :=
  let t := if card = some .repeated then .list t .none (.bool true) {} else t
  let t := if card ≠ some .required then
      setExtra (if t.isNull then t else .union [.null {}, t] { extra := [("default", .none)] }) "default" .none
    else t
  setExtra t "name" name

/-- `isinstance(key_type, IntType) or isinstance(key_type, StringType)` (170). -/
def isKey : RType → Bool
  | .int .. => true
  | .string .. => true
  | _ => false

/-- `_parse_map_field` (166-184). -/
def mapType (ns : Option String) (name : PyVal) (key value : String) : Except PyErr RType := do
  let k ← typeOf ns key
  if isKey k then do
    let v ← typeOf ns value
    let t := .union [.null {}, .map k v {}] { extra := [("default", .none)] }
    pure (if name = .none then t else setExtra t "name" name)
  else .error .assertionError

/-- The fields of a oneof (256-267); other elements are skipped. -/
def oneofTypes (ns : Option String) : List Elem → Except PyErr (List RType)
  | [] => .ok []
  | .field name _ type _ :: es => do
    let t ← typeOf ns type
    let ts ← oneofTypes ns es
    pure (fieldType t (some .required) name :: ts)
  | _ :: es => oneofTypes ns es

/-- `_parse_enum` (270-280). -/
def parseEnum (ns : Option String) (name : String) (values : List (PyVal × Int)) (reg : Registry) :
    Except PyErr Registry :=
  match ns with
  | some n => reg.registerAlias (.enum (.list (values.map (·.1))) { alias := .str (n ++ "." ++ name) })
  | .none => .error .indexError

/-- `_parse_message` (142-149) once the fields are known. -/
def register (ns : Option String) (name : String) (fs : List RType) (reg : Registry) :
    Except PyErr (RType × Registry) :=
  match ns with
  | some n => do
    let t := .struct fs { alias := .str (n ++ "." ++ name) }
    let reg ← reg.registerAlias t
    pure (t, reg)
  | .none => .error .indexError

mutual
/-- One turn of the loop over the elements of a message (127-140): the field that is added, if any. -/
def parseElem (ns : Option String) : Elem → Registry → Except PyErr (List RType × Registry)
  | .field name _ type card, reg => do
    let t ← typeOf ns type
    pure ([fieldType t card name], reg)
  | .mapField name _ key value, reg => do
    let t ← mapType ns name key value
    pure ([t], reg)
  | .oneof name es, reg => do
    let ts ← oneofTypes ns es
    pure ([.union (.null {} :: ts) { extra := [("name", name), ("default", .none)] }], reg)
  | .message name es, reg => do
    let (fs, reg) ← parseElems ns es reg
    let (_, reg) ← register ns name fs reg
    pure ([], reg)
  | .enum name values, reg => do
    let reg ← parseEnum ns name values reg
    pure ([], reg)
  | _, reg => .ok ([], reg)
/-- The loop over the elements of a message (125-140). -/
def parseElems (ns : Option String) : List Elem → Registry → Except PyErr (List RType × Registry)
  | [], reg => .ok ([], reg)
  | e :: es, reg => do
    let (fs, reg) ← parseElem ns e reg
    let (fs', reg) ← parseElems ns es reg
    pure (fs ++ fs', reg)
end

/-- `_parse_message` (124-149). -/
def parseMessage (ns : Option String) (name : String) (es : List Elem) (reg : Registry) :
    Except PyErr (RType × Registry) := do
  let (fs, reg) ← parseElems ns es reg
  register ns name fs reg

/-- The loop over the elements of a file (110-115). -/
def parseTop (ns : Option String) : List Elem → Option RType → Registry → Except PyErr (Option RType × Registry)
  | [], root, reg => .ok (root, reg)
  | .message name xs :: es, root, reg => do
    let (t, reg) ← parseMessage ns name xs reg
    parseTop ns es (some (root.getD t)) reg
  | .enum name values :: es, root, reg => do
    let reg ← parseEnum ns name values reg
    parseTop ns es root reg
  | _ :: es, root, reg => parseTop ns es root reg

/-- The state of a converter (40-42). -/
structure Converter where
  namespaces : List String
  registry : Registry

/-- `ProtobufConverter(namespace)` (40-42). -/
def newConverter (namespace_ : String := "_root") : Converter := ⟨[namespace_], newRegistry⟩

/-- The first package (104-107). -/
def packageOf : List Elem → Option String
  | [] => .none
  | .package name :: _ => some name
  | _ :: es => packageOf es

/-- The namespaces after lines 106-107. -/
def entered (c : Converter) (file : List Elem) : List String :=
  match packageOf file with
  | some name => c.namespaces ++ [name]
  | .none => c.namespaces

/-- `_parse` (100-122).  The last namespace is removed also when none was added. -/
def parse (c : Converter) (file : List Elem) : Except PyErr (RType × Converter) := do
  let namespaces := entered c file
  let (root, reg) ← parseTop namespaces.getLast? file .none c.registry
  match root with
  | some t =>
    if namespaces = [] then .error .indexError
    else pure (t, ⟨namespaces.dropLast, reg⟩)
  | .none => .error .valueError

/-- `s.add(x)`. -/
def add (s : List PyVal) (x : PyVal) : List PyVal := if x ∈ s then s else s ++ [x]

/-- What the caller of `_resolve_proxies` sees of a set that it passes: an empty set is replaced by a
new one (63-64), so that nothing is added to it. -/
def back (caller callee : List PyVal) : List PyVal := if caller = [] then [] else callee

/-- The set `seen` after lines 67-68. -/
def look (t : RType) (seen : List PyVal) : List PyVal :=
  match t with
  | .proxy .. => seen
  | t => if t.attrs.alias = .none then seen else add seen t.attrs.alias

/-- The type and the set `resolved` after lines 70-82. -/
def follow (live : Registry) (t : RType) (resolved seen : List PyVal) : Except PyErr (RType × List PyVal) :=
  match t with
  | .proxy r a =>
    if a.alias ∈ resolved ∨ a.alias ∈ seen then .ok (t, resolved)
    else do
      let u ← resolve live r a
      pure (u.withAttrs { u.attrs with alias := a.alias, extra := Dict.update u.attrs.extra a.extra },
        add resolved a.alias)
  | t => .ok (t, resolved)

/-- The nested types in turn (90-96), for `f` = `_resolve_proxies`. -/
def resolveAll (f : RType → List PyVal → List PyVal → Except PyErr (RType × List PyVal × List PyVal)) :
    List RType → List PyVal → List PyVal → Except PyErr (List RType × List PyVal × List PyVal)
  | [], resolved, seen => .ok ([], resolved, seen)
  | t :: ts, resolved, seen => do
    let (t, resolved, seen) ← f t resolved seen
    let (ts, resolved, seen) ← resolveAll f ts resolved seen
    pure (t :: ts, resolved, seen)

/-- `_resolve_proxies` (57-98) with a bound on the recursion depth, where `live` is the registry of the
converter.  The second and third results are what the sets of the caller contain. -/
def resolveF (live : Registry) : Nat → RType → List PyVal → List PyVal →
    Except PyErr (RType × List PyVal × List PyVal)
  | 0, _, _, _ => .error .fuel
  | n + 1, t, resolved, seen => do
    let seen₁ := look t seen
    let (t, resolved₁) ← follow live t resolved seen₁
    match t with
    | .list u l w a => do
      let (u, resolved₂, seen₂) ← resolveF live n u resolved₁ seen₁
      pure (.list u l w a, back resolved resolved₂, back seen seen₂)
    | .map k u a => do
      let (k, resolved₂, seen₂) ← resolveF live n k resolved₁ seen₁
      let (u, resolved₃, seen₃) ← resolveF live n u resolved₂ seen₂
      pure (.map k u a, back resolved resolved₃, back seen seen₃)
    | .union ts a => do
      let (ts, resolved₂, seen₂) ← resolveAll (resolveF live n) ts resolved₁ seen₁
      pure (.union ts a, back resolved resolved₂, back seen seen₂)
    | .struct fs a => do
      let (fs, resolved₂, seen₂) ← resolveAll (resolveF live n) fs resolved₁ seen₁
      pure (.struct fs a, back resolved resolved₂, back seen seen₂)
    | t => pure (t, back resolved resolved₁, back seen seen₁)

/-- `_resolve_proxies(t)` (57-98). -/
def resolveProxies (live : Registry) (t : RType) : Except PyErr RType := do
  let (t, _, _) ← resolveF live (weight (weightReg 0 live) t) t [] []
  pure t

/-- `to_recap` (44-55) of a file. -/
def toRecap (c : Converter) (file : List Elem) : Except PyErr (RType × Converter) := do
  let (t, c) ← parse c file
  let t ← resolveProxies c.registry t
  match t with
  | .struct .. => pure (t, c)
  | _ => .error .valueError

/-! ## To Protobuf -/

/-- `field.cardinality = ...` (436-440, 465-466). -/
def setCard (card : Card) : Elem → Except PyErr Elem
  | .field name number type _ => .ok (.field name number type (some card))
  | _ => .error .assertionError

/-- The type of a field (446-454). -/
def fieldTypeOf : Elem → Except PyErr String
  | .field _ _ type _ => .ok type
  | _ => .error .assertionError

/-- The Protobuf type of a type without nested types (399-433). -/
def scalarOf : RType → Except PyErr String
  | .null _ => .ok "google.protobuf.NullValue"
  | .bool _ => .ok "bool"
  | .int b s _ =>
    match asInt b, s with
    | some bits, .bool signed =>
      if bits ≤ 32 then .ok (if signed then "int32" else "uint32")
      else if bits ≤ 64 then .ok (if signed then "int64" else "uint64")
      else .error .valueError
    | _, _ => .error .valueError
  | .float b _ =>
    match asInt b with
    | some bits =>
      if bits ≤ 32 then .ok "float"
      else if bits ≤ 64 then .ok "double"
      else .error .valueError
    | .none => .error .valueError
  | .string b _ _ => if (asInt b).any (· ≤ 2147483647) then .ok "string" else .error .valueError
  | .bytes b _ _ => if (asInt b).any (· ≤ 2147483647) then .ok "bytes" else .error .valueError
  | _ => .error .valueError

/-- `"." + alias` (485-487). -/
def pathOf (alias : PyVal) : Except PyErr String :=
  match alias with
  | .str s => .ok ("." ++ s)
  | .none => .error .assertionError
  | _ => .error .unmodelled

/-- The name of a field (398). -/
def nameOf (a : Attrs) (number : Int) : PyVal :=
  Dict.getD a.extra "name" (.str ("field_" ++ toString number))

mutual
/-- `_recap_to_field` (382-489). -/
def toField (number : Int) : RType → Except PyErr Elem
  | .list t _ _ _ => do
    let e ← toField number t
    setCard .repeated e
  | .map k t a => do
    let e ← toField 0 k
    let e' ← toField 0 t
    let key ← fieldTypeOf e
    let value ← fieldTypeOf e'
    pure (.mapField (nameOf a number) number key value)
  | .union ts a => do
    let es ← toMembers number ts
    match es with
    | [e] => setCard .optional e
    | es => pure (.oneof (nameOf a number) es)
  | .struct _ a => do
    let path ← pathOf a.alias
    pure (.field (nameOf a number) number path .none)
  | .enum _ a => do
    let path ← pathOf a.alias
    pure (.field (nameOf a number) number path .none)
  | .proxy _ a => do
    let path ← pathOf a.alias
    pure (.field (nameOf a number) number path .none)
  | t => do
    let type ← scalarOf t
    pure (.field (nameOf t.attrs number) number type .none)
/-- The members of a union that are not null, with consecutive numbers (457-480). -/
def toMembers (number : Int) : List RType → Except PyErr (List Elem)
  | [] => .ok []
  | t :: ts =>
    if t.isNull then toMembers number ts
    else do
      let e ← toField number t
      let es ← toMembers (number + 1) ts
      pure (e :: es)
end

/-- The messages and enums of every package (285), in the order of insertion. -/
abbrev Store := List (String × List Elem)

/-- `package_to_types.setdefault(package, []).append(e)` (330, 354). -/
def insert (st : Store) (package : String) (e : Elem) : Store :=
  match st with
  | [] => [(package, [e])]
  | (p, es) :: rest => if p = package then (p, es ++ [e]) :: rest else (p, es) :: insert rest package e

/-- The package and the name of a struct (317-319). -/
def structName (alias : PyVal) : Except PyErr (String × String) :=
  match alias with
  | .str s => if hasDot s then .ok (rsplitDot s) else .error .assertionError
  | .none => .error .assertionError
  | _ => .error .unmodelled

/-- The package and the name of an enum (345-346). -/
def enumName (alias : PyVal) : Except PyErr (String × String) :=
  match alias with
  | .str s => if hasDot s then .ok (rsplitDot s) else .error .valueError
  | .none => .error .assertionError
  | _ => .error .unmodelled

/-- The values of an enum, numbered (347-352). -/
def numbered : Int → List PyVal → List (PyVal × Int)
  | _, [] => []
  | n, x :: xs => (x, n) :: numbered (n + 1) xs

mutual
/-- `_from_recap_gather_types` (300-354). -/
def gather : RType → Store → Except PyErr Store
  | .struct fs a, st => do
    let (package, name) ← structName a.alias
    let (es, st) ← gatherFields 1 fs st
    pure (insert st package (.message name es))
  | .union ts _, st => gatherAll ts st
  | .map k t _, st => do
    let st ← gather k st
    gather t st
  | .list t _ _ _, st => gather t st
  | .enum symbols a, st => do
    let (package, name) ← enumName a.alias
    let xs ← symbols.iter
    pure (insert st package (.enum name (numbered 0 xs)))
  | _, st => .ok st
/-- The members of a union (337-338). -/
def gatherAll : List RType → Store → Except PyErr Store
  | [], st => .ok st
  | t :: ts, st => do
    let st ← gather t st
    gatherAll ts st
/-- The fields of a struct (320-328). -/
def gatherFields (number : Int) : List RType → Store → Except PyErr (List Elem × Store)
  | [], st => .ok ([], st)
  | f :: fs, st => do
    let e ← toField number f
    let st ← gather f st
    let (es, st) ← gatherFields (number + 1) fs st
    pure (e :: es, st)
end

/-- `package_to_types.get(package)` (372). -/
def declared : Store → String → Option (List Elem)
  | [], _ => .none
  | (p, es) :: rest, package => if p = package then some es else declared rest package

/-- The number of messages with this name. -/
def copies (name : String) : List Elem → Nat
  | [] => 0
  | .message n _ :: es => (if n = name then 1 else 0) + copies name es
  | _ :: es => copies name es

/-- `xs * n`. -/
def times {α : Type} (n : Nat) (xs : List α) : List α := (List.replicate n xs).flatten

/-- `_from_recap_construct_elements` (356-380) with a bound on the recursion depth: the declarations in
a package at the end, if the function is called `calls` times for it.

The function adds to the elements of a message, every time it is called for its package, what is
declared in the package of the message.  It is called for this package once per call and message of
that name. -/
def construct (st : Store) : Nat → Nat → String → Except PyErr (List Elem)
  | n, calls, package =>
    match declared st package with
    | .none => .ok []
    | some ds =>
      match n with
      | 0 => .error .fuel
      | n + 1 => ds.mapM fun d =>
        match d with
        | .message name es => do
          let sub ← construct st n (calls * copies name ds) (package ++ "." ++ name)
          pure (.message name (es ++ times calls sub))
        | d => pure d

/-- `a < b` for strings, by code points. -/
def before : List Char → List Char → Bool
  | [], [] => false
  | [], _ :: _ => true
  | _ :: _, [] => false
  | a :: as, b :: bs => if a.val < b.val then true else if a.val = b.val then before as bs else false

/-- `sorted(names)[0]` (288). -/
def least : List String → Option String
  | [] => .none
  | s :: ss =>
    match least ss with
    | .none => some s
    | some m => some (if before m.toList s.toList then m else s)

/-- `from_recap` (282-298). -/
def fromRecap (t : RType) : Except PyErr (List Elem) :=
  if t.attrs.alias = .none then .error .assertionError
  else do
    let st ← gather t []
    match least (st.map (·.1)) with
    | .none => .error .indexError
    | some package =>
      if st.all (fun p => package.toList.isPrefixOf p.1.toList) then do
        let es ← construct st ((st.map (fun p => p.1.length)).sum + 1) 1 package
        pure (.package package :: es)
      else .error .assertionError

end Recap.Protobuf
