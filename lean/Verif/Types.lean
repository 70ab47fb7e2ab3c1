import Verif.Py

/-!
# Model of `recap/types.py`

Every definition cites the lines of `/repo/recap/types.py` it models.
-/

namespace Recap

/-! ## Type objects -/

/-- The attributes common to all Recap types: `RecapType.__init__`
(types.py 14-26).  `extra` is `extra_attrs`. -/
structure Attrs where
  logical : PyVal := .none
  alias : PyVal := .none
  doc : PyVal := .none
  extra : Dict := []
deriving Repr, Inhabited, DecidableEq

/-- Recap type objects (types.py 109-330).  Attributes hold arbitrary Python values
because the constructors do not check them.  A `ProxyType` refers to a registry;
`none` means the *live* registry of the surrounding computation, `some entries` means a
private copy of a registry made by `copy.deepcopy` (types.py 348).  The referenced alias
of a proxy is its `alias` attribute, as in the code (types.py 312-316).
Simplification: children of lists, maps, structs and unions are type objects. -/
inductive RType where
  | null (a : Attrs)
  | bool (a : Attrs)
  | int (bits signed : PyVal) (a : Attrs)
  | float (bits : PyVal) (a : Attrs)
  | string (bytes variable_ : PyVal) (a : Attrs)
  | bytes (bytes variable_ : PyVal) (a : Attrs)
  | list (values : RType) (length variable_ : PyVal) (a : Attrs)
  | map (keys values : RType) (a : Attrs)
  | struct (fields : List RType) (a : Attrs)
  | enum (symbols : PyVal) (a : Attrs)
  | union (types : List RType) (a : Attrs)
  | proxy (reg : Option (List (String × RType))) (a : Attrs)
deriving Repr, Inhabited

/-! Structural equality of type objects; used to state concrete results, not part of the
code. -/

mutual
def RType.beq : RType → RType → Bool
  | .null a, .null a' => a == a'
  | .bool a, .bool a' => a == a'
  | .int b s a, .int b' s' a' => b == b' && s == s' && a == a'
  | .float b a, .float b' a' => b == b' && a == a'
  | .string b v a, .string b' v' a' => b == b' && v == v' && a == a'
  | .bytes b v a, .bytes b' v' a' => b == b' && v == v' && a == a'
  | .list t l v a, .list t' l' v' a' => RType.beq t t' && l == l' && v == v' && a == a'
  | .map k v a, .map k' v' a' => RType.beq k k' && RType.beq v v' && a == a'
  | .struct fs a, .struct fs' a' => RType.beqList fs fs' && a == a'
  | .enum s a, .enum s' a' => s == s' && a == a'
  | .union ts a, .union ts' a' => RType.beqList ts ts' && a == a'
  | .proxy r a, .proxy r' a' => RType.beqReg r r' && a == a'
  | _, _ => false
def RType.beqList : List RType → List RType → Bool
  | [], [] => true
  | x :: xs, y :: ys => RType.beq x y && RType.beqList xs ys
  | _, _ => false
def RType.beqReg : Option (List (String × RType)) → Option (List (String × RType)) → Bool
  | .none, .none => true
  | .some x, .some y => RType.beqEntries x y
  | _, _ => false
def RType.beqEntries : List (String × RType) → List (String × RType) → Bool
  | [], [] => true
  | (k, x) :: xs, (k', y) :: ys => k == k' && RType.beq x y && RType.beqEntries xs ys
  | _, _ => false
end

mutual
theorem RType.beq_iff : ∀ a b : RType, RType.beq a b = true ↔ a = b
  | .null a, b => by cases b <;> simp [RType.beq]
  | .bool a, b => by cases b <;> simp [RType.beq]
  | .int .., b => by cases b <;> simp [RType.beq, and_assoc]
  | .float .., b => by cases b <;> simp [RType.beq]
  | .string .., b => by cases b <;> simp [RType.beq, and_assoc]
  | .bytes .., b => by cases b <;> simp [RType.beq, and_assoc]
  | .list t .., b => by cases b <;> simp [RType.beq, and_assoc, RType.beq_iff t]
  | .map k v _, b => by cases b <;> simp [RType.beq, and_assoc, RType.beq_iff k, RType.beq_iff v]
  | .struct fs _, b => by cases b <;> simp [RType.beq, RType.beqList_iff fs]
  | .enum .., b => by cases b <;> simp [RType.beq]
  | .union ts _, b => by cases b <;> simp [RType.beq, RType.beqList_iff ts]
  | .proxy r _, b => by cases b <;> simp [RType.beq, RType.beqReg_iff r]
theorem RType.beqList_iff : ∀ a b : List RType, RType.beqList a b = true ↔ a = b
  | [], b => by cases b <;> simp [RType.beqList]
  | x :: xs, b => by cases b <;> simp [RType.beqList, RType.beq_iff x, RType.beqList_iff xs]
theorem RType.beqReg_iff : ∀ a b : Option (List (String × RType)), RType.beqReg a b = true ↔ a = b
  | .none, b => by cases b <;> simp [RType.beqReg]
  | .some x, b => by cases b <;> simp [RType.beqReg, RType.beqEntries_iff x]
theorem RType.beqEntries_iff :
    ∀ a b : List (String × RType), RType.beqEntries a b = true ↔ a = b
  | [], b => by cases b <;> simp [RType.beqEntries]
  | (k, x) :: xs, b => by
      cases b with
      | nil => simp [RType.beqEntries]
      | cons y ys =>
        obtain ⟨k', y⟩ := y
        simp [RType.beqEntries, RType.beq_iff x, RType.beqEntries_iff xs, and_assoc]
end

instance : DecidableEq RType := fun a b => decidable_of_iff _ (RType.beq_iff a b)

/-- `RecapTypeRegistry._type_registry` (types.py 338), in insertion order. -/
abbrev Registry := List (String × RType)

namespace RType

/-- The common attributes of a type object (types.py 22-26). -/
def attrs : RType → Attrs
  | null a | bool a | int _ _ a | float _ a | string _ _ a | bytes _ _ a
  | list _ _ _ a | map _ _ a | struct _ a | enum _ a | union _ a | proxy _ a => a

/-- Assignment to the common attributes of a type object. -/
def withAttrs : RType → Attrs → RType
  | null _, a => null a
  | bool _, a => bool a
  | int b s _, a => int b s a
  | float b _, a => float b a
  | string b v _, a => string b v a
  | bytes b v _, a => bytes b v a
  | list t l v _, a => list t l v a
  | map k v _, a => map k v a
  | struct f _, a => struct f a
  | enum s _, a => enum s a
  | union ts _, a => union ts a
  | proxy r _, a => proxy r a

/-- `self.type_` (types.py 113, 120, 127, 146, 161, 184, 213, 241, 260, 275, 286, 313). -/
def typeName : RType → String
  | null _ => "null"
  | bool _ => "bool"
  | int .. => "int"
  | float .. => "float"
  | string .. => "string"
  | bytes .. => "bytes"
  | list .. => "list"
  | map .. => "map"
  | struct .. => "struct"
  | enum .. => "enum"
  | union .. => "union"
  | proxy .. => "proxy"

/-- `isinstance(t, NullType)`. -/
def isNull : RType → Bool
  | null _ => true
  | _ => false

/-- `isinstance(t, UnionType)`. -/
def isUnion : RType → Bool
  | union .. => true
  | _ => false

/-- `isinstance(t, ProxyType)`. -/
def isProxy : RType → Bool
  | proxy .. => true
  | _ => false

/-! ### Equality (types.py 92-101 and the `__eq__` of each class) -/

/-- Comparison of the common attributes (types.py 94-100). -/
def attrsEq (a b : Attrs) : Bool :=
  PyVal.pyEq a.logical b.logical && PyVal.pyEq a.alias b.alias
    && PyVal.pyEq a.doc b.doc && Dict.pyEq a.extra b.extra

mutual
/-- Python `==` on type objects (types.py 92-101, 131-135, 149-150, 165-169, 188-192,
218-223, 245-249, 263-264, 278-279, 289-290, 329-330).  The registry of a proxy is not
compared. -/
def pyEq : RType → RType → Bool
  | null a, null b => attrsEq a b
  | bool a, bool b => attrsEq a b
  | int b s a, int b' s' a' => attrsEq a a' && (PyVal.pyEq b b' && PyVal.pyEq s s')
  | float b a, float b' a' => attrsEq a a' && PyVal.pyEq b b'
  | string b v a, string b' v' a' => attrsEq a a' && (PyVal.pyEq b b' && PyVal.pyEq v v')
  | bytes b v a, bytes b' v' a' => attrsEq a a' && (PyVal.pyEq b b' && PyVal.pyEq v v')
  | list t l v a, list t' l' v' a' =>
    attrsEq a a' && (pyEq t t' && PyVal.pyEq l l' && PyVal.pyEq v v')
  | map k v a, map k' v' a' => attrsEq a a' && (pyEq k k' && pyEq v v')
  | struct f a, struct f' a' => attrsEq a a' && pyEqList f f'
  | enum s a, enum s' a' => attrsEq a a' && PyVal.pyEq s s'
  | union ts a, union ts' a' => attrsEq a a' && pyEqList ts ts'
  | proxy _ a, proxy _ a' => attrsEq a a'
  | _, _ => false
/-- Python `==` on lists of type objects. -/
def pyEqList : List RType → List RType → Bool
  | [], [] => true
  | x :: xs, y :: ys => pyEq x y && pyEqList xs ys
  | _, _ => false
end

/-! ### Validation -/

/-- `v < lo or v > hi` raising `ValueError` (types.py 138, 153). -/
def checkRange (v : PyVal) (lo hi : Int) : Except PyErr Unit := do
  if ← v.ltInt lo then .error .valueError
  else if ← v.gtInt hi then .error .valueError
  else pure ()

/-- The checks on a size and its `variable` flag (types.py 172-177, 195-200, 226-233). -/
def checkSize (v variable_ : PyVal) : Except PyErr Unit := do
  if !variable_.truthy && v.isNone then .error .valueError
  else if v.isNone then pure ()
  else checkRange v 1 9223372036854775807

mutual
/-- `validate()` (types.py 88, 137-139, 152-154, 171-177, 194-200, 225-234, 251-253,
266-268).  Unions, enums and proxies inherit the empty check of line 88. -/
def validate : RType → Except PyErr Unit
  | int b _ _ => checkRange b 1 2147483647
  | float b _ => checkRange b 1 2147483647
  | string b v _ => checkSize b v
  | bytes b v _ => checkSize b v
  | list t l v _ => do
    checkSize l v
    validate t
  | map k v _ => do
    validate k
    validate v
  | struct fs _ => validateList fs
  | null _ | bool _ | enum _ _ | union _ _ | proxy _ _ => pure ()
/-- `for field in self.fields: field.validate()` (types.py 267-268). -/
def validateList : List RType → Except PyErr Unit
  | [] => pure ()
  | t :: ts => do
    validate t
    validateList ts
end

/-! ### Copying -/

mutual
/-- `copy.deepcopy(t)` (types.py 320, 348): values are immutable in the model, so the only
visible effect is that every reference to the live registry becomes a reference to a
private copy of that registry as it is now. -/
def deepcopy (reg : Registry) : RType → RType
  | list t l v a => list (deepcopy reg t) l v a
  | map k v a => map (deepcopy reg k) (deepcopy reg v) a
  | struct fs a => struct (deepcopyList reg fs) a
  | union ts a => union (deepcopyList reg ts) a
  | proxy .none a => proxy (some reg) a
  | t => t
def deepcopyList (reg : Registry) : List RType → List RType
  | [] => []
  | t :: ts => deepcopy reg t :: deepcopyList reg ts
end

/-! ### Nullability -/

/-- `is_nullable()` (types.py 70-86). -/
def isNullable : RType → Bool
  | union ts _ => ts.any isNull
  | null _ => true
  | _ => false

/-- `is_optional` (types.py 292-306) of a union with these members and extra attributes. -/
def isOptional (types : List RType) (extra : Dict) : Bool :=
  let plainNull : RType := .null {}
  let hasNull := types.any (fun t => pyEq plainNull t)
  let hasDefault := Dict.has extra "default"
  let hasNonNull := (types.filter (fun t => !pyEq t plainNull)).length == 1
  hasNull && hasDefault && hasNonNull

/-- The attributes that `make_nullable` gives to the union (types.py 45-54 and 58-62):
`default` and, if present, `name` go to the union's extra attributes, `doc` to its doc. -/
def promoted (a : Attrs) : Dict :=
  let d : Dict := [("default", Dict.getD a.extra "default" .none)]
  match Dict.get? a.extra "name" with
  | some n => d ++ [("name", n)]
  | .none => d

/-- The extra attributes left on the receiver after `extra_attrs.pop("default")` and
`extra_attrs.pop("name")` (types.py 49, 54). -/
def demoted (extra : Dict) : Dict := Dict.erase (Dict.erase extra "default") "name"

/-- Insert a plain null member at the front if there is no null member (types.py 66-67). -/
def addNull (ts : List RType) : List RType :=
  if ts.any isNull then ts else .null {} :: ts

/-- The value returned by `make_nullable()` (types.py 28-68).  For a union the members are
kept, its own alias and logical stay on the union; other types are wrapped. -/
def makeNullable (t : RType) : RType :=
  match t with
  | union ts a =>
    union (addNull ts)
      { logical := a.logical, alias := a.alias, doc := a.doc,
        extra := demoted a.extra ++ promoted a }
  | t =>
    let a := t.attrs
    union (addNull [t.withAttrs { a with doc := .none, extra := demoted a.extra }])
      { doc := a.doc, extra := promoted a }

/-- The receiver after `make_nullable()` (types.py 40-67): `vars(self)` is copied, but
`extra_attrs` is popped in place, and for a union the list of members is shared with the
result, so that the null inserted at line 67 shows up in the receiver too. -/
def afterMakeNullable (t : RType) : RType :=
  match t with
  | union ts a => union (addNull ts) { a with extra := demoted a.extra }
  | t => t.withAttrs { t.attrs with extra := demoted t.attrs.extra }

end RType

/-! ## Registry -/

/-- `[a-zA-Z_]`. -/
def identStart (c : Char) : Bool :=
  ('a' ≤ c && c ≤ 'z') || ('A' ≤ c && c ≤ 'Z') || c == '_'

/-- `[a-zA-Z0-9_]`. -/
def identRest (c : Char) : Bool := identStart c || ('0' ≤ c && c ≤ '9')

/-- States of the matcher for `ALIAS_REGEX`; the flag says whether a dot was seen. -/
inductive AliasState where
  | start (dots : Bool)
  | inside (dots : Bool)

/-- Deterministic matcher for `ALIAS_REGEX` (types.py 8).  `AliasRegex.lean` proves that it
accepts exactly the language of the regular expression. -/
def aliasRun : AliasState → List Char → Bool
  | .start _, [] => false
  | .inside d, [] => d
  | .start d, c :: cs => identStart c && aliasRun (.inside d) cs
  | .inside d, c :: cs =>
    if c = '.' then aliasRun (.start true) cs else identRest c && aliasRun (.inside d) cs

/-- `fullmatch(ALIAS_REGEX, alias) is not None` (types.py 346). -/
def aliasOk (s : String) : Bool := aliasRun (.start false) s.toList

namespace Registry

/-- Lookup in `_type_registry`. -/
def find? (reg : Registry) (alias : String) : Option RType :=
  match reg with
  | [] => .none
  | (k, t) :: rest => if k = alias then some t else find? rest alias

/-- The type stored for an alias: a copy without alias, doc and default
(types.py 348-355). -/
def stored (reg : Registry) (t : RType) : RType :=
  (t.deepcopy reg).withAttrs
    { t.attrs with alias := .none, doc := .none, extra := Dict.erase t.attrs.extra "default" }

/-- `register_alias` (types.py 340-356).  Lookup of an unhashable alias and matching of a
non-string alias raise `TypeError`. -/
def registerAlias (reg : Registry) (t : RType) : Except PyErr Registry :=
  match t.attrs.alias with
  | .none => .error .valueError
  | .str s =>
    if (reg.find? s).isSome then .error .valueError
    else if !aliasOk s then .error .valueError
    else .ok (reg ++ [(s, stored reg t)])
  | _ => .error .typeError

/-- `from_alias` (types.py 358-362). -/
def fromAlias (reg : Registry) (alias : PyVal) : Except PyErr RType :=
  match alias with
  | .str s => match reg.find? s with
    | some t => .ok t
    | .none => .error .typeError
  | _ => .error .typeError

end Registry

/-- Shorthand for the built-in table. -/
private def at_ (logical : String) (extra : Dict) : Attrs := { logical := .str logical, extra := extra }

/-- `BUILTIN_ALIASES` (types.py 781-849). -/
def builtinAliases : Registry := [
  ("int8", .int (.int 8) (.bool true) {}),
  ("uint8", .int (.int 8) (.bool false) {}),
  ("int16", .int (.int 16) (.bool true) {}),
  ("uint16", .int (.int 16) (.bool false) {}),
  ("int32", .int (.int 32) (.bool true) {}),
  ("uint32", .int (.int 32) (.bool false) {}),
  ("int64", .int (.int 64) (.bool true) {}),
  ("uint64", .int (.int 64) (.bool false) {}),
  ("float16", .float (.int 16) {}),
  ("float32", .float (.int 32) {}),
  ("float64", .float (.int 64) {}),
  ("string32", .string (.int 2147483648) (.bool true) {}),
  ("string64", .string (.int 9223372036854775807) (.bool true) {}),
  ("bytes32", .bytes (.int 2147483648) (.bool true) {}),
  ("bytes64", .bytes (.int 9223372036854775807) (.bool true) {}),
  ("uuid", .string (.int 36) (.bool false) (at_ "build.recap.UUID" [])),
  ("decimal128", .bytes (.int 16) (.bool false)
    (at_ "build.recap.Decimal" [("precision", .int 28), ("scale", .int 14)])),
  ("decimal256", .bytes (.int 32) (.bool false)
    (at_ "build.recap.Decimal" [("precision", .int 56), ("scale", .int 28)])),
  ("duration64", .int (.int 64) (.bool true)
    (at_ "build.recap.Duration" [("unit", .str "millisecond")])),
  ("interval128", .bytes (.int 16) (.bool false)
    (at_ "build.recap.Interval" [("unit", .str "millisecond")])),
  ("time32", .int (.int 32) (.bool true) (at_ "build.recap.Time" [("unit", .str "second")])),
  ("time64", .int (.int 64) (.bool true) (at_ "build.recap.Time" [("unit", .str "second")])),
  ("timestamp64", .int (.int 64) (.bool true)
    (at_ "build.recap.Timestamp" [("unit", .str "millisecond"), ("timezone", .str "UTC")])),
  ("date32", .int (.int 32) (.bool true) (at_ "build.recap.Date" [("unit", .str "day")])),
  ("date64", .int (.int 64) (.bool true) (at_ "build.recap.Date" [("unit", .str "day")]))]

/-- `RecapTypeRegistry()` (types.py 336-338). -/
def newRegistry : Registry := builtinAliases

/-! ## Resolution of references -/

/-- One attribute override of `ProxyType.resolve` (types.py 322-326).  `hasattr` is true for
the instance attributes of the class, which are assigned; other names go to
`extra_attrs`.  Overrides that would replace a child by a raw dictionary, or that name a
method, a property or a double-underscore attribute are outside the model. -/
def applyOverride (t : RType) (attr : String) (v : PyVal) : Except PyErr RType :=
  let a := t.attrs
  if attr ∈ ["type_", "extra_attrs", "validate", "make_nullable", "is_nullable", "is_optional",
      "resolve", "registry", "_resolved"] || "__".toList.isPrefixOf attr.toList then
    .error .unmodelled
  else if attr = "logical" then .ok (t.withAttrs { a with logical := v })
  else if attr = "alias" then .ok (t.withAttrs { a with alias := v })
  else if attr = "doc" then .ok (t.withAttrs { a with doc := v })
  else match t with
  | .int b s a =>
    if attr = "bits" then .ok (.int v s a)
    else if attr = "signed" then .ok (.int b v a)
    else .ok (.int b s { a with extra := Dict.set a.extra attr v })
  | .float b a =>
    if attr = "bits" then .ok (.float v a)
    else .ok (.float b { a with extra := Dict.set a.extra attr v })
  | .string b w a =>
    if attr = "bytes_" then .ok (.string v w a)
    else if attr = "variable" then .ok (.string b v a)
    else .ok (.string b w { a with extra := Dict.set a.extra attr v })
  | .bytes b w a =>
    if attr = "bytes_" then .ok (.bytes v w a)
    else if attr = "variable" then .ok (.bytes b v a)
    else .ok (.bytes b w { a with extra := Dict.set a.extra attr v })
  | .list t l w a =>
    if attr = "values" then .error .unmodelled
    else if attr = "length" then .ok (.list t v w a)
    else if attr = "variable" then .ok (.list t l v a)
    else .ok (.list t l w { a with extra := Dict.set a.extra attr v })
  | .map k w a =>
    if attr = "keys" ∨ attr = "values" then .error .unmodelled
    else .ok (.map k w { a with extra := Dict.set a.extra attr v })
  | .struct fs a =>
    if attr = "fields" then .error .unmodelled
    else .ok (.struct fs { a with extra := Dict.set a.extra attr v })
  | .enum s a =>
    if attr = "symbols" then .ok (.enum v a)
    else .ok (.enum s { a with extra := Dict.set a.extra attr v })
  | .union ts a =>
    if attr = "types" then .error .unmodelled
    else .ok (.union ts { a with extra := Dict.set a.extra attr v })
  | t => .ok (t.withAttrs { a with extra := Dict.set a.extra attr v })

/-- The loop over the overrides (types.py 322-326). -/
def applyOverrides (t : RType) : Dict → Except PyErr RType
  | [] => .ok t
  | (k, v) :: rest => do
    let t' ← applyOverride t k v
    applyOverrides t' rest

/-- `ProxyType.resolve` (types.py 318-327) of a proxy with registry reference `r` and
attributes `a`, where `live` is the live registry.  `copy.deepcopy` of a type taken from
the registry turns its live references, if any, into snapshots. -/
def resolve (live : Registry) (r : Option (List (String × RType))) (a : Attrs) :
    Except PyErr RType := do
  let reg : Registry := r.getD live
  let t ← reg.fromAlias a.alias
  applyOverrides (t.deepcopy reg) a.extra

/-! ## `from_dict` -/

/-- Binding of `**kwargs` to `RecapType.__init__` through the constructor of a class whose
own named parameters are `params` (types.py 14-26 and the constructors 112-316).
`self` and `type_` are already bound positionally, so passing them again is a
`TypeError`. -/
def mkAttrs (params : List String) (kw : Dict) : Except PyErr Attrs :=
  if kw.has "self" || kw.has "type_" then .error .typeError
  else .ok {
    logical := kw.getD "logical" .none
    alias := kw.getD "alias" .none
    doc := kw.getD "doc" .none
    extra := kw.filter (fun kv => !(params ++ ["logical", "alias", "doc"]).contains kv.1) }

/-- Normalisation of the argument of `from_dict` (types.py 379-385).  Anything other than a
list, a string or a dictionary has no `copy` method that yields a dictionary. -/
def normalise : PyVal → Except PyErr Dict
  | .list xs => .ok [("type", .str "union"), ("types", .list xs)]
  | .str s => .ok [("type", .str s)]
  | .dict d => .ok d
  | _ => .error .attributeError

/-- Wrap a type that is not a union into a union with null (types.py 396-400). -/
def wrapUnion (d : Dict) : Dict :=
  if PyVal.pyEq (d.getD "type" .none) (.str "union") then d
  else [("type", .str "union"), ("types", .list [.str "null", .dict d])]

/-- Add `"null"` in front of the members if it is not among them (types.py 401-402). -/
def ensureNull (d : Dict) : Except PyErr Dict :=
  match d.get? "types" with
  | .none => .error .keyError
  | some types =>
    match types.containsStr "null" with
    | .error e => .error e
    | .ok true => .ok d
    | .ok false =>
      match types with
      | .list xs => .ok (d.set "types" (.list (.str "null" :: xs)))
      | _ => .error .typeError

/-- Put the field name and the default back (types.py 403-405). -/
def restoreField (name default_ : PyVal) (d : Dict) : Dict :=
  (if name.isNone then d else d.set "name" name).set "default" default_

/-- The `optional` rewrite (types.py 391-405) of a dictionary with a truthy `optional`. -/
def desugarOptional (d : Dict) : Except PyErr Dict := do
  let d' ← ensureNull (wrapUnion (((d.erase "optional").erase "name").erase "default"))
  pure (restoreField (d.getD "name" .none) (d.getD "default" .none) d')

/-- Lines 387-405 of types.py: check for a type, then the `optional` rewrite. -/
def prepare (d : Dict) : Except PyErr Dict :=
  if (d.getD "type" .none).isNone then .error .assertionError
  else if (d.getD "optional" (.bool false)).truthy then desugarOptional d
  else .ok (d.erase "optional")

/-- `[from_dict(t, registry) for t in xs]`, for `f` = `from_dict`. -/
def parseAll (f : PyVal → Registry → Except PyErr (RType × Registry)) :
    List PyVal → Registry → Except PyErr (List RType × Registry)
  | [], reg => .ok ([], reg)
  | x :: xs, reg => do
    let (t, reg) ← f x reg
    let (ts, reg) ← parseAll f xs reg
    pure (t :: ts, reg)

/-- The members of a `type` list that are kept (types.py 413-417): dictionaries and strings;
anything else is skipped. -/
def keepMember : PyVal → Bool
  | .dict _ => true
  | .str _ => true
  | _ => false

/-- `bytes` is passed on as `bytes_` (types.py 434-435, 438-439). -/
def renameBytes (kw : Dict) : Dict :=
  match kw.get? "bytes" with
  | some v => (kw.erase "bytes").set "bytes_" v
  | .none => kw

/-- Construction of the type object from the type name and the remaining keyword
arguments (types.py 410-477), for `f` = `from_dict`. -/
def construct (f : PyVal → Registry → Except PyErr (RType × Registry))
    (typeName : PyVal) (kw : Dict) (reg : Registry) : Except PyErr (RType × Registry) :=
  match typeName with
  | .list xs => do
    let (ts, reg) ← parseAll f (xs.filter keepMember) reg
    if kw.has "types" then .error .typeError
    else do
      let a ← mkAttrs [] kw
      pure (.union ts a, reg)
  | .str name =>
    if name = "null" then do
      let a ← mkAttrs [] kw
      pure (.null a, reg)
    else if name = "bool" then do
      let a ← mkAttrs [] kw
      pure (.bool a, reg)
    else if name = "int" then
      match kw.get? "bits" with
      | .none => .error .valueError
      | some bits => do
        let a ← mkAttrs ["bits", "signed"] kw
        pure (.int bits (kw.getD "signed" (.bool true)) a, reg)
    else if name = "float" then
      match kw.get? "bits" with
      | .none => .error .valueError
      | some bits => do
        let a ← mkAttrs ["bits"] kw
        pure (.float bits a, reg)
    else if name = "string" then do
      let kw := renameBytes kw
      let a ← mkAttrs ["bytes_", "variable"] kw
      pure (.string (kw.getD "bytes_" .none) (kw.getD "variable" (.bool true)) a, reg)
    else if name = "bytes" then do
      let kw := renameBytes kw
      let a ← mkAttrs ["bytes_", "variable"] kw
      pure (.bytes (kw.getD "bytes_" .none) (kw.getD "variable" (.bool true)) a, reg)
    else if name = "list" then
      match kw.get? "values" with
      | .none => .error .valueError
      | some v => do
        let (t, reg) ← f v reg
        let kw := kw.erase "values"
        let a ← mkAttrs ["length", "variable"] kw
        pure (.list t (kw.getD "length" .none) (kw.getD "variable" (.bool true)) a, reg)
    else if name = "map" then
      match kw.get? "keys", kw.get? "values" with
      | some k, some v => do
        let (tk, reg) ← f k reg
        let (tv, reg) ← f v reg
        let a ← mkAttrs [] ((kw.erase "keys").erase "values")
        pure (.map tk tv a, reg)
      | _, _ => .error .valueError
    else if name = "struct" then do
      let xs ← (kw.getD "fields" (.list [])).iter
      let (ts, reg) ← parseAll f xs reg
      let a ← mkAttrs ["fields"] kw
      pure (.struct ts a, reg)
    else if name = "enum" then
      match kw.get? "symbols" with
      | .none => .error .valueError
      | some s => do
        let a ← mkAttrs ["symbols"] kw
        pure (.enum s a, reg)
    else if name = "union" then
      match kw.get? "types" with
      | .none => .error .valueError
      | some v => do
        let xs ← v.iter
        let (ts, reg) ← parseAll f xs reg
        let a ← mkAttrs [] (kw.erase "types")
        pure (.union ts a, reg)
    else if kw.has "alias" || kw.has "registry" then .error .typeError
    else do
      let a ← mkAttrs [] kw
      pure (.proxy .none { a with alias := .str name }, reg)
  | _ => .error .valueError

/-- Lines 479-485 of types.py: validate, register the alias if there is one. -/
def finish (t : RType) (reg : Registry) : Except PyErr (RType × Registry) := do
  t.validate
  if !t.attrs.alias.isNone && !t.isProxy then do
    let reg ← reg.registerAlias t
    pure (t, reg)
  else pure (t, reg)

/-- `from_dict` (types.py 365-485) with a bound on the recursion depth. -/
def fromDictF : Nat → PyVal → Registry → Except PyErr (RType × Registry)
  | 0, _, _ => .error .fuel
  | n + 1, v, reg => do
    let d ← normalise v
    let d ← prepare d
    let (t, reg) ← construct (fromDictF n) (d.getD "type" .none) (d.erase "type") reg
    finish t reg

/-- `from_dict` (types.py 365-485): the returned type and the registry afterwards. -/
def fromDict (v : PyVal) (reg : Registry) : Except PyErr (RType × Registry) :=
  fromDictF v.size v reg

/-- `from_dict(v)` with the default registry (types.py 407). -/
def parse (v : PyVal) : Except PyErr RType := (·.1) <$> fromDict v newRegistry

/-! ## `alias_dict` -/

/-- First alias in the registry whose definition equals `t` (types.py 748-750). -/
def matchAlias (t : RType) : Registry → Option String
  | [] => .none
  | (k, t') :: rest => if RType.pyEq t t' then some k else matchAlias t rest

/-- `alias_dict(t, registry) if isinstance(t, dict) else t` (types.py 757), for
`f` = `alias_dict`. -/
def aliasElem (f : Dict → Registry → Except PyErr (Dict × Registry)) (x : PyVal) (reg : Registry) :
    Except PyErr (PyVal × Registry) :=
  match x with
  | .dict d => do
    let (d', reg) ← f d reg
    pure (.dict d', reg)
  | x => .ok (x, reg)

/-- `[alias_dict(t, registry) if isinstance(t, dict) else t for t in xs]`
(types.py 756-759), for `f` = `alias_dict`. -/
def aliasAll (f : Dict → Registry → Except PyErr (Dict × Registry)) :
    List PyVal → Registry → Except PyErr (List PyVal × Registry)
  | [], reg => .ok ([], reg)
  | x :: xs, reg => do
    let (x', reg) ← aliasElem f x reg
    let (xs', reg) ← aliasAll f xs reg
    pure (x' :: xs', reg)

/-- The recursion of `alias_dict` on the keys that may hold nested types
(types.py 753-761), for `f` = `alias_dict`. -/
def aliasKeys (f : Dict → Registry → Except PyErr (Dict × Registry)) :
    List String → Dict → Registry → Except PyErr (Dict × Registry)
  | [], d, reg => .ok (d, reg)
  | k :: ks, d, reg =>
    match d.get? k with
    | some (.list xs) => do
      let (xs', reg) ← aliasAll f xs reg
      aliasKeys f ks (d.set k (.list xs')) reg
    | some (.dict d') => do
      let (d'', reg) ← f d' reg
      aliasKeys f ks (d.set k (.dict d'')) reg
    | _ => aliasKeys f ks d reg

/-- `alias_dict` (types.py 718-763) with a bound on the recursion depth. -/
def aliasDictF : Nat → Dict → Registry → Except PyErr (Dict × Registry)
  | 0, _, _ => .error .fuel
  | n + 1, d, reg =>
    if !(d.getD "alias" .none).isNone then .ok (d, reg)
    else do
      let (t, reg) ← fromDict (.dict d) reg
      match matchAlias t reg with
      | some k => pure ([("type", .str k)], reg)
      | .none => aliasKeys (aliasDictF n) ["values", "keys", "fields", "types"] d reg

/-- `alias_dict(d, registry)` (types.py 718-763). -/
def aliasDict (d : Dict) (reg : Registry) : Except PyErr (Dict × Registry) :=
  aliasDictF (PyVal.dict d).size d reg

/-! ## `clean_dict` -/

/-- The constructor defaults that `clean_dict` removes, for a type name
(types.py 622-636 applied to the signatures of lines 14-26, 112-316). -/
def paramDefaults (name : String) : Dict :=
  let base : Dict := [("logical", .none), ("alias", .none), ("doc", .none)]
  if name = "int" then ("signed", .bool true) :: base
  else if name = "string" ∨ name = "bytes" then
    ("bytes", .none) :: ("variable", .bool true) :: base
  else if name = "list" then ("length", .none) :: ("variable", .bool true) :: base
  else if name = "struct" then ("fields", .none) :: base
  else base

/-- `{k: v for ... if k not in param_defaults or param_defaults[k] != v}`
(types.py 639-643). -/
def dropDefaults (defaults : Dict) (d : Dict) : Dict :=
  d.filter (fun kv => match defaults.get? kv.1 with
    | .none => true
    | some dv => !PyVal.pyEq dv kv.2)

/-- `[clean_dict(t) for t in xs]`, for `f` = `clean_dict`. -/
def cleanAll (f : PyVal → Except PyErr PyVal) : List PyVal → Except PyErr (List PyVal)
  | [] => .ok []
  | x :: xs => do
    let x' ← f x
    let xs' ← cleanAll f xs
    pure (x' :: xs')

/-- `xs.remove("null")` (types.py 682): drop the first member equal to `"null"`. -/
def removeNull : List PyVal → List PyVal
  | [] => []
  | x :: xs => if PyVal.pyEq (.str "null") x then xs else x :: removeNull xs

/-- The cleaning of nested types by type name (types.py 645-656), for `f` = `clean_dict`. -/
def cleanNested (f : PyVal → Except PyErr PyVal) (name : String) (d : Dict) :
    Except PyErr Dict := do
  let d ← if name = "list" ∨ name = "map" then
      match d.get? "values" with
      | .none => .error .assertionError
      | some v => do
        let v' ← f v
        pure (d.set "values" v')
    else pure d
  let d ← if name = "map" then
      match d.get? "keys" with
      | .none => .error .keyError
      | some v => do
        let v' ← f v
        pure (d.set "keys" v')
    else pure d
  let d ← if name = "struct" then
      match d.get? "fields" with
      | .none => pure d
      | some v => do
        let xs ← v.iter
        let xs' ← cleanAll f xs
        pure (d.set "fields" (.list xs'))
    else pure d
  if name = "union" then
    match d.get? "types" with
    | .none => .error .keyError
    | some v => do
      let xs ← v.iter
      let xs' ← cleanAll f xs
      pure (d.set "types" (.list xs'))
  else pure d

/-- The attributes put back on the sugared dictionary, without `None`s
(types.py 694-703). -/
def sugarAttributes (alias default_ doc logical name : PyVal) : Dict :=
  ([("alias", alias), ("default", default_), ("doc", doc), ("logical", logical), ("name", name),
    ("optional", .bool true)] : Dict).filter (fun kv => !kv.2.isNone)

/-- The union that remains after popping the standard attributes (types.py 673-677). -/
def popStandard (d : Dict) : Dict :=
  ((((d.erase "alias").erase "logical").erase "default").erase "doc").erase "name"

/-- Lines 682-705 of types.py: drop `"null"`; use the single remaining member if the union
has no alias and no logical type; put the attributes back.  `d` is the popped union, `xs`
its members. -/
def sugarUnion (alias logical : PyVal) (attributes : Dict) (d : Dict) (xs : List PyVal) :
    Except PyErr Dict :=
  match removeNull xs, alias.isNone && logical.isNone with
  | [.str s], true => .ok (Dict.update [("type", .str s)] attributes)
  | [.dict d'], true => .ok (Dict.update d' attributes)
  | [_], true => .error .assertionError
  | ys, _ => .ok (Dict.update (d.set "types" (.list ys)) attributes)

/-- The `optional` sugar of `clean_dict` (types.py 663-705). -/
def sugarOptional (d : Dict) : Except PyErr Dict :=
  if !PyVal.pyEq (d.getD "type" .none) (.str "union") then .ok d
  else match d.get? "types" with
  | .none => .error .keyError
  | some types =>
    match types.containsStr "null" with
    | .error e => .error e
    | .ok false => .ok d
    | .ok true =>
      if !d.has "default" then .ok d
      else if (popStandard d).length == 2 then
        match types with
        | .list xs =>
          sugarUnion (d.getD "alias" .none) (d.getD "logical" .none)
            (sugarAttributes (d.getD "alias" .none) (d.getD "default" .none)
              (d.getD "doc" .none) (d.getD "logical" .none) (d.getD "name" .none))
            (popStandard d) xs
        | _ => .error .attributeError
      else .ok (popStandard d)

/-- The final shortening of `clean_dict` (types.py 707-715). -/
def shorten (d : Dict) : Except PyErr PyVal :=
  if d.length == 1 then
    match d.get? "type" with
    | some v => .ok v
    | .none => .error .keyError
  else match d.get? "type" with
  | .none => .error .keyError
  | some ty =>
    if PyVal.pyEq ty (.str "union") && d.length == 2 then
      match d.get? "types" with
      | some v => .ok v
      | .none => .error .keyError
    else .ok (.dict d)

/-- Normalisation of the argument of `clean_dict` (types.py 605-619). -/
def cleanNormalise : PyVal → Except PyErr Dict
  | .list xs => .ok [("type", .str "union"), ("types", .list xs)]
  | .dict d => if Dict.has d "type" then .ok d else .error .valueError
  | .str s => .ok [("type", .str s)]
  | _ => .error .attributeError

/-- `clean_dict` (types.py 578-715) with a bound on the recursion depth. -/
def cleanDictF : Nat → PyVal → Except PyErr PyVal
  | 0, _ => .error .fuel
  | n + 1, v => do
    let d ← cleanNormalise v
    let d ← match d.getD "type" .none with
      | .str name => cleanNested (cleanDictF n) name (dropDefaults (paramDefaults name) d)
      | .list _ =>
        match d.get? "types" with
        | .none => .error .keyError
        | some v => do
          let xs ← v.iter
          let xs' ← cleanAll (cleanDictF n) xs
          pure [("type", .str "union"), ("types", .list xs')]
      | _ => pure d
    let d ← sugarOptional d
    shorten d

/-- `clean_dict` (types.py 578-715). -/
def cleanDict (v : PyVal) : Except PyErr PyVal := cleanDictF v.size v

/-! ## `to_dict` -/

/-- The part of the dictionary common to all types (types.py 504-510). -/
def baseDict (t : RType) : Dict :=
  Dict.update [("type", .str t.typeName), ("alias", t.attrs.alias),
    ("logical", t.attrs.logical), ("doc", t.attrs.doc)] t.attrs.extra

/-- Lines 569-575 of types.py: alias substitution and cleaning as requested. -/
def postProcess (clean alias : Bool) (d : Dict) : Except PyErr PyVal := do
  let d ← if alias then (·.1) <$> aliasDict d newRegistry else pure d
  if clean then cleanDict (.dict d) else pure (.dict d)

mutual
/-- `to_dict` (types.py 488-575). -/
def toDict (clean alias : Bool) : RType → Except PyErr PyVal
  | .int b s a =>
    postProcess clean alias (((baseDict (.int b s a)).set "bits" b).set "signed" s)
  | .float b a => postProcess clean alias ((baseDict (.float b a)).set "bits" b)
  | .string b v a =>
    postProcess clean alias (((baseDict (.string b v a)).set "bytes" b).set "variable" v)
  | .bytes b v a =>
    postProcess clean alias (((baseDict (.bytes b v a)).set "bytes" b).set "variable" v)
  | .list t l v a => do
    let t' ← toDict clean alias t
    postProcess clean alias
      ((((baseDict (.list t l v a)).set "values" t').set "length" l).set "variable" v)
  | .map k v a => do
    let k' ← toDict clean alias k
    let v' ← toDict clean alias v
    postProcess clean alias (((baseDict (.map k v a)).set "keys" k').set "values" v')
  | .struct fs a => do
    let fs' ← toDictList clean alias fs
    postProcess clean alias ((baseDict (.struct fs a)).set "fields" (.list fs'))
  | .enum s a => postProcess clean alias ((baseDict (.enum s a)).set "symbols" s)
  | .union ts a => do
    let ts' ← toDictList clean alias ts
    postProcess clean alias ((baseDict (.union ts a)).set "types" (.list ts'))
  | .proxy r a =>
    let d := baseDict (.proxy r a)
    postProcess clean alias ((d.erase "alias").set "type" (d.getD "alias" .none))
  | .null a => postProcess clean alias (baseDict (.null a))
  | .bool a => postProcess clean alias (baseDict (.bool a))
/-- `[to_dict(t, clean, alias) for t in ts]` (types.py 537-544, 548-557). -/
def toDictList (clean alias : Bool) : List RType → Except PyErr (List PyVal)
  | [] => .ok []
  | t :: ts => do
    let t' ← toDict clean alias t
    let ts' ← toDictList clean alias ts
    pure (t' :: ts')
end

end Recap
