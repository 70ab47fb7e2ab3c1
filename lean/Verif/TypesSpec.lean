import Verif.Types

/-!
# Specifications for the properties of `recap/types.py`

Nothing here is used by the model.  These definitions state, independently of how the code
computes, what the properties C01-C24 talk about.
-/

namespace Recap.Spec

open Recap

/-! ## Numbers and bounds (C06) -/

/-- The Python value `v` is a number between `lo` and `hi`.  `True` and `False` count as 1
and 0, and `float m e` is the number `m / 2^e`. -/
def NumBetween (v : PyVal) (lo hi : Int) : Prop :=
  match v with
  | .int i => lo ≤ i ∧ i ≤ hi
  | .bool b => lo ≤ (if b then 1 else 0) ∧ (if b then (1 : Int) else 0) ≤ hi
  | .float m e => lo * 2 ^ e ≤ m ∧ m ≤ hi * 2 ^ e
  | _ => False

/-- A size that is either unset, which requires the `variable` flag, or between 1 and
2^63 - 1. -/
def SizeOK (size variable_ : PyVal) : Prop :=
  (size = .none ∧ variable_.truthy = true) ∨ NumBetween size 1 (2 ^ 63 - 1)

mutual
/-- Every type in the tree respects the documented bounds. -/
def Bounded : RType → Prop
  | .int bits _ _ => NumBetween bits 1 (2 ^ 31 - 1)
  | .float bits _ => NumBetween bits 1 (2 ^ 31 - 1)
  | .string b v _ => SizeOK b v
  | .bytes b v _ => SizeOK b v
  | .list t l v _ => SizeOK l v ∧ Bounded t
  | .map k v _ => Bounded k ∧ Bounded v
  | .struct fs _ => BoundedAll fs
  | .union ts _ => BoundedAll ts
  | .null _ | .bool _ | .enum _ _ | .proxy _ _ => True
def BoundedAll : List RType → Prop
  | [] => True
  | t :: ts => Bounded t ∧ BoundedAll ts
end

/-! ## Fully qualified names (C10) -/

/-- ASCII letters and underscore. -/
def Letter (c : Char) : Prop :=
  (97 ≤ c.toNat ∧ c.toNat ≤ 122) ∨ (65 ≤ c.toNat ∧ c.toNat ≤ 90) ∨ c = '_'

/-- ASCII digits. -/
def Digit (c : Char) : Prop := 48 ≤ c.toNat ∧ c.toNat ≤ 57

/-- `[a-zA-Z_][a-zA-Z0-9_]*` -/
def Ident (cs : List Char) : Prop :=
  ∃ c rest, cs = c :: rest ∧ Letter c ∧ ∀ x ∈ rest, Letter x ∨ Digit x

/-- Two or more identifiers joined by dots. -/
def FullyQualified (s : String) : Prop :=
  ∃ parts : List (List Char), 2 ≤ parts.length ∧ (∀ p ∈ parts, Ident p) ∧
    s.toList = List.intercalate ['.'] parts

/-! ## Aliases defined by a type (C08) -/

/-- The alias of one node, if it has one. -/
def own (a : Attrs) : List PyVal := if a.alias = .none then [] else [a.alias]

mutual
/-- The aliases defined in a type, inner types first.  References (proxies) define none. -/
def definedAliases : RType → List PyVal
  | .proxy _ _ => []
  | .list t _ _ a => definedAliases t ++ own a
  | .map k v a => definedAliases k ++ definedAliases v ++ own a
  | .struct fs a => definedAliasesAll fs ++ own a
  | .union ts a => definedAliasesAll ts ++ own a
  | .null a => own a
  | .bool a => own a
  | .int _ _ a => own a
  | .float _ a => own a
  | .string _ _ a => own a
  | .bytes _ _ a => own a
  | .enum _ a => own a
def definedAliasesAll : List RType → List PyVal
  | [] => []
  | t :: ts => definedAliases t ++ definedAliasesAll ts
end

/-- `Sub u t`: `u` is `t` or one of the types nested in it. -/
inductive Sub : RType → RType → Prop
  | refl {t} : Sub t t
  | list {u t l v a} : Sub u t → Sub u (.list t l v a)
  | key {u k v a} : Sub u k → Sub u (.map k v a)
  | value {u k v a} : Sub u v → Sub u (.map k v a)
  | field {u t fs a} : t ∈ fs → Sub u t → Sub u (.struct fs a)
  | member {u t ts a} : t ∈ ts → Sub u t → Sub u (.union ts a)

/-- What an alias stands for: the type without its alias, doc and default. -/
def definition (t : RType) : RType :=
  t.withAttrs { t.attrs with
    alias := .none, doc := .none, extra := t.attrs.extra.filter (fun kv => kv.1 ≠ "default") }

mutual
/-- A type without the registries that its references point to. -/
def shape : RType → RType
  | .proxy _ a => .proxy .none a
  | .list t l v a => .list (shape t) l v a
  | .map k v a => .map (shape k) (shape v) a
  | .struct fs a => .struct (shapeAll fs) a
  | .union ts a => .union (shapeAll ts) a
  | t => t
def shapeAll : List RType → List RType
  | [] => []
  | t :: ts => shape t :: shapeAll ts
end

/-- The aliases in a registry. -/
def names (reg : Registry) : List String := reg.map (·.1)

/-! ## Python values and attributes (C12, C13) -/

/-- `m / 2 ^ e` is in lowest terms, not integral and a number of double precision. -/
def IsDouble (m : Int) (e : Nat) : Prop := m % 2 = 1 ∧ m.natAbs < 2 ^ 53 ∧ 0 < e ∧ e ≤ 1074

instance (m : Int) (e : Nat) : Decidable (IsDouble m e) := inferInstanceAs (Decidable (_ ∧ _))

mutual
/-- The values that Python has: all keys of a dictionary are distinct, and floats are numbers of
double precision in lowest terms. -/
def Real : PyVal → Prop
  | .float m e => IsDouble m e
  | .list xs => RealAll xs
  | .dict kvs => (kvs.map (·.1)).Nodup ∧ RealPairs kvs
  | _ => True
def RealAll : List PyVal → Prop
  | [] => True
  | x :: xs => Real x ∧ RealAll xs
def RealPairs : List (String × PyVal) → Prop
  | [] => True
  | (_, x) :: xs => Real x ∧ RealPairs xs
end

/-- The attributes that only this class of type has, with their values. -/
def params : RType → List (String × PyVal)
  | .int b s _ => [("bits", b), ("signed", s)]
  | .float b _ => [("bits", b)]
  | .string b v _ => [("bytes_", b), ("variable", v)]
  | .bytes b v _ => [("bytes_", b), ("variable", v)]
  | .list _ l v _ => [("length", l), ("variable", v)]
  | .enum s _ => [("symbols", s)]
  | _ => []

/-- The types directly inside a type. -/
def children : RType → List RType
  | .list t _ _ _ => [t]
  | .map k v _ => [k, v]
  | .struct fs _ => fs
  | .union ts _ => ts
  | _ => []

/-- All values stored in one type object are Python values. -/
def RealNode (t : RType) : Prop :=
  Real t.attrs.logical ∧ Real t.attrs.alias ∧ Real t.attrs.doc ∧ Real (.dict t.attrs.extra) ∧
    ∀ kv ∈ params t, Real kv.2

/-- All values stored in a type object and in the types nested in it are Python values. -/
def RealType (t : RType) : Prop := ∀ u, Sub u t → RealNode u

/-- Two lists have the same length and are related position by position. -/
def Pairwise₂ {α β : Type} (R : α → β → Prop) : List α → List β → Prop
  | [], [] => True
  | x :: xs, y :: ys => R x y ∧ Pairwise₂ R xs ys
  | _, _ => False

/-- Two optional values are both absent, or both present and `==`. -/
def OptEq : Option PyVal → Option PyVal → Prop
  | .none, .none => True
  | some x, some y => PyVal.pyEq x y = true
  | _, _ => False

/-- Two type objects agree on the attributes that all types have. -/
def SameAttrs (a b : Attrs) : Prop :=
  PyVal.pyEq a.logical b.logical = true ∧ PyVal.pyEq a.alias b.alias = true ∧
    PyVal.pyEq a.doc b.doc = true ∧ ∀ k, OptEq (Dict.get? a.extra k) (Dict.get? b.extra k)

/-! ## Nullability (C14 - C17) -/

/-- The type without its doc, default and name: these go to the union around it. -/
def bare (t : RType) : RType :=
  t.withAttrs { t.attrs with
    doc := .none
    extra := t.attrs.extra.filter (fun kv => kv.1 ≠ "default" ∧ kv.1 ≠ "name") }

/-- The class of types whose only value is null. -/
def IsNullType (t : RType) : Prop := ∃ a, t = .null a

/-- A null type without any attribute. -/
def IsPlainNull (t : RType) : Prop := RType.pyEq t (.null {}) = true

/-! ## References (C18, C19) -/

/-- The Python attribute `k` of a type: a common attribute, a class-specific attribute, or an
extra attribute. -/
def attr (t : RType) (k : String) : Option PyVal :=
  if k = "logical" then some t.attrs.logical
  else if k = "alias" then some t.attrs.alias
  else if k = "doc" then some t.attrs.doc
  else match Dict.get? (params t) k with
  | some v => some v
  | .none => Dict.get? t.attrs.extra k

/-- Attribute names that are not the name of a nested type, a method or an internal attribute of
some class, and do not start with two underscores. -/
def OrdinaryKey (k : String) : Prop :=
  k ∉ ["values", "keys", "fields", "types", "type_", "extra_attrs", "validate", "make_nullable",
    "is_nullable", "is_optional", "resolve", "registry", "_resolved"] ∧
  ¬ "__".toList.isPrefixOf k.toList = true

/-- The overrides on a reference: distinct ordinary attribute names. -/
def OrdinaryOverrides (e : Dict) : Prop :=
  (e.map (·.1)).Nodup ∧ ∀ kv ∈ e, OrdinaryKey kv.1

/-- `Reaches live t u`: `u` can be reached from `t` by going to nested types and by resolving
references, when the live registry is `live`. -/
inductive Reaches (live : Registry) : RType → RType → Prop
  | refl {t} : Reaches live t t
  | child {t u c} : Reaches live t u → c ∈ children u → Reaches live t c
  | resolve {t r a d} : Reaches live t (.proxy r a) → Recap.resolve live r a = .ok d →
      Reaches live t d

mutual
/-- In document order, each reference names an alias in `seen` or one defined before it. -/
def Backward (seen : List PyVal) : RType → Prop
  | .proxy _ a => a.alias ∈ seen
  | .list t _ _ _ => Backward seen t
  | .map k v _ => Backward seen k ∧ Backward (seen ++ definedAliases k) v
  | .struct fs _ => BackwardAll seen fs
  | .union ts _ => BackwardAll seen ts
  | _ => True
def BackwardAll (seen : List PyVal) : List RType → Prop
  | [] => True
  | t :: ts => Backward seen t ∧ BackwardAll (seen ++ definedAliases t) ts
end

/-- The core type names. -/
def coreTypeNames : List String :=
  ["null", "bool", "int", "float", "string", "bytes", "list", "map", "struct", "enum", "union"]

/-- The documents `xs` parse, one after the other, to the types `ts`; the registry is passed on from
one to the next. -/
def ParsesAll : List PyVal → Registry → List RType → Registry → Prop
  | [], reg, ts, reg' => ts = [] ∧ reg' = reg
  | x :: xs, reg, ts, reg' => ∃ t ts1 reg1, ts = t :: ts1 ∧ fromDict x reg = .ok (t, reg1) ∧
      ParsesAll xs reg1 ts1 reg'

/-- The dictionary `d` without the entries for `ks`. -/
def without (d : Dict) (ks : List String) : Dict := d.filter (fun kv => kv.1 ∉ ks)

/-! ## Round trips (C01 - C03) -/

/-- Attribute names that cannot be used for extra attributes of a type of this class, because
`from_dict` gives them another meaning. -/
def reservedKeys (t : RType) : List String :=
  ["type", "alias", "logical", "doc", "optional", "self", "type_"] ++
  match t with
  | .int .. => ["bits", "signed"]
  | .float .. => ["bits"]
  | .string .. | .bytes .. => ["bytes", "bytes_", "variable"]
  | .list .. => ["values", "length", "variable"]
  | .map .. => ["keys", "values"]
  | .struct .. => ["fields"]
  | .enum .. => ["symbols"]
  | .union .. => ["types"]
  | .proxy .. => ["registry"]
  | _ => []

/-- A type object that a document can describe: extra attributes have distinct names that are not
reserved; a reference names something that is not a core type; an alias is fully qualified. -/
def NodeOK (t : RType) : Prop :=
  t.attrs.extra.keys.Nodup ∧ (∀ k ∈ t.attrs.extra.keys, k ∉ reservedKeys t) ∧
  (if t.isProxy then ∃ n, t.attrs.alias = .str n ∧ n ∉ coreTypeNames
   else t.attrs.alias = .none ∨ ∃ s, t.attrs.alias = .str s ∧ FullyQualified s)

/-- A type that a document can describe, given the aliases already taken: each nested type can be
described, sizes are within bounds, aliases are distinct and new. -/
def WellFormed (taken : List String) (t : RType) : Prop :=
  (∀ u, Sub u t → NodeOK u) ∧ Bounded t ∧ (definedAliases t).Nodup ∧
  ∀ s ∈ taken, .str s ∉ definedAliases t

end Recap.Spec
