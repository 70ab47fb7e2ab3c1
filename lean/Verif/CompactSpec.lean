import Verif.TypesSpec

/-! # Specifications for the compact form of documents: C02 – C05 -/

set_option autoImplicit false

namespace Recap.Spec

/-- A union that the compact form can express.  Only unions that have both a default and a plain null
member are special; they are written with `optional`.  For these:
* the plain null is the first member, and the only one;
* there are no attributes besides the default and the name, and the name is not `None`;
* if the union has neither alias nor logical type and just one other member, then the union has no
  doc, and the other member is not a union and has neither name nor default. -/
def OptionalForm (ts : List RType) (a : Attrs) : Prop :=
  (∃ n ∈ ts, IsPlainNull n) → "default" ∈ a.extra.keys →
    (∀ k ∈ a.extra.keys, k = "default" ∨ k = "name") ∧ Dict.get? a.extra "name" ≠ some .none ∧
    ∃ n rest, ts = n :: rest ∧ IsPlainNull n ∧ (∀ u ∈ rest, ¬ IsPlainNull u) ∧
      (a.alias = .none → a.logical = .none → ∀ u, rest = [u] →
        a.doc = .none ∧ u.typeName ≠ "union" ∧ "name" ∉ u.attrs.extra.keys ∧
        "default" ∉ u.attrs.extra.keys)

/-- All unions in the type have a compact form. -/
def Canonical (t : RType) : Prop := ∀ ts a, Sub (.union ts a) t → OptionalForm ts a

/-- No extra attribute has a name that `to_dict` uses for nested types. -/
def PlainKeys (t : RType) : Prop :=
  ∀ u, Sub u t → ∀ k ∈ u.attrs.extra.keys, k ∉ ["values", "keys", "fields", "types"]

/-- The name of the first built-in alias that stands for this type. -/
def builtinFor (t : RType) : Option String :=
  (List.find? (fun e => RType.pyEq t e.2) builtinAliases).map (·.1)

/-- A reference to an alias. -/
def reference (k : String) : RType := .proxy .none { alias := .str k }

mutual
/-- The type, with every nested type that a built-in alias stands for replaced by a reference. -/
def aliased : RType → RType
  | .list t l v a => .list (aliased t) l v a
  | .map k v a => .map (aliased k) (aliased v) a
  | .struct fs a => .struct (aliasedAll fs) a
  | .union ts a => .union (aliasedAll ts) a
  | t => match builtinFor t with
    | some k => reference k
    | .none => t
def aliasedAll : List RType → List RType
  | [] => []
  | t :: ts => aliased t :: aliasedAll ts
end

end Recap.Spec
