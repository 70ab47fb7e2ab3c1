import Verif.CompactSpec

/-! # Which aliases of nested types the default form can express: specification for C03 and C04 -/

set_option autoImplicit false

namespace Recap.Spec

/-- The type has an alias of its own (a reference has not). -/
def HasAlias (t : RType) : Prop := t.isProxy = false ∧ t.attrs.alias ≠ .none

/-- `c` is a union of a plain null and `x` with a default, and with neither alias nor logical type: the union that
the compact form writes as `x` with `optional`. -/
def OptionalOf (c x : RType) : Prop :=
  ∃ n a, c = .union [n, x] a ∧ IsPlainNull n ∧ a.alias = .none ∧ a.logical = .none ∧ "default" ∈ a.extra.keys

/-- The type is written with an alias at the top of its document. -/
def Guarded (compact : Bool) (c : RType) : Prop :=
  HasAlias c ∨ compact = true ∧ ∃ x, OptionalOf c x ∧ HasAlias x

/-- Whenever a type without alias has another type directly inside it, the latter is written with an alias at the
top of its document, or it defines no aliases and nothing in it is what an alias in the outer type stands for. -/
def Separate (compact : Bool) (t : RType) : Prop :=
  ∀ u, Sub u t → u.attrs.alias = .none → ∀ c ∈ children u, Guarded compact c ∨
    definedAliases c = [] ∧ ∀ w s, Sub w c → Sub s u → HasAlias s → RType.pyEq w (definition s) = false

end Recap.Spec
