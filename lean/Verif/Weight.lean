import Verif.Types

/-!
# A bound on the depth of recursions that follow references

The converters to other schema languages follow the references in a type (`ProxyType.resolve`).  The
bound on their recursion depth is computed here; `Sealed.lean` shows that it is enough for the
registries that `register_alias` makes.
-/

set_option autoImplicit false

namespace Recap

mutual
/-- A bound on the depth of a type, through the registries of its references; `live` is that of the
live registry. -/
def weight (live : Nat) : RType → Nat
  | .list t _ _ _ => 1 + weight live t
  | .map k t _ => 1 + weight live k + weight live t
  | .struct fs _ => 1 + weightAll live fs
  | .union ts _ => 1 + weightAll live ts
  | .proxy .none _ => 1 + live
  | .proxy (some reg) _ => 1 + weightReg live reg
  | _ => 1
def weightAll (live : Nat) : List RType → Nat
  | [] => 0
  | t :: ts => weight live t + weightAll live ts
def weightReg (live : Nat) : List (String × RType) → Nat
  | [] => 0
  | (_, t) :: ts => weight live t + weightReg live ts
end

end Recap
