import Verif.AvroStoredSpec

/-!
# Types with references to built-in aliases (C129, C137)

Nothing here uses the converter, apart from `resolve`, which is how the user of a type finds out what a
reference in it refers to.
-/

set_option autoImplicit false

namespace Recap.AvroWrite

/-- A reference to a built-in alias, without attributes that are called `alias` or `doc`. -/
structure ToBuiltin (live : Registry) (r : Option (List (String × RType))) (a : Attrs) : Prop where
  target : ∃ s t, a.alias = .str s ∧ (s, t) ∈ builtinAliases ∧ Registry.find? (r.getD live) s = some t
  keys : (Dict.keys a.extra).Nodup
  alias : Dict.get? a.extra "alias" = .none
  doc : Dict.get? a.extra "doc" = .none

/-- The type has a name, as fields have, a default, or a logical type. -/
inductive Detailed (a : Attrs) : Prop
  | name {s} : Dict.get? a.extra "name" = some (.str s) → s ≠ "" → Detailed a
  | default {v} : Dict.get? a.extra "default" = some v → Detailed a
  | logical {l} : a.logical = .str l → Detailed a

/-- `Expanded live t u`: `u` is `t` where each reference is replaced by what it refers to.  The references are to
built-in aliases, and what they refer to has a name, a default or a logical type.  The documentation of a reference
is that of the type in its place. -/
inductive Expanded (live : Registry) : RType → RType → Prop
  | leaf {t} : Recap.Spec.children t = [] → (∀ r a, t ≠ .proxy r a) → Expanded live t t
  | reference {r a u} : ToBuiltin live r a → resolve live r a = .ok u → Detailed u.attrs →
      Expanded live (.proxy r a) (u.withAttrs { u.attrs with doc := a.doc })
  | list {t u l v a} : Expanded live t u → Expanded live (.list t l v a) (.list u l v a)
  | map {l w b t u a} : Expanded live t u → Expanded live (.map (.string l w b) t a) (.map (.string l w b) u a)
  | struct {fs gs a} : fs.length = gs.length →
      (∀ (i : Nat) f g, fs[i]? = some f → gs[i]? = some g → Expanded live f g) →
      Expanded live (.struct fs a) (.struct gs a)
  | union {ts us a} : ts.length = us.length →
      (∀ (i : Nat) t u, ts[i]? = some t → us[i]? = some u → Expanded live t u) →
      Expanded live (.union ts a) (.union us a)

/-- The built-in aliases of types that Avro has a name of its own for. -/
def plainNames : List String :=
  ["int8", "uint8", "int16", "uint16", "int32", "uint32", "int64", "float16", "float32", "float64",
    "string32", "string64", "bytes32", "bytes64"]

end Recap.AvroWrite
