import Verif.Cli
import Verif.CommandsSpec
import Verif.JsonTextSpec

/-!
# The command line and the gateway (C148)
-/

set_option autoImplicit false

namespace Recap.Commands.Spec

open Recap.Url Recap.JsonText Recap.JsonText.Spec

/-- What is printed says what the gateway answers: it is a JSON text of the dictionary, or the same Protobuf file. -/
inductive Says (F : Floats) : Printed → Output → Prop
  | text {s d} : IsJson F (.dict d) s → Says F (.text s) (.dict d)
  | file {es} : Says F (.file es) (.file es)

/-- The answer is a value that Python has. -/
def Possible : Output → Prop
  | .dict d => Recap.Spec.Real (.dict d)
  | .file _ => True

/-- **C148**: what the gateway answers, the command line prints for the same URL, in the same format. -/
def SamePrinted (F : Floats) : Prop :=
  ∀ (s : System) (url : Chars),
    (∀ header f o, Asks header f → getSchema s url header = .ok o → Possible o →
      ∃ p, recapSchema F s url f = .ok p ∧ Says F p o) ∧
    ∀ l, getLs s url = .ok l → ∃ text, recapLs F s (some url) = .ok (some text) ∧ IsJson F (strings l) text

end Recap.Commands.Spec
