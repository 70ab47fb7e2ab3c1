import Verif.Commands
import Verif.JsonText

/-!
# What the command line prints

Model of `recap/cli.py` 11-43, with the text that `rich.print_json` prints.  The text of a Protobuf file is not modelled,
the elements of the file stand for it, as in `Commands`.  Colours, which `rich` adds on a terminal, are left out.
-/

set_option autoImplicit false

namespace Recap.Commands

open Recap.Url Recap.JsonText

/-- What is printed: a text, or that of a Protobuf file. -/
inductive Printed where
  | text (s : Str)
  | file (es : List Protobuf.Elem)

/-- `print_json(data=…)` or `print(…)` (cli.py 37-43); there is no other case. -/
def printOutput (F : Floats) : Output → Printed
  | .dict d => .text (dumps F .pretty (.dict d))
  | .file es => .file es

/-- `recap schema` (cli.py 21-43). -/
def recapSchema (F : Floats) (s : System) (url : Chars) (f : Format) : Except PyErr Printed := do
  let o ← cliSchema s url f
  pure (printOutput F o)

/-- A list of strings. -/
def strings (l : List Chars) : PyVal := .list (l.map fun c => .str (String.ofList c))

/-- `recap ls` (cli.py 11-18). -/
def recapLs (F : Floats) (s : System) (url : Option Chars) : Except PyErr (Option Str) := do
  let l ← cliLs s url
  pure (l.map fun l => dumps F .pretty (strings l))

end Recap.Commands
