import Verif.Listed
import Verif.ClientsSpec

/-!
# Specification: what is listed can be read

A name that `ls` returns is relative to the URL that was listed (commands.py 28-36), so that
appending it to that URL should give the URL of the child.
-/

set_option autoImplicit false

namespace Recap.Listed.Spec

open Recap.Url Recap.Url.Spec

/-- The URL of a child: its name appended to the path. -/
def below (u : Parts) (name : Chars) : Parts := { u with path := u.path ++ '/' :: name }

/-- A name that can be written as a segment of a URL as it is. -/
def Segment (name : Chars) : Prop :=
  name ≠ [] ∧ ∀ c ∈ name, c ≠ '/' ∧ c ≠ '?' ∧ c ≠ '#' ∧ Quiet c

instance (name : Chars) : Decidable (Segment name) := inferInstanceAs (Decidable (_ ∧ _))

/-- The columns of a table. -/
def OwnRows (db : InfoSchema) (catalog schema table : String) : List Dict :=
  (db.columns.filter (fun c => decide (c.catalog = catalog ∧ c.schema = schema ∧
    c.table = table))).map (·.row)

/-- An ordinary name of a table: letters, digits and underscores, not beginning with a digit. -/
def Ordinary (name : Chars) : Prop :=
  name ≠ [] ∧ (∀ c ∈ name.head?, c.isAlpha = true ∨ c = '_') ∧
    ∀ c ∈ name, c.isAlpha = true ∨ c.isDigit = true ∨ c = '_'

instance (name : Chars) : Decidable (Ordinary name) := inferInstanceAs (Decidable (_ ∧ _))

/-- No two tables or views of a file have the same name, up to the case of ASCII letters; SQLite
does not create them. -/
def Distinct (file : List Object) : Prop :=
  file.Pairwise (fun a b => a.name.map Char.toLower ≠ b.name.map Char.toLower)

/-- A subject of the keys or of the values of a topic. -/
def KeyOrValue (subject : Chars) : Prop :=
  ∃ topic, subject = topic ++ "-key".toList ∨ subject = topic ++ "-value".toList

end Recap.Listed.Spec
