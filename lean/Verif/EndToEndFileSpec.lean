import Verif.EndToEndSpec
import Verif.FilesSpec
import Verif.JsonKeptSpec

/-!
# From the path of a JSON Schema to what is printed (C152)

Which file a path names is from `FilesSpec.lean`, which values are valid from `JsonDataSpec.lean`.
-/

set_option autoImplicit false

namespace Recap.EndToEnd

open Recap.Url Recap.Url.Spec Recap.Clients Recap.Commands Recap.JsonText Recap.JsonText.Spec
open Recap.Files (place)
open Recap.JsonData (Part)

/-- The client of Recap for files reads these files, given by their texts: what it makes of a file with a JSON text is what
its converter makes of the value. -/
def BehindFiles (F : Floats) (env : Env) (files : Bool × List Chars → Option Str) (w : World) : Prop :=
  ∀ path text v, files (place path) = some text → IsJson F v text →
    match Json.toRecap env v [] with
    | .ok (t, _) => ∃ live, w.type .filesystem [("scheme", .str "file")] (.file path .json) = .ok (t, live)
    | .error _ => ∃ e, w.type .filesystem [("scheme", .str "file")] (.file path .json) = .error e

/-- The configured URLs are written as URLs are, and none is for files; the path is absolute and can be written in a URL;
the file is a JSON Schema. -/
structure OrdinaryFile (s : System) (confs : List Parts) (path : Chars) : Prop where
  urls : s.urls = confs.map render
  known : ∀ c ∈ confs, Url.Spec.WellFormed s.env c
  others : ∀ c ∈ confs, c.scheme ≠ "file".toList
  plain : Files.Ordinary path
  format : Files.HasFormat path .json

/-- Nothing in the schema has an identifier, and no property has an empty name. -/
structure Nameless (v : PyVal) : Prop where
  ids : ∀ e, Part (.dict e) v → "$id" ∉ Dict.keys e
  names : ∀ e ps n s, Part (.dict e) v → Dict.get? e "properties" = some (.dict ps) → (n, s) ∈ ps → n ≠ ""

end Recap.EndToEnd
