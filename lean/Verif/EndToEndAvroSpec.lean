import Verif.EndToEndSpec
import Verif.FilesSpec
import Verif.AvroKeptSpec

/-!
# From the path of an Avro schema to what is printed (C154)

Which file a path names is from `FilesSpec.lean`, the data of a schema from `AvroDataSpec.lean`.
-/

set_option autoImplicit false

namespace Recap.EndToEnd

open Recap.Url Recap.Url.Spec Recap.Clients Recap.Commands Recap.JsonText Recap.JsonText.Spec
open Recap.Files (place)

/-- The client of Recap for files reads these files, given by their texts: what it makes of a file with a JSON text is what
a new Avro converter makes of the value, without a namespace (recap/clients/fs.py 47-50). -/
def BehindAvro (F : Floats) (files : Bool × List Chars → Option Str) (w : World) : Prop :=
  ∀ path text v, files (place path) = some text → IsJson F v text →
    match Avro.toRecap v .none newRegistry with
    | .ok (t, reg) => w.type .filesystem [("scheme", .str "file")] (.file path .avro) = .ok (t, reg)
    | .error _ => ∃ e, w.type .filesystem [("scheme", .str "file")] (.file path .avro) = .error e

/-- The configured URLs are written as URLs are, and none is for files; the path is absolute and can be written in a URL;
the file is an Avro schema. -/
structure AvroFile (s : System) (confs : List Parts) (path : Chars) : Prop where
  urls : s.urls = confs.map render
  known : ∀ c ∈ confs, Url.Spec.WellFormed s.env c
  others : ∀ c ∈ confs, c.scheme ≠ "file".toList
  plain : Files.Ordinary path
  format : Files.HasFormat path .avro

end Recap.EndToEnd
