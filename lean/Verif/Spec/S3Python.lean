import Verif.Spec.S3Nodes
import Verif.Spec.S3
import Verif.Model.S3Python

/-!
# Vocabulary for containers on S3 in Python (C77)
-/

namespace Z5

/-- The object `f` is what the arguments ask for.  Only `"r"` gives a read-only object. -/
structure S3FileArgs.Describes (a : S3FileArgs) (f : S3PyFile) : Prop where
  name : f.group.handle.name = a.name
  write : f.group.handle.mode.canWrite = true ↔ a.mode ≠ "r"
  format : f.group.zarrFormat = a.zarrFormat
  separator : ∀ s, a.separator = some s → f.separator = s
  separator3 : a.separator = none → a.zarrFormat = 3 → f.separator = "/"
  separator2 : a.separator = none → a.zarrFormat ≠ 3 → f.separator = "."

/-- The name and the content of the document of a new container -/
def s3FileDoc (zarrFormat : Int) : String × Json :=
  if zarrFormat = 3 then ("zarr.json", v3GroupDoc) else (".zgroup", .obj [("zarr_format", .int zarrFormat)])

end Z5
