import Verif.Model.Python
import Verif.Model.Visit

/-!
# Containers on S3 in the Python module

`S3File` of `src/python/module/z5py/file.py`.  Python exceptions are those of `Err`; `NotImplementedError` is a
`RuntimeError`.  Bucket, endpoint, region and credentials are not modelled (see `Model/S3.lean`); the module has been
compiled with S3 (line 239).
-/

namespace Z5

/-- file.py:233-236: the arguments of `S3File` -/
structure S3FileArgs where
  name : Key := []
  mode : String := "r"
  useZarr : Option Bool := none
  zarrFormat : Int := 2
  separator : Option String := none
  deriving DecidableEq, Repr

/-- file.py:251-254 `_init_args` -/
structure S3InitArgs where
  name : Key
  mode : String
  zarrFormat : Int
  separator : String
  deriving DecidableEq, Repr

/-- An `S3File`: what it is as a group (group.py:39-46), and `_init_args` -/
structure S3PyFile where
  group : S3PyGroup
  separator : String
  initArgs : S3InitArgs

/-- file.py:233-276 `S3File.__init__` -/
def s3File (a : S3FileArgs) : S3M S3PyFile := do
  if a.useZarr = some false then S3M.lift (.throw .runtimeError)
  else
    let separator := a.separator.getD (if a.zarrFormat = 3 then "/" else ".")
    match pyFileModes.lookup a.mode with
    | none => S3M.lift (.throw .keyError)
    | some mode =>
      let h : S3Handle := ⟨a.name, mode⟩
      let f : S3PyFile := ⟨⟨h, a.zarrFormat⟩, separator, ⟨a.name, a.mode, a.zarrFormat, separator⟩⟩
      if (← h.exist) && mode.shouldTruncate then h.remove
      if ← h.exist then
        if mode.mustNotExist then S3M.lift (.throw .osError) else return f
      else if !mode.canCreate then S3M.lift (.throw .osError)
      else
        h.createFile true a.zarrFormat
        return f

/-- file.py:16-28 `_unpickle_s3_file`, 278-282 `S3File.__reduce__`: no request is sent. -/
def s3Unpickle (a : S3InitArgs) : Res S3PyFile :=
  match pyFileModes.lookup a.mode with
  | none => .throw .keyError
  | some mode => .ok ⟨⟨⟨a.name, mode⟩, a.zarrFormat⟩, a.separator, a⟩

end Z5
