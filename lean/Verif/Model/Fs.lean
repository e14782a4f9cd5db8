import Verif.Model.Metadata
import Verif.Model.Bytes

/-!
# A file system

The tree of directories and files that holds a container, and the `std::filesystem` and stream operations
that the code performs on it.  JSON documents are kept as values (see `Model/Json.lean`), chunk files as
bytes.  Operating system errors other than the ones named here, links and permissions are not modelled.
Keys and paths are lists of names without the special names `.` and `..`.
-/

namespace Z5

/-- A path below a fixed root: the names from the top. -/
abbrev Path := List String

/-- What is found at a path. -/
inductive Entry where
  | dir
  /-- a file with a JSON text -/
  | doc (j : Json)
  /-- any other file -/
  | file (b : Bytes)

abbrev Fs := Path → Option Entry

/-- is there a directory? -/
def isDirectory : Option Entry → Bool
  | some .dir => true
  | _ => false

/-- is there something other than a directory? -/
def isOther : Option Entry → Bool
  | some .dir => false
  | some _ => true
  | none => false

/-- What exists lies in directories. -/
def Fs.WF (σ : Fs) : Prop := ∀ p q : Path, q ≠ [] → σ (p ++ q) ≠ none → σ p = some .dir

/-- Code that works on the file system: what it returns or throws, and the state it leaves behind. -/
def FsM (α : Type) := Fs → Res α × Fs

instance : Monad FsM where
  pure a := fun σ => (.ok a, σ)
  bind x f := fun σ =>
    match x σ with
    | (.ok a, σ) => f a σ
    | (.throw e, σ) => (.throw e, σ)
    | (.ub, σ) => (.ub, σ)

namespace FsM

/-- a computation that does not look at the file system -/
def lift {α : Type} (r : Res α) : FsM α := fun σ => (r, σ)

/-- `fs::exists` (`false` below a file) -/
def exist (p : Path) : FsM Bool := fun σ => (.ok (σ p).isSome, σ)

/-- `fs::exists(p) && fs::is_directory(p)` -/
def isDir (p : Path) : FsM Bool := fun σ =>
  (.ok (isDirectory (σ p)), σ)

/-- `std::ifstream file(path); file >> j;`: a parse error if there is no file with JSON text. -/
def parse (p : Path) : FsM Json := fun σ =>
  match σ p with
  | some (.doc j) => (.ok j, σ)
  | _ => (.throw .typeError, σ)

/-- `std::ofstream file(path); file << j; file.close();`: without a directory to hold the file, or if the
    path is a directory, opening fails and nothing is reported. -/
def writeDoc (p : Path) (j : Json) : FsM Unit := fun σ =>
  if isDirectory (σ p.dropLast) && !isDirectory (σ p) then
    (.ok (), fun q => if q = p then some (.doc j) else σ q)
  else (.ok (), σ)

/-- `fs::create_directories`: an error if the path or something above it is a file. -/
def createDirectories (p : Path) : FsM Unit := fun σ =>
  if (List.range (p.length + 1)).any fun n => isOther (σ (p.take n)) then (.throw .filesystemError, σ)
  else (.ok (), fun q => if q <+: p then some .dir else σ q)

/-- `fs::remove_all` -/
def removeAll (p : Path) : FsM Unit := fun σ => (.ok (), fun q => if p <+: q then none else σ q)

end FsM

end Z5
