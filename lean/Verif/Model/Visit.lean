import Verif.Model.Python
import Verif.Model.S3Nodes

/-!
# `Group.visititems`

`src/python/module/z5py/group.py`, for both backends, with the listings and relative paths of
`filesystem/handle.hxx`, `filesystem/factory.hxx` and `s3/factory.hxx`.
-/

namespace Z5

/-- What the method uses of a group object: the names of its members (`__iter__`, group.py:53-58), `__getitem__`
    (group.py:77-96), the path of a member relative to a group (`relative_path`, src/python/lib/handles.cxx:44-52) and
    the exception for too deep a recursion. -/
structure PyMapping (M : Type → Type) (G D N R : Type) where
  keys : G → M (List N)
  item : G → N → M (G ⊕ D)
  relative : G → G ⊕ D → R
  tooDeep : {α : Type} → M α

variable {M : Type → Type} [Monad M] {G D N R : Type} {s v : Type}

/-- group.py:321-334: the loop; `visit` is the recursive call.  The callback has a state `s` of its own; that it does
    not change the container is a simplification.  `none` is Python's `None`. -/
def visitLoop (P : PyMapping M G D N R) (root : G) (func : R → G ⊕ D → s → Option v × s)
    (visit : G → s → M (Option v × s)) (g : G) : List N → s → M (Option v × s)
  | [], st => return (none, st)
  | n :: ns, st => do
    let obj ← P.item g n
    match func (P.relative root obj) obj st with
    | (some r, st) => return (some r, st)
    | (none, st) =>
      match obj with
      | .inr _ => visitLoop P root func visit g ns st
      | .inl g' =>
        match ← visit g' st with
        | (some r, st) => return (some r, st)
        | (none, st) => visitLoop P root func visit g ns st

/-- group.py:289-334 `visititems`; the number is how many calls may be nested. -/
def visitItems (P : PyMapping M G D N R) (root : G) (func : R → G ⊕ D → s → Option v × s) :
    Nat → G → s → M (Option v × s)
  | 0, _, _ => P.tooDeep
  | limit + 1, g, st => do
    let names ← P.keys g
    visitLoop P root func (visitItems P root func limit) g names st

/-! ### Files -/

/-- filesystem/handle.hxx:50-57 `listSubDirs`.  `entries` is what `fs::directory_iterator` finds in a directory, in some
    order. -/
def GroupHandle.keys (entries : Path → List String) (g : GroupHandle) : FsM (List String) := fun σ =>
  if isDirectory (σ g.path) then
    (.ok ((entries g.path).filter fun n => isDirectory (σ (g.path ++ [n]))), σ)
  else (.throw .filesystemError, σ)

/-- `fs::relative(to, from)` for paths without links, common.hxx:7-9 (as names) -/
def fsRelative : Path → Path → Path
  | [], [] => ["."]
  | [], to => to
  | a :: frm, b :: to => if a = b then fsRelative frm to else (a :: frm).map (fun _ => "..") ++ b :: to
  | frm, [] => frm.map fun _ => ".."

/-- filesystem/factory.hxx:83-90 `relativePath` -/
def PyGroup.relative (g : PyGroup) : PyGroup ⊕ DatasetObj → Path
  | .inl g' => fsRelative g.handle.path g'.handle.path
  | .inr d => fsRelative g.handle.path d.handle.path

/-- Groups of files, for `visititems`; a relative path is given by its names. -/
def filesMapping (entries : Path → List String) : PyMapping FsM PyGroup DatasetObj String Path where
  keys g := g.handle.keys entries
  item g n := g.getItem ⟨false, [n]⟩
  relative := PyGroup.relative
  tooDeep := FsM.lift (.throw .runtimeError)

/-! ### S3 -/

/-- A Python `Group` on S3 -/
structure S3PyGroup where
  handle : S3Handle
  zarrFormat : Int

/-- group.py:77-96 `__getitem__`, for a name without leading slash -/
def S3PyGroup.getItem (g : S3PyGroup) (n : Key) : S3M (S3PyGroup ⊕ S3DatasetObj) := do
  if !(← g.handle.has n) then S3M.lift (.throw .keyError)
  else if ← g.handle.isSubGroup n then return .inl ⟨g.handle.child n, g.zarrFormat⟩
  else return .inr (← g.handle.openDataset n)

/-- s3/factory.hxx:113-130 `relativePath` -/
def S3PyGroup.relative (g : S3PyGroup) : S3PyGroup ⊕ S3DatasetObj → Key
  | .inl g' => s3RelativePath g.handle.name g'.handle.name
  | .inr d => s3RelativePath g.handle.name d.name

/-- Groups on S3, for `visititems` -/
def s3Mapping : PyMapping S3M S3PyGroup S3DatasetObj Key Key where
  keys g := g.handle.keys
  item := S3PyGroup.getItem
  relative := S3PyGroup.relative
  tooDeep := S3M.lift (.throw .runtimeError)

end Z5
