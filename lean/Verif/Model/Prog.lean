import Verif.Model.Bytes

/-!
# Store programs, interleavings and crashes

The part of the file system, or of the bucket, that belongs to one dataset is a map from keys (paths relative
to the dataset directory, or the rest of the key after the name of the dataset and a slash) to contents.  A library call is a *program*: a tree of atomic actions, each of
which looks at one file and possibly changes it, ending in an outcome.

Simplifications: directories are not modelled (`Chunk::create`, filesystem/handle.hxx:276-293, makes
them on demand); operating-system failures do not occur as such, but every prefix of the actions of a
program is considered as a crash.
-/

namespace Z5

/-- path of a file relative to the dataset directory -/
abbrev Key := List Char
/-- file contents; `none`: no such file -/
abbrev Store := Key → Option Bytes

def Store.upd (σ : Store) (k : Key) (v : Option Bytes) : Store := fun k' => if k' = k then v else σ k'

/-- A program: finished with an outcome, or one atomic action on the file `k` (replacing its content
    `v` by `f v`) followed by a continuation that sees the content found. -/
inductive Prog (α : Type) where
  | ret (r : Res α)
  | act (k : Key) (f : Option Bytes → Option Bytes) (cont : Option Bytes → Prog α)

namespace Prog

def bind {α β : Type} : Prog α → (α → Prog β) → Prog β
  | .ret (.ok a), g => g a
  | .ret (.throw e), _ => .ret (.throw e)
  | .ret .ub, _ => .ret .ub
  | .act k f c, g => .act k f fun v => bind (c v) g

instance : Monad Prog where
  pure a := .ret (.ok a)
  bind := bind

/-- look at a file -/
def peek (k : Key) : Prog (Option Bytes) := .act k id fun v => .ret (.ok v)
/-- change a file -/
def update (k : Key) (f : Option Bytes → Option Bytes) : Prog Unit := .act k f fun _ => .ret (.ok ())
def throw {α : Type} (e : Err) : Prog α := .ret (.throw e)

/-! ### Running programs -/

/-- run alone -/
def run {α : Type} : Prog α → Store → Res α × Store
  | .ret r, σ => (r, σ)
  | .act k f c, σ => run (c (σ k)) (σ.upd k (f (σ k)))

/-- one action of task `i` of a list of concurrent tasks (nothing if it is finished) -/
def step {α : Type} (i : Nat) (c : List (Prog α) × Store) : List (Prog α) × Store :=
  match c.1[i]? with
  | some (.act k f cont) => (c.1.set i (cont (c.2 k)), c.2.upd k (f (c.2 k)))
  | _ => c

/-- concurrent tasks under a schedule: the list of the task numbers that make the next step -/
def interleave {α : Type} : List Nat → List (Prog α) × Store → List (Prog α) × Store
  | [], c => c
  | i :: is, c => interleave is (step i c)

/-- the outcome of a finished program -/
def outcome {α : Type} : Prog α → Option (Res α)
  | .ret r => some r
  | .act .. => none

/-- all tasks have finished, with these outcomes -/
def Finished {α : Type} (ts : List (Prog α)) (rs : List (Res α)) : Prop :=
  ts.map outcome = rs.map some

end Prog

/-! ### The store operations -/

open Prog

/-- Where the chunks are kept: the two implementations of `generic::ChunkStorePolicy` (generic/store.hxx:22-38),
    filesystem/store.hxx:55-145 and s3/store.hxx:16-55. -/
inductive Backend where
  | files
  | s3
  deriving DecidableEq, Repr

/-- filesystem/handle.hxx:307-309 `exists`; s3/handle.hxx:647-652 `exists` with 249-255 `objectExists` (a `HeadObject`
    request; that a failing one answers `false` is considered in `Spec/Faults.lean`) -/
def storeExists (k : Key) : Prog Bool := do
  let v ← peek k
  return v.isSome

/-- filesystem/store.hxx:66-73 `ChunkStore::read` with `readFile` 17-37; `none`: returns `false`.
    Simplification: the content of the file is read in one step.
    s3/store.hxx:30-36: one `GetObject` request (s3/handle.hxx:178-221). -/
def storeRead (s : Backend) (k : Key) : Prog (Option Bytes) :=
  match s with
  | .files => do
    if !(← storeExists k) then return none
    else
      match ← peek k with
      | none => Prog.throw .runtimeError
      | some b => return some b
  | .s3 => peek k

/-- writing byte `x` at position `i` of an open file (nothing visible happens if the file has been
    unlinked meanwhile) -/
def pokeByte (i : Nat) (x : Byte) : Option Bytes → Option Bytes
  | none => none
  | some l => some (if i < l.length then l.set i x else l ++ List.replicate (i - l.length) 0 ++ [x])

/-- filesystem/store.hxx:44 `file.write`: byte by byte -/
def writeBytes (k : Key) : Nat → Bytes → Prog Unit
  | _, [] => return ()
  | i, x :: xs => do
    update k (pokeByte i x)
    writeBytes k (i + 1) xs

/-- filesystem/store.hxx:75-80 `ChunkStore::write` with `writeFile` 39-49: the file is truncated or
    created empty, then written.
    s3/store.hxx:38-43: one `PutObject` request (s3/handle.hxx:236-247), which replaces the object as a whole. -/
def storeWrite (s : Backend) (k : Key) (b : Bytes) : Prog Unit :=
  match s with
  | .files => do
    update k fun _ => some []
    writeBytes k 0 b
  | .s3 => update k fun _ => some b

/-- filesystem/store.hxx:82-86 `ChunkStore::erase`; s3/store.hxx:45-48: one `DeleteObject` request, which succeeds
    also if there is no object. -/
def storeErase (s : Backend) (k : Key) : Prog Unit :=
  match s with
  | .files => do
    if ← storeExists k then update k fun _ => none
    else return ()
  | .s3 => update k fun _ => none

end Z5
