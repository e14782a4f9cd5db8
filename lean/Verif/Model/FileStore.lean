import Verif.Model.Prog
import Verif.Model.Fs

/-!
# The chunk store on the file system, with directories

`filesystem/store.hxx` and `filesystem/handle.hxx`.  `Model/Prog.lean` leaves directories out; here a store
program becomes a program on the file system, in which the directories of nested chunks are made one by one and opening a
file for writing fails without its directory.
-/

namespace Z5

/-- A program on the file system: finished with an outcome, or one atomic action that changes the state by `f`, followed by
    a continuation that sees the state in which the action was made. -/
inductive FsProg (α : Type) where
  | ret (r : Res α)
  | act (f : Fs → Fs) (cont : Fs → FsProg α)

namespace FsProg

/-- run alone -/
def run {α : Type} : FsProg α → Fs → Res α × Fs
  | .ret r, σ => (r, σ)
  | .act f c, σ => run (c σ) (f σ)

/-- one action of task `i` of a list of concurrent tasks (nothing if it is finished) -/
def step {α : Type} (i : Nat) (c : List (FsProg α) × Fs) : List (FsProg α) × Fs :=
  match c.1[i]? with
  | some (.act f cont) => (c.1.set i (cont c.2), f c.2)
  | _ => c

/-- concurrent tasks under a schedule: the list of the task numbers that make the next step -/
def interleave {α : Type} : List Nat → List (FsProg α) × Fs → List (FsProg α) × Fs
  | [], c => c
  | i :: is, c => interleave is (step i c)

/-- the outcome of a finished program -/
def outcome {α : Type} : FsProg α → Option (Res α)
  | .ret r => some r
  | .act .. => none

/-- all tasks have finished, with these outcomes -/
def Finished {α : Type} (ts : List (FsProg α)) (rs : List (Res α)) : Prop :=
  ts.map outcome = rs.map some

end FsProg

/-- The names in a chunk key: `1/2/3` is the file `3` in the directory `2` in the directory `1`. -/
def keyNames : Key → List Char → Path
  | [], acc => [String.ofList acc.reverse]
  | c :: cs, acc => if c = '/' then String.ofList acc.reverse :: keyNames cs [] else keyNames cs (c :: acc)

/-- filesystem/handle.hxx:270-273 `path_`: the file of a chunk of the dataset in the directory `p` -/
def chunkFile (p : Path) (k : Key) : Path := p ++ keyNames k []

/-- the content of a file with chunk data -/
def contentOf : Option Entry → Option Bytes
  | some (.file b) => some b
  | _ => none

/-- other than chunk data: a directory or a JSON document -/
def isForeign : Option Entry → Bool
  | some .dir => true
  | some (.doc _) => true
  | _ => false

def Fs.set (σ : Fs) (p : Path) (e : Option Entry) : Fs := fun q => if q = p then e else σ q

/-- `mkdir`: nothing happens if the path exists or there is no directory to hold it (the error is caught). -/
def Fs.mkdir (σ : Fs) (p : Path) : Fs :=
  if (σ p).isNone && isDirectory (σ p.dropLast) then σ.set p (some .dir) else σ

/-- `fs::create_directories`, from the top, one directory after the other -/
def mkdirs {α : Type} : List Path → FsProg α → FsProg α
  | [], c => c
  | p :: ps, c => .act (·.mkdir p) fun _ => mkdirs ps c

/-- A path and what is above it, from the top -/
def pathsTo (p : Path) : List Path := (List.range (p.length + 1)).map p.take

/-- filesystem/store.hxx:39-43: `std::ofstream file(path)`, then `f` is what becomes of the content; an error if there is
    no directory for the file or the path is a directory. -/
def openForWriting {α : Type} (q : Path) (f : Option Bytes → Option Bytes) (cont : Option Bytes → FsProg α) :
    FsProg α :=
  .act (fun σ => if isDirectory (σ q.dropLast) && !isDirectory (σ q)
      then σ.set q ((f (contentOf (σ q))).map .file) else σ)
    fun σ => if isDirectory (σ q.dropLast) && !isDirectory (σ q) then cont (contentOf (σ q))
      else .ret (.throw .runtimeError)

/-- filesystem/handle.hxx:276-293 `Chunk::create`, 307-317 and filesystem/store.hxx:66-86.  An action on a chunk that may
    make a file, which is that of `openForWriting`, comes after the directories have been made if chunks are
    `nested` (`!isZarr || zarrDelimiter == "/"`).
    Simplification: all other actions (to look at the file, to write to the open file, to remove it) fail with an
    error if there is a directory or a JSON document in place of a chunk. -/
def Prog.onFiles {α : Type} (p : Path) (nested : Bool) : Prog α → FsProg α
  | .ret r => .ret r
  | .act k f c =>
    let q := chunkFile p k
    if (f none).isSome then
      let write := openForWriting q f fun v => onFiles p nested (c v)
      if nested then
        .act id fun σ => if (σ q.dropLast).isSome then write else mkdirs (pathsTo q.dropLast) write
      else write
    else
      .act (fun σ => if isForeign (σ q) then σ else σ.set q ((f (contentOf (σ q))).map .file))
        fun σ => if isForeign (σ q) then .ret (.throw .filesystemError) else onFiles p nested (c (contentOf (σ q)))

/-- handle.hxx:276-279: are chunks nested? -/
def KeyCfg.nested (k : KeyCfg) : Bool := !k.isZarr || decide (k.delimiter = ['/'])

end Z5
