import Verif.Spec.Persist
import Verif.Spec.Foreign
import Verif.Spec.PyDataset
import Verif.Model.Remove

/-!
# A container as a tree of groups and arrays (C66)

What a user of the Python module has in mind: a tree whose nodes have names; inner nodes are groups, arrays are leaves, and
both have attributes.  `History` says which calls have been made and what they did to the tree.
-/

namespace Z5

open Spec

/-- An array: what it was created with, what its elements are now, and its attributes -/
structure ArrayItem (Ty : ElemTypes) where
  dtype : Datatype
  shape : List Nat
  chunks : List Nat
  shards : Option (List Nat)
  fill : (Ty.elem dtype).T
  content : List Nat → (Ty.elem dtype).T
  attrs : AttrMap

inductive Item (Ty : ElemTypes) where
  | group (attrs : AttrMap)
  | array (a : ArrayItem Ty)

/-- The nodes of a container by their paths; the root is `[]`. -/
abbrev Tree (Ty : ElemTypes) := Path → Option (Item Ty)

namespace Tree

variable {Ty : ElemTypes}

def IsGroup (T : Tree Ty) (p : Path) : Prop := ∃ A, T p = some (.group A)

/-- The path does not lead through an array. -/
def Clear (T : Tree Ty) (p : Path) : Prop := ∀ q, q <+: p → q ≠ p → ∀ a, T q ≠ some (.array a)

/-- The node `p` is replaced. -/
def put (T : Tree Ty) (p : Path) (x : Item Ty) : Tree Ty := fun q => if q = p then some x else T q

/-- A new node, with the groups that lead to it -/
def add (T : Tree Ty) (p : Path) (x : Item Ty) : Tree Ty := fun q =>
  if q = p then some x else if q <+: p ∧ (T q).isNone then some (.group fun _ => none) else T q

/-- A node is removed with everything below it. -/
def prune (T : Tree Ty) (p : Path) : Tree Ty := fun q => if p <+: q then none else T q

end Tree

/-- A container on the file system: its directory, whether it is of zarr or N5, and the version of zarr -/
structure Container where
  root : Path
  isZarr : Bool
  format : Int

namespace Container

variable (C : Container)

def layout : Layout := .of C.isZarr C.format

/-- Zarr of version 2 or 3 -/
def Ok : Prop := C.isZarr = true → C.format = 2 ∨ C.format = 3

/-- The object for the group at a path, opened in a mode -/
def group (g : Path) (m : FileMode) : PyGroup := ⟨⟨C.root ++ g, m⟩, C.format⟩

/-- `.attrs` of the object for the group at a path: the root is a file. -/
def attrsOf (g : Path) (m : FileMode) : Target :=
  if g = [] then .file (C.group g m).handle else .group (C.group g m).handle

/-- The attributes of a new container: the version of N5 -/
def rootAttrs : AttrMap := fun k => if C.isZarr = false ∧ k = "n5" then some (.str "2.0.0") else none

end Container

/-- A name that is not one of the files with metadata -/
def PlainName (n : String) : Prop := n ∉ [".zgroup", ".zarray", ".zattrs", "zarr.json", "attributes.json"]

/-- The attributes of the root of an N5 container state a version whose first digit is at most 4. -/
def N5Version (A : AttrMap) : Prop :=
  ∃ c cs, c ∈ ['0', '1', '2', '3', '4'] ∧ A "n5" = some (.str (String.ofList (c :: cs)))

/-- The array `x` is the one that a document describes by `a`, within the limits of the implementation. -/
structure ArrayItem.IsDescribed {Ty : ElemTypes} (x : ArrayItem Ty) (a : ArrayDesc) (La : Layout) : Prop where
  dtype : a.dtype = x.dtype
  shape : a.shape = x.shape
  chunks : a.chunks = x.chunks
  shards : x.shards = if a.shards = [] then none else some a.shards
  fill : ∃ f v, a.fill = some f ∧ x.dtype.castFill f = .ok v ∧ x.fill = Ty.cast x.dtype v
  supported : a.Supported La (Ty.elem x.dtype).size
  number : prod (blocksPerDimension x.shape x.chunks) < 2 ^ 64

/-- The directory `C.root` has, byte by byte, a container of the format with the tree `T`, written by whatever program. -/
structure RawFs.HoldsContainer {Ty : ElemTypes} (R : RawFs) (C : Container) (L : Libs) (T : Tree Ty) : Prop where
  /-- what exists is in directories -/
  inDirs : ∀ p n, R (p ++ [n]) ≠ none → R p = some .dir
  /-- the tree: a root, and every other node is in a group -/
  root : ∃ A, T [] = some (.group A) ∧ (C.isZarr = false → N5Version A)
  closed : ∀ p n, T (p ++ [n]) ≠ none → T.IsGroup p
  names : ∀ p n, T (p ++ [n]) ≠ none → PlainName n
  group : ∀ p A, T p = some (.group A) → R.HoldsGroup (C.root ++ p) C.layout A
  array : ∀ p x, T p = some (.array x) → ∃ a A, x.IsDescribed a C.layout ∧
    R.HoldsArray (C.root ++ p) C.layout a (Ty.elem x.dtype) (L.codec (Ty.elem x.dtype).size a.compression) x.fill x.content ∧
    R.NoGroup (C.root ++ p) C.layout ∧ R.HasAttributes (C.root ++ p) C.layout A ∧
    ∀ k, x.attrs k = if C.layout = .n5 ∧ k ∈ ["dimensions", "blockSize", "dataType", "compressionType", "compression"] then none
      else A k
  /-- nothing else is in the groups -/
  nothing : ∀ p n, T.IsGroup p → T (p ++ [n]) = none → PlainName n → R (C.root ++ (p ++ [n])) = none
  /-- the names of documents are those of files -/
  documents : ∀ p n, T.IsGroup p → ¬ PlainName n → R (C.root ++ (p ++ [n])) ≠ some .dir

/-- What is stored of the tree `T`: the same groups and arrays, with the same attributes; an element may have been replaced by the fill
    value if it compares equal to it (`-0.0` by `0.0`). -/
def Tree.StoredAs {Ty : ElemTypes} (T T' : Tree Ty) : Prop := ∀ p,
  match T p with
  | none => T' p = none
  | some (.group A) => T' p = some (.group A)
  | some (.array x) => ∃ A, T' p = some (.array { x with content := A }) ∧
      ∀ y, InBox y x.shape → SameOrFill (Ty.elem x.dtype).ceq x.fill (A y) (x.content y)

/-- Arguments of `create_dataset`, within the limits of the implementation, that ask for the array `x`. -/
structure PyCreateArgs.Asks {Ty : ElemTypes} (a : PyCreateArgs) (L : Layout) (x : ArrayItem Ty) : Prop where
  shape : a.AsksShape x.shape
  type : a.AsksType x.dtype
  chunks : a.AsksChunks x.shape x.chunks
  sharding : x.shards = a.shards
  fill : ∃ v, x.dtype.castFill a.fill = .ok v ∧ x.fill = Ty.cast x.dtype v
  /-- nothing is written yet -/
  content : x.content = fun _ => x.fill
  attrs : x.attrs = fun _ => none
  /-- limits -/
  axes : x.shape ≠ [] ∧ x.shape.length < 2 ^ 16
  positive : ∀ c ∈ x.chunks, 0 < c
  small : ∀ s ∈ x.shape, s < 2 ^ 31
  bytes : prod x.chunks * (Ty.elem x.dtype).size < 2 ^ 32
  number : prod (blocksPerDimension x.shape x.chunks) < 2 ^ 64
  representable : a.fill.Representable
  /-- N5 does not store it -/
  fillN5 : L = .n5 → a.fill = .zero
  shards : ShardsFit L a.shards x.chunks
  slots : ∀ s, a.shards = some s → prod (List.zipWith (· / ·) s x.chunks) < 2 ^ 59 ∧ ∀ n ∈ s, n < 2 ^ 64
  separator : a.askedSeparator L ∈ [".", "/"]
  options : (a.options.map Prod.fst).Nodup
  compression : ∃ S, Asked L (a.compression.getD L.defaultCompressor) a.options S ∧
    Faithful L (a.compression.getD L.defaultCompressor) a.options

/-- The life of a container: the tree `T` that it represents, the open dataset objects `os` with the paths of their arrays, and the
    file system.  Every step is a call that succeeded, from any group, in any mode, in any process. -/
inductive History (C : Container) (L : Libs) (Ty : ElemTypes) : Tree Ty → List (Path × DatasetObj) → Fs → Prop
  /-- `File(path, mode)` of a path where nothing is, or in mode `w` -/
  | start {base : String} {m : FileMode} {z : Option Bool} {σ σ' : Fs} {g : PyGroup} : σ.WF →
      σ C.root = none ∨ m = .w → (pyInferFormat C.root base σ).1 = .ok C.isZarr →
      pyFile C.root base m z C.format σ = (.ok g, σ') →
      History C L Ty (fun p => if p = [] then some (.group C.rootAttrs) else none) [] σ'
  /-- the container is one of another program -/
  | found {R : RawFs} {T : Tree Ty} : R.HoldsContainer C L T → C.Ok → History C L Ty T [] R.view
  /-- `create_group` in a group of the container -/
  | createGroup {T os σ σ'} {g : Path} {ks : Path} {n : String} {m : FileMode} {g' : PyGroup} : History C L Ty T os σ →
      T.IsGroup (g ++ ks) → PlainName n → (C.group g m).createGroup ⟨false, ks ++ [n]⟩ σ = (.ok g', σ') →
      History C L Ty (T.add (g ++ ks ++ [n]) (.group fun _ => none)) os σ'
  /-- `require_group` of a name that was not there -/
  | requireGroup {T os σ σ'} {g : Path} {ks : Path} {n : String} {m : FileMode} {g' : PyGroup} : History C L Ty T os σ →
      T.IsGroup (g ++ ks) → PlainName n → T (g ++ ks ++ [n]) = none →
      (C.group g m).requireGroup (ks ++ [n]) σ = (.ok g', σ') →
      History C L Ty (T.add (g ++ ks ++ [n]) (.group fun _ => none)) os σ'
  /-- `create_dataset`; groups that lead to it are created if they are missing -/
  | createArray {T os σ σ'} {g : Path} {key : Path} {m : FileMode} {a : PyCreateArgs} {x : ArrayItem Ty} {o : DatasetObj} :
      History C L Ty T os σ → T.IsGroup g → key ≠ [] → (∀ n ∈ key, PlainName n) → a.Asks C.layout x →
      (C.group g m).createDatasetFull ⟨false, key⟩ a σ = (.ok o, σ') →
      History C L Ty (T.add (g ++ key) (.array x)) ((g ++ key, o) :: os) σ'
  /-- `require_dataset` of a name that was not there -/
  | requireArray {T os σ σ'} {g : Path} {ks : Path} {n : String} {m : FileMode} {a : PyCreateArgs} {x : ArrayItem Ty}
      {o : DatasetObj} : History C L Ty T os σ → T.IsGroup (g ++ ks) → PlainName n → T (g ++ ks ++ [n]) = none →
      a.Asks C.layout x → (C.group g m).requireDataset (ks ++ [n]) a σ = (.ok o, σ') →
      History C L Ty (T.add (g ++ ks ++ [n]) (.array x)) ((g ++ ks ++ [n], o) :: os) σ'
  /-- an array is opened: `group[name]` -/
  | opened {T os σ σ'} {g : Path} {n : PyName} {m : FileMode} {x : ArrayItem Ty} {o : DatasetObj} :
      History C L Ty T os σ → T (g ++ n.parts) = some (.array x) → T.IsGroup g →
      (C.group g m).getItem n σ = (.ok (.inr o), σ') → History C L Ty T ((g ++ n.parts, o) :: os) σ'
  /-- objects are destroyed -/
  | closed {T os os' σ} : History C L Ty T os σ → (∀ e ∈ os', e ∈ os) → History C L Ty T os' σ
  /-- `del group[name]` -/
  | deleted {T os σ σ'} {g : Path} {n : PyName} {m : FileMode} : History C L Ty T os σ → T.IsGroup g →
      T.Clear (g ++ n.parts) → n.parts ≠ [] → (C.group g m).delItem n L Ty σ = (.ok (), σ') →
      History C L Ty (T.prune (g ++ n.parts)) (os.filter fun e => ¬ g ++ n.parts <+: e.1) σ'
  /-- a successful modifying call, with any schedule, on an object that is not read-only -/
  | wrote {T os σ σ'} {p : Path} {o : DatasetObj} {x : ArrayItem Ty} {d : AnyDataset (Ty.elem x.dtype)}
      {w : Write (Ty.elem x.dtype).T} : History C L Ty T os σ → (p, o) ∈ os → T p = some (.array x) →
      o.handle.mode ≠ .r → o.typed L (Ty.cast x.dtype) = .ok d → d.Performs (C.root ++ p) w σ σ' →
      History C L Ty (T.put p (.array { x with content := override x.content w.off w.shape w.val })) os σ'
  /-- a change of the attributes of an array -/
  | arrayAttrs {T os σ σ'} {p : Path} {o : DatasetObj} {x : ArrayItem Ty} {op : AttrOp} : History C L Ty T os σ →
      (p, o) ∈ os → T p = some (.array x) → op.Valid → (Target.dataset o.handle).change op σ = (.ok (), σ') →
      History C L Ty (T.put p (.array { x with attrs := op.apply x.attrs })) os σ'
  /-- a change of the attributes of a group; in N5 not of those that tell arrays from groups -/
  | groupAttrs {T os σ σ'} {g : Path} {m : FileMode} {A : AttrMap} {op : AttrOp} : History C L Ty T os σ →
      T g = some (.group A) → op.Valid →
      (C.isZarr = false → op.names ["dimensions", "blockSize", "dataType", "compressionType", "compression"] = false) →
      (C.attrsOf g m).change op σ = (.ok (), σ') → History C L Ty (T.put g (.group (op.apply A))) os σ'
  /-- anything that leaves the directory of the container, and the directories it is in, alone -/
  | elsewhere {T os σ σ'} : History C L Ty T os σ → σ'.WF → (∀ q, q <+: C.root ∨ C.root <+: q → σ' q = σ q) →
      History C L Ty T os σ'

end Z5
