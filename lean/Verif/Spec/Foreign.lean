import Verif.Spec.Exchange
import Verif.Spec.Formats
import Verif.Spec.FileStore
import Verif.Spec.Persist
import Verif.Spec.JsonGrammar

/-!
# Directories of other programs (C83)

A directory, as bytes in files, that holds an array of zarr v2, zarr v3 or N5: the document says what the array is
(`Spec/JsonGrammar`, `Spec/Formats`), the other files have the elements (`Spec/Exchange`).
-/

namespace Z5
open Spec

/-! ### Bytes in files -/

/-- What is found at a path -/
inductive RawEntry where
  | dir
  | file (b : Bytes)

/-- A tree of directories and files -/
abbrev RawFs := Path → Option RawEntry

/-- the content of a file -/
def RawFs.content (R : RawFs) (p : Path) : Option Bytes :=
  match R p with
  | some (.file b) => some b
  | _ => none

/-- the files with JSON texts -/
def documentFiles : List String := [".zarray", ".zgroup", ".zattrs", "zarr.json", "attributes.json"]

/-- What the library makes of the files (`file >> j`, `JsonText.cppRead`): the model has the values of JSON documents in place of
    their texts (`Model/Fs`). -/
def RawFs.view (R : RawFs) : Fs := fun p =>
  match R p with
  | none => none
  | some .dir => some .dir
  | some (.file b) =>
    if ∃ n ∈ documentFiles, p.getLast? = some n then
      match JsonText.cppRead b with
      | some j => some (.doc j)
      | none => some (.file b)
    else some (.file b)

/-- The file has a JSON text of the value `j`, possibly behind a byte order mark. -/
def RawFs.HasText (R : RawFs) (p : Path) (j : Json) : Prop :=
  ∃ bom t, JsonText.Bom bom ∧ JsonText.IsText .cpp t j ∧ R.content p = some (Utf8.encode (bom ++ t))

/-! ### Arrays -/

/-- What a document of the format says -/
def Layout.Says : Layout → Json → ArrayDesc → Prop
  | .v2, j, a => ZarrV2.Describes j a
  | .v3, j, a => ZarrV3.Describes j a
  | .n5, j, a => N5.Describes j a ∨ N5.DescribesOld j a

namespace ArrayDesc

/-- what is stored in one file: a chunk or a shard -/
def part (a : ArrayDesc) : List Nat := if a.shards = [] then a.chunks else a.shards

/-- the name of the file for part `c` -/
def fileName (a : ArrayDesc) : Layout → List Nat → Key
  | .v2 => v2Name a.separator.toList
  | .v3 => zarrName 3 a.encoding.toList a.separator.toList
  | .n5 => fun c => n5Name c.reverse

/-- the names of files with elements -/
def IsFile (a : ArrayDesc) (La : Layout) (k : Key) : Prop := ∃ c, InGrid a.shape a.part c ∧ k = a.fileName La c

/-- The files `σ` have the elements `A`; N5 has the axes in reversed order. -/
def IsStored (a : ArrayDesc) (La : Layout) (E : Elem) (C : Codec) (fill : E.T) (σ : Store) (A : List Nat → E.T) : Prop :=
  match La with
  | .n5 => IsN5Array E a.shape.reverse a.chunks.reverse C fill σ fun y => A y.reverse
  | La => if a.shards = [] then IsZarrArray E a.shape a.chunks (a.fileName La) C fill σ A
    else IsShardedArray E a.shape a.chunks (List.zipWith (· / ·) a.shards a.chunks) (a.fileName La) C fill σ A

/-- Within the limits of the implementation; `size` is the size of an element. -/
structure Supported (a : ArrayDesc) (La : Layout) (size : Nat) : Prop where
  axes : a.shape ≠ [] ∧ a.shape.length < 2 ^ 16 ∧ a.shape.length = a.chunks.length
  positive : ∀ c ∈ a.chunks, 0 < c
  small : ∀ s ∈ a.shape, s < 2 ^ 31
  bytes : (∀ c ∈ a.chunks, c < 2 ^ 32) ∧ prod a.chunks * size < 2 ^ 32
  shards : a.shards ≠ [] → All₂ (fun S b => 0 < S ∧ S % b = 0) a.shards a.chunks ∧ (∀ s ∈ a.shards, s < 2 ^ 64) ∧
    prod (List.zipWith (· / ·) a.shards a.chunks) < 2 ^ 59
  separator : La ≠ .n5 → a.separator ∈ [".", "/"]

end ArrayDesc

/-- The directory `p` holds an array of the format `La` that is described by `a` and has the elements `A`. -/
structure RawFs.HoldsArray (R : RawFs) (p : Path) (La : Layout) (a : ArrayDesc) (E : Elem) (C : Codec) (fill : E.T)
    (A : List Nat → E.T) : Prop where
  /-- it is a directory in directories -/
  above : ∀ q, q <+: p → R q = some .dir
  document : ∃ j, R.HasText (p ++ [La.datasetFile]) j ∧ La.Says j a
  /-- and there are no documents of another format -/
  others : ∀ n ∈ [".zarray", "zarr.json", "attributes.json"], n ≠ La.datasetFile → R (p ++ [n]) = none
  /-- what has the name of a chunk is a file, in directories -/
  files : ∀ k, a.IsFile La k → R (chunkFile p k) ≠ some .dir
  dirs : ∀ k, a.IsFile La k → ∀ q, p <+: q → q <+: chunkFile p k → q ≠ chunkFile p k → ∀ b, R q ≠ some (.file b)
  elements : a.IsStored La E C fill (fun k => R.content (chunkFile p k)) A

/-- The same after the documents have been read -/
structure Fs.HoldsArray (σ : Fs) (p : Path) (La : Layout) (a : ArrayDesc) (E : Elem) (C : Codec) (fill : E.T)
    (A : List Nat → E.T) : Prop where
  tidy : Tidy p (a.IsFile La) σ
  document : ∃ j, σ.docAt (p ++ [La.datasetFile]) = some j ∧ La.Says j a
  others : ∀ n ∈ [".zarray", "zarr.json", "attributes.json"], n ≠ La.datasetFile → σ (p ++ [n]) = none
  elements : a.IsStored La E C fill (σ.chunks p) A

/-- A sequence of successful modifying calls on the dataset in directory `p` (C46), what they were asked to write, and the state of
    the file system before and after them. -/
inductive AnyDataset.Does {E : Elem} (d : AnyDataset E) (p : Path) : List (Write E.T) → Fs → Fs → Prop
  | nil {σ} : Does d p [] σ σ
  | step {ws w σ σ' σ''} : Does d p ws σ σ' → d.Performs p w σ' σ'' → Does d p (ws ++ [w]) σ σ''

/-- The bytes in the files `R` are those for the state `σ`: the documents are JSON texts (as written by the library, `c82_written`,
    or by anyone else). -/
def RawFs.Stores (R : RawFs) (σ : Fs) : Prop := ∀ q,
  match σ q with
  | none => R q = none
  | some .dir => R q = some .dir
  | some (.file b) => R q = some (.file b)
  | some (.doc j) => R.HasText q j

/-- The group has documents of a zarr group, or (N5) has not. -/
def RawFs.IsGroup (R : RawFs) (g : Path) (La : Layout) : Prop :=
  R g = some .dir ∧ (La.isZarr = true ↔ R (g ++ [".zgroup"]) ≠ none ∨ R (g ++ ["zarr.json"]) ≠ none)

/-- Nothing says that the array is a group: zarr v2 has a document for groups; N5 has none, the library counts the attributes that
    an array has. -/
def RawFs.NoGroup (R : RawFs) (p : Path) : Layout → Prop
  | .v2 => R (p ++ [".zgroup"]) = none
  | .v3 => True
  | .n5 => ∀ j, R.HasText (p ++ ["attributes.json"]) j → j.find "compression" = none ∨ j.find "compressionType" = none

/-- The attributes of a node: in a file of their own, which may be missing, or (zarr v3) in the document. -/
def RawFs.HasAttributes (R : RawFs) (p : Path) (La : Layout) (A : AttrMap) : Prop :=
  match La with
  | .v3 => ∃ j, R.HasText (p ++ ["zarr.json"]) j ∧
      ((j.find "attributes" = none ∧ A = fun _ => none) ∨ ∃ b, j.find "attributes" = some b ∧ b.IsObject ∧ A = b.find)
  | La => (R (p ++ [La.file]) = none ∧ A = fun _ => none) ∨ ∃ j, R.HasText (p ++ [La.file]) j ∧ j.IsObject ∧ A = j.find

/-- What makes a directory a group: zarr has a document that says so; in N5 every directory is a group, unless attributes say that it
    is an array. -/
def RawFs.SaysGroup (R : RawFs) (p : Path) (A : AttrMap) : Layout → Prop
  | .v2 => R (p ++ ["zarr.json"]) = none ∧ ∃ j, R.HasText (p ++ [".zgroup"]) j ∧ j.find "zarr_format" = some (.int 2)
  | .v3 => ∃ j, R.HasText (p ++ ["zarr.json"]) j ∧ j.find "zarr_format" = some (.int 3) ∧ j.find "node_type" = some (.str "group")
  | .n5 => R (p ++ [".zgroup"]) = none ∧ R (p ++ ["zarr.json"]) = none ∧
      ∀ k ∈ ["dimensions", "blockSize", "dataType", "compressionType", "compression"], A k = none

/-- The directory `p` is a group of the format `La` with the attributes `A`. -/
structure RawFs.HoldsGroup (R : RawFs) (p : Path) (La : Layout) (A : AttrMap) : Prop where
  dir : R p = some .dir
  attributes : R.HasAttributes p La A
  document : R.SaysGroup p A La

/-- The object `o`, and the typed dataset `d` made of it, are for the array `a` in `p`. -/
structure DatasetObj.StandsFor {E : Elem} (o : DatasetObj) (d : AnyDataset E) (L : Libs) (elem : FillVal → E.T) (a : ArrayDesc)
    (p : Path) (fm : FileMode) : Prop where
  typed : o.typed L elem = .ok d
  path : o.handle.path = p
  mode : o.handle.mode = fm
  dtype : o.info.dtype = a.dtype
  shape : o.info.shape = a.shape
  chunks : o.info.chunkShape = a.chunks
  shards : o.info.shardShape = a.shards
  wf : d.WF
  plain : d.PlainKeys
  base : d.base.shape = a.shape ∧ d.base.chunkShape = a.chunks ∧ d.base.canWrite = fm.canWrite

/-- What may happen to an array after the state `σ₀` (C64 has the same for an array that was created by the library): objects are opened
    and destroyed, write to the array and change its attributes, and other things happen elsewhere. -/
inductive Uses {E : Elem} (L : Libs) (elem : FillVal → E.T) (p : Path) (La : Layout) (σ₀ : Fs) :
    List DatasetObj → List (Write E.T) → Fs → Prop
  | start : Uses L elem p La σ₀ [] [] σ₀
  /-- `openDataset`, from any group above that is of the format, in any mode -/
  | opened {root : GroupHandle} {key : Path} {os : List DatasetObj} {ws : List (Write E.T)} {σ σ' : Fs} {o : DatasetObj} :
      Uses L elem p La σ₀ os ws σ → root.path ++ key = p → root.isZarr σ = (.ok La.isZarr, σ) →
      root.openDataset key σ = (.ok o, σ') → Uses L elem p La σ₀ (o :: os) ws σ'
  /-- objects are destroyed -/
  | closed {os os' : List DatasetObj} {ws : List (Write E.T)} {σ : Fs} : Uses L elem p La σ₀ os ws σ →
      (∀ o ∈ os', o ∈ os) → Uses L elem p La σ₀ os' ws σ
  /-- a successful modifying call on an open object that is not read-only -/
  | wrote {os : List DatasetObj} {ws : List (Write E.T)} {σ σ' : Fs} {o : DatasetObj} {d : AnyDataset E} {w : Write E.T} :
      Uses L elem p La σ₀ os ws σ → o ∈ os → o.handle.mode.canWrite = true → o.typed L elem = .ok d →
      d.Performs p w σ σ' → Uses L elem p La σ₀ os (ws ++ [w]) σ'
  /-- `writeAttributes` or `removeAttribute` on an open object; it may throw -/
  | annotated {os : List DatasetObj} {ws : List (Write E.T)} {σ : Fs} {o : DatasetObj} {op : AttrOp} :
      Uses L elem p La σ₀ os ws σ → o ∈ os → op.Valid →
      Uses L elem p La σ₀ os ws ((Target.dataset o.handle).change op σ).2
  /-- anything that leaves the directory of the array, and the directories it is in, alone -/
  | elsewhere {os : List DatasetObj} {ws : List (Write E.T)} {σ σ' : Fs} : Uses L elem p La σ₀ os ws σ →
      (∀ q, q <+: p ∨ p <+: q → σ' q = σ q) → Uses L elem p La σ₀ os ws σ'

end Z5
