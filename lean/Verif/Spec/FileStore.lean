import Verif.Model.FileStore
import Verif.Spec.Factory
import Verif.Model.Opened
import Verif.Spec.Sharded

/-!
# Vocabulary for chunks in directories (C63)
-/

namespace Z5

/-- every action of the program is on a file in `K` -/
def Prog.Within {α : Type} (K : Key → Prop) : Prog α → Prop
  | .ret _ => True
  | .act k _ c => K k ∧ ∀ v, Within K (c v)

/-- The directory of a dataset whose chunks have the keys `K`: it exists, and nothing but chunk data is found in place of a
    chunk and nothing but directories on the way to one. -/
structure Tidy (p : Path) (K : Key → Prop) (σ : Fs) : Prop where
  above : ∀ q, q <+: p → σ q = some .dir
  files : ∀ k, K k → isForeign (σ (chunkFile p k)) = false
  dirs : ∀ k, K k → ∀ q, p <+: q → q <+: chunkFile p k → q ≠ chunkFile p k → isOther (σ q) = false

/-- What changes from `σ` to `σ'` are the files of chunks in `K`; new directories appear only on the way to them. -/
def OnlyChunks (p : Path) (K : Key → Prop) (σ σ' : Fs) : Prop :=
  ∀ q, (∃ k, K k ∧ q = chunkFile p k) ∨ σ' q = σ q ∨
    (σ q = none ∧ σ' q = some .dir ∧ ∃ k, K k ∧ p <+: q ∧ q <+: chunkFile p k ∧ q ≠ p)

/-- Keys that can be used together: none is on the way to another, and without nesting there are no directories on the way to
    any. -/
structure KeysFit (nested : Bool) (K : Key → Prop) : Prop where
  level : ∀ k k', K k → K k' → k.count '/' = k'.count '/'
  flat : nested = false → ∀ k, K k → k.count '/' = 0

/-! ### Calls on a dataset in a directory -/

namespace AnyDataset
open Spec

variable {E : Elem}

def WF : AnyDataset E → Prop
  | plain ds => ds.WF
  | sharded sd => sd.WF

/-- the file that holds the part `c` of the grid of chunks or shards -/
def fileKey (d : AnyDataset E) (c : List Nat) : Key := getChunkKey d.base.key c

/-- the keys of the files that the dataset may have -/
def IsKey (d : AnyDataset E) (k : Key) : Prop := ∃ c, InGrid d.base.shape d.fileShape c ∧ k = d.fileKey c

/-- Chunks are nested (N5, or zarr with delimiter "/"), or the delimiter does not ask for directories. -/
def PlainKeys (d : AnyDataset E) : Prop := d.base.key.nested = true ∨ '/' ∉ d.base.key.delimiter

/-- what `writeChunk` of chunk `c` covers -/
def stored (d : AnyDataset E) (c : List Nat) : List Nat :=
  match d with
  | plain ds => ds.stored c
  | sharded sd => sd.chunkShape

/-- the tasks a region call creates -/
def start (d : AnyDataset E) (call : RegionCall E) (scratch : Nat → List E.T) : Res (List (Prog Unit)) :=
  match call with
  | .copy inBuf inView off => d.writeSubarray inBuf inView off scratch
  | .scalar off shape v => d.writeScalar off shape v scratch

/-- tasks as they work on the directory `p` -/
def onFiles {α : Type} (d : AnyDataset E) (p : Path) (ts : List (Prog α)) : List (FsProg α) :=
  ts.map (·.onFiles p d.base.key.nested)

/-- all tasks have finished without exception under schedule `is`, and the file system is now `σ'` -/
def Completes (d : AnyDataset E) (p : Path) (ts : List (Prog Unit)) (is : List Nat) (σ σ' : Fs) : Prop :=
  ∃ rs, FsProg.Finished (FsProg.interleave is (d.onFiles p ts, σ)).1 rs ∧ (∀ r ∈ rs, r = .ok ()) ∧
    σ' = (FsProg.interleave is (d.onFiles p ts, σ)).2

/-- One successful modifying call on the dataset in directory `p`, taking the file system from `σ` to `σ'`, and what it was
    asked to write. -/
inductive Performs (d : AnyDataset E) (p : Path) : Write E.T → Fs → Fs → Prop
  /-- `writeSubarray` of a (possibly strided) array view, or `writeScalar` -/
  | region {σ σ'} (call : RegionCall E) (val : List Nat → E.T) (scratch : Nat → List E.T)
      (ts : List (Prog Unit)) (is : List Nat) :
      call.Valid d.base → (∀ i, InBox i call.shape → call.value i = some (val i)) →
      d.start call scratch = .ok ts → d.Completes p ts is σ σ' →
      Performs d p ⟨call.off, call.shape, val⟩ σ σ'
  /-- `writeChunk` -/
  | chunk {σ σ'} (c : List Nat) (data : List E.T) (val : List Nat → E.T) (is : List Nat) :
      InGrid d.base.shape d.base.chunkShape c → data.length = prod (d.stored c) →
      (∀ i, InBox i (d.stored c) → data[ravel (d.stored c) i]? = some (val i)) →
      d.Completes p [d.writeChunk c data] is σ σ' →
      Performs d p ⟨mulV c d.base.chunkShape, d.stored c, val⟩ σ σ'
  /-- `removeChunk` -/
  | remove {σ σ'} (c : List Nat) (is : List Nat) : InGrid d.base.shape d.base.chunkShape c →
      d.Completes p [d.removeChunk c] is σ σ' →
      Performs d p ⟨mulV c d.base.chunkShape, d.stored c, fun _ => d.base.fill⟩ σ σ'

/-- The file system `σ` is the result of successful calls that wrote `ws`, starting from a dataset in directory `p` without
    any chunk. -/
inductive Reaches (d : AnyDataset E) (p : Path) : List (Write E.T) → Fs → Prop
  | empty {σ} : Tidy p d.IsKey σ → (∀ k, d.IsKey k → σ (chunkFile p k) = none) → Reaches d p [] σ
  | step {ws w σ σ'} : Reaches d p ws σ → d.Performs p w σ σ' → Reaches d p (ws ++ [w]) σ'

/-- "Reading the dataset in directory `p` gives the array `A`": every valid region read, into every output view, with every
    content of the scratch buffers, under every schedule and every order of the memory writes, succeeds, sets exactly
    the elements of the output view to the elements of `A`, and changes nothing in the file system. -/
def ReadsAs (d : AnyDataset E) (p : Path) (σ : Fs) (A : List Nat → E.T) : Prop :=
  ∀ (off : List Nat) (out : View) (outBuf : List E.T) (scratch : Nat → List E.T),
    RegionOk d.base.shape off out.shape → Props.FitsIn out outBuf.length → Props.NoAlias out →
    ∃ ts, d.readSubarray out off scratch = .ok ts ∧
      ∀ is rs, FsProg.Finished (FsProg.interleave is (d.onFiles p ts, σ)).1 rs →
        (FsProg.interleave is (d.onFiles p ts, σ)).2 = σ ∧ (∃ out', Delivers outBuf rs out') ∧
        ∀ out', Delivers outBuf rs out' → out'.length = outBuf.length ∧
          (∀ i, InBox i out.shape → out'[out.base + dot i out.strides]? = some (A (addV off i))) ∧
          (∀ a, (∀ i, InBox i out.shape → out.base + dot i out.strides ≠ a) →
            out'[a]? = outBuf[a]?)

/-- keys of the files that hold elements of the region -/
def Touched (d : AnyDataset E) (off shape : List Nat) (k : Key) : Prop :=
  ∃ c x, InRegion x off shape ∧ InChunk d.base.shape d.fileShape c x ∧ k = d.fileKey c

end AnyDataset

end Z5
