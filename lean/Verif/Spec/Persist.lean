import Verif.Spec.FileStore
import Verif.Spec.Metadata

/-!
# Vocabulary for data that outlive the objects they were written with (C64)
-/

namespace Z5

open Spec

/-- Every compressor is correct for chunks of up to `N` bytes, whatever the settings (see `Codec.LawfulFor`). -/
def Libs.LawfulFor (L : Libs) (N : Nat) : Prop := ∀ size s, (L.codec size s).LawfulFor N

/-- Every compressor is correct for chunks of less than 4 GiB. -/
def Libs.Lawful (L : Libs) : Prop := L.LawfulFor (2 ^ 32 - 1)

/-- No compressor reports an error for chunks of up to `N` bytes. -/
def Libs.TotalFor (L : Libs) (N : Nat) : Prop := ∀ size s, (L.codec size s).TotalFor N

/-- The dataset at path `p` over any number of sessions.  `o₀` is the object that `createDataset` returned, `os` are the
    objects that are open now (in any number of processes), `ws` is what has been written, in this order, and `σ` is the
    file system now. -/
inductive Sessions {E : Elem} (L : Libs) (elem : FillVal → E.T) (p : Path) (o₀ : DatasetObj) :
    List DatasetObj → List (Write E.T) → Fs → Prop
  /-- `createDataset` -/
  | created {root : GroupHandle} {key : Path} {a : CreateArgs} {σ σ' : Fs} : σ.WF → root.path ++ key = p →
      root.createDataset key a σ = (.ok o₀, σ') → Sessions L elem p o₀ [o₀] [] σ'
  /-- `openDataset`, from any group above, in any mode (a zarr dataset: from a zarr group) -/
  | opened {root : GroupHandle} {key : Path} {os : List DatasetObj} {ws : List (Write E.T)} {σ σ' : Fs} {o : DatasetObj} :
      Sessions L elem p o₀ os ws σ → root.path ++ key = p →
      (o₀.info.isZarr = true → root.isZarr σ = (.ok true, σ)) →
      root.openDataset key σ = (.ok o, σ') → Sessions L elem p o₀ (o :: os) ws σ'
  /-- objects are destroyed -/
  | closed {os os' : List DatasetObj} {ws : List (Write E.T)} {σ : Fs} : Sessions L elem p o₀ os ws σ →
      (∀ o ∈ os', o ∈ os) → Sessions L elem p o₀ os' ws σ
  /-- a successful modifying call on an open object that is not read-only -/
  | wrote {os : List DatasetObj} {ws : List (Write E.T)} {σ σ' : Fs} {o : DatasetObj} {d : AnyDataset E} {w : Write E.T} :
      Sessions L elem p o₀ os ws σ → o ∈ os → o.handle.mode.canWrite = true → o.typed L elem = .ok d →
      d.Performs p w σ σ' → Sessions L elem p o₀ os (ws ++ [w]) σ'
  /-- `writeAttributes` or `removeAttribute` on an open object; it may throw -/
  | annotated {os : List DatasetObj} {ws : List (Write E.T)} {σ : Fs} {o : DatasetObj} {op : AttrOp} :
      Sessions L elem p o₀ os ws σ → o ∈ os → op.Valid →
      Sessions L elem p o₀ os ws ((Target.dataset o.handle).change op σ).2
  /-- anything that leaves the directory of the dataset, and the directories it is in, alone -/
  | elsewhere {os : List DatasetObj} {ws : List (Write E.T)} {σ σ' : Fs} : Sessions L elem p o₀ os ws σ →
      (∀ q, q <+: p ∨ p <+: q → σ' q = σ q) → Sessions L elem p o₀ os ws σ'

/-- A created dataset that its metadata can describe: sizes and options have the types of the C++ parameters, zarr of
    version 2 or 3, and in N5, which does not store it, the fill value zero. -/
structure DatasetObj.Describable (o : DatasetObj) : Prop where
  typed : o.info.Typed
  version : o.info.isZarr = true → o.info.zarrFormat = 2 ∨ o.info.zarrFormat = 3
  fill : o.info.isZarr = true ∨ o.info.fillValue = .zero

end Z5
