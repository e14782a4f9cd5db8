import Verif.Spec.Together
import Verif.Spec.Container
import Verif.Spec.Foreign

/-!
# Writing calls on files that are interrupted (C92)
-/

namespace Z5

open Spec

/-- `q` is the file that the format has for chunk (or shard) `c` of the array at `p`; the document of the array says what the array is. -/
def Container.ChunkFile {Ty : ElemTypes} (C : Container) (T : Tree Ty) (σ : Fs) (p : Path) (c : List Nat) (q : Path) : Prop :=
  ∃ x a j, T p = some (.array x) ∧ x.IsDescribed a C.layout ∧ σ.docAt (C.root ++ p ++ [C.layout.datasetFile]) = some j ∧
    C.layout.Says j a ∧ InGrid a.shape a.part c ∧ q = chunkFile (C.root ++ p) (a.fileName C.layout c)

/-- `σ''` are the files `σ'` after some files of chunks have been removed, at least all those that are neither as in `σ` nor as in `σ₁`. -/
structure Container.Cleaned {Ty : ElemTypes} (C : Container) (T : Tree Ty) (σ σ₁ σ' σ'' : Fs) : Prop where
  kept : ∀ q, σ'' q = σ' q ∨ (σ'' q = none ∧ ∃ p c, C.ChunkFile T σ p c q)
  whole : ∀ q, σ'' q = σ q ∨ σ'' q = σ₁ q ∨ σ'' q = none

/-- `T'` is between `T` and `T₁`, which have the same nodes and attributes: so has `T'`, and in each chunk (or shard) of an array its elements
    are those of `T`, or those of `T₁`, or the chunk is missing and they have the fill value.  An element may have been replaced by the fill
    value if it compares equal to it. -/
def Tree.Salvaged {Ty : ElemTypes} (missing : Path → List Nat → Prop) (T T₁ T' : Tree Ty) : Prop := ∀ p,
  match T p with
  | none => T₁ p = none ∧ T' p = none
  | some (.group A) => T₁ p = some (.group A) ∧ T' p = some (.group A)
  | some (.array x) => ∃ B A, T₁ p = some (.array { x with content := B }) ∧ T' p = some (.array { x with content := A }) ∧
      ∀ c, (∀ y, InChunk x.shape (x.shards.getD x.chunks) c y → SameOrFill (Ty.elem x.dtype).ceq x.fill (A y) (x.content y)) ∨
        (∀ y, InChunk x.shape (x.shards.getD x.chunks) c y → SameOrFill (Ty.elem x.dtype).ceq x.fill (A y) (B y)) ∨
        (missing p c ∧ ∀ y, InChunk x.shape (x.shards.getD x.chunks) c y → A y = x.fill)

end Z5
