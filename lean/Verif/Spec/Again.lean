import Verif.Spec.S3Crash
import Verif.Spec.Interrupted

/-!
# Interrupted calls that are made again (C93)
-/

namespace Z5

open Spec

/-- `j'` is the call `j`, made again: on an object that has been opened again, for the array with the elements that it has now. -/
def WriteJob.Again {Ty : ElemTypes} (j' j : WriteJob Ty) : Prop :=
  ∃ o A d ts, j' = ⟨j.path, o, { j.item with content := A }, d, j.write, ts⟩

/-- the same on S3 -/
def S3WriteJob.Again {Ty : ElemTypes} (j' j : S3WriteJob Ty) : Prop :=
  ∃ o A d ts, j' = ⟨j.path, o, { j.item with content := A }, d, j.write, ts⟩

/-- `T'` has the nodes, attributes and elements of `T`.  An element may have been replaced by the fill value if it compares equal to it. -/
def Tree.Same {Ty : ElemTypes} (T T' : Tree Ty) : Prop := ∀ p,
  match T p with
  | none => T' p = none
  | some (.group A) => T' p = some (.group A)
  | some (.array x) => ∃ A, T' p = some (.array { x with content := A }) ∧
      ∀ y, InBox y x.shape → SameOrFill (Ty.elem x.dtype).ceq x.fill (A y) (x.content y)

/-- chunk (or shard) `c` of the array at `p` has elements that the calls write -/
def WritesTo {Ty : ElemTypes} (js : List (WriteJob Ty)) (p : Path) (c : List Nat) : Prop :=
  ∃ j ∈ js, j.path = p ∧ ∃ y, InRegion y j.write.off j.write.shape ∧ InChunk j.item.shape j.part c y

/-- the call writes all elements of the chunks (or shards) that it writes to -/
def WriteJob.Whole {Ty : ElemTypes} (j : WriteJob Ty) : Prop := ∀ c x y, InRegion x j.write.off j.write.shape →
  InChunk j.item.shape j.part c x → InChunk j.item.shape j.part c y → InRegion y j.write.off j.write.shape

/-- `σ''` are the files `σ'` after some files of chunks to which the calls write have been removed, at least all those that are neither as in
    `σ` nor as in `σ₁`. -/
structure Container.Cleared {Ty : ElemTypes} (C : Container) (T : Tree Ty) (js : List (WriteJob Ty)) (σ σ₁ σ' σ'' : Fs) : Prop where
  kept : ∀ q, σ'' q = σ' q ∨ (σ'' q = none ∧ ∃ p c, WritesTo js p c ∧ C.ChunkFile T σ p c q)
  whole : ∀ q, σ'' q = σ q ∨ σ'' q = σ₁ q ∨ σ'' q = none

end Z5
