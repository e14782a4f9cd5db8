import Verif.Spec.S3Together

/-!
# Writing calls that are interrupted (C91)
-/

namespace Z5

open Spec

/-- `T'` is between `T` and `T₁`, which have the same nodes and attributes: so has `T'`, and in each chunk (or shard) of an array its elements
    are those of `T`, or those of `T₁`.  An element may have been replaced by the fill value if it compares equal to it. -/
def Tree.Between {Ty : ElemTypes} (T T₁ T' : Tree Ty) : Prop := ∀ p,
  match T p with
  | none => T₁ p = none ∧ T' p = none
  | some (.group A) => T₁ p = some (.group A) ∧ T' p = some (.group A)
  | some (.array x) => ∃ B A, T₁ p = some (.array { x with content := B }) ∧ T' p = some (.array { x with content := A }) ∧
      ∀ c, (∀ y, InChunk x.shape (x.shards.getD x.chunks) c y → SameOrFill (Ty.elem x.dtype).ceq x.fill (A y) (x.content y)) ∨
        ∀ y, InChunk x.shape (x.shards.getD x.chunks) c y → SameOrFill (Ty.elem x.dtype).ceq x.fill (A y) (B y)

end Z5
