import Verif.Model.Alongside
import Verif.Spec.Together
import Verif.Spec.S3Together

/-!
# Reading while other calls write (C90)
-/

namespace Z5

open Spec

/-- The outcomes `rs` of the tasks of a reading call: whatever the order of the memory writes, exactly the elements of the output view
    are set, to the elements of `A` in the region. -/
def Gives {E : Elem} (A : List Nat → E.T) (off : List Nat) (out : View) (outBuf : List E.T) (rs : List (Res (List (Nat × E.T)))) : Prop :=
  (∃ out', Delivers outBuf rs out') ∧
  ∀ out', Delivers outBuf rs out' → out'.length = outBuf.length ∧
    (∀ i, InBox i out.shape → out'[out.base + dot i out.strides]? = some (A (addV off i))) ∧
    (∀ a, (∀ i, InBox i out.shape → out.base + dot i out.strides ≠ a) → out'[a]? = outBuf[a]?)

/-- The call is on another array, or no file has elements both of the region and of what the call writes. -/
def WriteJob.AwayFrom {Ty : ElemTypes} (j : WriteJob Ty) (p : Path) (off shape : List Nat) : Prop :=
  j.path = p → ∀ c x y, InRegion x off shape → InRegion y j.write.off j.write.shape → InChunk j.item.shape j.part c x →
    ¬ InChunk j.item.shape j.part c y

/-- The call is on another array, or no object of the bucket has elements both of the region and of what the call writes. -/
def S3WriteJob.AwayFrom {Ty : ElemTypes} (j : S3WriteJob Ty) (p : Path) (off shape : List Nat) : Prop :=
  j.path = p → ∀ c x y, InRegion x off shape → InRegion y j.write.off j.write.shape → InChunk j.item.shape j.part c x →
    ¬ InChunk j.item.shape j.part c y

end Z5
