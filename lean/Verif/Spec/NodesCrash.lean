import Verif.Spec.Container
import Verif.Spec.Steps

/-!
# What a container still serves (for C95)
-/

namespace Z5

open Spec

variable {Ty : ElemTypes}

/-- The dataset object `o` has the elements and attributes of the array `x`, which is at `p`. -/
def Container.Shows (C : Container) (L : Libs) (σ : Fs) (p : Path) (x : ArrayItem Ty) (o : DatasetObj) : Prop :=
  (∃ d A, o.typed L (Ty.cast x.dtype) = .ok d ∧ d.base.shape = x.shape ∧ d.ReadsAs (C.root ++ p) σ A ∧
    ∀ i, InBox i x.shape → SameOrFill (Ty.elem x.dtype).ceq x.fill (A i) (x.content i)) ∧
  ∃ j, (Target.dataset o.handle).read σ = (.ok j, σ) ∧ ∀ k, j.find k = x.attrs k

/-- The nodes of the tree `T` with paths in `P` are there, for every process: the groups can be opened and have their attributes, the arrays
    can be opened and have their elements and attributes, also in the objects `os` that are open. -/
structure Container.Serves (C : Container) (L : Libs) (T : Tree Ty) (P : Path → Prop) (os : List (Path × DatasetObj)) (σ : Fs) :
    Prop where
  attributes : ∀ g A m, T g = some (.group A) → P g → ∃ j, (C.attrsOf g m).read σ = (.ok j, σ) ∧ ∀ k, j.find k = A k
  groups : ∀ g n m A, T.IsGroup g → P g → T (g ++ n.parts) = some (.group A) → P (g ++ n.parts) →
    (C.group g m).getItem n σ = (.ok (.inl (C.group (g ++ n.parts) m)), σ)
  arrays : ∀ g n m x, T.IsGroup g → P g → T (g ++ n.parts) = some (.array x) → P (g ++ n.parts) →
    ∃ o, (C.group g m).getItem n σ = (.ok (.inr o), σ) ∧ o.handle.mode = m ∧ o.info.dtype = x.dtype ∧ o.info.shape = x.shape ∧
      o.info.chunkShape = x.chunks ∧ C.Shows L σ (g ++ n.parts) x o
  objects : ∀ p o x, (p, o) ∈ os → T p = some (.array x) → P p → C.Shows L σ p x o

end Z5
