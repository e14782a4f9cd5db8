import Verif.Spec.Container
import Verif.Spec.Index

/-!
# Arrays of a container and arrays of numpy (C74)
-/

namespace Z5.Spec

variable {T : Type}

/-- What `A[index] = item` of numpy does to an array, for an index that selects `ss`: the elements that are picked get the elements
    of `item` at the same position, where axes of length one do not count; the others are left alone. -/
def Assigns (ss : List AxisSel) (item : NpArray T) (A A' : List Nat → T) : Prop :=
  ∀ x, (∀ j q, Picks ss j x → InBox q item.shape → squeezedIndex (resultShape ss) j = squeezedIndex item.shape q →
      item.data[ravel item.shape q]? = some (A' x)) ∧
    ((¬ ∃ j, Picks ss j x) → A' x = A x)

/-- What `A[index] = v` of numpy does to an array for a number `v` -/
def Fills (ss : List AxisSel) (v : T) (A A' : List Nat → T) : Prop :=
  ∀ x, ((∃ j, Picks ss j x) → A' x = v) ∧ ((¬ ∃ j, Picks ss j x) → A' x = A x)

end Z5.Spec
