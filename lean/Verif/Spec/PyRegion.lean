import Verif.Model.PyRegion
import Verif.Spec.Calls

/-!
# Regions given by their corners, and what numpy does with slices (C72)
-/

namespace Z5.Spec

/-- the coordinates as Python integers -/
def pyInts (x : List Nat) : List (Option Int) := x.map fun (n : Nat) => some (n : Int)

/-- `start` and `stop` are the corners of the region at `off` of this shape. -/
def Corners (start stop : List (Option Int)) (off shape : List Nat) : Prop :=
  off.length = shape.length ∧ start = pyInts off ∧ stop = pyInts (addV off shape)

/-- no coordinate is `2^63` or more, or less than `-2^63` -/
def Fits63 (xs : List (Option Int)) : Prop := ∀ x, some x ∈ xs → -(2 ^ 63 : Int) ≤ x ∧ x < 2 ^ 63

/-- The slices select the region at `off` of this shape (`step` is `None` or one). -/
def Selects (sel : List PySlice) (off shape : List Nat) : Prop :=
  Corners (sel.map (·.start)) (sel.map (·.stop)) off shape ∧ ∀ s ∈ sel, s.step = none ∨ s.step = some 1

/-- What an optional selection of a dataset selects: without one, the whole dataset. -/
def SelectsOr : Option (List PySlice) → List Nat → List Nat → List Nat → Prop
  | none, shape, off, size => off = List.replicate shape.length 0 ∧ size = shape
  | some sel, _, off, size => Selects sel off size

/-- Contract of numpy: `dest[sel] = src`, where `sel` selects the region at `off` of the shape of `src`, gives `dest'`. -/
structure NpAssigns {T : Type} (dest : NpArray T) (off : List Nat) (src dest' : NpArray T) : Prop where
  shaped : dest'.shape = dest.shape
  inside : ∀ i, InBox i src.shape → dest'.data[ravel dest.shape (addV off i)]? = src.data[ravel src.shape i]?
  outside : ∀ x, InBox x dest.shape → ¬ InRegion x off src.shape → dest'.data[ravel dest.shape x]? = dest.data[ravel dest.shape x]?

/-- Contract of numpy: `source[sel]`, where `sel` selects the region at `off` of the shape `shape`, gives `sub`. -/
structure NpPicks {T : Type} (source : NpArray T) (off shape : List Nat) (sub : NpArray T) : Prop where
  shaped : sub.shape = shape
  length : sub.data.length = prod shape
  elements : ∀ i, InBox i shape → sub.data[ravel shape i]? = source.data[ravel source.shape (addV off i)]?

end Z5.Spec
