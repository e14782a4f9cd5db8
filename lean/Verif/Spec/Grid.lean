import Verif.Lib.Pointwise

/-!
# Specification: arrays cut into chunks

Independent of the model: what "element", "region", "chunk" and "chunk grid" mean.
An array has extents `shape`; chunks have nominal extents `chunk`; chunk `c` covers, along every
axis, the coordinates from `c * chunk` (inclusive) to `(c + 1) * chunk` (exclusive), cut off at the
end of the array.
-/

namespace Z5.Spec

/-- `x` is an element of the region that starts at `begin` and has extents `shape`. -/
def InRegion (x begin shape : List Nat) : Prop :=
  All₃ (fun x b s => b ≤ x ∧ x < b + s) x begin shape

/-- `c` is a position of the chunk grid: the first element of chunk `c` lies inside the array. -/
def InGrid (shape chunk c : List Nat) : Prop :=
  All₃ (fun s b c => c * b < s) shape chunk c

/-- array element `x` belongs to chunk `c` -/
def InChunk (shape chunk c x : List Nat) : Prop :=
  All₄ (fun s b c x => c * b ≤ x ∧ x < (c + 1) * b ∧ x < s) shape chunk c x

/-- region `[begin, begin+size)` lies inside the array and is not empty along any axis -/
def RegionOk (shape begin size : List Nat) : Prop :=
  All₃ (fun s b n => 0 < n ∧ b + n ≤ s) shape begin size

/-- chunk extents that the library can work with: same number of axes (at least one), positive, and
    no coordinate computation leaves the 64-bit range -/
structure ChunkDims (shape chunk : List Nat) : Prop where
  nonempty : shape ≠ []
  axes : All₂ (fun s b => 0 < b ∧ s + b ≤ 2 ^ 64) shape chunk

instance (x b s) : Decidable (InRegion x b s) := inferInstanceAs (Decidable (All₃ _ _ _ _))
instance (s b c) : Decidable (InGrid s b c) := inferInstanceAs (Decidable (All₃ _ _ _ _))
instance (s b c x) : Decidable (InChunk s b c x) := inferInstanceAs (Decidable (All₄ _ _ _ _ _))
instance (s b n) : Decidable (RegionOk s b n) := inferInstanceAs (Decidable (All₃ _ _ _ _))

end Z5.Spec

namespace Z5

/-- Extents of chunk `c`: the nominal extents, cut off at the end of the array. -/
def extV : List Nat → List Nat → List Nat → List Nat
  | s :: ss, b :: bs, c :: cs => (min ((c + 1) * b) s - c * b) :: extV ss bs cs
  | _, _, _ => []

end Z5
