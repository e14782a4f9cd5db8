import Verif.Model.Handle
import Verif.Proofs.Blocking

namespace Z5
open Spec

theorem boundedLoop_eq : ∀ {shape chunk c : List Nat},
    All₂ (fun s b => 0 < b ∧ s + b ≤ 2 ^ 64) shape chunk → InGrid shape chunk c →
    boundedLoop c chunk shape = extV shape chunk c
  | [], [], [], _, _ => rfl
  | s :: ss, b :: bs, c :: cs, h, hg => by
    have ih := boundedLoop_eq (c := cs) h.2 hg.2
    have h1 := h.1.1
    have h2 := h.1.2
    have h3 : c * b < s := hg.1
    have h4 : c ≤ c * b := Nat.le_mul_of_pos_right c h1
    have h5 : (c + 1) * b = c * b + b := by rw [Nat.add_mul, Nat.one_mul]
    rw [boundedLoop, ih, extV_cons, boundedAxis, wadd_eq (by omega), wmul_eq (by omega),
      wmul_eq (by omega), wsub_eq (by omega) (by omega)]
    congr 1
    split <;> omega

theorem computeBoundedShape_eq {shape chunk c : List Nat} (h : ChunkDims shape chunk)
    (hg : InGrid shape chunk c) : computeBoundedShape c chunk shape = .ok (extV shape chunk c) := by
  have hl : shape.length = chunk.length ∧ chunk.length = c.length := All₃.length_eq hg
  unfold computeBoundedShape
  rw [if_neg (by omega), boundedLoop_eq h.axes hg]

theorem extV_le : ∀ {shape chunk c : List Nat}, InGrid shape chunk c →
    All₂ (· ≤ ·) (extV shape chunk c) chunk
  | [], [], [], _ => trivial
  | s :: ss, b :: bs, c :: cs, hg => by
    have h5 : (c + 1) * b = c * b + b := by rw [Nat.add_mul, Nat.one_mul]
    refine ⟨?_, extV_le (c := cs) hg.2⟩
    omega

theorem end_le : ∀ {shape chunk c : List Nat}, InGrid shape chunk c →
    All₂ (· ≤ ·) (addV (mulV c chunk) (extV shape chunk c)) shape
  | [], [], [], _ => trivial
  | s :: ss, b :: bs, c :: cs, hg => by
    have h3 : c * b < s := hg.1
    refine ⟨?_, end_le (c := cs) hg.2⟩
    show c * b + (min ((c + 1) * b) s - c * b) ≤ s
    omega

end Z5
