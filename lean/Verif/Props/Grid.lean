import Verif.Proofs.Grid
import Verif.Proofs.Handle

/-!
# C01 – C04: the chunk grid

`Spec.ChunkDims shape chunk` is the only assumption on the dataset: at least one axis, positive chunk
extents, and coordinates below 2^64.
-/

namespace Z5.Props
open Z5 Z5.Spec

/-! ## C01 -/

/-- **C01.** For every dataset shape and chunk shape whose number of chunks fits into 64 bits, chunk ids
`0 … numberOfBlocks-1` and grid positions are in bijection through the two conversion functions, and
the ids follow the row-major order of the positions. -/
theorem c01_chunk_numbering_bijection {shape chunk : List Nat} (h : ChunkDims shape chunk)
    (hfit : prod (blocksPerDimension shape chunk) < 2 ^ 64) :
    ∃ B, Blocking.make shape chunk = .ok B ∧
      (∀ id, id < B.numberOfBlocks → ∃ c, B.blockIdToBlockCoordinate id = .ok c ∧
        InGrid shape chunk c ∧ B.blockCoordinatesToBlockId c = .ok id) ∧
      (∀ c, InGrid shape chunk c → ∃ id, B.blockCoordinatesToBlockId c = .ok id ∧
        id < B.numberOfBlocks ∧ B.blockIdToBlockCoordinate id = .ok c) := by
  refine ⟨_, make_eq h, ?_, ?_⟩
  · intro id hid
    simp only [mkBlocking] at hid ⊢
    rw [accumulateMul_eq hfit] at hid
    have hp : AllPos (blocksPerDimension shape chunk) := allPos_of_prod_pos (by omega)
    refine ⟨unravel (blocksPerDimension shape chunk) id, ?_, ?_, ?_⟩
    · simp only [Blocking.blockIdToBlockCoordinate]
      rw [blockStridesOf_eq hp hfit]
      exact idToCoordLoop_eq hp hfit hid
    · exact (inBox_blocksPerDimension h.axes).1 (unravel_inBox id hp)
    · simp only [Blocking.blockCoordinatesToBlockId]
      rw [blockStridesOf_eq hp hfit, coordToIdLoop_eq (unravel_inBox id hp) (by omega),
        ravel_unravel hid, Nat.zero_add]
  · intro c hc
    have hb := (inBox_blocksPerDimension h.axes).2 hc
    have hp := hb.allPos
    refine ⟨ravel (blocksPerDimension shape chunk) c, ?_, ?_, ?_⟩
    · simp only [Blocking.blockCoordinatesToBlockId, mkBlocking]
      rw [blockStridesOf_eq hp hfit, coordToIdLoop_eq hb (by omega), Nat.zero_add]
    · simp only [mkBlocking]
      rw [accumulateMul_eq hfit]; exact ravel_lt hb
    · simp only [Blocking.blockIdToBlockCoordinate, mkBlocking]
      rw [blockStridesOf_eq hp hfit, idToCoordLoop_eq hp hfit (ravel_lt hb), unravel_ravel hb]

/-- The chunk ids count the grid: `numberOfBlocks` is the number of grid positions. -/
theorem c01_number_of_chunks {shape chunk : List Nat} (h : ChunkDims shape chunk)
    (hfit : prod (blocksPerDimension shape chunk) < 2 ^ 64) :
    ∃ B, ∃ l : List (List Nat), Blocking.make shape chunk = .ok B ∧ l.Nodup ∧ (∀ c, c ∈ l ↔ InGrid shape chunk c) ∧
      B.numberOfBlocks = l.length := by
  refine ⟨_, boxList (blocksPerDimension shape chunk), make_eq h, nodup_boxList _, ?_, ?_⟩
  · intro c; rw [mem_boxList, inBox_blocksPerDimension h.axes]
  · simp only [mkBlocking]
    rw [accumulateMul_eq hfit, length_boxList]

/-- `checkBlockCoordinate` accepts exactly the grid positions. -/
theorem c01_check_block_coordinate {shape chunk : List Nat} (h : ChunkDims shape chunk) :
    ∃ B, Blocking.make shape chunk = .ok B ∧
      ∀ c, B.checkBlockCoordinate c = true ↔ InGrid shape chunk c := by
  refine ⟨_, make_eq h, fun c => ?_⟩
  rw [← inBox_blocksPerDimension h.axes]
  have hl := length_blocksPerDimension h.length_eq
  have key : ∀ (c n : List Nat), c.length = n.length → (checkLoop c n = true ↔ InBox c n) := by
    intro c
    induction c with
    | nil => intro n hn; cases n <;> simp_all [checkLoop]
    | cons x xs ih =>
      intro n hn
      cases n with
      | nil => simp at hn
      | cons y ys =>
        have := ih ys (by simpa using hn)
        simp only [checkLoop, inBox_cons, ← this]
        split
        · simp; omega
        · constructor
          · intro h; exact ⟨by omega, h⟩
          · intro h; exact h.2
  show (if c.length ≠ shape.length then false else checkLoop c (blocksPerDimension shape chunk)) =
    true ↔ _
  split
  · next hne =>
    constructor
    · simp
    · intro hb; exact absurd (hb.length_eq.trans hl) hne
  · next he => exact key c _ (by omega)

example : ChunkDims [7, 5] [3, 2] ∧ prod (blocksPerDimension [7, 5] [3, 2]) = 9 := by
  refine ⟨⟨by decide, by decide⟩, by decide⟩
example : (Blocking.make [7, 5] [3, 2] >>= fun B => B.blockIdToBlockCoordinate 5) = .ok [1, 2] := by
  decide

/-! ## C02 -/

/-- **C02.** Every element of the array lies in exactly one chunk of the grid, the one that
`coordinateToBlockCoordinate` returns. -/
theorem c02_chunks_tile {shape chunk : List Nat} (h : ChunkDims shape chunk) :
    ∃ B, Blocking.make shape chunk = .ok B ∧ ∀ x, InBox x shape →
      ∃ c, B.coordinateToBlockCoordinate x = .ok c ∧ InGrid shape chunk c ∧
        InChunk shape chunk c x ∧ ∀ c', InChunk shape chunk c' x → c' = c := by
  refine ⟨_, make_eq h, fun x hx => ⟨divV x chunk, ?_, ?_, ?_, ?_⟩⟩
  · have := hx.length_eq
    show (if x.length < shape.length then Res.ub
      else .ok (List.zipWith (· / ·) (x.take shape.length) chunk)) = _
    rw [if_neg (by omega), ← this, List.take_length]; rfl
  · exact inGrid_of_inChunk ((inChunk_iff_div h.axes).2 ⟨hx, rfl⟩)
  · exact (inChunk_iff_div h.axes).2 ⟨hx, rfl⟩
  · intro c' hc'; exact ((inChunk_iff_div h.axes).1 hc').2

/-- **C02.** The begin and extent reported for a chunk of the grid describe exactly its elements; the
extent is positive, at most the nominal chunk shape, ends inside the array, and the chunk handle's
bounded shape and `getBlockBeginAndEnd` agree with it. -/
theorem c02_chunk_extent {shape chunk : List Nat} (h : ChunkDims shape chunk) :
    ∃ B, Blocking.make shape chunk = .ok B ∧ ∀ c, InGrid shape chunk c →
      ∃ begin ext, B.getBlockBeginAndShape c = .ok (begin, ext) ∧
        (∀ x, InChunk shape chunk c x ↔ InRegion x begin ext) ∧
        AllPos ext ∧ All₂ (· ≤ ·) ext chunk ∧ All₂ (· ≤ ·) (addV begin ext) shape ∧
        B.getBlockBeginAndEnd c = .ok (begin, addV begin ext) ∧
        computeBoundedShape c chunk shape = .ok ext := by
  refine ⟨_, make_eq h, fun c hc => ⟨_, _, getBlockBeginAndShape_eq h hc, ?_, ?_, ?_, ?_, ?_, ?_⟩⟩
  · intro x; exact inChunk_iff_region hc
  · exact extV_pos h.axes hc
  · exact extV_le hc
  · exact end_le hc
  · exact getBlockBeginAndEnd_eq h hc
  · exact computeBoundedShape_eq h hc

example : InGrid [7, 5] [3, 2] [2, 2] ∧ InChunk [7, 5] [3, 2] [2, 2] [6, 4] := by decide
example : computeBoundedShape [2, 2] [3, 2] [7, 5] = .ok [1, 1] := by decide

/-- Outside the grid the bounded shape is meaningless: the subtraction wraps around. -/
theorem c02_bounded_shape_outside_grid_counterexample :
    computeBoundedShape [5] [3] [7] = .ok [2 ^ 64 - 8] := by decide

/-! ## C03 -/

/-- **C03.** For every non-empty region inside the array, the chunks visited are exactly the chunks
that share an element with the region, each listed once. -/
theorem c03_overlapping_chunks {shape chunk begin size : List Nat} (h : ChunkDims shape chunk)
    (hr : RegionOk shape begin size) :
    ∃ B l, Blocking.make shape chunk = .ok B ∧ B.getBlocksOverlappingRoi begin size = .ok l ∧
      l.Nodup ∧
      ∀ c, c ∈ l ↔ ∃ x, InRegion x begin size ∧ InChunk shape chunk c x :=
  ⟨_, _, make_eq h, getBlocksOverlappingRoi_eq h hr, nodup_overlapList h hr,
    fun _ => mem_overlapList h hr⟩

example : RegionOk [7, 5] [2, 1] [2, 3] := by decide
example : (Blocking.make [7, 5] [3, 2] >>= fun B => B.getBlocksOverlappingRoi [2, 1] [2, 3]) =
    .ok [[0, 0], [0, 1], [1, 0], [1, 1]] := by decide

/-- An empty region is not guarded by this function: chunk `[1]` is visited although the region is
empty (the read and write functions reject empty requests before calling it). -/
theorem c03_empty_region_counterexample :
    (Blocking.make [10] [2] >>= fun B => B.getBlocksOverlappingRoi [2] [0]) = .ok [[1]] := by decide

/-- The ranks are not compared: with a size or a block shape that is shorter than the begin of the region, the function reads
beyond the end of it (the read and write functions check the ranks before). -/
theorem c03_rank_counterexample {B : Blocking} {begin size : List Nat}
    (h : size.length < begin.length ∨ B.blockShape.length < begin.length) :
    B.getBlocksOverlappingRoi begin size = .ub := by
  rw [Blocking.getBlocksOverlappingRoi, if_pos h]

example : (Blocking.make [4, 4] [2, 2] >>= fun B => B.getBlocksOverlappingRoi [0, 0] [1]) = .ub := by decide
example : (Blocking.make [4] [2] >>= fun B => B.getBlocksOverlappingRoi [0, 0] [1, 1]) = .ub := by decide

/-! ## C04 -/

/-- **C04.** For arrays with extents below 2^31 along every axis, a region inside the array and a
chunk that shares an element with it: `getCoordinatesInRoi` returns the offset inside the region, the
extent and the offset inside the chunk of exactly the common elements, and reports complete overlap
iff the region contains the whole chunk. -/
theorem c04_intersection {shape chunk begin size c : List Nat} (h : ChunkDims shape chunk)
    (hsmall : ∀ s ∈ shape, s < 2 ^ 31) (hr : RegionOk shape begin size)
    (hc : ∃ x, InRegion x begin size ∧ InChunk shape chunk c x) :
    ∃ B o, Blocking.make shape chunk = .ok B ∧ B.getCoordinatesInRoi c begin size = .ok o ∧
      (∀ x, InChunk shape chunk c x ∧ InRegion x begin size ↔
        ∃ i, InBox i o.shapeInRoi ∧
          x = addV begin (addV o.beginInRoi i) ∧
          x = addV (mulV c chunk) (addV o.beginInBlock i)) ∧
      (o.complete = true ↔ ∀ x, InChunk shape chunk c x → InRegion x begin size) := by
  have hg : InGrid shape chunk c := inGrid_of_inChunk hc.choose_spec.2
  have ho := chunk_overlaps hsmall hr hc
  refine ⟨_, _, make_eq h, getCoordinatesInRoi_eq h hsmall hr hc, ?_, ?_⟩
  · intro x
    rw [inChunk_iff_region hg, overlap_elements ho x]
    rfl
  · rw [overlap_complete ho]
    exact forall_congr' fun x => by rw [inChunk_iff_region hg]

example : ∃ x, InRegion x [2, 1] [2, 3] ∧ InChunk [7, 5] [3, 2] [1, 1] x :=
  ⟨[3, 3], by decide, by decide⟩
example : (Blocking.make [7, 5] [3, 2] >>= fun B => B.getCoordinatesInRoi [0, 1] [2, 1] [2, 3]) =
    .ok { beginInRoi := [0, 1], shapeInRoi := [1, 2], beginInBlock := [2, 0], complete := false } := by
  decide

/-- The 2^31 bound is needed: with an axis longer than 2^31 the difference of two coordinates does
not fit the `int` it is stored in.  Here a chunk that starts 2^31 + 1 elements after the beginning
of the region is treated as if it started before it: its part is placed at offset 0 of the region
and is given a begin inside the chunk that lies outside the chunk. -/
theorem c04_int_truncation_counterexample :
    RegionOk [2 ^ 32] [0] [2 ^ 32] ∧ InGrid [2 ^ 32] [2 ^ 31 + 1] [1] ∧
    (Blocking.make [2 ^ 32] [2 ^ 31 + 1] >>= fun B => B.getCoordinatesInRoi [1] [0] [2 ^ 32]) =
      .ok { beginInRoi := [0], shapeInRoi := [2 ^ 32], beginInBlock := [2 ^ 31 - 1],
            complete := false } := by
  refine ⟨by decide, by decide, by decide⟩

end Z5.Props
