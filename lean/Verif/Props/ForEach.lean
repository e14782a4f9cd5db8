import Verif.Model.ForEach
import Verif.Spec.ForEach
import Verif.Props.Pool
import Verif.Props.Grid
import Verif.Props.Example

/-!
# C47: the chunk and block iteration helpers
-/

namespace Z5.Props
open Z5 Spec Prog Pool

variable {E : Elem} {α β : Type}

theorem visitsOnce (f : β → Prog α) (args : List β) : VisitsOnce (args.map f) f args := by
  refine ⟨rfl, fun n σ σ' log h => ?_⟩
  obtain ⟨hp, ht, _⟩ := c37_exactly_once h
  refine ⟨?_, ht⟩
  have h1 := hp.map fun i => args[i]?
  rw [List.map_map] at h1
  refine h1.trans ?_
  rw [List.length_map]
  have : (List.range args.length).map (fun i => args[i]?) = args.map some := by
    apply List.ext_getElem?
    intro i
    simp only [List.getElem?_map]
    by_cases hi : i < args.length
    · rw [List.getElem?_range hi, List.getElem?_eq_getElem hi]; simp
    · rw [List.getElem?_eq_none (by simpa using Nat.le_of_not_lt hi), List.getElem?_eq_none (Nat.le_of_not_lt hi)]
      rfl
  rw [this]

theorem eachId_eq {shape chunk : List Nat}
    (hfit : prod (blocksPerDimension shape chunk) < 2 ^ 64) (f : Res (List Nat) → β) :
    (List.range (mkBlocking shape chunk).numberOfBlocks).map
      (fun id => f ((mkBlocking shape chunk).blockIdToBlockCoordinate id)) =
    (boxList (blocksPerDimension shape chunk)).map fun c => f (.ok c) := by
  by_cases hp : AllPos (blocksPerDimension shape chunk)
  · rw [boxList_eq_map _ hp, List.map_map]
    simp only [mkBlocking, accumulateMul_eq hfit]
    apply List.map_congr_left
    intro id hid
    simp only [Function.comp_apply, Blocking.blockIdToBlockCoordinate]
    rw [blockStridesOf_eq hp hfit, idToCoordLoop_eq hp hfit (List.mem_range.1 hid)]
  · have h0 : prod (blocksPerDimension shape chunk) = 0 := by
      rcases Nat.eq_zero_or_pos (prod (blocksPerDimension shape chunk)) with h | h
      · exact h
      · exact absurd (allPos_of_prod_pos h) hp
    rw [boxList_eq_nil hp]
    simp [mkBlocking, accumulateMul_eq hfit, h0]

/-- the chunks of a dataset, in the order of their numbers -/
def gridList (ds : Dataset E) : List (List Nat) := boxList (blocksPerDimension ds.shape ds.chunkShape)

theorem mem_gridList {ds : Dataset E} (h : ds.WF) {c : List Nat} :
    c ∈ gridList ds ↔ InGrid ds.shape ds.chunkShape c := by
  rw [gridList, mem_boxList, inBox_blocksPerDimension h.dims.axes]

theorem eachChunk_eq {ds : Dataset E} (h : ds.WF)
    (hfit : prod (blocksPerDimension ds.shape ds.chunkShape) < 2 ^ 64) (f : List Nat → Prog α) :
    ds.eachChunk f = (gridList ds).map f := by
  unfold Dataset.eachChunk gridList
  rw [h.chunking_eq]
  exact eachId_eq hfit fun r => (Prog.ret r : Prog (List Nat)) >>= f

/-- **C47**, `parallel_for_each_chunk`: for every dataset whose number of chunks fits 64 bits, the body is called
    exactly once for every chunk of the grid. -/
theorem c47_each_chunk {ds : Dataset E} (h : ds.WF)
    (hfit : prod (blocksPerDimension ds.shape ds.chunkShape) < 2 ^ 64) (f : List Nat → Prog α) :
    ∃ cs : List (List Nat), cs.Nodup ∧ (∀ c, c ∈ cs ↔ InGrid ds.shape ds.chunkShape c) ∧
      VisitsOnce (ds.eachChunk f) f cs :=
  ⟨gridList ds, nodup_boxList _, fun _ => mem_gridList h, by
    rw [eachChunk_eq h hfit]; exact visitsOnce f _⟩

theorem roiShape_eq : ∀ {shape rb re : List Nat}, All₃ (fun s b e => b < e ∧ e ≤ s) shape rb re →
    (∀ s ∈ shape, s < 2 ^ 64) →
    roiShape rb re = .ok (subV re rb) ∧ RegionOk shape rb (subV re rb) := by
  intro shape rb re h hs
  have hl := All₃.length_eq h
  unfold roiShape
  rw [if_neg (by omega)]
  have key : ∀ {shape rb re : List Nat}, All₃ (fun s b e => b < e ∧ e ≤ s) shape rb re →
      (∀ s ∈ shape, s < 2 ^ 64) →
      List.zipWith wsub re rb = subV re rb ∧ RegionOk shape rb (subV re rb) := by
    intro shape
    induction shape with
    | nil => intro rb re h _; cases rb <;> cases re <;> simp_all [All₃, RegionOk, subV]
    | cons s ss ih =>
      intro rb re h hs
      match rb, re, h with
      | b :: rb, e :: re, h =>
        obtain ⟨⟨h1, h2⟩, h3⟩ := h
        obtain ⟨i1, i2⟩ := ih h3 fun x hx => hs x (List.mem_cons_of_mem _ hx)
        have hsb := hs s List.mem_cons_self
        refine ⟨?_, ⟨by show 0 < e - b; omega, by show b + (e - b) ≤ s; omega⟩, i2⟩
        show wsub e b :: List.zipWith wsub re rb = (e - b) :: subV re rb
        rw [i1, wsub_eq (by omega) (by omega)]
  obtain ⟨k1, k2⟩ := key h hs
  exact ⟨by rw [k1], k2⟩

theorem inRoi_iff : ∀ {shape rb re x : List Nat}, All₃ (fun s b e => b < e ∧ e ≤ s) shape rb re →
    (InRegion x rb (subV re rb) ↔ All₃ (fun x b e => b ≤ x ∧ x < e) x rb re)
  | [], [], [], x, _ => by cases x <;> simp [InRegion, All₃, subV]
  | s :: ss, b :: rb, e :: re, [], _ => by simp [InRegion, All₃]
  | s :: ss, b :: rb, e :: re, x :: xs, h => by
    have ih := inRoi_iff (x := xs) h.2
    have h1 : b < e ∧ e ≤ s := h.1
    constructor
    · rintro ⟨⟨h3, h4⟩, h5⟩
      have h4 : x < b + (e - b) := h4
      exact ⟨⟨h3, by omega⟩, ih.1 h5⟩
    · rintro ⟨⟨h3, h4⟩, h5⟩
      exact ⟨⟨h3, by show x < b + (e - b); omega⟩, ih.2 h5⟩

/-- **C47**, `parallel_for_each_chunk_in_roi`: for every roi `[begin, end)` inside the array and not empty, the
    body is called exactly once for every chunk that shares an element with the roi. -/
theorem c47_each_chunk_in_roi {ds : Dataset E} (h : ds.WF) {roiBegin roiEnd : List Nat}
    (hr : All₃ (fun s b e => b < e ∧ e ≤ s) ds.shape roiBegin roiEnd) (f : List Nat → Prog α) :
    ∃ ts cs, ds.eachChunkInRoi roiBegin roiEnd f = .ok ts ∧ cs.Nodup ∧
      (∀ c, c ∈ cs ↔ ∃ x, All₃ (fun x b e => b ≤ x ∧ x < e) x roiBegin roiEnd ∧
        InChunk ds.shape ds.chunkShape c x) ∧
      VisitsOnce ts f cs := by
  obtain ⟨h1, h2⟩ := roiShape_eq hr fun s hs => Nat.lt_trans (h.small s hs) (by decide)
  refine ⟨(overlapList ds.chunkShape roiBegin (subV roiEnd roiBegin)).map f, _, ?_,
    nodup_overlapList h.dims h2, ?_, visitsOnce f _⟩
  · unfold Dataset.eachChunkInRoi
    rw [h1, Res.ok_bind, h.chunking_eq, getBlocksOverlappingRoi_eq h.dims h2]
    rfl
  · intro c
    rw [mem_overlapList h.dims h2]
    constructor
    · rintro ⟨x, hx, hc⟩
      exact ⟨x, (inRoi_iff hr).1 hx, hc⟩
    · rintro ⟨x, hx, hc⟩
      exact ⟨x, (inRoi_iff hr).2 hx, hc⟩

theorem regionOk_block : ∀ {shape chunk c : List Nat},
    All₂ (fun s b => 0 < b ∧ s + b ≤ 2 ^ 64) shape chunk → InGrid shape chunk c →
    RegionOk shape (mulV c chunk) (extV shape chunk c)
  | [], [], [], _, _ => trivial
  | s :: ss, b :: bs, c :: cs, h, hg => by
    refine ⟨?_, regionOk_block h.2 hg.2⟩
    have h1 : 0 < b ∧ s + b ≤ 2 ^ 64 := h.1
    have h3 : c * b < s := hg.1
    have h4 : (c + 1) * b = c * b + b := Nat.succ_mul c b
    show 0 < min ((c + 1) * b) s - c * b ∧ c * b + (min ((c + 1) * b) s - c * b) ≤ s
    omega

/-- **C47**, `parallel_for_each_block`: for every block shape, the body is called exactly once for every block;
    the blocks lie inside the array, are not empty, and every element of the array is in exactly one of them. -/
theorem c47_each_block {ds : Dataset E} {blockShape : List Nat} (h : ChunkDims ds.shape blockShape)
    (hfit : prod (blocksPerDimension ds.shape blockShape) < 2 ^ 64) (f : List Nat → List Nat → Prog α) :
    ∃ (ts : List (Prog α)) (bs : List (List Nat × List Nat)), ds.eachBlock blockShape f = .ok ts ∧
      (∀ b ∈ bs, RegionOk ds.shape b.1 b.2 ∧ All₂ (· ≤ ·) b.2 blockShape) ∧
      (∀ x, InBox x ds.shape → ∃ b ∈ bs, InRegion x b.1 b.2) ∧
      (bs.Pairwise fun b b' => ∀ x, ¬ (InRegion x b.1 b.2 ∧ InRegion x b'.1 b'.2)) ∧
      VisitsOnce ts (fun b : List Nat × List Nat => f b.1 b.2) bs := by
  let grid := boxList (blocksPerDimension ds.shape blockShape)
  have hg : ∀ {c}, c ∈ grid ↔ InGrid ds.shape blockShape c := by
    intro c; rw [mem_boxList, inBox_blocksPerDimension h.axes]
  refine ⟨_, grid.map fun c => (mulV c blockShape, extV ds.shape blockShape c), ?_, ?_, ?_, ?_,
    visitsOnce (fun b : List Nat × List Nat => f b.1 b.2) _⟩
  · unfold Dataset.eachBlock
    rw [make_eq h, Res.ok_bind]
    have := eachId_eq hfit fun r => (Prog.ret (r >>= fun c =>
      (mkBlocking ds.shape blockShape).getBlockBeginAndShape c) : Prog (List Nat × List Nat)) >>=
        fun b => f b.1 b.2
    refine congrArg Res.ok (this.trans ?_)
    rw [List.map_map]
    apply List.map_congr_left
    intro c hc
    simp only [Function.comp_apply, Res.ok_bind, getBlockBeginAndShape_eq h (hg.1 hc)]
    rfl
  · intro b hb
    obtain ⟨c, hc, rfl⟩ := List.mem_map.1 hb
    exact ⟨regionOk_block h.axes (hg.1 hc), extV_le (hg.1 hc)⟩
  · intro x hx
    have hcx := (inChunk_iff_div h.axes).2 ⟨hx, rfl⟩
    exact ⟨_, List.mem_map.2 ⟨_, hg.2 (inGrid_of_inChunk hcx), rfl⟩, (inChunk_iff_region (inGrid_of_inChunk hcx)).1 hcx⟩
  · rw [List.pairwise_map]
    refine (nodup_boxList _).imp_of_mem ?_
    intro c d hc hd hne x hx
    apply hne
    have h1 := (inChunk_iff_region (hg.1 hc)).2 hx.1
    have h2 := (inChunk_iff_region (hg.1 hd)).2 hx.2
    exact ((inChunk_iff_div h.axes).1 h1).2.trans ((inChunk_iff_div h.axes).1 h2).2.symm

/-- **C47**, `parallel_for_each_block_in_roi`: for every block shape and every roi `[begin, end)` inside the array
    and not empty, the body is called exactly once for every block that shares an element with the roi (the whole
    block, not clipped to the roi). -/
theorem c47_each_block_in_roi {ds : Dataset E} {blockShape : List Nat} (h : ChunkDims ds.shape blockShape)
    {roiBegin roiEnd : List Nat} (hr : All₃ (fun s b e => b < e ∧ e ≤ s) ds.shape roiBegin roiEnd)
    (f : List Nat → List Nat → Prog α) :
    ∃ (ts : List (Prog α)) (cs : List (List Nat)), ds.eachBlockInRoi blockShape roiBegin roiEnd f = .ok ts ∧ cs.Nodup ∧
      (∀ c, c ∈ cs ↔ ∃ x, All₃ (fun x b e => b ≤ x ∧ x < e) x roiBegin roiEnd ∧
        InChunk ds.shape blockShape c x) ∧
      VisitsOnce ts (fun b : List Nat × List Nat => f b.1 b.2) (cs.map fun c => (mulV c blockShape, extV ds.shape blockShape c)) ∧
      ∀ c ∈ cs, ∀ x, InRegion x (mulV c blockShape) (extV ds.shape blockShape c) ↔
        InChunk ds.shape blockShape c x := by
  have hs : ∀ {s b : List Nat}, All₂ (fun s b => 0 < b ∧ s + b ≤ 2 ^ 64) s b → ∀ x ∈ s, x < 2 ^ 64 := by
    intro s
    induction s with
    | nil => intro b _ x hx; simp at hx
    | cons s ss ih =>
      intro b h x hx
      match b, h with
      | b :: bs, h =>
        rcases List.mem_cons.1 hx with rfl | hx
        · have := h.1; omega
        · exact ih h.2 x hx
  obtain ⟨h1, h2⟩ := roiShape_eq hr (hs h.axes)
  have hm : ∀ c, c ∈ overlapList blockShape roiBegin (subV roiEnd roiBegin) ↔
      ∃ x, All₃ (fun x b e => b ≤ x ∧ x < e) x roiBegin roiEnd ∧ InChunk ds.shape blockShape c x := by
    intro c
    rw [mem_overlapList h h2]
    exact ⟨fun ⟨x, hx, hc⟩ => ⟨x, (inRoi_iff hr).1 hx, hc⟩, fun ⟨x, hx, hc⟩ => ⟨x, (inRoi_iff hr).2 hx, hc⟩⟩
  have hgrid : ∀ c ∈ overlapList blockShape roiBegin (subV roiEnd roiBegin), InGrid ds.shape blockShape c := by
    intro c hc
    obtain ⟨x, _, hx⟩ := (hm c).1 hc
    exact inGrid_of_inChunk hx
  refine ⟨_, overlapList blockShape roiBegin (subV roiEnd roiBegin), ?_, nodup_overlapList h h2, hm,
    visitsOnce (fun b : List Nat × List Nat => f b.1 b.2) _, fun c hc x => (inChunk_iff_region (hgrid c hc)).symm⟩
  unfold Dataset.eachBlockInRoi
  rw [h1, Res.ok_bind, make_eq h, Res.ok_bind, getBlocksOverlappingRoi_eq h h2, Res.ok_bind]
  refine congrArg Res.ok ?_
  rw [List.map_map]
  apply List.map_congr_left
  intro c hc
  simp only [Function.comp_apply, getBlockBeginAndShape_eq h (hgrid c hc)]
  rfl

/-- **C47**, disagreement for an empty roi: it is not rejected, and chunk `[1, 0]` is visited although no element of
    the array lies in the roi. -/
theorem c47_empty_roi_counterexample (zarr : Bool) :
    (exDataset zarr).WF ∧ (∀ x, ¬ All₃ (fun x b e => b ≤ x ∧ x < e) x [2, 0] [2, 1]) ∧
    ∀ f : List Nat → Prog Unit, (exDataset zarr).eachChunkInRoi [2, 0] [2, 1] f = .ok [f [1, 0]] := by
  refine ⟨exDataset_wf zarr, ?_, fun f => ?_⟩
  · intro x h
    match x, h with
    | x :: _, h =>
      have : 2 ≤ x ∧ x < 2 := h.1
      omega
  · cases zarr <;> rfl

example (zarr : Bool) : prod (blocksPerDimension (exDataset zarr).shape (exDataset zarr).chunkShape) < 2 ^ 64 := by
  cases zarr <;> decide
example (zarr : Bool) : All₃ (fun s b e => b < e ∧ e ≤ s) (exDataset zarr).shape [1, 1] [4, 2] := by
  cases zarr <;> decide
example (zarr : Bool) : ChunkDims (exDataset zarr).shape [3, 1] ∧
    ∀ f : List Nat → List Nat → Prog Unit, (exDataset zarr).eachBlock [3, 2] f =
      .ok [f [0, 0] [3, 2], f [0, 2] [3, 1], f [3, 0] [2, 2], f [3, 2] [2, 1]] := by
  refine ⟨?_, fun f => by cases zarr <;> rfl⟩
  cases zarr <;> exact ⟨by decide, by decide⟩

end Z5.Props
