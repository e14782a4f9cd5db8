import Verif.Proofs.Region

/-!
# Concrete datasets that satisfy the hypotheses of the theorems
-/

namespace Z5.Props
open Z5 Spec Prog

/-- 16-bit unsigned integers -/
abbrev U16 : Elem := Elem.uint 2 (by decide)

/-- A 5×3 array in 2×2 chunks, uncompressed, fill value 7.  (`exZarr`: zarr v2 with delimiter "."; the
    chunks at the right and lower edge are partial.)  In files unless said otherwise. -/
def exDataset (zarr : Bool) (backend : Backend := .files) : Dataset U16 :=
  { shape := [5, 3], chunkShape := [2, 2], chunkSize := 4, chunking := mkBlocking [5, 3] [2, 2],
    key := ⟨zarr, ['.'], 2, "default".toList⟩, codec := .raw, fill := (7 : Fin (256 ^ 2)),
    canWrite := true, backend := backend }

theorem exDataset_wf (zarr : Bool) (backend : Backend := .files) : (exDataset zarr backend).WF where
  made := by cases zarr <;> cases backend <;> rfl
  dims := ⟨by simp [exDataset], by simp [exDataset]⟩
  small := by intro s hs; simp [exDataset] at hs; rcases hs with rfl | rfl <;> decide
  bytes := by show 4 * 2 < 2 ^ 64; decide
  codec := trivial
  keyOk := by intro _; exact ⟨'.', by show '.' ∈ ['.']; decide, by decide +revert⟩
  n5 := by
    intro _
    refine ⟨by show 2 < 2 ^ 16; decide, ?_⟩
    intro b hb
    simp [exDataset] at hb
    subst hb
    decide

theorem u16_faithful : U16.Faithful := fun a b => by
  exact @decide_eq_true_iff (a = b) (instDecidableEqFin (256 ^ 2) a b)

/-- A region write of a compressor that never fails can always be carried out. -/
theorem exists_performs {E : Elem} {ds : Dataset E} (h : ds.WF) (hw : ds.canWrite = true)
    (hC : ds.codec.TotalFor (prod ds.chunkShape * E.size)) {ws : List (Write E.T)} {σ : Store} (hreach : Reaches ds ws σ)
    {off shape : List Nat} (hr : RegionOk ds.shape off shape) (v : E.T) :
    ∃ σ', Performs ds ⟨off, shape, fun _ => v⟩ σ σ' := by
  obtain ⟨is, rs, hfin⟩ := exists_finished
    ((ds.jobs (scalarRequest v) off shape fun _ => []).map Prod.snd, σ)
  exact ⟨_, .scalar off shape v (fun _ => []) _ is hr (writeRegion_jobs h hr _ _)
    ⟨rs, hfin, writeRegion_total h hw hC hr (scalarRequest_spec v shape)
      (reaches_refines h hw hreach) hfin, rfl⟩⟩

/-- A history of two overlapping writes on the example dataset. -/
theorem exDataset_reaches (zarr : Bool) (backend : Backend := .files) : ∃ σ, Reaches (exDataset zarr backend)
    [⟨[1, 0], [3, 3], fun _ => (4 : Fin (256 ^ 2))⟩, ⟨[2, 1], [1, 2], fun _ => (9 : Fin (256 ^ 2))⟩] σ := by
  have h := exDataset_wf zarr backend
  have h0 : Reaches (exDataset zarr backend) [] (fun _ => none) := .empty fun _ _ => rfl
  obtain ⟨σ1, h1⟩ := exists_performs h rfl trivial h0 (off := [1, 0]) (shape := [3, 3])
    (by cases zarr <;> cases backend <;> decide) (4 : Fin (256 ^ 2))
  have h1' := Reaches.step h0 h1
  obtain ⟨σ2, h2⟩ := exists_performs h rfl trivial h1' (off := [2, 1]) (shape := [1, 2])
    (by cases zarr <;> cases backend <;> decide) (9 : Fin (256 ^ 2))
  exact ⟨σ2, Reaches.step h1' h2⟩

end Z5.Props
