import Verif.Spec.Alongside
import Verif.Proofs.Alongside
import Verif.Proofs.TogetherRun
import Verif.Proofs.S3TogetherRun

/-!
# The files of a region that is read, and calls that write elsewhere (for C90)
-/

namespace Z5
open Spec Prog

variable {Ty : ElemTypes} {L : Libs} {T : Tree Ty}

/-- under every schedule, tasks with files of their own leave the other files alone -/
theorem kept_of_apart {α : Type} {js : List (FileJob α)} {σ : Fs} (hfit : ∀ j ∈ js, j.Fits σ) (hap : js.Pairwise FileJob.Apart)
    {r : Path} (hr : ∀ j ∈ js, ¬ r <+: j.file) (is : List Nat) : (FsProg.interleave is (js.map FileJob.task, σ)).2 r = σ r := by
  have h0 : During js σ (js.map FileJob.task, σ) := by
    refine ⟨by simp, ?_, fun r _ => .inl rfl⟩
    intro i j t hj ht
    simp only [List.getElem?_map, hj, Option.map_some, Option.some.injEq] at ht
    subst ht
    have := hfit j (List.mem_of_getElem? hj)
    exact ⟨j.prog, .same _, this.touches, this.tidy, rfl, fun e => e, fun e => .inr e⟩
  have h := h0.interleave (fun j hj => (hfit j hj).flat) hap is
  rcases h.others r (fun j hj e => hr j hj (e ▸ List.prefix_refl _)) with e | ⟨_, j, hj, _, e, _⟩
  · exact e
  · exact absurd e (hr j hj)

theorem item_of {x y : ArrayItem Ty} {A : List Nat → (Ty.elem y.dtype).T} {p : Path} (hx : T p = some (.array x))
    (hA : T p = some (.array { y with content := A })) : x = { y with content := A } := by
  rw [hx] at hA
  injection hA with hA
  injection hA

section
variable {C : Container} {os : List (Path × DatasetObj)} {σ : Fs} {p : Path} {o : DatasetObj} {x : ArrayItem Ty}

/-- the files of the region and those of a call that writes elsewhere -/
theorem WriteJob.ReadyAs.away (hL : L.Lawful) (hI : C.Inv L T os σ) {e : WriteJob Ty × List (Key × Prog Unit)} (he : ReadyAs e L T os)
    (ho : (p, o) ∈ os) (hx : T p = some (.array x)) {d : AnyDataset (Ty.elem x.dtype)} (hd : o.typed L (Ty.cast x.dtype) = .ok d)
    {off shape : List Nat} (haw : e.1.AwayFrom p off shape) {k : Key} (hk : d.Touched off shape k) :
    ∀ g ∈ fileJobs C e, ¬ chunkFile (C.root ++ p) k <+: g.file := by
  intro g hg hpre
  obtain ⟨l, hl, rfl⟩ := List.mem_map.1 hg
  obtain ⟨B, hB⟩ := he.item
  by_cases hp : e.1.path = p
  · obtain ⟨⟨q, eo, y, ed, ew, ets⟩, eks⟩ := e
    simp only at hp
    subst hp
    have hxy := item_of hx hB
    subst hxy
    obtain ⟨fk, hfk⟩ := (hI.array _ _ hx).facts hL
    have F := hfk o ho d hd
    have G := hfk eo he.object ed he.typed
    obtain ⟨c, u, h1, h2, h3⟩ := hk
    obtain ⟨c', v, g1, g2, g3⟩ := he.keys l hl
    have g2 : InChunk d.base.shape d.fileShape c' v := by
      have gs := G.shape.trans F.shape.symm
      have gp := G.part.trans F.part.symm
      rw [← gs, ← gp]
      exact g2
    have g3 : l.1 = d.fileKey c' := by rw [F.keys, ← G.keys]; exact g3
    have hlev := (AnyDataset.keysFit F.plain).level _ _ ⟨c, inGrid_of_inChunk h2, h3⟩ ⟨c', inGrid_of_inChunk g2, g3⟩
    have hkl : k = l.1 := chunkFile_prefix (p := C.root ++ q) hlev hpre
    have := F.wf.fileKey_inj (inGrid_of_inChunk h2) (inGrid_of_inChunk g2) (by rw [← h3, ← g3, hkl])
    subst this
    have hs : d.base.shape = y.shape := F.shape
    have hpt : d.fileShape = y.shards.getD y.chunks := F.part
    rw [hs, hpt] at h2 g2
    exact haw rfl c u v h1 g1 h2 g2
  · exact leaf_apart hI hx hB (Ne.symm hp) (List.prefix_append _ _) (List.prefix_append _ _) hpre

end

section
variable {C : S3Container} {os : List (Path × S3DatasetObj)} {b : Bucket} {p : Path} {o : S3DatasetObj} {x : ArrayItem Ty}

/-- the objects of the region and those of a call that writes elsewhere -/
theorem S3WriteJob.ReadyAs.away (hL : L.Lawful) (hI : C.Inv L T os b) {e : S3WriteJob Ty × List (Key × Prog Unit)} (he : ReadyAs e L T os)
    (ho : (p, o) ∈ os) (hx : T p = some (.array x)) {d : AnyDataset (Ty.elem x.dtype)} (hd : o.typed L (Ty.cast x.dtype) = .ok d)
    {off shape : List Nat} (haw : e.1.AwayFrom p off shape) {k : Key} (hk : d.Touched off shape k) :
    ∀ g ∈ objJobs C e, chunkObject (C.key p) k ≠ g.1 := by
  intro g hg hkl
  obtain ⟨l, hl, rfl⟩ := List.mem_map.1 hg
  obtain ⟨B, hB⟩ := he.item
  by_cases hp : e.1.path = p
  · obtain ⟨⟨q, eo, y, ed, ew, ets⟩, eks⟩ := e
    simp only at hp
    subst hp
    have hxy := item_of hx hB
    subst hxy
    obtain ⟨fk, hfk⟩ := (hI.array _ _ hx).facts hL (array_name hI hx)
    have F := hfk o ho d hd
    have G := hfk eo he.object ed he.typed
    obtain ⟨c, u, h1, h2, h3⟩ := hk
    obtain ⟨c', v, g1, g2, g3⟩ := he.keys l hl
    have g2 : InChunk d.base.shape d.fileShape c' v := by
      have gs := G.shape.trans F.shape.symm
      have gp := G.part.trans F.part.symm
      rw [← gs, ← gp]
      exact g2
    have g3 : l.1 = d.fileKey c' := by rw [F.keys, ← G.keys]; exact g3
    have hkl : k = l.1 := chunkObject_inj hkl
    have := F.wf.fileKey_inj (inGrid_of_inChunk h2) (inGrid_of_inChunk g2) (by rw [← h3, ← g3, hkl])
    subst this
    have hs : d.base.shape = y.shape := F.shape
    have hpt : d.fileShape = y.shards.getD y.chunks := F.part
    rw [hs, hpt] at h2 g2
    exact haw rfl c u v h1 g1 h2 g2
  · exact leaf_apart hI hx hB (Ne.symm hp) (dirPrefix_chunk _ k) (hkl ▸ dirPrefix_chunk _ l.1)

end
end Z5
