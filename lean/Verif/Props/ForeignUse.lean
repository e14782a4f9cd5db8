import Verif.Proofs.ForeignUse
import Verif.Props.Foreign

/-!
# C83: using arrays of other programs

Objects for the array are opened in any mode, written to, closed and opened again, attributes are changed.
-/

namespace Z5.Props
open Spec

variable {E : Elem} {p : Path} {La : Layout} {a : ArrayDesc} {L : Libs} {elem : FillVal → E.T} {x : Dbl} {v : FillVal}
  {A : List Nat → E.T} {σ₀ σ : Fs} {os : List DatasetObj} {ws : List (Write E.T)}

/-- **C83, sessions.** If the directory holds an array whose attributes are JSON objects, then whatever is done with it through objects
that are opened for it, in any modes and any number of sessions (region writes, chunk writes and removals under any schedules, changes of
attributes), it is an array of the same format and description, with what all objects together wrote; and through every object that is
open, every region reads as these elements. -/
theorem c83_sessions (hL : L.Lawful) (h : σ₀.HoldsArray p La a E (L.codec E.size a.compression) (elem v) A)
    (hs : a.Supported La E.size) (hx : a.fill = some x) (hv : a.dtype.castFill x = .ok v) (hn : σ₀.Node p La)
    (hu : Uses L elem p La σ₀ os ws σ) :
    ∃ A', σ.HoldsArray p La a E (L.codec E.size a.compression) (elem v) A' ∧
      (∀ y, InBox y a.shape → SameOrFill E.ceq (elem v) (A' y) (replay A ws y)) ∧
      ∀ o ∈ os, ∃ d, o.StandsFor d L elem a p o.handle.mode ∧ d.ReadsAs p σ A' := by
  obtain ⟨⟨A', i1, i2⟩, _, i4⟩ := hu.effect hL hs hx hv h hn
  refine ⟨A', i1, i2, fun o ho => ?_⟩
  obtain ⟨d, g⟩ := i4 o ho
  exact ⟨d, g.stands, AnyDataset.Files.readsAs g.stands.wf g.stands.plain (g.key ▸ i1.tidy) ((g.files _ _).2 i1.elements)⟩

/-- **C83, attributes.** A valid change of the attributes through an open object that is not read-only throws, without effect, exactly if
it names one of the entries that say what an N5 array is.  Otherwise the attributes become the new ones, and nothing else changes. -/
theorem c83_attributes (hL : L.Lawful) (h : σ₀.HoldsArray p La a E (L.codec E.size a.compression) (elem v) A)
    (hs : a.Supported La E.size) (hx : a.fill = some x) (hv : a.dtype.castFill x = .ok v) (hn : σ₀.Node p La)
    (hu : Uses L elem p La σ₀ os ws σ) {o : DatasetObj} (ho : o ∈ os) (hw : o.handle.mode.canWrite = true) {op : AttrOp} (hop : op.Valid) :
    let locked := if La = .n5 then ["dimensions", "blockSize", "dataType", "compressionType", "compression"] else []
    (op.names locked = true → (Target.dataset o.handle).change op σ = (.throw .runtimeError, σ)) ∧
    (op.names locked = false → ∃ σ', (Target.dataset o.handle).change op σ = (.ok (), σ') ∧
      σ.OnlyAttributes σ' p La (op.apply (σ.attributes p La))) := by
  obtain ⟨⟨A', i1, i2⟩, i3, i4⟩ := hu.effect hL hs hx hv h hn
  obtain ⟨d, g⟩ := i4 o ho
  obtain ⟨j, hj, _⟩ := i1.document
  have hr : (Target.dataset o.handle).Refers σ La := by
    refine ⟨?_, ?_, ?_⟩
    · show σ.Node o.handle.path _
      rw [g.stands.path]
      exact i3
    · show o.handle.isZarr σ = _
      rw [dataset_isZarr, g.cache]
    · intro _ _ e
      show σ (o.handle.path ++ _) ≠ none
      rw [g.stands.path]
      subst e
      have := docAt_isSome hj
      intro e
      rw [show σ (p ++ [Layout.datasetFile .n5]) = none from e] at this
      cases this
  obtain ⟨c1, c2⟩ := c29_change (t := .dataset o.handle) hw hr hop
  have hl : (Target.dataset o.handle).locked La =
      if La = .n5 then ["dimensions", "blockSize", "dataType", "compressionType", "compression"] else [] := by
    cases La <;> rfl
  rw [hl] at c1 c2
  refine ⟨c1, fun e => ?_⟩
  obtain ⟨σ', k1, k2, _⟩ := c2 e
  exact ⟨σ', k1, g.stands.path ▸ k2⟩

/-- The theorems apply: an array is opened, its attributes are changed, it is closed, and opened again in mode `r`. -/
theorem exUses {σ₀ : Fs} (h : σ₀.HoldsArray ["d"] .n5 exForeignDesc U8 (exLibs.codec U8.size .raw) (exElem (.int 0)) exForeignElems)
    (hz : (GroupHandle.mk [] .a).isZarr σ₀ = (.ok Layout.n5.isZarr, σ₀)) (hn : σ₀.Node ["d"] .n5)
    (hroot : ∀ n ∈ [".zgroup", "zarr.json"], σ₀ [n] = none) (htop : σ₀ [] = some .dir) :
    ∃ o σ, Uses exLibs exElem ["d"] .n5 σ₀ [o] [] σ ∧ o.handle.mode = .r ∧
    σ.attributes ["d"] .n5 "unit" = some (.str "nm") ∧
    ∃ d A, o.StandsFor d exLibs exElem exForeignDesc ["d"] .r ∧ d.ReadsAs ["d"] σ A ∧ A [1] = (6 : Fin (256 ^ 1)) := by
  have hx : exForeignDesc.fill = some .zero := rfl
  have hv : exForeignDesc.dtype.castFill .zero = .ok (.int 0) := by decide +kernel
  have ho := open_fs (E := U8) (L := exLibs) (elem := exElem) (root := ⟨[], .a⟩) (key := ["d"]) (exLibs_lawful _) h exForeign_supported hx hv
    rfl hz
  obtain ⟨o, d, ho, hst, -⟩ := ho
  have u1 : Uses exLibs exElem ["d"] .n5 σ₀ [o] [] σ₀ := .opened .start rfl hz ho
  obtain ⟨σ₁, c1, c2⟩ := (c83_attributes (exLibs_lawful _) h exForeign_supported hx hv hn u1 (List.mem_singleton.2 rfl)
    (by rw [hst.mode]; rfl) (op := .write (.obj [("unit", .str "nm")])) ⟨_, rfl, by decide⟩).2 (by decide)
  have u2 := Uses.closed (os' := []) (u1.annotated (List.mem_singleton.2 rfl) (op := .write (.obj [("unit", .str "nm")])) ⟨_, rfl, by decide⟩)
    (fun _ h => by cases h)
  rw [c1] at u2
  have u2 : Uses exLibs exElem ["d"] .n5 σ₀ [] [] σ₁ := u2
  have hz2 : (GroupHandle.mk [] .r).isZarr σ₁ = (.ok false, σ₁) := by
    rw [group_isZarr, c2.files [] (by decide), c2.files _ (by decide), c2.files _ (by decide), htop,
      show σ₀ ([] ++ [".zgroup"]) = none from hroot _ (by simp), show σ₀ ([] ++ ["zarr.json"]) = none from hroot _ (by simp)]
    rfl
  obtain ⟨A', i1, i2, -⟩ := c83_sessions (exLibs_lawful _) h exForeign_supported hx hv hn u2
  obtain ⟨o2, d2, ho2, hst2, -⟩ := open_fs (E := U8) (L := exLibs) (elem := exElem) (root := ⟨[], .r⟩) (key := ["d"]) (exLibs_lawful _) i1
    exForeign_supported hx hv rfl hz2
  have u3 : Uses exLibs exElem ["d"] .n5 σ₀ [o2] [] σ₁ := .opened u2 rfl hz2 ho2
  refine ⟨o2, σ₁, u3, hst2.mode, ?_, ?_⟩
  · rw [c2.attributes]
    rfl
  · obtain ⟨A3, j1, j2, j3⟩ := c83_sessions (exLibs_lawful _) h exForeign_supported hx hv hn u3
    obtain ⟨d3, k1, k2⟩ := j3 o2 (List.mem_singleton.2 rfl)
    rw [hst2.mode] at k1
    refine ⟨d3, A3, k1, k2, ?_⟩
    rcases j2 [1] (by decide) with e | ⟨e, _⟩
    · exact e
    · exact absurd e (by decide +kernel)

/-- for the array of `Props/Foreign` -/
example : ∃ o σ, Uses exLibs exElem ["d"] .n5 (exForeign []).view [o] [] σ ∧ o.handle.mode = .r ∧
    σ.attributes ["d"] .n5 "unit" = some (.str "nm") ∧
    ∃ d A, o.StandsFor d exLibs exElem exForeignDesc ["d"] .r ∧ d.ReadsAs ["d"] σ A ∧ A [1] = (6 : Fin (256 ^ 1)) := by
  have hdoc : (exForeign []).view (["d"] ++ ["attributes.json"]) = some (.doc (exForeignDoc [])) :=
    (exForeign_text exForeign_plain).view (p := ["d"]) (n := "attributes.json") (by decide)
  refine exUses ((exForeign_holds exForeign_plain).view exForeign_supported)
    (isGroup_isZarr (La := .n5) (g := ⟨[], .a⟩) (R := exForeign []) ⟨rfl, by decide⟩)
    ⟨RawFs.view_dir.2 rfl, .inr ⟨_, hdoc, _, rfl, by decide⟩, nofun, nofun⟩ (fun n hn => RawFs.view_none.2 ?_) (RawFs.view_dir.2 rfl)
  simp only [List.mem_cons, List.not_mem_nil, or_false] at hn
  rcases hn with rfl | rfl <;> rfl

end Z5.Props
