import Verif.Proofs.Safety
import Verif.Props.Example

/-!
# C05, C08, C09, C11, C12, C34: requests, and reading what was written
-/

namespace Z5.Props
open Z5 Spec Prog

variable {E : Elem} {ds : Dataset E}

/-! ## C05 -/

/-- **C05.** A region request whose end does not exceed the 64-bit range is accepted by `readSubarray`,
`writeSubarray` and `writeScalar` iff it lies inside the dataset and is not empty along any axis; a
rejected request creates no task, so nothing is read or written. -/
theorem c05_accepted_iff (h : ds.WF) (off : List Nat) (inBuf : List E.T) (view : View) (v : E.T)
    (scratch : Nat → List E.T)
    (hl : off.length = ds.shape.length) (hl' : view.shape.length = ds.shape.length)
    (hnowrap : All₂ (fun o n => o + n < 2 ^ 64) off view.shape) :
    ((∃ ts, ds.readSubarray view off scratch = .ok ts) ↔ RegionOk ds.shape off view.shape) ∧
    ((∃ ts, ds.writeSubarray inBuf view off scratch = .ok ts) ↔ RegionOk ds.shape off view.shape) ∧
    ((∃ ts, ds.writeScalar off view.shape v scratch = .ok ts) ↔ RegionOk ds.shape off view.shape) ∧
    (¬ RegionOk ds.shape off view.shape →
      ds.readSubarray view off scratch = .throw .runtimeError ∧
      ds.writeSubarray inBuf view off scratch = .throw .runtimeError ∧
      ds.writeScalar off view.shape v scratch = .throw .runtimeError) := by
  have hno : ¬ RegionOk ds.shape off view.shape →
      ds.readSubarray view off scratch = .throw .runtimeError ∧
      ds.writeSubarray inBuf view off scratch = .throw .runtimeError ∧
      ds.writeScalar off view.shape v scratch = .throw .runtimeError := by
    intro hn
    have : ds.requestChunks off view.shape = .throw .runtimeError := by
      rw [Dataset.requestChunks, Dataset.checkRequestShape,
        if_neg (not_or.2 ⟨by omega, by omega⟩)]
      rcases requestLoop_iff hl hl' hnowrap with ⟨_, h2⟩ | ⟨h1, _⟩
      · exact absurd h2 hn
      · rw [h1]; rfl
    simp only [Dataset.readSubarray, Dataset.writeSubarray, Dataset.writeScalar, Dataset.writeRegion,
      this, Res.throw_bind, and_self]
  have hyes : RegionOk ds.shape off view.shape →
      (∃ ts, ds.readSubarray view off scratch = .ok ts) ∧
      (∃ ts, ds.writeSubarray inBuf view off scratch = .ok ts) ∧
      (∃ ts, ds.writeScalar off view.shape v scratch = .ok ts) := by
    intro hr
    exact ⟨⟨_, by rw [Dataset.readSubarray, h.requestChunks_ok hr]; rfl⟩,
      ⟨_, writeRegion_jobs h hr _ _⟩, ⟨_, writeRegion_jobs h hr _ _⟩⟩
  refine ⟨⟨?_, fun hr => (hyes hr).1⟩, ⟨?_, fun hr => (hyes hr).2.1⟩,
    ⟨?_, fun hr => (hyes hr).2.2⟩, hno⟩
  all_goals
    rintro ⟨ts, hts⟩
    apply Classical.byContradiction
    intro hn
    obtain ⟨h1, h2, h3⟩ := hno hn
    first
      | (rw [h1] at hts; simp at hts; done)
      | (rw [h2] at hts; simp at hts; done)
      | (rw [h3] at hts; simp at hts; done)

/-- Requests with the wrong number of axes are rejected. -/
theorem c05_wrong_dimension (off : List Nat) (inBuf : List E.T) (view : View) (v : E.T)
    (scratch : Nat → List E.T)
    (hl : off.length ≠ ds.shape.length ∨ view.shape.length ≠ ds.shape.length) :
    ds.readSubarray view off scratch = .throw .runtimeError ∧
    ds.writeSubarray inBuf view off scratch = .throw .runtimeError ∧
    ds.writeScalar off view.shape v scratch = .throw .runtimeError := by
  have : ds.requestChunks off view.shape = .throw .runtimeError := by
    rw [Dataset.requestChunks, Dataset.checkRequestShape, if_pos hl]; rfl
  simp only [Dataset.readSubarray, Dataset.writeSubarray, Dataset.writeScalar, Dataset.writeRegion,
    this, Res.throw_bind, and_self]

/-- When offset plus extent exceeds the 64-bit range, the check of the code is fooled: the request
starting at 2^64 - 1 with extent 2 passes `checkRequestShape` of a dataset with 4 elements. -/
theorem c05_wrap_counterexample : ∃ ds : Dataset U16, ds.shape = [4] ∧
    ds.checkRequestShape [2 ^ 64 - 1] [2] = .ok () ∧ ¬ RegionOk ds.shape [2 ^ 64 - 1] [2] :=
  ⟨{ shape := [4], chunkShape := [2], chunkSize := 2, chunking := mkBlocking [4] [2],
     key := ⟨true, ['.'], 2, []⟩, codec := .raw, fill := (0 : Fin (256 ^ 2)), canWrite := true, backend := .files },
    rfl, by decide +kernel, by decide⟩

example : RegionOk (exDataset true).shape [1, 0] [3, 3] ∧
    ¬ RegionOk (exDataset true).shape [3, 0] [3, 3] ∧ ¬ RegionOk (exDataset true).shape [3, 0] [1, 0] := by
  decide

/-! ## C08, C09 -/

theorem holds_readsAs (h : ds.WF) {σ : Store} {A : List Nat → E.T} (hA : Holds ds σ A) :
    ReadsAs ds σ A := fun _ _ _ scratch hr hfit hna => readSubarray_exec h hr hfit hna (fun c hc => hA c hc.inGrid) scratch

theorem readsAs_congr {σ : Store} {A B : List Nat → E.T} (hA : ReadsAs ds σ A)
    (he : ∀ x, InBox x ds.shape → A x = B x) : ReadsAs ds σ B := by
  intro off out outBuf scratch hr hfit hna
  obtain ⟨ts, hts, h1⟩ := hA off out outBuf scratch hr hfit hna
  refine ⟨ts, hts, fun is rs hfin => ?_⟩
  obtain ⟨h2, h3, h4⟩ := h1 is rs hfin
  refine ⟨h2, h3, fun out' hd => ?_⟩
  obtain ⟨h5, h6, h7⟩ := h4 out' hd
  refine ⟨h5, fun i hi => ?_, h7⟩
  rw [h6 i hi, he]
  exact region_inBox hr (inRegion_add hi (All₃.length_eq hr).2)

theorem refines_readsAs (h : ds.WF) {σ : Store} {S : List Nat → E.T} (hσ : Refines ds σ S) :
    ∃ A, ReadsAs ds σ A ∧ ∀ x, InBox x ds.shape → SameOrFill E.ceq ds.fill (A x) (S x) := by
  obtain ⟨A, hA, hAS⟩ := hσ
  refine ⟨A, holds_readsAs h hA, fun x hx => ?_⟩
  have hch := (inChunk_iff_div (c := divV x ds.chunkShape) h.dims.axes).2 ⟨hx, rfl⟩
  exact hAS _ x (inGrid_of_inChunk hch) (.of_inChunk hch)

theorem faithful_eq (hE : E.Faithful) {fill a e : E.T} (h : SameOrFill E.ceq fill a e) : a = e :=
  (sameOrFill_iff fun a b => (hE a b).1).1 h

/-- **C08.** After any history of successful calls on an unsharded zarr dataset, reading gives, for every
element, the value of the last write covering it (the fill value if there was none); a value that is
`==` to the fill value may come back as the fill value. -/
theorem c08_read_after_write_zarr (h : ds.WF) (_hz : ds.isZarr = true) (hw : ds.canWrite = true)
    {ws : List (Write E.T)} {σ : Store} (hreach : Reaches ds ws σ) :
    ∃ A, ReadsAs ds σ A ∧ ∀ x, InBox x ds.shape →
      SameOrFill E.ceq ds.fill (A x) (replay (fun _ => ds.fill) ws x) :=
  refines_readsAs h (reaches_refines h hw hreach)

/-- **C08**, element types whose `==` is equality: reading gives exactly the array that results from
applying the writes in order. -/
theorem c08_read_after_write_zarr_exact (h : ds.WF) (hz : ds.isZarr = true) (hw : ds.canWrite = true)
    (hE : E.Faithful) {ws : List (Write E.T)} {σ : Store} (hreach : Reaches ds ws σ) :
    ReadsAs ds σ (replay (fun _ => ds.fill) ws) := by
  obtain ⟨A, hA, hS⟩ := c08_read_after_write_zarr h hz hw hreach
  exact readsAs_congr hA fun x hx => faithful_eq hE (hS x hx)

/-- **C09.** The same for N5. -/
theorem c09_read_after_write_n5 (h : ds.WF) (_hz : ds.isZarr = false) (hw : ds.canWrite = true)
    {ws : List (Write E.T)} {σ : Store} (hreach : Reaches ds ws σ) :
    ∃ A, ReadsAs ds σ A ∧ ∀ x, InBox x ds.shape →
      SameOrFill E.ceq ds.fill (A x) (replay (fun _ => ds.fill) ws x) :=
  refines_readsAs h (reaches_refines h hw hreach)

theorem c09_read_after_write_n5_exact (h : ds.WF) (hz : ds.isZarr = false) (hw : ds.canWrite = true)
    (hE : E.Faithful) {ws : List (Write E.T)} {σ : Store} (hreach : Reaches ds ws σ) :
    ReadsAs ds σ (replay (fun _ => ds.fill) ws) := by
  obtain ⟨A, hA, hS⟩ := c09_read_after_write_n5 h hz hw hreach
  exact readsAs_congr hA fun x hx => faithful_eq hE (hS x hx)

/-- `ReadsAs` does not promise anything vacuously: some schedule finishes every call. -/
theorem c08_progress {α : Type} (ts : List (Prog α)) (σ : Store) (is : List Nat) :
    ∃ js rs, Finished (interleave (is ++ js) (ts, σ)).1 rs := by
  obtain ⟨js, rs, h⟩ := exists_finished (interleave is (ts, σ))
  exact ⟨js, rs, by rw [interleave_append]; exact h⟩

/-- **C08/C09, writing.** A valid region write never has undefined behaviour; with a compressor that never
fails, every schedule that finishes its tasks completes the call. -/
theorem c08_write_succeeds (h : ds.WF) (hw : ds.canWrite = true) {ws : List (Write E.T)} {σ : Store}
    (hreach : Reaches ds ws σ) (inBuf : List E.T) (inView : View) (off : List Nat)
    (scratch : Nat → List E.T) (hr : RegionOk ds.shape off inView.shape)
    (hfit : FitsIn inView inBuf.length) :
    ∃ ts, ds.writeSubarray inBuf inView off scratch = .ok ts ∧
      ∀ is rs, Finished (interleave is (ts, σ)).1 rs →
        (∀ r ∈ rs, r ≠ .ub) ∧ (ds.codec.TotalFor (prod ds.chunkShape * E.size) → ∀ r ∈ rs, r = .ok ()) := by
  have hσ := reaches_refines h hw hreach
  have hspec := copyRequest_spec inBuf inView
    (fun i => (inBuf[inView.base + dot i inView.strides]?).getD ds.fill) hfit (by
      intro i hi
      have := hfit.2 i hi
      rw [List.getElem?_eq_getElem this]; rfl)
  refine ⟨_, writeRegion_jobs h hr _ _, fun is rs hfin => ⟨?_, fun hC => ?_⟩⟩
  · exact (writeRegion_refines h hw hr hspec hσ (writeRegion_jobs h hr _ _) hfin).1
  · exact writeRegion_total h hw hC hr hspec hσ hfin

/-- The theorems apply: two overlapping writes to the 5×3 example dataset (zarr or N5). -/
example (zarr : Bool) : ∃ σ, ReadsAs (exDataset zarr) σ (replay (fun _ => (7 : Fin (256 ^ 2)))
    [⟨[1, 0], [3, 3], fun _ => (4 : Fin (256 ^ 2))⟩, ⟨[2, 1], [1, 2], fun _ => (9 : Fin (256 ^ 2))⟩]) := by
  obtain ⟨σ, hσ⟩ := exDataset_reaches zarr
  refine ⟨σ, ?_⟩
  cases zarr with
  | true => exact c08_read_after_write_zarr_exact (exDataset_wf true) rfl rfl u16_faithful hσ
  | false => exact c09_read_after_write_n5_exact (exDataset_wf false) rfl rfl u16_faithful hσ

/-- … and what they say: element (2,1) was overwritten, (1,0) was not, (0,0) never written. -/
example : (replay (fun _ => (7 : Fin (256 ^ 2)))
    [⟨[1, 0], [3, 3], fun _ => 4⟩, ⟨[2, 1], [1, 2], fun _ => 9⟩] [2, 1]) = 9 ∧
    (replay (fun _ => (7 : Fin (256 ^ 2)))
    [⟨[1, 0], [3, 3], fun _ => 4⟩, ⟨[2, 1], [1, 2], fun _ => 9⟩] [1, 0]) = 4 ∧
    (replay (fun _ => (7 : Fin (256 ^ 2)))
    [⟨[1, 0], [3, 3], fun _ => 4⟩, ⟨[2, 1], [1, 2], fun _ => 9⟩] [0, 0]) = 7 := by decide

/-! ## C11 -/

/-- **C11.** A region write leaves everything outside the region as it was, *even if some of its tasks
fail*: files of chunks that do not overlap the region are untouched, reading still works, every element
outside the region reads as before, and every element inside reads as before or as the new value
(up to elided fill values). -/
theorem c11_write_frame (h : ds.WF) (hw : ds.canWrite = true) {ws : List (Write E.T)} {σ : Store}
    (hreach : Reaches ds ws σ) (inBuf : List E.T) (inView : View) (off : List Nat)
    (val : List Nat → E.T) (scratch : Nat → List E.T) (hr : RegionOk ds.shape off inView.shape)
    (hfit : FitsIn inView inBuf.length)
    (hval : ∀ i, InBox i inView.shape → inBuf[inView.base + dot i inView.strides]? = some (val i))
    {ts : List (Prog Unit)} (hts : ds.writeSubarray inBuf inView off scratch = .ok ts)
    {is : List Nat} {rs : List (Res Unit)} (hfin : Finished (interleave is (ts, σ)).1 rs) :
    (∀ k, (∀ c x, InRegion x off inView.shape → InChunk ds.shape ds.chunkShape c x →
      ds.chunkKey c ≠ k) → (interleave is (ts, σ)).2 k = σ k) ∧
    ∃ A A', ReadsAs ds σ A ∧ ReadsAs ds (interleave is (ts, σ)).2 A' ∧
      (∀ x, InBox x ds.shape → ¬ InRegion x off inView.shape →
        SameOrFill E.ceq ds.fill (A' x) (A x)) ∧
      (∀ x, InRegion x off inView.shape →
        SameOrFill E.ceq ds.fill (A' x) (A x) ∨
        SameOrFill E.ceq ds.fill (A' x) (val (subV x off))) := by
  have hspec := copyRequest_spec inBuf inView val hfit hval
  obtain ⟨A, hA, hAS⟩ := reaches_refines h hw hreach
  have hσ : Refines ds σ A := ⟨A, hA, fun _ _ _ _ => Or.inl rfl⟩
  refine ⟨?_, ?_⟩
  · intro k hk
    refine (writeRegion_refines h hw hr hspec hσ hts hfin).2.1 k ?_
    rintro c ⟨x, h1, h2⟩
    exact hk c x h1 h2
  · obtain ⟨S', hS', hx⟩ := writeRegion_frame h hw hr hspec hσ hts hfin
    obtain ⟨A', hA', hAS'⟩ := refines_readsAs h hS'
    refine ⟨A, A', holds_readsAs h hA, hA', ?_, ?_⟩
    · intro x hb hn
      have h1 := hAS' x hb
      rcases hx x with h2 | ⟨h2, _⟩
      · rw [h2] at h1; exact h1
      · exact absurd h2 hn
    · intro x hreg
      have h1 := hAS' x (region_inBox hr hreg)
      rcases hx x with h2 | ⟨_, h2⟩
      · rw [h2] at h1; exact Or.inl h1
      · rw [h2] at h1; exact Or.inr h1

/-- **C11** for `writeScalar`. -/
theorem c11_scalar_frame (h : ds.WF) (hw : ds.canWrite = true) {ws : List (Write E.T)} {σ : Store}
    (hreach : Reaches ds ws σ) (off shape : List Nat) (v : E.T) (scratch : Nat → List E.T)
    (hr : RegionOk ds.shape off shape)
    {ts : List (Prog Unit)} (hts : ds.writeScalar off shape v scratch = .ok ts)
    {is : List Nat} {rs : List (Res Unit)} (hfin : Finished (interleave is (ts, σ)).1 rs) :
    (∀ k, (∀ c x, InRegion x off shape → InChunk ds.shape ds.chunkShape c x →
      ds.chunkKey c ≠ k) → (interleave is (ts, σ)).2 k = σ k) ∧
    ∃ A A', ReadsAs ds σ A ∧ ReadsAs ds (interleave is (ts, σ)).2 A' ∧
      (∀ x, InBox x ds.shape → ¬ InRegion x off shape → SameOrFill E.ceq ds.fill (A' x) (A x)) ∧
      (∀ x, InRegion x off shape →
        SameOrFill E.ceq ds.fill (A' x) (A x) ∨ SameOrFill E.ceq ds.fill (A' x) v) := by
  have hspec := scalarRequest_spec (E := E) v shape
  obtain ⟨A, hA, hAS⟩ := reaches_refines h hw hreach
  have hσ : Refines ds σ A := ⟨A, hA, fun _ _ _ _ => Or.inl rfl⟩
  refine ⟨?_, ?_⟩
  · intro k hk
    refine (writeRegion_refines h hw hr hspec hσ hts hfin).2.1 k ?_
    rintro c ⟨x, h1, h2⟩
    exact hk c x h1 h2
  · obtain ⟨S', hS', hx⟩ := writeRegion_frame h hw hr hspec hσ hts hfin
    obtain ⟨A', hA', hAS'⟩ := refines_readsAs h hS'
    refine ⟨A, A', holds_readsAs h hA, hA', ?_, ?_⟩
    · intro x hb hn
      have h1 := hAS' x hb
      rcases hx x with h2 | ⟨h2, _⟩
      · rw [h2] at h1; exact h1
      · exact absurd h2 hn
    · intro x hreg
      have h1 := hAS' x (region_inBox hr hreg)
      rcases hx x with h2 | ⟨_, h2⟩
      · rw [h2] at h1; exact Or.inl h1
      · rw [h2] at h1; exact Or.inr h1

example : RegionOk (exDataset false).shape [1, 0] [3, 3] ∧
    FitsIn ⟨0, [3, 3], [3, 1]⟩ 9 ∧ ¬ InRegion [4, 2] [1, 0] [3, 3] := by
  refine ⟨by decide, ⟨rfl, ?_⟩, by decide⟩
  intro c hc
  match c, hc with
  | [i, j], hc =>
    have h1 : i < 3 := hc.1
    have h2 : j < 3 := hc.2.1
    simp only [dot_cons, dot_nil_left]
    omega

/-! ## C12 -/

theorem replay_not_covered {T : Type} : ∀ (ws : List (Write T)) (A : List Nat → T) (x : List Nat),
    (∀ w ∈ ws, ¬ InRegion x w.off w.shape) → replay A ws x = A x
  | [], _, _, _ => rfl
  | w :: ws, A, x, h => by
    rw [replay, replay_not_covered ws _ x fun v hv => h v (by simp [hv])]
    unfold override
    rw [if_neg (h w (by simp))]

/-- **C12.** Elements that no write ever covered read as the fill value, exactly. -/
theorem c12_unwritten_is_fill (h : ds.WF) (hw : ds.canWrite = true) {ws : List (Write E.T)}
    {σ : Store} (hreach : Reaches ds ws σ) :
    ∃ A, ReadsAs ds σ A ∧ ∀ x, InBox x ds.shape → (∀ w ∈ ws, ¬ InRegion x w.off w.shape) →
      A x = ds.fill := by
  obtain ⟨A, hA, hS⟩ := refines_readsAs h (reaches_refines h hw hreach)
  refine ⟨A, hA, fun x hx hn => ?_⟩
  have := hS x hx
  rw [replay_not_covered ws _ x hn] at this
  rcases this with h1 | ⟨_, h1⟩ <;> exact h1

/-- a chunk is absent iff all its elements are `==` to the fill value -/
theorem blob_none_iff (hf : E.ceq ds.fill ds.fill = true) {β : List Nat → Option Bytes}
    {S : List Nat → E.T} (hσ : RefinesB ds β S) (hsp : Sparse ds β) {c : List Nat}
    (hc : InGrid ds.shape ds.chunkShape c) :
    β c = none ↔
      ∀ x, InRegion x (mulV c ds.chunkShape) (ds.stored c) → E.ceq (S x) ds.fill = true := by
  obtain ⟨A, hA, hAS⟩ := hσ
  have hb := hA c hc
  constructor
  · intro hn x hx
    rw [hn] at hb
    have h1 : A x = ds.fill := hb x hx
    rcases hAS c x hc hx with h2 | ⟨h2, _⟩
    · rw [← h2, h1]; exact hf
    · exact h2
  · intro hall
    cases hv : β c with
    | none => rfl
    | some b =>
      exfalso
      rw [hv] at hb
      obtain ⟨content, hd, hr⟩ := hb
      obtain ⟨content', hd', e, he, hne⟩ := hsp c b hc hv
      cases decodes_unique hd hd'
      obtain ⟨p, hp, rfl⟩ := List.getElem_of_mem he
      have hp' : p < prod (ds.stored c) := by have := hr.1; omega
      have hi := unravel_inBox p (allPos_of_prod_pos (by omega : 0 < prod (ds.stored c)))
      have hl : (mulV c ds.chunkShape).length = (ds.stored c).length := by
        have := All₂.length_eq (stored_le_chunk (ds := ds) hc)
        have := dims_length hc
        omega
      have hx : InStored ds c (addV (mulV c ds.chunkShape) (unravel (ds.stored c) p)) :=
        inRegion_add hi hl
      have h1 := hr.2 _ hx
      rw [subV_addV (by rw [hi.length_eq, hl]), ravel_unravel hp', List.getElem?_eq_getElem hp,
        Option.some.injEq] at h1
      rw [h1] at hne
      have h2 := hall _ hx
      rcases hAS c _ hc hx with h3 | ⟨_, h3⟩
      · rw [← h3, hne] at h2; simp at h2
      · rw [h3, hf] at hne; simp at hne

theorem blob_some_iff (hf : E.ceq ds.fill ds.fill = true) {β : List Nat → Option Bytes}
    {ws : List (Write E.T)} (hσ : RefinesB ds β (replay (fun _ => ds.fill) ws)) (hsp : Sparse ds β)
    (hws : ∀ w ∈ ws, RegionOk ds.shape w.off w.shape) {c : List Nat}
    (hc : InGrid ds.shape ds.chunkShape c) :
    β c ≠ none ↔
      ∃ x, InChunk ds.shape ds.chunkShape c x ∧
        E.ceq (replay (fun _ => ds.fill) ws x) ds.fill = false := by
  rw [Ne, blob_none_iff hf hσ hsp hc]
  constructor
  · intro hn
    rw [Classical.not_forall] at hn
    obtain ⟨x, hx⟩ := hn
    rw [Classical.not_imp] at hx
    obtain ⟨hx, hne⟩ := hx
    refine ⟨x, ?_, by simpa using hne⟩
    apply Classical.byContradiction
    intro hnc
    have hnb : ¬ InBox x ds.shape := fun hb => hnc (InStored.inChunk hc hx hb)
    apply hne
    rw [replay_not_covered ws _ x fun w hw' hreg => hnb (region_inBox (hws w hw') hreg)]
    exact hf
  · rintro ⟨x, hx, hne⟩ hall
    have := hall x (InStored.of_inChunk hx)
    rw [hne] at this
    simp at this

/-- **C12, storage.** After any history, a chunk without a file has only elements that are `==` to the
fill value; a chunk with a file holds an element (possibly in its padding outside the array) that is
not.  The fill value is assumed to be `==` itself, that is, not NaN. -/
theorem c12_stored_iff (h : ds.WF) (hw : ds.canWrite = true) (hf : E.ceq ds.fill ds.fill = true)
    {ws : List (Write E.T)} {σ : Store} (hreach : Reaches ds ws σ) {c : List Nat}
    (hc : InGrid ds.shape ds.chunkShape c) :
    σ (ds.chunkKey c) = none ↔
      ∀ x, InRegion x (mulV c ds.chunkShape) (ds.stored c) →
        E.ceq (replay (fun _ => ds.fill) ws x) ds.fill = true :=
  blob_none_iff hf (β := fun c => σ (ds.chunkKey c)) (reaches_refines h hw hreach) (reaches_sparse h hw hreach) hc

/-- **C12, region writes only**: a chunk has a file iff some array element of the chunk differs (`!=`) from
the fill value. -/
theorem c12_stored_iff_region (h : ds.WF) (hw : ds.canWrite = true)
    (hf : E.ceq ds.fill ds.fill = true) {ws : List (Write E.T)} {σ : Store}
    (hreach : Reaches ds ws σ) (hws : ∀ w ∈ ws, RegionOk ds.shape w.off w.shape) {c : List Nat}
    (hc : InGrid ds.shape ds.chunkShape c) :
    σ (ds.chunkKey c) ≠ none ↔
      ∃ x, InChunk ds.shape ds.chunkShape c x ∧
        E.ceq (replay (fun _ => ds.fill) ws x) ds.fill = false :=
  blob_some_iff hf (β := fun c => σ (ds.chunkKey c)) (reaches_refines h hw hreach) (reaches_sparse h hw hreach) hws hc

/-- With a NaN fill value (`fill != fill`) a chunk of fill values *is* stored. -/
theorem c12_nan_counterexample : ∃ (E : Elem) (C : Codec) (h : ChunkShapes) (fill : E.T) (b : Bytes),
    dataToBuffer E C h [fill, fill] fill false 0 = .ok (some b) :=
  ⟨{ U16 with ceq := fun _ _ => false }, .raw, ⟨true, [2], [2]⟩, (0 : Fin (256 ^ 2)), [0, 0, 0, 0],
    by decide +kernel⟩

example : (U16.ceq (exDataset true).fill (exDataset true).fill) = true ∧
    InGrid (exDataset true).shape (exDataset true).chunkShape [2, 1] := by decide

/-! ## C34 -/

/-- **C34.** Chunk-level and region-level reads agree: after any history, for every chunk of the grid,
either the chunk has no file, `chunkExists` says so, `readChunk` throws, and all its elements read as the
fill value; or `chunkExists` is true and `readChunk` delivers into any buffer of the stored size the
elements that region reads deliver. -/
theorem c34_chunk_region_agree (h : ds.WF) (hw : ds.canWrite = true) {ws : List (Write E.T)}
    {σ : Store} (hreach : Reaches ds ws σ) :
    ∃ A, ReadsAs ds σ A ∧ ∀ c, InGrid ds.shape ds.chunkShape c →
      ∀ dest : List E.T, dest.length = prod (ds.stored c) →
      (run (ds.chunkExists c) σ = (.ok false, σ) ∧
        run (ds.readChunk c dest) σ = (.throw .runtimeError, σ) ∧
        ∀ x, InChunk ds.shape ds.chunkShape c x → A x = ds.fill) ∨
      (run (ds.chunkExists c) σ = (.ok true, σ) ∧
        ∃ content, run (ds.readChunk c dest) σ = (.ok (false, content), σ) ∧
          content.length = prod (ds.stored c) ∧
          ∀ i, InBox i (extV ds.shape ds.chunkShape c) →
            content[ravel (ds.stored c) i]? = some (A (addV (mulV c ds.chunkShape) i))) := by
  obtain ⟨A, hA, _⟩ := reaches_refines h hw hreach
  refine ⟨A, holds_readsAs h hA, ?_⟩
  intro c hc dest hl
  have hb := hA c hc
  have hex := run_of_touches (touches_chunkExists ds c) σ
  have hrd := run_of_touches (touches_readChunk ds c dest) σ
  rw [chunkExists_exec h hc, upd_self] at hex
  cases hv : σ (ds.chunkKey c) with
  | none =>
    left
    rw [hv] at hb hex hrd
    refine ⟨hex, ?_, fun x hx => hb x (.of_inChunk hx)⟩
    rw [hrd, Dataset.readChunk, h.handle_eq hc, bind_ok, h.checkChunk_ok hc, bind_ok,
      exec1_bind_ok (exec1_read ..)]
    show (Res.throw Err.runtimeError, σ.upd (ds.chunkKey c) none) = _
    rw [← hv, upd_self]
  | some b =>
    right
    rw [hv] at hb hex hrd
    obtain ⟨content, hd, hr⟩ := hb
    refine ⟨hex, content, ?_, hr.1, ?_⟩
    · rw [hrd, readChunk_exec h hc hd dest hl]
      show (_, σ.upd (ds.chunkKey c) (some b)) = _
      rw [← hv, upd_self]
    · intro i hi
      have hll := length_extV hc
      have hdl := dims_length hc
      have hx : InChunk ds.shape ds.chunkShape c (addV (mulV c ds.chunkShape) i) :=
        (inChunk_iff_region hc).2 (inRegion_add hi (by omega))
      have h1 := hr.2 _ (.of_inChunk hx)
      rw [subV_addV (by rw [hi.length_eq]; omega)] at h1
      exact h1

/-- **C34.** `chunkExists` after region writes: true iff the chunk has an element different from the fill
value. -/
theorem c34_chunkExists_iff (h : ds.WF) (hw : ds.canWrite = true)
    (hf : E.ceq ds.fill ds.fill = true) {ws : List (Write E.T)} {σ : Store}
    (hreach : Reaches ds ws σ) (hws : ∀ w ∈ ws, RegionOk ds.shape w.off w.shape) {c : List Nat}
    (hc : InGrid ds.shape ds.chunkShape c) :
    run (ds.chunkExists c) σ = (.ok true, σ) ↔
      ∃ x, InChunk ds.shape ds.chunkShape c x ∧
        E.ceq (replay (fun _ => ds.fill) ws x) ds.fill = false := by
  rw [← c12_stored_iff_region h hw hf hreach hws hc]
  have hex := run_of_touches (touches_chunkExists ds c) σ
  rw [chunkExists_exec h hc, upd_self] at hex
  rw [hex]
  cases σ (ds.chunkKey c) <;> simp

example : InBox [0, 0] (extV (exDataset false).shape (exDataset false).chunkShape [2, 1]) ∧
    (exDataset false).stored [2, 1] = [1, 1] ∧ (exDataset true).stored [2, 1] = [2, 2] := by decide

end Z5.Props
