import Verif.Proofs.Exchange

/-!
# C81: the stored form of arrays is that of zarr and N5
-/

namespace Z5.Props
open Z5 Spec Prog

variable {E : Elem} {ds : Dataset E} {sd : ShardedDataset E}

theorem replay_congr {T : Type} {x : List Nat} : ∀ (ws : List (Write T)) {A B : List Nat → T}, A x = B x →
    replay A ws x = replay B ws x
  | [], _, _, h => h
  | w :: ws, A, B, h => replay_congr ws (by simp only [override, h])

theorem updates_refines (h : ds.WF) (hw : ds.canWrite = true) {ws : List (Write E.T)} {σ σ' : Store}
    {A : List Nat → E.T} (hA : Holds ds σ A) (hu : Updates ds ws σ σ') : Refines ds σ' (replay A ws) := by
  induction hu with
  | nil => exact ⟨A, hA, fun _ _ _ _ => Or.inl rfl⟩
  | step _ hp ih =>
    rw [replay_append]
    exact performs_refines h hp hw (ih hA)

theorem reaches_updates {ws : List (Write E.T)} {σ : Store} (hr : Reaches ds ws σ) :
    ∃ σ₀, (∀ c, InGrid ds.shape ds.chunkShape c → σ₀ (ds.chunkKey c) = none) ∧ Updates ds ws σ₀ σ := by
  induction hr with
  | empty he => exact ⟨_, he, .nil⟩
  | step _ hp ih =>
    obtain ⟨σ₀, h1, h2⟩ := ih
    exact ⟨σ₀, h1, .step h2 hp⟩

/-! ## zarr -/

/-- the array of zarr that the dataset object describes -/
abbrev ZarrFiles (ds : Dataset E) (σ : Store) (A : List Nat → E.T) : Prop :=
  IsZarrArray E ds.shape ds.chunkShape (zarrName ds.key.zarrFormat ds.key.encoding ds.key.delimiter) ds.codec ds.fill σ A

theorem zarrFiles_of_holds (h : ds.WF) (hz : ds.isZarr = true) {σ : Store} {A : List Nat → E.T} (hA : Holds ds σ A) :
    ZarrFiles ds σ A := by
  refine zarr_of_holdsB h hz fun c hc => ?_
  rw [← zarrChunkName_eq hz]
  exact hA c hc

theorem holds_of_zarrFiles (h : ds.WF) (hz : ds.isZarr = true) {σ : Store} {A : List Nat → E.T}
    (hA : ZarrFiles ds σ A) : ∃ P, (∀ x, InBox x ds.shape → P x = A x) ∧ Holds ds σ P := by
  obtain ⟨P, hP, hB⟩ := holdsB_of_zarr h hz hA
  refine ⟨P, hP, fun c hc => ?_⟩
  have : BlobOk ds c (σ (zarrName ds.key.zarrFormat ds.key.encoding ds.key.delimiter c)) P := hB c hc
  rw [← zarrChunkName_eq hz] at this
  exact this

/-- **C81, zarr.** Whoever wrote the files: if they are an array of zarr, it is read with exactly its elements. -/
theorem c81_read_zarr (h : ds.WF) (hz : ds.isZarr = true) {σ : Store} {A : List Nat → E.T}
    (hA : ZarrFiles ds σ A) : ReadsAs ds σ A := by
  obtain ⟨P, hP, hB⟩ := holds_of_zarrFiles h hz hA
  exact readsAs_congr (holds_readsAs h hB) hP

/-- **C81, zarr.** Any sequence of successful calls on an array of zarr leaves an array of zarr, whose elements are the
previous ones with the writes applied. -/
theorem c81_update_zarr (h : ds.WF) (hz : ds.isZarr = true) (hw : ds.canWrite = true) {ws : List (Write E.T)}
    {σ σ' : Store} {A : List Nat → E.T} (hA : ZarrFiles ds σ A) (hu : Updates ds ws σ σ') :
    ∃ A', ZarrFiles ds σ' A' ∧ ∀ x, InBox x ds.shape → SameOrFill E.ceq ds.fill (A' x) (replay A ws x) := by
  obtain ⟨P, hP, hB⟩ := holds_of_zarrFiles h hz hA
  obtain ⟨A', h1, h2⟩ := updates_refines h hw hB hu
  refine ⟨A', zarrFiles_of_holds h hz h1, fun x hx => ?_⟩
  have hch := (inChunk_iff_div (c := divV x ds.chunkShape) h.dims.axes).2 ⟨hx, rfl⟩
  rw [← replay_congr ws (hP x hx)]
  exact h2 _ x (inGrid_of_inChunk hch) (.of_inChunk hch)

/-- **C81, zarr.** What was written to a new array is an array of zarr with the written elements. -/
theorem c81_written_zarr (h : ds.WF) (hz : ds.isZarr = true) (hw : ds.canWrite = true) {ws : List (Write E.T)}
    {σ : Store} (hr : Reaches ds ws σ) :
    ∃ A, ZarrFiles ds σ A ∧
      ∀ x, InBox x ds.shape → SameOrFill E.ceq ds.fill (A x) (replay (fun _ => ds.fill) ws x) := by
  obtain ⟨σ₀, h1, h2⟩ := reaches_updates hr
  refine c81_update_zarr h hz hw (zarrFiles_of_holds h hz fun c hc => ?_) h2
  rw [h1 c hc]
  exact fun _ _ => rfl

/-! ## N5 -/

/-- the array of N5 that the dataset object describes; N5 has the axes in reversed order -/
abbrev N5Files (ds : Dataset E) (σ : Store) (A : List Nat → E.T) : Prop :=
  IsN5Array E ds.shape.reverse ds.chunkShape.reverse ds.codec ds.fill σ fun y => A y.reverse

/-- **C81, N5.** Whoever wrote the files: if they are an array of N5, it is read with exactly its elements. -/
theorem c81_read_n5 (h : ds.WF) (hz : ds.isZarr = false) {σ : Store} {A : List Nat → E.T}
    (hA : N5Files ds σ A) : ReadsAs ds σ A := holds_readsAs h ((n5_iff_holds h hz).1 hA)

/-- **C81, N5.** Any sequence of successful calls on an array of N5 leaves an array of N5, whose elements are the
previous ones with the writes applied. -/
theorem c81_update_n5 (h : ds.WF) (hz : ds.isZarr = false) (hw : ds.canWrite = true) {ws : List (Write E.T)}
    {σ σ' : Store} {A : List Nat → E.T} (hA : N5Files ds σ A) (hu : Updates ds ws σ σ') :
    ∃ A', N5Files ds σ' A' ∧ ∀ x, InBox x ds.shape → SameOrFill E.ceq ds.fill (A' x) (replay A ws x) := by
  obtain ⟨A', h1, h2⟩ := updates_refines h hw ((n5_iff_holds h hz).1 hA) hu
  refine ⟨A', (n5_iff_holds h hz).2 h1, fun x hx => ?_⟩
  have hch := (inChunk_iff_div (c := divV x ds.chunkShape) h.dims.axes).2 ⟨hx, rfl⟩
  exact h2 _ x (inGrid_of_inChunk hch) (.of_inChunk hch)

/-- **C81, N5.** What was written to a new array is an array of N5 with the written elements. -/
theorem c81_written_n5 (h : ds.WF) (hz : ds.isZarr = false) (hw : ds.canWrite = true) {ws : List (Write E.T)}
    {σ : Store} (hr : Reaches ds ws σ) :
    ∃ A, N5Files ds σ A ∧
      ∀ x, InBox x ds.shape → SameOrFill E.ceq ds.fill (A x) (replay (fun _ => ds.fill) ws x) := by
  obtain ⟨σ₀, h1, h2⟩ := reaches_updates hr
  refine c81_update_n5 h hz hw ((n5_iff_holds h hz (A := fun _ => ds.fill)).2 fun c hc => ?_) h2
  rw [h1 c hc]
  exact fun _ _ => rfl

/-- **C81.** A valid region write to an array of zarr or N5 that some other program wrote has no undefined behaviour, and
succeeds if the compressor does. -/
theorem c81_write_succeeds (h : ds.WF) (hw : ds.canWrite = true) {σ : Store} {A : List Nat → E.T}
    (hA : if ds.isZarr then ZarrFiles ds σ A else N5Files ds σ A) {call : RegionCall E} (hv : call.Valid ds)
    (scratch : Nat → List E.T) :
    ∃ ts, call.start ds scratch = .ok ts ∧
      ∀ is rs, Finished (interleave is (ts, σ)).1 rs →
        (∀ r ∈ rs, r ≠ .ub) ∧ (ds.codec.TotalFor (prod ds.chunkShape * E.size) → ∀ r ∈ rs, r = .ok ()) := by
  have hσ : ∃ P, Holds ds σ P := by
    cases hz : ds.isZarr with
    | true =>
      rw [hz] at hA
      obtain ⟨P, _, hB⟩ := holds_of_zarrFiles h hz hA
      exact ⟨P, hB⟩
    | false =>
      rw [hz] at hA
      exact ⟨A, (n5_iff_holds h hz).1 hA⟩
  obtain ⟨P, hP⟩ := hσ
  have hσ : Refines ds σ P := ⟨P, hP, fun _ _ _ _ => Or.inl rfl⟩
  have hj : call.start ds scratch = .ok ((ds.jobs call.request call.off call.shape scratch).map Prod.snd) := by
    rw [← writeRegion_jobs h hv.1]
    cases call <;> rfl
  have hj' := writeRegion_jobs h hv.1 call.request scratch
  exact ⟨_, hj, fun is rs hfin => ⟨(writeRegion_refines h hw hv.1 (RegionCall.spec hv) hσ hj' hfin).1, fun hC =>
    writeRegion_total h hw hC hv.1 (RegionCall.spec hv) hσ hfin⟩⟩

/-- The theorems apply: the files of the 5×3 example after two overlapping writes are an array of zarr, one of N5. -/
example : ∃ σ A, ZarrFiles (exDataset true) σ A ∧ ReadsAs (exDataset true) σ A ∧ A [2, 1] = (9 : Fin (256 ^ 2)) := by
  obtain ⟨σ, hσ⟩ := exDataset_reaches true
  obtain ⟨A, h1, h2⟩ := c81_written_zarr (exDataset_wf true) rfl rfl hσ
  exact ⟨σ, A, h1, c81_read_zarr (exDataset_wf true) rfl h1,
    (faithful_eq u16_faithful (h2 [2, 1] (by decide))).trans rfl⟩

example : ∃ σ A, N5Files (exDataset false) σ A ∧ ReadsAs (exDataset false) σ A ∧ A [2, 1] = (9 : Fin (256 ^ 2)) := by
  obtain ⟨σ, hσ⟩ := exDataset_reaches false
  obtain ⟨A, h1, h2⟩ := c81_written_n5 (exDataset_wf false) rfl rfl hσ
  exact ⟨σ, A, h1, c81_read_n5 (exDataset_wf false) rfl h1,
    (faithful_eq u16_faithful (h2 [2, 1] (by decide))).trans rfl⟩

/-- an array to look at: element (i, j) is 256 i + j -/
def exElements (x : List Nat) : Fin (256 ^ 2) :=
  match x with
  | [i, j] => Fin.ofNat (256 ^ 2) (256 * i + j)
  | _ => 0

/-- A chunk of zarr, byte by byte: chunk (2, 1) has the rows 4 and 5 (outside of the array) and the columns 2 and 3
(outside of the array). -/
example : IsZarrChunk U16 [2, 2] .raw exElements [2, 1] [2, 4, 3, 4, 2, 5, 3, 5] := by
  unfold IsZarrChunk Encodes
  decide +kernel

/-- The same of N5, which calls it block (1, 2): a header with the extents 1 × 1 and the only element, in big endian. -/
example : n5Name [1, 2] = "1/2".toList ∧ extV [3, 5] [2, 2] [1, 2] = [1, 1] ∧
    ([0, 0, 0, 2, 0, 0, 0, 1, 0, 0, 0, 1, 4, 2] : Bytes) = be 2 0 ++ be 2 2 ++ [1, 1].flatMap (be 4) ++ [4, 2] ∧
    Encodes .raw [4, 2] ((fOrder [1, 1]).flatMap fun i =>
      (U16.toBytes (exElements (addV (mulV [1, 2] [2, 2]) i).reverse)).reverse) := by
  refine ⟨by decide, by decide, by decide, ?_⟩
  unfold Encodes
  decide +kernel

/-- Orders and names -/
example : cOrder [2, 2] = [[0, 0], [0, 1], [1, 0], [1, 1]] ∧ fOrder [2, 2] = [[0, 0], [1, 0], [0, 1], [1, 1]] ∧
    v2Name ['.'] [2, 1] = "2.1".toList ∧ v3Name ['/'] [2, 1] = "c/2/1".toList := by decide

/-! ## shards -/

/-- the array of zarr v3 with shards that the dataset object describes -/
abbrev ShardFiles (sd : ShardedDataset E) (σ : Store) (A : List Nat → E.T) : Prop :=
  IsShardedArray E sd.shape sd.chunkShape (List.zipWith (· / ·) sd.shardShape sd.chunkShape)
    (zarrName sd.key.zarrFormat sd.key.encoding sd.key.delimiter) sd.codec sd.fill σ A

theorem shardFiles_iff (h : sd.WF) {σ : Store} {A : List Nat → E.T} : ShardFiles sd σ A ↔
    IsShardedArray E sd.shape sd.chunkShape sd.cps (zarrName sd.key.zarrFormat sd.key.encoding sd.key.delimiter)
      sd.codec sd.fill σ A := by
  rw [h.made_eqs.2.1]

/-- **C81, shards.** Whoever wrote the files: if they are an array of zarr v3 with shards, it is read with exactly its
elements. -/
theorem c81_read_sharded (h : sd.WF) {σ : Store} {A : List Nat → E.T} (hA : ShardFiles sd σ A) :
    ShardedReadsAs sd σ A := by
  obtain ⟨hv, P, hP, hB⟩ := holds_of_sharded h ((shardFiles_iff h).1 hA)
  exact shardedReadsAs_congr (sholds_readsAs h hv hB) hP

/-- **C81, shards.** Any sequence of successful calls on an array of zarr v3 with shards leaves such an array, whose
elements are the previous ones with the writes applied. -/
theorem c81_update_sharded (h : sd.WF) (hw : sd.canWrite = true) {ws : List (Write E.T)} {σ σ' : Store}
    {A : List Nat → E.T} (hA : ShardFiles sd σ A) (hu : ShardedUpdates sd ws σ σ') :
    ∃ A', ShardFiles sd σ' A' ∧ ∀ x, InBox x sd.shape → SameOrFill E.ceq sd.fill (A' x) (replay A ws x) := by
  obtain ⟨hv, P, hP, hB⟩ := holds_of_sharded h ((shardFiles_iff h).1 hA)
  have : sd.SRefines σ' (replay P ws) := by
    clear hA
    induction hu with
    | nil => exact ⟨hv, P, hB, fun _ _ _ _ => Or.inl rfl⟩
    | step _ hp ih =>
      rw [replay_append]
      exact ShardedDataset.performs_refines h hp hw (ih hv hB)
  obtain ⟨hv', A', h1, h2⟩ := this
  refine ⟨A', (shardFiles_iff h).2 (sharded_of_holds h hv' h1), fun x hx => ?_⟩
  rw [← replay_congr ws (hP x hx)]
  exact refinesB_inBox h h2 x hx

/-- **C81, shards.** What was written to a new array is an array of zarr v3 with shards. -/
theorem c81_written_sharded (h : sd.WF) (hw : sd.canWrite = true) {ws : List (Write E.T)} {σ : Store}
    (hr : ShardedReaches sd ws σ) :
    ∃ A, ShardFiles sd σ A ∧
      ∀ x, InBox x sd.shape → SameOrFill E.ceq sd.fill (A x) (replay (fun _ => sd.fill) ws x) := by
  obtain ⟨hv, A, h1, h2⟩ := ShardedDataset.reaches_refines h hw hr
  exact ⟨A, (shardFiles_iff h).2 (sharded_of_holds h hv h1), refinesB_inBox h h2⟩

/-- **C81, shards.** A valid region write to an array with shards that some other program wrote has no undefined
behaviour; it can fail only if the compressor does or a shard would have 2^63 bytes. -/
theorem c81_write_succeeds_sharded (h : sd.WF) (hw : sd.canWrite = true) {σ : Store} {A : List Nat → E.T}
    (hA : ShardFiles sd σ A) {call : RegionCall E} (hv : call.Valid sd.toDataset) (scratch : Nat → List E.T) :
    ∃ ts, call.startSharded sd scratch = .ok ts ∧
      ∀ is rs, Finished (interleave is (ts, σ)).1 rs →
        (∀ r ∈ rs, r ≠ .ub) ∧ (sd.codec.TotalFor (prod sd.chunkShape * E.size) →
          ∀ r ∈ rs, r = .ok () ∨ r = .throw .lengthError) := by
  obtain ⟨hval, P, _, hB⟩ := holds_of_sharded h ((shardFiles_iff h).1 hA)
  have hσ : sd.SRefines σ P := ⟨hval, P, hB, fun _ _ _ _ => Or.inl rfl⟩
  rw [ShardedDataset.startSharded_eq]
  have hj := ShardedDataset.writeRegion_jobs h hw hv.1 call.request scratch
  exact ⟨_, hj, fun is rs hf => ⟨(ShardedDataset.writeRegion_refines h hw hv.1 (RegionCall.spec hv) hσ hj hf).1,
    fun hC => ShardedDataset.writeRegion_total h hw hC hv.1 (RegionCall.spec hv) hσ hf⟩⟩

/-- The theorems apply. -/
example : ∃ A, ShardFiles exSharded exShardedStore A ∧ ShardedReadsAs exSharded exShardedStore A ∧
    A [4] = (9 : Fin (256 ^ 1)) := by
  obtain ⟨A, h1, h2⟩ := c81_written_sharded exSharded_wf rfl exSharded_reaches
  exact ⟨A, h1, c81_read_sharded exSharded_wf h1, (faithful_eq u8_faithful (h2 [4] (by decide))).trans rfl⟩

/-- A shard that this library would not write: the chunks are stored in another order and with a gap. -/
example : IsShard 3
    ([8, 9, 255, 5, 6, 7] ++ ([3, 0, 0, 0, 0, 0, 0, 0, 3, 0, 0, 0, 0, 0, 0, 0] ++
      List.replicate 16 255 ++ [0, 0, 0, 0, 0, 0, 0, 0, 2, 0, 0, 0, 0, 0, 0, 0]) ++
      le 4 (Spec.crc32c ([3, 0, 0, 0, 0, 0, 0, 0, 3, 0, 0, 0, 0, 0, 0, 0] ++
      List.replicate 16 255 ++ [0, 0, 0, 0, 0, 0, 0, 0, 2, 0, 0, 0, 0, 0, 0, 0])).toNat)
    (fun k => ([some [5, 6, 7], none, some [8, 9]] : List (Option Bytes))[k]?.join) := by
  refine ⟨[8, 9, 255, 5, 6, 7], [(3, 3), (2 ^ 64 - 1, 2 ^ 64 - 1), (0, 2)], rfl, by decide +kernel, ?_⟩
  intro k o l hk
  match k, hk with
  | 0, hk => cases hk; exact ⟨by decide, by decide, by decide, by decide, rfl⟩
  | 1, hk => cases hk; exact ⟨rfl, rfl⟩
  | 2, hk => cases hk; exact ⟨by decide, by decide, by decide, by decide, rfl⟩

end Z5.Props
