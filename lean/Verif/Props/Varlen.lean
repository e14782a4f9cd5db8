import Verif.Props.ChunkApi
import Verif.Proofs.Region

/-!
# Property C41: chunks of variable length (N5)
-/

namespace Z5.Props
open Spec Prog

variable {E : Elem} {ds : Dataset E}

/-- In the store `σ`, chunk `c` is a chunk of variable length with the elements `data`: it exists, it is
reported as such with its length (if it is in a file: on S3 no chunk is), reading it into any buffer that is large enough gives the elements
(and leaves the rest of the buffer alone), and nothing of this changes the store. -/
def HoldsVarlen (ds : Dataset E) (σ : Store) (c : List Nat) (data : List E.T) : Prop :=
  run (ds.chunkExists c) σ = (.ok true, σ) ∧
  (ds.backend = .files → run (ds.checkVarlenChunk c) σ = (.ok (true, data.length), σ)) ∧
  ∀ buf rest : List E.T, buf.length = data.length →
    run (ds.readChunk c (buf ++ rest)) σ = (.ok (true, data ++ rest), σ)

/-- the bytes `b` are a varlen N5 chunk with elements `data` -/
structure DecodesVarlen (ds : Dataset E) (b : Bytes) (data : List E.T) : Prop where
  header : ∃ hl, readN5Header b = .ok (true, data.length, hl) ∧
    ∀ dest : List E.T, dest.length = data.length →
      decompress E ds.codec (b.drop hl) dest data.length = .ok (data.map (revElem E))
  mode : readVarlenFromHeader b = .ok (some data.length)

theorem dataToBuffer_varlen (h : ds.WF) (hz : ds.isZarr = false) {c : List Nat}
    (hc : InGrid ds.shape ds.chunkShape c) (data : List E.T) (hpos : 0 < data.length)
    (hn : data.length < 2 ^ 32) (hb : data.length * E.size < 2 ^ 64) (hlaw : ds.codec.LawfulFor (data.length * E.size)) :
    let r := dataToBuffer E ds.codec ⟨ds.isZarr, ds.chunkShape, extV ds.shape ds.chunkShape c⟩ data
      ds.fill true data.length
    (∃ e, r = .throw e) ∨ ∃ b, r = .ok (some b) ∧ DecodesVarlen ds b data := by
  have hl := length_extV hc
  have hdl := dims_length hc
  have hd : (extV ds.shape ds.chunkShape c).length < 2 ^ 16 := by have := (h.n5 hz).1; omega
  have he : dataToBuffer E ds.codec ⟨ds.isZarr, ds.chunkShape, extV ds.shape ds.chunkShape c⟩ data
      ds.fill true data.length = (do
        let b ← dataToN5Format E ds.codec data data.length (extV ds.shape ds.chunkShape c) true
        return some b) := by
    unfold dataToBuffer
    simp only [hz, Bool.and_false, Bool.false_eq_true, if_false, Bool.not_true, if_true]
    rw [if_neg (by omega)]
  intro r
  have hr : r = _ := he
  rw [hr, dataToN5Format_eq ds.codec data data.length _ true rfl]
  rcases compress_cases ds.codec hlaw (data.map (revElem E)) data.length (by simp) (Nat.le_refl _) hb hpos with
    ⟨e, hthrow⟩ | ⟨b, hok, _, _, hdec⟩
  · rw [hthrow]; exact .inl ⟨e, rfl⟩
  · refine .inr ⟨_, by rw [hok]; rfl, ?_, ?_⟩
    · refine ⟨_, by
        rw [readN5Header_write _ true _ _ hd]
        simp only [if_true]
        rw [Nat.mod_eq_of_lt hn], ?_⟩
      intro dest hdl'
      rw [List.drop_left' (by rw [length_writeN5Header]; rfl)]
      exact hdec dest hdl'
    · rw [readVarlenFromHeader_write _ true _ _ hd hn]; rfl

theorem bufferToData_varlen (hz : ds.isZarr = false) {b : Bytes} {data : List E.T}
    (hd : DecodesVarlen ds b data) (ext : List Nat) (dest extra : List E.T)
    (hl : dest.length = data.length) :
    bufferToData E ds.codec ⟨ds.isZarr, ds.chunkShape, ext⟩ b (dest ++ extra) =
      .ok (true, data ++ extra) := by
  unfold bufferToData
  obtain ⟨n, hn, hdec⟩ := hd.header
  have := decompress_append extra (hdec dest hl)
  simp only [hz, hn, Res.ok_bind, this, Bool.not_false, Bool.true_and, decide_eq_true_eq]
  rw [if_neg (by decide)]
  by_cases hE : E.size > 1
  · rw [if_pos hE, revPrefix, if_neg (by simp), List.take_append_of_le_length (by simp),
      List.take_of_length_le (by simp), List.drop_append_of_le_length (by simp),
      List.drop_of_length_le (by simp), List.nil_append, List.map_map]
    have : revElem E ∘ revElem E = id := by funext x; exact revElem_revElem E x
    rw [this, List.map_id]; rfl
  · rw [if_neg hE, map_revElem_one hE]; rfl

theorem readChunk_varlen (h : ds.WF) (hz : ds.isZarr = false) {c : List Nat}
    (hc : InGrid ds.shape ds.chunkShape c) {b : Bytes} {data : List E.T} (hd : DecodesVarlen ds b data)
    (dest extra : List E.T) (hl : dest.length = data.length) :
    exec1 (ds.readChunk c (dest ++ extra)) (some b) = (.ok (true, data ++ extra), some b) := by
  rw [Dataset.readChunk, h.handle_eq hc, bind_ok, h.checkChunk_ok hc, bind_ok,
    exec1_bind_ok (exec1_read ..)]
  show exec1 (.ret (bufferToData E ds.codec _ b _)) (some b) = _
  rw [bufferToData_varlen hz hd _ dest extra hl]; rfl

theorem checkChunk_varlen (h : ds.WF) (hz : ds.isZarr = false) {c : List Nat}
    (hc : InGrid ds.shape ds.chunkShape c) : ds.checkChunk c true = .ok () := by
  unfold Dataset.checkChunk
  rw [(h.checkBlock c).2 hc, hz]
  rfl

/-- what a varlen write does to the file of the chunk -/
theorem writeChunk_varlen (h : ds.WF) (hw : ds.canWrite = true) (hz : ds.isZarr = false) {c : List Nat}
    (hc : InGrid ds.shape ds.chunkShape c) (data : List E.T) (hpos : 0 < data.length)
    (hn : data.length < 2 ^ 32) (hb : data.length * E.size < 2 ^ 64) (hlaw : ds.codec.LawfulFor (data.length * E.size)) (v : Option Bytes) :
    (∃ e, exec1 (ds.writeChunk c data true data.length) v = (.throw e, v)) ∨
    ∃ b, exec1 (ds.writeChunk c data true data.length) v = (.ok (), some b) ∧
      DecodesVarlen ds b data := by
  unfold Dataset.writeChunk
  rw [hw, h.handle_eq hc, checkChunk_varlen h hz hc]
  simp only [Bool.not_true, Bool.false_eq_true, if_false, bind_ok]
  rcases dataToBuffer_varlen h hz hc data hpos hn hb hlaw with ⟨e, he⟩ | ⟨b, he, hd⟩
  · rw [he]; exact .inl ⟨e, rfl⟩
  · rw [he]; exact .inr ⟨b, by simp only [bind_ok]; exact exec1_write .., hd⟩

theorem holdsVarlen_of_decodes (h : ds.WF) (hz : ds.isZarr = false) {c : List Nat}
    (hc : InGrid ds.shape ds.chunkShape c) {σ : Store} {b : Bytes} (hb : σ (ds.chunkKey c) = some b)
    {data : List E.T} (hd : DecodesVarlen ds b data) : HoldsVarlen ds σ c data := by
  have hex : run (ds.chunkExists c) σ = (.ok true, σ) := by
    rw [run_of_touches (touches_chunkExists ds c), chunkExists_exec h hc, hb]
    exact Prod.ext rfl (by rw [← hb]; exact upd_self ..)
  refine ⟨hex, ?_, ?_⟩
  · intro hf
    have ht : TouchesOnly (ds.chunkKey c) (ds.checkVarlenChunk c) := by
      unfold Dataset.checkVarlenChunk
      rw [h.handle_eq hc, bind_ok, if_neg (by simp [hz, hf])]
      refine (touches_exists _).bind fun a => ?_
      cases a
      · exact TouchesOnly.ret _
      · refine (touches_peek _).bind fun o => ?_
        cases o with
        | none => exact TouchesOnly.ret _
        | some b => exact (TouchesOnly.ret _).bind fun o => by cases o <;> exact TouchesOnly.ret _
    have he : exec1 (ds.checkVarlenChunk c) (some b) = (.ok (true, data.length), some b) := by
      unfold Dataset.checkVarlenChunk
      rw [h.handle_eq hc, bind_ok, if_neg (by simp [hz, hf]), exec1_bind_ok (exec1_exists ..)]
      simp only [Option.isSome_some, Bool.not_true, Bool.false_eq_true, if_false]
      rw [exec1_bind_ok (exec1_peek ..)]
      simp only [hd.mode]
      rfl
    rw [run_of_touches ht, hb, he]
    exact Prod.ext rfl (by rw [← hb]; exact upd_self ..)
  · intro buf rest hl
    rw [run_of_touches (touches_readChunk ds c _), hb, readChunk_varlen h hz hc hd buf rest hl]
    exact Prod.ext rfl (by rw [← hb]; exact upd_self ..)

/-- C41: a chunk written with variable length `n = data.length` is reported as such with length `n` and reads
back exactly the `n` elements; the write changes no other file. -/
theorem c41_roundtrip (h : ds.WF) (hw : ds.canWrite = true) (hz : ds.isZarr = false) {c : List Nat}
    (hc : InGrid ds.shape ds.chunkShape c) {data : List E.T} (hpos : 0 < data.length)
    (hn : data.length < 2 ^ 32) (hb : data.length * E.size < 2 ^ 64) (hlaw : ds.codec.LawfulFor (data.length * E.size)) {σ σ' : Store}
    (hrun : run (ds.writeChunk c data true data.length) σ = (.ok (), σ')) :
    HoldsVarlen ds σ' c data ∧ ∀ k, k ≠ ds.chunkKey c → σ' k = σ k := by
  rw [run_of_touches (touches_writeChunk ds c data true _)] at hrun
  rcases writeChunk_varlen h hw hz hc data hpos hn hb hlaw (σ (ds.chunkKey c)) with ⟨e, he⟩ | ⟨b, he, hd⟩
  · rw [he] at hrun; cases hrun
  · rw [he] at hrun
    have hσ : σ' = σ.upd (ds.chunkKey c) (some b) := (Prod.ext_iff.1 hrun).2.symm
    subst hσ
    exact ⟨holdsVarlen_of_decodes h hz hc (upd_same ..) hd, fun k hk => upd_other _ _ hk⟩

/-- C41: with a compressor that reports no errors the write succeeds. -/
theorem c41_write_succeeds (h : ds.WF) (hw : ds.canWrite = true) (hz : ds.isZarr = false)
    {c : List Nat} (hc : InGrid ds.shape ds.chunkShape c) {data : List E.T} (hC : ds.codec.TotalFor (data.length * E.size))
    (hpos : 0 < data.length) (hn : data.length < 2 ^ 32) (hb : data.length * E.size < 2 ^ 64) (hlaw : ds.codec.LawfulFor (data.length * E.size)) (σ : Store) :
    ∃ σ', run (ds.writeChunk c data true data.length) σ = (.ok (), σ') := by
  rw [run_of_touches (touches_writeChunk ds c data true _)]
  rcases writeChunk_varlen h hw hz hc data hpos hn hb hlaw (σ (ds.chunkKey c)) with ⟨e, he⟩ | ⟨b, he, _⟩
  · exfalso
    unfold Dataset.writeChunk at he
    rw [hw, h.handle_eq hc, checkChunk_varlen h hz hc] at he
    simp only [Bool.not_true, Bool.false_eq_true, if_false, bind_ok] at he
    have hd : ∀ e, dataToBuffer E ds.codec ⟨ds.isZarr, ds.chunkShape, extV ds.shape ds.chunkShape c⟩ data
        ds.fill true data.length ≠ .throw e := by
      intro e
      unfold dataToBuffer
      simp only [hz, Bool.and_false, Bool.false_eq_true, if_false, Bool.not_true, if_true]
      rw [if_neg (by omega), dataToN5Format_eq ds.codec data data.length _ true rfl]
      have : ∀ e, compress E ds.codec (data.map (revElem E)) data.length ≠ .throw e :=
        fun e => compress_total hC (by simp) (Nat.le_refl _) hpos e
      intro hthrow
      cases hcmp : compress E ds.codec (data.map (revElem E)) data.length with
      | ok b => rw [hcmp] at hthrow; cases hthrow
      | throw e' => exact this e' hcmp
      | ub => rw [hcmp] at hthrow; cases hthrow
    cases hbuf : dataToBuffer E ds.codec ⟨ds.isZarr, ds.chunkShape, extV ds.shape ds.chunkShape c⟩ data
        ds.fill true data.length with
    | ok o =>
      rw [hbuf] at he
      cases o with
      | none => simp only [bind_ok] at he; rw [exec1_erase] at he; cases he
      | some b => simp only [bind_ok] at he; rw [exec1_write] at he; cases he
    | throw e' => exact hd e' hbuf
    | ub => rw [hbuf] at he; cases he
  · rw [he]; exact ⟨_, rfl⟩

/-- C41: writing length 0 removes the chunk. -/
theorem c41_zero_removes (h : ds.WF) (hw : ds.canWrite = true) (hz : ds.isZarr = false) {c : List Nat}
    (hc : InGrid ds.shape ds.chunkShape c) (data : List E.T) (σ : Store) :
    ∃ σ', run (ds.writeChunk c data true 0) σ = (.ok (), σ') ∧ σ' (ds.chunkKey c) = none ∧
      ∀ k, k ≠ ds.chunkKey c → σ' k = σ k := by
  have he : exec1 (ds.writeChunk c data true 0) (σ (ds.chunkKey c)) = (.ok (), none) := by
    unfold Dataset.writeChunk
    rw [hw, h.handle_eq hc, checkChunk_varlen h hz hc]
    simp only [Bool.not_true, Bool.false_eq_true, if_false, bind_ok, dataToBuffer, hz, Bool.and_false,
      if_true]
    exact exec1_erase ..
  rw [run_of_touches (touches_writeChunk ds c data true _), he]
  exact ⟨_, rfl, upd_same .., fun k hk => upd_other _ _ hk⟩

/-- C41: zarr datasets (plain or sharded) reject varlen writes and stay as they are. -/
theorem c41_zarr_rejects (h : ds.WF) (hw : ds.canWrite = true) (hz : ds.isZarr = true) {c : List Nat}
    (hc : InGrid ds.shape ds.chunkShape c) (data : List E.T) (n : Nat) (σ : Store) :
    run (ds.writeChunk c data true n) σ = (.throw .runtimeError, σ) := by
  have : ds.checkChunk c true = .throw .runtimeError := by
    unfold Dataset.checkChunk
    rw [(h.checkBlock c).2 hc, hz]
    rfl
  unfold Dataset.writeChunk
  rw [hw, h.handle_eq hc, this]
  rfl

theorem c41_sharded_rejects {sd : ShardedDataset E} (h : sd.toDataset.WF) (hw : sd.canWrite = true)
    {c : List Nat} (hc : InGrid sd.shape sd.chunkShape c) (data : List E.T) (σ : Store) :
    run (sd.writeChunk c data true) σ = (.throw .runtimeError, σ) := by
  have : sd.checkChunk c true = .throw .runtimeError := by
    unfold ShardedDataset.checkChunk
    rw [(h.checkBlock c).2 hc]
    rfl
  unfold ShardedDataset.writeChunk
  rw [hw, h.handle_eq hc, this]
  rfl

/-! ### Region access -/

theorem readTask_varlen (h : ds.WF) (hz : ds.isZarr = false) {off c : List Nat} {out : View}
    (hr : RegionOk ds.shape off out.shape) (hc : Touches ds off out.shape c) (scratch : List E.T) {b : Bytes}
    {data : List E.T} (hd : DecodesVarlen ds b data) :
    exec1 (ds.readTask out off out.shape c scratch) (some b) = (.throw .runtimeError, some b) := by
  have hg := hc.inGrid
  have hraw : exec1 (ds.readRawChunk c) (some b) = (.ok b, some b) := by
    rw [Dataset.readRawChunk, h.handle_eq hg, bind_ok, exec1_bind_ok (exec1_read ..)]
    rfl
  obtain ⟨o, ho, hof⟩ := h.overlap hr hc
  obtain ⟨hl, hhd, _⟩ := hd.header
  unfold Dataset.readTask
  rw [ho, bind_ok]
  simp only
  rw [exec1_bind_ok (chunkExists_exec h hg (some b))]
  simp only [Option.isSome_some, Bool.not_true, Bool.false_eq_true, if_false]
  rw [h.getChunkShape_eq hg, bind_ok, exec1_bind_ok hraw]
  simp only [hz, Bool.not_false, if_true, hhd]
  rfl

theorem writeTask_varlen (h : ds.WF) (hz : ds.isZarr = false) {off size c : List Nat}
    (hr : RegionOk ds.shape off size) (hc : Touches ds off size c)
    (hpart : ∃ x, InChunk ds.shape ds.chunkShape c x ∧ ¬ InRegion x off size) (fr : FillRequest E)
    (scratch : List E.T) {b : Bytes} {data : List E.T} (hd : DecodesVarlen ds b data)
    (hfit : data.length ≤ prod (ds.stored c)) :
    exec1 (ds.writeTask fr off size c scratch) (some b) = (.throw .runtimeError, some b) := by
  have hg := hc.inGrid
  obtain ⟨o, ho, hof⟩ := h.overlap hr hc
  have hre : ∀ buf : List E.T, buf.length = prod (ds.stored c) →
      exec1 (ds.readExisting c buf) (some b) = (.throw .runtimeError, some b) := by
    intro buf hb
    rw [Dataset.readExisting, exec1_bind_ok (chunkExists_exec h hg (some b))]
    simp only [Option.isSome_some, Bool.not_true, Bool.false_eq_true, if_false]
    have := readChunk_varlen h hz hg hd (buf.take data.length) (buf.drop data.length)
      (by rw [List.length_take]; omega)
    rw [List.take_append_drop] at this
    rw [exec1_bind_ok this]
    rfl
  have hnc : ¬ (if accumulateMul (extV ds.shape ds.chunkShape c) ≠ ds.chunkSize ∧ ds.isZarr = true
      then false else o.complete) = true := by
    rw [hz]
    rw [if_neg (fun h => absurd h.2 (by decide))]
    intro hco
    obtain ⟨x, hx, hn⟩ := hpart
    exact hn ((hof.complete hco).1 x ((inChunk_iff_region (inGrid_of_inChunk hx)).1 hx))
  unfold Dataset.writeTask
  apply exec1_bind_throw
  unfold Dataset.prepareBuffer
  rw [ho, bind_ok, h.getChunkShape_eq hg, bind_ok]
  simp only [h.shape_choice hg]
  rw [if_neg hnc]
  have hlen := length_resized (E := E) scratch (prod (ds.stored c))
  apply exec1_bind_throw
  exact exec1_bind_throw (hre _ hlen)

/-- what the file of a varlen chunk looks like after the write -/
theorem varlen_written (h : ds.WF) (hw : ds.canWrite = true) (hz : ds.isZarr = false) {c : List Nat}
    (hc : InGrid ds.shape ds.chunkShape c) {data : List E.T} (hpos : 0 < data.length)
    (hn : data.length < 2 ^ 32) (hb : data.length * E.size < 2 ^ 64) (hlaw : ds.codec.LawfulFor (data.length * E.size)) {σ σ' : Store}
    (hrun : run (ds.writeChunk c data true data.length) σ = (.ok (), σ')) :
    ∃ b, σ' (ds.chunkKey c) = some b ∧ DecodesVarlen ds b data := by
  rw [run_of_touches (touches_writeChunk ds c data true _)] at hrun
  rcases writeChunk_varlen h hw hz hc data hpos hn hb hlaw (σ (ds.chunkKey c)) with ⟨e, he⟩ | ⟨b, he, hd⟩
  · rw [he] at hrun; cases hrun
  · rw [he] at hrun
    have hσ : σ' = σ.upd (ds.chunkKey c) (some b) := (Prod.ext_iff.1 hrun).2.symm
    exact ⟨b, by rw [hσ]; exact upd_same .., hd⟩

/-- C41: after a varlen write to chunk `c` (and anything else that leaves the file of `c` alone), every
region read that overlaps `c` fails: under every schedule some task throws, none of them changes the
store. -/
theorem c41_region_read_throws (h : ds.WF) (hw : ds.canWrite = true) (hz : ds.isZarr = false) {c : List Nat}
    (hc : InGrid ds.shape ds.chunkShape c) {data : List E.T} (hpos : 0 < data.length)
    (hn : data.length < 2 ^ 32) (hb : data.length * E.size < 2 ^ 64) (hlaw : ds.codec.LawfulFor (data.length * E.size)) {σ σ₁ σ' : Store}
    (hrun : run (ds.writeChunk c data true data.length) σ = (.ok (), σ₁))
    (hkeep : σ' (ds.chunkKey c) = σ₁ (ds.chunkKey c))
    {off : List Nat} {out : View} (hr : RegionOk ds.shape off out.shape)
    (ht : ∃ x, InRegion x off out.shape ∧ InChunk ds.shape ds.chunkShape c x) (scratch : Nat → List E.T) :
    ∃ ts, ds.readSubarray out off scratch = .ok ts ∧
      ∀ is rs, Finished (interleave is (ts, σ')).1 rs →
        (interleave is (ts, σ')).2 = σ' ∧ .throw .runtimeError ∈ rs := by
  obtain ⟨b, hb', hd⟩ := varlen_written h hw hz hc hpos hn hb hlaw hrun
  have hmem : c ∈ overlapList ds.chunkShape off out.shape := (h.mem_overlap hr).2 ht
  refine ⟨_, by rw [Dataset.readSubarray, h.requestChunks_ok hr]; rfl, ?_⟩
  intro is rs hfin
  have hro : ∀ p ∈ (overlapList ds.chunkShape off out.shape).mapIdx
      (fun i c => ds.readTask out off out.shape c (scratch i)), ReadOnly p := by
    intro p hp
    obtain ⟨i, hi, rfl⟩ := List.mem_mapIdx.1 hp
    exact readOnly_readTask ..
  obtain ⟨h1, h2⟩ := finished_readOnly hro hfin
  refine ⟨h1, ?_⟩
  obtain ⟨i, hi, hic⟩ := List.mem_iff_getElem.1 hmem
  rw [h2]
  refine List.mem_map.2 ⟨_, List.mem_mapIdx.2 ⟨i, hi, rfl⟩, ?_⟩
  rw [hic, run_of_touches (touches_readTask ..) σ', hkeep, hb',
    readTask_varlen h hz hr ht (scratch i) hd]

/-- C41: let a chunk of variable length have at most as many elements as a regular chunk.  Then every region
write that overlaps the chunk without covering it fails and leaves the chunk as it was. -/
theorem c41_partial_write_throws (h : ds.WF) (hw : ds.canWrite = true) (hz : ds.isZarr = false) {c : List Nat}
    (hc : InGrid ds.shape ds.chunkShape c) {data : List E.T} (hpos : 0 < data.length)
    (hn : data.length < 2 ^ 32) (hb : data.length * E.size < 2 ^ 64)
    (hfit : data.length ≤ prod (ds.stored c)) {σ σ₁ σ' : Store}
    (hrun : run (ds.writeChunk c data true data.length) σ = (.ok (), σ₁))
    (hkeep : σ' (ds.chunkKey c) = σ₁ (ds.chunkKey c))
    {call : RegionCall E} (hv : call.Valid ds)
    (ht : ∃ x, InRegion x call.off call.shape ∧ InChunk ds.shape ds.chunkShape c x)
    (hpart : ∃ x, InChunk ds.shape ds.chunkShape c x ∧ ¬ InRegion x call.off call.shape)
    (scratch : Nat → List E.T) :
    ∃ ts, call.start ds scratch = .ok ts ∧
      ∀ is rs, Finished (interleave is (ts, σ')).1 rs →
        .throw .runtimeError ∈ rs ∧ HoldsVarlen ds (interleave is (ts, σ')).2 c data := by
  have hlaw : ds.codec.LawfulFor (data.length * E.size) :=
    h.codec.mono (Nat.mul_le_mul_right _ (Nat.le_trans hfit (h.stored_le hc)))
  obtain ⟨b, hb', hd⟩ := varlen_written h hw hz hc hpos hn hb hlaw hrun
  have hr := hv.1
  refine ⟨_, by rw [RegionCall.start_eq, writeRegion_jobs h hr], ?_⟩
  intro is rs hfin
  obtain ⟨i, hi⟩ := exists_job h hr (RegionCall.request call) scratch ht
  have hok := jobsOk h hr (RegionCall.request call) scratch
  have he := writeTask_varlen h hz hr ht hpart (RegionCall.request call) (scratch i) hd hfit
  rw [← hb', ← hkeep] at he
  obtain ⟨h1, h2⟩ := finished_jobs hok hfin
  refine ⟨?_, ?_⟩
  · rw [h2]
    exact List.mem_map.2 ⟨_, hi, by rw [he]⟩
  · refine holdsVarlen_of_decodes h hz hc ?_ hd
    rw [h1, finalOf_mem hok hi, he, hkeep, hb']

/-! ### A chunk that is larger than a regular one -/

def exVarlen : List U8.T :=
  [(1 : Fin (256 ^ 1)), (2 : Fin (256 ^ 1)), (3 : Fin (256 ^ 1)), (4 : Fin (256 ^ 1)), (5 : Fin (256 ^ 1)),
    (6 : Fin (256 ^ 1)), (7 : Fin (256 ^ 1))]

/-- C41, the case left out above is a defect: a varlen chunk may be longer than a regular chunk, and then a
partial region write does not throw but decodes the chunk into a buffer that is too small, before it looks
at the varlen flag. -/
theorem c41_partial_write_overflow_counterexample : ∃ (ds : Dataset U8) (data : List U8.T) (σ : Store)
    (ts : List (Prog Unit)), ds.WF ∧
    run (ds.writeChunk [0] data true data.length) (fun _ => none) = (.ok (), σ) ∧
    RegionOk ds.shape [1] [1] ∧ ds.writeScalar [1] [1] (9 : Fin (256 ^ 1)) (fun _ => []) = .ok ts ∧
    ∃ is, isUb (((interleave is (ts, σ)).1[0]?).bind outcome) = true :=
  ⟨exEdge, exVarlen, _, _, exEdge_wf, rfl, by decide, rfl, [0, 0, 0], by decide +kernel⟩

/-- C41, on S3: a chunk of seven elements written with variable length is not reported as such (but as a regular chunk
of four elements), and reading it into a buffer of the reported size, as `unique` and `removeTrivialChunks` do, writes
past the end of the buffer. -/
theorem c41_s3_not_reported_counterexample : ∃ (ds : Dataset U8) (data : List U8.T) (σ : Store), ds.WF ∧
    ds.backend = .s3 ∧ run (ds.writeChunk [0] data true data.length) (fun _ => none) = (.ok (), σ) ∧
    data.length = 7 ∧ (run (ds.checkVarlenChunk [0]) σ).1 = .ok (false, 4) ∧
    isUb (some (run (ds.readChunk [0] (List.replicate 4 (0 : Fin (256 ^ 1)))) σ).1) = true :=
  ⟨{ exEdge with backend := .s3 }, exVarlen, _, { exEdge_wf with made := rfl }, rfl, rfl, rfl, rfl, by decide +kernel⟩

def exShort : List U8.T := [(1 : Fin (256 ^ 1)), (0 : Fin (256 ^ 1)), (3 : Fin (256 ^ 1))]

def exShortStore : Store := (run (exEdge.writeChunk [0] exShort true exShort.length) fun _ => none).2

theorem exShort_run :
    run (exEdge.writeChunk [0] exShort true exShort.length) (fun _ => none) = (.ok (), exShortStore) := by
  obtain ⟨σ', h⟩ := c41_write_succeeds exEdge_wf rfl rfl (c := [0]) (by decide) (data := exShort) trivial
    (by decide) (by decide) (by decide) trivial fun _ => none
  rw [exShortStore, h]

/-- the hypotheses of the theorems above are met -/
example : HoldsVarlen exEdge exShortStore [0] exShort :=
  (c41_roundtrip exEdge_wf rfl rfl (c := [0]) (by decide) (data := exShort) (by decide) (by decide) (by decide) trivial
    exShort_run).1

example : ∃ ts, (RegionCall.scalar (E := U8) [1] [4] (9 : Fin (256 ^ 1))).start exEdge (fun _ => []) = .ok ts ∧
    ∀ is rs, Finished (interleave is (ts, exShortStore)).1 rs → .throw .runtimeError ∈ rs ∧
      HoldsVarlen exEdge (interleave is (ts, exShortStore)).2 [0] exShort :=
  c41_partial_write_throws (call := RegionCall.scalar (E := U8) [1] [4]
      (9 : Fin (256 ^ 1))) exEdge_wf rfl rfl (c := [0]) (by decide) (data := exShort) (by decide)
    (by decide) (by decide) (by decide) exShort_run rfl ⟨by decide, trivial⟩
    ⟨[1], by decide, by decide⟩ ⟨[0], by decide, by decide⟩ (fun _ => [])

example : ∃ ts, exEdge.readSubarray ⟨0, [6], [1]⟩ [0] (fun _ => []) = .ok ts ∧
    ∀ is rs, Finished (interleave is (ts, exShortStore)).1 rs →
      (interleave is (ts, exShortStore)).2 = exShortStore ∧ .throw .runtimeError ∈ rs :=
  c41_region_read_throws exEdge_wf rfl rfl (c := [0]) (by decide) (data := exShort) (by decide) (by decide)
    (by decide) trivial exShort_run rfl (out := ⟨0, [6], [1]⟩) (by decide) ⟨[1], by decide, by decide⟩ (fun _ => [])

end Z5.Props
