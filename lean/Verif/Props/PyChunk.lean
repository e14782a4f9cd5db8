import Verif.Proofs.PyChunk
import Verif.Props.ReadWrite
import Verif.Props.ShardedConc
import Verif.Props.Example

/-!
# C71: the chunk functions of Python
-/

namespace Z5.Props
open Z5 Spec Prog

variable {E : Elem} {ds : Dataset E}

/-! ## What `read_chunk` returns -/

/-- C71: for a dataset in files, after any calls of `write_chunk` and `remove_chunk`, with or without `varlen`, successful or
not, `read_chunk` of every chunk of the grid returns exactly what the last successful call left in this chunk: `None` if there
is nothing (nothing but the fill value was written, or the chunk was removed), else an array with the elements that were
written, in the shape of the chunk, or as a one-dimensional array if they were written with `varlen=True`.  This does not depend
on what is in the memory for the array, and nothing is changed in the store. -/
theorem c71_read (h : ds.WF) (hw : ds.canWrite = true) (hfiles : ds.backend = .files) {f : List Nat → ChunkContent E.T}
    {σ : Store} (hcalls : ChunkCalls ds f σ) {c : List Nat} (hc : InGrid ds.shape ds.chunkShape c) {fresh : Nat → List E.T}
    (hf : ∀ n, (fresh n).length = n) :
    run (ds.pyReadChunk c fresh) σ = (.ok ((f c).array (ds.stored c)), σ) := by
  have hs := calls_stand h hw hcalls c hc
  rw [run_of_touches (touches_pyReadChunk ds c fresh)]
  cases hx : f c with
  | missing =>
    rw [hx] at hs
    have hs : σ (ds.chunkKey c) = none := hs
    rw [hs, exec_pyRead_missing h hc]
    show (_, σ.upd (ds.chunkKey c) none) = _
    rw [← hs, upd_self]
    rfl
  | regular data =>
    rw [hx] at hs
    obtain ⟨b, hb, hd⟩ := hs
    rw [hb, exec_pyRead_regular h hc hd hf]
    show (_, σ.upd (ds.chunkKey c) (some b)) = _
    rw [← hb, upd_self]
    rfl
  | varlen data =>
    rw [hx] at hs
    obtain ⟨hz, hl, b, hb, hd⟩ := hs
    rw [hb, exec_pyRead_varlen h hfiles hz hc hd hl hf]
    show (_, σ.upd (ds.chunkKey c) (some b)) = _
    rw [← hb, upd_self]
    rfl

/-- C71, for every backend: after any successful calls that write regions or chunks (not `varlen`) or remove chunks,
`read_chunk` agrees with reading by regions.  It returns `None` only if all elements of the chunk are the fill value, else an
array in the shape of the chunk with the elements that are read by regions. -/
theorem c71_read_region (h : ds.WF) (hw : ds.canWrite = true) {ws : List (Write E.T)} {σ : Store}
    (hreach : Reaches ds ws σ) :
    ∃ A, ReadsAs ds σ A ∧ ∀ c, InGrid ds.shape ds.chunkShape c → ∀ fresh : Nat → List E.T, (∀ n, (fresh n).length = n) →
      (run (ds.pyReadChunk c fresh) σ = (.ok none, σ) ∧ ∀ x, InChunk ds.shape ds.chunkShape c x → A x = ds.fill) ∨
      ∃ data, run (ds.pyReadChunk c fresh) σ = (.ok (some ⟨ds.stored c, data⟩), σ) ∧ data.length = prod (ds.stored c) ∧
        ∀ i, InBox i (extV ds.shape ds.chunkShape c) →
          data[ravel (ds.stored c) i]? = some (A (addV (mulV c ds.chunkShape) i)) := by
  obtain ⟨A, hA, _⟩ := reaches_refines h hw hreach
  refine ⟨A, holds_readsAs h hA, fun c hc fresh hf => ?_⟩
  have hb := hA c hc
  have hrd := run_of_touches (touches_pyReadChunk ds c fresh) σ
  cases hv : σ (ds.chunkKey c) with
  | none =>
    left
    rw [hv] at hb hrd
    refine ⟨?_, fun x hx => hb x (.of_inChunk hx)⟩
    rw [hrd, exec_pyRead_missing h hc]
    show (_, σ.upd (ds.chunkKey c) none) = _
    rw [← hv, upd_self]
  | some b =>
    right
    rw [hv] at hb hrd
    obtain ⟨content, hd, hr⟩ := hb
    refine ⟨content, ?_, hr.1, ?_⟩
    · rw [hrd, exec_pyRead_regular h hc hd hf]
      show (_, σ.upd (ds.chunkKey c) (some b)) = _
      rw [← hv, upd_self]
    · intro i hi
      have hll := length_extV hc
      have hdl := dims_length hc
      have hx : InChunk ds.shape ds.chunkShape c (addV (mulV c ds.chunkShape) i) :=
        (inChunk_iff_region hc).2 (inRegion_add hi (by omega))
      have h1 := hr.2 _ (.of_inChunk hx)
      rw [subV_addV (by rw [hi.length_eq]; omega)] at h1
      exact h1

/-- C71, `write_chunk` counts as a write of the region of the chunk: the elements of the array, in C order, are the elements
of the region in the shape of the chunk. -/
theorem c71_write_region (h : ds.WF) (hw : ds.canWrite = true) {ws : List (Write E.T)} {σ σ' : Store}
    (hreach : Reaches ds ws σ) {c : List Nat} {a : NpArray E.T} (hrun : run (ds.pyWriteChunk c (.array a) false) σ = (.ok (), σ')) :
    a.data.length = prod (ds.stored c) ∧
    ∀ val : List Nat → E.T, (∀ i, InBox i (ds.stored c) → a.data[ravel (ds.stored c) i]? = some (val i)) →
      Reaches ds (ws ++ [⟨mulV c ds.chunkShape, ds.stored c, val⟩]) σ' := by
  have hg := pyWrite_ok_inGrid h hw hrun
  rw [pyWrite_regular h hg] at hrun
  split at hrun
  · cases hrun
  · rename_i hlen
    have hlen : a.data.length = prod (ds.stored c) := by omega
    exact ⟨hlen, fun val hval => hreach.step (.chunk c a.data val hlen hval hrun)⟩

/-! ## What `write_chunk` accepts -/

/-- C71, without `varlen`, if compression does not fail: exactly the arrays of the element type with as many elements as the
chunk has are accepted. -/
theorem c71_write_iff (h : ds.WF) (hw : ds.canWrite = true) (hC : ds.codec.TotalFor (prod ds.chunkShape * E.size)) {c : List Nat}
    (hc : InGrid ds.shape ds.chunkShape c) (a : ChunkArg E.T) (σ : Store) :
    (∃ σ', run (ds.pyWriteChunk c a false) σ = (.ok (), σ')) ↔ ∃ arr, a = .array arr ∧ arr.data.length = prod (ds.stored c) := by
  constructor
  · rintro ⟨σ', hrun⟩
    cases a with
    | notAccepted => simp [Dataset.pyWriteChunk, Prog.throw, run] at hrun
    | otherType => simp [Dataset.pyWriteChunk, Prog.throw, run] at hrun
    | array arr =>
      refine ⟨arr, rfl, ?_⟩
      rw [pyWrite_regular h hc] at hrun
      split at hrun
      · cases hrun
      · omega
  · rintro ⟨arr, rfl, hl⟩
    rw [pyWrite_regular h hc, if_neg (by omega), run_of_touches (touches_writeChunk ds c arr.data false 0)]
    have ht := writeChunk_total h hw hC hc arr.data hl (σ (ds.chunkKey c))
    rcases writeChunk_exec h hw hc arr.data hl (σ (ds.chunkKey c)) with ⟨e1, _⟩ | ⟨_, ⟨e, e1⟩ | ⟨b, e1, _⟩⟩
    · rw [e1]; exact ⟨_, rfl⟩
    · exact absurd (by rw [e1]) (ht e)
    · rw [e1]; exact ⟨_, rfl⟩

/-- C71, `varlen=True` is refused for zarr. -/
theorem c71_varlen_zarr (hz : ds.isZarr = true) (c : List Nat) (a : ChunkArg E.T) (σ : Store) :
    run (ds.pyWriteChunk c a true) σ = (.throw .runtimeError, σ) := by
  unfold Dataset.pyWriteChunk
  rw [hz]
  rfl

/-- C71: a call of `write_chunk` that raises an exception has changed nothing, for whatever reason it failed. -/
theorem c71_failed {c : List Nat} {a : ChunkArg E.T} {varlen : Bool} {σ σ' : Store} {e : Err}
    (hrun : run (ds.pyWriteChunk c a varlen) σ = (.throw e, σ')) : σ' = σ := pyWrite_throw hrun

/-- C71: chunks outside of the grid cannot be written, if the index has enough components. -/
theorem c71_outside (h : ds.WF) (hw : ds.canWrite = true) {c : List Nat} (hl : ds.shape.length ≤ c.length)
    (hc : ¬ InGrid ds.shape ds.chunkShape c) (a : ChunkArg E.T) (varlen : Bool) (σ : Store) :
    ∃ e, run (ds.pyWriteChunk c a varlen) σ = (.throw e, σ) := by
  cases hr : run (ds.pyWriteChunk c a varlen) σ with
  | mk r σ' =>
    cases r with
    | throw e => exact ⟨e, by rw [c71_failed hr]⟩
    | ok u => exact absurd (pyWrite_ok_inGrid h hw hr) hc
    | ub =>
      exfalso
      have hdl := All₂.length_eq h.dims.axes
      obtain ⟨b, hb⟩ := computeBoundedShape_long (idx := c) (dflt := ds.chunkShape) (shape := ds.shape) (by omega) (by omega)
      have hs : ds.handle c = .ok ⟨ds.isZarr, ds.chunkShape, b⟩ := by rw [Dataset.handle, hb]; rfl
      have hout := fun d vl n => (c32_outside_grid h hw hl hc σ d vl n).1
      unfold Dataset.pyWriteChunk at hr
      split at hr
      · cases hr
      · cases a with
        | notAccepted => cases hr
        | otherType => cases hr
        | array a =>
          dsimp only at hr
          split at hr
          · split at hr
            · change run (if a.data.length ≠ ds.chunkSize then Prog.throw .runtimeError else ds.writeChunk c a.data false 0) _ = _ at hr
              split at hr
              · cases hr
              · rw [hout] at hr; cases hr
            · unfold Dataset.getChunkSize at hr
              rw [hs] at hr
              change run (if a.data.length ≠ _ then Prog.throw .runtimeError else ds.writeChunk c a.data false 0) _ = _ at hr
              split at hr
              · cases hr
              · rw [hout] at hr; cases hr
          · rw [hout] at hr; cases hr

/-! ## Sharded datasets -/

/-- C71 for sharded datasets: `read_chunk` agrees with reading by regions. -/
theorem c71_sharded_read {sd : ShardedDataset E} (h : sd.WF) (hw : sd.canWrite = true) {ws : List (Write E.T)} {σ : Store}
    (hreach : ShardedReaches sd ws σ) :
    ∃ A, ShardedReadsAs sd σ A ∧ ∀ c, InGrid sd.shape sd.chunkShape c → ∀ fresh : Nat → List E.T,
      (∀ n, (fresh n).length = n) →
      (run (sd.pyReadChunk c fresh) σ = (.ok none, σ) ∧ ∀ x, InChunk sd.shape sd.chunkShape c x → A x = sd.fill) ∨
      ∃ data, run (sd.pyReadChunk c fresh) σ = (.ok (some ⟨sd.chunkShape, data⟩), σ) ∧
        ∀ x, InChunk sd.shape sd.chunkShape c x →
          data[ravel sd.chunkShape (subV x (mulV c sd.chunkShape))]? = some (A x) := by
  obtain ⟨A, hA, hall⟩ := c34_sharded_chunk_vs_region h hw hreach
  refine ⟨A, hA, fun c hc fresh hf => ?_⟩
  rcases hall c hc with ⟨he, hfill⟩ | ⟨he, hread⟩
  · left
    refine ⟨?_, hfill⟩
    unfold ShardedDataset.pyReadChunk
    rw [run_bind_ok he]
    rfl
  · right
    have hch : accumulateMul sd.chunkShape = prod sd.chunkShape := by
      have := stored_prod_lt h.base hc
      rw [ShardedDataset.stored_eq h] at this
      exact this
    obtain ⟨content, hr, hc'⟩ := hread (fresh (accumulateMul sd.chunkShape)) (by rw [hf, hch])
    refine ⟨content, ?_, hc'⟩
    unfold ShardedDataset.pyReadChunk
    rw [run_bind_ok he]
    simp only [Bool.not_true, Bool.false_eq_true, if_false]
    rw [h.base.handle_eq hc, bind_ok, run_bind_ok hr]
    rfl

/-- C71 for sharded datasets: `write_chunk` counts as a write of the region of the chunk, if it succeeds; it then had an array of
the element type with as many elements as a chunk, and `varlen` was not set. -/
theorem c71_sharded_write {sd : ShardedDataset E} (h : sd.WF) {ws : List (Write E.T)} {σ σ' : Store}
    (hreach : ShardedReaches sd ws σ) {c : List Nat} {a : ChunkArg E.T} {varlen : Bool}
    (hrun : run (sd.pyWriteChunk c a varlen) σ = (.ok (), σ')) :
    ∃ arr, a = .array arr ∧ varlen = false ∧ arr.data.length = prod sd.chunkShape ∧
    ∀ val : List Nat → E.T, (∀ i, InBox i sd.chunkShape → arr.data[ravel sd.chunkShape i]? = some (val i)) →
      ShardedReaches sd (ws ++ [⟨mulV c sd.chunkShape, sd.chunkShape, val⟩]) σ' := by
  unfold ShardedDataset.pyWriteChunk at hrun
  split at hrun
  · cases hrun
  · rename_i hv
    cases a with
    | notAccepted => cases hrun
    | otherType => cases hrun
    | array arr =>
      dsimp only at hrun
      split at hrun
      · cases hrun
      · rename_i hlen
        have hlen : arr.data.length = prod sd.chunkShape := by
          rw [h.base.chunkSize_eq] at hlen
          omega
        exact ⟨arr, rfl, by simpa using hv, hlen, fun val hval => hreach.step (.chunk c arr.data val hlen hval hrun)⟩

/-- C71 for sharded datasets: a call of `write_chunk` that raises an exception has changed nothing. -/
theorem c71_sharded_failed {sd : ShardedDataset E} (h : sd.WF) {ws : List (Write E.T)} {σ σ' : Store}
    (hreach : ShardedReaches sd ws σ) {c : List Nat} {a : ChunkArg E.T} {varlen : Bool} {e : Err}
    (hrun : run (sd.pyWriteChunk c a varlen) σ = (.throw e, σ')) : σ' = σ := by
  unfold ShardedDataset.pyWriteChunk at hrun
  split at hrun
  · cases hrun; rfl
  · cases a with
    | notAccepted => cases hrun; rfl
    | otherType => cases hrun; rfl
    | array arr =>
      dsimp only at hrun
      split at hrun
      · cases hrun; rfl
      · by_cases hw : sd.canWrite = true
        · unfold ShardedDataset.writeChunk at hrun
          rw [hw, if_neg (by decide)] at hrun
          cases hh : sd.toDataset.handle c with
          | throw e' => rw [hh] at hrun; cases hrun; rfl
          | ub => rw [hh] at hrun; cases hrun
          | ok s =>
            rw [hh, bind_ok] at hrun
            cases hk : sd.checkChunk c false with
            | throw e' => rw [hk] at hrun; cases hrun; rfl
            | ub => rw [hk] at hrun; cases hrun
            | ok u =>
              rw [hk, bind_ok] at hrun
              have hc : InGrid sd.shape sd.chunkShape c := by
                refine (h.base.checkBlock c).1 ?_
                unfold ShardedDataset.checkChunk at hk
                split at hk
                · cases hk
                · rename_i hb
                  simpa using hb
              cases hm : sd.makeChunkBlob c arr.data with
              | throw e' => rw [hm] at hrun; cases hrun; rfl
              | ub => rw [hm] at hrun; cases hrun
              | ok b =>
                rw [hm, bind_ok] at hrun
                obtain ⟨hval, _⟩ := ShardedDataset.reaches_refines h hw hreach
                rcases ShardedDataset.writeInnerBlob_effect h hw hc b hval with ⟨e', he⟩ | ⟨τ, he, _⟩
                · rw [he] at hrun; cases hrun; rfl
                · rw [he] at hrun; cases hrun
        · unfold ShardedDataset.writeChunk at hrun
          rw [if_pos (by simpa using hw)] at hrun
          cases hrun; rfl

/-! ## What does not hold -/

/-- C71, the shape of the array is not looked at, only the number of elements: an array of four elements in one dimension is
accepted for a chunk of two times two elements, and comes back as such a chunk. -/
theorem c71_shape_ignored_counterexample : ∃ (ds : Dataset U16) (a : NpArray U16.T) (σ : Store), ds.WF ∧
    InGrid ds.shape ds.chunkShape [0, 0] ∧ ds.stored [0, 0] = [2, 2] ∧ a.shape = [4] ∧
    run (ds.pyWriteChunk [0, 0] (.array a) false) (fun _ => none) = (.ok (), σ) ∧
    (run (ds.pyReadChunk [0, 0] fun n => List.replicate n (0 : Fin (256 ^ 2))) σ).1 = .ok (some ⟨[2, 2], a.data⟩) := by
  have hd : (exDataset true).stored [0, 0] = [2, 2] := by decide
  have hg : InGrid (exDataset true).shape (exDataset true).chunkShape [0, 0] := by decide
  obtain ⟨σ, hσ⟩ := (c71_write_iff (exDataset_wf true) rfl trivial hg
    (.array ⟨[4], [(1 : Fin (256 ^ 2)), (2 : Fin (256 ^ 2)), (3 : Fin (256 ^ 2)), (4 : Fin (256 ^ 2))]⟩) fun _ => none).2 ⟨_, rfl, by rw [hd]; rfl⟩
  refine ⟨exDataset true, _, σ, exDataset_wf true, hg, hd, rfl, hσ, ?_⟩
  have hr := c71_read (exDataset_wf true) rfl rfl (.write [0, 0] _ (.empty (σ := fun _ => none) fun _ _ => rfl) hσ) hg
    (fresh := fun n => List.replicate n (0 : Fin (256 ^ 2))) (fun _ => List.length_replicate)
  rw [hd] at hr
  exact congrArg Prod.fst hr

/-- C71, on S3: after `write_chunk(..., varlen=True)` of seven elements, `read_chunk` writes past the end of the array it
returns, because the number of elements of such chunks is not looked at there. -/
theorem c71_s3_varlen_counterexample : ∃ (ds : Dataset U8) (a : NpArray U8.T) (σ : Store), ds.WF ∧ ds.backend = .s3 ∧
    run (ds.pyWriteChunk [0] (.array a) true) (fun _ => none) = (.ok (), σ) ∧
    isUb (some (run (ds.pyReadChunk [0] fun n => List.replicate n (0 : Fin (256 ^ 1))) σ).1) = true :=
  ⟨{ exEdge with backend := .s3 }, ⟨[7], exVarlen⟩, _, { exEdge_wf with made := rfl }, rfl, rfl, by decide +kernel⟩

/-- C71: for an N5 chunk at the end of the array that another program has stored in full size, as `readSubarray` accepts it,
`read_chunk` writes past the end of the array it returns. -/
theorem c71_full_chunk_counterexample : ∃ (ds : Dataset U8) (σ : Store), ds.WF ∧ InGrid ds.shape ds.chunkShape [1] ∧
    σ (ds.chunkKey [1]) = some exFullChunk ∧
    isUb (some (run (ds.pyReadChunk [1] fun n => List.replicate n (0 : Fin (256 ^ 1))) σ).1) = true :=
  ⟨exEdge, fun k => if k = exEdge.chunkKey [1] then some exFullChunk else none, exEdge_wf, by decide, by decide +kernel,
    by decide +kernel⟩

/-- the chunk holds four elements -/
def exRaceStore : Store := fun k => if k = exEdge.chunkKey [0] then some exFullChunk else none

/-- C71 is about calls one after another.  If a chunk is written with `varlen=True` while it is read, `read_chunk` may allocate
the array for the old content and decode the new one into it, past its end. -/
theorem c71_race_counterexample : ∃ (σ : Store) (is : List Nat), σ (exEdge.chunkKey [0]) = some exFullChunk ∧
    isUb ((((interleave is
      ([exEdge.pyReadChunk [0] (fun n => List.replicate n (0 : Fin (256 ^ 1))),
        exEdge.pyWriteChunk [0] (.array ⟨[7], exVarlen⟩) true >>= fun _ => pure none], σ)).1)[0]?).bind outcome) = true :=
  ⟨exRaceStore, [0, 0, 0] ++ List.replicate 40 1 ++ List.replicate 10 0, by decide +kernel, by decide +kernel⟩

/-! ## Examples -/

/-- a history with a chunk, a chunk at the end of the array, a `varlen` chunk in place of a chunk, a failed call and a removed
chunk -/
theorem exChunkCalls : ∃ σ, ChunkCalls exEdge
    (setContent (setContent (fun _ => .missing) [1] (.regular [(7 : Fin (256 ^ 1)), (8 : Fin (256 ^ 1))])) [0]
      (.varlen [(1 : Fin (256 ^ 1)), (0 : Fin (256 ^ 1)), (3 : Fin (256 ^ 1))])) σ := by
  have h0 : ChunkCalls exEdge (fun _ => .missing) (fun _ => none) := .empty fun _ _ => rfl
  obtain ⟨σ1, h1⟩ := (c71_write_iff exEdge_wf rfl trivial (c := [1]) (by decide)
    (.array ⟨[2], [(7 : Fin (256 ^ 1)), (8 : Fin (256 ^ 1))]⟩) fun _ => none).2 ⟨_, rfl, rfl⟩
  have hf : run (exEdge.pyWriteChunk [1] (.array ⟨[4], [(7 : Fin (256 ^ 1)), (8 : Fin (256 ^ 1)), (7 : Fin (256 ^ 1)),
      (8 : Fin (256 ^ 1))]⟩) false) σ1 = (.throw .runtimeError, σ1) := rfl
  obtain ⟨σ2, h2⟩ := c41_write_succeeds exEdge_wf rfl rfl (c := [0]) (by decide) (data := exShort) trivial
    (by decide) (by decide) (by decide) trivial σ1
  refine ⟨σ2, ?_⟩
  exact .writeVarlen [0] ⟨[3], exShort⟩ (.failed [1] _ false _ (.write [1] _ h0 h1) hf) (by decide) (by decide) trivial h2

example : ∃ σ, run (exEdge.pyReadChunk [0] fun n => List.replicate n (9 : Fin (256 ^ 1))) σ =
    (.ok (some ⟨[3], exShort⟩), σ) := by
  obtain ⟨σ, h⟩ := exChunkCalls
  exact ⟨σ, c71_read exEdge_wf rfl rfl h (by decide) (fun _ => List.length_replicate)⟩

example : ∃ σ, run (exEdge.pyReadChunk [1] fun n => List.replicate n (9 : Fin (256 ^ 1))) σ =
    (.ok (some ⟨[2], [(7 : Fin (256 ^ 1)), (8 : Fin (256 ^ 1))]⟩), σ) := by
  obtain ⟨σ, h⟩ := exChunkCalls
  exact ⟨σ, c71_read exEdge_wf rfl rfl h (by decide) (fun _ => List.length_replicate)⟩

/-- the theorems about regions apply, for zarr on S3 and for sharded datasets -/
example : ∃ σ A, ReadsAs (exDataset true .s3) σ A := by
  obtain ⟨σ, h⟩ := exDataset_reaches true .s3
  obtain ⟨A, hA, _⟩ := c71_read_region (exDataset_wf true .s3) rfl h
  exact ⟨σ, A, hA⟩

example : ∃ A, ShardedReadsAs exSharded exShardedStore A := by
  obtain ⟨A, hA, _⟩ := c71_sharded_read exSharded_wf rfl exSharded_reaches
  exact ⟨A, hA⟩

example : ∃ σ', run (exSharded.pyWriteChunk [0] (.array ⟨[2], [(5 : Fin (256 ^ 1)), (6 : Fin (256 ^ 1))]⟩) false)
    (fun _ => none) = (.ok (), σ') := ⟨_, rfl⟩

example : ∃ e, run (exEdge.pyWriteChunk [2] (.array ⟨[3], exShort⟩) true) (fun _ => none) = (.throw e, fun _ => none) :=
  c71_outside exEdge_wf rfl (by decide) (by decide) _ _ _

end Z5.Props
