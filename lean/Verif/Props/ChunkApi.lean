import Verif.Props.Schedule
import Verif.Props.Shard

/-!
# C23 (reading arbitrary files), C31, C32, C33, C40: chunk access at the edge of the contract
-/

namespace Z5.Props
open Z5 Spec Prog

variable {E : Elem} {ds : Dataset E}

/-! ## C23 -/

/-- **C23.** `readSubarray` on *any* store, whatever bytes the chunk files contain: every task throws or
writes only to addresses of the output view; no task reads or writes outside its buffers. -/
theorem c23_read_memory_safe (h : ds.WF) (hC : ds.codec.SafeFor E.size) {off : List Nat} {out : View} {outBuf : List E.T}
    (hr : RegionOk ds.shape off out.shape) (hfit : FitsIn out outBuf.length)
    (scratch : Nat → List E.T) :
    ∃ ts, ds.readSubarray out off scratch = .ok ts ∧
      ∀ σ is rs, Finished (interleave is (ts, σ)).1 rs → ∀ r ∈ rs,
        (∃ e, r = .throw e) ∨
        ∃ ps, r = .ok ps ∧ ∀ p ∈ ps, p.1 < outBuf.length ∧
          ∃ j, InBox j out.shape ∧ p.1 = out.base + dot j out.strides := by
  have hmem := fun c => h.mem_overlap (c := c) hr
  refine ⟨_, by rw [Dataset.readSubarray, h.requestChunks_ok hr]; rfl, ?_⟩
  intro σ is rs hfin r hrs
  obtain ⟨h1, _, h3⟩ := finished_tasks h (nodup_overlapList h.dims hr)
    (fun c hc => ((hmem c).1 hc).inGrid)
    (fun i c => ds.readTask out off out.shape c (scratch i)) (fun i c => touches_readTask ..) hfin
  obtain ⟨i, hi, rfl⟩ := List.getElem_of_mem hrs
  have hi' : i < (overlapList ds.chunkShape off out.shape).length := by omega
  have ht := (hmem _).1 (List.getElem_mem hi')
  obtain ⟨h4, _⟩ := h3 i _ (List.getElem?_eq_getElem hi')
  rw [List.getElem?_eq_getElem hi, Option.some.injEq] at h4
  rw [h4]
  rcases readTask_safe h hC hr ht hfit.1 (scratch i) (σ (ds.chunkKey _)) with h5 | ⟨ps, h5, h6⟩
  · exact Or.inl h5
  · refine Or.inr ⟨ps, h5, fun p hp => ?_⟩
    obtain ⟨j, hj, he⟩ := h6 p hp
    exact ⟨by rw [he]; exact hfit.2 j hj, j, hj, he⟩

/-- six bytes in chunks of four, N5 -/
def exEdge : Dataset U8 :=
  { shape := [6], chunkShape := [4], chunkSize := 4, chunking := mkBlocking [6] [4],
    key := ⟨false, ['.'], 2, []⟩, codec := .raw, fill := (0 : Fin (256 ^ 1)), canWrite := true, backend := .files }

/-- an N5 chunk file with 4 elements -/
def exFullChunk : Bytes := writeN5Header [4] false 0 ++ [1, 2, 3, 4]

/-- `readChunk` of an N5 dataset takes the number of elements from the file: a buffer of the right size for
the chunk overflows if the file says more. -/
theorem c23_readChunk_overflow_counterexample : ∃ (ds : Dataset U8) (σ : Store),
    InGrid ds.shape ds.chunkShape [1] ∧ ds.stored [1] = [2] ∧
    (run (ds.readChunk [1] [(0 : Fin (256 ^ 1)), (0 : Fin (256 ^ 1))]) σ).1 = .ub :=
  ⟨exEdge, fun k => if k = exEdge.chunkKey [1] then some exFullChunk else none, by decide, by decide,
    rfl⟩

def isUb {α : Type} : Option (Res α) → Bool
  | some .ub => true
  | _ => false

/-- The same happens in a region write: other N5 writers store edge chunks in full size, `readSubarray` of
this code accepts them, but a partial write to such a chunk overflows the buffer. -/
theorem c23_partial_write_overflow_counterexample : ∃ (ds : Dataset U8) (σ : Store) (ts : List (Prog Unit)),
    RegionOk ds.shape [5] [1] ∧ σ (ds.chunkKey [1]) = some exFullChunk ∧
    ds.writeScalar [5] [1] (9 : Fin (256 ^ 1)) (fun _ => []) = .ok ts ∧
    ∃ is, isUb (((interleave is (ts, σ)).1[0]?).bind outcome) = true :=
  ⟨exEdge, fun k => if k = exEdge.chunkKey [1] then some exFullChunk else none, _, by decide,
    by decide +kernel, rfl, [0, 0, 0], by decide +kernel⟩

theorem exEdge_wf : exEdge.WF where
  made := rfl
  dims := ⟨by decide, by decide⟩
  small := by decide
  bytes := by decide
  codec := trivial
  keyOk := by decide
  n5 := by decide

example : RegionOk exEdge.shape [3] [2] ∧ FitsIn ⟨0, [2], [1]⟩ 2 := by
  refine ⟨by decide, rfl, ?_⟩
  intro c hc
  match c, hc with
  | [i], hc =>
    have h1 : i < 2 := hc.1
    simp only [dot_cons, dot_nil_left]
    omega

/-! ## C31 -/

/-- a program that leaves the store alone and does not succeed -/
def Rejects {α : Type} (p : Prog α) : Prop := ∀ σ : Store, (run p σ).2 = σ ∧ ∀ a, (run p σ).1 ≠ .ok a

theorem run_bind {α β : Type} (g : α → Prog β) : ∀ (p : Prog α) (σ : Store), run (p >>= g) σ =
    match run p σ with
    | (.ok a, σ') => run (g a) σ'
    | (.throw e, σ') => (.throw e, σ')
    | (.ub, σ') => (.ub, σ')
  | .ret (.ok a), σ => rfl
  | .ret (.throw e), σ => rfl
  | .ret .ub, σ => rfl
  | .act k f c, σ => by
    rw [bind_act]
    simp only [run]
    exact run_bind g (c (σ k)) _

theorem rejects_bind {α β : Type} {p : Prog α} {g : α → Prog β} (hp : ReadOnly p)
    (hg : ∀ a, Rejects (g a)) : Rejects (p >>= g) := by
  intro σ
  have h1 := run_readOnly hp σ
  rw [run_bind]
  cases h : run p σ with
  | mk r σ' =>
    rw [h] at h1
    have h1' : σ' = σ := h1
    subst h1'
    cases r with
    | ok a => exact hg a _
    | throw e => exact ⟨rfl, fun a => by simp⟩
    | ub => exact ⟨rfl, fun a => by simp⟩

theorem rejects_throw {α : Type} (e : Err) : Rejects (Prog.throw e : Prog α) :=
  fun _ => ⟨rfl, fun _ => by simp [Prog.throw, run]⟩

/-- a `Rejects` task of a call never succeeds and never changes the store, under any interleaving of
read-only tasks -/
theorem rejects_tasks {α : Type} {ts : List (Prog α)} (hro : ∀ p ∈ ts, ReadOnly p)
    (hrej : ∀ p ∈ ts, Rejects p) (σ : Store) (is : List Nat) :
    (interleave is (ts, σ)).2 = σ ∧
    ∀ rs, Finished (interleave is (ts, σ)).1 rs → ∀ r ∈ rs, ∀ a, r ≠ .ok a := by
  refine ⟨(interleave_readOnly is (c := (ts, σ)) hro).1, ?_⟩
  intro rs hf r hr a
  rw [(finished_readOnly hro hf).2] at hr
  obtain ⟨p, hp, rfl⟩ := List.mem_map.1 hr
  exact (hrej p hp σ).2 a

theorem writeChunk_readonly_handle (hw : ds.canWrite = false) (c : List Nat) (data : List E.T)
    (vl : Bool) (n : Nat) : ds.writeChunk c data vl n = Prog.throw .invalidArgument := by
  unfold Dataset.writeChunk
  rw [hw]
  rfl

/-- **C31 (chunks), plain datasets.** Through a handle without write permission, `writeChunk`,
`removeChunk`, `writeSubarray` and `writeScalar` never succeed and never change the store, for all arguments
and every content of the store; region writes also not at any intermediate point of any schedule. -/
theorem c31_readonly_dataset (hw : ds.canWrite = false) (σ : Store) :
    (∀ c data vl n, run (ds.writeChunk c data vl n) σ = (.throw .invalidArgument, σ)) ∧
    (∀ c, (run (ds.removeChunk c) σ).2 = σ ∧ ∀ a, (run (ds.removeChunk c) σ).1 ≠ .ok a) ∧
    (∀ (call : RegionCall E) scratch ts, call.start ds scratch = .ok ts → ∀ is,
      (interleave is (ts, σ)).2 = σ ∧
      ∀ rs, Finished (interleave is (ts, σ)).1 rs → ∀ r ∈ rs, ∀ a, r ≠ .ok a) := by
  refine ⟨?_, ?_, ?_⟩
  · intro c data vl n
    rw [writeChunk_readonly_handle hw]
    rfl
  · intro c
    have : Rejects (ds.removeChunk c) := by
      unfold Dataset.removeChunk
      refine rejects_bind (ReadOnly.ret _) fun _ => ?_
      rw [hw]
      exact rejects_throw _
    exact this σ
  · intro call scratch ts hts is
    rw [RegionCall.start_eq, Dataset.writeRegion] at hts
    cases hc : ds.requestChunks call.off call.shape with
    | throw e => rw [hc] at hts; simp at hts
    | ub => rw [hc] at hts; simp at hts
    | ok cs =>
      rw [hc, Res.ok_bind] at hts
      cases hts
      have hro : ∀ c s, ReadOnly (ds.writeTask (RegionCall.request call) call.off call.shape c s) ∧
          Rejects (ds.writeTask (RegionCall.request call) call.off call.shape c s) := by
        intro c s
        have h1 := readOnly_prepareBuffer ds (RegionCall.request call) call.off call.shape c s _
          (readOnly_readExisting ds c)
        rw [Dataset.writeTask]
        refine ⟨ReadOnly.bind h1 fun a => ?_, rejects_bind h1 fun a => ?_⟩
        · rw [writeChunk_readonly_handle hw]; trivial
        · rw [writeChunk_readonly_handle hw]; exact rejects_throw _
      refine rejects_tasks ?_ ?_ σ is
      · intro p hp
        obtain ⟨i, hi, rfl⟩ := List.getElem_of_mem hp
        rw [List.getElem_mapIdx]
        exact (hro _ _).1
      · intro p hp
        obtain ⟨i, hi, rfl⟩ := List.getElem_of_mem hp
        rw [List.getElem_mapIdx]
        exact (hro _ _).2

theorem readOnly_readShardBlobs (ds : ShardedDataset E) (s : List Nat) :
    ReadOnly (ds.readShardBlobs s) := by
  unfold ShardedDataset.readShardBlobs
  repeat' first
    | exact ReadOnly.ret _ | exact readOnly_read _ _
    | refine ReadOnly.bind ?_ (fun _ => ?_) | split | dsimp only | exact trivial

theorem writeShardBlobs_readonly_handle {ds : ShardedDataset E} (hw : ds.canWrite = false)
    (s : List Nat) (blobs : List Bytes) :
    ds.writeShardBlobs s blobs = Prog.throw .invalidArgument := by
  unfold ShardedDataset.writeShardBlobs
  rw [hw]
  rfl

/-- **C31 (chunks), sharded datasets.** -/
theorem c31_readonly_sharded {ds : ShardedDataset E} (hw : ds.canWrite = false) (σ : Store) :
    (∀ c data vl, run (ds.writeChunk c data vl) σ = (.throw .invalidArgument, σ)) ∧
    (∀ c, (run (ds.removeChunk c) σ).2 = σ ∧ ∀ a, (run (ds.removeChunk c) σ).1 ≠ .ok a) ∧
    (∀ fr off shape scratch ts, ds.writeRegion fr off shape scratch ≠ .ok ts) := by
  refine ⟨?_, ?_, ?_⟩
  · intro c data vl
    unfold ShardedDataset.writeChunk
    rw [hw]
    rfl
  · intro c
    have : Rejects (ds.removeChunk c) := by
      unfold ShardedDataset.removeChunk ShardedDataset.writeInnerBlob
      refine rejects_bind (ReadOnly.ret _) fun _ => rejects_bind (ReadOnly.ret _) fun _ =>
        rejects_bind (readOnly_readShardBlobs _ _) fun _ => ?_
      split
      · exact fun _ => ⟨rfl, fun _ => by simp [run]⟩
      · rw [writeShardBlobs_readonly_handle hw]
        exact rejects_throw _
    exact this σ
  · intro fr off shape scratch ts
    unfold ShardedDataset.writeRegion
    cases ds.requestChunks off shape with
    | throw e => simp
    | ub => simp
    | ok cs => rw [hw]; simp

example : ({ exDataset true with canWrite := false } : Dataset U16).canWrite = false ∧
    ∃ ts, (RegionCall.scalar (E := U16) [1, 0] [3, 3] (4 : Fin (256 ^ 2))).start
      { exDataset true with canWrite := false } (fun _ => []) = .ok ts ∧ ts.length = 4 :=
  ⟨rfl, _, rfl, by decide +kernel⟩

/-! ## C32 -/

theorem computeBoundedShape_long {idx dflt shape : List Nat} (h1 : dflt.length ≤ idx.length)
    (h2 : dflt.length ≤ shape.length) : ∃ b, computeBoundedShape idx dflt shape = .ok b :=
  ⟨_, if_neg (by omega)⟩

/-- **C32.** `writeChunk` and `readChunk` with an index vector that is not a position of the chunk grid (but
is not too short) throw and change nothing, whatever the store and the buffers contain. -/
theorem c32_outside_grid (h : ds.WF) (hw : ds.canWrite = true) {c : List Nat}
    (hl : ds.shape.length ≤ c.length) (hc : ¬ InGrid ds.shape ds.chunkShape c) (σ : Store)
    (data : List E.T) (vl : Bool) (n : Nat) :
    run (ds.writeChunk c data vl n) σ = (.throw .runtimeError, σ) ∧
    run (ds.readChunk c data) σ = (.throw .runtimeError, σ) := by
  have hdl := All₂.length_eq h.dims.axes
  obtain ⟨b, hb⟩ := computeBoundedShape_long (idx := c) (dflt := ds.chunkShape) (shape := ds.shape)
    (by omega) (by omega)
  have hh : ∃ s, ds.handle c = .ok s := ⟨_, by rw [Dataset.handle, hb]; rfl⟩
  obtain ⟨s, hs⟩ := hh
  have hck : ∀ vl, ds.checkChunk c vl = .throw .runtimeError := by
    intro vl
    rw [Dataset.checkChunk, if_pos]
    have : ¬ ds.chunking.checkBlockCoordinate c = true := fun h' => hc ((h.checkBlock c).1 h')
    simpa using this
  refine ⟨?_, ?_⟩
  · unfold Dataset.writeChunk
    rw [hw, if_neg (by decide), hs, bind_ok, hck]
    rfl
  · rw [Dataset.readChunk, hs, bind_ok, hck]
    rfl

/-- A too short index vector is read past its end before the check. -/
theorem c32_short_index_counterexample : ∃ (ds : Dataset U16) (c : List Nat), ds.shape.length = 2 ∧
    c.length = 1 ∧ (run (ds.readChunk c []) fun _ => none).1 = .ub ∧
    (run (ds.writeChunk c []) fun _ => none).1 = .ub :=
  ⟨exDataset true, [0], rfl, rfl, rfl, rfl⟩

/-- a sharded dataset: 6 bytes, chunks of 2, shards of 4 -/
def exSharded : ShardedDataset U8 :=
  { shape := [6], chunkShape := [2], chunkSize := 2, chunking := mkBlocking [6] [2],
    key := ⟨true, ['/'], 3, "default".toList⟩, codec := .raw, fill := (0 : Fin (256 ^ 1)),
    canWrite := true, backend := .files, shardShape := [4], cps := [2], nSlots := 2 }

/-- `readChunk` of a sharded dataset does not check the position: chunk 7 of a grid of 3 "succeeds" and
leaves the buffer as it was. -/
theorem c32_sharded_read_counterexample : ∃ ds : ShardedDataset U8,
    ShardedDataset.make [6] [2] [4] ⟨true, ['/'], 3, "default".toList⟩ .raw (0 : Fin (256 ^ 1)) true
      .files = .ok ds ∧ ¬ InGrid ds.shape ds.chunkShape [7] ∧
    (run (ds.readChunk [7] [(5 : Fin (256 ^ 1)), (6 : Fin (256 ^ 1))]) fun _ => none).1 =
      .ok (false, [(5 : Fin (256 ^ 1)), (6 : Fin (256 ^ 1))]) :=
  ⟨exSharded, rfl, by decide, rfl⟩

/-- Sharded `writeChunk` does check. -/
theorem c32_sharded_write {ds : ShardedDataset E} (h : ds.toDataset.WF) (hw : ds.canWrite = true)
    {c : List Nat} (hl : ds.shape.length ≤ c.length) (hc : ¬ InGrid ds.shape ds.chunkShape c)
    (σ : Store) (data : List E.T) (vl : Bool) :
    run (ds.writeChunk c data vl) σ = (.throw .runtimeError, σ) := by
  have hdl := All₂.length_eq h.dims.axes
  obtain ⟨b, hb⟩ := computeBoundedShape_long (idx := c) (dflt := ds.chunkShape) (shape := ds.shape)
    (by omega) (by omega)
  have hck : ds.checkChunk c vl = .throw .runtimeError := by
    rw [ShardedDataset.checkChunk, if_pos]
    have : ¬ ds.chunking.checkBlockCoordinate c = true := fun h' => hc ((h.checkBlock c).1 h')
    simpa using this
  unfold ShardedDataset.writeChunk
  rw [hw, if_neg (by decide), Dataset.handle, hb, Res.ok_bind, Res.pure_eq, bind_ok, hck]
  rfl

example : ¬ InGrid (exDataset true).shape (exDataset true).chunkShape [0, 2] ∧
    ¬ InGrid (exDataset true).shape (exDataset true).chunkShape [3, 0] ∧
    ¬ InGrid (exDataset true).shape (exDataset true).chunkShape [0, 0, 0] := by decide

/-! ## C33 -/

/-- **C33.** `readChunk` of a chunk of the grid that has no file throws and changes nothing, for every
buffer. -/
theorem c33_missing_chunk_throws (h : ds.WF) {c : List Nat} (hc : InGrid ds.shape ds.chunkShape c)
    {σ : Store} (hn : σ (ds.chunkKey c) = none) (data : List E.T) :
    run (ds.readChunk c data) σ = (.throw .runtimeError, σ) := by
  rw [run_of_touches (touches_readChunk ds c data) σ, hn, Dataset.readChunk, h.handle_eq hc, bind_ok,
    h.checkChunk_ok hc, bind_ok, exec1_bind_ok (exec1_read ..)]
  show (Res.throw Err.runtimeError, σ.upd (ds.chunkKey c) none) = _
  rw [← hn, upd_self]

/-- For every history: `readChunk` of a chunk throws if no write has covered any of its elements. -/
theorem c33_never_written_throws (h : ds.WF) (hw : ds.canWrite = true)
    (hf : E.ceq ds.fill ds.fill = true) {ws : List (Write E.T)} {σ : Store} (hreach : Reaches ds ws σ)
    (hws : ∀ w ∈ ws, RegionOk ds.shape w.off w.shape) {c : List Nat}
    (hc : InGrid ds.shape ds.chunkShape c)
    (hn : ∀ w ∈ ws, ∀ x, InRegion x w.off w.shape → ¬ InChunk ds.shape ds.chunkShape c x)
    (data : List E.T) : run (ds.readChunk c data) σ = (.throw .runtimeError, σ) := by
  refine c33_missing_chunk_throws h hc ?_ data
  apply Classical.byContradiction
  intro hne
  obtain ⟨x, hx, hnf⟩ := (c12_stored_iff_region h hw hf hreach hws hc).1 hne
  rw [replay_not_covered ws _ x fun w hw' hreg => hn w hw' x hreg hx, hf] at hnf
  simp at hnf

/-- With a sharded raw dataset, `readChunk` of a missing chunk returns success without touching the
buffer. -/
theorem c33_sharded_counterexample :
    InGrid exSharded.shape exSharded.chunkShape [1] ∧
    (run (exSharded.readChunk [1] [(5 : Fin (256 ^ 1)), (6 : Fin (256 ^ 1))]) fun _ => none).1 =
      .ok (false, [(5 : Fin (256 ^ 1)), (6 : Fin (256 ^ 1))]) := ⟨by decide, rfl⟩

example : InGrid (exDataset true).shape (exDataset true).chunkShape [2, 1] := by decide

/-! ## C40 -/

theorem slice_take {b : Bytes} {off len n : Nat} {r : Bytes} (h : slice b off len = .ok r)
    (hn : off + len ≤ n) : slice (b.take n) off len = .ok r := by
  rw [slice_eq_ok] at h ⊢
  refine ⟨by rw [List.length_take]; omega, ?_⟩
  rw [h.2, List.drop_take, List.take_take, Nat.min_eq_left (by omega)]

/-- a header cut short is rejected -/
theorem readN5Header_torn (shape : List Nat) (v : Bool) (m : Nat) (payload : Bytes)
    (hd : shape.length < 2 ^ 16) {n : Nat}
    (hn : n < (shape.length + 1) * 4 + (if v then 4 else 0)) :
    readN5Header ((writeN5Header shape v m ++ payload).take n) = .throw .runtimeError := by
  have hlen := length_writeN5Header shape v m
  have hl : ((writeN5Header shape v m ++ payload).take n).length = n := by
    rw [List.length_take, List.length_append]; omega
  unfold readN5Header
  by_cases h4 : n < 4
  · rw [if_pos (by omega)]
  · obtain ⟨⟨m0, h0, e0⟩, ⟨m1, h1, e1⟩, _⟩ := header_slices shape v m payload hd
    rw [if_neg (by omega), slice_take h0 (by omega), Res.ok_bind, slice_take h1 (by omega), Res.ok_bind,
      e0, e1, hl]
    simp only
    rw [if_pos]
    cases v
    · simpa using hn
    · simpa using hn

/-- **C40, N5.** A chunk file of an N5 dataset cut anywhere inside its header is rejected by `readChunk`,
and by `readSubarray` of any region overlapping the chunk: the task of that chunk throws. -/
theorem c40_torn_n5_header (h : ds.WF) (hz : ds.isZarr = false) {c : List Nat}
    (hc : InGrid ds.shape ds.chunkShape c) {v : Bool} {m : Nat} {payload : Bytes} {n : Nat}
    (hn : n < 4 + 4 * ds.shape.length + (if v then 4 else 0)) {σ : Store}
    (hσ : σ (ds.chunkKey c) =
      some ((writeN5Header (extV ds.shape ds.chunkShape c) v m ++ payload).take n)) :
    (∀ dest, run (ds.readChunk c dest) σ = (.throw .runtimeError, σ)) ∧
    ∀ off out scratch, RegionOk ds.shape off out.shape →
      (∃ x, InRegion x off out.shape ∧ InChunk ds.shape ds.chunkShape c x) →
      run (ds.readTask out off out.shape c scratch) σ = (.throw .runtimeError, σ) := by
  have hl := length_extV hc
  have hdl := dims_length hc
  have hhd := readN5Header_torn (extV ds.shape ds.chunkShape c) v m payload
    (by have := (h.n5 hz).1; omega) (n := n) (by omega)
  generalize (writeN5Header (extV ds.shape ds.chunkShape c) v m ++ payload).take n = b at *
  refine ⟨?_, ?_⟩
  · intro dest
    rw [run_of_touches (touches_readChunk ds c dest) σ, hσ, Dataset.readChunk, h.handle_eq hc, bind_ok,
      h.checkChunk_ok hc, bind_ok, exec1_bind_ok (exec1_read ..)]
    simp only [bufferToData, hz, hhd, Bool.false_eq_true, if_false]
    show (Res.throw Err.runtimeError, σ.upd (ds.chunkKey c) (some b)) = _
    rw [← hσ, upd_self]
  · intro off out scratch hr ht
    rw [run_of_touches (touches_readTask ..) σ, exec1_readOnly (readOnly_readTask ..), upd_self, hσ]
    have hraw : exec1 (ds.readRawChunk c) (some b) = (.ok b, some b) := by
      rw [Dataset.readRawChunk, h.handle_eq hc, bind_ok, exec1_bind_ok (exec1_read ..)]
      rfl
    obtain ⟨o, ho, hof⟩ := h.overlap hr ht
    unfold Dataset.readTask
    rw [ho, bind_ok]
    simp only
    rw [exec1_bind_ok (chunkExists_exec h hc (some b))]
    simp only [Option.isSome_some, Bool.not_true, Bool.false_eq_true, if_false]
    rw [h.getChunkShape_eq hc, bind_ok, exec1_bind_ok hraw]
    simp only [hz, Bool.not_false, if_true, hhd]
    rfl

/-- the last bytes of the file are an index for `n` slots with its CRC-32C -/
def IndexChecks (b : Bytes) (n : Nat) : Prop :=
  ∃ data index crc : Bytes, b = data ++ index ++ crc ∧ index.length = 16 * n ∧ crc.length = 4 ∧
    (Spec.crc32c index).toNat = leNat crc

/-- a program that throws and leaves the store alone -/
def Fails {α : Type} (p : Prog α) (σ : Store) : Prop := ∃ e, run p σ = (.throw e, σ)

theorem fails_bind {α β : Type} {p : Prog α} {σ : Store} (h : Fails p σ) (g : α → Prog β) :
    Fails (p >>= g) σ := by
  obtain ⟨e, he⟩ := h
  exact ⟨e, by rw [run_bind, he]⟩

theorem fails_ok_bind {α β : Type} {r : Res α} {σ : Store} {g : α → Prog β} {a : α} (hr : r = .ok a)
    (h : Fails (g a) σ) : Fails (.ret r >>= g) σ := by
  subst hr; exact h

theorem run_storeRead {s : Backend} {σ : Store} {k : Key} {b : Bytes} (h : σ k = some b) :
    run (storeRead s k) σ = (.ok (some b), σ) := by
  rw [run_of_touches (touches_read s k), exec1_read, upd_self, h]

theorem parse_bad {b : Bytes} {n : Nat} (h : ¬ IndexChecks b n) :
    parseShardIndex b n = .ok none ∨ parseShardIndex b n = .throw .lengthError := by
  rcases c18_parse_safe b n with h1 | ⟨h1, _⟩ | ⟨es, h1, _⟩
  · exact Or.inl h1
  · exact Or.inr h1
  · exact absurd (c19_accept_needs_checksum h1) h

/-- **C40, shards.** A shard file whose last bytes are not an index with a matching checksum — in
particular any file shorter than the index — is rejected by every operation on one of its chunks: they
throw and change nothing. -/
theorem c40_torn_shard {ds : ShardedDataset E} {s : List Nat} {k : Key} (hk : ds.shardKey s = .ok k)
    {σ : Store} {b : Bytes} (hσ : σ k = some b) (hbad : ¬ IndexChecks b ds.nSlots)
    {c : List Nat} (hc : shardId c ds.cps = .ok s) :
    (∀ dest, Fails (ds.readChunk c dest) σ) ∧ Fails (ds.readRawChunk c) σ ∧ Fails (ds.chunkExists c) σ ∧
    (∀ slot, shardSlot c ds.cps = .ok slot → Fails (ds.removeChunk c) σ ∧
      ∀ data blob hnd, ds.canWrite = true → ds.handle c = .ok hnd → ds.checkChunk c false = .ok () →
        ds.makeChunkBlob c data = .ok blob → Fails (ds.writeChunk c data) σ) ∧
    (∀ out off shape cs scratch, Fails (ds.readShardTask out off shape s cs scratch) σ) ∧
    (∀ fr off shape cs scratch, Fails (ds.writeShardTask fr off shape s cs scratch) σ) := by
  have h1 : Fails (ds.readShard s) σ := by
    unfold ShardedDataset.readShard
    refine fails_ok_bind hk ?_
    rcases parse_bad hbad with hp | hp
    · refine ⟨.runtimeError, ?_⟩
      rw [run_bind, run_storeRead hσ]
      simp only [hp]
      rfl
    · refine ⟨.lengthError, ?_⟩
      rw [run_bind, run_storeRead hσ]
      simp only [hp]
      rfl
  have h2 : Fails (ds.readShardBlobs s) σ := by
    unfold ShardedDataset.readShardBlobs
    refine fails_ok_bind hk ?_
    rcases parse_bad hbad with hp | hp
    · refine ⟨.runtimeError, ?_⟩
      rw [run_bind, run_storeRead hσ]
      simp only [hp]
      rfl
    · refine ⟨.lengthError, ?_⟩
      rw [run_bind, run_storeRead hσ]
      simp only [hp]
      rfl
  have h3 : Fails (ds.readRawChunk c) σ := by
    unfold ShardedDataset.readRawChunk
    exact fails_ok_bind hc (fails_bind h1 _)
  have h4 : ∀ slot blob, shardSlot c ds.cps = .ok slot → Fails (ds.writeInnerBlob c blob) σ := by
    intro slot blob hs
    unfold ShardedDataset.writeInnerBlob
    exact fails_ok_bind hc (fails_ok_bind hs (fails_bind h2 _))
  refine ⟨?_, h3, ?_, ?_, ?_, ?_⟩
  · intro dest
    unfold ShardedDataset.readChunk
    exact fails_bind h3 _
  · unfold ShardedDataset.chunkExists
    exact fails_ok_bind hc (fails_bind h1 _)
  · intro slot hs
    refine ⟨h4 slot none hs, ?_⟩
    intro data blob hnd hw hh hck hb
    unfold ShardedDataset.writeChunk
    rw [hw, if_neg (by decide)]
    exact fails_ok_bind hh (fails_ok_bind hck (fails_ok_bind hb (h4 slot blob hs)))
  · intro out off shape cs scratch
    unfold ShardedDataset.readShardTask ShardedDataset.readShardRaw
    exact fails_bind (fails_bind h1 _) _
  · intro fr off shape cs scratch
    unfold ShardedDataset.writeShardTask
    exact fails_bind h2 _

/-- every file shorter than the index is of this kind -/
theorem c40_short_shard {b : Bytes} {n : Nat} (h : b.length < 16 * n + 4) : ¬ IndexChecks b n := by
  rintro ⟨data, index, crc, rfl, h1, h2, _⟩
  simp only [List.length_append] at h
  omega

abbrev x8 (n : Fin (256 ^ 1)) : U8.T := n

/-- A torn raw zarr chunk is accepted: the missing elements of chunk `[1, 2, 3, 4]` cut after two bytes show
what the thread's buffer happened to contain. -/
theorem c40_torn_raw_zarr_counterexample : ∃ (ds : Dataset U8) (σ : Store),
    ds.isZarr = true ∧ σ (ds.chunkKey [0]) = some [1, 2] ∧
    (run (ds.readTask ⟨0, [4], [1]⟩ [0] [4] [0] [x8 9, x8 9, x8 9, x8 8]) σ).1 =
      .ok [(0, x8 1), (1, x8 2), (2, x8 9), (3, x8 8)] ∧
    (run (ds.readTask ⟨0, [4], [1]⟩ [0] [4] [0] []) σ).1 =
      .ok [(0, x8 1), (1, x8 2), (2, x8 0), (3, x8 0)] :=
  ⟨exByteDataset, fun _ => some [1, 2], rfl, rfl, rfl, rfl⟩

example : exSharded.shardKey [0] = .ok "c/0".toList ∧ shardId [1] exSharded.cps = .ok [0] ∧
    shardSlot [1] exSharded.cps = .ok 1 ∧ ¬ IndexChecks [1, 2, 3] exSharded.nSlots :=
  ⟨rfl, rfl, rfl, c40_short_shard (by decide)⟩

end Z5.Props
