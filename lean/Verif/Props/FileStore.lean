import Verif.Proofs.Opened
import Verif.Props.Example

/-!
# C63: chunks in directories

The theorems on reading and writing in `Props/ReadWrite.lean` and `Props/Sharded.lean` are about a store of chunks.  Here
the chunks are files in a tree of directories: the directories of nested chunks are made by the threads that write,
without any lock, and a file cannot be opened if its directory is missing.
-/

namespace Z5.Props
open Z5 Spec

variable {E : Elem} {d : AnyDataset E} {p : Path}

theorem holds_write_succeeds (h : d.WF) (hk : d.PlainKeys) (hw : d.base.canWrite = true)
    (hC : d.base.codec.TotalFor (prod d.base.chunkShape * E.size)) {σ : Fs} (ht : Tidy p d.IsKey σ) {S : List Nat → E.T} (hS : d.Holds p σ S)
    {call : RegionCall E} (hv : call.Valid d.base) (scratch : Nat → List E.T) :
    ∃ ts, d.start call scratch = .ok ts ∧
      ∀ is rs, FsProg.Finished (FsProg.interleave is (d.onFiles p ts, σ)).1 rs →
        ∀ r ∈ rs, r = .ok () ∨ (r = .throw .lengthError ∧ ∃ sd, d = .sharded sd) := by
  cases d with
  | plain ds =>
    have hts : (AnyDataset.plain ds).start call scratch =
        .ok ((ds.jobs call.request call.off call.shape scratch).map Prod.snd) := by
      rw [← writeRegion_jobs h hv.1]; cases call <;> rfl
    refine ⟨_, hts, fun is rs hfin r hr => .inl ?_⟩
    obtain ⟨_, _, js, h3, h4⟩ := AnyDataset.onFiles_sim hk ht (fun _ hk => hk)
      (fun s hs => (AnyDataset.start_within h hv hts s hs).mono fun _ => AnyDataset.Touched.isKey) is
    exact writeRegion_total h hw hC hv.1 (RegionCall.spec hv) hS (h4 rs hfin) r hr
  | sharded sd =>
    have hts : (AnyDataset.sharded sd).start call scratch =
        .ok ((sd.jobs call.request call.off call.shape scratch).map Prod.snd) := by
      rw [← ShardedDataset.writeRegion_jobs h hw hv.1]; cases call <;> rfl
    refine ⟨_, hts, fun is rs hfin r hr => ?_⟩
    obtain ⟨_, _, js, h3, h4⟩ := AnyDataset.onFiles_sim hk ht (fun _ hk => hk)
      (fun s hs => (AnyDataset.start_within h hv hts s hs).mono fun _ => AnyDataset.Touched.isKey) is
    rcases ShardedDataset.writeRegion_total h hw hC hv.1 (RegionCall.spec hv) hS (h4 rs hfin) r hr with e | e
    · exact .inl e
    · exact .inr ⟨e, sd, rfl⟩

/-- **C63, writing.** In a dataset reached by successful calls, every valid region write creates its tasks, and under
every schedule that finishes them they all succeed: no thread fails because another thread makes the same
directories.  (The compressor never fails; a shard may exceed 2^63 bytes.) -/
theorem c63_write_succeeds (h : d.WF) (hk : d.PlainKeys) (hw : d.base.canWrite = true) (hC : d.base.codec.TotalFor (prod d.base.chunkShape * E.size))
    {ws : List (Write E.T)} {σ : Fs} (hreach : d.Reaches p ws σ) {call : RegionCall E} (hv : call.Valid d.base)
    (scratch : Nat → List E.T) :
    ∃ ts, d.start call scratch = .ok ts ∧
      ∀ is rs, FsProg.Finished (FsProg.interleave is (d.onFiles p ts, σ)).1 rs →
        ∀ r ∈ rs, r = .ok () ∨ (r = .throw .lengthError ∧ ∃ sd, d = .sharded sd) := by
  obtain ⟨ht, hS⟩ := hreach.effect h hk hw
  exact holds_write_succeeds h hk hw hC ht hS hv scratch

/-- **C63, frame.** At every moment of a region write, under every schedule: what has changed in the file system are the
files of chunks (or shards) that overlap the region; new directories appear only on the way to them. -/
theorem c63_write_frame (h : d.WF) (hk : d.PlainKeys) (hw : d.base.canWrite = true) {ws : List (Write E.T)} {σ : Fs}
    (hreach : d.Reaches p ws σ) {call : RegionCall E} (hv : call.Valid d.base) {scratch : Nat → List E.T}
    {ts : List (Prog Unit)} (hts : d.start call scratch = .ok ts) (is : List Nat) :
    OnlyChunks p (d.Touched call.off call.shape) σ (FsProg.interleave is (d.onFiles p ts, σ)).2 :=
  (AnyDataset.onFiles_sim hk (hreach.effect h hk hw).1 (fun _ => AnyDataset.Touched.isKey)
    (AnyDataset.start_within h hv hts) is).2.1

/-- **C63, single calls.** Every successful call leaves all files alone that are not files of this dataset's chunks. -/
theorem c63_call_frame (h : d.WF) (hk : d.PlainKeys) (hw : d.base.canWrite = true) {ws : List (Write E.T)} {σ σ' : Fs}
    (hreach : d.Reaches p ws σ) {w : Write E.T} (hp : d.Performs p w σ σ') : OnlyChunks p d.IsKey σ σ' :=
  (hp.effect h hk hw (hreach.effect h hk hw).1).2.1

/-- **C63, reading.** After any sequence of successful calls, region reads return what was written last, and the fill
value elsewhere, under every schedule, and change nothing. -/
theorem c63_read_after_write (h : d.WF) (hk : d.PlainKeys) (hw : d.base.canWrite = true) {ws : List (Write E.T)}
    {σ : Fs} (hreach : d.Reaches p ws σ) :
    ∃ A, d.ReadsAs p σ A ∧ ∀ x, InBox x d.base.shape →
      SameOrFill E.ceq d.base.fill (A x) (replay (fun _ => d.base.fill) ws x) := by
  obtain ⟨ht, hS⟩ := hreach.effect h hk hw
  exact hS.readsAs h hk ht

/-- **C63, several calls at the same time.** Whatever the schedule, the tasks of any number of concurrent region writes have
the outcomes, and the chunks the contents, that they have under some schedule on a store without directories. -/
theorem c63_concurrent_calls (h : d.WF) (hk : d.PlainKeys) (hw : d.base.canWrite = true) {ws : List (Write E.T)} {σ : Fs}
    (hreach : d.Reaches p ws σ) {calls : List (RegionCall E × (Nat → List E.T))} (hv : ∀ c ∈ calls, c.1.Valid d.base)
    {tss : List (List (Prog Unit))} (hts : calls.map (fun c => d.start c.1 c.2) = tss.map Res.ok) (is : List Nat) :
    OnlyChunks p d.IsKey σ (FsProg.interleave is (d.onFiles p tss.flatten, σ)).2 ∧
    ∃ js, (∀ k, d.IsKey k → (Prog.interleave js (tss.flatten, σ.chunks p)).2 k =
        contentOf ((FsProg.interleave is (d.onFiles p tss.flatten, σ)).2 (chunkFile p k))) ∧
      ∀ rs, FsProg.Finished (FsProg.interleave is (d.onFiles p tss.flatten, σ)).1 rs →
        Prog.Finished (Prog.interleave js (tss.flatten, σ.chunks p)).1 rs := by
  obtain ⟨_, h2, js, h3, h4⟩ := AnyDataset.onFiles_sim hk (hreach.effect h hk hw).1 (fun _ hk => hk)
    (ts := tss.flatten) (fun s hs => by
      obtain ⟨ts, hts', hs⟩ := List.mem_flatten.1 hs
      have : Res.ok ts ∈ calls.map (fun c => d.start c.1 c.2) := by
        rw [hts]; exact List.mem_map.2 ⟨ts, hts', rfl⟩
      obtain ⟨c, hc, he⟩ := List.mem_map.1 this
      exact (AnyDataset.start_within h (hv c hc) he s hs).mono fun _ => AnyDataset.Touched.isKey) is
  exact ⟨h2, js, fun k _ => by rw [h3, chunks_eq], h4⟩

/-- From every state some continuation of the schedule finishes all tasks. -/
theorem c63_progress {α : Type} (ts : List (FsProg α)) (σ : Fs) (is : List Nat) :
    ∃ js rs, FsProg.Finished (FsProg.interleave (is ++ js) (ts, σ)).1 rs := by
  obtain ⟨js, rs, h⟩ := FsProg.exists_finished (FsProg.interleave is (ts, σ))
  exact ⟨js, rs, by rw [FsProg.interleave_append]; exact h⟩

/-! ### Examples -/

/-- a file system with the directory `d` and nothing in it -/
def exDirFs : Fs := fun q => if q = [] ∨ q = ["d"] then some .dir else none

theorem exDirFs_tidy (K : Key → Prop) :
    Tidy ["d"] K exDirFs ∧ ∀ k, K k → exDirFs (chunkFile ["d"] k) = none := by
  have hc : ∀ k, exDirFs (chunkFile ["d"] k) = none := by
    intro k
    have hl : 0 < (keyNames k []).length := by rw [keyNames_length]; omega
    have hn : (chunkFile ["d"] k).length ≥ 2 := by
      unfold chunkFile; rw [List.length_append]; simp only [List.length_cons, List.length_nil]; omega
    unfold exDirFs
    rw [if_neg]
    rintro (h | h) <;> rw [h] at hn <;> simp at hn
  refine ⟨⟨?_, fun k _ => by rw [hc]; rfl, fun k _ q _ _ _ => ?_⟩, fun k _ => hc k⟩
  · intro q hq
    obtain ⟨t, ht⟩ := hq
    cases q with
    | nil => rfl
    | cons a q =>
      cases q with
      | nil => cases ht; rfl
      | cons b q => simp at ht
  · unfold exDirFs
    split <;> rfl

theorem exists_performs_files {ds : Dataset E} (h : ds.WF) (hk : (AnyDataset.plain ds).PlainKeys)
    (hw : ds.canWrite = true) (hC : ds.codec.TotalFor (prod ds.chunkShape * E.size)) {ws : List (Write E.T)} {σ : Fs}
    (hreach : (AnyDataset.plain ds).Reaches p ws σ) {off shape : List Nat} (hr : RegionOk ds.shape off shape) (v : E.T) :
    ∃ σ', (AnyDataset.plain ds).Performs p ⟨off, shape, fun _ => v⟩ σ σ' := by
  obtain ⟨ts, hts, hall⟩ := c63_write_succeeds (d := .plain ds) h hk hw hC hreach (call := .scalar off shape v) ⟨hr, trivial⟩ fun _ => []
  obtain ⟨is, rs, hfin⟩ := FsProg.exists_finished ((AnyDataset.plain ds).onFiles p ts, σ)
  refine ⟨_, .region (.scalar off shape v) (fun _ => v) (fun _ => []) ts is ⟨hr, trivial⟩ (fun _ _ => rfl) hts
    ⟨rs, hfin, fun r hr' => ?_, rfl⟩⟩
  rcases hall is rs hfin r hr' with e | ⟨_, _, e⟩
  · exact e
  · cases e

theorem exDataset_plainKeys (zarr : Bool) : (AnyDataset.plain (exDataset zarr)).PlainKeys := by
  cases zarr
  · exact .inl rfl
  · exact .inr (by decide)

/-- The theorems apply: two overlapping writes to the 5×3 example dataset, in N5 (nested chunks) or zarr (flat). -/
theorem exDataset_reaches_files (zarr : Bool) : ∃ σ, (AnyDataset.plain (exDataset zarr)).Reaches ["d"]
    [⟨[1, 0], [3, 3], fun _ => (4 : Fin (256 ^ 2))⟩, ⟨[2, 1], [1, 2], fun _ => (9 : Fin (256 ^ 2))⟩] σ := by
  have h := exDataset_wf zarr
  have hk := exDataset_plainKeys zarr
  have h0 : (AnyDataset.plain (exDataset zarr)).Reaches ["d"] [] exDirFs := .empty (exDirFs_tidy _).1 (exDirFs_tidy _).2
  obtain ⟨σ1, h1⟩ := exists_performs_files h hk rfl trivial h0 (off := [1, 0]) (shape := [3, 3])
    (by cases zarr <;> decide) (4 : Fin (256 ^ 2))
  have h1' := AnyDataset.Reaches.step h0 h1
  obtain ⟨σ2, h2⟩ := exists_performs_files h hk rfl trivial h1' (off := [2, 1]) (shape := [1, 2])
    (by cases zarr <;> decide) (9 : Fin (256 ^ 2))
  exact ⟨σ2, .step h1' h2⟩

/-- N5, chunk (0, 1) in the file `d/1/0`: the directory `d/1` has been made. -/
example : let r := FsProg.run (((exDataset false).writeChunk [0, 1] [(1 : Fin (256 ^ 2)), (2 : Fin (256 ^ 2))]).onFiles
      ["d"] (exDataset false).key.nested) exDirFs
    r.1 = .ok () ∧ isDirectory (r.2 ["d", "1"]) = true ∧ (contentOf (r.2 ["d", "1", "0"])).isSome = true ∧
      (r.2 ["d", "0"]).isNone = true := by decide +kernel

/-- a zarr dataset whose delimiter contains a `/` but is not `/` -/
def exOddDataset : Dataset U16 := { exDataset true with key := ⟨true, ['-', '/'], 2, "default".toList⟩ }

theorem exOddDataset_wf : exOddDataset.WF where
  made := rfl
  dims := ⟨by simp [exOddDataset, exDataset], by simp [exOddDataset, exDataset]⟩
  small := (exDataset_wf true).small
  bytes := (exDataset_wf true).bytes
  codec := trivial
  keyOk := by intro _; exact ⟨'-', by decide, by decide⟩
  n5 := by intro h; cases h

/-- **C63, counterexample.** With such a delimiter the dataset is well-formed and can be created, but no chunk can be
written: the directory is never made. -/
theorem c63_odd_delimiter_counterexample :
    exOddDataset.WF ∧ Tidy ["d"] (AnyDataset.plain exOddDataset).IsKey exDirFs ∧
    (Prog.run (exOddDataset.writeChunk [0, 1] (List.replicate 4 (1 : Fin (256 ^ 2)))) (fun _ => none)).1 = .ok () ∧
    (FsProg.run ((exOddDataset.writeChunk [0, 1] (List.replicate 4 (1 : Fin (256 ^ 2)))).onFiles ["d"]
      exOddDataset.key.nested) exDirFs).1 = .throw .runtimeError :=
  ⟨exOddDataset_wf, (exDirFs_tidy _).1, by decide +kernel, by decide +kernel⟩

end Z5.Props
