import Verif.Proofs.ShardChunk
import Verif.Props.Crash
import Verif.Props.ChunkApi

/-!
# C10, and C11–C15, C34, C39 for sharded datasets
-/

namespace Z5.Props
open Z5 Spec Prog ShardedDataset

variable {E : Elem} {sd : ShardedDataset E}

/-! ## C10 -/

theorem sholds_readsAs (h : sd.WF) {σ : Store} (hval : sd.Valid σ) {A : List Nat → E.T}
    (hA : HoldsB sd.toDataset (sd.blobAt σ) A) : ShardedReadsAs sd σ A :=
  fun _ _ _ scratch hr hfit hna => ShardedDataset.readSubarray_exec h hr hfit hna
    (fun _ hc => by
      obtain ⟨bs, hbs⟩ := hval _ (h.shard_inGrid hc.inGrid)
      exact ⟨bs, hbs⟩)
    (fun c hc => hA c hc.inGrid) scratch

theorem shardedReadsAs_congr {σ : Store} {A B : List Nat → E.T} (hA : ShardedReadsAs sd σ A)
    (he : ∀ x, InBox x sd.shape → A x = B x) : ShardedReadsAs sd σ B := by
  intro off out outBuf scratch hr hfit hna
  obtain ⟨ts, hts, h1⟩ := hA off out outBuf scratch hr hfit hna
  refine ⟨ts, hts, fun is rs hfin => ?_⟩
  obtain ⟨h2, h3, h4⟩ := h1 is rs hfin
  refine ⟨h2, h3, fun out' hd => ?_⟩
  obtain ⟨h5, h6, h7⟩ := h4 out' hd
  refine ⟨h5, fun i hi => ?_, h7⟩
  rw [h6 i hi, he]
  exact region_inBox hr (inRegion_add hi (All₃.length_eq hr).2)

theorem refinesB_inBox (h : sd.WF) {A S : List Nat → E.T}
    (hAS : ∀ c x, InGrid sd.shape sd.chunkShape c → InStored sd.toDataset c x →
      SameOrFill E.ceq sd.fill (A x) (S x)) :
    ∀ x, InBox x sd.shape → SameOrFill E.ceq sd.fill (A x) (S x) := by
  intro x hx
  obtain ⟨c, hc⟩ := h.exists_chunk hx
  exact hAS c x (inGrid_of_inChunk hc) (.of_inChunk hc)

theorem srefines_readsAs (h : sd.WF) {σ : Store} {S : List Nat → E.T} (hσ : sd.SRefines σ S) :
    ∃ A, ShardedReadsAs sd σ A ∧ ∀ x, InBox x sd.shape → SameOrFill E.ceq sd.fill (A x) (S x) := by
  obtain ⟨hval, A, hA, hAS⟩ := hσ
  exact ⟨A, sholds_readsAs h hval hA, refinesB_inBox h hAS⟩

/-- **C10.** After any history of successful calls on a sharded dataset, reading gives, for every element,
the value of the last write covering it (the fill value if there was none); a value that is `==` to the fill
value may come back as the fill value. -/
theorem c10_read_after_write_sharded (h : sd.WF) (hw : sd.canWrite = true)
    {ws : List (Write E.T)} {σ : Store} (hreach : ShardedReaches sd ws σ) :
    ∃ A, ShardedReadsAs sd σ A ∧ ∀ x, InBox x sd.shape →
      SameOrFill E.ceq sd.fill (A x) (replay (fun _ => sd.fill) ws x) :=
  srefines_readsAs h (ShardedDataset.reaches_refines h hw hreach)

/-- **C10**, element types whose `==` is equality. -/
theorem c10_read_after_write_sharded_exact (h : sd.WF) (hw : sd.canWrite = true) (hE : E.Faithful)
    {ws : List (Write E.T)} {σ : Store} (hreach : ShardedReaches sd ws σ) :
    ShardedReadsAs sd σ (replay (fun _ => sd.fill) ws) := by
  obtain ⟨A, hA, hS⟩ := c10_read_after_write_sharded h hw hreach
  exact shardedReadsAs_congr hA fun x hx => faithful_eq hE (hS x hx)

/-- **C10, writing.** A valid region write creates its tasks and never has undefined behaviour. -/
theorem c10_write_defined (h : sd.WF) (hw : sd.canWrite = true) {ws : List (Write E.T)} {σ : Store}
    (hreach : ShardedReaches sd ws σ) {call : RegionCall E} (hv : call.Valid sd.toDataset)
    (scratch : Nat → List E.T) :
    ∃ ts, call.startSharded sd scratch = .ok ts ∧
      ∀ is rs, Finished (interleave is (ts, σ)).1 rs → ∀ r ∈ rs, r ≠ .ub := by
  rw [startSharded_eq]
  have hj := ShardedDataset.writeRegion_jobs h hw hv.1 call.request scratch
  exact ⟨_, hj, fun is rs hf => (ShardedDataset.writeRegion_refines h hw hv.1 (RegionCall.spec hv)
    (ShardedDataset.reaches_refines h hw hreach) hj hf).1⟩

/-- **C10, writing.** With a compressor that never fails, every schedule that finishes the tasks of a valid region write
completes it: a task can fail only if its shard would have 2^63 bytes. -/
theorem c10_write_succeeds (h : sd.WF) (hw : sd.canWrite = true) (hC : sd.codec.TotalFor (prod sd.chunkShape * E.size)) {ws : List (Write E.T)}
    {σ : Store} (hreach : ShardedReaches sd ws σ) {call : RegionCall E} (hv : call.Valid sd.toDataset)
    (scratch : Nat → List E.T) :
    ∃ ts, call.startSharded sd scratch = .ok ts ∧
      ∀ is rs, Finished (interleave is (ts, σ)).1 rs → ∀ r ∈ rs, r = .ok () ∨ r = .throw .lengthError := by
  rw [startSharded_eq]
  exact ⟨_, ShardedDataset.writeRegion_jobs h hw hv.1 call.request scratch, fun is rs hf =>
    ShardedDataset.writeRegion_total h hw hC hv.1 (RegionCall.spec hv)
      (ShardedDataset.reaches_refines h hw hreach) hf⟩

theorem exSharded_wf : exSharded.WF where
  made := rfl
  base :=
    { made := rfl
      dims := ⟨by decide, by decide⟩
      small := by decide
      bytes := by decide
      codec := trivial
      keyOk := by intro _; exact ⟨'/', by decide, by decide⟩
      n5 := by decide }
  shards := by decide
  slots := by decide

/-- what the example writes: 9 to elements 1–4 (two shards), then 5 to chunk 0 -/
def exShardedCall : RegionCall U8 := .scalar [1] [4] (9 : Fin (256 ^ 1))

def exShardedTasks : List (Prog Unit) :=
  match exShardedCall.startSharded exSharded (fun _ => []) with
  | .ok ts => ts
  | _ => []

def exSchedule : List Nat := List.replicate 60 0 ++ List.replicate 60 1

def exShardedStore : Store := (interleave exSchedule (exShardedTasks, fun _ => none)).2

theorem exSharded_reaches : ShardedReaches exSharded
    [⟨[1], [4], fun _ => (9 : Fin (256 ^ 1))⟩] exShardedStore := by
  refine ShardedReaches.step (ws := []) (.empty (σ := fun _ => none) fun _ _ => rfl) ?_
  refine .region exShardedCall (fun _ => (9 : Fin (256 ^ 1))) (fun _ => []) exShardedTasks exSchedule
    ⟨by decide, trivial⟩ (fun _ _ => rfl) rfl ⟨[.ok (), .ok ()], ?_, by simp, rfl⟩
  unfold Finished
  decide +kernel

theorem u8_faithful : U8.Faithful := fun a b => by
  exact @decide_eq_true_iff (a = b) (instDecidableEqFin (256 ^ 1) a b)

/-- The theorems apply: a write that covers parts of chunks in two shards. -/
example : ∃ σ, ShardedReadsAs exSharded σ (replay (fun _ => (0 : Fin (256 ^ 1)))
    [⟨[1], [4], fun _ => (9 : Fin (256 ^ 1))⟩]) ∧
    (run (exSharded.readRawChunk [0]) σ).1 = .ok [0, 9] :=
  ⟨_, c10_read_after_write_sharded_exact exSharded_wf rfl u8_faithful exSharded_reaches,
    by decide +kernel⟩

/-! ## C11 -/

/-- **C11, sharded.** A region write leaves everything outside the region as it was, *even if some of its
tasks fail*: files of shards that do not overlap the region are untouched, the stored bytes of every chunk
that does not overlap the region are the same (also in shard files that are rewritten), reading still works,
every element outside the region reads as before, and every element inside as before or as the new value. -/
theorem c11_sharded_frame (h : sd.WF) (hw : sd.canWrite = true) {ws : List (Write E.T)} {σ : Store}
    (hreach : ShardedReaches sd ws σ) {call : RegionCall E} (hv : call.Valid sd.toDataset)
    {scratch : Nat → List E.T} {ts : List (Prog Unit)} (hts : call.startSharded sd scratch = .ok ts)
    {is : List Nat} {rs : List (Res Unit)} (hfin : Finished (interleave is (ts, σ)).1 rs) :
    (∀ k, (∀ s x, InRegion x call.off call.shape → InChunk sd.shape sd.shardShape s x →
      getChunkKey sd.key s ≠ k) → (interleave is (ts, σ)).2 k = σ k) ∧
    (∀ c, InGrid sd.shape sd.chunkShape c →
      (∀ x, InRegion x call.off call.shape → ¬ InChunk sd.shape sd.chunkShape c x) →
      ∃ b, run (sd.readRawChunk c) σ = (.ok b, σ) ∧
        run (sd.readRawChunk c) (interleave is (ts, σ)).2 = (.ok b, (interleave is (ts, σ)).2)) ∧
    ∃ A A', ShardedReadsAs sd σ A ∧ ShardedReadsAs sd (interleave is (ts, σ)).2 A' ∧
      (∀ x, InBox x sd.shape → ¬ InRegion x call.off call.shape →
        SameOrFill E.ceq sd.fill (A' x) (A x)) ∧
      (∀ x, InRegion x call.off call.shape → SameOrFill E.ceq sd.fill (A' x) (A x) ∨
        ∃ v, call.value (subV x call.off) = some v ∧ SameOrFill E.ceq sd.fill (A' x) v) := by
  have hspec := RegionCall.spec hv
  obtain ⟨hval, A, hA, hAS⟩ := ShardedDataset.reaches_refines h hw hreach
  rw [startSharded_eq] at hts
  have hts' := hts
  rw [ShardedDataset.writeRegion_jobs h hw hv.1] at hts'
  have hj := finished_jobs (ShardedDataset.jobsOk h hv.1 _ _) (Res.ok.inj hts' ▸ hfin)
  rw [Res.ok.inj hts'] at hj
  obtain ⟨_, e2, _, e3, _⟩ := writeRegion_effect h hw hv.1 hspec hval hA scratch
  refine ⟨?_, ?_, ?_⟩
  · intro k hk
    rw [hj.1]
    refine finalOf_not_mem (fun j hjm he => ?_) σ
    obtain ⟨g, hg, i, rfl⟩ := ShardedDataset.mem_jobs hjm
    obtain ⟨x, h1, h2⟩ := (h.mem_group_ids hv.1).1 (List.mem_map.2 ⟨g, hg, rfl⟩)
    exact hk _ x h1 h2 he
  · intro c hc hn
    refine ⟨_, (run_readRawChunk h hval hc).1, ?_⟩
    rw [hj.1, (run_readRawChunk h e2 hc).1]
    rcases e3 c hc with h3 | ⟨⟨x, h3, h4⟩, _⟩
    · rw [h3]
    · exact absurd h4 (hn x h3)
  · obtain ⟨S', hS', hx⟩ := (ShardedDataset.writeRegion_refines h hw hv.1 hspec
      ⟨hval, A, hA, fun _ _ _ _ => Or.inl rfl⟩ hts hfin).2.1
    obtain ⟨A', hA', hAS'⟩ := srefines_readsAs h hS'
    refine ⟨A, A', sholds_readsAs h hval hA, hA', ?_, ?_⟩
    · intro x hb hn
      have h1 := hAS' x hb
      rcases hx x with h2 | ⟨h2, _⟩
      · rw [h2] at h1; exact h1
      · exact absurd h2 hn
    · intro x hreg
      have h1 := hAS' x (region_inBox hv.1 hreg)
      rcases hx x with h2 | ⟨_, h2⟩
      · rw [h2] at h1; exact Or.inl h1
      · rw [h2] at h1
        exact Or.inr ⟨_, RegionCall.value_some hv (region_sub hreg).2, h1⟩

example : exShardedCall.Valid exSharded.toDataset ∧
    exShardedCall.startSharded exSharded (fun _ => []) = .ok exShardedTasks ∧
    Finished (interleave exSchedule (exShardedTasks, exShardedStore)).1 [.ok (), .ok ()] :=
  ⟨⟨by decide, trivial⟩, rfl, by unfold Finished; decide +kernel⟩

/-! ## C12 -/

/-- **C12, sharded.** Elements that no write ever covered read as the fill value, exactly. -/
theorem c12_sharded_unwritten_is_fill (h : sd.WF) (hw : sd.canWrite = true) {ws : List (Write E.T)}
    {σ : Store} (hreach : ShardedReaches sd ws σ) :
    ∃ A, ShardedReadsAs sd σ A ∧ ∀ x, InBox x sd.shape → (∀ w ∈ ws, ¬ InRegion x w.off w.shape) →
      A x = sd.fill := by
  obtain ⟨A, hA, hS⟩ := c10_read_after_write_sharded h hw hreach
  refine ⟨A, hA, fun x hx hn => ?_⟩
  have := hS x hx
  rw [replay_not_covered ws _ x hn] at this
  rcases this with h1 | ⟨_, h1⟩ <;> exact h1

/-- **C12, sharded, storage.** After region writes a chunk exists iff one of its elements differs from the
fill value, and the file of a shard exists iff one of the elements of the shard differs from the fill
value. -/
theorem c12_sharded_stored_iff (h : sd.WF) (hw : sd.canWrite = true)
    (hf : E.ceq sd.fill sd.fill = true) {ws : List (Write E.T)} {σ : Store}
    (hreach : ShardedReaches sd ws σ) (hws : ∀ w ∈ ws, RegionOk sd.shape w.off w.shape) :
    (∀ c, InGrid sd.shape sd.chunkShape c → ∃ b, run (sd.chunkExists c) σ = (.ok b, σ) ∧
      (b = true ↔ ∃ x, InChunk sd.shape sd.chunkShape c x ∧
        E.ceq (replay (fun _ => sd.fill) ws x) sd.fill = false)) ∧
    (∀ s, InGrid sd.shape sd.shardShape s →
      (σ (getChunkKey sd.key s) ≠ none ↔ ∃ x, InChunk sd.shape sd.shardShape s x ∧
        E.ceq (replay (fun _ => sd.fill) ws x) sd.fill = false)) := by
  have hσ := ShardedDataset.reaches_refines h hw hreach
  have key := fun c hc => blob_some_iff (c := c) hf hσ.2 (ShardedDataset.reaches_sparse h hw hreach) hws hc
  refine ⟨?_, ?_⟩
  · intro c hc
    refine ⟨_, (run_readRawChunk h hσ.1 hc).2, ?_⟩
    rw [Option.isSome_iff_ne_none]
    exact key c hc
  · intro s hs
    rw [← skey, file_iff h hσ.1 (ShardedDataset.reaches_tidy h hw hreach) hs]
    constructor
    · rintro ⟨c, hc, hcs, hb⟩
      obtain ⟨x, hx, hne⟩ := (key c hc).1 hb
      exact ⟨x, hcs ▸ h.inChunk_shard hx, hne⟩
    · rintro ⟨x, hx, hne⟩
      obtain ⟨c, hc, hcs⟩ := h.exists_chunk_of_shard hx
      exact ⟨c, inGrid_of_inChunk hc, hcs, (key c (inGrid_of_inChunk hc)).2 ⟨x, hc, hne⟩⟩

example : U8.ceq exSharded.fill exSharded.fill = true ∧
    (∀ w ∈ [(⟨[1], [4], fun _ => (9 : Fin (256 ^ 1))⟩ : Write U8.T)], RegionOk exSharded.shape w.off w.shape) ∧
    InGrid exSharded.shape exSharded.shardShape [1] := by
  refine ⟨by decide, ?_, by decide⟩
  intro w hw
  cases List.mem_singleton.1 hw
  decide

/-! ## C13 -/

theorem shardedRead_readOnly {out : View} {off : List Nat} {scratch : Nat → List E.T}
    {ts : List (Prog (List (Nat × E.T)))} (hts : sd.readSubarray out off scratch = .ok ts) :
    ∀ p ∈ ts, ReadOnly p := by
  rw [ShardedDataset.readSubarray] at hts
  cases hc : sd.requestChunks off out.shape with
  | throw e => rw [hc] at hts; simp at hts
  | ub => rw [hc] at hts; simp at hts
  | ok cs =>
    rw [hc, Res.ok_bind] at hts
    cases hp : chunksPerShard sd.shardShape sd.chunkShape with
    | throw e => rw [hp] at hts; simp at hts
    | ub => rw [hp] at hts; simp at hts
    | ok cps =>
      rw [hp, Res.ok_bind] at hts
      cases hg : groupChunks cps cs [] with
      | throw e => rw [hg] at hts; simp at hts
      | ub => rw [hg] at hts; simp at hts
      | ok gs =>
        rw [hg, Res.ok_bind] at hts
        cases hts
        intro p hp
        obtain ⟨i, hi, rfl⟩ := List.getElem_of_mem hp
        rw [List.getElem_mapIdx]
        exact readOnly_readShardTask ..

/-- **C13, sharded.** `readSubarray` on *any* store: the store is not changed and the outcome of every task
is the same under every schedule. -/
theorem c13_sharded_deterministic {out : View} {off : List Nat} {scratch : Nat → List E.T}
    {ts : List (Prog (List (Nat × E.T)))} (hts : sd.readSubarray out off scratch = .ok ts) (σ : Store)
    {is is' : List Nat} {rs rs' : List (Res (List (Nat × E.T)))}
    (hf : Finished (interleave is (ts, σ)).1 rs) (hf' : Finished (interleave is' (ts, σ)).1 rs') :
    (interleave is (ts, σ)).2 = σ ∧ rs = rs' := by
  obtain ⟨h1, h2⟩ := finished_readOnly (shardedRead_readOnly hts) hf
  obtain ⟨_, h3⟩ := finished_readOnly (shardedRead_readOnly hts) hf'
  exact ⟨h1, by rw [h2, h3]⟩

/-- **C13, sharded**, well-formed stores: two runs of a `readSubarray` call fill the output buffer with the
same content, whatever the schedules, the order of the memory writes and the reused buffers. -/
theorem c13_sharded_same_output (h : sd.WF) (hw : sd.canWrite = true) {ws : List (Write E.T)} {σ : Store}
    (hreach : ShardedReaches sd ws σ) {out : View} {off : List Nat} {outBuf : List E.T}
    (hr : RegionOk sd.shape off out.shape) (hfit : FitsIn out outBuf.length) (hna : NoAlias out)
    {s s' : Nat → List E.T} {ts ts' : List (Prog (List (Nat × E.T)))}
    (hts : sd.readSubarray out off s = .ok ts) (hts' : sd.readSubarray out off s' = .ok ts')
    {is is' : List Nat} {rs rs' : List (Res (List (Nat × E.T)))}
    (hf : Finished (interleave is (ts, σ)).1 rs) (hf' : Finished (interleave is' (ts', σ)).1 rs') :
    ∃ o, Delivers outBuf rs o ∧ Delivers outBuf rs' o ∧
      (∀ o', Delivers outBuf rs o' → o' = o) ∧ (∀ o', Delivers outBuf rs' o' → o' = o) := by
  obtain ⟨A, hA, _⟩ := c10_read_after_write_sharded h hw hreach
  obtain ⟨_, e1, h1⟩ := hA off out outBuf s hr hfit hna
  obtain ⟨_, e2, h2⟩ := hA off out outBuf s' hr hfit hna
  cases hts.symm.trans e1
  cases hts'.symm.trans e2
  obtain ⟨_, ⟨o, ho⟩, h1⟩ := h1 is rs hf
  obtain ⟨_, ⟨o', ho'⟩, h2⟩ := h2 is' rs' hf'
  have hoo : o' = o := delivers_unique h2 h1 ho' ho
  subst hoo
  exact ⟨_, ho, ho', fun b hb => delivers_unique h1 h1 hb ho, fun b hb => delivers_unique h2 h2 hb ho'⟩

example : RegionOk exSharded.shape [1] [4] ∧ FitsIn ⟨0, [4], [1]⟩ 4 ∧ NoAlias ⟨0, [4], [1]⟩ := by
  refine ⟨by decide, ⟨rfl, ?_⟩, ?_⟩
  · intro c hc
    match c, hc with
    | [i], hc =>
      have h1 : i < 4 := hc.1
      simp only [dot_cons, dot_nil_left]
      omega
  · intro c d hc hd he
    match c, d, hc, hd, he with
    | [i], [k], hc, hd, he =>
      simp only [dot_cons, dot_nil_left] at he
      have : i = k := by omega
      rw [this]

/-! ## C14 -/

/-- **C14, sharded.** Two runs of a region write from the same well-formed store end in the same store and
with the same outcome of every task, whatever the schedules and the content of the reused buffers. -/
theorem c14_sharded_write_deterministic (h : sd.WF) (hw : sd.canWrite = true) {ws : List (Write E.T)}
    {σ : Store} (hreach : ShardedReaches sd ws σ) {call : RegionCall E} (hv : call.Valid sd.toDataset)
    {s s' : Nat → List E.T} {ts ts' : List (Prog Unit)}
    (hts : call.startSharded sd s = .ok ts) (hts' : call.startSharded sd s' = .ok ts')
    {is is' : List Nat} {rs rs' : List (Res Unit)}
    (hf : Finished (interleave is (ts, σ)).1 rs) (hf' : Finished (interleave is' (ts', σ)).1 rs') :
    (interleave is (ts, σ)).2 = (interleave is' (ts', σ)).2 ∧ rs = rs' := by
  obtain ⟨hval, A, hA, _⟩ := ShardedDataset.reaches_refines h hw hreach
  rw [startSharded_eq, ShardedDataset.writeRegion_jobs h hw hv.1] at hts hts'
  cases hts
  cases hts'
  obtain ⟨h1, h2⟩ := finished_jobs (ShardedDataset.jobsOk h hv.1 _ _) hf
  obtain ⟨h3, h4⟩ := finished_jobs (ShardedDataset.jobsOk h hv.1 _ _) hf'
  obtain ⟨h5, h6⟩ := ShardedDataset.finalOf_scratch h hv.1 (RegionCall.spec hv) hval hA s s'
  exact ⟨by rw [h1, h3, h5], by rw [h2, h4, h6]⟩

end Z5.Props
