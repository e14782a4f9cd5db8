import Verif.Proofs.Faults
import Verif.Model.S3

/-!
# Property C55: failing S3 requests
-/

namespace Z5.Props
open Z5 Spec Prog

variable {E : Elem} {ds : Dataset E} {sd : ShardedDataset E}

/-- **C55, requests.** What the functions that send one request do when the service answers, and when it reports an
error (other than "no such object") with or without having carried out the request: the four cases of `Fate`.  (`b` is
the bucket when the request arrives.) -/
theorem c55_requests (k : Key) (o : S3Obj) (e : Event) (es : List Event) (b₀ b : Bucket) (hb : b = e.change b₀) :
    ((∀ kind, e.error kind = none) →
      getObject k ⟨e :: es, b₀⟩ = (some (.ok (b.get k)), ⟨es, b⟩) ∧
      objectExists k ⟨e :: es, b₀⟩ = (some (.ok (b.get k).isSome), ⟨es, b⟩) ∧
      putObject k o ⟨e :: es, b₀⟩ = (some (.ok ()), ⟨es, b.put k o⟩) ∧
      deleteObject k ⟨e :: es, b₀⟩ = (some (.ok ()), ⟨es, b.erase [k]⟩)) ∧
    ∀ done : Bool, (∀ kind, e.error kind = some (.other, done)) →
      getObject k ⟨e :: es, b₀⟩ = (some (.throw .runtimeError), ⟨es, b⟩) ∧
      objectExists k ⟨e :: es, b₀⟩ = (some (.ok false), ⟨es, b⟩) ∧
      putObject k o ⟨e :: es, b₀⟩ = (some (.throw .runtimeError), ⟨es, if done then b.put k o else b⟩) ∧
      deleteObject k ⟨e :: es, b₀⟩ = (some (.throw .runtimeError), ⟨es, if done then b.erase [k] else b⟩) := by
  subst hb
  have hb : ∀ {α β : Type} (x : S3M α) (f : α → S3M β) (w : World), (x >>= f) w =
      match x w with
      | (some (.ok a), w) => f a w
      | (some (.throw e), w) => (some (.throw e), w)
      | (some .ub, w) => (some .ub, w)
      | (none, w) => (none, w) := fun _ _ _ => rfl
  refine ⟨fun he => ⟨?_, ?_, ?_, ?_⟩, fun done he => ⟨?_, ?_, ?_, ?_⟩⟩
  · unfold getObject
    rw [hb]
    simp only [request, Event.serve, he, getReq]
    cases (e.change b₀).get k <;> rfl
  · unfold objectExists
    rw [hb]
    simp only [request, Event.serve, he, headReq]
    cases (e.change b₀).get k <;> rfl
  · unfold putObject
    rw [hb]
    simp only [request, Event.serve, he, putReq]
    rfl
  · unfold deleteObject
    rw [hb]
    simp only [request, Event.serve, he, deleteReq]
    rfl
  · unfold getObject
    rw [hb]
    simp only [request, Event.serve, he, getReq]
    cases (e.change b₀).get k <;> cases done <;> rfl
  · unfold objectExists
    rw [hb]
    simp only [request, Event.serve, he, headReq]
    cases (e.change b₀).get k <;> cases done <;> rfl
  · unfold putObject
    rw [hb]
    simp only [request, Event.serve, he, putReq]
    rfl
  · unfold deleteObject
    rw [hb]
    simp only [request, Event.serve, he, deleteReq]
    rfl

/-! ### reading -/

/-- the results of read-only tasks with faults, if none has thrown -/
theorem faulty_reads {α : Type} {ts : List (Prog α)} (hro : ∀ p ∈ ts, ReadOnly p) {fate : Nat → Nat → Fate}
    (hf : ∀ j n, fate j n ≠ .headFailed) {σ : Store} {is : List Nat} {rs : List (Res α)}
    (hfin : Finished (interleave is (allWithFaults fate ts, σ)).1 rs) :
    (interleave is (allWithFaults fate ts, σ)).2 = σ ∧
    (rs = ts.map (fun p => (run p σ).1) ∨ .throw .runtimeError ∈ rs) := by
  obtain ⟨h1, h2⟩ := finished_readOnly (by
    intro p hp
    obtain ⟨j, hj, rfl⟩ := List.mem_mapIdx.1 hp
    exact readOnly_withFaults (hro _ (List.getElem_mem hj))) hfin
  refine ⟨h1, ?_⟩
  by_cases ht : .throw .runtimeError ∈ rs
  · exact .inr ht
  · left
    apply List.ext_getElem
    · rw [h2]
      simp [allWithFaults]
    · intro j hj hj'
      have hj2 : j < ts.length := by simpa using hj'
      have e : rs[j] = (run (withFaults (fate j) ts[j]) σ).1 := by
        simp only [h2, allWithFaults, List.getElem_map, List.getElem_mapIdx]
      rw [e, List.getElem_map]
      rcases run_withFaults ts[j] (fate j) (hf j) σ with h | h
      · rw [h]
      · exact absurd (by rw [← h, ← e]; exact List.getElem_mem hj) ht

/-- **C55, reading.** In a region read some requests fail, but no `HeadObject` request.  Then nothing is changed, and the
call throws, or it delivers the elements of the array that reading gives without faults. -/
theorem c55_read (h : ds.WF) {σ : Store} {A : List Nat → E.T} (hA : ReadsAs ds σ A)
    {off : List Nat} {out : View} {outBuf : List E.T} {scratch : Nat → List E.T}
    (hr : RegionOk ds.shape off out.shape) (hfit : FitsIn out outBuf.length) (hna : NoAlias out)
    {ts : List (Prog (List (Nat × E.T)))} (hts : ds.readSubarray out off scratch = .ok ts)
    {fate : Nat → Nat → Fate} (hf : ∀ j n, fate j n ≠ .headFailed)
    {is : List Nat} {rs : List (Res (List (Nat × E.T)))}
    (hfin : Finished (interleave is (allWithFaults fate ts, σ)).1 rs) :
    (interleave is (allWithFaults fate ts, σ)).2 = σ ∧
    (.throw .runtimeError ∈ rs ∨ ∃ out', Delivers outBuf rs out') ∧
    ∀ out', Delivers outBuf rs out' → out'.length = outBuf.length ∧
      (∀ i, InBox i out.shape → out'[out.base + dot i out.strides]? = some (A (addV off i))) ∧
      (∀ a, (∀ i, InBox i out.shape → out.base + dot i out.strides ≠ a) → out'[a]? = outBuf[a]?) := by
  obtain ⟨ts', hts', hall⟩ := hA off out outBuf scratch hr hfit hna
  rw [hts] at hts'
  cases hts'
  have hro : ∀ p ∈ ts, ReadOnly p := by
    rw [Dataset.readSubarray, h.requestChunks_ok hr] at hts
    cases hts
    intro p hp
    obtain ⟨j, hj, rfl⟩ := List.mem_mapIdx.1 hp
    exact readOnly_readTask ..
  obtain ⟨h1, h2⟩ := faulty_reads hro hf hfin
  refine ⟨h1, ?_⟩
  obtain ⟨is', rs', hfin'⟩ := exists_finished (ts, σ)
  have hrs' := (finished_readOnly hro hfin').2
  obtain ⟨_, h4, h5⟩ := hall is' rs' hfin'
  rcases h2 with h2 | h2
  · rw [h2, ← hrs']
    exact ⟨.inr h4, h5⟩
  · refine ⟨.inl h2, fun out' ⟨ps, order, hps, _⟩ => ?_⟩
    rw [hps] at h2
    obtain ⟨p, _, hp⟩ := List.mem_map.1 h2
    cases hp

/-- **C55, reading a sharded dataset.** (There are no `HeadObject` requests.) -/
theorem c55_sharded_read (h : sd.WF) {σ : Store} {A : List Nat → E.T} (hA : ShardedReadsAs sd σ A)
    {off : List Nat} {out : View} {outBuf : List E.T} {scratch : Nat → List E.T}
    (hr : RegionOk sd.shape off out.shape) (hfit : FitsIn out outBuf.length) (hna : NoAlias out)
    {ts : List (Prog (List (Nat × E.T)))} (hts : sd.readSubarray out off scratch = .ok ts)
    {fate : Nat → Nat → Fate} (hf : ∀ j n, fate j n ≠ .headFailed)
    {is : List Nat} {rs : List (Res (List (Nat × E.T)))}
    (hfin : Finished (interleave is (allWithFaults fate ts, σ)).1 rs) :
    (interleave is (allWithFaults fate ts, σ)).2 = σ ∧
    (.throw .runtimeError ∈ rs ∨ ∃ out', Delivers outBuf rs out') ∧
    ∀ out', Delivers outBuf rs out' → out'.length = outBuf.length ∧
      (∀ i, InBox i out.shape → out'[out.base + dot i out.strides]? = some (A (addV off i))) ∧
      (∀ a, (∀ i, InBox i out.shape → out.base + dot i out.strides ≠ a) → out'[a]? = outBuf[a]?) := by
  obtain ⟨ts', hts', hall⟩ := hA off out outBuf scratch hr hfit hna
  rw [hts] at hts'
  cases hts'
  have hro : ∀ p ∈ ts, ReadOnly p := by
    rw [ShardedDataset.readSubarray, h.base.requestChunks_ok hr, Res.ok_bind, h.cps_ok, Res.ok_bind,
      (h.groups_ok hr).1] at hts
    cases hts
    intro p hp
    obtain ⟨j, hj, rfl⟩ := List.mem_mapIdx.1 hp
    exact ShardedDataset.readOnly_readShardTask ..
  obtain ⟨h1, h2⟩ := faulty_reads hro hf hfin
  refine ⟨h1, ?_⟩
  obtain ⟨is', rs', hfin'⟩ := exists_finished (ts, σ)
  have hrs' := (finished_readOnly hro hfin').2
  obtain ⟨_, h4, h5⟩ := hall is' rs' hfin'
  rcases h2 with h2 | h2
  · rw [h2, ← hrs']
    exact ⟨.inr h4, h5⟩
  · refine ⟨.inl h2, fun out' ⟨ps, order, hps, _⟩ => ?_⟩
    rw [hps] at h2
    obtain ⟨p, _, hp⟩ := List.mem_map.1 h2
    cases hp

/-! ### writing -/

theorem faulty_writes {α : Type} {jobs : List (Key × Prog α)} (hok : JobsOk jobs) (hat : AtomicJobs jobs)
    {fate : Nat → Nat → Fate} (hf : ∀ j n, fate j n ≠ .headFailed) {σ : Store} {is : List Nat} {rs : List (Res α)}
    (hfin : Finished (interleave is (allWithFaults fate (jobs.map Prod.snd), σ)).1 rs)
    {full : List Nat} {rs' : List (Res α)} (hfull : Finished (interleave full (jobs.map Prod.snd, σ)).1 rs') :
    (∀ k, (interleave is (allWithFaults fate (jobs.map Prod.snd), σ)).2 k = σ k ∨
      (interleave is (allWithFaults fate (jobs.map Prod.snd), σ)).2 k = (interleave full (jobs.map Prod.snd, σ)).2 k) ∧
    (.throw .runtimeError ∈ rs ∨ rs = rs' ∧
      (interleave is (allWithFaults fate (jobs.map Prod.snd), σ)).2 = (interleave full (jobs.map Prod.snd, σ)).2) := by
  obtain ⟨h1, h2, h3, h4⟩ := finished_faulty hok hat hf hfin
  refine ⟨atomic_objects hok σ _ h1 h2 hfull, ?_⟩
  obtain ⟨f1, f2⟩ := finished_jobs hok hfull
  by_cases ht : .throw .runtimeError ∈ rs
  · exact .inl ht
  · right
    have key : ∀ (j : Nat) (hj : j < jobs.length), rs[j]'(by omega) = (exec1 jobs[j].2 (σ jobs[j].1)).1 ∧
        (interleave is (allWithFaults fate (jobs.map Prod.snd), σ)).2 jobs[j].1 = (exec1 jobs[j].2 (σ jobs[j].1)).2 := by
      intro j hj
      have hjr : j < rs.length := by omega
      rcases h4 j jobs[j].1 jobs[j].2 rs[j] (List.getElem?_eq_getElem hj) (List.getElem?_eq_getElem hjr) with h | h
      · exact absurd (h ▸ List.getElem_mem hjr) ht
      · exact h
    refine ⟨?_, ?_⟩
    · rw [f2]
      apply List.ext_getElem
      · rw [List.length_map, h3]
      · intro j hj hj'
        rw [List.getElem_map]
        exact (key j (by omega)).1
    · rw [f1]
      funext k
      by_cases hk : ∀ j ∈ jobs, j.1 ≠ k
      · rw [h1 k hk, finalOf_not_mem hk]
      · simp only [Classical.not_forall, Classical.not_not] at hk
        obtain ⟨e, he, rfl⟩ := hk
        rw [finalOf_mem hok he]
        obtain ⟨j, hj, rfl⟩ := List.getElem_of_mem he
        exact (key j hj).2

/-- **C55, writing.** In a region write to S3 (even to a damaged dataset) some requests fail, but no `HeadObject`
request.  Then every object is as before the call or as the call without faults leaves it, and if no task throws a
`runtime_error` the outcome and all objects are those of the call without faults. -/
theorem c55_write (h : ds.WF) (hs : ds.backend = .s3) {call : RegionCall E}
    (hv : RegionOk ds.shape call.off call.shape) {scratch : Nat → List E.T} {ts : List (Prog Unit)}
    (hts : call.start ds scratch = .ok ts) {fate : Nat → Nat → Fate} (hf : ∀ j n, fate j n ≠ .headFailed)
    {σ : Store} {is : List Nat} {rs : List (Res Unit)}
    (hfin : Finished (interleave is (allWithFaults fate ts, σ)).1 rs)
    {full : List Nat} {rs' : List (Res Unit)} (hfull : Finished (interleave full (ts, σ)).1 rs') :
    (∀ k, (interleave is (allWithFaults fate ts, σ)).2 k = σ k ∨
      (interleave is (allWithFaults fate ts, σ)).2 k = (interleave full (ts, σ)).2 k) ∧
    (.throw .runtimeError ∈ rs ∨
      rs = rs' ∧ (interleave is (allWithFaults fate ts, σ)).2 = (interleave full (ts, σ)).2) := by
  rw [RegionCall.start_eq, writeRegion_jobs h hv] at hts
  cases hts
  exact faulty_writes (jobsOk h hv _ _) (jobs_atomic hs _ _ _ _) hf hfin hfull

/-- **C55, writing a sharded dataset.** -/
theorem c55_sharded_write (h : sd.WF) (hs : sd.backend = .s3) (hw : sd.canWrite = true) {call : RegionCall E}
    (hv : RegionOk sd.shape call.off call.shape) {scratch : Nat → List E.T} {ts : List (Prog Unit)}
    (hts : call.startSharded sd scratch = .ok ts) {fate : Nat → Nat → Fate} (hf : ∀ j n, fate j n ≠ .headFailed)
    {σ : Store} {is : List Nat} {rs : List (Res Unit)}
    (hfin : Finished (interleave is (allWithFaults fate ts, σ)).1 rs)
    {full : List Nat} {rs' : List (Res Unit)} (hfull : Finished (interleave full (ts, σ)).1 rs') :
    (∀ k, (interleave is (allWithFaults fate ts, σ)).2 k = σ k ∨
      (interleave is (allWithFaults fate ts, σ)).2 k = (interleave full (ts, σ)).2 k) ∧
    (.throw .runtimeError ∈ rs ∨
      rs = rs' ∧ (interleave is (allWithFaults fate ts, σ)).2 = (interleave full (ts, σ)).2) := by
  rw [ShardedDataset.startSharded_eq, ShardedDataset.writeRegion_jobs h hw hv] at hts
  cases hts
  exact faulty_writes (ShardedDataset.jobsOk h hv _ _) (sharded_jobs_atomic hs _ _ _ _) hf hfin hfull

/-- **C55, reading after a failed write.** The whole dataset can be read, and every chunk has wholly its old elements or
wholly the new ones. -/
theorem c55_write_readable (h : ds.WF) (hs : ds.backend = .s3) (hw : ds.canWrite = true) {ws : List (Write E.T)}
    {σ : Store} (hreach : Reaches ds ws σ) {call : RegionCall E} (hv : call.Valid ds) {scratch : Nat → List E.T}
    {ts : List (Prog Unit)} (hts : call.start ds scratch = .ok ts)
    {fate : Nat → Nat → Fate} (hf : ∀ j n, fate j n ≠ .headFailed) {is : List Nat} {rs : List (Res Unit)}
    (hfin : Finished (interleave is (allWithFaults fate ts, σ)).1 rs) :
    ∃ A A', ReadsAs ds σ A ∧ ReadsAs ds (interleave is (allWithFaults fate ts, σ)).2 A' ∧
      ∀ c, InGrid ds.shape ds.chunkShape c → OldIn ds ds.chunkShape A A' c ∨ NewIn ds ds.chunkShape call A A' c := by
  have hts' := hts
  rw [RegionCall.start_eq, writeRegion_jobs h hv.1] at hts'
  rw [← Res.ok.inj hts'] at hfin ⊢
  obtain ⟨h1, h2, _⟩ := finished_faulty (jobsOk h hv.1 _ _) (jobs_atomic hs _ _ _ _) hf hfin
  exact atomic_readable h hw hreach hv hts _ h1 h2

/-- **C55, reading a sharded dataset after a failed write.** -/
theorem c55_sharded_write_readable (h : sd.WF) (hs : sd.backend = .s3) (hw : sd.canWrite = true)
    {ws : List (Write E.T)} {σ : Store} (hreach : ShardedReaches sd ws σ) {call : RegionCall E}
    (hv : call.Valid sd.toDataset) {scratch : Nat → List E.T} {ts : List (Prog Unit)}
    (hts : call.startSharded sd scratch = .ok ts)
    {fate : Nat → Nat → Fate} (hf : ∀ j n, fate j n ≠ .headFailed) {is : List Nat} {rs : List (Res Unit)}
    (hfin : Finished (interleave is (allWithFaults fate ts, σ)).1 rs) :
    ∃ A A', ShardedReadsAs sd σ A ∧ ShardedReadsAs sd (interleave is (allWithFaults fate ts, σ)).2 A' ∧
      ∀ s, InGrid sd.shape sd.shardShape s →
        OldIn sd.toDataset sd.shardShape A A' s ∨ NewIn sd.toDataset sd.shardShape call A A' s := by
  have hts' := hts
  rw [ShardedDataset.startSharded_eq, ShardedDataset.writeRegion_jobs h hw hv.1] at hts'
  rw [← Res.ok.inj hts'] at hfin ⊢
  obtain ⟨h1, h2, _⟩ := finished_faulty (ShardedDataset.jobsOk h hv.1 _ _) (sharded_jobs_atomic hs _ _ _ _) hf hfin
  exact sharded_atomic_readable h hw hreach hv hts _ h1 h2

/-! ### failing `HeadObject` requests -/

/-- a bucket in which chunk (0, 0) of the example has the elements 4 -/
def exObjects : Store := (run ((exDataset true .s3).writeChunk [0, 0] (List.replicate 4 (4 : Fin (256 ^ 2)))) fun _ => none).2

/-- the first request is a failing `HeadObject` request -/
def headFails : Nat → Nat → Fate := fun _ n => if n = 0 then .headFailed else .served

/-- A region read whose `HeadObject` request fails delivers the fill value 7 for an element that is 4, and reports no
error. -/
theorem c55_head_read_counterexample : ∃ ts is ps,
    (exDataset true .s3).readSubarray ⟨0, [1, 1], [1, 1]⟩ [0, 0] (fun _ => []) = .ok ts ∧
    (∀ p ∈ ts, StartsWithHead p) ∧
    Finished (interleave is (ts, exObjects)).1 [.ok [(0, (4 : Fin (256 ^ 2)))]] ∧
    Finished (interleave is (allWithFaults headFails ts, exObjects)).1 [.ok ps] ∧
    Delivers [(0 : Fin (256 ^ 2))] [.ok ps] [(7 : Fin (256 ^ 2))] := by
  refine ⟨_, [0, 0], [(0, (7 : Fin (256 ^ 2)))], rfl, ?_, rfl, rfl,
    [[(0, (7 : Fin (256 ^ 2)))]], _, rfl, List.Perm.refl _, rfl⟩
  intro p hp
  have := List.eq_of_mem_singleton hp
  subst this
  exact ⟨_, _, rfl, fun _ _ => rfl⟩

/-- A region write of one element whose `HeadObject` request fails replaces the other elements of the chunk by the fill
value 7, and reports no error. -/
theorem c55_head_write_counterexample : ∃ ts is k,
    (RegionCall.scalar (E := U16) [0, 0] [1, 1] (9 : Fin (256 ^ 2))).start (exDataset true .s3) (fun _ => []) = .ok ts ∧
    (∀ p ∈ ts, StartsWithHead p) ∧
    exObjects k = some [4, 0, 4, 0, 4, 0, 4, 0] ∧
    (Finished (interleave is (ts, exObjects)).1 [.ok ()] ∧
      (interleave is (ts, exObjects)).2 k = some [9, 0, 4, 0, 4, 0, 4, 0]) ∧
    Finished (interleave is (allWithFaults headFails ts, exObjects)).1 [.ok ()] ∧
    (interleave is (allWithFaults headFails ts, exObjects)).2 k = some [9, 0, 7, 0, 7, 0, 7, 0] := by
  refine ⟨_, [0, 0, 0], (exDataset true).chunkKey [0, 0], rfl, ?_, by decide +kernel,
    ⟨rfl, by decide +kernel⟩, rfl, by decide +kernel⟩
  intro p hp
  have := List.eq_of_mem_singleton hp
  subst this
  exact ⟨_, _, rfl, fun _ _ => rfl⟩

/-- The first of two tasks loses its `PutObject` request, the other one succeeds. -/
example : ∃ ts, (RegionCall.scalar (E := U16) [0, 0] [2, 3] (4 : Fin (256 ^ 2))).start (exDataset true .s3)
      (fun _ => []) = .ok ts ∧
    Finished (interleave [0, 1, 1] (allWithFaults (fun j _ => if j = 0 then .lost else .served) ts, fun _ => none)).1
      [.throw .runtimeError, .ok ()] ∧
    (interleave [0, 1, 1] (allWithFaults (fun j _ => if j = 0 then .lost else .served) ts, fun _ => none)).2
      ((exDataset true).chunkKey [0, 1]) = some [4, 0, 7, 0, 4, 0, 7, 0] ∧
    (interleave [0, 1, 1] (allWithFaults (fun j _ => if j = 0 then .lost else .served) ts, fun _ => none)).2
      ((exDataset true).chunkKey [0, 0]) = none :=
  ⟨_, rfl, rfl, by decide +kernel, by decide +kernel⟩

end Z5.Props
