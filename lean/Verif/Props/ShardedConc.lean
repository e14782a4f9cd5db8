import Verif.Props.Sharded

/-!
# C15, C34, C39 for sharded datasets
-/

namespace Z5.Props
open Z5 Spec Prog ShardedDataset

variable {E : Elem} {sd : ShardedDataset E}

/-! ## C15 -/

abbrev shardJobs (sd : ShardedDataset E) (p : RegionCall E × (Nat → List E.T)) :
    List (Key × Prog Unit) :=
  sd.jobs (RegionCall.request p.1) p.1.off p.1.shape p.2

theorem shardJobs_start (h : sd.WF) (hw : sd.canWrite = true) :
    ∀ {calls : List (RegionCall E × (Nat → List E.T))}
    {tss : List (List (Prog Unit))}, (∀ p ∈ calls, p.1.Valid sd.toDataset) →
    calls.map (fun p => p.1.startSharded sd p.2) = tss.map Res.ok →
    tss = (calls.map (shardJobs sd)).map fun js => js.map Prod.snd
  | [], [], _, _ => rfl
  | [], _ :: _, _, he => by simp at he
  | _ :: _, [], _, he => by simp at he
  | p :: ps, ts :: tss, hv, he => by
    rw [List.map_cons, List.map_cons, List.cons.injEq] at he
    have h1 := he.1
    rw [startSharded_eq, ShardedDataset.writeRegion_jobs h hw (hv p (by simp)).1, Res.ok.injEq] at h1
    rw [List.map_cons, List.map_cons, ← h1, shardJobs_start h hw (fun q hq => hv q (by simp [hq])) he.2]

theorem shardJobs_ok (h : sd.WF) : ∀ {calls : List (RegionCall E × (Nat → List E.T))},
    (∀ p ∈ calls, p.1.Valid sd.toDataset) →
    (calls.map Prod.fst).Pairwise (RegionCall.DisjointShards sd) →
    JobsOk (calls.map (shardJobs sd)).flatten
  | [], _, _ => ⟨fun _ h => by simp at h, by simp⟩
  | p :: ps, hv, hd => by
    rw [List.map_cons, List.pairwise_cons] at hd
    have h1 := ShardedDataset.jobsOk h (hv p (by simp)).1 (RegionCall.request p.1) p.2
    have h2 := shardJobs_ok h (fun q hq => hv q (by simp [hq])) hd.2
    rw [List.map_cons, List.flatten_cons]
    refine ⟨?_, ?_⟩
    · intro j hj
      rcases List.mem_append.1 hj with hj | hj
      · exact h1.touches j hj
      · exact h2.touches j hj
    · rw [List.map_append, List.nodup_append]
      refine ⟨h1.nodup, h2.nodup, ?_⟩
      intro k hk k' hk' he
      obtain ⟨j, hj, rfl⟩ := List.mem_map.1 hk
      obtain ⟨j', hj', rfl⟩ := List.mem_map.1 hk'
      obtain ⟨js, hjs, hj'⟩ := List.mem_flatten.1 hj'
      obtain ⟨q, hq, rfl⟩ := List.mem_map.1 hjs
      obtain ⟨g, hg, _, rfl⟩ := ShardedDataset.mem_jobs hj
      obtain ⟨g', hg', _, rfl⟩ := ShardedDataset.mem_jobs hj'
      have hp1 := (hv p (by simp)).1
      have hq1 := (hv q (by simp [hq])).1
      have := h.skey_inj (h.group_inGrid hp1 hg) (h.group_inGrid hq1 hg') he
      obtain ⟨x, x1, x2⟩ := (h.mem_group_ids hp1).1 (List.mem_map.2 ⟨g, hg, rfl⟩)
      obtain ⟨y, y1, y2⟩ := (h.mem_group_ids hq1).1 (List.mem_map.2 ⟨g', hg', rfl⟩)
      exact hd.1 q.1 (List.mem_map.2 ⟨q, hq, rfl⟩) g.1 x y x1 y1 x2 (this ▸ y2)

theorem shardTask_scratch (h : sd.WF) {σ : Store} {A : List Nat → E.T} (hval : sd.Valid σ)
    (hA : HoldsB sd.toDataset (sd.blobAt σ) A) {call : RegionCall E} (hv : call.Valid sd.toDataset)
    {g : List Nat × List (List Nat)} (hg : g ∈ sd.groups call.off call.shape) (t1 t2 : List E.T) :
    exec1 (sd.writeShardTask call.request call.off call.shape g.1 g.2 t1) (σ (sd.skey g.1)) =
    exec1 (sd.writeShardTask call.request call.off call.shape g.1 g.2 t2) (σ (sd.skey g.1)) := by
  have hs := h.group_inGrid hv.1 hg
  obtain ⟨bs, hbs⟩ := hval _ hs
  have ht := h.group_touches hv.1 hg
  exact writeShardTask_scratch h hv.1 (RegionCall.spec hv) hs t1 t2 (fun c hc => (ht c hc).1) hbs
    fun c hc => SRefines.blobs hA hbs c (ht c hc).1.inGrid (ht c hc).2

theorem shardJobs_scratch (h : sd.WF) {σ : Store} {A : List Nat → E.T} (hval : sd.Valid σ)
    (hA : HoldsB sd.toDataset (sd.blobAt σ) A)
    {calls calls' : List (RegionCall E × (Nat → List E.T))} (hv : ∀ p ∈ calls, p.1.Valid sd.toDataset)
    (hd : (calls.map Prod.fst).Pairwise (RegionCall.DisjointShards sd))
    (he : calls.map Prod.fst = calls'.map Prod.fst) :
    finalOf (calls.map (shardJobs sd)).flatten σ = finalOf (calls'.map (shardJobs sd)).flatten σ := by
  have hv' : ∀ p ∈ calls', p.1.Valid sd.toDataset := by
    intro p hp
    have : p.1 ∈ calls.map Prod.fst := by rw [he]; exact List.mem_map.2 ⟨p, hp, rfl⟩
    obtain ⟨q, hq, hqp⟩ := List.mem_map.1 this
    rw [← hqp]
    exact hv q hq
  have find : ∀ {l l' : List (RegionCall E × (Nat → List E.T))}, l.map Prod.fst = l'.map Prod.fst →
      (∀ p ∈ l, p.1.Valid sd.toDataset) →
      ∀ j ∈ (l.map (shardJobs sd)).flatten, ∃ j' ∈ (l'.map (shardJobs sd)).flatten,
        j'.1 = j.1 ∧ exec1 j'.2 (σ j.1) = exec1 j.2 (σ j.1) := by
    intro l l' hl hvl j hj
    obtain ⟨js, hjs, hj⟩ := List.mem_flatten.1 hj
    obtain ⟨p, hp, rfl⟩ := List.mem_map.1 hjs
    obtain ⟨g, hg, i, rfl⟩ := ShardedDataset.mem_jobs hj
    have : p.1 ∈ l'.map Prod.fst := by rw [← hl]; exact List.mem_map.2 ⟨p, hp, rfl⟩
    obtain ⟨q, hq, hqp⟩ := List.mem_map.1 this
    obtain ⟨i', h2⟩ := ShardedDataset.exists_job (fr := RegionCall.request p.1) q.2 hg
    refine ⟨(sd.skey g.1, sd.writeShardTask p.1.request p.1.off p.1.shape g.1 g.2 (q.2 i')),
      List.mem_flatten.2 ⟨_, List.mem_map.2 ⟨q, hq, rfl⟩, ?_⟩, rfl, ?_⟩
    · show _ ∈ sd.jobs _ _ _ _
      rw [hqp]
      exact h2
    · exact shardTask_scratch h hval hA (hvl p hp) hg _ _
  refine finalOf_congr (shardJobs_ok h hv hd) (shardJobs_ok h hv' (he ▸ hd)) (find he hv) ?_
  intro j hj
  obtain ⟨j', h1, h2, _⟩ := find he.symm hv' j hj
  exact ⟨j', h1, h2⟩

/-- **C15, sharded.** Any number of concurrent region writes, no two of which overlap a common shard, end in
the same store as executing them one after the other in any order. -/
theorem c15_sharded_disjoint_calls_commute (h : sd.WF) (hw : sd.canWrite = true)
    {ws : List (Write E.T)} {σ : Store} (hreach : ShardedReaches sd ws σ)
    {calls calls' : List (RegionCall E × (Nat → List E.T))}
    (hv : ∀ p ∈ calls, p.1.Valid sd.toDataset)
    (hd : (calls.map Prod.fst).Pairwise (RegionCall.DisjointShards sd))
    (hp : (calls.map Prod.fst).Perm (calls'.map Prod.fst))
    {tss tss' : List (List (Prog Unit))}
    (hts : calls.map (fun p => p.1.startSharded sd p.2) = tss.map Res.ok)
    (hts' : calls'.map (fun p => p.1.startSharded sd p.2) = tss'.map Res.ok)
    {is : List Nat} {rs : List (Res Unit)} (hf : Finished (interleave is (tss.flatten, σ)).1 rs)
    {σ' : Store} (hseq : OneByOne tss' σ σ') :
    (interleave is (tss.flatten, σ)).2 = σ' := by
  obtain ⟨hval, A, hA, _⟩ := ShardedDataset.reaches_refines h hw hreach
  have hv' : ∀ p ∈ calls', p.1.Valid sd.toDataset := by
    intro p hm
    have : p.1 ∈ calls.map Prod.fst := hp.mem_iff.2 (List.mem_map.2 ⟨p, hm, rfl⟩)
    obtain ⟨q, hq, hqp⟩ := List.mem_map.1 this
    rw [← hqp]
    exact hv q hq
  have hsym : ∀ {a b}, RegionCall.DisjointShards sd a b → RegionCall.DisjointShards sd b a :=
    fun hab c x y h1 h2 h3 h4 => hab c y x h2 h1 h4 h3
  have hd' := hp.pairwise hd hsym
  have ok1 := shardJobs_ok h hv hd
  have ok2 := shardJobs_ok h hv' hd'
  rw [shardJobs_start h hw hv hts, ← List.map_flatten] at hf ⊢
  rw [shardJobs_start h hw hv' hts'] at hseq
  rw [(finished_jobs ok1 hf).1, oneByOne_final ok2 hseq]
  have e1 : (calls.map Prod.fst).map (fun c => (c, fun _ : Nat => ([] : List E.T))) =
      calls.map fun p => (p.1, fun _ => []) := by rw [List.map_map]; rfl
  have e2 : (calls'.map Prod.fst).map (fun c => (c, fun _ : Nat => ([] : List E.T))) =
      calls'.map fun p => (p.1, fun _ => []) := by rw [List.map_map]; rfl
  rw [shardJobs_scratch h hval hA hv hd (calls' := calls.map fun p => (p.1, fun _ => [])) (by
      rw [List.map_map]; rfl),
    shardJobs_scratch h hval hA hv' hd' (calls' := calls'.map fun p => (p.1, fun _ => [])) (by
      rw [List.map_map]; rfl), ← e1, ← e2]
  refine finalOf_perm (shardJobs_ok h ?_ ?_) (((hp.map _).map _).flatten) σ
  · intro p hm
    obtain ⟨c, hc, rfl⟩ := List.mem_map.1 hm
    obtain ⟨q, hq, rfl⟩ := List.mem_map.1 hc
    exact hv q hq
  · rw [List.map_map]
    show List.Pairwise _ (List.map id _)
    rw [List.map_id]
    exact hd

/-- Two writes whose regions lie in different shards. -/
example : [RegionCall.scalar (E := U8) [0] [3] (4 : Fin (256 ^ 1)),
    .scalar [4] [2] (5 : Fin (256 ^ 1))].Pairwise (RegionCall.DisjointShards exSharded) := by
  rw [List.pairwise_cons]
  refine ⟨?_, by simp⟩
  intro b hb
  cases List.mem_singleton.1 hb
  intro c x y hx hy hcx hcy
  match x, y, hx, hy with
  | [x0], [y0], hx, hy =>
   match c, hcx, hcy with
   | [c0], hcx, hcy =>
    have h1 : 0 ≤ x0 ∧ x0 < 0 + 3 := hx.1
    have h2 : 4 ≤ y0 ∧ y0 < 4 + 2 := hy.1
    have h3 : c0 * 4 ≤ x0 ∧ x0 < (c0 + 1) * 4 ∧ x0 < 6 := hcx.1
    have h4 : c0 * 4 ≤ y0 ∧ y0 < (c0 + 1) * 4 ∧ y0 < 6 := hcy.1
    omega

/-- the tasks of two writes to different chunks of one shard -/
def exLostShardTasks : List (Prog Unit) :=
  match exSharded.writeRegion (scalarRequest (1 : Fin (256 ^ 1))) [0] [2] fun _ => [],
    exSharded.writeRegion (scalarRequest (2 : Fin (256 ^ 1))) [2] [2] fun _ => [] with
  | .ok a, .ok b => a ++ b
  | _, _ => []

/-- **C15, same shard.** Two concurrent region writes to *different chunks* of one shard: there is a schedule
under which both calls succeed and the chunk of the first one is gone. -/
theorem c15_sharded_lost_update_counterexample : ∃ is : List Nat,
    exLostShardTasks.length = 2 ∧
    Finished (interleave is (exLostShardTasks, fun _ => none)).1 [.ok (), .ok ()] ∧
    (run (exSharded.chunkExists [0]) (interleave is (exLostShardTasks, fun _ => none)).2).1 = .ok false ∧
    (run (exSharded.readRawChunk [1]) (interleave is (exLostShardTasks, fun _ => none)).2).1 =
      .ok [2, 2] :=
  ⟨[0, 1] ++ List.replicate 60 0 ++ List.replicate 60 1, by decide +kernel,
    by unfold Finished; decide +kernel, by decide +kernel, by decide +kernel⟩

/-! ## C34 -/

/-- **C34, sharded.** `chunkExists`, `readChunk` and `readSubarray` agree: if a chunk does not exist, its
elements read as the fill value; if it exists, `readChunk` delivers, element by element, what `readSubarray`
delivers. -/
theorem c34_sharded_chunk_vs_region (h : sd.WF) (hw : sd.canWrite = true) {ws : List (Write E.T)}
    {σ : Store} (hreach : ShardedReaches sd ws σ) :
    ∃ A, ShardedReadsAs sd σ A ∧ ∀ c, InGrid sd.shape sd.chunkShape c →
      (run (sd.chunkExists c) σ = (.ok false, σ) ∧
        ∀ x, InChunk sd.shape sd.chunkShape c x → A x = sd.fill) ∨
      (run (sd.chunkExists c) σ = (.ok true, σ) ∧
        ∀ dest : List E.T, dest.length = prod sd.chunkShape →
          ∃ content, run (sd.readChunk c dest) σ = (.ok (false, content), σ) ∧
            ∀ x, InChunk sd.shape sd.chunkShape c x →
              content[ravel sd.chunkShape (subV x (mulV c sd.chunkShape))]? = some (A x)) := by
  obtain ⟨hval, A, hA, _⟩ := ShardedDataset.reaches_refines h hw hreach
  refine ⟨A, sholds_readsAs h hval hA, fun c hc => ?_⟩
  have hex := (run_readRawChunk h hval hc).2
  have hb := hA c hc
  cases hq : sd.blobAt σ c with
  | none =>
    rw [hq] at hex hb
    exact Or.inl ⟨hex, fun x hx => hb x (.of_inChunk hx)⟩
  | some b =>
    rw [hq] at hex hb
    refine Or.inr ⟨hex, fun dest hl => ?_⟩
    obtain ⟨content, hd, hr⟩ := hb
    refine ⟨content, run_readChunk h hval hc hq hd dest hl, fun x hx => ?_⟩
    have := hr.2 x (.of_inChunk hx)
    rw [stored_eq h] at this
    exact this

/-! ## C39 -/

/-- what `interleave_states` says about jobs -/
theorem crash_jobs {α : Type} {jobs : List (Key × Prog α)} (hok : JobsOk jobs) (σ : Store)
    (is : List Nat) :
    (∀ k, (∀ j ∈ jobs, j.1 ≠ k) → (interleave is (jobs.map Prod.snd, σ)).2 k = σ k) ∧
    ∀ (j : Nat) k p, jobs[j]? = some (k, p) →
      ∃ p', (interleave is (jobs.map Prod.snd, σ)).1[j]? = some p' ∧
      (interleave is (jobs.map Prod.snd, σ)).2 k ∈ states p (σ k) ∧
      (j ∉ is → (interleave is (jobs.map Prod.snd, σ)).2 k = σ k) ∧
      (∀ r, p' = .ret r → exec1 p (σ k) = (r, (interleave is (jobs.map Prod.snd, σ)).2 k)) := by
  obtain ⟨h1, h2⟩ := interleave_states is (c := (jobs.map Prod.snd, σ)) hok.isolated
  refine ⟨?_, ?_⟩
  · intro k hk
    refine h1 k fun j hj => ?_
    have hj' : j < (jobs.map Prod.fst).length := by simpa using hj
    simp only [List.getD_eq_getElem?_getD, List.getElem?_eq_getElem hj', Option.getD_some]
    have hm := List.getElem_mem hj'
    generalize (jobs.map Prod.fst)[j] = y at hm ⊢
    obtain ⟨i, hi, rfl⟩ := List.mem_map.1 hm
    exact hk i hi
  · intro j k p hj
    have hkey : (jobs.map Prod.fst).getD j [] = k := by
      rw [List.getD_eq_getElem?_getD, List.getElem?_map, hj]
      rfl
    have hp : (jobs.map Prod.snd)[j]? = some p := by rw [List.getElem?_map, hj]; rfl
    obtain ⟨p', g1, g2, g3, g4⟩ := h2 j _ hp
    simp only [hkey] at g2 g3 g4
    exact ⟨p', g1, g2, g3, fun r hr => g4 r (outcome_some.2 hr)⟩

theorem getElem?_jobs {fr : FillRequest E} {off size : List Nat} {scratch : Nat → List E.T} {j : Nat}
    {g : List Nat × List (List Nat)} (hg : (sd.groups off size)[j]? = some g) :
    (sd.jobs fr off size scratch)[j]? =
      some (sd.skey g.1, sd.writeShardTask fr off size g.1 g.2 (scratch j)) := by
  unfold ShardedDataset.jobs
  rw [List.getElem?_mapIdx, hg]
  rfl

/-- **C39, sharded, files.** A region write (on any store, even a damaged one) is interrupted at any point.
There is one task per shard overlapping the region; every file that is not the file of such a shard is
unchanged; the file of a shard whose task has not been scheduled is unchanged; the file of a shard whose task
is over is what the completed call would leave; and the file of a shard in progress is the old file, or the
removed file, or a prefix of the file that the completed call would leave. -/
theorem c39_sharded_crash_files (h : sd.WF) (hw : sd.canWrite = true) {call : RegionCall E}
    (hv : RegionOk sd.shape call.off call.shape)
    {scratch : Nat → List E.T} {ts : List (Prog Unit)} (hts : call.startSharded sd scratch = .ok ts)
    (σ : Store) (crash : List Nat)
    {full : List Nat} {rs : List (Res Unit)} (hfull : Finished (interleave full (ts, σ)).1 rs) :
    ∃ ss : List (List Nat), ss.Nodup ∧ ss.length = ts.length ∧
      (∀ s, s ∈ ss ↔ ∃ x, InRegion x call.off call.shape ∧ InChunk sd.shape sd.shardShape s x) ∧
      (∀ k, (∀ s ∈ ss, getChunkKey sd.key s ≠ k) → (interleave crash (ts, σ)).2 k = σ k) ∧
      ∀ (j : Nat) s, ss[j]? = some s → ∃ k, k = getChunkKey sd.key s ∧
        (j ∉ crash → (interleave crash (ts, σ)).2 k = σ k) ∧
        (∀ r, TaskDone (interleave crash (ts, σ)).1 j r → rs[j]? = some r ∧
          (interleave crash (ts, σ)).2 k = (interleave full (ts, σ)).2 k) ∧
        ((interleave crash (ts, σ)).2 k = σ k ∨
         ((interleave crash (ts, σ)).2 k = none ∧ (interleave full (ts, σ)).2 k = none) ∨
         ∃ b n, (interleave full (ts, σ)).2 k = some b ∧ n ≤ b.length ∧
          (interleave crash (ts, σ)).2 k = some (b.take n)) := by
  rw [startSharded_eq, ShardedDataset.writeRegion_jobs h hw hv] at hts
  cases hts
  have hok := ShardedDataset.jobsOk h hv call.request scratch
  obtain ⟨h1, h2⟩ := crash_jobs hok σ crash
  obtain ⟨f1, f2⟩ := finished_jobs hok hfull
  refine ⟨(sd.groups call.off call.shape).map Prod.fst, (h.groups_ok hv).2.ids, ?_, ?_, ?_, ?_⟩
  · unfold ShardedDataset.jobs
    simp
  · intro s; exact h.mem_group_ids hv
  · intro k hk
    refine h1 k fun j hj he => ?_
    obtain ⟨g, hg, i, rfl⟩ := ShardedDataset.mem_jobs hj
    exact hk g.1 (List.mem_map.2 ⟨g, hg, rfl⟩) he
  · intro j s hs
    rw [List.getElem?_map] at hs
    obtain ⟨g, hg, rfl⟩ := Option.map_eq_some_iff.1 hs
    have hjob := getElem?_jobs (fr := call.request) (scratch := scratch) hg
    obtain ⟨p', g1, g2, g3, g4⟩ := h2 j _ _ hjob
    have hfin := finalOf_mem hok (List.mem_of_getElem? hjob) σ
    simp only at hfin
    refine ⟨_, rfl, g3, ?_, ?_⟩
    · intro r hr
      rw [TaskDone, g1] at hr
      have := g4 r (Option.some.inj hr)
      rw [f1]
      refine ⟨?_, ?_⟩
      · rw [f2, List.getElem?_map, hjob, Option.map_some]
        simp only [this]
      · show _ = finalOf _ σ (sd.skey g.1)
        rw [hfin, this]
        rfl
    · rw [f1]
      show _ ∨ (_ ∧ finalOf _ σ (sd.skey g.1) = none) ∨ ∃ b n, finalOf _ σ (sd.skey g.1) = some b ∧ _
      rw [hfin]
      rcases (states_writeShardTask _ _ _ _ _ _ g2).prefix with h' | ⟨h', h''⟩ | ⟨b, n, h3, h4, h5⟩
      · exact Or.inl h'
      · exact Or.inr (Or.inl ⟨h', h''⟩)
      · exact Or.inr (Or.inr ⟨b, n, h4, h3, h5⟩)

/-- **C39, sharded, reading after a crash.** A region write on a well-formed store is interrupted at any
point.  Then every shard whose task is not in progress can be read; its elements inside the region are the
new ones if the task has succeeded, all other elements are the old ones (up to elided fill values). -/
theorem c39_sharded_crash_readable (h : sd.WF) (hw : sd.canWrite = true) {ws : List (Write E.T)}
    {σ : Store} (hreach : ShardedReaches sd ws σ) {call : RegionCall E} (hv : call.Valid sd.toDataset)
    {scratch : Nat → List E.T} {ts : List (Prog Unit)} (hts : call.startSharded sd scratch = .ok ts)
    (crash : List Nat) :
    ∃ ss : List (List Nat), ss.length = ts.length ∧
      (∀ s, s ∈ ss ↔ ∃ x, InRegion x call.off call.shape ∧ InChunk sd.shape sd.shardShape s x) ∧
      ∃ A A', ShardedReadsAs sd σ A ∧
        ShardedReadsAsExcept sd (interleave crash (ts, σ)).2 A' (fun s =>
          ∃ j, ss[j]? = some s ∧ j ∈ crash ∧ TaskRunning (interleave crash (ts, σ)).1 j) ∧
        (∀ (j : Nat) s x, ss[j]? = some s → TaskDone (interleave crash (ts, σ)).1 j (.ok ()) →
          InChunk sd.shape sd.shardShape s x → InRegion x call.off call.shape →
          ∃ v, call.value (subV x call.off) = some v ∧ SameOrFill E.ceq sd.fill (A' x) v) ∧
        (∀ s x, InChunk sd.shape sd.shardShape s x →
          ¬ (∃ j, ss[j]? = some s ∧ j ∈ crash ∧ TaskRunning (interleave crash (ts, σ)).1 j) →
          (InRegion x call.off call.shape →
            ∀ j, ss[j]? = some s → ¬ TaskDone (interleave crash (ts, σ)).1 j (.ok ())) →
          SameOrFill E.ceq sd.fill (A' x) (A x)) := by
  obtain ⟨hval, A, hA, _⟩ := ShardedDataset.reaches_refines h hw hreach
  rw [startSharded_eq, ShardedDataset.writeRegion_jobs h hw hv.1] at hts
  cases hts
  have hok := ShardedDataset.jobsOk h hv.1 call.request scratch
  obtain ⟨h1, h2⟩ := crash_jobs hok σ crash
  refine ⟨(sd.groups call.off call.shape).map Prod.fst, by unfold ShardedDataset.jobs; simp,
    fun s => h.mem_group_ids hv.1, ?_⟩
  have hnd := (h.groups_ok hv.1).2.ids
  have hids := fun s => h.mem_group_ids hv.1 (s := s)
  generalize hX : interleave crash
    ((sd.jobs call.request call.off call.shape scratch).map Prod.snd, σ) = X at *
  generalize hss : (sd.groups call.off call.shape).map Prod.fst = ss at *
  have huniq : ∀ {i j : Nat} {s : List Nat}, ss[i]? = some s → ss[j]? = some s → i = j := by
    intro i j s hi hj
    obtain ⟨hi', he⟩ := List.getElem?_eq_some_iff.1 hi
    obtain ⟨hj', he'⟩ := List.getElem?_eq_some_iff.1 hj
    exact (List.getElem_inj hnd).1 (he.trans he'.symm)
  let done : List Nat → Prop := fun s => ∃ j : Nat, ss[j]? = some s ∧ TaskDone X.1 j (.ok ())
  let bad : List Nat → Prop := fun s => ∃ j : Nat, ss[j]? = some s ∧ j ∈ crash ∧ TaskRunning X.1 j
  -- one shard
  have hshard : ∀ s, InGrid sd.shape sd.shardShape s → ¬ bad s →
      ∃ bs bs', ShardOk sd (σ (sd.skey s)) bs ∧ ShardOk sd (X.2 (sd.skey s)) bs' ∧
        (¬ done s → bs' = bs) ∧
        (∀ c, InGrid sd.shape sd.chunkShape c → sd.shardOf c = s →
          ¬ Touches sd.toDataset call.off call.shape c → bs'[sd.slotOf c]? = bs[sd.slotOf c]?) ∧
        (done s → ∀ c, sd.shardOf c = s → Touches sd.toDataset call.off call.shape c →
          Written sd.toDataset c (bs'[sd.slotOf c]?.bind present)
            (override A call.off call.shape (RegionCall.val sd.fill call))) := by
    intro s hs hgood
    obtain ⟨bs, hbs⟩ := hval s hs
    have hsame : X.2 (sd.skey s) = σ (sd.skey s) → ¬ done s → _ := fun he hnd' =>
      (⟨bs, bs, hbs, he ▸ hbs, fun _ => rfl, fun _ _ _ _ => rfl, fun hd => absurd hd hnd'⟩ :
        ∃ bs bs', ShardOk sd (σ (sd.skey s)) bs ∧ ShardOk sd (X.2 (sd.skey s)) bs' ∧
        (¬ done s → bs' = bs) ∧
        (∀ c, InGrid sd.shape sd.chunkShape c → sd.shardOf c = s →
          ¬ Touches sd.toDataset call.off call.shape c → bs'[sd.slotOf c]? = bs[sd.slotOf c]?) ∧
        (done s → ∀ c, sd.shardOf c = s → Touches sd.toDataset call.off call.shape c →
          Written sd.toDataset c (bs'[sd.slotOf c]?.bind present)
            (override A call.off call.shape (RegionCall.val sd.fill call))))
    by_cases hm : s ∈ ss
    · obtain ⟨j, hj, hjs⟩ := List.getElem_of_mem hm
      have hjs' : ss[j]? = some s := by rw [List.getElem?_eq_getElem hj, hjs]
      have hgj := hjs'
      rw [← hss, List.getElem?_map] at hgj
      obtain ⟨g, hg, rfl⟩ := Option.map_eq_some_iff.1 hgj
      obtain ⟨p', g1, _, g3, g4⟩ := h2 j _ _ (getElem?_jobs (fr := call.request) (scratch := scratch) hg)
      cases p' with
      | act k f co =>
        have hrun : TaskRunning X.1 j := ⟨k, f, co, g1⟩
        refine hsame (g3 fun hjc => hgood ⟨j, hjs', hjc, hrun⟩) ?_
        rintro ⟨i, hi, hd⟩
        rw [huniq hi hjs', TaskDone, g1] at hd
        simp at hd
      | ret r =>
        have g5 := g4 r rfl
        obtain ⟨_, bs', k2, k3, k4, _, k6⟩ := job_effect h hw hv.1 (RegionCall.spec hv)
          (List.mem_of_getElem? hg) (scratch j) hbs (SRefines.blobs hA hbs)
        rw [g5] at k2 k3 k6
        have hdone : done g.1 ↔ r = .ok () := by
          constructor
          · rintro ⟨i, hi, hd⟩
            rw [huniq hi hjs', TaskDone, g1] at hd
            simpa using hd
          · rintro rfl
            exact ⟨j, hjs', g1⟩
        exact ⟨bs, bs', hbs, k2, fun hn => k3 fun he => hn (hdone.2 he), k4, fun hd => k6 (hdone.1 hd)⟩
    · refine hsame (h1 _ ?_) ?_
      · intro j hj he
        obtain ⟨g, hg, i, rfl⟩ := ShardedDataset.mem_jobs hj
        have := h.skey_inj (h.group_inGrid hv.1 hg) hs he
        exact hm (this ▸ hss ▸ List.mem_map.2 ⟨g, hg, rfl⟩)
      · rintro ⟨j, hj, _⟩
        exact hm (List.mem_of_getElem? hj)
  -- the arrays
  let doneC : List Nat → Prop := fun c => done (sd.shardOf c) ∧ Touches sd.toDataset call.off call.shape c
  have : ∀ c, Decidable (doneC c) := fun c => Classical.propDecidable _
  let B : List Nat → E.T := fun x =>
    if doneC (divV x sd.chunkShape) then
      override A call.off call.shape (RegionCall.val sd.fill call) x else A x
  have hBdone : ∀ c x, InGrid sd.shape sd.chunkShape c → InStored sd.toDataset c x → doneC c →
      B x = override A call.off call.shape (RegionCall.val sd.fill call) x := by
    intro c x hg hx hd
    show (if _ then _ else _) = _
    rw [hx.div h.base hg, if_pos hd]
  have hBelse : ∀ c x, InGrid sd.shape sd.chunkShape c → InStored sd.toDataset c x → ¬ doneC c →
      B x = A x := by
    intro c x hg hx hd
    show (if _ then _ else _) = _
    rw [hx.div h.base hg, if_neg hd]
  obtain ⟨A', k1, k2⟩ := refinesOnB_of_chunks h.base (β := sd.blobAt σ) (β' := sd.blobAt X.2) (S := B)
    (B := B) (A := A) (fun c => ¬ bad (sd.shardOf c))
    (fun c hg _ => Or.inr (hA c hg)) (fun _ _ _ _ _ => Or.inl rfl) (by
      intro c hg hgood
      obtain ⟨bs, bs', s1, s2, s3, s4, s5⟩ := hshard _ (h.shard_inGrid hg) hgood
      rw [blobAt_eq s1, blobAt_eq s2]
      by_cases hd : doneC c
      · left
        have hwr := s5 hd.1 c rfl hd.2
        generalize (bs'[sd.slotOf c]?).bind present = v at hwr
        cases v with
        | none => exact fun x hx => by rw [hBdone c x hg hx hd]; exact hwr x hx
        | some b =>
          have : Written sd.toDataset c (some b) _ := hwr
          exact this.congr fun x hx => (hBdone c x hg hx hd).symm
      · right
        refine ⟨?_, fun x hx => hBelse c x hg hx hd⟩
        by_cases ht : Touches sd.toDataset call.off call.shape c
        · rw [s3 fun hd' => hd ⟨hd', ht⟩]
        · rw [s4 c hg rfl ht])
  refine ⟨A, A', sholds_readsAs h hval hA, ?_, ?_, ?_⟩
  · intro off out outBuf scr hr hfit hna hbad
    have hnb : ∀ c, Touches sd.toDataset off out.shape c → ¬ bad (sd.shardOf c) := by
      rintro c ⟨x, x1, x2⟩ hb
      exact hbad _ x hb x1 (h.inChunk_shard x2)
    refine ShardedDataset.readSubarray_exec h hr hfit hna (fun c hc => ?_)
      (fun c hc => k1 c hc.inGrid (hnb c hc)) scr
    obtain ⟨_, bs', _, s2, _⟩ := hshard _ (h.shard_inGrid hc.inGrid) (hnb c hc)
    exact ⟨bs', s2⟩
  · intro j s x hj hd hx hreg
    obtain ⟨c, hc, rfl⟩ := h.exists_chunk_of_shard hx
    have hnb : ¬ bad (sd.shardOf c) := by
      rintro ⟨i, hi, _, k, f, co, hk⟩
      rw [huniq hi hj] at hk
      rw [TaskDone, hk] at hd
      simp at hd
    have := k2 c x (inGrid_of_inChunk hc) hnb (.of_inChunk hc)
    rw [hBdone c x (inGrid_of_inChunk hc) (.of_inChunk hc) ⟨⟨j, hj, hd⟩, x, hreg, hc⟩,
      override_in hreg] at this
    exact ⟨_, RegionCall.value_some hv (region_sub hreg).2, this⟩
  · intro s x hx hgood hno
    obtain ⟨c, hc, rfl⟩ := h.exists_chunk_of_shard hx
    have := k2 c x (inGrid_of_inChunk hc) hgood (.of_inChunk hc)
    by_cases hd : doneC c
    · rw [hBdone c x (inGrid_of_inChunk hc) (.of_inChunk hc) hd] at this
      have hnr : ¬ InRegion x call.off call.shape := by
        intro hreg
        obtain ⟨j, hj, hd'⟩ := hd.1
        exact hno hreg j hj hd'
      unfold override at this
      rw [if_neg hnr] at this
      exact this
    · rw [hBelse c x (inGrid_of_inChunk hc) (.of_inChunk hc) hd] at this
      exact this

/-- the task of a write to one element of chunk `[1]` -/
def exTornTasks : List (Prog Unit) :=
  match (RegionCall.scalar (E := U8) [3] [1] (8 : Fin (256 ^ 1))).startSharded exSharded fun _ => [] with
  | .ok ts => ts
  | _ => []

/-- the store after a crash in the middle of writing the shard -/
def exTornStore : Store :=
  (interleave [0, 0, 0, 0, 0] (exTornTasks, exShardedStore)).2

/-- **C39, no repair, bystanders.** A shard is damaged as a whole.  The write of one element of chunk `[1]` is
interrupted after truncating the file and writing two bytes: chunk `[0]`, which the call did not touch, cannot
be read any more.  And unlike a chunk file, the shard file cannot be repaired by rewriting its chunks:
`writeChunk`, `removeChunk` and region writes in this shard throw and leave the file as it is. -/
theorem c39_sharded_no_repair_counterexample :
    (run (exSharded.readRawChunk [0]) exShardedStore).1 = .ok [0, 9] ∧
    exTornStore (getChunkKey exSharded.key [0]) = some [0, 9] ∧
    Fails (exSharded.readRawChunk [0]) exTornStore ∧
    (∀ c, c = [0] ∨ c = [1] → Fails (exSharded.removeChunk c) exTornStore ∧
      ∀ data blob, exSharded.makeChunkBlob c data = .ok blob →
        Fails (exSharded.writeChunk c data) exTornStore) ∧
    ∀ fr off shape cs scratch,
      Fails (exSharded.writeShardTask fr off shape [0] cs scratch) exTornStore := by
  have hf : exTornStore (getChunkKey exSharded.key [0]) = some [0, 9] := by decide +kernel
  have ht := c40_torn_shard (ds := exSharded) (s := [0]) (c := [0]) rfl hf
    (c40_short_shard (by decide)) rfl
  refine ⟨by decide +kernel, hf, ht.2.1, ?_, ht.2.2.2.2.2⟩
  · rintro c (rfl | rfl)
    · obtain ⟨_, _, _, h4, _⟩ := c40_torn_shard (ds := exSharded) (s := [0]) (c := [0]) rfl hf
        (c40_short_shard (by decide)) rfl
      exact ⟨(h4 0 rfl).1, fun data blob hb => (h4 0 rfl).2 data blob _ rfl rfl rfl hb⟩
    · obtain ⟨_, _, _, h4, _⟩ := c40_torn_shard (ds := exSharded) (s := [0]) (c := [1]) rfl hf
        (c40_short_shard (by decide)) rfl
      exact ⟨(h4 1 rfl).1, fun data blob hb => (h4 1 rfl).2 data blob _ rfl rfl rfl hb⟩

end Z5.Props
