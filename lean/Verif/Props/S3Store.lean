import Verif.Proofs.Atomic
import Verif.Props.Example

/-!
# Property C54: an interrupted write on S3 leaves every object old or new

The objects of a dataset on S3 are replaced by single `PutObject` and removed by single `DeleteObject` requests
(`Prog.storeWrite`, `Prog.storeErase`).  A crash point of a call is, as for C39, a schedule that does not need to have
finished the tasks.
-/

namespace Z5.Props
open Z5 Spec Prog

variable {E : Elem} {ds : Dataset E} {sd : ShardedDataset E}

theorem _root_.Z5.Torn.old_or_new {v final w : Option Bytes} (h : Torn .s3 v final w) : w = v ∨ w = final :=
  h.imp id fun h => h.elim id fun h => by cases h.1

theorem jobs_atomic (hs : ds.backend = .s3) (fr : FillRequest E) (rb rs : List Nat) (scratch : Nat → List E.T) :
    AtomicJobs (ds.jobs fr rb rs scratch) := by
  intro k p hj v w hw
  unfold Dataset.jobs at hj
  obtain ⟨j, hj, e⟩ := List.mem_mapIdx.1 hj
  cases e
  have := states_writeTask _ _ _ _ _ _ hw
  rw [hs] at this
  exact this.old_or_new

theorem sharded_jobs_atomic (hs : sd.backend = .s3) (fr : FillRequest E) (rb rs : List Nat)
    (scratch : Nat → List E.T) : AtomicJobs (sd.jobs fr rb rs scratch) := by
  intro k p hj v w hw
  unfold ShardedDataset.jobs at hj
  obtain ⟨j, hj, e⟩ := List.mem_mapIdx.1 hj
  cases e
  have := ShardedDataset.states_writeShardTask _ _ _ _ _ _ hw
  rw [hs] at this
  exact this.old_or_new

/-- a crash point of jobs leaves each object old or as the completed jobs leave it -/
theorem atomic_objects {α : Type} {jobs : List (Key × Prog α)} (hok : JobsOk jobs) (σ X : Store)
    (h1 : ∀ k, (∀ j ∈ jobs, j.1 ≠ k) → X k = σ k)
    (h2 : ∀ k p, (k, p) ∈ jobs → X k = σ k ∨ X k = (exec1 p (σ k)).2)
    {full : List Nat} {rs : List (Res α)} (hfull : Finished (interleave full (jobs.map Prod.snd, σ)).1 rs) (k : Key) :
    X k = σ k ∨ X k = (interleave full (jobs.map Prod.snd, σ)).2 k := by
  by_cases hk : ∀ j ∈ jobs, j.1 ≠ k
  · exact .inl (h1 k hk)
  · simp only [Classical.not_forall, Classical.not_not] at hk
    obtain ⟨⟨k', p⟩, hj, rfl⟩ := hk
    rw [(finished_jobs hok hfull).1, finalOf_mem hok hj σ]
    exact h2 _ _ hj

/-- **C54, objects.** A region write to a dataset on S3 (even to a damaged one) is interrupted at any point: every
object is as before the call, or as the completed call leaves it. -/
theorem c54_crash_objects (h : ds.WF) (hs : ds.backend = .s3) {call : RegionCall E}
    (hv : RegionOk ds.shape call.off call.shape) {scratch : Nat → List E.T} {ts : List (Prog Unit)}
    (hts : call.start ds scratch = .ok ts) (σ : Store) (crash : List Nat)
    {full : List Nat} {rs : List (Res Unit)} (hfull : Finished (interleave full (ts, σ)).1 rs) (k : Key) :
    (interleave crash (ts, σ)).2 k = σ k ∨ (interleave crash (ts, σ)).2 k = (interleave full (ts, σ)).2 k := by
  rw [RegionCall.start_eq, writeRegion_jobs h hv] at hts
  cases hts
  exact let hc := (jobs_atomic hs _ _ _ _).crash (jobsOk h hv _ _) σ crash
    atomic_objects (jobsOk h hv _ _) σ _ hc.1 hc.2 hfull k

/-- **C54, objects of a sharded dataset.** -/
theorem c54_sharded_crash_objects (h : sd.WF) (hs : sd.backend = .s3) (hw : sd.canWrite = true) {call : RegionCall E}
    (hv : RegionOk sd.shape call.off call.shape) {scratch : Nat → List E.T} {ts : List (Prog Unit)}
    (hts : call.startSharded sd scratch = .ok ts) (σ : Store) (crash : List Nat)
    {full : List Nat} {rs : List (Res Unit)} (hfull : Finished (interleave full (ts, σ)).1 rs) (k : Key) :
    (interleave crash (ts, σ)).2 k = σ k ∨ (interleave crash (ts, σ)).2 k = (interleave full (ts, σ)).2 k := by
  rw [ShardedDataset.startSharded_eq, ShardedDataset.writeRegion_jobs h hw hv] at hts
  cases hts
  exact let hc := (sharded_jobs_atomic hs _ _ _ _).crash (ShardedDataset.jobsOk h hv _ _) σ crash
    atomic_objects (ShardedDataset.jobsOk h hv _ _) σ _ hc.1 hc.2 hfull k

/-- The elements of `A'` in the box of chunk (or shard) `c` of a grid of boxes `chunkShape` are the ones of `A`, up to
elided fill values. -/
def OldIn (ds : Dataset E) (chunkShape : List Nat) (A A' : List Nat → E.T) (c : List Nat) : Prop :=
  ∀ x, InChunk ds.shape chunkShape c x → SameOrFill E.ceq ds.fill (A' x) (A x)

/-- The elements of `A'` in the box of chunk (or shard) `c` of a grid of boxes `chunkShape` are the ones that `call`
writes, and the ones of `A` outside of the region of the call, up to elided fill values. -/
def NewIn (ds : Dataset E) (chunkShape : List Nat) (call : RegionCall E) (A A' : List Nat → E.T) (c : List Nat) : Prop :=
  ∀ x, InChunk ds.shape chunkShape c x →
    (InRegion x call.off call.shape →
      ∃ v, call.value (subV x call.off) = some v ∧ SameOrFill E.ceq ds.fill (A' x) v) ∧
    (¬ InRegion x call.off call.shape → SameOrFill E.ceq ds.fill (A' x) (A x))

/-- reading a store in which the object of each task is old or new -/
theorem atomic_readable (h : ds.WF) (hw : ds.canWrite = true) {ws : List (Write E.T)}
    {σ : Store} (hreach : Reaches ds ws σ) {call : RegionCall E} (hv : call.Valid ds) {scratch : Nat → List E.T}
    {ts : List (Prog Unit)} (hts : call.start ds scratch = .ok ts) (X : Store)
    (h1 : ∀ k, (∀ j ∈ ds.jobs (RegionCall.request call) call.off call.shape scratch, j.1 ≠ k) → X k = σ k)
    (h2 : ∀ k p, (k, p) ∈ ds.jobs (RegionCall.request call) call.off call.shape scratch →
      X k = σ k ∨ X k = (exec1 p (σ k)).2) :
    ∃ A A', ReadsAs ds σ A ∧ ReadsAs ds X A' ∧
      ∀ c, InGrid ds.shape ds.chunkShape c → OldIn ds ds.chunkShape A A' c ∨ NewIn ds ds.chunkShape call A A' c := by
  have hts' := hts
  rw [RegionCall.start_eq, writeRegion_jobs h hv.1] at hts'
  have htsj := Res.ok.inj hts'
  obtain ⟨is, k1, k2⟩ := atomic_store (jobsOk h hv.1 (RegionCall.request call) scratch) σ X h1 h2
  rw [htsj] at k1 k2
  obtain ⟨cs, hlen, hcs, A, A', g1, g2, g3, g4⟩ := c39_crash_readable h hw hreach hv hts is
  rw [k1] at g2
  have hbad : ∀ c, ¬ ∃ j, cs[j]? = some c ∧ j ∈ is ∧ TaskRunning (interleave is (ts, σ)).1 j := by
    rintro c ⟨j, _, hj, k, f, co, hk⟩
    obtain ⟨r, hr⟩ := k2 j hj
    rw [hr] at hk
    cases hk
  refine ⟨A, A', g1, fun off out outBuf scr a1 a2 a3 => g2 off out outBuf scr a1 a2 a3 fun c x hb => absurd hb (hbad c),
    fun c hc => ?_⟩
  by_cases hd : ∃ j : Nat, cs[j]? = some c ∧ TaskDone (interleave is (ts, σ)).1 j (.ok ())
  · right
    obtain ⟨j, hj, hd⟩ := hd
    intro x hx
    exact ⟨g3 j c x hj hd hx, fun hn => g4 c x hx (hbad c) fun hr => absurd hr hn⟩
  · left
    intro x hx
    exact g4 c x hx (hbad c) fun _ j hj hd' => hd ⟨j, hj, hd'⟩

/-- **C54, reading.** A region write on S3 is interrupted at any point.  Then the whole dataset can be read, and every
chunk has wholly its old elements or wholly the new ones. -/
theorem c54_crash_readable (h : ds.WF) (hs : ds.backend = .s3) (hw : ds.canWrite = true) {ws : List (Write E.T)}
    {σ : Store} (hreach : Reaches ds ws σ) {call : RegionCall E} (hv : call.Valid ds) {scratch : Nat → List E.T}
    {ts : List (Prog Unit)} (hts : call.start ds scratch = .ok ts) (crash : List Nat) :
    ∃ A A', ReadsAs ds σ A ∧ ReadsAs ds (interleave crash (ts, σ)).2 A' ∧
      ∀ c, InGrid ds.shape ds.chunkShape c → OldIn ds ds.chunkShape A A' c ∨ NewIn ds ds.chunkShape call A A' c := by
  have hts' := hts
  rw [RegionCall.start_eq, writeRegion_jobs h hv.1] at hts'
  have hc := (jobs_atomic hs (RegionCall.request call) call.off call.shape scratch).crash (jobsOk h hv.1 _ _) σ crash
  rw [Res.ok.inj hts'] at hc
  exact atomic_readable h hw hreach hv hts _ hc.1 hc.2

/-- reading a store in which the shard object of each task is old or new -/
theorem sharded_atomic_readable (h : sd.WF) (hw : sd.canWrite = true)
    {ws : List (Write E.T)} {σ : Store} (hreach : ShardedReaches sd ws σ) {call : RegionCall E}
    (hv : call.Valid sd.toDataset) {scratch : Nat → List E.T} {ts : List (Prog Unit)}
    (hts : call.startSharded sd scratch = .ok ts) (X : Store)
    (h1 : ∀ k, (∀ j ∈ sd.jobs call.request call.off call.shape scratch, j.1 ≠ k) → X k = σ k)
    (h2 : ∀ k p, (k, p) ∈ sd.jobs call.request call.off call.shape scratch →
      X k = σ k ∨ X k = (exec1 p (σ k)).2) :
    ∃ A A', ShardedReadsAs sd σ A ∧ ShardedReadsAs sd X A' ∧
      ∀ s, InGrid sd.shape sd.shardShape s →
        OldIn sd.toDataset sd.shardShape A A' s ∨ NewIn sd.toDataset sd.shardShape call A A' s := by
  have hts' := hts
  rw [ShardedDataset.startSharded_eq, ShardedDataset.writeRegion_jobs h hw hv.1] at hts'
  have htsj := Res.ok.inj hts'
  obtain ⟨is, k1, k2⟩ := atomic_store (ShardedDataset.jobsOk h hv.1 call.request scratch) σ X h1 h2
  rw [htsj] at k1 k2
  obtain ⟨cs, hlen, hcs, A, A', g1, g2, g3, g4⟩ := c39_sharded_crash_readable h hw hreach hv hts is
  rw [k1] at g2
  have hbad : ∀ c, ¬ ∃ j, cs[j]? = some c ∧ j ∈ is ∧ TaskRunning (interleave is (ts, σ)).1 j := by
    rintro c ⟨j, _, hj, k, f, co, hk⟩
    obtain ⟨r, hr⟩ := k2 j hj
    rw [hr] at hk
    cases hk
  refine ⟨A, A', g1, fun off out outBuf scr a1 a2 a3 => g2 off out outBuf scr a1 a2 a3 fun c x hb => absurd hb (hbad c),
    fun c hc => ?_⟩
  by_cases hd : ∃ j : Nat, cs[j]? = some c ∧ TaskDone (interleave is (ts, σ)).1 j (.ok ())
  · right
    obtain ⟨j, hj, hd⟩ := hd
    intro x hx
    exact ⟨g3 j c x hj hd hx, fun hn => g4 c x hx (hbad c) fun hr => absurd hr hn⟩
  · left
    intro x hx
    exact g4 c x hx (hbad c) fun _ j hj hd' => hd ⟨j, hj, hd'⟩

/-- **C54, reading a sharded dataset.** The same, with shards for chunks. -/
theorem c54_sharded_crash_readable (h : sd.WF) (hs : sd.backend = .s3) (hw : sd.canWrite = true)
    {ws : List (Write E.T)} {σ : Store} (hreach : ShardedReaches sd ws σ) {call : RegionCall E}
    (hv : call.Valid sd.toDataset) {scratch : Nat → List E.T} {ts : List (Prog Unit)}
    (hts : call.startSharded sd scratch = .ok ts) (crash : List Nat) :
    ∃ A A', ShardedReadsAs sd σ A ∧ ShardedReadsAs sd (interleave crash (ts, σ)).2 A' ∧
      ∀ s, InGrid sd.shape sd.shardShape s →
        OldIn sd.toDataset sd.shardShape A A' s ∨ NewIn sd.toDataset sd.shardShape call A A' s := by
  have hts' := hts
  rw [ShardedDataset.startSharded_eq, ShardedDataset.writeRegion_jobs h hw hv.1] at hts'
  have hc := (sharded_jobs_atomic hs call.request call.off call.shape scratch).crash
    (ShardedDataset.jobsOk h hv.1 _ _) σ crash
  rw [Res.ok.inj hts'] at hc
  exact sharded_atomic_readable h hw hreach hv hts _ hc.1 hc.2

/-! ### calls for one chunk -/

/-- changes at most one object, in one step, and does nothing afterwards -/
def OneStep {α : Type} : Prog α → Prop
  | .ret _ => True
  | .act _ f c => (f = id ∧ ∀ v, OneStep (c v)) ∨ ∀ v, ∃ r, c v = .ret r

theorem OneStep.after {α β : Type} : ∀ {p : Prog α} {g : α → Prog β}, ReadOnly p → (∀ a, OneStep (g a)) → OneStep (p >>= g)
  | .ret (.ok a), _, _, hg => hg a
  | .ret (.throw _), _, _, _ => trivial
  | .ret .ub, _, _, _ => trivial
  | .act .., _, hp, hg => .inl ⟨funext hp.1, fun v => OneStep.after (hp.2 v) hg⟩

theorem OneStep.write (k : Key) (b : Bytes) : OneStep (storeWrite .s3 k b) := .inr fun _ => ⟨_, rfl⟩
theorem OneStep.erase (k : Key) : OneStep (storeErase .s3 k) := .inr fun _ => ⟨_, rfl⟩

theorem OneStep.crash {α : Type} : ∀ {p : Prog α}, OneStep p → ∀ (is : List Nat) (σ : Store),
    (interleave is ([p], σ)).2 = σ ∨ (interleave is ([p], σ)).2 = (run p σ).2
  | _, _, [], _ => .inl rfl
  | .ret r, h, i :: is, σ => by
    have : step i ([Prog.ret r], σ) = ([.ret r], σ) := by cases i <;> rfl
    rw [interleave, this]
    exact OneStep.crash h is σ
  | .act k f c, h, (i + 1) :: is, σ => by
    have : step (i + 1) ([Prog.act k f c], σ) = ([.act k f c], σ) := rfl
    rw [interleave, this]
    exact OneStep.crash h is σ
  | .act k f c, h, 0 :: is, σ => by
    have : step 0 ([Prog.act k f c], σ) = ([c (σ k)], σ.upd k (f (σ k))) := rfl
    rw [interleave, this]
    rcases h with ⟨rfl, h⟩ | h
    · have := OneStep.crash (h (σ k)) is (σ.upd k (id (σ k)))
      rw [show σ.upd k (id (σ k)) = σ from upd_self ..] at this ⊢
      rcases this with h' | h'
      · exact .inl h'
      · right
        rw [h']
        show _ = (run (c (σ k)) (σ.upd k (id (σ k)))).2
        rw [show σ.upd k (id (σ k)) = σ from upd_self ..]
    · obtain ⟨r, hr⟩ := h (σ k)
      rcases OneStep.crash (p := c (σ k)) (by rw [hr]; trivial) is (σ.upd k (f (σ k))) with h' | h'
      · right
        rw [h']
        show _ = (run (c (σ k)) _).2
        rw [hr]
        rfl
      · exact .inr h'

/-- **C54, one chunk.** `writeChunk` or `removeChunk` on S3 is interrupted at any point: the whole bucket is as before
the call, or as the completed call leaves it. -/
theorem c54_chunk_calls (hs : ds.backend = .s3) (c : List Nat) (σ : Store) (crash : List Nat) :
    (∀ data vl n, (interleave crash ([ds.writeChunk c data vl n], σ)).2 = σ ∨
      (interleave crash ([ds.writeChunk c data vl n], σ)).2 = (run (ds.writeChunk c data vl n) σ).2) ∧
    ((interleave crash ([ds.removeChunk c], σ)).2 = σ ∨
      (interleave crash ([ds.removeChunk c], σ)).2 = (run (ds.removeChunk c) σ).2) := by
  refine ⟨fun data vl n => OneStep.crash ?_ _ _, OneStep.crash ?_ _ _⟩
  · unfold Dataset.writeChunk
    split
    · trivial
    · refine OneStep.after (ReadOnly.ret _) fun _ => OneStep.after (ReadOnly.ret _) fun _ =>
        OneStep.after (ReadOnly.ret _) fun o => ?_
      rw [hs]
      cases o
      · exact OneStep.erase _
      · exact OneStep.write _ _
  · unfold Dataset.removeChunk
    refine OneStep.after (ReadOnly.ret _) fun _ => ?_
    split
    · trivial
    · exact .inr fun _ => ⟨_, rfl⟩

theorem oneStep_writeInnerBlob (hs : sd.backend = .s3) (c : List Nat) (blob : Option Bytes) :
    OneStep (sd.writeInnerBlob c blob) := by
  unfold ShardedDataset.writeInnerBlob
  refine OneStep.after (ReadOnly.ret _) fun s => OneStep.after (ReadOnly.ret _) fun slot =>
    OneStep.after (ShardedDataset.readOnly_readShardBlobs s) fun bs => ?_
  split
  · trivial
  · unfold ShardedDataset.writeShardBlobs
    split
    · trivial
    · refine OneStep.after (ReadOnly.ret _) fun k => ?_
      rw [hs]
      split
      · exact OneStep.erase _
      · exact OneStep.after (ReadOnly.ret _) fun out => OneStep.write _ _

/-- **C54, one chunk of a sharded dataset.** -/
theorem c54_sharded_chunk_calls (hs : sd.backend = .s3) (c : List Nat) (σ : Store) (crash : List Nat) :
    (∀ data vl, (interleave crash ([sd.writeChunk c data vl], σ)).2 = σ ∨
      (interleave crash ([sd.writeChunk c data vl], σ)).2 = (run (sd.writeChunk c data vl) σ).2) ∧
    ((interleave crash ([sd.removeChunk c], σ)).2 = σ ∨
      (interleave crash ([sd.removeChunk c], σ)).2 = (run (sd.removeChunk c) σ).2) := by
  refine ⟨fun data vl => OneStep.crash ?_ _ _, OneStep.crash (oneStep_writeInnerBlob hs c _) _ _⟩
  unfold ShardedDataset.writeChunk
  split
  · trivial
  · exact OneStep.after (ReadOnly.ret _) fun _ => OneStep.after (ReadOnly.ret _) fun _ =>
      OneStep.after (ReadOnly.ret _) fun o => oneStep_writeInnerBlob hs c _

/-- In files it is otherwise: the same call, interrupted, leaves a file that is neither. -/
theorem c54_files_counterexample : ∃ (crash : List Nat) (k : Key),
    (interleave crash ([(exDataset true).writeChunk [0, 1] (List.replicate 4 (4 : Fin (256 ^ 2)))], fun _ => none)).2 k =
      some [4] ∧
    (run ((exDataset true).writeChunk [0, 1] (List.replicate 4 (4 : Fin (256 ^ 2)))) fun _ => none).2 k =
      some [4, 0, 4, 0, 4, 0, 4, 0] :=
  ⟨[0, 0], (exDataset true).chunkKey [0, 1], by decide +kernel, by decide +kernel⟩

/-- On S3: the second of two tasks has written its object, the first one has not. -/
example : (exDataset true .s3).WF ∧ (exDataset true .s3).backend = .s3 ∧
    (∃ σ, Reaches (exDataset true .s3)
      [⟨[1, 0], [3, 3], fun _ => (4 : Fin (256 ^ 2))⟩, ⟨[2, 1], [1, 2], fun _ => (9 : Fin (256 ^ 2))⟩] σ) ∧
    ∃ ts, (RegionCall.scalar (E := U16) [0, 0] [2, 3] (4 : Fin (256 ^ 2))).start (exDataset true .s3)
      (fun _ => []) = .ok ts ∧
    (interleave [1, 1] (ts, fun _ => none)).2 ((exDataset true).chunkKey [0, 1]) = some [4, 0, 7, 0, 4, 0, 7, 0] ∧
    (interleave [1, 1] (ts, fun _ => none)).2 ((exDataset true).chunkKey [0, 0]) = none :=
  ⟨exDataset_wf true .s3, rfl, exDataset_reaches true .s3, _, rfl, by decide +kernel, by decide +kernel⟩

end Z5.Props
