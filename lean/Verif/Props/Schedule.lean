import Verif.Props.ReadWrite

/-!
# C13, C14, C15: threads, schedules and concurrent calls
-/

namespace Z5.Props
open Z5 Spec Prog

variable {E : Elem} {ds : Dataset E}

/-! ## C13 -/

theorem readSubarray_readOnly {out : View} {off : List Nat} {scratch : Nat → List E.T}
    {ts : List (Prog (List (Nat × E.T)))} (hts : ds.readSubarray out off scratch = .ok ts) :
    ∀ p ∈ ts, ReadOnly p := by
  rw [Dataset.readSubarray] at hts
  cases hc : ds.requestChunks off out.shape with
  | throw e => rw [hc] at hts; simp at hts
  | ub => rw [hc] at hts; simp at hts
  | ok cs =>
    rw [hc, Res.ok_bind] at hts
    cases hts
    intro p hp
    obtain ⟨i, hi, rfl⟩ := List.getElem_of_mem hp
    rw [List.getElem_mapIdx]
    exact readOnly_readTask ..

/-- **C13.** `readSubarray` on *any* store (also one with corrupt chunks): the store is not changed and the
outcome of every task is the same under every schedule. -/
theorem c13_read_deterministic {out : View} {off : List Nat} {scratch : Nat → List E.T}
    {ts : List (Prog (List (Nat × E.T)))} (hts : ds.readSubarray out off scratch = .ok ts) (σ : Store)
    {is is' : List Nat} {rs rs' : List (Res (List (Nat × E.T)))}
    (hf : Finished (interleave is (ts, σ)).1 rs) (hf' : Finished (interleave is' (ts, σ)).1 rs') :
    (interleave is (ts, σ)).2 = σ ∧ rs = rs' := by
  obtain ⟨h1, h2⟩ := finished_readOnly (readSubarray_readOnly hts) hf
  obtain ⟨_, h3⟩ := finished_readOnly (readSubarray_readOnly hts) hf'
  exact ⟨h1, by rw [h2, h3]⟩

/-- **C13**, several `readSubarray` calls at the same time: each has the outcome it has alone. -/
theorem c13_concurrent_reads {tss : List (List (Prog (List (Nat × E.T))))}
    (hts : ∀ ts ∈ tss, ∃ out off scratch, ds.readSubarray out off scratch = .ok ts) (σ : Store)
    {is : List Nat} {rs : List (Res (List (Nat × E.T)))}
    (hf : Finished (interleave is (tss.flatten, σ)).1 rs) :
    (interleave is (tss.flatten, σ)).2 = σ ∧
    ∃ rss : List (List (Res (List (Nat × E.T)))), rs = rss.flatten ∧ rss.length = tss.length ∧
      ∀ (i : Nat) (ts : List (Prog (List (Nat × E.T)))) (rsi : List (Res (List (Nat × E.T)))),
        tss[i]? = some ts → rss[i]? = some rsi →
        ∃ js, Finished (interleave js (ts, σ)).1 rsi := by
  have hro : ∀ p ∈ tss.flatten, ReadOnly p := by
    intro p hp
    obtain ⟨ts, h1, h2⟩ := List.mem_flatten.1 hp
    obtain ⟨_, _, _, h3⟩ := hts ts h1
    exact readSubarray_readOnly h3 p h2
  obtain ⟨h1, h2⟩ := finished_readOnly hro hf
  refine ⟨h1, tss.map fun ts => ts.map fun p => (run p σ).1, ?_, by simp, ?_⟩
  · rw [h2, List.map_flatten]
  · intro i ts rsi hi hr
    rw [List.getElem?_map, hi, Option.map_some, Option.some.injEq] at hr
    obtain ⟨_, _, _, h3⟩ := hts ts (List.mem_of_getElem? hi)
    obtain ⟨js, rs', hf'⟩ := exists_finished (ts, σ)
    have := (finished_readOnly (readSubarray_readOnly h3) hf').2
    refine ⟨js, ?_⟩
    rw [← hr, ← this]
    exact hf'

/-- the output buffer is determined by what `ReadsAs` says about it -/
theorem delivers_unique {T : Type} {out : View} {off : List Nat} {outBuf : List T} {A : List Nat → T}
    {r1 r2 : List (Res (List (Nat × T)))} {a b : List T}
    (g1 : ∀ out', Delivers outBuf r1 out' → out'.length = outBuf.length ∧
      (∀ i, InBox i out.shape → out'[out.base + dot i out.strides]? = some (A (addV off i))) ∧
      (∀ a, (∀ i, InBox i out.shape → out.base + dot i out.strides ≠ a) → out'[a]? = outBuf[a]?))
    (g2 : ∀ out', Delivers outBuf r2 out' → out'.length = outBuf.length ∧
      (∀ i, InBox i out.shape → out'[out.base + dot i out.strides]? = some (A (addV off i))) ∧
      (∀ a, (∀ i, InBox i out.shape → out.base + dot i out.strides ≠ a) → out'[a]? = outBuf[a]?))
    (da : Delivers outBuf r1 a) (db : Delivers outBuf r2 b) : a = b := by
  obtain ⟨_, p1, q1⟩ := g1 a da
  obtain ⟨_, p2, q2⟩ := g2 b db
  apply List.ext_getElem?
  intro k
  by_cases hk : ∃ i, InBox i out.shape ∧ out.base + dot i out.strides = k
  · obtain ⟨i, hi, rfl⟩ := hk
    rw [p1 i hi, p2 i hi]
  · have hk' : ∀ i, InBox i out.shape → out.base + dot i out.strides ≠ k :=
      fun i hi he => hk ⟨i, hi, he⟩
    rw [q1 k hk', q2 k hk']

/-- **C13**, well-formed stores: two runs of a `readSubarray` call fill the output buffer with the same
content, whatever the schedules, the order of the memory writes, and the content of the reused per-thread
buffers. -/
theorem c13_same_output (h : ds.WF) (hw : ds.canWrite = true) {ws : List (Write E.T)} {σ : Store}
    (hreach : Reaches ds ws σ) {out : View} {off : List Nat} {outBuf : List E.T}
    (hr : RegionOk ds.shape off out.shape) (hfit : FitsIn out outBuf.length) (hna : NoAlias out)
    {s s' : Nat → List E.T} {ts ts' : List (Prog (List (Nat × E.T)))}
    (hts : ds.readSubarray out off s = .ok ts) (hts' : ds.readSubarray out off s' = .ok ts')
    {is is' : List Nat} {rs rs' : List (Res (List (Nat × E.T)))}
    (hf : Finished (interleave is (ts, σ)).1 rs) (hf' : Finished (interleave is' (ts', σ)).1 rs') :
    ∃ o, Delivers outBuf rs o ∧ Delivers outBuf rs' o ∧
      (∀ o', Delivers outBuf rs o' → o' = o) ∧ (∀ o', Delivers outBuf rs' o' → o' = o) := by
  obtain ⟨A, hA, _⟩ := refines_readsAs h (reaches_refines h hw hreach)
  obtain ⟨_, e1, h1⟩ := hA off out outBuf s hr hfit hna
  obtain ⟨_, e2, h2⟩ := hA off out outBuf s' hr hfit hna
  cases hts.symm.trans e1
  cases hts'.symm.trans e2
  obtain ⟨_, ⟨o, ho⟩, h1⟩ := h1 is rs hf
  obtain ⟨_, ⟨o', ho'⟩, h2⟩ := h2 is' rs' hf'
  have hoo : o' = o := delivers_unique h2 h1 ho' ho
  subst hoo
  exact ⟨_, ho, ho', fun b hb => delivers_unique h1 h1 hb ho, fun b hb => delivers_unique h2 h2 hb ho'⟩

example : RegionOk (exDataset false).shape [1, 1] [3, 2] ∧ FitsIn ⟨0, [3, 2], [2, 1]⟩ 6 ∧
    NoAlias ⟨0, [3, 2], [2, 1]⟩ := by
  refine ⟨by decide, ⟨rfl, ?_⟩, ?_⟩
  · intro c hc
    match c, hc with
    | [i, j], hc =>
      have h1 : i < 3 := hc.1
      have h2 : j < 2 := hc.2.1
      simp only [dot_cons, dot_nil_left]
      omega
  · intro c d hc hd he
    match c, d, hc, hd, he with
    | [i, j], [k, l], hc, hd, he =>
      have h1 : j < 2 := hc.2.1
      have h2 : l < 2 := hd.2.1
      simp only [dot_cons, dot_nil_left] at he
      have : i = k ∧ j = l := by omega
      rw [this.1, this.2]

/-! ## C14 -/

/-- **C14.** Two runs of a region write from the same well-formed store end in the same store and with the
same outcome of every task, whatever the schedules and the content of the reused buffers.  (The compressor
may fail.) -/
theorem c14_write_deterministic (h : ds.WF) (hw : ds.canWrite = true) {ws : List (Write E.T)}
    {σ : Store} (hreach : Reaches ds ws σ) {call : RegionCall E} (hv : call.Valid ds)
    {s s' : Nat → List E.T} {ts ts' : List (Prog Unit)}
    (hts : call.start ds s = .ok ts) (hts' : call.start ds s' = .ok ts')
    {is is' : List Nat} {rs rs' : List (Res Unit)}
    (hf : Finished (interleave is (ts, σ)).1 rs) (hf' : Finished (interleave is' (ts', σ)).1 rs') :
    (interleave is (ts, σ)).2 = (interleave is' (ts', σ)).2 ∧ rs = rs' := by
  obtain ⟨A, hA, _⟩ := reaches_refines h hw hreach
  rw [RegionCall.start_eq, writeRegion_jobs h hv.1] at hts hts'
  cases hts
  cases hts'
  obtain ⟨h1, h2⟩ := finished_jobs (jobsOk h hv.1 _ _) hf
  obtain ⟨h3, h4⟩ := finished_jobs (jobsOk h hv.1 _ _) hf'
  obtain ⟨h5, h6⟩ := finalOf_scratch h hv.1 (RegionCall.spec hv) hA s s'
  exact ⟨by rw [h1, h3, h5], by rw [h2, h4, h6]⟩

example : (RegionCall.scalar (E := U16) [1, 0] [3, 3] (4 : Fin (256 ^ 2))).Valid (exDataset true) :=
  ⟨by decide, trivial⟩

/-! ## C15 -/

abbrev callJobs (ds : Dataset E) (p : RegionCall E × (Nat → List E.T)) : List (Key × Prog Unit) :=
  ds.jobs (RegionCall.request p.1) p.1.off p.1.shape p.2

theorem callJobs_start (h : ds.WF) : ∀ {calls : List (RegionCall E × (Nat → List E.T))}
    {tss : List (List (Prog Unit))}, (∀ p ∈ calls, p.1.Valid ds) →
    calls.map (fun p => p.1.start ds p.2) = tss.map Res.ok →
    tss = (calls.map (callJobs ds)).map fun js => js.map Prod.snd
  | [], [], _, _ => rfl
  | [], _ :: _, _, he => by simp at he
  | _ :: _, [], _, he => by simp at he
  | p :: ps, ts :: tss, hv, he => by
    rw [List.map_cons, List.map_cons, List.cons.injEq] at he
    have h1 := he.1
    rw [RegionCall.start_eq, writeRegion_jobs h (hv p (by simp)).1, Res.ok.injEq] at h1
    rw [List.map_cons, List.map_cons, ← h1, callJobs_start h (fun q hq => hv q (by simp [hq])) he.2]

theorem callJobs_ok (h : ds.WF) : ∀ {calls : List (RegionCall E × (Nat → List E.T))},
    (∀ p ∈ calls, p.1.Valid ds) →
    (calls.map Prod.fst).Pairwise (RegionCall.Disjoint ds) →
    JobsOk (calls.map (callJobs ds)).flatten
  | [], _, _ => ⟨fun _ h => by simp at h, by simp⟩
  | p :: ps, hv, hd => by
    rw [List.map_cons, List.pairwise_cons] at hd
    have h1 := jobsOk h (hv p (by simp)).1 (RegionCall.request p.1) p.2
    have h2 := callJobs_ok h (fun q hq => hv q (by simp [hq])) hd.2
    rw [List.map_cons, List.flatten_cons]
    refine ⟨?_, ?_⟩
    · intro j hj
      rcases List.mem_append.1 hj with hj | hj
      · exact h1.touches j hj
      · exact h2.touches j hj
    · rw [List.map_append, List.nodup_append]
      refine ⟨h1.nodup, h2.nodup, ?_⟩
      intro k hk k' hk' he
      obtain ⟨j, hj, rfl⟩ := List.mem_map.1 hk
      obtain ⟨j', hj', rfl⟩ := List.mem_map.1 hk'
      obtain ⟨js, hjs, hj'⟩ := List.mem_flatten.1 hj'
      obtain ⟨q, hq, rfl⟩ := List.mem_map.1 hjs
      obtain ⟨c, hc, _, rfl⟩ := mem_jobs hj
      obtain ⟨d, hd', _, rfl⟩ := mem_jobs hj'
      have hq1 := (hv q (by simp [hq])).1
      have tc := (h.mem_overlap (hv p (by simp)).1).1 hc
      have td := (h.mem_overlap hq1).1 hd'
      have := h.key_inj tc.inGrid td.inGrid he
      subst this
      obtain ⟨x, x1, x2⟩ := tc
      obtain ⟨y, y1, y2⟩ := td
      exact hd.1 q.1 (List.mem_map.2 ⟨q, hq, rfl⟩) c x y x1 y1 x2 y2

theorem callJobs_scratch (h : ds.WF) {σ : Store} {A : List Nat → E.T} (hA : Holds ds σ A)
    {calls calls' : List (RegionCall E × (Nat → List E.T))} (hv : ∀ p ∈ calls, p.1.Valid ds)
    (hd : (calls.map Prod.fst).Pairwise (RegionCall.Disjoint ds))
    (he : calls.map Prod.fst = calls'.map Prod.fst) :
    finalOf (calls.map (callJobs ds)).flatten σ = finalOf (calls'.map (callJobs ds)).flatten σ := by
  have hv' : ∀ p ∈ calls', p.1.Valid ds := by
    intro p hp
    have : p.1 ∈ calls.map Prod.fst := by rw [he]; exact List.mem_map.2 ⟨p, hp, rfl⟩
    obtain ⟨q, hq, hqp⟩ := List.mem_map.1 this
    rw [← hqp]
    exact hv q hq
  have ok1 := callJobs_ok h hv hd
  have ok2 := callJobs_ok h hv' (he ▸ hd)
  funext k
  by_cases hk : ∃ p ∈ calls, ∃ c, Touches ds p.1.off p.1.shape c ∧ ds.chunkKey c = k
  · obtain ⟨p, hp, c, hc, rfl⟩ := hk
    have : p.1 ∈ calls'.map Prod.fst := by rw [← he]; exact List.mem_map.2 ⟨p, hp, rfl⟩
    obtain ⟨q, hq, hqp⟩ := List.mem_map.1 this
    obtain ⟨i1, h1⟩ := exists_job h (hv p hp).1 (RegionCall.request p.1) p.2 hc
    obtain ⟨i2, h2⟩ := exists_job h (hv p hp).1 (RegionCall.request p.1) q.2 hc
    have m2 : (ds.chunkKey c, ds.writeTask (RegionCall.request p.1) p.1.off p.1.shape c (q.2 i2)) ∈
        (calls'.map (callJobs ds)).flatten :=
      List.mem_flatten.2 ⟨_, List.mem_map.2 ⟨q, hq, rfl⟩, by
        show _ ∈ ds.jobs _ _ _ _
        rw [hqp]
        exact h2⟩
    have f1 := finalOf_mem ok1 (List.mem_flatten.2 ⟨_, List.mem_map.2 ⟨p, hp, rfl⟩, h1⟩) σ
    have f2 := finalOf_mem ok2 m2 σ
    simp only at f1 f2
    rw [f1, f2]
    rw [writeTask_scratch h (hv p hp).1 hc (RegionCall.spec (hv p hp)) _ (q.2 i2) (hA c hc.inGrid)]
  · have no : ∀ (l : List (RegionCall E × (Nat → List E.T))),
        l.map Prod.fst = calls.map Prod.fst → ∀ j ∈ (l.map (callJobs ds)).flatten, j.1 ≠ k := by
      intro l hl j hj hjk
      obtain ⟨js, hjs, hj⟩ := List.mem_flatten.1 hj
      obtain ⟨q, hq, rfl⟩ := List.mem_map.1 hjs
      obtain ⟨c, hc, i, rfl⟩ := mem_jobs hj
      have : q.1 ∈ calls.map Prod.fst := by rw [← hl]; exact List.mem_map.2 ⟨q, hq, rfl⟩
      obtain ⟨p, hp, hpq⟩ := List.mem_map.1 this
      rw [← hpq] at hc
      exact hk ⟨p, hp, c, (h.mem_overlap (hv p hp).1).1 hc, hjk⟩
    rw [finalOf_not_mem (no calls rfl), finalOf_not_mem (no calls' he.symm)]

/-- **C15.** Any number of concurrent region writes, no two of which overlap a common chunk, end in the
same store as executing them one after the other in any order — whatever the schedules and the contents of
the reused buffers in both executions. -/
theorem c15_disjoint_calls_commute (h : ds.WF) (hw : ds.canWrite = true) {ws : List (Write E.T)}
    {σ : Store} (hreach : Reaches ds ws σ)
    {calls calls' : List (RegionCall E × (Nat → List E.T))}
    (hv : ∀ p ∈ calls, p.1.Valid ds)
    (hd : (calls.map Prod.fst).Pairwise (RegionCall.Disjoint ds))
    (hp : (calls.map Prod.fst).Perm (calls'.map Prod.fst))
    {tss tss' : List (List (Prog Unit))}
    (hts : calls.map (fun p => p.1.start ds p.2) = tss.map Res.ok)
    (hts' : calls'.map (fun p => p.1.start ds p.2) = tss'.map Res.ok)
    {is : List Nat} {rs : List (Res Unit)} (hf : Finished (interleave is (tss.flatten, σ)).1 rs)
    {σ' : Store} (hseq : OneByOne tss' σ σ') :
    (interleave is (tss.flatten, σ)).2 = σ' := by
  obtain ⟨A, hA, _⟩ := reaches_refines h hw hreach
  have hv' : ∀ p ∈ calls', p.1.Valid ds := by
    intro p hm
    have : p.1 ∈ calls.map Prod.fst := hp.mem_iff.2 (List.mem_map.2 ⟨p, hm, rfl⟩)
    obtain ⟨q, hq, hqp⟩ := List.mem_map.1 this
    rw [← hqp]
    exact hv q hq
  have hsym : ∀ {a b}, RegionCall.Disjoint ds a b → RegionCall.Disjoint ds b a :=
    fun hab c x y h1 h2 h3 h4 => hab c y x h2 h1 h4 h3
  have hd' := hp.pairwise hd hsym
  have ok1 := callJobs_ok h hv hd
  have ok2 := callJobs_ok h hv' hd'
  rw [callJobs_start h hv hts, ← List.map_flatten] at hf ⊢
  rw [callJobs_start h hv' hts'] at hseq
  rw [(finished_jobs ok1 hf).1, oneByOne_final ok2 hseq]
  -- give the calls of the second list the buffers of a constant choice, and permute
  have e1 : (calls.map Prod.fst).map (fun c => (c, fun _ : Nat => ([] : List E.T))) =
      calls.map fun p => (p.1, fun _ => []) := by rw [List.map_map]; rfl
  have e2 : (calls'.map Prod.fst).map (fun c => (c, fun _ : Nat => ([] : List E.T))) =
      calls'.map fun p => (p.1, fun _ => []) := by rw [List.map_map]; rfl
  rw [callJobs_scratch h hA hv hd (calls' := calls.map fun p => (p.1, fun _ => [])) (by
      rw [List.map_map]; rfl),
    callJobs_scratch h hA hv' hd' (calls' := calls'.map fun p => (p.1, fun _ => [])) (by
      rw [List.map_map]; rfl), ← e1, ← e2]
  refine finalOf_perm (callJobs_ok h ?_ ?_) (((hp.map _).map _).flatten) σ
  · intro p hm
    obtain ⟨c, hc, rfl⟩ := List.mem_map.1 hm
    obtain ⟨q, hq, rfl⟩ := List.mem_map.1 hc
    exact hv q hq
  · rw [List.map_map]
    show List.Pairwise _ (List.map id _)
    rw [List.map_id]
    exact hd

/-- Two writes whose regions lie in different chunks. -/
example : [RegionCall.scalar (E := U16) [0, 0] [2, 3] (4 : Fin (256 ^ 2)),
    .scalar [2, 0] [3, 1] (5 : Fin (256 ^ 2))].Pairwise (RegionCall.Disjoint (exDataset true)) := by
  rw [List.pairwise_cons]
  refine ⟨?_, by simp⟩
  intro b hb
  cases List.mem_singleton.1 hb
  intro c x y hx hy hcx hcy
  match x, y, hx, hy with
  | [x0, x1], [y0, y1], hx, hy =>
   match c, hcx, hcy with
   | [c0, c1], hcx, hcy =>
    have h1 : 0 ≤ x0 ∧ x0 < 0 + 2 := hx.1
    have h2 : 2 ≤ y0 ∧ y0 < 2 + 3 := hy.1
    have h3 : c0 * 2 ≤ x0 ∧ x0 < (c0 + 1) * 2 ∧ x0 < 5 := hcx.1
    have h4 : c0 * 2 ≤ y0 ∧ y0 < (c0 + 1) * 2 ∧ y0 < 5 := hcy.1
    omega

/-- one byte -/
abbrev U8 : Elem := Elem.uint 1 (by decide)

/-- four bytes in one chunk -/
def exByteDataset : Dataset U8 :=
  { shape := [4], chunkShape := [4], chunkSize := 4, chunking := mkBlocking [4] [4],
    key := ⟨true, ['.'], 2, []⟩, codec := .raw, fill := (0 : Fin (256 ^ 1)), canWrite := true, backend := .files }

/-- the tasks of two writes to disjoint halves of the chunk -/
def exLostTasks : List (Prog Unit) :=
  match exByteDataset.writeScalar [0] [2] (1 : Fin (256 ^ 1)) fun _ => [],
    exByteDataset.writeScalar [2] [2] (2 : Fin (256 ^ 1)) fun _ => [] with
  | .ok a, .ok b => a ++ b
  | _, _ => []

/-- **C15, same chunk.** Two concurrent writes to *disjoint* regions in one chunk: there is a schedule under
which both calls succeed and the first one is lost. -/
theorem c15_lost_update_counterexample : ∃ is : List Nat,
    exLostTasks.length = 2 ∧
    Finished (interleave is (exLostTasks, fun _ => none)).1 [.ok (), .ok ()] ∧
    (interleave is (exLostTasks, fun _ => none)).2 (exByteDataset.chunkKey [0]) =
      some [0, 0, 2, 2] :=
  ⟨[0, 1, 0, 0, 0, 0, 0, 1, 1, 1, 1, 1], by decide +kernel, by unfold Finished; decide +kernel, by decide +kernel⟩

end Z5.Props
