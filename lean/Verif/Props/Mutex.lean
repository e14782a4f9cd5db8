import Verif.Proofs.Mutex
import Verif.Props.ShardedConc

/-!
# C16: concurrent chunk calls on a sharded dataset
-/

namespace Z5.Props
open Z5 Spec Prog ShardedDataset

variable {E : Elem} {sd : ShardedDataset E}

/-- the thread executes the call -/
theorem thread_prog (call : ChunkCall E) :
    Thread.prog (call.thread sd) = call.prog sd ∧ Thread.Locked (call.thread sd) := by
  cases call with
  | remove c => exact ⟨rfl, trivial⟩
  | write c data =>
    unfold ChunkCall.thread ChunkCall.prog ShardedDataset.writeChunk ShardedDataset.prepareChunk
    by_cases hw : sd.canWrite = true
    · have : (!sd.canWrite) = false := by rw [hw]; rfl
      simp only [this]
      cases hh : sd.handle c with
      | throw e => exact ⟨rfl, _, rfl⟩
      | ub => exact ⟨rfl, _, rfl⟩
      | ok hd =>
        simp only [Res.ok_bind, if_neg, Bool.false_eq_true, not_false_eq_true]
        cases hc : sd.checkChunk c false with
        | throw e => exact ⟨rfl, _, rfl⟩
        | ub => exact ⟨rfl, _, rfl⟩
        | ok u =>
          simp only [Res.ok_bind]
          cases hb : sd.makeChunkBlob c data with
          | throw e => exact ⟨rfl, _, rfl⟩
          | ub => exact ⟨rfl, _, rfl⟩
          | ok b => exact ⟨rfl, trivial⟩
    · have : (!sd.canWrite) = true := by simpa using hw
      simp only [this]
      exact ⟨rfl, _, rfl⟩

/-- **C16.** Any number of concurrent `writeChunk` and `removeChunk` calls on one sharded dataset object,
on any store, under any schedule: the final store and the outcome of every call are those of executing the
calls one after the other in some order. -/
theorem c16_linearizable (calls : List (ChunkCall E)) (σ : Store) {is : List Nat} {rs : List (Res Unit)}
    (hf : Thread.Finished (Thread.interleave is ⟨calls.map (·.thread sd), none, σ⟩).threads rs) :
    ∃ order : List Nat, order.Perm (List.range calls.length) ∧
      Sequential (calls.map (·.prog sd)) rs order σ
        (Thread.interleave is ⟨calls.map (·.thread sd), none, σ⟩).store := by
  obtain ⟨order, h1, h2⟩ := Thread.locked_sequential (ts := calls.map (·.thread sd)) (by
    intro t ht
    obtain ⟨c, _, rfl⟩ := List.mem_map.1 ht
    exact (thread_prog c).2) hf
  refine ⟨order, by simpa using h1, ?_⟩
  rw [List.map_map] at h2
  have : calls.map (Thread.prog ∘ fun x => x.thread sd) = calls.map (·.prog sd) :=
    List.map_congr_left fun c _ => (thread_prog c).1
  rw [← this]
  exact h2

/-- **C16, no deadlock.** Whatever has happened so far, the calls can still all be finished. -/
theorem c16_no_deadlock (calls : List (ChunkCall E)) (σ : Store) (is : List Nat) :
    ∃ is' rs, Thread.Finished
      (Thread.interleave (is ++ is') ⟨calls.map (·.thread sd), none, σ⟩).threads rs := by
  have hstart : Thread.LockOk (⟨calls.map (·.thread sd), none, σ⟩ : Thread.Config Unit) := by
    intro i
    simp only [false_iff, reduceCtorEq]
    rintro ⟨b, hb⟩
    rw [List.getElem?_map] at hb
    obtain ⟨c, _, hc⟩ := Option.map_eq_some_iff.1 hb
    have := (thread_prog (sd := sd) c).2
    rw [hc] at this
    exact this
  obtain ⟨is', rs, h⟩ := Thread.exists_finished (Thread.lockOk_interleave is hstart)
  exact ⟨is', rs, by rw [Thread.interleave_append]; exact h⟩

/-- a successful sequential execution is a history -/
theorem sequential_reaches {calls : List (ChunkCall E)} (hv : ∀ c ∈ calls, c.Valid sd)
    {rs : List (Res Unit)} (hok : ∀ r ∈ rs, r = .ok ()) {order : List Nat} {σ σ' : Store}
    (hs : Sequential (calls.map (·.prog sd)) rs order σ σ') :
    ∀ {ws : List (Write E.T)}, ShardedReaches sd ws σ →
      ShardedReaches sd (ws ++ order.filterMap fun i => (calls[i]?).map (·.effect sd)) σ' := by
  induction hs with
  | nil => intro ws h; simpa using h
  | @cons i p r is σ σ1 σ2 h1 h2 h3 _ ih =>
    intro ws h
    rw [List.getElem?_map] at h1
    obtain ⟨c, hc, rfl⟩ := Option.map_eq_some_iff.1 h1
    have hr := hok r (List.mem_of_getElem? h3)
    subst hr
    have hvc := hv c (List.mem_of_getElem? hc)
    have hp : ShardedPerforms sd (c.effect sd) σ σ1 := by
      cases c with
      | remove c => exact .remove c hvc h2
      | write c data =>
        refine .chunk c data _ hvc.2 ?_ h2
        intro i hi
        have := ravel_lt hi
        show _ = some (data.getD _ _)
        rw [List.getD_eq_getElem?_getD, List.getElem?_eq_getElem (hvc.2 ▸ this)]
        rfl
    have := ih (.step h hp)
    rw [List.filterMap_cons, hc]
    simpa using this

/-- **C16, histories.** If the concurrent calls all succeed, the result is a history in which they happened
one after the other in some order; so everything proved about histories (C10–C12, C34) holds after it. -/
theorem c16_history {calls : List (ChunkCall E)} (hv : ∀ c ∈ calls, c.Valid sd)
    {ws : List (Write E.T)} {σ : Store} (hreach : ShardedReaches sd ws σ)
    {is : List Nat} {rs : List (Res Unit)}
    (hf : Thread.Finished (Thread.interleave is ⟨calls.map (·.thread sd), none, σ⟩).threads rs)
    (hok : ∀ r ∈ rs, r = .ok ()) :
    ∃ calls' : List (ChunkCall E), calls'.Perm calls ∧
      ShardedReaches sd (ws ++ calls'.map (·.effect sd))
        (Thread.interleave is ⟨calls.map (·.thread sd), none, σ⟩).store := by
  obtain ⟨order, h1, h2⟩ := c16_linearizable calls σ hf
  have h3 := sequential_reaches hv hok h2 hreach
  refine ⟨order.filterMap fun i => calls[i]?, ?_, ?_⟩
  · have := h1.filterMap (fun i => calls[i]?)
    refine this.trans (List.Perm.of_eq ?_)
    clear this h1 h2 h3 hf hv
    apply List.ext_getElem?
    intro i
    induction calls generalizing i with
    | nil => simp
    | cons c cs ih =>
      rw [List.length_cons, List.range_succ_eq_map, List.filterMap_cons]
      simp only [List.getElem?_cons_zero, List.filterMap_map]
      cases i with
      | zero => simp
      | succ i => simpa [Function.comp_def] using ih i
  · rw [List.map_filterMap]
    exact h3

/-- **C16, nothing is lost.** Concurrent successful calls on pairwise different chunks: afterwards every
chunk of a `writeChunk` call reads as the data written, every removed chunk as the fill value, and all other
elements are unchanged (up to elided fill values). -/
theorem c16_nothing_lost (h : sd.WF) (hw : sd.canWrite = true) {calls : List (ChunkCall E)}
    (hv : ∀ c ∈ calls, c.Valid sd) (hd : (calls.map (·.chunk)).Nodup)
    {ws : List (Write E.T)} {σ : Store} (hreach : ShardedReaches sd ws σ)
    {is : List Nat} {rs : List (Res Unit)}
    (hf : Thread.Finished (Thread.interleave is ⟨calls.map (·.thread sd), none, σ⟩).threads rs)
    (hok : ∀ r ∈ rs, r = .ok ()) :
    ∃ A, ShardedReadsAs sd (Thread.interleave is ⟨calls.map (·.thread sd), none, σ⟩).store A ∧
      (∀ c ∈ calls, ∀ x, InChunk sd.shape sd.chunkShape c.chunk x →
        SameOrFill E.ceq sd.fill (A x) (c.value sd (subV x (mulV c.chunk sd.chunkShape)))) ∧
      (∀ x, InBox x sd.shape → (∀ c ∈ calls, ¬ InChunk sd.shape sd.chunkShape c.chunk x) →
        SameOrFill E.ceq sd.fill (A x) (replay (fun _ => sd.fill) ws x)) := by
  obtain ⟨calls', hp, hreach'⟩ := c16_history hv hreach hf hok
  obtain ⟨A, hA, hS⟩ := c10_read_after_write_sharded h hw hreach'
  have hgrid : ∀ c ∈ calls, InGrid sd.shape sd.chunkShape c.chunk := by
    intro c hc
    cases c with
    | write c d => exact (hv _ hc).1
    | remove c => exact hv _ hc
  -- a chunk region contains exactly the elements of the chunk
  have hreg : ∀ {c d : List Nat} {x : List Nat}, InGrid sd.shape sd.chunkShape c →
      InChunk sd.shape sd.chunkShape d x → InRegion x (mulV c sd.chunkShape) sd.chunkShape → c = d := by
    intro c d x hc hx hr
    apply Classical.byContradiction
    intro hne
    exact not_in_chunk h hc (inGrid_of_inChunk hx) (fun he => hne he.symm) (.of_inChunk hx)
      (by rw [stored_eq h]; exact hr)
  have hin : ∀ {d x : List Nat}, InChunk sd.shape sd.chunkShape d x →
      InRegion x (mulV d sd.chunkShape) sd.chunkShape := by
    intro d x hx
    have : InStored sd.toDataset d x := .of_inChunk hx
    unfold InStored at this
    rw [stored_eq h] at this
    exact this
  have hrep : ∀ (l : List (ChunkCall E)), (∀ c ∈ l, c ∈ calls) → ∀ {c : ChunkCall E}, c ∈ l →
      (l.map (·.chunk)).Nodup → ∀ (S : List Nat → E.T) {x}, InChunk sd.shape sd.chunkShape c.chunk x →
      replay S (l.map (·.effect sd)) x = c.value sd (subV x (mulV c.chunk sd.chunkShape)) := by
    intro l
    induction l with
    | nil => intro _ c hc; simp at hc
    | cons b l ih =>
      intro hl c hc hnd S x hx
      rw [List.map_cons, List.nodup_cons] at hnd
      by_cases hcl : c ∈ l
      · rw [List.map_cons]
        exact ih (fun d hd => hl d (by simp [hd])) hcl hnd.2 _ hx
      · have hbc : b = c := by
          rcases List.mem_cons.1 hc with he | he
          · exact he.symm
          · exact absurd he hcl
        subst hbc
        rw [List.map_cons]
        show replay (override S _ _ _) _ x = _
        rw [replay_not_covered]
        · exact override_in (hin hx)
        · intro w hw'
          obtain ⟨d, hd', rfl⟩ := List.mem_map.1 hw'
          intro hr
          have := hreg (hgrid d (hl d (by simp [hd']))) hx hr
          exact hnd.1 (List.mem_map.2 ⟨d, hd', this⟩)
  refine ⟨A, hA, ?_, ?_⟩
  · intro c hc x hx
    have := hS x (inBox_of_inChunk hx)
    rw [replay_append, hrep calls' (fun d hd' => hp.mem_iff.1 hd') (hp.mem_iff.2 hc)
      ((hp.map _).nodup_iff.2 hd) _ hx] at this
    exact this
  · intro x hx hn
    have := hS x hx
    rw [replay_append, replay_not_covered] at this
    · exact this
    · intro w hw'
      obtain ⟨d, hd', rfl⟩ := List.mem_map.1 hw'
      intro hr
      obtain ⟨e, he⟩ := h.exists_chunk hx
      have := hreg (hgrid d (hp.mem_iff.1 hd')) he hr
      exact hn d (hp.mem_iff.1 hd') (this ▸ he)

abbrev u8 (n : Fin (256 ^ 1)) : U8.T := n

/-- two writes and a removal in one shard, at the same time, under a schedule that alternates -/
def exCalls : List (ChunkCall U8) := [.write [0] [u8 1, u8 2], .write [1] [u8 3, u8 4], .remove [2]]

example : (∀ c ∈ exCalls, c.Valid exSharded) ∧ (exCalls.map (·.chunk)).Nodup ∧
    ∃ is, (Thread.interleave is ⟨exCalls.map (·.thread exSharded), none, fun _ => none⟩).threads.length = 3 ∧
      (Thread.interleave is ⟨exCalls.map (·.thread exSharded), none, fun _ => none⟩).lock = none ∧
      (run (exSharded.readRawChunk [0])
        (Thread.interleave is ⟨exCalls.map (·.thread exSharded), none, fun _ => none⟩).store).1 = .ok [1, 2] ∧
      (run (exSharded.readRawChunk [1])
        (Thread.interleave is ⟨exCalls.map (·.thread exSharded), none, fun _ => none⟩).store).1 = .ok [3, 4] := by
  refine ⟨?_, by decide, (List.replicate 200 [0, 1, 2]).flatten, by decide +kernel, by decide +kernel,
    by decide +kernel, by decide +kernel⟩
  intro c hc
  simp only [exCalls, List.mem_cons, List.not_mem_nil, or_false] at hc
  rcases hc with rfl | rfl | rfl
  · exact ⟨by decide, rfl⟩
  · exact ⟨by decide, rfl⟩
  · show InGrid _ _ _
    decide

/-- a `writeChunk` and a `writeSubarray` task (which does not take the mutex) for another chunk of the same
shard -/
def exMixed : List (Thread Unit) :=
  [(ChunkCall.write (E := U8) [0] [u8 1, u8 2]).thread exSharded,
   .free (exSharded.writeShardTask (scalarRequest (u8 7)) [2] [2] [0] [[1]] [])]

/-- **C16, mixing with region writes.** The mutex does not protect against `writeSubarray`: there is a
schedule under which a `writeChunk` and a `writeSubarray` on different chunks of one shard both succeed and
the chunk written by `writeChunk` is gone. -/
theorem c16_mixed_lost_update_counterexample : ∃ is : List Nat,
    (exSharded.writeRegion (scalarRequest (u8 7)) [2] [2] fun _ => []) =
      .ok [exSharded.writeShardTask (scalarRequest (u8 7)) [2] [2] [0] [[1]] []] ∧
    (Thread.interleave is ⟨exMixed, none, fun _ => none⟩).threads.map
      (fun t => match t with | .free (.ret r) => some r | _ => none) = [some (.ok ()), some (.ok ())] ∧
    (run (exSharded.chunkExists [0]) (Thread.interleave is ⟨exMixed, none, fun _ => none⟩).store).1 =
      .ok false ∧
    (run (exSharded.readRawChunk [1]) (Thread.interleave is ⟨exMixed, none, fun _ => none⟩).store).1 =
      .ok [7, 7] :=
  ⟨[1, 0] ++ List.replicate 60 0 ++ List.replicate 60 1, rfl, by decide +kernel, by decide +kernel,
    by decide +kernel⟩

/-- **C16, readers.** Nor does it protect readers: a `readChunk` of chunk `[0]` that comes while chunk `[1]`
of the same shard is being written fails, although chunk `[0]` has been stored all the time. -/
theorem c16_reader_counterexample : ∃ is : List Nat,
    (run (exSharded.readRawChunk [0]) exShardedStore).1 = .ok [0, 9] ∧
    (run (exSharded.readRawChunk [0]) (Thread.interleave is
      ⟨[(ChunkCall.write (E := U8) [1] [u8 3, u8 4]).thread exSharded], none, exShardedStore⟩).store).1 =
      .throw .runtimeError :=
  ⟨[0, 0, 0, 0, 0], by decide +kernel, by decide +kernel⟩

end Z5.Props
