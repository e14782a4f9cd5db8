import Verif.Spec.Faults
import Verif.Props.S3Store

/-!
# Programs with failing requests
-/

namespace Z5.Prog
variable {α : Type}

theorem touches_withFaults {κ : Key} : ∀ {p : Prog α} {fate : Nat → Fate}, TouchesOnly κ p →
    TouchesOnly κ (withFaults fate p)
  | .ret _, _, _ => trivial
  | .act k f c, fate, h => by
    rw [withFaults]
    split
    · exact ⟨h.1, fun v => touches_withFaults (h.2 v)⟩
    · exact ⟨h.1, fun _ => trivial⟩
    · exact ⟨h.1, fun _ => trivial⟩
    · exact ⟨h.1, fun _ => touches_withFaults (h.2 none)⟩

theorem readOnly_withFaults : ∀ {p : Prog α} {fate : Nat → Fate}, ReadOnly p → ReadOnly (withFaults fate p)
  | .ret _, _, _ => trivial
  | .act k f c, fate, h => by
    rw [withFaults]
    split
    · exact ⟨h.1, fun v => readOnly_withFaults (h.2 v)⟩
    · exact ⟨fun _ => rfl, fun _ => trivial⟩
    · exact ⟨h.1, fun _ => trivial⟩
    · exact ⟨fun _ => rfl, fun _ => readOnly_withFaults (h.2 none)⟩

/-- Unless a `HeadObject` request fails, a program runs as it does without faults, or it throws. -/
theorem run_withFaults : ∀ (p : Prog α) (fate : Nat → Fate), (∀ n, fate n ≠ .headFailed) → ∀ σ : Store,
    run (withFaults fate p) σ = run p σ ∨ (run (withFaults fate p) σ).1 = .throw .runtimeError
  | .ret _, _, _, _ => .inl rfl
  | .act k f c, fate, hf, σ => by
    rw [withFaults]
    split
    · exact run_withFaults (c (σ k)) _ (fun n => hf (n + 1)) _
    · exact .inr rfl
    · exact .inr rfl
    · next h => exact absurd h (hf 0)

theorem exec1_withFaults : ∀ (p : Prog α) (fate : Nat → Fate), (∀ n, fate n ≠ .headFailed) → ∀ v : Option Bytes,
    exec1 (withFaults fate p) v = exec1 p v ∨
      ((exec1 (withFaults fate p) v).1 = .throw .runtimeError ∧ (exec1 (withFaults fate p) v).2 ∈ states p v)
  | .ret _, _, _, _ => .inl rfl
  | .act k f c, fate, hf, v => by
    rw [withFaults]
    split
    · rcases exec1_withFaults (c v) _ (fun n => hf (n + 1)) (f v) with h | ⟨h1, h2⟩
      · exact .inl h
      · exact .inr ⟨h1, List.mem_cons_of_mem _ h2⟩
    · exact .inr ⟨rfl, List.mem_cons_self ..⟩
    · refine .inr ⟨rfl, List.mem_cons_of_mem _ (mem_states_self _ _)⟩
    · next h => exact absurd h (hf 0)

end Z5.Prog

namespace Z5.Props
open Z5 Spec Prog

variable {α : Type}

/-- the jobs with faults -/
def faultyJobs (fate : Nat → Nat → Fate) (jobs : List (Key × Prog α)) : List (Key × Prog α) :=
  jobs.mapIdx fun j e => (e.1, withFaults (fate j) e.2)

theorem faultyJobs_snd (fate : Nat → Nat → Fate) (jobs : List (Key × Prog α)) :
    (faultyJobs fate jobs).map Prod.snd = allWithFaults fate (jobs.map Prod.snd) := by
  unfold faultyJobs allWithFaults
  apply List.ext_getElem <;> simp

theorem faultyJobs_fst (fate : Nat → Nat → Fate) (jobs : List (Key × Prog α)) :
    (faultyJobs fate jobs).map Prod.fst = jobs.map Prod.fst := by
  unfold faultyJobs
  apply List.ext_getElem <;> simp

theorem jobsOk_faulty {jobs : List (Key × Prog α)} (h : JobsOk jobs) (fate : Nat → Nat → Fate) :
    JobsOk (faultyJobs fate jobs) where
  touches := by
    intro e he
    obtain ⟨j, hj, rfl⟩ := List.mem_mapIdx.1 he
    exact touches_withFaults (h.touches _ (List.getElem_mem hj))
  nodup := by rw [faultyJobs_fst]; exact h.nodup

/-- jobs that replace their object in one step, with faults -/
theorem finished_faulty {jobs : List (Key × Prog α)} (hok : JobsOk jobs) (hat : AtomicJobs jobs)
    {fate : Nat → Nat → Fate} (hf : ∀ j n, fate j n ≠ .headFailed) {σ : Store} {is : List Nat} {rs : List (Res α)}
    (hfin : Finished (interleave is (allWithFaults fate (jobs.map Prod.snd), σ)).1 rs) :
    (∀ k, (∀ j ∈ jobs, j.1 ≠ k) → (interleave is (allWithFaults fate (jobs.map Prod.snd), σ)).2 k = σ k) ∧
    (∀ k p, (k, p) ∈ jobs → (interleave is (allWithFaults fate (jobs.map Prod.snd), σ)).2 k = σ k ∨
      (interleave is (allWithFaults fate (jobs.map Prod.snd), σ)).2 k = (exec1 p (σ k)).2) ∧
    rs.length = jobs.length ∧
    ∀ (j : Nat) k p r, jobs[j]? = some (k, p) → rs[j]? = some r → r = .throw .runtimeError ∨
      (r = (exec1 p (σ k)).1 ∧
        (interleave is (allWithFaults fate (jobs.map Prod.snd), σ)).2 k = (exec1 p (σ k)).2) := by
  rw [← faultyJobs_snd] at hfin ⊢
  obtain ⟨f1, f2⟩ := finished_jobs (jobsOk_faulty hok fate) hfin
  rw [f1]
  have key : ∀ (j : Nat) k p, jobs[j]? = some (k, p) →
      finalOf (faultyJobs fate jobs) σ k = (exec1 (withFaults (fate j) p) (σ k)).2 := by
    intro j k p hj
    have hm : (k, withFaults (fate j) p) ∈ faultyJobs fate jobs :=
      List.mem_of_getElem? (i := j) (by unfold faultyJobs; rw [List.getElem?_mapIdx, hj]; rfl)
    exact finalOf_mem (jobsOk_faulty hok fate) hm σ
  refine ⟨?_, ?_, ?_, ?_⟩
  · intro k hk
    refine finalOf_not_mem (fun e he => ?_) σ
    obtain ⟨j, hj, rfl⟩ := List.mem_mapIdx.1 he
    exact hk jobs[j] (List.getElem_mem hj)
  · intro k p hj
    obtain ⟨j, hlt, hjp⟩ := List.getElem_of_mem hj
    rw [key j k p (by rw [List.getElem?_eq_getElem hlt, hjp])]
    rcases exec1_withFaults p (fate j) (hf j) (σ k) with h | ⟨_, h⟩
    · exact .inr (by rw [h])
    · exact hat _ _ hj _ _ h
  · rw [f2]
    simp [faultyJobs]
  · intro j k p r hj hr
    rw [f2, List.getElem?_map] at hr
    unfold faultyJobs at hr
    rw [List.getElem?_mapIdx, hj] at hr
    have hr := Option.some.inj hr
    simp only at hr
    rw [key j k p hj, ← hr]
    rcases exec1_withFaults p (fate j) (hf j) (σ k) with h | ⟨h, _⟩
    · exact .inr ⟨by rw [h], by rw [h]⟩
    · exact .inl h

end Z5.Props
