import Verif.Props.ShardedConc

/-!
# Jobs that replace their object in one step
-/

namespace Z5.Props
open Z5 Spec Prog

variable {α : Type}

theorem finish_some (c : List (Prog α) × Store) : ∀ S : List Nat, (∀ j ∈ S, j < c.1.length) →
    ∃ is, (∀ i ∈ is, i ∈ S) ∧ ∀ j ∈ S, ∃ r, (interleave is c).1[j]? = some (.ret r)
  | [], _ => ⟨[], fun _ h => h, fun _ h => by cases h⟩
  | n :: S, hS => by
    obtain ⟨is, h0, his⟩ := finish_some c S fun j hj => hS j (List.mem_cons_of_mem _ hj)
    have hlen := length_interleave is c
    have hlt : n < (interleave is c).1.length := by rw [hlen]; exact hS n (by simp)
    obtain ⟨m, r, hm⟩ := finish_task n _ _ (List.getElem?_eq_getElem hlt)
    refine ⟨is ++ List.replicate m n, ?_, ?_⟩
    · intro i hi
      rcases List.mem_append.1 hi with hi | hi
      · exact List.mem_cons_of_mem _ (h0 i hi)
      · rw [(List.mem_replicate.1 hi).2]; simp
    · intro j hj
      rw [interleave_append, hm]
      by_cases hjn : n = j
      · subst hjn
        exact ⟨r, List.getElem?_set_self hlt⟩
      · rw [List.getElem?_set_ne hjn]
        exact his j ((List.mem_cons.1 hj).resolve_left fun e => hjn e.symm)

/-- A store in which the object of each job is old or the one that the job leaves is the store that some jobs leave
    that are carried out completely while the others are not started. -/
theorem atomic_store {jobs : List (Key × Prog α)} (hok : JobsOk jobs) (σ X : Store)
    (h1 : ∀ k, (∀ j ∈ jobs, j.1 ≠ k) → X k = σ k)
    (h2 : ∀ k p, (k, p) ∈ jobs → X k = σ k ∨ X k = (exec1 p (σ k)).2) :
    ∃ is, (interleave is (jobs.map Prod.snd, σ)).2 = X ∧
      ∀ j ∈ is, ∃ r, (interleave is (jobs.map Prod.snd, σ)).1[j]? = some (.ret r) := by
  have hdec : ∀ j : Nat, Decidable (∃ k p, jobs[j]? = some (k, p) ∧ X k ≠ σ k) := fun j => Classical.propDecidable _
  obtain ⟨is, h0, his⟩ := finish_some (jobs.map Prod.snd, σ)
    ((List.range jobs.length).filter fun j => decide (∃ k p, jobs[j]? = some (k, p) ∧ X k ≠ σ k)) (by
      intro j hj
      have := (List.mem_filter.1 hj).1
      simpa using this)
  obtain ⟨d1, d2⟩ := crash_jobs hok σ is
  refine ⟨is, ?_, fun j hj => his j (h0 j hj)⟩
  funext k
  by_cases hk : ∀ j ∈ jobs, j.1 ≠ k
  · rw [d1 k hk, h1 k hk]
  · simp only [Classical.not_forall, Classical.not_not] at hk
    obtain ⟨⟨k', p⟩, hj, rfl⟩ := hk
    obtain ⟨j, hlt, hjp⟩ := List.getElem_of_mem hj
    have hj' : jobs[j]? = some (k', p) := by rw [List.getElem?_eq_getElem hlt, hjp]
    obtain ⟨p2, f1, f2, f3, f4⟩ := d2 j _ _ hj'
    by_cases hS : X k' = σ k'
    · have : j ∉ is := fun hi => by
        obtain ⟨k2, p2, e, hne⟩ := of_decide_eq_true (List.mem_filter.1 (h0 j hi)).2
        rw [hj'] at e
        cases e
        exact hne hS
      show _ = X k'
      rw [hS]
      exact f3 this
    · have hin : j ∈ ((List.range jobs.length).filter fun j => decide (∃ k p, jobs[j]? = some (k, p) ∧ X k ≠ σ k)) :=
        List.mem_filter.2 ⟨by simpa using hlt, decide_eq_true ⟨k', p, hj', hS⟩⟩
      obtain ⟨r, hr⟩ := his j hin
      rw [f1] at hr
      have := f4 r (Option.some.inj hr)
      have hw := (h2 _ _ hj).resolve_left hS
      show _ = X k'
      rw [hw, this]

/-- each job replaces its object in one step -/
def AtomicJobs (jobs : List (Key × Prog α)) : Prop :=
  ∀ k p, (k, p) ∈ jobs → ∀ v w, w ∈ states p v → w = v ∨ w = (exec1 p v).2

theorem AtomicJobs.crash {jobs : List (Key × Prog α)} (hat : AtomicJobs jobs) (hok : JobsOk jobs) (σ : Store)
    (crash : List Nat) :
    (∀ k, (∀ j ∈ jobs, j.1 ≠ k) → (interleave crash (jobs.map Prod.snd, σ)).2 k = σ k) ∧
    ∀ k p, (k, p) ∈ jobs → (interleave crash (jobs.map Prod.snd, σ)).2 k = σ k ∨
      (interleave crash (jobs.map Prod.snd, σ)).2 k = (exec1 p (σ k)).2 := by
  obtain ⟨c1, c2⟩ := crash_jobs hok σ crash
  refine ⟨c1, fun k p hj => ?_⟩
  obtain ⟨j, hlt, hjp⟩ := List.getElem_of_mem hj
  obtain ⟨p1, e1, e2, e3, e4⟩ := c2 j k p (by rw [List.getElem?_eq_getElem hlt, hjp])
  exact hat _ _ hj _ _ e2

end Z5.Props
