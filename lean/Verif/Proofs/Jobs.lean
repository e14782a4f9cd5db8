import Verif.Proofs.Prog
import Verif.Spec.Calls

/-!
# Concurrent jobs on pairwise different files: the outcome is determined
-/

namespace Z5
namespace Prog

variable {α : Type}

/-- every job touches only its own file, and the files are pairwise different -/
structure JobsOk (jobs : List (Key × Prog α)) : Prop where
  touches : ∀ j ∈ jobs, TouchesOnly j.1 j.2
  nodup : (jobs.map Prod.fst).Nodup

/-- the store after all jobs have run -/
def finalOf (jobs : List (Key × Prog α)) (σ : Store) : Store := fun k =>
  match jobs.find? fun j => j.1 = k with
  | some j => (exec1 j.2 (σ k)).2
  | none => σ k

theorem find_key {jobs : List (Key × Prog α)} (h : JobsOk jobs) {j : Key × Prog α} (hj : j ∈ jobs) :
    jobs.find? (fun i => i.1 = j.1) = some j := by
  have hn := h.nodup
  clear h
  induction jobs with
  | nil => simp at hj
  | cons a l ih =>
    rw [List.map_cons, List.nodup_cons] at hn
    rcases List.mem_cons.1 hj with rfl | hj
    · simp
    · have : a.1 ≠ j.1 := fun he => hn.1 (he ▸ List.mem_map.2 ⟨j, hj, rfl⟩)
      rw [List.find?_cons_of_neg (by simpa using this)]
      exact ih hj hn.2

theorem finalOf_mem {jobs : List (Key × Prog α)} (h : JobsOk jobs) {j : Key × Prog α}
    (hj : j ∈ jobs) (σ : Store) : finalOf jobs σ j.1 = (exec1 j.2 (σ j.1)).2 := by
  unfold finalOf
  rw [find_key h hj]

theorem finalOf_not_mem {jobs : List (Key × Prog α)} {k : Key} (hk : ∀ j ∈ jobs, j.1 ≠ k)
    (σ : Store) : finalOf jobs σ k = σ k := by
  unfold finalOf
  rw [List.find?_eq_none.2 (by simpa using hk)]

theorem JobsOk.isolated {jobs : List (Key × Prog α)} (h : JobsOk jobs) :
    Isolated (fun i => (jobs.map Prod.fst).getD i []) (jobs.map Prod.snd) := by
  refine ⟨?_, ?_⟩
  · intro i p hp
    rw [List.getElem?_map] at hp
    cases hj : jobs[i]? with
    | none => rw [hj] at hp; simp at hp
    | some j =>
      rw [hj] at hp
      simp only [Option.map_some, Option.some.injEq] at hp
      subst hp
      simp only [List.getD_eq_getElem?_getD, List.getElem?_map, hj, Option.map_some, Option.getD_some]
      exact h.touches j (List.mem_of_getElem? hj)
  · intro i j hi hj he
    rw [List.length_map] at hi hj
    have hi' : i < (jobs.map Prod.fst).length := by simpa using hi
    have hj' : j < (jobs.map Prod.fst).length := by simpa using hj
    simp only [List.getD_eq_getElem?_getD, List.getElem?_eq_getElem hi', List.getElem?_eq_getElem hj',
      Option.getD_some] at he
    exact (List.getElem_inj h.nodup).1 he

/-- **Determinism.** Whatever the schedule, a finished run of the jobs ends in `finalOf` with the outcomes
of running every job alone. -/
theorem finished_jobs {jobs : List (Key × Prog α)} (h : JobsOk jobs) {σ : Store} {is : List Nat}
    {rs : List (Res α)} (hf : Finished (interleave is (jobs.map Prod.snd, σ)).1 rs) :
    (interleave is (jobs.map Prod.snd, σ)).2 = finalOf jobs σ ∧
    rs = jobs.map fun j => (exec1 j.2 (σ j.1)).1 := by
  obtain ⟨h1, h2, h3⟩ := finished_isolated h.isolated is hf
  rw [List.length_map] at h1 h2
  have h3' : ∀ (i : Nat) (j : Key × Prog α), jobs[i]? = some j → rs[i]? = some (exec1 j.2 (σ j.1)).1 ∧
      (interleave is (jobs.map Prod.snd, σ)).2 j.1 = (exec1 j.2 (σ j.1)).2 := by
    intro i j hj
    have := h3 i j.2 (by rw [List.getElem?_map, hj]; rfl)
    simpa only [List.getD_eq_getElem?_getD, List.getElem?_map, hj, Option.map_some,
      Option.getD_some] using this
  refine ⟨?_, ?_⟩
  · funext k
    by_cases hk : ∃ j ∈ jobs, j.1 = k
    · obtain ⟨j, hj, rfl⟩ := hk
      obtain ⟨i, hi, rfl⟩ := List.getElem_of_mem hj
      rw [finalOf_mem h hj, (h3' i _ (List.getElem?_eq_getElem hi)).2]
    · rw [finalOf_not_mem (fun j hj he => hk ⟨j, hj, he⟩)]
      apply h2
      intro i hi he
      have hi' : i < (jobs.map Prod.fst).length := by simpa using hi
      simp only [List.getD_eq_getElem?_getD, List.getElem?_eq_getElem hi', Option.getD_some,
        List.getElem_map] at he
      exact hk ⟨_, List.getElem_mem hi, he⟩
  · apply List.ext_getElem?
    intro i
    by_cases hi : i < jobs.length
    · rw [(h3' i _ (List.getElem?_eq_getElem hi)).1, List.getElem?_map,
        List.getElem?_eq_getElem hi]
      rfl
    · rw [List.getElem?_eq_none (by omega), List.getElem?_eq_none (by simpa using by omega)]

theorem JobsOk.append {a b : List (Key × Prog α)} : JobsOk (a ++ b) → JobsOk a ∧ JobsOk b := by
  intro h
  have hn := h.nodup
  rw [List.map_append, List.nodup_append] at hn
  exact ⟨⟨fun j hj => h.touches j (by simp [hj]), hn.1⟩,
    ⟨fun j hj => h.touches j (by simp [hj]), hn.2.1⟩⟩

theorem JobsOk.disjoint {a b : List (Key × Prog α)} (h : JobsOk (a ++ b)) {i j : Key × Prog α}
    (hi : i ∈ a) (hj : j ∈ b) : i.1 ≠ j.1 := by
  have hn := h.nodup
  rw [List.map_append, List.nodup_append] at hn
  exact hn.2.2 _ (List.mem_map.2 ⟨i, hi, rfl⟩) _ (List.mem_map.2 ⟨j, hj, rfl⟩)

theorem finalOf_append {a b : List (Key × Prog α)} (h : JobsOk (a ++ b)) (σ : Store) :
    finalOf (a ++ b) σ = finalOf b (finalOf a σ) := by
  obtain ⟨ha, hb⟩ := h.append
  funext k
  by_cases hk : ∃ j ∈ a, j.1 = k
  · obtain ⟨j, hj, rfl⟩ := hk
    rw [finalOf_mem h (by simp [hj]), finalOf_not_mem (fun i hi he => h.disjoint hj hi he.symm),
      finalOf_mem ha hj]
  · have hk' : ∀ j ∈ a, j.1 ≠ k := fun j hj he => hk ⟨j, hj, he⟩
    by_cases hk2 : ∃ j ∈ b, j.1 = k
    · obtain ⟨j, hj, rfl⟩ := hk2
      rw [finalOf_mem h (by simp [hj]), finalOf_mem hb hj, finalOf_not_mem hk']
    · have hk2' : ∀ j ∈ b, j.1 ≠ k := fun j hj he => hk2 ⟨j, hj, he⟩
      rw [finalOf_not_mem (by
        intro j hj
        rcases List.mem_append.1 hj with hj | hj
        · exact hk' j hj
        · exact hk2' j hj), finalOf_not_mem hk2', finalOf_not_mem hk']

theorem JobsOk.perm {a b : List (Key × Prog α)} (h : JobsOk a) (hp : a.Perm b) : JobsOk b :=
  ⟨fun j hj => h.touches j (hp.mem_iff.2 hj), (hp.map _).nodup_iff.1 h.nodup⟩

theorem finalOf_perm {a b : List (Key × Prog α)} (h : JobsOk a) (hp : a.Perm b) (σ : Store) :
    finalOf a σ = finalOf b σ := by
  have hb := h.perm hp
  funext k
  by_cases hk : ∃ j ∈ a, j.1 = k
  · obtain ⟨j, hj, rfl⟩ := hk
    rw [finalOf_mem h hj, finalOf_mem hb (hp.mem_iff.1 hj)]
  · rw [finalOf_not_mem (fun j hj he => hk ⟨j, hj, he⟩),
      finalOf_not_mem (fun j hj he => hk ⟨j, hp.mem_iff.2 hj, he⟩)]

theorem oneByOne_final {jobss : List (List (Key × Prog α))} :
    JobsOk jobss.flatten → ∀ {σ σ' : Store},
    OneByOne (jobss.map fun js => js.map Prod.snd) σ σ' → σ' = finalOf jobss.flatten σ := by
  induction jobss with
  | nil =>
    intro _ σ σ' hs
    cases hs
    rfl
  | cons js jss ih =>
    intro h σ σ' hs
    rw [List.flatten_cons] at h
    rw [List.map_cons] at hs
    cases hs with
    | cons is rs hf hs =>
      rw [(finished_jobs h.append.1 hf).1] at hs
      rw [ih h.append.2 hs, List.flatten_cons, finalOf_append h]

/-- jobs with the same files and the same effects -/
theorem finalOf_congr {α : Type} {a b : List (Key × Prog α)} (ha : JobsOk a) (hb : JobsOk b) {σ : Store}
    (h : ∀ j ∈ a, ∃ j' ∈ b, j'.1 = j.1 ∧ exec1 j'.2 (σ j.1) = exec1 j.2 (σ j.1))
    (h' : ∀ j' ∈ b, ∃ j ∈ a, j.1 = j'.1) : finalOf a σ = finalOf b σ := by
  funext k
  by_cases hk : ∃ j ∈ a, j.1 = k
  · obtain ⟨j, hj, rfl⟩ := hk
    obtain ⟨j', hj', h1, h2⟩ := h j hj
    have e := finalOf_mem hb hj' σ
    rw [h1, h2] at e
    rw [finalOf_mem ha hj, e]
  · rw [finalOf_not_mem (fun j hj he => hk ⟨j, hj, he⟩),
      finalOf_not_mem fun j' hj' he => by
        obtain ⟨j, hj, hjj⟩ := h' j' hj'
        exact hk ⟨j, hj, hjj.trans he⟩]

end Prog

end Z5
