import Verif.Spec.Threads
import Verif.Proofs.Prog

/-!
# Mutual exclusion makes critical sections sequential
-/

namespace Z5.Thread
open Z5 Spec Prog

variable {α : Type}

/-- the whole of what a thread that has not started yet does -/
def prog : Thread α → Prog α
  | .waiting b => b
  | .holding b => b
  | .free p => p

/-- a thread that has not started yet, and does everything that touches the store in its critical section -/
def Locked : Thread α → Prop
  | .waiting _ => True
  | .holding _ => False
  | .free p => ∃ r, p = .ret r

theorem sequential_append {ps : List (Prog α)} {rs : List (Res α)} {a b : List Nat} {σ σ1 σ2 : Store}
    (ha : Sequential ps rs a σ σ1) (hb : Sequential ps rs b σ1 σ2) : Sequential ps rs (a ++ b) σ σ2 := by
  induction ha with
  | nil => exact hb
  | cons h1 h2 h3 _ ih => exact .cons h1 h2 h3 (ih hb)

theorem sequential_congr {ps : List (Prog α)} {rs rs' : List (Res α)} {a : List Nat} {σ σ1 : Store}
    (h : Sequential ps rs a σ σ1) (he : ∀ i ∈ a, rs[i]? = rs'[i]?) : Sequential ps rs' a σ σ1 := by
  induction h with
  | nil => exact .nil
  | @cons i p r is _ _ _ h1 h2 h3 _ ih =>
    exact .cons h1 h2 (he i (by simp) ▸ h3) (ih fun j hj => he j (by simp [hj]))

/-- Invariant: the threads in `order` have gone through their critical section, one after the other, and the
    owner of the mutex has executed a part of its own. -/
structure Inv (ts : List (Thread α)) (σ0 : Store) (order : List Nat) (c : Config α) : Prop where
  len : c.threads.length = ts.length
  nodup : order.Nodup
  lt : ∀ i ∈ order, i < ts.length
  rest : ∀ i, i ∉ order → c.lock ≠ some i → c.threads[i]? = ts[i]?
  mid : ∃ σb rs, rs.length = ts.length ∧ Sequential (ts.map prog) rs order σ0 σb ∧
    (∀ i ∈ order, ∃ r, rs[i]? = some r ∧ c.threads[i]? = some (.free (.ret r))) ∧
    match c.lock with
    | none => c.store = σb
    | some i => i ∉ order ∧ ∃ b b0, ts[i]? = some (.waiting b0) ∧ c.threads[i]? = some (.holding b) ∧
        run b c.store = run b0 σb

theorem inv_step {ts : List (Thread α)} (hts : ∀ t ∈ ts, Locked t) {σ0 : Store} {order : List Nat}
    {c : Config α} (h : Inv ts σ0 order c) (i : Nat) : ∃ order', Inv ts σ0 order' (step i c) := by
  obtain ⟨σb, rs, hl, hseq, hdone, hlock⟩ := h.mid
  unfold step
  split
  · -- waiting
    rename_i b0 hi
    split
    · rename_i hfree
      rw [hfree] at hlock
      have hlt : i < c.threads.length := (List.getElem?_eq_some_iff.1 hi).1
      have hno : i ∉ order := by
        intro hm
        obtain ⟨r, _, h2⟩ := hdone i hm
        rw [hi] at h2
        simp at h2
      have hti : ts[i]? = some (.waiting b0) := by
        rw [← h.rest i hno (by rw [hfree]; simp)]
        exact hi
      refine ⟨order, ⟨by simp [h.len], h.nodup, h.lt, ?_, σb, rs, hl, hseq, ?_, hno, b0, b0, hti, ?_, ?_⟩⟩
      · intro j hj hjl
        have hne : i ≠ j := fun he => hjl (by rw [he])
        rw [List.getElem?_set_ne hne]
        exact h.rest j hj (by rw [hfree]; simp)
      · intro j hj
        have hne : i ≠ j := fun he => hno (he ▸ hj)
        rw [List.getElem?_set_ne hne]
        exact hdone j hj
      · simp [hlt]
      · rw [show c.store = σb from hlock]
    · exact ⟨order, h⟩
  · -- an action in the critical section
    rename_i k f cont hi
    have hlt : i < c.threads.length := (List.getElem?_eq_some_iff.1 hi).1
    have hown : c.lock = some i := by
      apply Classical.byContradiction
      intro hne
      have hno : i ∉ order := by
        intro hm
        obtain ⟨r, _, h2⟩ := hdone i hm
        rw [hi] at h2
        simp at h2
      have := h.rest i hno hne
      rw [hi] at this
      have hL := hts _ (List.mem_of_getElem? this.symm)
      exact hL
    rw [hown] at hlock
    obtain ⟨hno, b, b0, h1, h2, h3⟩ := hlock
    rw [hi] at h2
    cases h2
    refine ⟨order, ⟨by simp [h.len], h.nodup, h.lt, ?_, σb, rs, hl, hseq, ?_, ?_⟩⟩
    · intro j hj hjl
      have hne : i ≠ j := fun he => hjl (he ▸ hown)
      simp only [List.getElem?_set_ne hne]
      exact h.rest j hj hjl
    · intro j hj
      have hne : i ≠ j := fun he => hno (he ▸ hj)
      simp only [List.getElem?_set_ne hne]
      exact hdone j hj
    · simp only [hown]
      exact ⟨hno, _, b0, h1, by simp [hlt], h3⟩
  · -- release
    rename_i r hi
    have hlt : i < c.threads.length := (List.getElem?_eq_some_iff.1 hi).1
    have hno' : i ∉ order := by
      intro hm
      obtain ⟨r, _, h2⟩ := hdone i hm
      rw [hi] at h2
      simp at h2
    have hown : c.lock = some i := by
      apply Classical.byContradiction
      intro hne
      have := h.rest i hno' hne
      rw [hi] at this
      have hL := hts _ (List.mem_of_getElem? this.symm)
      exact hL
    rw [hown] at hlock
    obtain ⟨hno, b, b0, h1, h2, h3⟩ := hlock
    rw [hi] at h2
    cases h2
    have hlt' : i < ts.length := h.len ▸ hlt
    have hset : ∀ j ∈ order, rs[j]? = (rs.set i r)[j]? := by
      intro j hj
      have hne : i ≠ j := fun he => hno (he ▸ hj)
      rw [List.getElem?_set_ne hne]
    refine ⟨order ++ [i], ⟨by simp [h.len], ?_, ?_, ?_, c.store, rs.set i r, by simp [hl], ?_, ?_, rfl⟩⟩
    · rw [List.nodup_append]
      refine ⟨h.nodup, by simp, ?_⟩
      intro a ha b hb he
      rw [List.mem_singleton] at hb
      exact hno (hb ▸ he ▸ ha)
    · intro j hj
      rw [List.mem_append, List.mem_singleton] at hj
      rcases hj with hj | rfl
      · exact h.lt j hj
      · exact hlt'
    · intro j hj _
      rw [List.mem_append, List.mem_singleton, not_or] at hj
      simp only [List.getElem?_set_ne (Ne.symm hj.2)]
      exact h.rest j hj.1 (by rw [hown]; intro he; exact hj.2 (Option.some.inj he).symm)
    · refine sequential_append (sequential_congr hseq hset) ?_
      refine .cons (p := b0) (r := r) (σ1 := c.store) ?_ ?_ ?_ .nil
      · rw [List.getElem?_map, h1]; rfl
      · rw [← h3]; rfl
      · simp [hl, hlt']
    · intro j hj
      rw [List.mem_append, List.mem_singleton] at hj
      rcases hj with hj | rfl
      · have hne : i ≠ j := fun he => hno (he ▸ hj)
        rw [List.getElem?_set_ne hne]
        simp only [List.getElem?_set_ne hne]
        exact hdone j hj
      · exact ⟨r, by simp [hl, hlt'], by simp [hlt]⟩
  · -- a free action: impossible
    rename_i k f cont hi
    exfalso
    by_cases hm : i ∈ order
    · obtain ⟨r, _, h2⟩ := hdone i hm
      rw [hi] at h2
      simp at h2
    · by_cases hown : c.lock = some i
      · rw [hown] at hlock
        obtain ⟨_, b, b0, _, h2, _⟩ := hlock
        rw [hi] at h2
        simp at h2
      · have := h.rest i hm hown
        rw [hi] at this
        obtain ⟨r, hr⟩ := hts _ (List.mem_of_getElem? this.symm)
        simp at hr
  · exact ⟨order, h⟩

theorem inv_interleave {ts : List (Thread α)} (hts : ∀ t ∈ ts, Locked t) {σ0 : Store} :
    ∀ (is : List Nat) {order : List Nat} {c : Config α}, Inv ts σ0 order c →
      ∃ order', Inv ts σ0 order' (interleave is c)
  | [], _, _, h => ⟨_, h⟩
  | i :: is, _, _, h => by
    obtain ⟨_, h'⟩ := inv_step hts h i
    exact inv_interleave hts is h'

theorem inv_start (ts : List (Thread α)) (rs : List (Res α)) (hrs : rs.length = ts.length) (σ0 : Store) :
    Inv ts σ0 [] ⟨ts, none, σ0⟩ :=
  ⟨rfl, by simp, by simp, fun _ _ _ => rfl, σ0, rs, hrs, .nil, by simp, rfl⟩

/-- threads that finish without touching the store can be executed at any time -/
theorem sequential_rets {ps : List (Prog α)} {rs : List (Res α)} {σ : Store} : ∀ (a : List Nat),
    (∀ i ∈ a, ∃ r, ps[i]? = some (.ret r) ∧ rs[i]? = some r) → Sequential ps rs a σ σ
  | [], _ => .nil
  | i :: is, h => by
    obtain ⟨r, h1, h2⟩ := h i (by simp)
    exact .cons h1 rfl h2 (sequential_rets is fun j hj => h j (by simp [hj]))

/-- **Linearisation.** -/
theorem locked_sequential {ts : List (Thread α)} (hts : ∀ t ∈ ts, Locked t) {σ : Store} {is : List Nat}
    {rs : List (Res α)} (hf : Finished (interleave is ⟨ts, none, σ⟩).threads rs) :
    ∃ order : List Nat, order.Perm (List.range ts.length) ∧
      Sequential (ts.map prog) rs order σ (interleave is ⟨ts, none, σ⟩).store := by
  have hdummy : ∃ rs0 : List (Res α), rs0.length = ts.length :=
    ⟨ts.map fun _ => .ub, by simp⟩
  obtain ⟨rs0, hrs0⟩ := hdummy
  obtain ⟨order, h⟩ := inv_interleave hts is (inv_start ts rs0 hrs0 σ)
  generalize hC : interleave is ⟨ts, none, σ⟩ = C at *
  obtain ⟨σb, rs1, hl, hseq, hdone, hlock⟩ := h.mid
  unfold Finished at hf
  have hlen : rs.length = ts.length := by rw [← h.len, hf]; simp
  have hfr : ∀ i : Nat, C.threads[i]? = (rs[i]?).map fun r => Thread.free (.ret r) := by
    intro i
    rw [hf, List.getElem?_map]
  have hnone : C.lock = none := by
    cases hL : C.lock with
    | none => rfl
    | some i =>
      rw [hL] at hlock
      obtain ⟨_, b, b0, _, h2, _⟩ := hlock
      rw [hfr] at h2
      cases hr : rs[i]? with
      | none => rw [hr] at h2; simp at h2
      | some r => rw [hr] at h2; simp at h2
  rw [hnone] at hlock
  let rest := (List.range ts.length).filter fun i => i ∉ order
  have hperm : (order ++ rest).Perm (List.range ts.length) := by
    rw [List.perm_ext_iff_of_nodup]
    · intro i
      simp only [List.mem_append, rest, List.mem_filter, List.mem_range, decide_eq_true_eq]
      constructor
      · rintro (hi | hi)
        · exact h.lt i hi
        · exact hi.1
      · intro hi
        by_cases hm : i ∈ order
        · exact Or.inl hm
        · exact Or.inr ⟨hi, hm⟩
    · rw [List.nodup_append]
      refine ⟨h.nodup, List.nodup_range.filter _, ?_⟩
      intro a ha b hb he
      simp only [rest, List.mem_filter, decide_eq_true_eq] at hb
      exact hb.2 (he ▸ ha)
    · exact List.nodup_range
  refine ⟨order ++ rest, hperm, ?_⟩
  rw [show C.store = σb from hlock]
  refine sequential_append (sequential_congr hseq ?_) (sequential_rets _ ?_)
  · intro i hi
    obtain ⟨r, h1, h2⟩ := hdone i hi
    rw [hfr] at h2
    cases hr : rs[i]? with
    | none => rw [hr] at h2; simp at h2
    | some r' =>
      rw [hr] at h2
      simp only [Option.map_some, Option.some.injEq, Thread.free.injEq, Prog.ret.injEq] at h2
      rw [h1, h2]
  · intro i hi
    simp only [rest, List.mem_filter, List.mem_range, decide_eq_true_eq] at hi
    have h1 := h.rest i hi.2 (by rw [hnone]; simp)
    rw [hfr, List.getElem?_eq_getElem (hlen ▸ hi.1)] at h1
    refine ⟨rs[i]'(hlen ▸ hi.1), ?_, List.getElem?_eq_getElem _⟩
    rw [List.getElem?_map, ← h1]
    rfl

/-! ### No deadlock -/

/-- what is left to do -/
def left : Thread α → Prog α
  | .waiting b => b
  | .holding b => b
  | .free p => p

/-- a thread that owns the mutex can finish -/
theorem holder_finishes {i : Nat} : ∀ (b : Prog α) {c : Config α}, c.threads[i]? = some (.holding b) →
    c.lock = some i →
    ∃ is r, (interleave is c).threads = c.threads.set i (.free (.ret r)) ∧ (interleave is c).lock = none
  | .ret r, c, hi, _ => by
    refine ⟨[i], r, ?_, ?_⟩ <;> simp [interleave, step, hi]
  | .act k f cont, c, hi, hl => by
    have hlt : i < c.threads.length := (List.getElem?_eq_some_iff.1 hi).1
    obtain ⟨is, r, h1, h2⟩ := holder_finishes (cont (c.store k))
      (c := { c with threads := c.threads.set i (.holding (cont (c.store k))),
                     store := c.store.upd k (f (c.store k)) }) (by simp [hlt]) hl
    refine ⟨i :: is, r, ?_, ?_⟩
    · rw [interleave, step]
      simp only [hi]
      rw [h1, List.set_set]
    · rw [interleave, step]
      simp only [hi]
      exact h2

theorem interleave_append (a b : List Nat) (c : Config α) :
    interleave (a ++ b) c = interleave b (interleave a c) := by
  induction a generalizing c with
  | nil => rfl
  | cons i is ih => exact ih _

theorem free_finishes {i : Nat} : ∀ (p : Prog α) {c : Config α}, c.threads[i]? = some (.free p) →
    ∃ is r, (interleave is c).threads = c.threads.set i (.free (.ret r)) ∧ (interleave is c).lock = c.lock
  | .ret r, c, hi => by
    refine ⟨[], r, ?_, rfl⟩
    apply List.ext_getElem?
    intro j
    by_cases hj : i = j
    · subst hj
      have hlt : i < c.threads.length := (List.getElem?_eq_some_iff.1 hi).1
      simp only [interleave, List.getElem?_set_self hlt]
      exact hi
    · simp only [interleave, List.getElem?_set_ne hj]
  | .act k f cont, c, hi => by
    have hlt : i < c.threads.length := (List.getElem?_eq_some_iff.1 hi).1
    obtain ⟨is, r, h1, h2⟩ := free_finishes (i := i) (cont (c.store k))
      (c := { c with threads := c.threads.set i (.free (cont (c.store k))),
                     store := c.store.upd k (f (c.store k)) }) (by simp [hlt])
    refine ⟨i :: is, r, ?_, ?_⟩
    · rw [interleave, step]
      simp only [hi]
      rw [h1, List.set_set]
    · rw [interleave, step]
      simp only [hi]
      exact h2

/-- the mutex is held by the thread that is in the critical section -/
def LockOk (c : Config α) : Prop :=
  ∀ i, c.lock = some i ↔ ∃ b, c.threads[i]? = some (.holding b)

theorem lockOk_step {c : Config α} (h : LockOk c) (i : Nat) : LockOk (step i c) := by
  have hset : ∀ {t : Thread α} (j : Nat), i < c.threads.length → i ≠ j →
      (c.threads.set i t)[j]? = c.threads[j]? := fun j _ hne => List.getElem?_set_ne hne
  unfold step
  split
  · rename_i b hi
    have hlt : i < c.threads.length := (List.getElem?_eq_some_iff.1 hi).1
    split
    · rename_i hfree
      intro j
      by_cases hj : i = j
      · subst hj; simp [hlt]
      · simp only [List.getElem?_set_ne hj, ← h j, hfree, Option.some.injEq]
        simp [hj]
    · exact h
  · rename_i k f cont hi
    have hlt : i < c.threads.length := (List.getElem?_eq_some_iff.1 hi).1
    intro j
    by_cases hj : i = j
    · subst hj
      simp only [h i, hi, List.getElem?_set_self hlt]
      simp
    · simp only [List.getElem?_set_ne hj, h j]
  · rename_i r hi
    have hlt : i < c.threads.length := (List.getElem?_eq_some_iff.1 hi).1
    have hown := (h i).2 ⟨_, hi⟩
    intro j
    by_cases hj : i = j
    · subst hj; simp [hlt]
    · simp only [List.getElem?_set_ne hj, ← h j, hown]
      simp [hj]
  · rename_i k f cont hi
    have hlt : i < c.threads.length := (List.getElem?_eq_some_iff.1 hi).1
    intro j
    by_cases hj : i = j
    · subst hj
      simp only [h i, hi, List.getElem?_set_self hlt]
      simp
    · simp only [List.getElem?_set_ne hj, h j]
  · exact h

theorem lockOk_interleave : ∀ (is : List Nat) {c : Config α}, LockOk c → LockOk (interleave is c)
  | [], _, h => h
  | i :: is, _, h => lockOk_interleave is (lockOk_step h i)

/-- the thread is done -/
def Done (t : Thread α) : Prop := ∃ r, t = .free (.ret r)

theorem finish_one {c : Config α} (hl : c.lock = none) (hok : LockOk c) {i : Nat} (hi : i < c.threads.length) :
    ∃ is r, (interleave is c).threads = c.threads.set i (.free (.ret r)) ∧ (interleave is c).lock = none := by
  have hi' := List.getElem?_eq_getElem hi
  cases ht : c.threads[i] with
  | waiting b =>
    rw [ht] at hi'
    obtain ⟨is, r, h1, h2⟩ := holder_finishes b
      (c := { c with threads := c.threads.set i (.holding b), lock := some i }) (i := i) (by simp [hi]) rfl
    refine ⟨i :: is, r, ?_, ?_⟩
    · rw [interleave, step]
      simp only [hi', hl]
      rw [h1, List.set_set]
    · rw [interleave, step]
      simp only [hi', hl]
      exact h2
  | holding b =>
    rw [ht] at hi'
    have := (hok i).2 ⟨b, hi'⟩
    rw [hl] at this
    simp at this
  | free p =>
    rw [ht] at hi'
    obtain ⟨is, r, h1, h2⟩ := free_finishes p hi'
    exact ⟨is, r, h1, by rw [h2, hl]⟩

theorem finish_all : ∀ (n : Nat) {c : Config α}, n ≤ c.threads.length → c.lock = none → LockOk c →
    ∃ is, (interleave is c).threads.length = c.threads.length ∧ (interleave is c).lock = none ∧
      LockOk (interleave is c) ∧
      ∀ i, i < n → ∃ r, (interleave is c).threads[i]? = some (.free (.ret r))
  | 0, c, _, hl, hok => ⟨[], rfl, hl, hok, fun i hi => absurd hi (Nat.not_lt_zero i)⟩
  | n + 1, c, hn, hl, hok => by
    obtain ⟨is, h1, h2, h3, h4⟩ := finish_all n (Nat.le_of_succ_le hn) hl hok
    have hlt : n < (interleave is c).threads.length := by omega
    obtain ⟨is', r, k1, k2⟩ := finish_one h2 h3 hlt
    refine ⟨is ++ is', ?_, ?_, ?_, ?_⟩
    · rw [interleave_append, k1, List.length_set, h1]
    · rw [interleave_append, k2]
    · rw [interleave_append]
      exact lockOk_interleave is' h3
    · intro i hi
      rw [interleave_append, k1]
      by_cases he : n = i
      · subst he
        exact ⟨r, List.getElem?_set_self hlt⟩
      · rw [List.getElem?_set_ne he]
        exact h4 i (by omega)

theorem finished_of_done : ∀ {ts : List (Thread α)}, (∀ t ∈ ts, Done t) → ∃ rs, Finished ts rs
  | [], _ => ⟨[], rfl⟩
  | t :: ts, h => by
    obtain ⟨rs, hrs⟩ := finished_of_done (ts := ts) fun t ht => h t (by simp [ht])
    obtain ⟨r, rfl⟩ := h t (by simp)
    unfold Finished at hrs
    exact ⟨r :: rs, by rw [Finished, List.map_cons, ← hrs]⟩

/-- **No deadlock.** -/
theorem exists_finished {c : Config α} (hok : LockOk c) :
    ∃ is rs, Finished (interleave is c).threads rs := by
  have hstart : ∃ is, (interleave is c).lock = none := by
    cases hl : c.lock with
    | none => exact ⟨[], hl⟩
    | some i =>
      obtain ⟨b, hb⟩ := (hok i).1 hl
      obtain ⟨is, _, _, h⟩ := holder_finishes b hb hl
      exact ⟨is, h⟩
  obtain ⟨is, hl⟩ := hstart
  obtain ⟨is', h1, _, _, h4⟩ := finish_all _ (Nat.le_refl _) hl (lockOk_interleave is hok)
  rw [← h1] at h4
  obtain ⟨rs, hrs⟩ := finished_of_done (ts := (interleave is' (interleave is c)).threads) (by
    intro t ht
    obtain ⟨i, hi, rfl⟩ := List.getElem_of_mem ht
    obtain ⟨r, hr⟩ := h4 i hi
    rw [List.getElem?_eq_getElem hi] at hr
    exact ⟨r, Option.some.inj hr⟩)
  exact ⟨is ++ is', rs, by rw [interleave_append]; exact hrs⟩

end Z5.Thread
