import Verif.Proofs.Pool

/-!
# The pool can always finish

From every reachable state some continuation of the schedule lets the owner return, without spurious wake-ups.
-/

namespace Z5.Pool
open Z5 Prog

variable {α : Type} {ts : List (Prog α)}

theorem steps_append (a b : List Event) (c : Config α) : steps ts (a ++ b) c = steps ts b (steps ts a c) := by
  induction a generalizing c with
  | nil => rfl
  | cons e a ih => exact ih _

/-- the loop of a batch comes to its end -/
def Loops (ts : List (Prog α)) (w id : Nat) (e : Exec α) : Prop :=
  ∀ c : Config α, c.workers[w]? = some (.exec id e) → ∃ es r σ lg rl, steps ts es c
    = { c with workers := c.workers.set w .finish, store := σ, log := lg, results := rl,
               futures := fun j => if j = id then some r else c.futures j }

theorem loops_over (w id : Nat) (r : Res Unit) : Loops ts w id (.over r) := fun c hc =>
  ⟨[.worker w], r, c.store, c.log, c.results, by simp only [steps, step, workerStep_over hc]⟩

theorem loops_step {w id : Nat} {e : Exec α} (he : ∀ r, e ≠ .over r)
    (h : ∀ c : Config α, Loops ts w id (e.step ts w c).1) : Loops ts w id e := by
  intro c hc
  have hlt : w < c.workers.length := (List.getElem?_eq_some_iff.1 hc).1
  have hs := workerStep_exec (ts := ts) hc he
  obtain ⟨es, r, σ, lg, rl, h2⟩ := h c (workerStep ts w c) (by rw [hs]; simp [hlt])
  refine ⟨.worker w :: es, r, σ, lg, rl, ?_⟩
  show steps ts es (workerStep ts w c) = _
  rw [h2, hs]
  simp

theorem loops_run {w id i : Nat} {rest : List Nat} (hr : Loops ts w id (.next rest)) :
    ∀ p : Prog α, Loops ts w id (.run i p rest)
  | .ret (.ok a) => loops_step (by simp) fun _ => hr
  | .ret (.throw e) => loops_step (by simp) fun _ => loops_over _ _ _
  | .ret .ub => loops_step (by simp) fun _ => loops_over _ _ _
  | .act k f cont => loops_step (by simp) fun c => loops_run hr (cont (c.store k))

theorem loops_next {w id : Nat} : ∀ l : List Nat, Loops ts w id (.next l)
  | [] => loops_step (by simp) fun _ => loops_over _ _ _
  | i :: rest => loops_step (by simp) fun c => by
    simp only [Exec.step]
    cases ts[i]? with
    | none => exact loops_over _ _ _
    | some p => exact loops_run (loops_next rest) p

theorem loops (w id : Nat) : ∀ e : Exec α, Loops ts w id e
  | .next l => loops_next l
  | .run _ p rest => loops_run (loops_next rest) p
  | .over r => loops_over w id r

/-- what changes when one worker goes on -/
structure Kept (c c' : Config α) : Prop where
  queue : c'.queue = c.queue
  nTasks : c'.nTasks = c.nTasks
  stop : c'.stop = c.stop
  client : c'.client = c.client ∨ c'.client = c.client.wake

theorem wake_wake (x : Client) : x.wake.wake = x.wake := by cases x <;> rfl

theorem Kept.refl (c : Config α) : Kept c c := ⟨rfl, rfl, rfl, .inl rfl⟩

theorem Kept.trans {a b c : Config α} (h : Kept a b) (h' : Kept b c) : Kept a c := by
  refine ⟨h'.queue.trans h.queue, h'.nTasks.trans h.nTasks, h'.stop.trans h.stop, ?_⟩
  rcases h.client with h1 | h1 <;> rcases h'.client with h2 | h2 <;> rw [h1] at h2
  · exact .inl h2
  · exact .inr h2
  · exact .inr h2
  · exact .inr (by rw [h2, wake_wake])

/-- a worker that is awake comes back to looking at the queue -/
theorem toCheck {c : Config α} {w : Nat} {x : Worker α} (hw : c.workers[w]? = some x) (h1 : x ≠ .sleep)
    (h2 : x ≠ .exit) :
    ∃ es, (steps ts es c).workers = c.workers.set w .check ∧ Kept c (steps ts es c) := by
  have hlt : w < c.workers.length := (List.getElem?_eq_some_iff.1 hw).1
  have hsig : ∀ c : Config α, c.workers[w]? = some .signal →
      ∃ es, (steps ts es c).workers = c.workers.set w .check ∧ Kept c (steps ts es c) := fun c hw =>
    ⟨[.worker w], by simp [steps, step, workerStep_signal hw],
      by simp only [steps, step, workerStep_signal hw]; exact ⟨rfl, rfl, rfl, .inr rfl⟩⟩
  have hfin : ∀ c : Config α, c.workers[w]? = some .finish →
      ∃ es, (steps ts es c).workers = c.workers.set w .check ∧ Kept c (steps ts es c) := by
    intro c hw
    have hlt : w < c.workers.length := (List.getElem?_eq_some_iff.1 hw).1
    have hs := workerStep_finish (ts := ts) hw
    obtain ⟨es, h1, h2⟩ := hsig (workerStep ts w c) (by rw [hs]; simp [hlt])
    refine ⟨.worker w :: es, ?_, Kept.trans ?_ h2⟩
    · show (steps ts es (workerStep ts w c)).workers = _
      rw [h1, hs]; simp
    · rw [hs]; exact ⟨rfl, rfl, rfl, .inl rfl⟩
  match x with
  | .sleep => exact absurd rfl h1
  | .exit => exact absurd rfl h2
  | .check =>
    refine ⟨[], ?_, Kept.refl c⟩
    show c.workers = _
    apply List.ext_getElem? fun i => ?_
    rw [getElem?_set hw]
    by_cases h : w = i
    · rw [if_pos h, ← h, hw]
    · rw [if_neg h]
  | .signal => exact hsig c hw
  | .finish => exact hfin c hw
  | .exec id e =>
    obtain ⟨es, r, σ, lg, rl, hes⟩ := loops w id e c hw
    obtain ⟨es', h1, h2⟩ := hfin (steps ts es c) (by rw [hes]; simp [hlt])
    refine ⟨es ++ es', ?_, ?_⟩
    · rw [steps_append, h1, hes]; simp
    · rw [steps_append]
      exact Kept.trans (by rw [hes]; exact ⟨rfl, rfl, rfl, .inl rfl⟩) h2

/-- not at work -/
def Worker.idle : Worker α → Prop
  | .check | .sleep | .exit => True
  | _ => False

/-- all workers come back from their work -/
theorem allIdle (c : Config α) : ∀ m, ∃ es, (steps ts es c).workers.length = c.workers.length ∧
    Kept c (steps ts es c) ∧ ∀ (i : Nat) x, i < m → (steps ts es c).workers[i]? = some x → x.idle
  | 0 => ⟨[], rfl, Kept.refl c, by simp⟩
  | m + 1 => by
    obtain ⟨es, h1, h2, h3⟩ := allIdle c m
    generalize hc' : steps ts es c = c' at h1 h2 h3
    have base : (∀ x, c'.workers[m]? = some x → x.idle) → ∀ (i : Nat) x, i < m + 1 → c'.workers[i]? = some x → x.idle := by
      intro hm i x hi hx
      rcases Nat.lt_succ_iff_lt_or_eq.1 hi with hi | rfl
      · exact h3 i x hi hx
      · exact hm x hx
    match hm : c'.workers[m]? with
    | none => exact ⟨es, by rw [hc', h1], hc' ▸ h2, hc' ▸ base (by simp [hm])⟩
    | some x =>
      by_cases hs : x = .sleep
      · exact ⟨es, by rw [hc', h1], hc' ▸ h2, hc' ▸ base (by intro y hy; rw [hm] at hy; cases hy; subst hs; trivial)⟩
      by_cases he : x = .exit
      · exact ⟨es, by rw [hc', h1], hc' ▸ h2, hc' ▸ base (by intro y hy; rw [hm] at hy; cases hy; subst he; trivial)⟩
      obtain ⟨es', h4, h5⟩ := toCheck (ts := ts) hm hs he
      refine ⟨es ++ es', ?_, ?_, ?_⟩
      · rw [steps_append, hc', h4]; simpa using h1
      · rw [steps_append, hc']; exact h2.trans h5
      · rw [steps_append, hc', h4]
        intro i y hi hy
        rw [getElem?_set hm] at hy
        by_cases hmi : m = i
        · rw [if_pos hmi] at hy; cases hy; trivial
        · rw [if_neg hmi] at hy
          exact h3 i y (by omega) hy

section
variable {tasks : List (List Nat)} {allGets : List Nat} {σ0 : Store} {n : Nat}

/-- the workers empty the queue, and all futures are set -/
theorem drain (ht : Tasks ts tasks) (hn : 0 < n) : ∀ (q : Nat) {c : Config α} {g : Ghost α} {k : Nat},
    Inv ts tasks allGets σ0 n c g k → c.stop = false → (∀ l, c.client ≠ .notify l) → c.queue.length = q →
    (∀ (i : Nat) x, c.workers[i]? = some x → x.idle) →
    ∃ es, (steps ts es c).queue = [] ∧ (steps ts es c).nTasks = c.nTasks ∧ (steps ts es c).stop = false ∧
      ((steps ts es c).client = c.client ∨ (steps ts es c).client = c.client.wake) ∧
      ∀ (i : Nat) x, (steps ts es c).workers[i]? = some x → x.idle
  | 0, c, g, k, h, hs, hnot, hq, hi => ⟨[], List.length_eq_zero_iff.1 hq, rfl, hs, .inl rfl, hi⟩
  | q + 1, c, g, k, h, hs, hnot, hq, hi => by
    -- some worker looks at the queue
    have hw : ∃ w : Nat, c.workers[w]? = some Worker.check := by
      have hlen := h.len
      cases ha : c.workers.any Worker.isSleep with
      | true =>
        have haw := h.awake hs ha
        have hz : b2n c.client.notifies = 0 := by
          cases hc : c.client with
          | notify l => exact absurd hc (hnot l)
          | _ => rfl
        rw [hz, hq] at haw
        have hpos : 0 < c.workers.countP Worker.isReady := by omega
        obtain ⟨x, hx, hr⟩ := List.countP_pos_iff.1 hpos
        obtain ⟨w, hw⟩ := List.getElem?_of_mem hx
        have := hi w x hw
        cases x <;> simp [Worker.idle, Worker.isReady] at this hr
        exact ⟨w, hw⟩
      | false =>
        have h0 : 0 < c.workers.length := by omega
        refine ⟨0, ?_⟩
        have hx := hi 0 _ (List.getElem?_eq_getElem h0)
        have hm : c.workers[0] ∈ c.workers := List.getElem_mem h0
        have hns : ¬ (c.workers[0].isSleep = true) := fun hc => by
          have := List.any_eq_true.2 ⟨_, hm, hc⟩
          rw [ha] at this; cases this
        have hne := h.noexit hs _ hm
        rw [List.getElem?_eq_getElem h0]
        revert hx hns hne
        generalize c.workers[0] = y
        cases y <;> simp [Worker.idle, Worker.isSleep]
    obtain ⟨w, hw⟩ := hw
    have hlt : w < c.workers.length := (List.getElem?_eq_some_iff.1 hw).1
    match hqq : c.queue with
    | [] => rw [hqq] at hq; simp at hq
    | (id, its) :: q' =>
      rw [hqq] at hq
      have hstep := workerStep_take (ts := ts) hw hs hqq
      have hc1 : (workerStep ts w c).workers[w]? = some (.exec id (.next its)) := by rw [hstep]; simp [hlt]
      obtain ⟨es, h4, h5⟩ := toCheck (ts := ts) hc1 (by simp) (by simp)
      obtain ⟨g', k', hinv⟩ := h.steps ht (.worker w :: es)
      have hcons : steps ts (.worker w :: es) c = steps ts es (workerStep ts w c) := rfl
      rw [hcons] at hinv
      have hstop' : (steps ts es (workerStep ts w c)).stop = false := by rw [h5.stop, hstep]; exact hs
      have hcl : (steps ts es (workerStep ts w c)).client = c.client ∨
          (steps ts es (workerStep ts w c)).client = c.client.wake := by
        have := h5.client; rw [hstep] at this ⊢; exact this
      have hnot' : ∀ l, (steps ts es (workerStep ts w c)).client ≠ .notify l := by
        intro l hc
        rcases hcl with h6 | h6
        · exact hnot l (h6 ▸ hc)
        · rw [h6] at hc
          cases hcc : c.client <;> simp [hcc, Client.wake] at hc
          · exact hnot _ hcc
      obtain ⟨es', h6, h7, h8, h9, h10⟩ := drain ht hn q hinv hstop' hnot'
        (by rw [h5.queue, hstep]; simpa using hq)
        (by
          rw [h4, hstep]
          intro i x hx
          simp only [List.set_set] at hx
          rw [getElem?_set hw] at hx
          by_cases hwi : w = i
          · rw [if_pos hwi] at hx; cases hx; trivial
          · rw [if_neg hwi] at hx; exact hi i x hx)
      refine ⟨.worker w :: es ++ es', ?_⟩
      rw [steps_append, hcons]
      refine ⟨h6, ?_, h8, ?_, h10⟩
      · rw [h7, h5.nTasks, hstep]
      · rcases h9 with h9 | h9 <;> rw [h9] <;> rcases hcl with h11 | h11 <;> rw [h11]
        · exact .inl rfl
        · exact .inr rfl
        · exact .inr rfl
        · exact .inr (wake_wake _)

/-- the same from any state in which no notification is pending -/
theorem settle (ht : Tasks ts tasks) (hn : 0 < n) {c : Config α} {g : Ghost α} {k : Nat}
    (h : Inv ts tasks allGets σ0 n c g k) (hs : c.stop = false) (hnot : ∀ l, c.client ≠ .notify l) :
    ∃ es g' k', Inv ts tasks allGets σ0 n (steps ts es c) g' k' ∧ (steps ts es c).queue = [] ∧
      (steps ts es c).nTasks = c.nTasks ∧ (steps ts es c).stop = false ∧
      ((steps ts es c).client = c.client ∨ (steps ts es c).client = c.client.wake) ∧
      (∀ id, id < c.nTasks → (steps ts es c).futures id ≠ none) ∧ (steps ts es c).busy = 0 ∧
      ∀ (w : Nat), (steps ts es c).workers[w]? ≠ some .signal := by
  obtain ⟨es, h1, h2, h3⟩ := allIdle (ts := ts) c c.workers.length
  obtain ⟨g1, k1, hinv⟩ := h.steps ht es
  have hnot' : ∀ l, (steps ts es c).client ≠ .notify l := by
    intro l hc
    rcases h2.client with h6 | h6
    · exact hnot l (h6 ▸ hc)
    · rw [h6] at hc
      cases hcc : c.client <;> simp [hcc, Client.wake] at hc
      · exact hnot _ hcc
  obtain ⟨es', h4, h5, h6, h7, h8⟩ := drain ht hn _ hinv (h2.stop.trans hs) hnot' rfl
    (fun i x hx => h3 i x (by rw [← h1]; exact (List.getElem?_eq_some_iff.1 hx).1) hx)
  obtain ⟨g2, k2, hinv2⟩ := hinv.steps ht es'
  refine ⟨es ++ es', g2, k2, ?_⟩
  rw [steps_append]
  refine ⟨hinv2, h4, h5.trans h2.nTasks, h6, ?_, ?_, ?_, ?_⟩
  · rcases h7 with h7 | h7 <;> rw [h7] <;> rcases h2.client with h8 | h8 <;> rw [h8]
    · exact .inl rfl
    · exact .inr rfl
    · exact .inr rfl
    · exact .inr (wake_wake _)
  · intro id hid
    have hk : k2 = (steps ts es' (steps ts es c)).nTasks := by
      have hf := hinv2.fifo
      rw [h4] at hf
      have := congrArg List.length hf
      simp at this
      have := hinv2.kle
      omega
    have hk' : id < k2 := by rw [hk, h5, h2.nTasks]; exact hid
    rcases hinv2.cover id hk' with hc | ⟨w, e, hw⟩
    · exact hc
    · exact absurd (h8 w _ hw) (by simp [Worker.idle])
  · rw [hinv2.busy, List.countP_eq_zero]
    intro x hx
    obtain ⟨i, hi⟩ := List.getElem?_of_mem hx
    have := h8 i x hi
    cases x <;> simp [Worker.idle, Worker.isBusy] at this ⊢
  · intro w hw
    exact absurd (h8 w _ hw) (by simp [Worker.idle])

/-- the destructor comes to its end -/
theorem joins (ht : Tasks ts tasks) : ∀ (m : Nat) {c : Config α} {g : Ghost α} {k j : Nat},
    Inv ts tasks allGets σ0 n c g k → c.client = .joining j → n - j = m → ∃ es, (steps ts es c).client = .done
  | m, c, g, k, j, h, hc, hm => by
    have hstop : c.stop = true := by rw [h.stop, hc]; rfl
    match hj : c.workers[j]? with
    | none => exact ⟨[.client 0], by simp [steps, step, clientStep, hc, hj]⟩
    | some x =>
      have hlt : j < c.workers.length := (List.getElem?_eq_some_iff.1 hj).1
      have hjn : j < n := by rw [← h.len]; exact hlt
      -- bring it to its end
      have hex : ∃ es, (steps ts es c).workers[j]? = some .exit ∧ (steps ts es c).client = .joining j := by
        by_cases he : x = .exit
        · subst he; exact ⟨[], hj, hc⟩
        · have hns := (h.join j hc).1 x (List.mem_of_getElem? hj)
          obtain ⟨es, h1, h2⟩ := toCheck (ts := ts) hj hns he
          have hck : (steps ts es c).workers[j]? = some .check := by rw [h1]; simp [hlt]
          have hst := workerStep_stop (ts := ts) hck (h2.stop.trans hstop)
          refine ⟨es ++ [.worker j], ?_⟩
          rw [steps_append]
          simp only [steps, step, hst]
          refine ⟨by rw [h1]; simp [hlt], ?_⟩
          rcases h2.client with h3 | h3 <;> rw [h3, hc]
          rfl
      obtain ⟨es, h1, h2⟩ := hex
      obtain ⟨g', k', hinv⟩ := h.steps ht (es ++ [.client 0])
      have hst : steps ts (es ++ [.client 0]) c = { steps ts es c with client := .joining (j + 1) } := by
        rw [steps_append]; simp only [steps, step, clientStep, h2, h1]
      rw [hst] at hinv
      match m, hm with
      | 0, hm => omega
      | m + 1, hm =>
        obtain ⟨es', h3⟩ := joins ht m hinv rfl (by omega)
        exact ⟨es ++ [.client 0] ++ es', by rw [steps_append, hst]; exact h3⟩

theorem stops (ht : Tasks ts tasks) {c : Config α} {g : Ghost α} {k : Nat}
    (h : Inv ts tasks allGets σ0 n c g k) (hc : c.client = .stopping) : ∃ es, (steps ts es c).client = .done := by
  obtain ⟨g', k', hinv⟩ := h.steps ht [.client 0]
  have hcl : (steps ts [.client 0] c).client = .joining 0 := by simp only [steps, step, clientStep, hc]
  obtain ⟨es, hes⟩ := joins ht n hinv hcl rfl
  exact ⟨[.client 0] ++ es, by rw [steps_append]; exact hes⟩

/-- the pending notification can be given -/
theorem notify_step {c : Config α} {l : List Cmd} (hc : c.client = .notify l) :
    ∃ w, (steps ts [.client w] c).client = .cmds l ∧ (steps ts [.client w] c).nTasks = c.nTasks := by
  cases ha : c.workers.any Worker.isSleep with
  | true =>
    obtain ⟨x, hx, hsl⟩ := List.any_eq_true.1 ha
    obtain ⟨w, hw⟩ := List.getElem?_of_mem hx
    have : x = .sleep := by cases x <;> simp [Worker.isSleep] at hsl ⊢
    subst this
    refine ⟨w, ?_⟩
    simp only [steps, step, clientStep, hc, hw, and_self]
  | false =>
    refine ⟨c.workers.length, ?_⟩
    have hst : clientStep c.workers.length c
        = if c.workers.any Worker.isSleep then c else { c with client := .cmds l } := by
      unfold clientStep
      rw [hc]
      match hw : c.workers[c.workers.length]? with
      | none => rfl
      | some x => simp at hw
    simp only [steps, step, hst, ha, Bool.false_eq_true, if_false, and_self]

theorem finishes_cmds (ht : Tasks ts tasks) (hn : 0 < n) : ∀ (l : List Cmd) {c : Config α} {g : Ghost α} {k : Nat},
    Inv ts tasks allGets σ0 n c g k → c.client = .cmds l → GetsOk c.nTasks l →
    ∃ es, (steps ts es c).client = .done
  | [], c, g, k, h, hc, _ => by
    obtain ⟨g', k', hinv⟩ := h.steps ht [.client 0]
    obtain ⟨es, hes⟩ := stops ht hinv (by simp only [steps, step, clientStep, hc])
    exact ⟨[.client 0] ++ es, by rw [steps_append]; exact hes⟩
  | .enqueue its :: l, c, g, k, h, hc, hok => by
    obtain ⟨g', k', hinv⟩ := h.steps ht [.client 0]
    have hst : steps ts [.client 0] c
        = { c with queue := c.queue ++ [(c.nTasks, its)], nTasks := c.nTasks + 1, client := .notify l } := by
      simp only [steps, step, clientStep, hc]
    -- the notification
    have hnot := notify_step (ts := ts) (c := steps ts [.client 0] c) (l := l) (by rw [hst])
    rw [hst] at hnot
    obtain ⟨w, h1, h2⟩ := hnot
    obtain ⟨g2, k2, hinv2⟩ := h.steps ht ([.client 0] ++ [.client w])
    rw [steps_append, hst] at hinv2
    obtain ⟨es, hes⟩ := finishes_cmds ht hn l hinv2 h1 (by rw [h2]; exact hok)
    rw [← hst] at hes
    exact ⟨[.client 0] ++ [.client w] ++ es, by rw [steps_append, steps_append]; exact hes⟩
  | .get id :: l, c, g, k, h, hc, hok => by
    have hs : c.stop = false := by rw [h.stop, hc]; rfl
    obtain ⟨es, g1, k1, hinv, _, hnt, _, hcl, hfut, _⟩ := settle ht hn h hs (by simp [hc])
    have hcl' : (steps ts es c).client = .cmds (.get id :: l) := by
      rcases hcl with h' | h' <;> rw [h', hc]; rfl
    match hf : (steps ts es c).futures id with
    | none => exact absurd hf (hfut id hok.1)
    | some r =>
      obtain ⟨g2, k2, hinv2⟩ := hinv.steps ht [.client 0]
      have hst : steps ts [.client 0] (steps ts es c) = { steps ts es c with
          first := if (steps ts es c).first = .ok () then r else (steps ts es c).first, client := .cmds l } := by
        simp only [steps, step, clientStep, hcl', hf]
      rw [hst] at hinv2
      obtain ⟨es', hes⟩ := finishes_cmds ht hn l hinv2 rfl (by
        show GetsOk (steps ts es c).nTasks l
        rw [hnt]; exact hok.2)
      exact ⟨es ++ [.client 0] ++ es', by rw [steps_append, steps_append, hst]; exact hes⟩
  | .waitFinished :: l, c, g, k, h, hc, hok => by
    have hs : c.stop = false := by rw [h.stop, hc]; rfl
    obtain ⟨es, g1, k1, hinv, hq, hnt, _, hcl, _, hbusy, _⟩ := settle ht hn h hs (by simp [hc])
    have hcl' : (steps ts es c).client = .cmds (.waitFinished :: l) := by
      rcases hcl with h' | h' <;> rw [h', hc]; rfl
    obtain ⟨g2, k2, hinv2⟩ := hinv.steps ht [.client 0]
    have hst : steps ts [.client 0] (steps ts es c) = { steps ts es c with client := .cmds l } := by
      simp [steps, step, clientStep, hcl', hq, hbusy]
    rw [hst] at hinv2
    obtain ⟨es', hes⟩ := finishes_cmds ht hn l hinv2 rfl (by
      show GetsOk (steps ts es c).nTasks l
      rw [hnt]; exact hok)
    exact ⟨es ++ [.client 0] ++ es', by rw [steps_append, steps_append, hst]; exact hes⟩

/-- from every reachable state the owner can return -/
theorem finishes (ht : Tasks ts tasks) (hn : 0 < n) {c : Config α} {g : Ghost α} {k : Nat}
    (h : Inv ts tasks allGets σ0 n c g k) (hok : GetsOk c.nTasks c.client.left) :
    ∃ es, (steps ts es c).client = .done := by
  match hc : c.client with
  | .cmds l => rw [hc] at hok; exact finishes_cmds ht hn l h hc hok
  | .notify l =>
    rw [hc] at hok
    obtain ⟨w, h1, h2⟩ := notify_step (ts := ts) hc
    obtain ⟨g2, k2, hinv2⟩ := h.steps ht [.client w]
    obtain ⟨es, hes⟩ := finishes_cmds ht hn l hinv2 h1 (by rw [h2]; exact hok)
    exact ⟨[.client w] ++ es, by rw [steps_append]; exact hes⟩
  | .waiting l =>
    rw [hc] at hok
    have hs : c.stop = false := by rw [h.stop, hc]; rfl
    obtain ⟨es, g1, k1, hinv, hq, hnt, _, hcl, _, hbusy, hsig⟩ := settle ht hn h hs (by simp [hc])
    have hcl' : (steps ts es c).client = .cmds (.waitFinished :: l) := by
      rcases hcl with h' | h'
      · rw [hc] at h'
        rcases hinv.waiter l h' with h1 | h1 | ⟨w, h1⟩
        · exact absurd hq h1
        · omega
        · exact absurd h1 (hsig w)
      · rw [h', hc]; rfl
    obtain ⟨es', hes⟩ := finishes_cmds ht hn _ hinv hcl' (by rw [hnt]; exact hok)
    exact ⟨es ++ es', by rw [steps_append]; exact hes⟩
  | .stopping => exact stops ht h hc
  | .joining j => exact joins ht _ h hc rfl
  | .done => exact ⟨[], hc⟩

/-- the owner's steps keep `GetsOk` -/
theorem getsOk_step {c : Config α} (h : GetsOk c.nTasks c.client.left) (ev : Event) :
    GetsOk (step ts ev c).nTasks (step ts ev c).client.left := by
  cases ev with
  | worker w =>
    have hk : (workerStep ts w c).nTasks = c.nTasks ∧ (workerStep ts w c).client.left = c.client.left := by
      match hw : c.workers[w]? with
      | none | some .sleep | some .exit => simp only [workerStep, hw, and_self]
      | some .check =>
        cases hs : c.stop with
        | true => rw [workerStep_stop hw hs]; exact ⟨rfl, rfl⟩
        | false =>
          match hq : c.queue with
          | [] => rw [workerStep_sleep hw hs hq]; exact ⟨rfl, rfl⟩
          | (id, its) :: q => rw [workerStep_take hw hs hq]; exact ⟨rfl, rfl⟩
      | some (.exec id (.over r)) => rw [workerStep_over hw]; exact ⟨rfl, rfl⟩
      | some (.exec id (.next l)) => rw [workerStep_exec hw (by simp)]; exact ⟨rfl, rfl⟩
      | some (.exec id (.run i p l)) => rw [workerStep_exec hw (by simp)]; exact ⟨rfl, rfl⟩
      | some .finish => rw [workerStep_finish hw]; exact ⟨rfl, rfl⟩
      | some .signal =>
        rw [workerStep_signal hw]
        refine ⟨rfl, ?_⟩
        show c.client.wake.left = _
        cases c.client <;> rfl
    show GetsOk (workerStep ts w c).nTasks (workerStep ts w c).client.left
    rw [hk.1, hk.2]; exact h
  | spurious w =>
    simp only [step]
    split <;> exact h
  | client w =>
    show GetsOk (clientStep w c).nTasks (clientStep w c).client.left
    unfold clientStep
    match hc : c.client with
    | .cmds [] => trivial
    | .cmds (.enqueue its :: l) => rw [hc] at h; exact h
    | .cmds (.get id :: l) =>
      rw [hc] at h
      cases hf : c.futures id with
      | none => simp only [hf, hc]; exact h
      | some r => simp only [hf]; exact h.2
    | .cmds (.waitFinished :: l) =>
      rw [hc] at h
      by_cases hcond : (c.queue.isEmpty && c.busy == 0) = true
      · simp only [hcond, if_true]; exact h
      · simp only [if_neg hcond]; exact h
    | .notify l =>
      rw [hc] at h
      dsimp only
      split
      · exact h
      · split
        · rw [hc]; exact h
        · exact h
    | .waiting l => dsimp only; exact h
    | .stopping => trivial
    | .joining j =>
      dsimp only
      split
      · trivial
      · trivial
      · rw [hc]; trivial
    | .done => dsimp only; exact h

theorem getsOk_steps : ∀ (es : List Event) {c : Config α}, GetsOk c.nTasks c.client.left →
    GetsOk (steps ts es c).nTasks (steps ts es c).client.left
  | [], _, h => h
  | ev :: es, _, h => getsOk_steps es (getsOk_step (ts := ts) h ev)

end

end Z5.Pool
