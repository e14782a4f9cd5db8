import Verif.Proofs.Foreach
import Verif.Props.Schedule

/-!
# C37 and C38: the thread pool and `parallel_foreach`
-/

namespace Z5.Props
open Z5 Spec Prog Pool

variable {α : Type} {ts : List (Prog α)}

theorem finished_ok : ∀ {T : List (Prog α)}, (∀ p ∈ T, ∃ a, p = .ret (.ok a)) →
    ∃ rs : List α, Finished T (rs.map .ok)
  | [], _ => ⟨[], rfl⟩
  | p :: T, h => by
    obtain ⟨rs, hrs⟩ := finished_ok (T := T) fun q hq => h q (by simp [hq])
    obtain ⟨a, rfl⟩ := h p (by simp)
    refine ⟨a :: rs, ?_⟩
    simp only [Finished, List.map_cons, outcome] at hrs ⊢
    rw [hrs]

/-! ### C37 -/

/-- **C37**, without exceptions: when `parallel_foreach` returns, the body has been called exactly once for every
    index, with a thread id below `max 1 nThreads`; all these calls have finished without exception, and together
    they are one interleaving `is` of the calls. -/
theorem c37_exactly_once {n : Nat} {σ σ' : Store} {log : List (Nat × Nat)}
    (h : Foreach ts n σ (.ok ()) σ' log) :
    (log.map Prod.snd).Perm (List.range ts.length) ∧ (∀ t ∈ log, t.1 < max 1 n) ∧
    ∃ (is : List Nat) (rs : List α), Finished (interleave is (ts, σ)).1 (rs.map .ok) ∧
      σ' = (interleave is (ts, σ)).2 := by
  obtain ⟨is, T, h1, h2, h3, h4, h5, h6, _⟩ := foreach_spec h
  have h6 := h6 rfl
  have hlen : T.length = ts.length := by
    have := length_interleave is (ts, σ)
    rw [h1] at this; exact this
  refine ⟨?_, h3, is, ?_⟩
  · rw [List.perm_ext_iff_of_nodup h2 List.nodup_range]
    intro i
    rw [List.mem_range]
    exact ⟨fun hi => (h4 i hi).1, fun hi => (h6 i hi).1⟩
  · have hall : ∀ p ∈ T, ∃ a, p = .ret (.ok a) := by
      intro p hp
      obtain ⟨i, hi⟩ := List.getElem?_of_mem hp
      have hlt : i < T.length := (List.getElem?_eq_some_iff.1 hi).1
      obtain ⟨a, ha⟩ := (h6 i (by omega)).2
      rw [hi] at ha
      exact ⟨a, Option.some.inj ha⟩
    obtain ⟨rs, hrs⟩ := finished_ok hall
    exact ⟨rs, by rw [h1]; exact hrs, by rw [h1]⟩

/-- **C37**: however `parallel_foreach` ends, no index has been passed to the body twice, thread ids are below
    `max 1 nThreads`, and it ends only after every call that was begun has finished; what is in the store is
    the work of these calls alone. -/
theorem c37_at_most_once {n : Nat} {σ σ' : Store} {r : Res Unit} {log : List (Nat × Nat)}
    (h : Foreach ts n σ r σ' log) :
    (log.map Prod.snd).Nodup ∧ (∀ t ∈ log, t.1 < max 1 n ∧ t.2 < ts.length) ∧
    ∃ is : List Nat, σ' = (interleave is (ts, σ)).2 ∧ (∀ i ∈ is, i ∈ log.map Prod.snd) ∧
      ∀ i ∈ log.map Prod.snd, ∃ q, (interleave is (ts, σ)).1[i]? = some (.ret q) := by
  obtain ⟨is, T, h1, h2, h3, h4, h5, _, _⟩ := foreach_spec h
  refine ⟨h2, fun t ht => ⟨h3 t ht, (h4 t.2 (List.mem_map_of_mem ht)).1⟩, is, by rw [h1], ?_, ?_⟩
  · intro i hi
    exact Classical.byContradiction fun hc => h5 i hc hi
  · rw [h1]
    exact fun i hi => (h4 i hi).2

/-- **C37**, exceptions: `parallel_foreach` throws the exception of the smallest failing index: all calls with
    smaller indices were made and returned normally. -/
theorem c37_rethrows_first {n : Nat} {σ σ' : Store} {e : Err} {log : List (Nat × Nat)}
    (h : Foreach ts n σ (.throw e) σ' log) :
    ∃ (is : List Nat) (i : Nat), σ' = (interleave is (ts, σ)).2 ∧ i ∈ log.map Prod.snd ∧
      (interleave is (ts, σ)).1[i]? = some (.ret (.throw e)) ∧
      ∀ j : Nat, j < i → j ∈ log.map Prod.snd ∧ ∃ a, (interleave is (ts, σ)).1[j]? = some (.ret (.ok a)) := by
  obtain ⟨is, T, h1, _, _, _, _, _, h7⟩ := foreach_spec h
  obtain ⟨i, q, hi, hq, hl, hj⟩ := h7 (by simp)
  have : q = .throw e := by
    cases q with
    | ok a => simp [Pool.failure] at hq
    | throw e' => simp [Pool.failure] at hq; rw [hq]
    | ub => simp [Pool.failure] at hq
  subst this
  exact ⟨is, i, by rw [h1], hl, by rw [h1]; exact hi, by rw [h1]; exact hj⟩

/-- **C37**: if no call of the body can fail, `parallel_foreach` returns normally. -/
theorem c37_no_failure {n : Nat} {σ σ' : Store} {r : Res Unit} {log : List (Nat × Nat)}
    (hok : ∀ (is : List Nat) (i : Nat) q, (interleave is (ts, σ)).1[i]? = some (.ret q) → ∃ a, q = .ok a)
    (h : Foreach ts n σ r σ' log) : r = .ok () := by
  obtain ⟨is, T, h1, _, _, _, _, _, h7⟩ := foreach_spec h
  refine Classical.byContradiction fun hne => ?_
  obtain ⟨i, q, hi, hq, _⟩ := h7 hne
  obtain ⟨a, rfl⟩ := hok is i q (by rw [h1]; exact hi)
  simp [Pool.failure] at hq

/-- **C37**, disagreement with "exactly once" when a call throws: the rest of its batch is not called.  Two
    threads, one batch with two items, the first of which fails: the second is never called. -/
theorem c37_skips_rest_counterexample :
    ∃ (ts : List (Prog Unit)), ts.length = 2 ∧
      Foreach ts 2 (fun _ => none) (.throw .runtimeError) (fun _ => none) [(0, 0)] := by
  refine ⟨[Prog.throw .runtimeError, .ret (.ok ())], rfl, ?_⟩
  exact ⟨_, ForeachRes.pool (bs := 2)
    (es := [.client 0, .client 0, .worker 0, .worker 0, .worker 0, .worker 0, .worker 0, .worker 0, .client 0,
      .client 0, .client 0, .worker 0, .worker 1, .client 0, .client 0, .client 0]) (by decide) (by decide) rfl rfl⟩

/-- **C37**, every moment of the execution: whatever the threads have done so far, the store is that of an
    interleaving of the calls.  (So statements about every schedule and every crash point hold for the pool.) -/
theorem c37_every_moment {bs : Nat} (hbs : 1 ≤ bs) (n : Nat) (σ : Store) (es : List Event) :
    ∃ is : List Nat, (steps ts es (start n (foreachCmds bs ts.length) σ)).store = (interleave is (ts, σ)).2 := by
  obtain ⟨g, k, h⟩ := (inv_start ts (foreachCmds bs ts.length) σ n).steps (distinct_foreach hbs).tasks es
  exact ⟨g.is, by rw [h.sim]⟩

/-- **C37**, no deadlock: from every state that the loop has reached, some continuation lets it return. -/
theorem c37_no_deadlock {bs n : Nat} (hbs : 1 ≤ bs) (hn : 1 < n) (σ : Store) (es : List Event) :
    ∃ es', (steps ts (es ++ es') (start n (foreachCmds bs ts.length) σ)).client = .done := by
  have ht := (distinct_foreach (ts := ts) hbs).tasks
  obtain ⟨g, k, h⟩ := (inv_start ts (foreachCmds bs ts.length) σ n).steps ht es
  obtain ⟨es', h'⟩ := finishes ht (by omega) h (getsOk_steps es (getsOk_foreach bs ts.length))
  exact ⟨es', by rw [steps_append]; exact h'⟩

/-- **C37**: the loop can be run with every number of threads. -/
theorem c37_terminates (ts : List (Prog α)) (n : Nat) (σ : Store) : ∃ r σ' log, Foreach ts n σ r σ' log := by
  by_cases hn : n ≤ 1
  · exact ⟨_, _, _, _, .seq hn rfl⟩
  · obtain ⟨es, h⟩ := c37_no_deadlock (ts := ts) (bs := 1) (Nat.le_refl _) (by omega : 1 < n) σ []
    exact ⟨_, _, _, _, .pool (by omega) (Nat.le_refl _) rfl h⟩

/-- **C37**, **C14**: a region write with any two numbers of threads, whatever the schedules and the contents of
    the threads' buffers, ends with the same outcome and the same files. -/
theorem c37_thread_count_irrelevant {E : Elem} {ds : Dataset E} (h : ds.WF) (hw : ds.canWrite = true)
    {ws : List (Write E.T)} {σ : Store} (hreach : Reaches ds ws σ) {call : RegionCall E} (hv : call.Valid ds)
    {s s' : Nat → List E.T} {ts ts' : List (Prog Unit)} (hts : call.start ds s = .ok ts)
    (hts' : call.start ds s' = .ok ts') {n n' : Nat} {σ1 σ2 : Store} {log log' : List (Nat × Nat)}
    (h1 : Foreach ts n σ (.ok ()) σ1 log) (h2 : Foreach ts' n' σ (.ok ()) σ2 log') : σ1 = σ2 := by
  obtain ⟨_, _, is, rs, hf, rfl⟩ := c37_exactly_once h1
  obtain ⟨_, _, is', rs', hf', rfl⟩ := c37_exactly_once h2
  exact (c14_write_deterministic h hw hreach hv hts hts' hf hf').1

/-- **C37**, **C08**–**C12**: a region write executed by `parallel_foreach` with any number of threads, having
    returned normally, is one of the calls that the statements about histories of calls range over. -/
theorem c37_region_write {E : Elem} {ds : Dataset E} {call : RegionCall E} (hv : call.Valid ds)
    {s : Nat → List E.T} {ts : List (Prog Unit)} (hts : call.start ds s = .ok ts) {n : Nat} {σ σ' : Store}
    {log : List (Nat × Nat)} (h : Foreach ts n σ (.ok ()) σ' log) (val : List Nat → E.T)
    (hval : ∀ i, InBox i call.shape → call.value i = some (val i)) :
    ∃ val', (∀ i, InBox i call.shape → val' i = val i) ∧ Performs ds ⟨call.off, call.shape, val'⟩ σ σ' := by
  obtain ⟨_, _, is, rs, hf, hσ⟩ := c37_exactly_once h
  have hc : Completes ts is σ σ' := ⟨_, hf, by
    intro r hr
    obtain ⟨a, _, rfl⟩ := List.mem_map.1 hr
    rfl, hσ⟩
  cases call with
  | copy inBuf inView off =>
    exact ⟨val, fun _ _ => rfl, .subarray inBuf inView off val s ts is hv.1 hv.2 hval hts hc⟩
  | scalar off shape v =>
    refine ⟨fun _ => v, ?_, .scalar off shape v s ts is hv.1 hts hc⟩
    intro i hi
    have := hval i hi
    exact Option.some.inj this

/-- **C37**, **C13**: a region read with any number of threads that returns normally delivers the outcomes that
    the statements about reads range over, and changes nothing in the store. -/
theorem c37_region_read {E : Elem} {ds : Dataset E} {out : View} {off : List Nat} {s : Nat → List E.T}
    {ts : List (Prog (List (Nat × E.T)))} (hts : ds.readSubarray out off s = .ok ts) {n : Nat} {σ σ' : Store}
    {log : List (Nat × Nat)} (h : Foreach ts n σ (.ok ()) σ' log) :
    σ' = σ ∧ ∃ (is : List Nat) (rs : List (List (Nat × E.T))), Finished (interleave is (ts, σ)).1 (rs.map .ok) := by
  obtain ⟨_, _, is, rs, hf, hσ⟩ := c37_exactly_once h
  exact ⟨by rw [hσ]; exact (c13_read_deterministic hts σ hf hf).1, is, rs, hf⟩

/-- Two threads and three items in three batches; a schedule in which both threads work. -/
example : ∃ es, (steps [Prog.update ['a'] fun _ => some [1], Prog.update ['b'] fun _ => some [2], .ret (.ok ())] es
      (start 2 (foreachCmds 1 3) fun _ => none)).client = .done ∧
    (steps [Prog.update ['a'] fun _ => some [1], Prog.update ['b'] fun _ => some [2], .ret (.ok ())] es
      (start 2 (foreachCmds 1 3) fun _ => none)).log = [(0, 0), (1, 1), (0, 2)] :=
  ⟨[.client 0, .client 0, .client 0, .client 0, .client 0, .client 0] ++
    (List.replicate 20 [Event.worker 0, .worker 1, .client 0]).flatten, by decide +kernel, by decide +kernel⟩

/-! ### C38 -/

/-- **C38**, no loss, no duplication, first in first out: in every schedule, the tasks taken by the workers so far,
    in the order in which they were taken, followed by those still in the queue, are the tasks enqueued so far
    in the order in which they were enqueued. -/
theorem c38_fifo {n : Nat} {l : List Cmd} (hl : Distinct ts l) (σ : Store) (es : List Event) :
    (takes ts es (start n l σ)).map Prod.snd ++ (steps ts es (start n l σ)).queue.map Prod.snd
      = (enqueued l).take (steps ts es (start n l σ)).nTasks := by
  obtain ⟨g, k, h, _, ht⟩ := (inv_start ts l σ n).takes hl.tasks es
  have hk := h.kle
  have hr : List.range' 0 (k - 0) ++ List.range' k ((steps ts es (start n l σ)).nTasks - k)
      = List.range' 0 (steps ts es (start n l σ)).nTasks := by
    have := List.range'_append_1 (s := 0) (m := k) (n := (steps ts es (start n l σ)).nTasks - k)
    rw [Nat.zero_add] at this
    rw [Nat.sub_zero, this, Nat.add_sub_cancel' hk]
  rw [ht, h.fifo, ← List.map_append, ← List.map_append, hr, List.map_map]
  have hn := h.nTasks
  apply List.ext_getElem?
  intro i
  rw [List.getElem?_map, List.getElem?_take]
  by_cases hi : i < (steps ts es (start n l σ)).nTasks
  · rw [if_pos hi, List.getElem?_range' hi]
    simp [List.getElem?_eq_getElem (show i < (enqueued l).length by omega)]
  · rw [if_neg hi, List.getElem?_eq_none (by simp; omega)]
    rfl

/-- **C38**: in every schedule no item is executed twice. -/
theorem c38_at_most_once {n : Nat} {l : List Cmd} (hl : Distinct ts l) (σ : Store) (es : List Event) :
    ((steps ts es (start n l σ)).log.map Prod.snd).Nodup ∧
    ∀ t ∈ (steps ts es (start n l σ)).log, t.1 < n ∧ t.2 < ts.length := by
  obtain ⟨g, k, h⟩ := (inv_start ts l σ n).steps hl.tasks es
  refine ⟨by rw [← h.called]; exact h.logNodup, fun t ht => ⟨h.logTid t ht, ?_⟩⟩
  refine Nat.lt_of_not_le fun hc => h.range t.2 hc ?_
  rw [h.called]
  exact List.mem_map_of_mem ht

/-- **C38**, no lost wake-up: in every reachable state in which the pool is not being destroyed, if tasks are queued
    and not all workers are executing tasks, then a worker is on its way to the queue (its step is enabled), or
    the owner is about to wake one (its step is enabled).  No spurious wake-up is needed. -/
theorem c38_progress {n : Nat} {l : List Cmd} (hl : Distinct ts l) (σ : Store) (es : List Event) {c : Config α}
    (hc : steps ts es (start n l σ) = c) (hs : c.stop = false) (hq : c.queue ≠ [])
    (hb : ∃ w ∈ c.workers, w.isExec = false) :
    (∃ w ∈ c.workers, w.isReady = true) ∨ ∃ l', c.client = .notify l' := by
  obtain ⟨g, k, h⟩ := (inv_start ts l σ n).steps hl.tasks es
  rw [hc] at h
  cases ha : c.workers.any Worker.isSleep with
  | false =>
    obtain ⟨w, hw, hx⟩ := hb
    refine .inl ⟨w, hw, ?_⟩
    have h1 := h.noexit hs w hw
    have h2 : ¬ w.isSleep = true := fun hh => by
      have := List.any_eq_true.2 ⟨w, hw, hh⟩; rw [ha] at this; cases this
    cases w <;> simp [Worker.isExec, Worker.isSleep, Worker.isReady] at *
  | true =>
    have h1 := h.awake hs ha
    have h2 : 0 < c.queue.length := List.length_pos_iff.2 hq
    cases hcl : c.client with
    | notify l' => exact .inr ⟨l', rfl⟩
    | _ =>
      rw [hcl] at h1
      left
      have : 0 < c.workers.countP Worker.isReady := by
        simp only [Client.notifies, b2n] at h1
        simp at h1
        omega
      exact List.countP_pos_iff.1 this

/-- **C38**, a stronger form: as long as a worker sleeps, there are at least as many workers on their way to the
    queue as there are queued tasks (counting the one about to be woken). -/
theorem c38_enough_workers {n : Nat} {l : List Cmd} (hl : Distinct ts l) (σ : Store) (es : List Event)
    {c : Config α} (hc : steps ts es (start n l σ) = c) (hs : c.stop = false) (hsl : .sleep ∈ c.workers) :
    c.queue.length ≤ c.workers.countP Worker.isReady + (match c.client with | .notify _ => 1 | _ => 0) := by
  obtain ⟨g, k, h⟩ := (inv_start ts l σ n).steps hl.tasks es
  rw [hc] at h
  have := h.awake hs (List.any_eq_true.2 ⟨.sleep, hsl, rfl⟩)
  cases hcl : c.client <;> rw [hcl] at this <;> exact this

/-- **C38**: the pool can always finish: from every reachable state some continuation executes everything the owner
    waits for, and lets it return. -/
theorem c38_no_deadlock {n : Nat} (hn : 0 < n) {l : List Cmd} (hl : Distinct ts l) (hg : GetsOk 0 l) (σ : Store)
    (es : List Event) : ∃ es', (steps ts (es ++ es') (start n l σ)).client = .done := by
  obtain ⟨g, k, h⟩ := (inv_start ts l σ n).steps hl.tasks es
  obtain ⟨es', h'⟩ := finishes hl.tasks hn h (getsOk_steps es hg)
  exact ⟨es', by rw [steps_append]; exact h'⟩

/-- **C38**: `waitFinished` returns only when all tasks enqueued so far have been executed. -/
theorem c38_waitFinished {n : Nat} {l l' : List Cmd} (hl : Distinct ts l) (σ : Store) (es : List Event) {c : Config α}
    (hc : steps ts es (start n l σ) = c) (hw : c.client = .cmds (.waitFinished :: l')) (k : Nat)
    (hret : (step ts (.client k) c).client = .cmds l') : ∀ id, id < c.nTasks → c.futures id ≠ none := by
  obtain ⟨g, m, h⟩ := (inv_start ts l σ n).steps hl.tasks es
  rw [hc] at h
  have hcond : (c.queue.isEmpty && c.busy == 0) = true := by
    refine Classical.byContradiction fun hcc => ?_
    simp only [Pool.step, clientStep, hw, if_neg hcc] at hret
    cases hret
  simp only [Bool.and_eq_true, List.isEmpty_iff, beq_iff_eq] at hcond
  have hm : m = c.nTasks := by
    have := congrArg List.length h.fifo
    rw [hcond.1] at this
    simp at this
    have := h.kle
    omega
  intro id hid
  rcases h.cover id (by omega) with hf | ⟨w, e, hwk⟩
  · exact hf
  · have hb := h.busy
    rw [hcond.2] at hb
    have := List.countP_eq_zero.1 hb.symm _ (List.mem_of_getElem? hwk)
    simp [Worker.isBusy] at this

/-- Two workers; tasks `[0]`, `[1, 2]`; `waitFinished`; the future of task 1.  A worker sleeps, two tasks are queued. -/
example : Distinct (List.replicate 3 (.ret (.ok ()) : Prog Unit)) [.enqueue [0], .enqueue [1, 2], .waitFinished, .get 1] ∧
    GetsOk 0 [.enqueue [0], .enqueue [1, 2], .waitFinished, .get 1] ∧
    (let c := steps (List.replicate 3 (.ret (.ok ()) : Prog Unit)) [.worker 0, .worker 1, .client 0, .client 0, .client 0]
      (start 2 [.enqueue [0], .enqueue [1, 2], .waitFinished, .get 1] fun _ => none)
    c.stop = false ∧ c.queue = [(0, [0]), (1, [1, 2])] ∧ c.workers = [.check, .sleep]) :=
  ⟨⟨by decide, by decide⟩, by simp [GetsOk], rfl, rfl, rfl⟩

end Z5.Props
