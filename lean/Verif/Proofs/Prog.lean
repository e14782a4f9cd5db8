import Verif.Model.Prog

/-!
# Lemmas about store programs: single-file programs, isolation of concurrent tasks
-/

namespace Z5
namespace Prog

variable {α β : Type}

@[simp] theorem bind_ok (a : α) (g : α → Prog β) : ((.ret (.ok a) : Prog α) >>= g) = g a := rfl
@[simp] theorem bind_throw (e : Err) (g : α → Prog β) :
    ((.ret (.throw e) : Prog α) >>= g) = .ret (.throw e) := rfl
@[simp] theorem bind_ub (g : α → Prog β) : ((.ret .ub : Prog α) >>= g) = .ret .ub := rfl
@[simp] theorem bind_act (k f c) (g : α → Prog β) :
    ((.act k f c : Prog α) >>= g) = .act k f fun v => c v >>= g := rfl
@[simp] theorem pure_def (a : α) : (pure a : Prog α) = .ret (.ok a) := rfl

/-! ### Programs that touch only one file -/

/-- every action of the program is on file `κ` -/
def TouchesOnly (κ : Key) : Prog α → Prop
  | .ret _ => True
  | .act k _ c => k = κ ∧ ∀ v, TouchesOnly κ (c v)

/-- no action of the program changes a file -/
def ReadOnly : Prog α → Prop
  | .ret _ => True
  | .act _ f c => (∀ v, f v = v) ∧ ∀ v, ReadOnly (c v)

/-- effect of a program on one file, all its actions taken to be on that file -/
def exec1 : Prog α → Option Bytes → Res α × Option Bytes
  | .ret r, v => (r, v)
  | .act _ f c, v => exec1 (c v) (f v)

theorem TouchesOnly.bind {κ : Key} {g : α → Prog β} : ∀ {p : Prog α}, TouchesOnly κ p →
    (∀ a, TouchesOnly κ (g a)) → TouchesOnly κ (p >>= g)
  | .ret (.ok a), _, h => h a
  | .ret (.throw _), _, _ => trivial
  | .ret .ub, _, _ => trivial
  | .act _ _ _, hp, h => ⟨hp.1, fun v => TouchesOnly.bind (hp.2 v) h⟩

theorem ReadOnly.bind {g : α → Prog β} : ∀ {p : Prog α}, ReadOnly p →
    (∀ a, ReadOnly (g a)) → ReadOnly (p >>= g)
  | .ret (.ok a), _, h => h a
  | .ret (.throw _), _, _ => trivial
  | .ret .ub, _, _ => trivial
  | .act _ _ _, hp, h => ⟨hp.1, fun v => ReadOnly.bind (hp.2 v) h⟩

theorem TouchesOnly.ret {κ : Key} (r : Res α) : TouchesOnly κ (.ret r) := trivial
theorem ReadOnly.ret (r : Res α) : ReadOnly (.ret r) := trivial

/-- continuation of an outcome -/
def contRes (g : α → Prog β) : Res α × Option Bytes → Res β × Option Bytes
  | (.ok a, v) => exec1 (g a) v
  | (.throw e, v) => (.throw e, v)
  | (.ub, v) => (.ub, v)

theorem exec1_bind (g : α → Prog β) : ∀ (p : Prog α) (v : Option Bytes),
    exec1 (p >>= g) v = contRes g (exec1 p v)
  | .ret (.ok _), _ => rfl
  | .ret (.throw _), _ => rfl
  | .ret .ub, _ => rfl
  | .act _ f c, v => exec1_bind g (c v) (f v)

@[simp] theorem exec1_ret (r : Res α) (v) : exec1 (.ret r) v = (r, v) := rfl

theorem exec1_bind_ok {p : Prog α} {g : α → Prog β} {v v' : Option Bytes} {a : α}
    (h : exec1 p v = (.ok a, v')) : exec1 (p >>= g) v = exec1 (g a) v' := by
  rw [exec1_bind, h]; rfl

theorem exec1_bind_throw {p : Prog α} {g : α → Prog β} {v v' : Option Bytes} {e : Err}
    (h : exec1 p v = (.throw e, v')) : exec1 (p >>= g) v = (.throw e, v') := by
  rw [exec1_bind, h]; rfl

theorem upd_same (σ : Store) (k : Key) (v : Option Bytes) : σ.upd k v k = v := by
  simp [Store.upd]
theorem upd_other (σ : Store) {k k' : Key} (v : Option Bytes) (h : k' ≠ k) : σ.upd k v k' = σ k' := by
  simp [Store.upd, h]
theorem upd_upd (σ : Store) (k : Key) (v w : Option Bytes) : (σ.upd k v).upd k w = σ.upd k w := by
  funext k'; unfold Store.upd; split <;> rfl
theorem upd_self (σ : Store) (k : Key) : σ.upd k (σ k) = σ := by
  funext k'; unfold Store.upd; split
  · next h => rw [h]
  · rfl

theorem run_of_touches {κ : Key} : ∀ {p : Prog α}, TouchesOnly κ p → ∀ σ : Store,
    run p σ = ((exec1 p (σ κ)).1, σ.upd κ (exec1 p (σ κ)).2)
  | .ret r, _, σ => by simp [run, upd_self]
  | .act k f c, h, σ => by
    obtain ⟨rfl, h⟩ := h
    rw [run, run_of_touches (h (σ k)), exec1, upd_same, upd_upd]

theorem run_readOnly : ∀ {p : Prog α}, ReadOnly p → ∀ σ : Store, (run p σ).2 = σ
  | .ret _, _, _ => rfl
  | .act k f c, h, σ => by
    rw [run, h.1, upd_self]
    exact run_readOnly (h.2 _) σ

theorem exec1_readOnly : ∀ {p : Prog α}, ReadOnly p → ∀ v, (exec1 p v).2 = v
  | .ret _, _, _ => rfl
  | .act k f c, h, v => by
    rw [exec1, h.1]
    exact exec1_readOnly (h.2 _) v

/-! ### Isolation: concurrent tasks that touch different files -/

/-- the tasks touch pairwise different files -/
structure Isolated (κ : Nat → Key) (ts : List (Prog α)) : Prop where
  touches : ∀ i p, ts[i]? = some p → TouchesOnly (κ i) p
  inj : ∀ i j, i < ts.length → j < ts.length → κ i = κ j → i = j

theorem length_step (i : Nat) (c : List (Prog α) × Store) : (step i c).1.length = c.1.length := by
  unfold step; split <;> simp

theorem length_interleave : ∀ (is : List Nat) (c : List (Prog α) × Store),
    (interleave is c).1.length = c.1.length
  | [], _ => rfl
  | i :: is, c => by rw [interleave, length_interleave is, length_step]

/-- What one step preserves. -/
theorem step_isolated {κ : Nat → Key} {c : List (Prog α) × Store} (h : Isolated κ c.1) (i : Nat) :
    Isolated κ (step i c).1 ∧
    (∀ k, (∀ j, j < c.1.length → κ j ≠ k) → (step i c).2 k = c.2 k) ∧
    (∀ j p, c.1[j]? = some p → ∃ p', (step i c).1[j]? = some p' ∧
      exec1 p' ((step i c).2 (κ j)) = exec1 p (c.2 (κ j))) := by
  unfold step
  split
  · next k f cont hi =>
    have hlt : i < c.1.length := by
      rcases List.getElem?_eq_some_iff.1 hi with ⟨h, _⟩; exact h
    obtain ⟨hk, ht⟩ := h.touches i _ hi
    subst hk
    refine ⟨⟨?_, ?_⟩, ?_, ?_⟩
    · intro j p hj
      by_cases hij : i = j
      · subst hij
        simp only [List.getElem?_set_self hlt, Option.some.injEq] at hj
        subst hj; exact ht _
      · simp only [List.getElem?_set_ne hij] at hj
        exact h.touches j p hj
    · intro a b ha hb; simp only [List.length_set] at ha hb; exact h.inj a b ha hb
    · intro k hk
      exact upd_other _ _ fun he => hk i hlt he.symm
    · intro j p hj
      by_cases hij : i = j
      · subst hij
        rw [hi] at hj
        obtain rfl := Option.some.inj hj
        exact ⟨_, List.getElem?_set_self hlt, by simp only [upd_same]; rfl⟩
      · refine ⟨p, by simpa only [List.getElem?_set_ne hij] using hj, ?_⟩
        have hjl : j < c.1.length := by
          rcases List.getElem?_eq_some_iff.1 hj with ⟨h, _⟩; exact h
        have : κ j ≠ κ i := fun he => hij (h.inj _ _ hlt hjl he.symm)
        simp only [upd_other _ _ this]
  · exact ⟨h, fun _ _ => rfl, fun j p hj => ⟨p, hj, rfl⟩⟩

/-- **Isolation.** Under any schedule, what remains to be done by each task, applied to the present
content of its file, gives what the task would have produced alone; all other files are untouched. -/
theorem interleave_isolated {κ : Nat → Key} : ∀ (is : List Nat) {c : List (Prog α) × Store},
    Isolated κ c.1 →
    (∀ k, (∀ j, j < c.1.length → κ j ≠ k) → (interleave is c).2 k = c.2 k) ∧
    (∀ j p, c.1[j]? = some p → ∃ p', (interleave is c).1[j]? = some p' ∧
      exec1 p' ((interleave is c).2 (κ j)) = exec1 p (c.2 (κ j)))
  | [], c, _ => ⟨fun _ _ => rfl, fun j p hj => ⟨p, hj, rfl⟩⟩
  | i :: is, c, h => by
    obtain ⟨h1, h2, h3⟩ := step_isolated h i
    obtain ⟨h4, h5⟩ := interleave_isolated is h1
    rw [interleave]
    refine ⟨?_, ?_⟩
    · intro k hk
      rw [h4 k (by rw [length_step]; exact hk), h2 k hk]
    · intro j p hj
      obtain ⟨p', hp', he⟩ := h3 j p hj
      obtain ⟨p'', hp'', he'⟩ := h5 j p' hp'
      exact ⟨p'', hp'', he'.trans he⟩

/-- **Isolation, complete runs.** If all tasks have finished, outcome and final file of every task are
those of running it alone. -/
theorem finished_isolated {κ : Nat → Key} {ts : List (Prog α)} {σ : Store} (h : Isolated κ ts)
    (is : List Nat) {rs : List (Res α)} (hf : Finished (interleave is (ts, σ)).1 rs) :
    rs.length = ts.length ∧
    (∀ k, (∀ j, j < ts.length → κ j ≠ k) → (interleave is (ts, σ)).2 k = σ k) ∧
    (∀ j p, ts[j]? = some p → rs[j]? = some (exec1 p (σ (κ j))).1 ∧
      (interleave is (ts, σ)).2 (κ j) = (exec1 p (σ (κ j))).2) := by
  obtain ⟨h1, h2⟩ := interleave_isolated is (c := (ts, σ)) h
  have hl : rs.length = ts.length := by
    have := congrArg List.length hf
    simp only [List.length_map, length_interleave] at this
    exact this.symm
  refine ⟨hl, h1, ?_⟩
  intro j p hj
  obtain ⟨p', hp', he⟩ := h2 j p hj
  have hjm := congrArg (fun l => l[j]?) hf
  simp only [List.getElem?_map, hp', Option.map_some] at hjm
  cases hr : rs[j]? with
  | none => rw [hr] at hjm; simp at hjm
  | some r =>
    rw [hr] at hjm
    simp only [Option.map_some, Option.some.injEq] at hjm
    cases p' with
    | act k f c => simp [outcome] at hjm
    | ret r' =>
      simp only [outcome, Option.some.injEq] at hjm
      subst hjm
      rw [← he]
      exact ⟨rfl, rfl⟩

/-! ### Intermediate states (crash points) -/

/-- the file contents that a single-file program passes through, first the initial one -/
def states : Prog α → Option Bytes → List (Option Bytes)
  | .ret _, v => [v]
  | .act _ f c, v => v :: states (c v) (f v)

theorem mem_states_self (p : Prog α) (v) : v ∈ states p v := by cases p <;> simp [states]

theorem exec1_mem_states : ∀ (p : Prog α) (v), (exec1 p v).2 ∈ states p v
  | .ret _, v => by simp [exec1, states]
  | .act _ f c, v => by
    rw [exec1, states]
    exact List.mem_cons_of_mem _ (exec1_mem_states (c v) (f v))

theorem states_readOnly : ∀ {p : Prog α}, ReadOnly p → ∀ v w, w ∈ states p v → w = v
  | .ret _, _, v, w, h => by simpa [states] using h
  | .act _ f c, hr, v, w, h => by
    rw [states, List.mem_cons] at h
    rcases h with rfl | h
    · rfl
    · rw [hr.1] at h
      exact states_readOnly (hr.2 v) v w h

theorem mem_states_bind (g : α → Prog β) : ∀ (p : Prog α) (v w), w ∈ states (p >>= g) v →
    w ∈ states p v ∨ ∃ a, (exec1 p v).1 = .ok a ∧ w ∈ states (g a) (exec1 p v).2
  | .ret (.ok a), v, w, h => Or.inr ⟨a, rfl, h⟩
  | .ret (.throw _), v, w, h => Or.inl h
  | .ret .ub, v, w, h => Or.inl h
  | .act k f c, v, w, h => by
    rw [bind_act, states, List.mem_cons] at h
    rcases h with rfl | h
    · exact Or.inl (mem_states_self _ _)
    · rcases mem_states_bind g (c v) (f v) w h with h | h
      · exact Or.inl (List.mem_cons_of_mem _ h)
      · exact Or.inr h

/-- One step of an isolated task stays within its states. -/
theorem step_states {κ : Nat → Key} {c : List (Prog α) × Store} (h : Isolated κ c.1) (i : Nat) :
    ∀ j p, c.1[j]? = some p → ∃ p', (step i c).1[j]? = some p' ∧
      (∀ w, w ∈ states p' ((step i c).2 (κ j)) → w ∈ states p (c.2 (κ j))) ∧
      (i ≠ j → p' = p ∧ (step i c).2 (κ j) = c.2 (κ j)) := by
  intro j p hj
  unfold step
  split
  · next k f cont hi =>
    have hlt : i < c.1.length := by
      rcases List.getElem?_eq_some_iff.1 hi with ⟨h, _⟩; exact h
    obtain ⟨hk, ht⟩ := h.touches i _ hi
    subst hk
    by_cases hij : i = j
    · subst hij
      rw [hi] at hj
      obtain rfl := Option.some.inj hj
      refine ⟨_, List.getElem?_set_self hlt, ?_, fun hne => absurd rfl hne⟩
      intro w hw
      simp only [upd_same] at hw
      exact List.mem_cons_of_mem _ hw
    · refine ⟨p, by simpa only [List.getElem?_set_ne hij] using hj, ?_⟩
      have hjl : j < c.1.length := by
        rcases List.getElem?_eq_some_iff.1 hj with ⟨h, _⟩; exact h
      have : κ j ≠ κ i := fun he => hij (h.inj _ _ hlt hjl he.symm)
      simp only [upd_other _ _ this]
      exact ⟨fun w hw => hw, fun _ => by simp⟩
  · exact ⟨p, hj, fun w hw => hw, fun _ => ⟨rfl, rfl⟩⟩

/-- **Crash points.** After any number of steps of any schedule, the file of every task holds one of the
contents the task passes through when run alone: the initial one if it was never scheduled, the final
one if it has finished; all other files are untouched. -/
theorem interleave_states {κ : Nat → Key} : ∀ (is : List Nat) {c : List (Prog α) × Store},
    Isolated κ c.1 →
    (∀ k, (∀ j, j < c.1.length → κ j ≠ k) → (interleave is c).2 k = c.2 k) ∧
    (∀ j p, c.1[j]? = some p → ∃ p', (interleave is c).1[j]? = some p' ∧
      (interleave is c).2 (κ j) ∈ states p (c.2 (κ j)) ∧
      (j ∉ is → (interleave is c).2 (κ j) = c.2 (κ j)) ∧
      (∀ r, outcome p' = some r → exec1 p (c.2 (κ j)) = (r, (interleave is c).2 (κ j)))) := by
  intro is c h
  refine ⟨(interleave_isolated is h).1, ?_⟩
  intro j p hj
  obtain ⟨p', hp', he⟩ := (interleave_isolated is h).2 j p hj
  refine ⟨p', hp', ?_, ?_, ?_⟩
  · clear hp' he
    suffices ∀ (is : List Nat) (c : List (Prog α) × Store) (p : Prog α), Isolated κ c.1 →
        c.1[j]? = some p → ∃ p', (interleave is c).1[j]? = some p' ∧
        ∀ w, w ∈ states p' ((interleave is c).2 (κ j)) → w ∈ states p (c.2 (κ j)) by
      obtain ⟨p', _, hw⟩ := this is c p h hj
      exact hw _ (mem_states_self _ _)
    clear hj h p c
    intro is
    induction is with
    | nil => exact fun c p _ hj => ⟨p, hj, fun w hw => hw⟩
    | cons i is ih =>
      intro c p h hj
      obtain ⟨q, hq, hw, _⟩ := step_states h i j p hj
      obtain ⟨q', hq', hw'⟩ := ih (step i c) q (step_isolated h i).1 hq
      exact ⟨q', hq', fun w hw'' => hw w (hw' w hw'')⟩
  · clear hp' he
    induction is generalizing c p with
    | nil => exact fun _ => rfl
    | cons i is ih =>
      intro hn
      simp only [List.mem_cons, not_or] at hn
      obtain ⟨q, hq, _, hne⟩ := step_states h i j p hj
      obtain ⟨rfl, he⟩ := hne (Ne.symm hn.1)
      rw [interleave, ih (step_isolated h i).1 q hq hn.2, he]
  · intro r hr
    cases p' with
    | act k f c => simp [outcome] at hr
    | ret r' =>
      simp only [outcome, Option.some.injEq] at hr
      subst hr
      exact he.symm

/-! ### Read-only tasks, possibly on the same files -/

theorem step_readOnly {c : List (Prog α) × Store} (h : ∀ p ∈ c.1, ReadOnly p) (i : Nat) :
    (∀ p ∈ (step i c).1, ReadOnly p) ∧ (step i c).2 = c.2 ∧
    ∀ (j : Nat) p, c.1[j]? = some p → ∃ p', (step i c).1[j]? = some p' ∧ (run p' c.2).1 = (run p c.2).1 := by
  unfold step
  split
  · next k f cont hi =>
    have hlt : i < c.1.length := by
      rcases List.getElem?_eq_some_iff.1 hi with ⟨h, _⟩; exact h
    have hro := h _ (List.mem_of_getElem? hi)
    refine ⟨?_, ?_, ?_⟩
    · intro p hp
      rcases List.mem_or_eq_of_mem_set hp with hp | rfl
      · exact h p hp
      · exact hro.2 _
    · dsimp only
      rw [hro.1, upd_self]
    · intro j p hj
      by_cases hij : i = j
      · subst hij
        rw [hi] at hj
        obtain rfl := Option.some.inj hj
        refine ⟨_, List.getElem?_set_self hlt, ?_⟩
        rw [run, hro.1, upd_self]
      · exact ⟨p, by simpa only [List.getElem?_set_ne hij] using hj, rfl⟩
  · exact ⟨h, rfl, fun j p hj => ⟨p, hj, rfl⟩⟩

/-- Read-only tasks do not influence each other: under any schedule the store stays as it is and the
outcomes are those of running each task alone. -/
theorem interleave_readOnly : ∀ (is : List Nat) {c : List (Prog α) × Store},
    (∀ p ∈ c.1, ReadOnly p) → (interleave is c).2 = c.2 ∧
    ∀ (j : Nat) p, c.1[j]? = some p → ∃ p', (interleave is c).1[j]? = some p' ∧
      (run p' c.2).1 = (run p c.2).1
  | [], c, _ => ⟨rfl, fun j p hj => ⟨p, hj, rfl⟩⟩
  | i :: is, c, h => by
    obtain ⟨h1, h2, h3⟩ := step_readOnly h i
    obtain ⟨h4, h5⟩ := interleave_readOnly is h1
    rw [interleave]
    refine ⟨h4.trans h2, ?_⟩
    intro j p hj
    obtain ⟨q, hq, he⟩ := h3 j p hj
    obtain ⟨q', hq', he'⟩ := h5 j q hq
    rw [h2] at he'
    exact ⟨q', hq', he'.trans he⟩

theorem finished_readOnly {ts : List (Prog α)} {σ : Store} (h : ∀ p ∈ ts, ReadOnly p)
    {is : List Nat} {rs : List (Res α)} (hf : Finished (interleave is (ts, σ)).1 rs) :
    (interleave is (ts, σ)).2 = σ ∧ rs = ts.map fun p => (run p σ).1 := by
  obtain ⟨h1, h2⟩ := interleave_readOnly is (c := (ts, σ)) h
  refine ⟨h1, ?_⟩
  have hl : rs.length = ts.length := by
    have := congrArg List.length hf
    simp only [List.length_map, length_interleave] at this
    exact this.symm
  apply List.ext_getElem?
  intro j
  by_cases hj : j < ts.length
  · obtain ⟨p', hp', he⟩ := h2 j _ (List.getElem?_eq_getElem hj)
    have hjm := congrArg (fun l => l[j]?) hf
    simp only [List.getElem?_map, hp', Option.map_some] at hjm
    rw [List.getElem?_map, List.getElem?_eq_getElem hj, Option.map_some, ← he]
    cases hr : rs[j]? with
    | none => rw [hr] at hjm; simp at hjm
    | some r =>
      rw [hr] at hjm
      simp only [Option.map_some, Option.some.injEq] at hjm
      cases p' with
      | act k f c => simp [outcome] at hjm
      | ret r' =>
        simp only [outcome, Option.some.injEq] at hjm
        subst hjm
        rfl
  · rw [List.getElem?_eq_none (by omega), List.getElem?_eq_none (by simpa using by omega)]

/-! ### Some schedule finishes: programs are finite -/

theorem interleave_append : ∀ (is js : List Nat) (c : List (Prog α) × Store),
    interleave (is ++ js) c = interleave js (interleave is c)
  | [], _, _ => rfl
  | i :: is, js, c => by rw [List.cons_append, interleave, interleave, interleave_append is js]

/-- task `i` run to its end -/
theorem finish_task (i : Nat) : ∀ (p : Prog α) (c : List (Prog α) × Store), c.1[i]? = some p →
    ∃ n r, (interleave (List.replicate n i) c).1 = c.1.set i (.ret r)
  | .ret r, c, h => ⟨0, r, by
      rw [List.replicate_zero, interleave]
      rcases List.getElem?_eq_some_iff.1 h with ⟨hlt, he⟩
      rw [← he, List.set_getElem_self]⟩
  | .act k f cont, c, h => by
    have hlt : i < c.1.length := by
      rcases List.getElem?_eq_some_iff.1 h with ⟨h, _⟩; exact h
    have hs : step i c = (c.1.set i (cont (c.2 k)), c.2.upd k (f (c.2 k))) := by
      unfold step; rw [h]
    obtain ⟨n, r, hn⟩ := finish_task i (cont (c.2 k)) (step i c)
      (by rw [hs]; exact List.getElem?_set_self hlt)
    refine ⟨n + 1, r, ?_⟩
    rw [List.replicate_succ, interleave, hn, hs]
    simp only [List.set_set]

theorem finish_upto (c : List (Prog α) × Store) : ∀ n, n ≤ c.1.length →
    ∃ is, ∀ j, j < n → ∃ r, (interleave is c).1[j]? = some (.ret r)
  | 0, _ => ⟨[], fun j hj => absurd hj (Nat.not_lt_zero j)⟩
  | n + 1, hn => by
    obtain ⟨is, his⟩ := finish_upto c n (by omega)
    have hlen := length_interleave is c
    have hlt : n < (interleave is c).1.length := by omega
    obtain ⟨m, r, hm⟩ := finish_task n _ _ (List.getElem?_eq_getElem hlt)
    refine ⟨is ++ List.replicate m n, ?_⟩
    intro j hj
    rw [interleave_append, hm]
    by_cases hjn : n = j
    · subst hjn
      exact ⟨r, List.getElem?_set_self hlt⟩
    · rw [List.getElem?_set_ne hjn]
      exact his j (by omega)

/-- **Progress.** From any state some continuation of the schedule finishes all tasks. -/
theorem exists_finished (c : List (Prog α) × Store) :
    ∃ is rs, Finished (interleave is c).1 rs := by
  obtain ⟨is, his⟩ := finish_upto c c.1.length (Nat.le_refl _)
  refine ⟨is, (interleave is c).1.map fun p => (outcome p).getD .ub, ?_⟩
  unfold Finished
  rw [List.map_map]
  apply List.map_congr_left
  intro p hp
  obtain ⟨j, hj, rfl⟩ := List.getElem_of_mem hp
  obtain ⟨r, hr⟩ := his j (by rw [← length_interleave is c]; exact hj)
  rw [List.getElem?_eq_getElem hj, Option.some.injEq] at hr
  rw [hr]; rfl

/-! ### The store operations on one file -/

theorem touches_peek (k : Key) : TouchesOnly k (peek k) := ⟨rfl, fun _ => trivial⟩
theorem touches_update (k : Key) (f) : TouchesOnly k (update k f) := ⟨rfl, fun _ => trivial⟩
theorem touches_exists (k : Key) : TouchesOnly k (storeExists k) :=
  (touches_peek k).bind fun _ => trivial
theorem touches_read (s : Backend) (k : Key) : TouchesOnly k (storeRead s k) := by
  cases s with
  | s3 => exact touches_peek k
  | files =>
    refine (touches_exists k).bind fun b => ?_
    cases b
    · exact trivial
    · refine (touches_peek k).bind fun v => ?_
      cases v <;> exact trivial
theorem touches_writeBytes (k : Key) : ∀ (b : Bytes) (i : Nat), TouchesOnly k (writeBytes k i b)
  | [], _ => trivial
  | _ :: b, i => (touches_update k _).bind fun _ => touches_writeBytes k b (i + 1)
theorem touches_write (s : Backend) (k : Key) (b : Bytes) : TouchesOnly k (storeWrite s k b) := by
  cases s with
  | s3 => exact touches_update k _
  | files => exact (touches_update k _).bind fun _ => touches_writeBytes k b 0
theorem touches_erase (s : Backend) (k : Key) : TouchesOnly k (storeErase s k) := by
  cases s with
  | s3 => exact touches_update k _
  | files =>
    refine (touches_exists k).bind fun b => ?_
    cases b
    · exact trivial
    · exact touches_update k _

theorem readOnly_peek (k : Key) : ReadOnly (peek k) := ⟨fun _ => rfl, fun _ => trivial⟩
theorem readOnly_exists (k : Key) : ReadOnly (storeExists k) :=
  (readOnly_peek k).bind fun _ => trivial
theorem readOnly_read (s : Backend) (k : Key) : ReadOnly (storeRead s k) := by
  cases s with
  | s3 => exact readOnly_peek k
  | files =>
    refine (readOnly_exists k).bind fun b => ?_
    cases b
    · exact trivial
    · refine (readOnly_peek k).bind fun v => ?_
      cases v <;> exact trivial

@[simp] theorem exec1_peek (k : Key) (v) : exec1 (peek k) v = (.ok v, v) := rfl
@[simp] theorem exec1_update (k : Key) (f v) : exec1 (update k f) v = (.ok (), f v) := rfl
@[simp] theorem exec1_exists (k : Key) (v) : exec1 (storeExists k) v = (.ok v.isSome, v) := rfl
@[simp] theorem exec1_read (s : Backend) (k : Key) (v) : exec1 (storeRead s k) v = (.ok v, v) := by
  cases s <;> cases v <;> rfl
theorem exec1_writeBytes (k : Key) : ∀ (b pre : Bytes),
    exec1 (writeBytes k pre.length b) (some pre) = (.ok (), some (pre ++ b))
  | [], pre => by simp [writeBytes]
  | x :: b, pre => by
    have h := exec1_writeBytes k b (pre ++ [x])
    rw [List.length_append, List.length_singleton, List.append_assoc] at h
    rw [writeBytes, exec1_bind_ok (exec1_update ..)]
    simp only [pokeByte, Nat.lt_irrefl, if_false, Nat.sub_self, List.replicate_zero, List.append_nil]
    exact h
@[simp] theorem exec1_write (s : Backend) (k : Key) (b : Bytes) (v) :
    exec1 (storeWrite s k b) v = (.ok (), some b) := by
  cases s with
  | s3 => rfl
  | files =>
    rw [storeWrite, exec1_bind_ok (exec1_update ..)]
    exact exec1_writeBytes k b []
@[simp] theorem exec1_erase (s : Backend) (k : Key) (v) : exec1 (storeErase s k) v = (.ok (), none) := by
  cases s <;> cases v <;> rfl

end Prog
end Z5
