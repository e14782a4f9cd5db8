import Verif.Spec.Pool
import Verif.Proofs.Prog

/-!
# Invariants of the thread pool

Every state that the pool reaches corresponds to a state of the tasks `ts` under some schedule `is` (see
`Prog.interleave`); the batches are taken in order and each item belongs to at most one running batch.
-/

namespace Z5.Pool
open Z5 Prog

variable {α : Type}

/-! ### Items -/

/-- the bookkeeping: `T` what is left of the items, `is` the schedule, `called` the items begun,
    `done` the items that have returned normally -/
structure Ghost (α : Type) where
  T : List (Prog α)
  is : List Nat
  called : List Nat
  done : List Nat

namespace Ghost

def Fresh (ts : List (Prog α)) (g : Ghost α) (i : Nat) : Prop :=
  g.T[i]? = ts[i]? ∧ i ∉ g.is ∧ i ∉ g.called
def Ends (g : Ghost α) (i : Nat) (r : Res α) : Prop := i ∈ g.called ∧ g.T[i]? = some (.ret r)
def IsOk (g : Ghost α) (i : Nat) : Prop := ∃ a, g.Ends i (.ok a)
def Done (g : Ghost α) (i : Nat) : Prop := g.IsOk i ∧ i ∈ g.done
def Cur (g : Ghost α) (i : Nat) (p : Prog α) : Prop := i ∈ g.called ∧ g.T[i]? = some p ∧ i ∉ g.done

/-- nothing has changed for item `i` -/
def SameAt (g g' : Ghost α) (i : Nat) : Prop :=
  g'.T[i]? = g.T[i]? ∧ (i ∈ g'.is ↔ i ∈ g.is) ∧ (i ∈ g'.called ↔ i ∈ g.called) ∧
    (i ∈ g'.done ↔ i ∈ g.done)

theorem SameAt.fresh {ts : List (Prog α)} {g g' : Ghost α} {i : Nat} (h : SameAt g g' i)
    (hf : Fresh ts g i) : Fresh ts g' i :=
  ⟨h.1.trans hf.1, fun c => hf.2.1 (h.2.1.1 c), fun c => hf.2.2 (h.2.2.1.1 c)⟩

theorem SameAt.ends {g g' : Ghost α} {i : Nat} {r : Res α} (h : SameAt g g' i) (hf : Ends g i r) :
    Ends g' i r := ⟨h.2.2.1.2 hf.1, h.1.trans hf.2⟩

theorem SameAt.cur {g g' : Ghost α} {i : Nat} {p : Prog α} (h : SameAt g g' i) (hf : Cur g i p) :
    Cur g' i p := ⟨h.2.2.1.2 hf.1, h.1.trans hf.2.1, fun c => hf.2.2 (h.2.2.2.1 c)⟩

theorem SameAt.isOk {g g' : Ghost α} {i : Nat} (h : SameAt g g' i) (hf : IsOk g i) : IsOk g' i :=
  let ⟨a, ha⟩ := hf
  ⟨a, h.ends ha⟩

theorem SameAt.isDone {g g' : Ghost α} {i : Nat} (h : SameAt g g' i) (hf : Done g i) : Done g' i :=
  ⟨h.isOk hf.1, h.2.2.2.2 hf.2⟩

end Ghost
open Ghost

/-- a failed outcome without its value -/
def failure : Res α → Option (Res Unit)
  | .ok _ => none
  | .throw e => some (.throw e)
  | .ub => some .ub

/-- what is known about the items `its` of a batch when its loop is at `e` -/
def ItemsSt (ts : List (Prog α)) (g : Ghost α) (its : List Nat) : Exec α → Prop
  | .next rest => ∃ d, its = d ++ rest ∧ (∀ i ∈ d, Done g i) ∧ ∀ i ∈ rest, Fresh ts g i
  | .run i p rest => ∃ d, its = d ++ i :: rest ∧ (∀ i ∈ d, Done g i) ∧ Cur g i p ∧ ∀ i ∈ rest, Fresh ts g i
  | .over (.ok _) => ∀ i ∈ its, Done g i
  | .over r => ∃ d i rest q, its = d ++ i :: rest ∧ (∀ i ∈ d, Done g i) ∧ Ends g i q ∧ failure q = some r ∧
      ∀ i ∈ rest, Fresh ts g i

theorem ItemsSt.same {ts : List (Prog α)} {g g' : Ghost α} {its : List Nat} {e : Exec α}
    (h : ItemsSt ts g its e) (hs : ∀ i ∈ its, SameAt g g' i) : ItemsSt ts g' its e := by
  match e, h with
  | .next rest, ⟨d, hd, ho, hf⟩ =>
    subst hd
    exact ⟨d, rfl, fun i hi => (hs i (by simp [hi])).isDone (ho i hi),
      fun i hi => (hs i (by simp [hi])).fresh (hf i hi)⟩
  | .run i p rest, ⟨d, hd, ho, hc, hf⟩ =>
    subst hd
    exact ⟨d, rfl, fun i hi => (hs i (by simp [hi])).isDone (ho i hi), (hs i (by simp)).cur hc,
      fun i hi => (hs i (by simp [hi])).fresh (hf i hi)⟩
  | .over (.ok _), ho => exact fun i hi => (hs i hi).isDone (ho i hi)
  | .over (.throw e), ⟨d, i, rest, q, hd, ho, hc, hq, hf⟩ =>
    subst hd
    exact ⟨d, i, rest, q, rfl, fun i hi => (hs i (by simp [hi])).isDone (ho i hi),
      (hs i (by simp)).ends hc, hq, fun i hi => (hs i (by simp [hi])).fresh (hf i hi)⟩
  | .over .ub, ⟨d, i, rest, q, hd, ho, hc, hq, hf⟩ =>
    subst hd
    exact ⟨d, i, rest, q, rfl, fun i hi => (hs i (by simp [hi])).isDone (ho i hi),
      (hs i (by simp)).ends hc, hq, fun i hi => (hs i (by simp [hi])).fresh (hf i hi)⟩

/-- One step of the loop of a batch.  `g'` differs from `g` only at one item of the batch; the new state of the
    loop is described by `g'`; and the store moves as the schedule of `g'` says. -/
theorem Exec.step_spec {ts : List (Prog α)} {σ0 : Store} {g : Ghost α} {c : Config α} {its : List Nat}
    {e : Exec α} (tid : Nat) (hsim : interleave g.is (ts, σ0) = (g.T, c.store))
    (hlog : g.called = c.log.map Prod.snd)
    (hdone : g.done = c.results.map fun t => t.2.1) (hsub : ∀ i ∈ g.done, i ∈ g.called) (hnd : its.Nodup) (hlt : ∀ i ∈ its, i < ts.length)
    (hst : ItemsSt ts g its e) :
    ∃ g' : Ghost α, interleave g'.is (ts, σ0) = (g'.T, (e.step ts tid c).2.store) ∧
      g'.called = (e.step ts tid c).2.log.map Prod.snd ∧
      g'.done = ((e.step ts tid c).2.results.map fun t => t.2.1) ∧ (∀ j, j ∉ its → SameAt g g' j) ∧
      ItemsSt ts g' its (e.step ts tid c).1 ∧
      ((e.step ts tid c).2.log = c.log ∨
        ∃ i, i ∉ g.called ∧ (e.step ts tid c).2.log = c.log ++ [(tid, i)]) ∧
      ((e.step ts tid c).2.results = c.results ∨
        ∃ i a, i ∉ g.done ∧ i ∈ g'.called ∧ g'.T[i]? = some (.ret (.ok a)) ∧
          (e.step ts tid c).2.results = c.results ++ [(tid, i, a)]) ∧
      (∀ j ∈ g.called, j ∈ g'.called) ∧ (∀ j ∈ g.done, g'.T[j]? = g.T[j]?) := by
  have hid : ∀ j, SameAt g g j := fun j => ⟨rfl, Iff.rfl, Iff.rfl, Iff.rfl⟩
  match e, hst with
  | .next [], ⟨d, hd, ho, _⟩ =>
    subst hd
    exact ⟨g, hsim, hlog, hdone, fun j _ => hid j, fun i hi => ho i (by simpa using hi), .inl rfl, .inl rfl,
      fun _ h => h, fun _ _ => rfl⟩
  | .next (i :: rest), ⟨d, hd, ho, hf⟩ =>
    subst hd
    have hi : i < ts.length := hlt i (by simp)
    obtain ⟨hT, his, hcl⟩ := hf i (by simp)
    have hnd' := List.nodup_append.1 hnd
    have hstep : (Exec.next (i :: rest)).step ts tid c
        = (.run i ts[i] rest, { c with log := c.log ++ [(tid, i)] }) := by
      simp [Exec.step, List.getElem?_eq_getElem hi]
    have hsame : ∀ j, j ≠ i → SameAt g ⟨g.T, g.is, g.called ++ [i], g.done⟩ j := fun j hj =>
      ⟨rfl, Iff.rfl, by simp [hj], Iff.rfl⟩
    have hdi : ∀ j ∈ d, j ≠ i := fun j hj => hnd'.2.2 j hj i (by simp)
    have hri : ∀ j ∈ rest, j ≠ i := by
      intro j hj hc; subst hc; exact (List.nodup_cons.1 hnd'.2.1).1 hj
    rw [hstep]
    refine ⟨⟨g.T, g.is, g.called ++ [i], g.done⟩, hsim, by simp [hlog], hdone, ?_, ⟨d, rfl, ?_, ?_, ?_⟩,
      .inr ⟨i, hcl, rfl⟩, .inl rfl, fun j hj => by simp [hj], fun _ _ => rfl⟩
    · exact fun j hj => hsame j (by intro hc; subst hc; exact hj (by simp))
    · exact fun j hj => (hsame j (hdi j hj)).isDone (ho j hj)
    · exact ⟨by simp, by rw [← List.getElem?_eq_getElem hi]; exact hT, fun hc => hcl (hsub i hc)⟩
    · exact fun j hj => (hsame j (hri j hj)).fresh (hf j (by simp [hj]))
  | .run i (.act k f cont) rest, ⟨d, hd, ho, hc, hf⟩ =>
    subst hd
    have hnd' := List.nodup_append.1 hnd
    have hdi : ∀ j ∈ d, j ≠ i := fun j hj => hnd'.2.2 j hj i (by simp)
    have hri : ∀ j ∈ rest, j ≠ i := by
      intro j hj hc; subst hc; exact (List.nodup_cons.1 hnd'.2.1).1 hj
    have hiT : i < g.T.length := List.getElem?_eq_some_iff.1 hc.2.1 |>.1
    have hsame : ∀ j, j ≠ i → SameAt g ⟨g.T.set i (cont (c.store k)), g.is ++ [i], g.called, g.done⟩ j := fun j hj =>
      ⟨by simp [Ne.symm hj], by simp [hj], Iff.rfl, Iff.rfl⟩
    refine ⟨⟨g.T.set i (cont (c.store k)), g.is ++ [i], g.called, g.done⟩, ?_, hlog, hdone, ?_,
      ⟨d, rfl, ?_, ?_, ?_⟩, .inl rfl, .inl rfl, fun _ h => h, fun j hj => ?_⟩
    · simp only [Exec.step, interleave_append, hsim, interleave, Prog.step, hc.2.1]
    · exact fun j hj => hsame j (by intro hc; subst hc; exact hj (by simp))
    · exact fun j hj => (hsame j (hdi j hj)).isDone (ho j hj)
    · exact ⟨hc.1, by simp [hiT], hc.2.2⟩
    · exact fun j hj => (hsame j (hri j hj)).fresh (hf j hj)
    · exact (hsame j fun h => by subst h; exact hc.2.2 hj).1
  | .run i (.ret (.ok a)) rest, ⟨d, hd, ho, hc, hf⟩ =>
    subst hd
    have hnd' := List.nodup_append.1 hnd
    have hdi : ∀ j ∈ d, j ≠ i := fun j hj => hnd'.2.2 j hj i (by simp)
    have hri : ∀ j ∈ rest, j ≠ i := by
      intro j hj hc; subst hc; exact (List.nodup_cons.1 hnd'.2.1).1 hj
    have hsame : ∀ j, j ≠ i → SameAt g ⟨g.T, g.is, g.called, g.done ++ [i]⟩ j := fun j hj =>
      ⟨rfl, Iff.rfl, Iff.rfl, by simp [hj]⟩
    refine ⟨⟨g.T, g.is, g.called, g.done ++ [i]⟩, hsim, hlog, by simp [Exec.step, hdone], ?_,
      ⟨d ++ [i], by simp, ?_, ?_⟩, .inl rfl, .inr ⟨i, a, hc.2.2, hc.1, hc.2.1, rfl⟩, fun _ h => h, fun _ _ => rfl⟩
    · exact fun j hj => hsame j (by intro hc; subst hc; exact hj (by simp))
    · intro j hj
      rcases List.mem_append.1 hj with hj | hj
      · exact (hsame j (hdi j hj)).isDone (ho j hj)
      · rw [List.mem_singleton] at hj; subst hj; exact ⟨⟨a, hc.1, hc.2.1⟩, by simp⟩
    · exact fun j hj => (hsame j (hri j hj)).fresh (hf j hj)
  | .run i (.ret (.throw er)) rest, ⟨d, hd, ho, hc, hf⟩ =>
    subst hd
    exact ⟨g, hsim, hlog, hdone, fun j _ => hid j, ⟨d, i, rest, .throw er, rfl, ho, ⟨hc.1, hc.2.1⟩, rfl, hf⟩, .inl rfl,
      .inl rfl, fun _ h => h, fun _ _ => rfl⟩
  | .run i (.ret .ub) rest, ⟨d, hd, ho, hc, hf⟩ =>
    subst hd
    exact ⟨g, hsim, hlog, hdone, fun j _ => hid j, ⟨d, i, rest, .ub, rfl, ho, ⟨hc.1, hc.2.1⟩, rfl, hf⟩, .inl rfl,
      .inl rfl, fun _ h => h, fun _ _ => rfl⟩
  | .over r, h =>
    exact ⟨g, hsim, hlog, hdone, fun j _ => hid j, h, .inl rfl, .inl rfl, fun _ h => h, fun _ _ => rfl⟩

theorem Exec.step_rest (ts : List (Prog α)) (tid : Nat) (c : Config α) (e : Exec α) :
    (e.step ts tid c).2 = { c with store := (e.step ts tid c).2.store, log := (e.step ts tid c).2.log, results := (e.step ts tid c).2.results } := by
  match e with
  | .next [] => rfl
  | .next (i :: rest) =>
    simp only [Exec.step]; cases ts[i]? <;> rfl
  | .run i (.act k f cont) rest => rfl
  | .run i (.ret (.ok a)) rest => rfl
  | .run i (.ret (.throw er)) rest => rfl
  | .run i (.ret .ub) rest => rfl
  | .over r => rfl

/-! ### The pool -/

/-- the numbers in the `get` commands -/
def gets : List Cmd → List Nat
  | [] => []
  | .get id :: l => id :: gets l
  | _ :: l => gets l

/-- the commands not yet carried out -/
def Client.left : Client → List Cmd
  | .cmds l => l
  | .notify l => l
  | .waiting l => .waitFinished :: l
  | _ => []

def Client.ended : Client → Bool
  | .cmds _ | .notify _ | .waiting _ => false
  | _ => true

/-- a notification is pending -/
def Client.notifies : Client → Bool
  | .notify _ => true
  | _ => false

/-- counted in `busy` -/
def Worker.isBusy : Worker α → Bool
  | .exec _ _ | .finish => true
  | _ => false

def Worker.isSleep : Worker α → Bool
  | .sleep => true
  | _ => false

/-- the first failure in a list of outcomes -/
def firstFailure : List (Res Unit) → Res Unit
  | [] => .ok ()
  | .ok _ :: l => firstFailure l
  | r :: _ => r

def b2n (b : Bool) : Nat := if b then 1 else 0

structure Inv (ts : List (Prog α)) (tasks : List (List Nat)) (allGets : List Nat) (σ0 : Store) (n : Nat)
    (c : Config α) (g : Ghost α) (k : Nat) : Prop where
  sim : interleave g.is (ts, σ0) = (g.T, c.store)
  called : g.called = c.log.map Prod.snd
  logNodup : g.called.Nodup
  range : ∀ i, ts.length ≤ i → i ∉ g.called
  rangeIs : ∀ i, ts.length ≤ i → i ∉ g.is
  logTid : ∀ t ∈ c.log, t.1 < n
  done : g.done = c.results.map fun t => t.2.1
  doneNodup : g.done.Nodup
  doneCalled : ∀ i ∈ g.done, i ∈ g.called
  resVal : ∀ t ∈ c.results, t.1 < n ∧ g.T[t.2.1]? = some (.ret (.ok t.2.2))
  len : c.workers.length = n
  todo : enqueued c.client.left = tasks.drop c.nTasks
  nTasks : c.nTasks ≤ tasks.length
  kle : k ≤ c.nTasks
  fifo : c.queue = (List.range' k (c.nTasks - k)).map fun id => (id, tasks[id]?.getD [])
  waits : ∀ id, k ≤ id → c.futures id = none ∧ ∀ its, tasks[id]? = some its → ∀ i ∈ its, Fresh ts g i
  exec : ∀ (w : Nat) id e, c.workers[w]? = some (.exec id e) →
    id < k ∧ c.futures id = none ∧ ∃ its, tasks[id]? = some its ∧ ItemsSt ts g its e
  uniq : ∀ (w w' : Nat) id e e', c.workers[w]? = some (.exec id e) → c.workers[w']? = some (.exec id e') → w = w'
  fut : ∀ id r, c.futures id = some r → ∃ its, tasks[id]? = some its ∧ ItemsSt ts g its (.over r)
  cover : ∀ id, id < k → c.futures id ≠ none ∨ ∃ (w : Nat) (e : Exec α), c.workers[w]? = some (.exec id e)
  busy : c.busy = c.workers.countP Worker.isBusy
  stop : c.stop = c.client.ended
  first : ∃ got rs, got ++ gets c.client.left = allGets ∧ got.map c.futures = rs.map some ∧
    c.first = firstFailure rs
  awake : c.stop = false → c.workers.any Worker.isSleep = true →
    c.queue.length ≤ c.workers.countP Worker.isReady + b2n c.client.notifies
  noexit : c.stop = false → ∀ w ∈ c.workers, w ≠ .exit
  waiter : ∀ l, c.client = .waiting l → c.queue ≠ [] ∨ 0 < c.busy ∨ ∃ w : Nat, c.workers[w]? = some .signal
  join : ∀ j, c.client = .joining j → (∀ w ∈ c.workers, w ≠ .sleep) ∧ ∀ i, i < j → c.workers[i]? = some .exit
  joined : c.client = .done → ∀ w ∈ c.workers, w = .exit

theorem inv_start (ts : List (Prog α)) (l : List Cmd) (σ : Store) (n : Nat) :
    Inv ts (enqueued l) (gets l) σ n (start n l σ) ⟨ts, [], [], []⟩ 0 where
  sim := rfl
  called := rfl
  logNodup := by simp
  range := by simp
  rangeIs := by simp
  logTid := by simp [start]
  done := rfl
  doneNodup := by simp
  doneCalled := by simp
  resVal := by simp [start]
  len := by simp [start]
  todo := by simp [start, Client.left]
  nTasks := by simp [start]
  kle := by simp
  fifo := by simp [start]
  waits := fun id _ => ⟨rfl, fun its _ i _ => ⟨rfl, by simp, by simp⟩⟩
  exec := by
    intro w id e h
    simp [start, List.getElem?_replicate] at h
  uniq := by
    intro w w' id e e' h
    simp [start, List.getElem?_replicate] at h
  fut := by simp [start]
  cover := by simp
  busy := by simp [start, List.countP_replicate, Worker.isBusy]
  stop := rfl
  first := ⟨[], [], rfl, rfl, rfl⟩
  awake := by simp [start, Worker.isSleep]
  noexit := by
    intro _ w hw
    simp only [start] at hw
    rw [(List.mem_replicate.1 hw).2]; simp
  waiter := by simp [start]
  join := by simp [start]
  joined := by simp [start]

/-! ### Replacing one worker -/

theorem countP_set {ws : List (Worker α)} {w : Nat} {y : Worker α} (hw : ws[w]? = some y) (x : Worker α)
    (p : Worker α → Bool) : (ws.set w x).countP p + b2n (p y) = ws.countP p + b2n (p x) := by
  induction ws generalizing w with
  | nil => simp at hw
  | cons a ws ih =>
    cases w with
    | zero =>
      simp only [List.getElem?_cons_zero, Option.some.injEq] at hw
      subst hw
      simp only [List.set_cons_zero, List.countP_cons, b2n]
      omega
    | succ w =>
      simp only [List.getElem?_cons_succ] at hw
      have := ih hw
      simp only [List.set_cons_succ, List.countP_cons]
      omega

theorem getElem?_set {ws : List (Worker α)} {w : Nat} {y : Worker α} (hw : ws[w]? = some y) (x : Worker α)
    (w' : Nat) : (ws.set w x)[w']? = if w = w' then some x else ws[w']? := by
  have := (List.getElem?_eq_some_iff.1 hw).1
  rw [List.getElem?_set]
  by_cases h : w = w'
  · subst h; simp [this]
  · simp [h]

/-- a change of a worker that has to do with no task -/
theorem exec_set {ws : List (Worker α)} {w : Nat} {y x : Worker α} (hw : ws[w]? = some y)
    (hy : y.isExec = false) (hx : x.isExec = false) (w' id : Nat) (e : Exec α) :
    (ws.set w x)[w']? = some (.exec id e) ↔ ws[w']? = some (.exec id e) := by
  rw [getElem?_set hw]
  by_cases h : w = w'
  · subst h
    simp only [if_true, hw]
    constructor
    · intro h; cases h; simp [Worker.isExec] at hx
    · intro h; cases h; simp [Worker.isExec] at hy
  · simp [h]

theorem mem_set {ws : List (Worker α)} {w : Nat} {x z : Worker α} (h : z ∈ ws.set w x) : z = x ∨ z ∈ ws := by
  rcases List.mem_or_eq_of_mem_set h with h | h
  · exact .inr h
  · exact .inl h

theorem any_sleep_set {ws : List (Worker α)} {w : Nat} {x : Worker α} (hx : x.isSleep = false)
    (h : (ws.set w x).any Worker.isSleep = true) : ws.any Worker.isSleep = true := by
  obtain ⟨z, hz, hs⟩ := List.any_eq_true.1 h
  rcases mem_set hz with rfl | hz
  · rw [hx] at hs; simp at hs
  · exact List.any_eq_true.2 ⟨z, hz, hs⟩

/-- the batches are disjoint and name existing items -/
structure Tasks (ts : List (Prog α)) (tasks : List (List Nat)) : Prop where
  disj : ∀ (id id' : Nat) its its' (i : Nat), tasks[id]? = some its → tasks[id']? = some its' → i ∈ its →
    i ∈ its' → id = id'
  nodup : ∀ its ∈ tasks, its.Nodup
  lt : ∀ its ∈ tasks, ∀ i ∈ its, i < ts.length

section
variable {ts : List (Prog α)} {tasks : List (List Nat)} {allGets : List Nat} {σ0 : Store} {n : Nat}
  {c : Config α} {g : Ghost α} {k : Nat}

/-- a worker that has nothing to do with a task moves on -/
theorem Inv.move (h : Inv ts tasks allGets σ0 n c g k) {w : Nat} {y x : Worker α} (hw : c.workers[w]? = some y)
    (hy : y.isExec = false) (hx : x.isExec = false) (hb : y.isBusy = x.isBusy)
    (hr : c.stop = false → y.isReady = true → x.isReady = true) (hxs : x.isSleep = false)
    (hsig : y = .signal → x = .signal) (hye : y ≠ .exit)
    (hxe : c.stop = false → x ≠ .exit) :
    Inv ts tasks allGets σ0 n { c with workers := c.workers.set w x } g k :=
  { h with
    len := by simpa using h.len
    exec := fun w' id e h' => h.exec w' id e ((exec_set hw hy hx w' id e).1 h')
    uniq := fun w1 w2 id e e' h1 h2 =>
      h.uniq w1 w2 id e e' ((exec_set hw hy hx w1 id e).1 h1) ((exec_set hw hy hx w2 id e').1 h2)
    cover := fun id hid => (h.cover id hid).imp_right fun ⟨w', e, he⟩ => ⟨w', e, (exec_set hw hy hx w' id e).2 he⟩
    busy := by
      have := countP_set hw x Worker.isBusy
      rw [hb] at this
      have := h.busy
      simp only at *
      omega
    awake := by
      intro hs ha
      have h1 := h.awake hs (any_sleep_set hxs ha)
      have h2 := countP_set hw x Worker.isReady
      have h3 := hr hs
      simp only at *
      cases hyr : y.isReady
      · rw [hyr, show b2n false = 0 from rfl] at h2; omega
      · rw [hyr, h3 hyr] at h2; omega
    noexit := fun hs z hz => by
      rcases mem_set hz with rfl | hz
      · exact hxe hs
      · exact h.noexit hs z hz
    waiter := by
      intro l hl
      rcases h.waiter l hl with h1 | h1 | ⟨w', h1⟩
      · exact .inl h1
      · exact .inr (.inl h1)
      · refine .inr (.inr ⟨w', ?_⟩)
        show (c.workers.set w x)[w']? = _
        rw [getElem?_set hw]
        by_cases hww : w = w'
        · subst hww
          rw [if_pos rfl]
          rw [hw] at h1
          cases h1
          rw [hsig rfl]
        · rw [if_neg hww]; exact h1
    join := by
      intro j hj
      obtain ⟨h1, h2⟩ := h.join j hj
      refine ⟨fun z hz => ?_, fun i hi => ?_⟩
      · rcases mem_set hz with rfl | hz
        · intro hc; subst hc; simp [Worker.isSleep] at hxs
        · exact h1 z hz
      · show (c.workers.set w x)[i]? = _
        rw [getElem?_set hw]
        by_cases hww : w = i
        · subst hww
          have := h2 w hi
          rw [hw] at this
          cases this
          exact absurd rfl hye
        · rw [if_neg hww]; exact h2 i hi
    joined := by
      intro hd
      have := h.joined hd y (List.mem_of_getElem? hw)
      exact absurd this hye }

/-- a worker finds the queue empty -/
theorem Inv.fallAsleep (h : Inv ts tasks allGets σ0 n c g k) {w : Nat} (hw : c.workers[w]? = some .check)
    (hs : c.stop = false) (hq : c.queue = []) :
    Inv ts tasks allGets σ0 n { c with workers := c.workers.set w .sleep } g k :=
  { h with
    len := by simpa using h.len
    exec := fun w' id e h' => h.exec w' id e ((exec_set hw rfl rfl w' id e).1 h')
    uniq := fun w1 w2 id e e' h1 h2 =>
      h.uniq w1 w2 id e e' ((exec_set hw rfl rfl w1 id e).1 h1) ((exec_set hw rfl rfl w2 id e').1 h2)
    cover := fun id hid => (h.cover id hid).imp_right fun ⟨w', e, he⟩ => ⟨w', e, (exec_set hw rfl rfl w' id e).2 he⟩
    busy := by
      have := countP_set hw .sleep Worker.isBusy
      have h1 := h.busy
      simp only [show (Worker.check : Worker α).isBusy = false from rfl,
        show (Worker.sleep : Worker α).isBusy = false from rfl] at *
      omega
    awake := by intro _ _; simp [hq]
    noexit := fun hs z hz => by
      rcases mem_set hz with rfl | hz
      · simp
      · exact h.noexit hs z hz
    waiter := by
      intro l hl
      rcases h.waiter l hl with h1 | h1 | ⟨w', h1⟩
      · exact .inl h1
      · exact .inr (.inl h1)
      · refine .inr (.inr ⟨w', ?_⟩)
        show (c.workers.set w .sleep)[w']? = _
        rw [getElem?_set hw]
        by_cases hww : w = w'
        · subst hww; rw [hw] at h1; cases h1
        · rw [if_neg hww]; exact h1
    join := by
      intro j hj
      have := h.stop
      rw [hj, hs] at this
      simp [Client.ended] at this
    joined := by
      intro hd
      have := h.stop
      rw [hd, hs] at this
      simp [Client.ended] at this }

/-- a worker takes the first task of the queue -/
theorem Inv.take (h : Inv ts tasks allGets σ0 n c g k) {w id : Nat} {its : List Nat} {q : List (Nat × List Nat)}
    (hw : c.workers[w]? = some .check) (hs : c.stop = false) (hq : c.queue = (id, its) :: q) :
    id = k ∧ tasks[id]? = some its ∧
    Inv ts tasks allGets σ0 n
      { c with workers := c.workers.set w (.exec id (.next its)), queue := q, busy := c.busy + 1 } g (k + 1) := by
  have hf := h.fifo
  rw [hq] at hf
  have hlt : k < c.nTasks := by
    apply Nat.lt_of_not_le
    intro hc
    rw [Nat.sub_eq_zero_of_le hc] at hf
    simp at hf
  have hsplit : List.range' k (c.nTasks - k) = k :: List.range' (k + 1) (c.nTasks - (k + 1)) := by
    rw [show c.nTasks - k = (c.nTasks - (k + 1)) + 1 by omega, List.range'_succ]
  rw [hsplit, List.map_cons] at hf
  injection hf with hf1 hf2
  injection hf1 with hf1 hf3
  subst hf1
  have hidl : id < tasks.length := Nat.lt_of_lt_of_le hlt h.nTasks
  have hits : tasks[id]? = some its := by
    rw [List.getElem?_eq_getElem hidl] at hf3 ⊢
    rw [hf3]; rfl
  have hne : ∀ (w' : Nat) e, c.workers[w']? ≠ some (.exec id e) := by
    intro w' e he
    exact Nat.lt_irrefl _ (h.exec w' id e he).1
  refine ⟨rfl, hits, { h with
    len := ?_, kle := ?_, fifo := ?_, waits := ?_, exec := ?_, uniq := ?_, cover := ?_, busy := ?_,
    awake := ?_, noexit := ?_, waiter := ?_, join := ?_, joined := ?_ }⟩
  · simpa using h.len
  · exact hlt
  · exact hf2
  · exact fun j hj => h.waits j (by omega)
  · intro w' j e he
    rw [show ({ c with workers := c.workers.set w (.exec id (.next its)), queue := q, busy := c.busy + 1 } :
      Config α).workers = c.workers.set w (.exec id (.next its)) from rfl, getElem?_set hw] at he
    by_cases hww : w = w'
    · rw [if_pos hww] at he
      cases he
      exact ⟨Nat.lt_succ_self _, (h.waits id (Nat.le_refl _)).1, its, hits, [], rfl, by simp,
        (h.waits id (Nat.le_refl _)).2 its hits⟩
    · rw [if_neg hww] at he
      obtain ⟨h1, h2⟩ := h.exec w' j e he
      exact ⟨by omega, h2⟩
  · intro w1 w2 j e e' h1 h2
    simp only [getElem?_set hw] at h1 h2
    by_cases hw1 : w = w1
    · by_cases hw2 : w = w2
      · rw [← hw1, ← hw2]
      · rw [if_pos hw1] at h1
        rw [if_neg hw2] at h2
        cases h1
        exact absurd h2 (hne w2 e')
    · rw [if_neg hw1] at h1
      by_cases hw2 : w = w2
      · rw [if_pos hw2] at h2
        cases h2
        exact absurd h1 (hne w1 e)
      · rw [if_neg hw2] at h2
        exact h.uniq w1 w2 j e e' h1 h2
  · intro j hj
    simp only [getElem?_set hw]
    by_cases hji : j = id
    · exact .inr ⟨w, .next its, by rw [if_pos rfl, hji]⟩
    · refine (h.cover j (by omega)).imp_right fun ⟨w', e, he⟩ => ⟨w', e, ?_⟩
      by_cases hww : w = w'
      · subst hww; rw [hw] at he; cases he
      · rw [if_neg hww]; exact he
  · have := countP_set hw (.exec id (.next its)) Worker.isBusy
    have h1 := h.busy
    simp only [show (Worker.check : Worker α).isBusy = false from rfl,
      show (Worker.exec id (.next its) : Worker α).isBusy = true from rfl, b2n] at *
    simp at this
    omega
  · intro _ ha
    have h1 := h.awake hs (any_sleep_set rfl ha)
    have h2 := countP_set hw (.exec id (.next its)) Worker.isReady
    simp only [show (Worker.check : Worker α).isReady = true from rfl,
      show (Worker.exec id (.next its) : Worker α).isReady = false from rfl, show b2n false = 0 from rfl,
      show b2n true = 1 from rfl, hq, List.length_cons] at *
    omega
  · intro _ z hz
    rcases mem_set hz with rfl | hz
    · simp
    · exact h.noexit hs z hz
  · exact fun l hl => .inr (.inl (Nat.succ_pos _))
  · intro j hj
    have := h.stop
    rw [hj, hs] at this
    simp [Client.ended] at this
  · intro hd
    have := h.stop
    rw [hd, hs] at this
    simp [Client.ended] at this

/-- where a worker with a task goes on with a task, nothing else about the workers changes -/
theorem exec_set_exec {ws : List (Worker α)} {w id : Nat} {e e' : Exec α}
    (hw : ws[w]? = some (.exec id e)) (w' id' : Nat) (e'' : Exec α)
    (h : (ws.set w (.exec id e'))[w']? = some (.exec id' e'')) :
    (w' = w ∧ id' = id ∧ e'' = e') ∨ (w' ≠ w ∧ ws[w']? = some (.exec id' e'')) := by
  rw [getElem?_set hw] at h
  by_cases hww : w = w'
  · rw [if_pos hww] at h
    cases h
    exact .inl ⟨hww.symm, rfl, rfl⟩
  · rw [if_neg hww] at h
    exact .inr ⟨fun hc => hww hc.symm, h⟩

/-- one step of the loop of a batch -/
theorem Inv.execStep (ht : Tasks ts tasks) (h : Inv ts tasks allGets σ0 n c g k) {w id : Nat} {e : Exec α}
    (hw : c.workers[w]? = some (.exec id e)) :
    ∃ g', Inv ts tasks allGets σ0 n
      { c with workers := c.workers.set w (.exec id (e.step ts w c).1), store := (e.step ts w c).2.store,
               log := (e.step ts w c).2.log, results := (e.step ts w c).2.results } g' k := by
  obtain ⟨hidk, hfn, its, hits, hst⟩ := h.exec w id e hw
  have hmem : its ∈ tasks := List.mem_of_getElem? hits
  have hwn : w < n := by rw [← h.len]; exact (List.getElem?_eq_some_iff.1 hw).1
  obtain ⟨g', hsim, hcalled, hdone', hsame, hst', hlog, hres, hmono, hkeep⟩ :=
    Exec.step_spec w h.sim h.called h.done h.doneCalled (ht.nodup its hmem) (ht.lt its hmem) hst
  have hsame' : ∀ id' its', tasks[id']? = some its' → id' ≠ id → ∀ i ∈ its', SameAt g g' i := by
    intro id' its' h' hne i hi
    exact hsame i fun hc => hne (ht.disj id' id its' its i h' hits hi hc)
  have hx : ∀ x : Exec α, (Worker.exec id x : Worker α).isBusy = true := fun _ => rfl
  refine ⟨g', { h with
    sim := hsim, called := hcalled, logNodup := ?_, range := ?_, rangeIs := ?_, logTid := ?_, done := hdone', doneNodup := ?_,
    doneCalled := ?_, resVal := ?_, len := ?_, waits := ?_, exec := ?_,
    uniq := ?_, fut := ?_, cover := ?_, busy := ?_, awake := ?_, noexit := ?_, waiter := ?_, join := ?_,
    joined := ?_ }⟩
  · rcases hlog with hlog | ⟨i, hi, hlog⟩
    · rw [hcalled, hlog, ← h.called]; exact h.logNodup
    · rw [hcalled, hlog, List.map_append, ← h.called, List.nodup_append]
      refine ⟨h.logNodup, by simp, ?_⟩
      intro a ha b hb
      simp at hb
      subst hb
      intro hc; subst hc; exact hi ha
  · intro i hi hc
    exact h.range i hi ((hsame i fun hm => by have := ht.lt its hmem i hm; omega).2.2.1.1 hc)
  · intro i hi hc
    exact h.rangeIs i hi ((hsame i fun hm => by have := ht.lt its hmem i hm; omega).2.1.1 hc)
  · intro t htm
    rcases hlog with hlog | ⟨i, hi, hlog⟩
    · rw [hlog] at htm; exact h.logTid t htm
    · rw [hlog] at htm
      rcases List.mem_append.1 htm with htm | htm
      · exact h.logTid t htm
      · rw [List.mem_singleton] at htm; subst htm; exact hwn
  · rcases hres with hres | ⟨i, a, hi, _, _, hres⟩
    · rw [hdone', hres, ← h.done]; exact h.doneNodup
    · rw [hdone', hres, List.map_append, ← h.done, List.nodup_append]
      refine ⟨h.doneNodup, by simp, ?_⟩
      intro a ha b hb
      simp at hb
      subst hb
      intro hc; subst hc; exact hi ha
  · intro i hi
    rcases hres with hres | ⟨j, a, _, hj, _, hres⟩
    · rw [hdone', hres, ← h.done] at hi; exact hmono i (h.doneCalled i hi)
    · rw [hdone', hres, List.map_append, ← h.done] at hi
      rcases List.mem_append.1 hi with hi | hi
      · exact hmono i (h.doneCalled i hi)
      · simp at hi; subst hi; exact hj
  · have hold : ∀ t ∈ c.results, t.1 < n ∧ g'.T[t.2.1]? = some (.ret (.ok t.2.2)) := by
      intro t htm
      obtain ⟨h1, h2⟩ := h.resVal t htm
      refine ⟨h1, ?_⟩
      rw [hkeep t.2.1 (by rw [h.done]; exact List.mem_map_of_mem (f := fun t => t.2.1) htm)]; exact h2
    intro t htm
    rcases hres with hres | ⟨j, a, _, _, hj, hres⟩
    · rw [hres] at htm; exact hold t htm
    · rw [hres] at htm
      rcases List.mem_append.1 htm with htm | htm
      · exact hold t htm
      · rw [List.mem_singleton] at htm; subst htm; exact ⟨hwn, hj⟩
  · simpa using h.len
  · intro j hj
    refine ⟨(h.waits j hj).1, fun its' hits' i hi => ?_⟩
    exact (hsame' j its' hits' (by omega) i hi).fresh ((h.waits j hj).2 its' hits' i hi)
  · intro w' id' e'' he
    rcases exec_set_exec hw w' id' e'' he with ⟨_, rfl, rfl⟩ | ⟨hne, he'⟩
    · exact ⟨hidk, hfn, its, hits, hst'⟩
    · obtain ⟨h1, h2, its', h3, h4⟩ := h.exec w' id' e'' he'
      refine ⟨h1, h2, its', h3, h4.same (hsame' id' its' h3 ?_)⟩
      intro hc; subst hc
      exact hne (h.uniq w' w id' e'' e he' hw)
  · intro w1 w2 j e1 e2 h1 h2
    rcases exec_set_exec hw w1 j e1 h1 with ⟨hw1, hj1, _⟩ | ⟨_, h1'⟩ <;>
      rcases exec_set_exec hw w2 j e2 h2 with ⟨hw2, hj2, _⟩ | ⟨_, h2'⟩
    · rw [hw1, hw2]
    · rw [hj1] at h2'; rw [hw1]; exact (h.uniq w2 w _ e2 e h2' hw).symm
    · rw [hj2] at h1'; rw [hw2]; exact h.uniq w1 w _ e1 e h1' hw
    · exact h.uniq w1 w2 j e1 e2 h1' h2'
  · intro j r hr
    obtain ⟨its', h1, h2⟩ := h.fut j r hr
    refine ⟨its', h1, h2.same (hsame' j its' h1 ?_)⟩
    intro hc; subst hc
    rw [hfn] at hr; cases hr
  · intro j hj
    refine (h.cover j hj).imp_right fun ⟨w', e', he⟩ => ?_
    by_cases hww : w = w'
    · subst hww
      rw [hw] at he
      cases he
      exact ⟨w, (e.step ts w c).1, by simp only [getElem?_set hw, if_true]⟩
    · exact ⟨w', e', by simp only [getElem?_set hw, if_neg hww]; exact he⟩
  · have := countP_set hw (.exec id (e.step ts w c).1) Worker.isBusy
    have h1 := h.busy
    simp only [hx] at *
    omega
  · intro hs ha
    have h1 := h.awake hs (any_sleep_set rfl ha)
    have h2 := countP_set hw (.exec id (e.step ts w c).1) Worker.isReady
    simp only [show ∀ x : Exec α, (Worker.exec id x : Worker α).isReady = false from fun _ => rfl] at h2
    simp only at h1 ⊢
    omega
  · intro hs z hz
    rcases mem_set hz with rfl | hz
    · simp
    · exact h.noexit hs z hz
  · intro l hl
    rcases h.waiter l hl with h1 | h1 | ⟨w', h1⟩
    · exact .inl h1
    · exact .inr (.inl h1)
    · refine .inr (.inr ⟨w', ?_⟩)
      simp only [getElem?_set hw]
      by_cases hww : w = w'
      · subst hww; rw [hw] at h1; cases h1
      · rw [if_neg hww]; exact h1
  · intro j hj
    obtain ⟨h1, h2⟩ := h.join j hj
    refine ⟨fun z hz => ?_, fun i hi => ?_⟩
    · rcases mem_set hz with rfl | hz
      · simp
      · exact h1 z hz
    · simp only [getElem?_set hw]
      by_cases hww : w = i
      · subst hww; have := h2 w hi; rw [hw] at this; cases this
      · rw [if_neg hww]; exact h2 i hi
  · intro hd
    have := h.joined hd _ (List.mem_of_getElem? hw)
    cases this

/-- the outcome of a batch is stored in its future -/
theorem Inv.publish (h : Inv ts tasks allGets σ0 n c g k) {w id : Nat} {r : Res Unit}
    (hw : c.workers[w]? = some (.exec id (.over r))) :
    Inv ts tasks allGets σ0 n
      { c with workers := c.workers.set w .finish,
               futures := fun j => if j = id then some r else c.futures j } g k := by
  obtain ⟨hidk, hfn, its, hits, hst⟩ := h.exec w id _ hw
  have hset : ∀ (w' id' : Nat) e'', (c.workers.set w .finish)[w']? = some (.exec id' e'') →
      id' ≠ id ∧ c.workers[w']? = some (.exec id' e'') := by
    intro w' id' e'' he
    rw [getElem?_set hw] at he
    by_cases hww : w = w'
    · rw [if_pos hww] at he; cases he
    · rw [if_neg hww] at he
      refine ⟨?_, he⟩
      intro hc; subst hc
      exact hww (h.uniq w w' id' _ e'' hw he)
  refine { h with
    len := ?_, waits := ?_, exec := ?_, uniq := ?_, fut := ?_, cover := ?_, busy := ?_, first := ?_,
    awake := ?_, noexit := ?_, waiter := ?_, join := ?_, joined := ?_ }
  · simpa using h.len
  · intro j hj
    refine ⟨?_, (h.waits j hj).2⟩
    show (if j = id then some r else c.futures j) = none
    rw [if_neg (by omega)]; exact (h.waits j hj).1
  · intro w' id' e'' he
    obtain ⟨hne, he'⟩ := hset w' id' e'' he
    obtain ⟨h1, h2, h3⟩ := h.exec w' id' e'' he'
    exact ⟨h1, (if_neg hne).trans h2, h3⟩
  · intro w1 w2 j e1 e2 h1 h2
    exact h.uniq w1 w2 j e1 e2 (hset _ _ _ h1).2 (hset _ _ _ h2).2
  · intro j r' hr
    replace hr : (if j = id then some r else c.futures j) = some r' := hr
    by_cases hj : j = id
    · rw [if_pos hj] at hr; cases hr; subst hj; exact ⟨its, hits, hst⟩
    · rw [if_neg hj] at hr; exact h.fut j r' hr
  · intro j hj
    show (if j = id then some r else c.futures j) ≠ none ∨ _
    by_cases hji : j = id
    · left; rw [if_pos hji]; simp
    · rw [if_neg hji]
      refine (h.cover j hj).imp_right fun ⟨w', e', he⟩ => ⟨w', e', ?_⟩
      simp only [getElem?_set hw]
      by_cases hww : w = w'
      · subst hww; rw [hw] at he; cases he; exact absurd rfl hji
      · rw [if_neg hww]; exact he
  · have := countP_set hw .finish Worker.isBusy
    have h1 := h.busy
    simp only [show (Worker.exec id (.over r) : Worker α).isBusy = true from rfl,
      show (Worker.finish : Worker α).isBusy = true from rfl] at *
    omega
  · obtain ⟨got, rs, h1, h2, h3⟩ := h.first
    refine ⟨got, rs, h1, ?_, h3⟩
    rw [← h2]
    apply List.map_congr_left
    intro j hj
    refine if_neg ?_
    intro hc; subst hc
    have : c.futures j ∈ rs.map some := h2 ▸ List.mem_map_of_mem hj
    rw [hfn] at this
    simp at this
  · intro hs ha
    have h1 := h.awake hs (any_sleep_set rfl ha)
    have h2 := countP_set hw .finish Worker.isReady
    simp only [show (Worker.exec id (.over r) : Worker α).isReady = false from rfl,
      show (Worker.finish : Worker α).isReady = true from rfl, show b2n false = 0 from rfl,
      show b2n true = 1 from rfl] at h2
    simp only at h1 ⊢
    omega
  · intro hs z hz
    rcases mem_set hz with rfl | hz
    · simp
    · exact h.noexit hs z hz
  · intro l hl
    rcases h.waiter l hl with h1 | h1 | ⟨w', h1⟩
    · exact .inl h1
    · exact .inr (.inl h1)
    · refine .inr (.inr ⟨w', ?_⟩)
      simp only [getElem?_set hw]
      by_cases hww : w = w'
      · subst hww; rw [hw] at h1; cases h1
      · rw [if_neg hww]; exact h1
  · intro j hj
    obtain ⟨h1, h2⟩ := h.join j hj
    refine ⟨fun z hz => ?_, fun i hi => ?_⟩
    · rcases mem_set hz with rfl | hz
      · simp
      · exact h1 z hz
    · simp only [getElem?_set hw]
      by_cases hww : w = i
      · subst hww; have := h2 w hi; rw [hw] at this; cases this
      · rw [if_neg hww]; exact h2 i hi
  · intro hd
    have := h.joined hd _ (List.mem_of_getElem? hw)
    cases this

/-- a worker has counted its task as processed -/
theorem Inv.finish (h : Inv ts tasks allGets σ0 n c g k) {w : Nat} (hw : c.workers[w]? = some .finish) :
    Inv ts tasks allGets σ0 n { c with workers := c.workers.set w .signal, busy := c.busy - 1 } g k := by
  refine { h with
    len := ?_, exec := ?_, uniq := ?_, cover := ?_, busy := ?_, awake := ?_, noexit := ?_, waiter := ?_,
    join := ?_, joined := ?_ }
  · simpa using h.len
  · exact fun w' id e h' => h.exec w' id e ((exec_set hw rfl rfl w' id e).1 h')
  · exact fun w1 w2 id e e' h1 h2 =>
      h.uniq w1 w2 id e e' ((exec_set hw rfl rfl w1 id e).1 h1) ((exec_set hw rfl rfl w2 id e').1 h2)
  · exact fun id hid => (h.cover id hid).imp_right fun ⟨w', e, he⟩ =>
      ⟨w', e, (exec_set hw rfl rfl w' id e).2 he⟩
  · have := countP_set hw .signal Worker.isBusy
    have h1 := h.busy
    simp only [show (Worker.finish : Worker α).isBusy = true from rfl,
      show (Worker.signal : Worker α).isBusy = false from rfl, show b2n false = 0 from rfl,
      show b2n true = 1 from rfl] at *
    omega
  · intro hs ha
    have h1 := h.awake hs (any_sleep_set rfl ha)
    have h2 := countP_set hw .signal Worker.isReady
    simp only [show (Worker.finish : Worker α).isReady = true from rfl,
      show (Worker.signal : Worker α).isReady = true from rfl] at h2
    simp only at h1 ⊢
    omega
  · intro hs z hz
    rcases mem_set hz with rfl | hz
    · simp
    · exact h.noexit hs z hz
  · intro l hl
    exact .inr (.inr ⟨w, by simp only [getElem?_set hw, if_true]⟩)
  · intro j hj
    obtain ⟨h1, h2⟩ := h.join j hj
    refine ⟨fun z hz => ?_, fun i hi => ?_⟩
    · rcases mem_set hz with rfl | hz
      · simp
      · exact h1 z hz
    · simp only [getElem?_set hw]
      by_cases hww : w = i
      · subst hww; have := h2 w hi; rw [hw] at this; cases this
      · rw [if_neg hww]; exact h2 i hi
  · intro hd
    have := h.joined hd _ (List.mem_of_getElem? hw)
    cases this

/-- a worker has notified a waiting owner -/
theorem Inv.signal (h : Inv ts tasks allGets σ0 n c g k) {w : Nat} (hw : c.workers[w]? = some .signal) :
    Inv ts tasks allGets σ0 n { c with workers := c.workers.set w .check, client := c.client.wake } g k := by
  have hleft : c.client.wake.left = c.client.left := by cases c.client <;> rfl
  have hend : c.client.wake.ended = c.client.ended := by cases c.client <;> rfl
  have hnot : c.client.wake.notifies = c.client.notifies := by cases c.client <;> rfl
  refine { h with
    len := ?_, todo := ?_, exec := ?_, uniq := ?_, cover := ?_, busy := ?_, stop := ?_, first := ?_,
    awake := ?_, noexit := ?_, waiter := ?_, join := ?_, joined := ?_ }
  · simpa using h.len
  · rw [hleft]; exact h.todo
  · exact fun w' id e h' => h.exec w' id e ((exec_set hw rfl rfl w' id e).1 h')
  · exact fun w1 w2 id e e' h1 h2 =>
      h.uniq w1 w2 id e e' ((exec_set hw rfl rfl w1 id e).1 h1) ((exec_set hw rfl rfl w2 id e').1 h2)
  · exact fun id hid => (h.cover id hid).imp_right fun ⟨w', e, he⟩ =>
      ⟨w', e, (exec_set hw rfl rfl w' id e).2 he⟩
  · have := countP_set hw .check Worker.isBusy
    have h1 := h.busy
    simp only [show (Worker.check : Worker α).isBusy = false from rfl,
      show (Worker.signal : Worker α).isBusy = false from rfl] at *
    omega
  · rw [hend]; exact h.stop
  · rw [hleft]; exact h.first
  · intro hs ha
    have h1 := h.awake hs (any_sleep_set rfl ha)
    have h2 := countP_set hw .check Worker.isReady
    simp only [show (Worker.check : Worker α).isReady = true from rfl,
      show (Worker.signal : Worker α).isReady = true from rfl] at h2
    rw [← hnot] at h1
    simp only at h1 ⊢
    omega
  · intro hs z hz
    rcases mem_set hz with rfl | hz
    · simp
    · exact h.noexit hs z hz
  · intro l hl
    cases hc : c.client <;> simp [hc, Client.wake] at hl
  · intro j hj
    have hj' : c.client = .joining j := by
      cases hc : c.client <;> simp [hc, Client.wake] at hj
      rw [hj]
    obtain ⟨h1, h2⟩ := h.join j hj'
    refine ⟨fun z hz => ?_, fun i hi => ?_⟩
    · rcases mem_set hz with rfl | hz
      · simp
      · exact h1 z hz
    · simp only [getElem?_set hw]
      by_cases hww : w = i
      · subst hww; have := h2 w hi; rw [hw] at this; cases this
      · rw [if_neg hww]; exact h2 i hi
  · intro hd
    have hd' : c.client = .done := by cases hc : c.client <;> simp [hc, Client.wake] at hd ⊢
    have := h.joined hd' _ (List.mem_of_getElem? hw)
    cases this

/-! The steps of a worker as equations -/

theorem workerStep_stop {w : Nat} (hw : c.workers[w]? = some .check) (hs : c.stop = true) :
    workerStep ts w c = { c with workers := c.workers.set w .exit } := by
  simp only [workerStep, hw, hs, if_true]

theorem workerStep_sleep {w : Nat} (hw : c.workers[w]? = some .check) (hs : c.stop = false)
    (hq : c.queue = []) : workerStep ts w c = { c with workers := c.workers.set w .sleep } := by
  simp only [workerStep, hw, hs, hq, Bool.false_eq_true, if_false]

theorem workerStep_take {w id : Nat} {its : List Nat} {q : List (Nat × List Nat)}
    (hw : c.workers[w]? = some .check) (hs : c.stop = false) (hq : c.queue = (id, its) :: q) :
    workerStep ts w c
      = { c with workers := c.workers.set w (.exec id (.next its)), queue := q, busy := c.busy + 1 } := by
  simp only [workerStep, hw, hs, hq, Bool.false_eq_true, if_false]

theorem workerStep_over {w id : Nat} {r : Res Unit} (hw : c.workers[w]? = some (.exec id (.over r))) :
    workerStep ts w c
      = { c with workers := c.workers.set w .finish,
                 futures := fun j => if j = id then some r else c.futures j } := by
  simp only [workerStep, hw]

theorem workerStep_exec {w id : Nat} {e : Exec α} (hw : c.workers[w]? = some (.exec id e))
    (he : ∀ r, e ≠ .over r) :
    workerStep ts w c
      = { c with workers := c.workers.set w (.exec id (e.step ts w c).1), store := (e.step ts w c).2.store,
                 log := (e.step ts w c).2.log, results := (e.step ts w c).2.results } := by
  cases e with
  | over r => exact absurd rfl (he r)
  | next l => simp only [workerStep, hw]; rw [Exec.step_rest]
  | run i p l => simp only [workerStep, hw]; rw [Exec.step_rest]

theorem workerStep_finish {w : Nat} (hw : c.workers[w]? = some .finish) :
    workerStep ts w c = { c with workers := c.workers.set w .signal, busy := c.busy - 1 } := by
  simp only [workerStep, hw]

theorem workerStep_signal {w : Nat} (hw : c.workers[w]? = some .signal) :
    workerStep ts w c = { c with workers := c.workers.set w .check, client := c.client.wake } := by
  simp only [workerStep, hw]

/-- every step of a worker keeps the invariant; `k` grows when it takes a task -/
theorem Inv.workerStep (ht : Tasks ts tasks) (h : Inv ts tasks allGets σ0 n c g k) (w : Nat) :
    ∃ g' k', Inv ts tasks allGets σ0 n (workerStep ts w c) g' k' ∧ k ≤ k' ∧
      takenBy c (.worker w) = (List.range' k (k' - k)).map fun id => (id, tasks[id]?.getD []) := by
  match hw : c.workers[w]? with
  | none =>
    refine ⟨g, k, by simp only [Pool.workerStep, hw]; exact h, Nat.le_refl _, by simp [takenBy, hw]⟩
  | some .sleep =>
    refine ⟨g, k, by simp only [Pool.workerStep, hw]; exact h, Nat.le_refl _, by simp [takenBy, hw]⟩
  | some .exit =>
    refine ⟨g, k, by simp only [Pool.workerStep, hw]; exact h, Nat.le_refl _, by simp [takenBy, hw]⟩
  | some .check =>
    cases hs : c.stop with
    | true =>
      rw [workerStep_stop hw hs]
      exact ⟨g, k, h.move hw rfl rfl rfl (by simp [hs]) rfl (by simp) (by simp) (by simp [hs]), Nat.le_refl _,
        by simp [takenBy, hw, hs]⟩
    | false =>
      match hq : c.queue with
      | [] => rw [workerStep_sleep hw hs hq]; exact ⟨g, k, h.fallAsleep hw hs hq, Nat.le_refl _, by simp [takenBy, hw, hs, hq]⟩
      | (id, its) :: q =>
        rw [workerStep_take hw hs hq]
        obtain ⟨h1, h2, h3⟩ := h.take hw hs hq
        refine ⟨g, k + 1, h3, Nat.le_succ _, ?_⟩
        subst h1
        simp [takenBy, hw, hs, hq, h2, Nat.add_sub_cancel_left]
  | some (.exec id (.over r)) => rw [workerStep_over hw]; exact ⟨g, k, h.publish hw, Nat.le_refl _, by simp [takenBy, hw]⟩
  | some (.exec id (.next l)) =>
    rw [workerStep_exec hw (by simp)]
    obtain ⟨g', hg⟩ := h.execStep ht hw
    exact ⟨g', k, hg, Nat.le_refl _, by simp [takenBy, hw]⟩
  | some (.exec id (.run i p l)) =>
    rw [workerStep_exec hw (by simp)]
    obtain ⟨g', hg⟩ := h.execStep ht hw
    exact ⟨g', k, hg, Nat.le_refl _, by simp [takenBy, hw]⟩
  | some .finish => rw [workerStep_finish hw]; exact ⟨g, k, h.finish hw, Nat.le_refl _, by simp [takenBy, hw]⟩
  | some .signal => rw [workerStep_signal hw]; exact ⟨g, k, h.signal hw, Nat.le_refl _, by simp [takenBy, hw]⟩

/-! The owner -/

theorem gets_of_enqueue (its : List Nat) (l : List Cmd) : gets (.enqueue its :: l) = gets l := rfl

theorem firstFailure_append : ∀ (rs : List (Res Unit)) (r : Res Unit),
    firstFailure (rs ++ [r]) = if firstFailure rs = .ok () then r else firstFailure rs
  | [], r => by cases r <;> simp [firstFailure]
  | .ok _ :: rs, r => firstFailure_append rs r
  | .throw e :: rs, r => by simp [firstFailure]
  | .ub :: rs, r => by simp [firstFailure]

theorem Inv.clientStep (h : Inv ts tasks allGets σ0 n c g k) (w : Nat) :
    Inv ts tasks allGets σ0 n (clientStep w c) g k := by
  have hstop := h.stop
  match hc : c.client with
  | .cmds [] =>
    have : Pool.clientStep w c = { c with stop := true, client := .stopping } := by
      simp only [Pool.clientStep, hc]
    rw [this]
    refine { h with
      todo := ?_, stop := rfl, first := ?_, awake := by simp, noexit := by simp, waiter := by simp,
      join := by simp, joined := by simp }
    · have := h.todo; rw [hc] at this; exact this
    · have := h.first; rw [hc] at this; exact this
  | .cmds (.enqueue items :: l) =>
    have : Pool.clientStep w c = { c with queue := c.queue ++ [(c.nTasks, items)], nTasks := c.nTasks + 1,
                                          client := .notify l } := by
      simp only [Pool.clientStep, hc]
    rw [this]
    rw [hc] at hstop
    have htodo := h.todo
    rw [hc] at htodo
    simp only [Client.left, enqueued] at htodo
    have hlt : c.nTasks < tasks.length := by
      apply Nat.lt_of_not_le
      intro hle
      rw [List.drop_eq_nil_of_le hle] at htodo
      simp at htodo
    rw [List.drop_eq_getElem_cons hlt] at htodo
    injection htodo with h1 h2
    refine { h with
      todo := h2, nTasks := hlt, kle := Nat.le_succ_of_le h.kle, fifo := ?_, stop := hstop, first := ?_,
      awake := ?_, waiter := by simp, join := by simp, joined := by simp }
    · have hk := h.kle
      show c.queue ++ [(c.nTasks, items)] = (List.range' k (c.nTasks + 1 - k)).map _
      rw [show c.nTasks + 1 - k = (c.nTasks - k) + 1 by omega, List.range'_1_concat, List.map_append, ← h.fifo,
        show k + (c.nTasks - k) = c.nTasks by omega]
      simp [List.getElem?_eq_getElem hlt, h1]
    · have := h.first; rw [hc] at this; exact this
    · intro hs ha
      have := h.awake hs ha
      rw [hc] at this
      simp only [List.length_append, List.length_cons, List.length_nil, b2n, Client.notifies] at this ⊢
      simp at this ⊢
      omega
  | .cmds (.get id :: l) =>
    match hf : c.futures id with
    | none =>
      have : Pool.clientStep w c = c := by simp only [Pool.clientStep, hc, hf]
      rw [this]; exact h
    | some r =>
      have : Pool.clientStep w c
          = { c with first := if c.first = .ok () then r else c.first, client := .cmds l } := by
        simp only [Pool.clientStep, hc, hf]
      rw [this]
      rw [hc] at hstop
      refine { h with
        todo := ?_, stop := hstop, first := ?_, awake := ?_, waiter := by simp, join := by simp,
        joined := by simp }
      · have := h.todo; rw [hc] at this; exact this
      · obtain ⟨got, rs, h1, h2, h3⟩ := h.first
        rw [hc] at h1
        refine ⟨got ++ [id], rs ++ [r], ?_, ?_, ?_⟩
        · rw [← h1]; simp [Client.left, gets]
        · simp only [List.map_append, h2, List.map_cons, List.map_nil, hf]
        · rw [firstFailure_append, ← h3]
      · have := h.awake; rw [hc] at this; exact this
  | .cmds (.waitFinished :: l) =>
    rw [hc] at hstop
    by_cases hcond : (c.queue.isEmpty && c.busy == 0) = true
    · have : Pool.clientStep w c = { c with client := .cmds l } := by
        simp only [Pool.clientStep, hc, if_pos hcond]
      rw [this]
      refine { h with
        todo := ?_, stop := hstop, first := ?_, awake := ?_, waiter := by simp, join := by simp,
        joined := by simp }
      · have := h.todo; rw [hc] at this; exact this
      · have := h.first; rw [hc] at this; exact this
      · have := h.awake; rw [hc] at this; exact this
    · have : Pool.clientStep w c = { c with client := .waiting l } := by
        simp only [Pool.clientStep, hc, if_neg hcond]
      rw [this]
      refine { h with
        todo := ?_, stop := hstop, first := ?_, awake := ?_, waiter := ?_, join := by simp,
        joined := by simp }
      · have := h.todo; rw [hc] at this; exact this
      · have := h.first; rw [hc] at this; exact this
      · have := h.awake; rw [hc] at this; exact this
      · intro _ _
        by_cases hq : c.queue = []
        · refine .inr (.inl ?_)
          simp [hq] at hcond
          exact Nat.pos_of_ne_zero hcond
        · exact .inl hq
  | .notify l =>
    rw [hc] at hstop
    by_cases hw : c.workers[w]? = some .sleep
    · have : Pool.clientStep w c = { c with workers := c.workers.set w .check, client := .cmds l } := by
        simp only [Pool.clientStep, hc, hw]
      rw [this]
      have h' := h.move (x := .check) hw rfl rfl rfl (by simp [Worker.isReady]) rfl (by simp) (by simp) (by simp)
      refine { h' with
        todo := ?_, stop := hstop, first := ?_, awake := ?_, waiter := by simp, join := by simp,
        joined := by simp }
      · have := h.todo; rw [hc] at this; exact this
      · have := h.first; rw [hc] at this; exact this
      · intro hs ha
        have h1 := h.awake hs (any_sleep_set rfl ha)
        have h2 := countP_set hw .check Worker.isReady
        rw [hc] at h1
        simp only [show (Worker.check : Worker α).isReady = true from rfl,
          show (Worker.sleep : Worker α).isReady = false from rfl, b2n, Client.notifies] at h1 h2 ⊢
        simp at h1 h2 ⊢
        omega
    · have hst : Pool.clientStep w c
          = if c.workers.any Worker.isSleep then c else { c with client := .cmds l } := by
        unfold Pool.clientStep
        rw [hc]
        match hw' : c.workers[w]? with
        | none | some .check | some (.exec _ _) | some .finish | some .signal | some .exit => rfl
        | some .sleep => exact absurd hw' hw
      cases ha : c.workers.any Worker.isSleep with
      | true =>
        rw [hst, ha, if_pos rfl]; exact h
      | false =>
        rw [hst, ha, if_neg (by simp)]
        refine { h with
          todo := ?_, stop := hstop, first := ?_, awake := ?_, waiter := by simp, join := by simp,
          joined := by simp }
        · have := h.todo; rw [hc] at this; exact this
        · have := h.first; rw [hc] at this; exact this
        · intro _ ha'
          rw [show ({ c with client := .cmds l } : Config α).workers = c.workers from rfl, ha] at ha'
          cases ha'
  | .waiting l =>
    have : Pool.clientStep w c = c := by simp only [Pool.clientStep, hc]
    rw [this]; exact h
  | .stopping =>
    rw [hc] at hstop
    have hsw : c.stop = true := hstop
    let wk : Worker α → Worker α := fun | .sleep => .check | w => w
    have : Pool.clientStep w c = { c with workers := c.workers.map wk, client := .joining 0 } := by
      simp only [Pool.clientStep, hc]
      rfl
    rw [this]
    have hwk : ∀ (w' id : Nat) e, (c.workers.map wk)[w']? = some (.exec id e) ↔
        c.workers[w']? = some (.exec id e) := by
      intro w' id e
      rw [List.getElem?_map]
      match c.workers[w']? with
      | none => simp
      | some .sleep => simp [wk]
      | some .check => simp [wk]
      | some (.exec _ _) => simp [wk]
      | some .finish => simp [wk]
      | some .signal => simp [wk]
      | some .exit => simp [wk]
    refine { h with
      len := by simpa using h.len, todo := ?_, exec := ?_, uniq := ?_, cover := ?_, busy := ?_, stop := hstop,
      first := ?_, awake := ?_, noexit := ?_, waiter := by simp, join := ?_, joined := by simp }
    · have := h.todo; rw [hc] at this; exact this
    · exact fun w' id e he => h.exec w' id e ((hwk w' id e).1 he)
    · exact fun w1 w2 id e e' h1 h2 => h.uniq w1 w2 id e e' ((hwk w1 id e).1 h1) ((hwk w2 id e').1 h2)
    · exact fun id hid => (h.cover id hid).imp_right fun ⟨w', e, he⟩ => ⟨w', e, (hwk w' id e).2 he⟩
    · rw [h.busy]
      simp only [List.countP_map]
      congr 1
      funext z
      cases z <;> rfl
    · have := h.first; rw [hc] at this; exact this
    · intro hs; rw [show c.stop = true from hsw] at hs; cases hs
    · intro hs; rw [show c.stop = true from hsw] at hs; cases hs
    · intro j hj
      injection hj with hj
      subst hj
      refine ⟨?_, by simp⟩
      intro z hz
      obtain ⟨y, _, rfl⟩ := List.mem_map.1 hz
      cases y <;> simp [wk]
  | .joining j =>
    rw [hc] at hstop
    obtain ⟨hns, hex⟩ := h.join j hc
    have hsw : c.stop = true := hstop
    match hj : c.workers[j]? with
    | none =>
      have : Pool.clientStep w c = { c with client := .done } := by simp only [Pool.clientStep, hc, hj]
      rw [this]
      refine { h with
        todo := ?_, stop := hstop, first := ?_, awake := ?_, waiter := by simp, join := by simp,
        joined := ?_ }
      · have := h.todo; rw [hc] at this; exact this
      · have := h.first; rw [hc] at this; exact this
      · intro hs; rw [show c.stop = true from hsw] at hs; cases hs
      · intro _ z hz
        obtain ⟨i, hi, rfl⟩ := List.getElem_of_mem hz
        have hij : i < j := Nat.lt_of_lt_of_le hi (List.getElem?_eq_none_iff.1 hj)
        have := hex i hij
        rw [List.getElem?_eq_getElem hi] at this
        exact Option.some.inj this
    | some .exit =>
      have : Pool.clientStep w c = { c with client := .joining (j + 1) } := by simp only [Pool.clientStep, hc, hj]
      rw [this]
      refine { h with
        todo := ?_, stop := hstop, first := ?_, awake := ?_, waiter := by simp, join := ?_, joined := by simp }
      · have := h.todo; rw [hc] at this; exact this
      · have := h.first; rw [hc] at this; exact this
      · intro hs; rw [show c.stop = true from hsw] at hs; cases hs
      · intro j' hj'
        injection hj' with hj'
        subst hj'
        refine ⟨hns, fun i hi => ?_⟩
        rcases Nat.lt_succ_iff_lt_or_eq.1 hi with hi | rfl
        · exact hex i hi
        · exact hj
    | some .check | some .sleep | some (.exec _ _) | some .finish | some .signal =>
      have : Pool.clientStep w c = c := by simp only [Pool.clientStep, hc, hj]
      rw [this]; exact h
  | .done =>
    have : Pool.clientStep w c = c := by simp only [Pool.clientStep, hc]
    rw [this]; exact h

theorem Inv.step (ht : Tasks ts tasks) (h : Inv ts tasks allGets σ0 n c g k) (ev : Event) :
    ∃ g' k', Inv ts tasks allGets σ0 n (step ts ev c) g' k' ∧ k ≤ k' ∧
      takenBy c ev = (List.range' k (k' - k)).map fun id => (id, tasks[id]?.getD []) := by
  cases ev with
  | worker w => exact h.workerStep ht w
  | client w => exact ⟨g, k, h.clientStep w, Nat.le_refl _, by simp [takenBy]⟩
  | spurious w =>
    refine ⟨g, k, ?_, Nat.le_refl _, by simp [takenBy]⟩
    by_cases hw : c.workers[w]? = some .sleep
    · simp only [Pool.step, hw]
      exact h.move (x := .check) hw rfl rfl rfl (by simp [Worker.isReady]) rfl (by simp) (by simp) (by simp)
    · simp only [Pool.step]
      exact h

theorem Inv.takes (ht : Tasks ts tasks) : ∀ (es : List Event) {c : Config α} {g : Ghost α} {k : Nat},
    Inv ts tasks allGets σ0 n c g k → ∃ g' k', Inv ts tasks allGets σ0 n (steps ts es c) g' k' ∧ k ≤ k' ∧
      takes ts es c = (List.range' k (k' - k)).map fun id => (id, tasks[id]?.getD [])
  | [], _, g, k, h => ⟨g, k, h, Nat.le_refl _, by simp [Pool.takes]⟩
  | ev :: es, _, _, k, h => by
    obtain ⟨_, k1, h', hk, ht1⟩ := h.step ht ev
    obtain ⟨g2, k2, h2, hk2, ht2⟩ := Inv.takes ht es h'
    refine ⟨g2, k2, h2, Nat.le_trans hk hk2, ?_⟩
    simp only [Pool.takes, ht1, ht2, ← List.map_append]
    rw [show k2 - k = (k1 - k) + (k2 - k1) by omega, ← List.range'_append_1, show k + (k1 - k) = k1 by omega]

theorem Inv.steps (ht : Tasks ts tasks) (es : List Event) (h : Inv ts tasks allGets σ0 n c g k) :
    ∃ g' k', Inv ts tasks allGets σ0 n (steps ts es c) g' k' :=
  let ⟨g', k', h', _⟩ := h.takes ht es
  ⟨g', k', h'⟩

end

end Z5.Pool
