import Verif.Model.S3Together
import Verif.Proofs.S3Container

/-!
# Tasks with objects of their own (for C89)
-/

namespace Z5
open Prog

variable {α : Type}

/-! ### Buckets with the same objects -/

theorem Bucket.WF.ext : ∀ {a b : Bucket}, a.WF → b.WF → (∀ k, a.get k = b.get k) → a = b
  | [], [], _, _, _ => rfl
  | [], (k, o) :: b, _, _, h => by
    have := h k
    simp [Bucket.get] at this
  | (k, o) :: a, [], _, _, h => by
    have := h k
    simp [Bucket.get] at this
  | (k, o) :: a, (l, u) :: b, ha, hb, h => by
    have ha' := List.pairwise_cons.1 ha
    have hb' := List.pairwise_cons.1 hb
    have none_of : ∀ {c : Bucket} {q : Key}, (∀ p ∈ c, keyLt q p.1 = true) → Bucket.get c q = none := by
      intro c q hc
      unfold Bucket.get
      rw [List.find?_eq_none.2 fun p hp => by simpa using fun e => keyLt_ne (hc p hp) e.symm]
      rfl
    have hkl : k = l := by
      rcases keyLt_total k l with hlt | rfl | hlt
      · have := h k
        rw [none_of (c := (l, u) :: b) (by
          intro p hp
          rcases List.mem_cons.1 hp with rfl | hp
          · exact hlt
          · exact keyLt_trans hlt (hb'.1 p hp))] at this
        simp [Bucket.get] at this
      · rfl
      · have := h l
        rw [none_of (c := (k, o) :: a) (by
          intro p hp
          rcases List.mem_cons.1 hp with rfl | hp
          · exact hlt
          · exact keyLt_trans hlt (ha'.1 p hp))] at this
        simp [Bucket.get] at this
    subst hkl
    have hou : o = u := by
      have := h k
      simpa [Bucket.get] using this
    subst hou
    have : a = b := Bucket.WF.ext ha'.2 hb'.2 fun q => by
      by_cases hq : q = k
      · subst hq
        rw [none_of ha'.1, none_of hb'.1]
      · have := h q
        have hne : (k == q) = false := by simpa using fun e => hq e.symm
        simpa only [Bucket.get, List.find?_cons, hne] using this
    rw [this]

/-! ### One object -/

/-- the bytes of an object -/
def bytesOf : Option S3Obj → Option Bytes
  | some (.file bytes) => some bytes
  | _ => none

/-- the object after a request -/
def afterOf (f : Option Bytes → Option Bytes) (o : Option S3Obj) : Option S3Obj :=
  if f (bytesOf o) = bytesOf o then o else (f (bytesOf o)).map .file

theorem content_bytesOf (b : Bucket) (k : Key) : b.content k = bytesOf (b.get k) := by
  unfold Bucket.content bytesOf
  rfl

theorem onObject_self (b : Bucket) (k : Key) (f : Option Bytes → Option Bytes) : (b.onObject k f).get k = afterOf f (b.get k) := by
  unfold Bucket.onObject afterOf
  rw [← content_bytesOf]
  split
  · rfl
  · split
    · next e => rw [get_put_self, e]; rfl
    · next e => rw [get_erase_self, e]; rfl

theorem onObject_other {b : Bucket} {k q : Key} {f : Option Bytes → Option Bytes} (hq : q ≠ k) : (b.onObject k f).get q = b.get q := by
  unfold Bucket.onObject
  split
  · rfl
  · split
    · exact get_put_ne hq
    · exact get_erase (by simpa using hq)

theorem onObject_wf {b : Bucket} {k : Key} {f : Option Bytes → Option Bytes} (hb : b.WF) : (b.onObject k f).WF := by
  unfold Bucket.onObject
  split
  · exact hb
  · split
    · exact put_wf hb
    · exact erase_wf hb

/-- a program alone on its object: its outcome, and the object afterwards -/
def Prog.alone : Prog α → Option S3Obj → Res α × Option S3Obj
  | .ret r, o => (r, o)
  | .act _ f c, o => (c (bytesOf o)).alone (afterOf f o)

/-! ### Several tasks -/

/-- What the tasks do, whatever the schedule. -/
structure DoneS3 (js : List (Key × Prog α)) (b b' : Bucket) : Prop where
  wf : b.WF → b'.WF
  objects : ∀ j ∈ js, b'.get j.1 = (j.2.alone (b.get j.1)).2
  rest : ∀ q, (∀ j ∈ js, q ≠ j.1) → b'.get q = b.get q

theorem DoneS3.unique {js : List (Key × Prog α)} {b b₁ b₂ : Bucket} (hb : b.WF) (h₁ : DoneS3 js b b₁) (h₂ : DoneS3 js b b₂) :
    b₁ = b₂ := by
  refine (h₁.wf hb).ext (h₂.wf hb) fun q => ?_
  by_cases hq : ∃ j ∈ js, q = j.1
  · obtain ⟨j, hj, rfl⟩ := hq
    rw [h₁.objects j hj, h₂.objects j hj]
  · rw [h₁.rest q fun j hj e => hq ⟨j, hj, e⟩, h₂.rest q fun j hj e => hq ⟨j, hj, e⟩]

theorem DoneS3.append {js ks : List (Key × Prog α)} {b b₁ b₂ : Bucket} (hd : ∀ j ∈ js, ∀ k ∈ ks, j.1 ≠ k.1) (h₁ : DoneS3 js b b₁)
    (h₂ : DoneS3 ks b₁ b₂) : DoneS3 (js ++ ks) b b₂ where
  wf hb := h₂.wf (h₁.wf hb)
  objects j hj := by
    rcases List.mem_append.1 hj with hj | hj
    · rw [h₂.rest _ fun k hk => hd j hj k hk, h₁.objects j hj]
    · rw [h₂.objects j hj, h₁.rest _ fun k hk e => hd k hk j hj e.symm]
  rest q hq := by
    rw [h₂.rest q fun j hj => hq j (List.mem_append_right _ hj), h₁.rest q fun j hj => hq j (List.mem_append_left _ hj)]

theorem outcome_alone {p : Prog α} {r : Res α} (h : p.outcome = some r) (o : Option S3Obj) : p.alone o = (r, o) := by
  cases p with
  | ret r' => cases h; rfl
  | act k f c => cases h

/-- one step keeps what a task and its object come to -/
theorem step_alone {ks : List Key} (hn : ks.Nodup) {ts : List (Prog α)} {b : Bucket}
    (ht : ∀ (i : Nat) k t, ks[i]? = some k → ts[i]? = some t → TouchesOnly k t) (hl : ts.length = ks.length) (i : Nat) :
    (stepObjects i (ts, b)).1.length = ks.length ∧ ((b.WF → (stepObjects i (ts, b)).2.WF)) ∧
    (∀ (j : Nat) k t, ks[j]? = some k → (stepObjects i (ts, b)).1[j]? = some t → TouchesOnly k t) ∧
    (∀ (j : Nat) k t, ks[j]? = some k → ts[j]? = some t → ∃ t', (stepObjects i (ts, b)).1[j]? = some t' ∧
      t'.alone ((stepObjects i (ts, b)).2.get k) = t.alone (b.get k)) ∧
    ∀ q, q ∉ ks → (stepObjects i (ts, b)).2.get q = b.get q := by
  unfold stepObjects
  split
  · next k f c h =>
    simp only at h ⊢
    have hi : i < ts.length := (List.getElem?_eq_some_iff.1 h).1
    have hk : ks[i]? = some k := by
      rw [List.getElem?_eq_getElem (hl ▸ hi)]
      exact congrArg some (ht i _ _ (List.getElem?_eq_getElem (hl ▸ hi)) h).1.symm
    have htc := ht i _ _ hk h
    refine ⟨by rw [List.length_set]; exact hl, onObject_wf, fun j l t hj hg => ?_, fun j l t hj hg => ?_, fun q hq => ?_⟩
    · by_cases hij : i = j
      · subst hij
        rw [List.getElem?_set_self hi] at hg
        cases hg
        rw [hk] at hj
        cases hj
        exact htc.2 _
      · rw [List.getElem?_set_ne hij] at hg
        exact ht j l t hj hg
    · by_cases hij : i = j
      · subst hij
        rw [hk] at hj
        cases hj
        rw [h] at hg
        cases hg
        refine ⟨_, List.getElem?_set_self hi, ?_⟩
        rw [onObject_self, content_bytesOf]
        rfl
      · refine ⟨t, by rw [List.getElem?_set_ne hij]; exact hg, ?_⟩
        rw [onObject_other]
        rintro rfl
        obtain ⟨h1, h2⟩ := List.getElem?_eq_some_iff.1 hj
        obtain ⟨h3, h4⟩ := List.getElem?_eq_some_iff.1 hk
        exact hij ((List.getElem_inj hn).1 (h4.trans h2.symm))
    · exact onObject_other fun e => hq (e ▸ List.mem_of_getElem? hk)
  · exact ⟨hl, id, ht, fun j k t hj hg => ⟨t, hg, rfl⟩, fun _ _ => rfl⟩

theorem interleave_alone {ks : List Key} (hn : ks.Nodup) : ∀ (is : List Nat) {ts : List (Prog α)} {b : Bucket},
    (∀ (i : Nat) k t, ks[i]? = some k → ts[i]? = some t → TouchesOnly k t) → ts.length = ks.length →
    (interleaveObjects is (ts, b)).1.length = ks.length ∧ ((b.WF → (interleaveObjects is (ts, b)).2.WF)) ∧
    (∀ (j : Nat) k t, ks[j]? = some k → ts[j]? = some t → ∃ t', (interleaveObjects is (ts, b)).1[j]? = some t' ∧
      t'.alone ((interleaveObjects is (ts, b)).2.get k) = t.alone (b.get k)) ∧
    ∀ q, q ∉ ks → (interleaveObjects is (ts, b)).2.get q = b.get q
  | [], ts, b, ht, hl => ⟨hl, id, fun j k t hj hg => ⟨t, hg, rfl⟩, fun _ _ => rfl⟩
  | i :: is, ts, b, ht, hl => by
    obtain ⟨s1, s2, s3, s4, s5⟩ := step_alone hn (b := b) ht hl i
    rw [interleaveObjects]
    generalize stepObjects i (ts, b) = c at s1 s2 s3 s4 s5 ⊢
    obtain ⟨ts', b'⟩ := c
    obtain ⟨k1, k2, k3, k4⟩ := interleave_alone hn is (b := b') s3 s1
    refine ⟨k1, fun hb => k2 (s2 hb), fun j k t hj hg => ?_, fun q hq => (k4 q hq).trans (s5 q hq)⟩
    obtain ⟨t', h1, h2⟩ := s4 j k t hj hg
    obtain ⟨t'', h3, h4⟩ := k3 j k t' hj h1
    exact ⟨t'', h3, h4.trans h2⟩

/-- **The tasks, whatever the schedule.** -/
theorem doneS3_of_finished {js : List (Key × Prog α)} (h : JobsOk js) {b : Bucket} {is : List Nat} {rs : List (Res α)}
    (hf : Finished (interleaveObjects is (js.map Prod.snd, b)).1 rs) :
    rs = js.map (fun j => (j.2.alone (b.get j.1)).1) ∧ DoneS3 js b (interleaveObjects is (js.map Prod.snd, b)).2 := by
  obtain ⟨k1, k2, k3, k4⟩ := interleave_alone (ks := js.map Prod.fst) h.nodup is (ts := js.map Prod.snd) (b := b) (by
    intro i k t hk ht
    rw [List.getElem?_map] at hk ht
    obtain ⟨j, hj, rfl⟩ := Option.map_eq_some_iff.1 hk
    rw [hj] at ht
    cases ht
    exact h.touches j (List.mem_of_getElem? hj)) (by simp)
  generalize interleaveObjects is (js.map Prod.snd, b) = c at hf k1 k2 k3 k4 ⊢
  obtain ⟨ts, b'⟩ := c
  simp only at hf k1 k2 k3 k4 ⊢
  have key : ∀ (i : Nat) j, js[i]? = some j → ∃ r, rs[i]? = some r ∧ j.2.alone (b.get j.1) = (r, b'.get j.1) := by
    intro i j hj
    obtain ⟨t, h1, h2⟩ := k3 i j.1 j.2 (by rw [List.getElem?_map, hj]; rfl) (by rw [List.getElem?_map, hj]; rfl)
    have := congrArg (·[i]?) hf
    simp only [List.getElem?_map, h1, Option.map_some] at this
    obtain ⟨r, h3, h4⟩ := Option.map_eq_some_iff.1 this.symm
    exact ⟨r, h3, by rw [← h2, outcome_alone h4.symm]⟩
  have hlen : rs.length = js.length := by
    have := congrArg List.length hf
    simp only [List.length_map] at this k1
    omega
  refine ⟨?_, k2, fun j hj => ?_, fun q hq => k4 q ?_⟩
  · refine List.ext_getElem? fun i => ?_
    rw [List.getElem?_map]
    cases hj : js[i]? with
    | none => rw [List.getElem?_eq_none (by rw [hlen]; exact List.getElem?_eq_none_iff.1 hj)]; rfl
    | some j =>
      obtain ⟨r, h1, h2⟩ := key i j hj
      rw [h1, Option.map_some, h2]
  · obtain ⟨i, hi⟩ := List.getElem?_of_mem hj
    obtain ⟨r, _, h2⟩ := key i j hi
    rw [h2]
  · intro hm
    obtain ⟨j, hj, e⟩ := List.mem_map.1 hm
    exact hq j hj e.symm

/-! ### The tasks of one dataset -/

theorem outcome_onObjects (name : Key) (p : Prog α) : (p.onObjects name).outcome = p.outcome := by
  cases p <;> rfl

theorem touches_onObjects {name k : Key} : ∀ {p : Prog α}, TouchesOnly k p → TouchesOnly (chunkObject name k) (p.onObjects name)
  | .ret _, _ => trivial
  | .act _ _ _, h => ⟨congrArg _ h.1, fun v => touches_onObjects (h.2 v)⟩

theorem interleaveObjects_eq (name : Key) : ∀ (is : List Nat) (ts : List (Prog α)) (b : Bucket),
    interleaveObjects is (ts.map (·.onObjects name), b) =
      ((interleaveS3 name is (ts, b)).1.map (·.onObjects name), (interleaveS3 name is (ts, b)).2)
  | [], _, _ => rfl
  | i :: is, ts, b => by
    rw [interleaveObjects, interleaveS3]
    have : stepObjects i (ts.map (·.onObjects name), b) =
        ((stepS3 name i (ts, b)).1.map (·.onObjects name), (stepS3 name i (ts, b)).2) := by
      unfold stepObjects stepS3
      simp only [List.getElem?_map]
      cases h : ts[i]? with
      | none => rfl
      | some t =>
        cases t with
        | ret r => rfl
        | act k f c =>
          simp only [Option.map_some, onObjects, List.map_set]
          rfl
    rw [this]
    exact interleaveObjects_eq name is _ _

theorem finished_onObjects {name : Key} {ts : List (Prog α)} {rs : List (Res α)} :
    Finished (ts.map (·.onObjects name)) rs ↔ Finished ts rs := by
  unfold Finished
  rw [List.map_map]
  have : (outcome ∘ fun p : Prog α => p.onObjects name) = outcome := funext fun p => outcome_onObjects name p
  rw [this]

theorem exists_finishedS3 (name : Key) (ts : List (Prog α)) (b : Bucket) : ∃ is rs, Finished (interleaveS3 name is (ts, b)).1 rs := by
  obtain ⟨is, rs, h⟩ := Prog.exists_finished (ts, b.chunks name)
  exact ⟨is, rs, by rw [(interleaveS3_eq name is ts b).1]; exact h⟩

end Z5
