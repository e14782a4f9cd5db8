import Verif.Proofs.PoolLive

/-!
# `parallel_foreach` as a client of the pool
-/

namespace Z5.Pool
open Z5 Prog

variable {α : Type} {ts : List (Prog α)}

theorem batchLoop_flatten {bs : Nat} (hbs : 1 ≤ bs) : ∀ (fuel iter workload : Nat), workload ≤ fuel →
    (batchLoop bs fuel iter workload).flatten = List.range' iter workload
  | 0, iter, workload, h => by
    have : workload = 0 := by omega
    subst this; rfl
  | fuel + 1, iter, workload, h => by
    rw [batchLoop]
    by_cases hw : workload = 0
    · simp [hw]
    · rw [if_neg hw, List.flatten_cons, batchLoop_flatten hbs fuel _ _ (by omega)]
      have hm : min workload bs ≤ workload := Nat.min_le_left _ _
      generalize min workload bs = m at hm
      rw [List.range'_append_1, show m + (workload - m) = workload by omega]

theorem batches_flatten {bs : Nat} (hbs : 1 ≤ bs) (n : Nat) : (batches bs n).flatten = List.range n := by
  rw [batches, batchLoop_flatten hbs n 0 n (Nat.le_refl _), List.range_eq_range']

theorem enqueued_append : ∀ (a b : List Cmd), enqueued (a ++ b) = enqueued a ++ enqueued b
  | [], _ => rfl
  | .enqueue _ :: a, b => congrArg _ (enqueued_append a b)
  | .get _ :: a, b => enqueued_append a b
  | .waitFinished :: a, b => enqueued_append a b

theorem enqueued_enqueue : ∀ l : List (List Nat), enqueued (l.map .enqueue) = l
  | [] => rfl
  | _ :: l => congrArg _ (enqueued_enqueue l)

theorem enqueued_get : ∀ l : List Nat, enqueued (l.map .get) = []
  | [] => rfl
  | _ :: l => enqueued_get l

theorem gets_append : ∀ (a b : List Cmd), gets (a ++ b) = gets a ++ gets b
  | [], _ => rfl
  | .enqueue _ :: a, b => gets_append a b
  | .get _ :: a, b => congrArg _ (gets_append a b)
  | .waitFinished :: a, b => gets_append a b

theorem gets_enqueue : ∀ l : List (List Nat), gets (l.map .enqueue) = []
  | [] => rfl
  | _ :: l => gets_enqueue l

theorem gets_get : ∀ l : List Nat, gets (l.map .get) = l
  | [] => rfl
  | _ :: l => congrArg _ (gets_get l)

theorem enqueued_foreach (bs n : Nat) : enqueued (foreachCmds bs n) = batches bs n := by
  rw [foreachCmds, enqueued_append, enqueued_enqueue, enqueued_get, List.append_nil]

theorem gets_foreach (bs n : Nat) : gets (foreachCmds bs n) = List.range (batches bs n).length := by
  rw [foreachCmds, gets_append, gets_enqueue, gets_get, List.nil_append]

theorem getsOk_get {m : Nat} : ∀ (l : List Nat), (∀ i ∈ l, i < m) → GetsOk m (l.map .get)
  | [], _ => trivial
  | i :: l, h => ⟨h i (by simp), getsOk_get l fun j hj => h j (by simp [hj])⟩

theorem getsOk_enqueue (r : List Cmd) : ∀ (l : List (List Nat)) (m : Nat), GetsOk (m + l.length) r →
    GetsOk m (l.map .enqueue ++ r)
  | [], m, h => h
  | _ :: l, m, h => getsOk_enqueue r l (m + 1) (by
      rw [List.length_cons] at h
      rw [show m + 1 + l.length = m + (l.length + 1) by omega]; exact h)

theorem getsOk_foreach (bs n : Nat) : GetsOk 0 (foreachCmds bs n) :=
  getsOk_enqueue _ _ 0 (getsOk_get _ fun i hi => by simpa using hi)

theorem Distinct.tasks {l : List Cmd} (h : Distinct ts l) : Tasks ts (enqueued l) := by
  have hp := List.pairwise_flatten.1 h.nodup
  refine ⟨?_, hp.1, fun its hits i hi => h.lt i (List.mem_flatten.2 ⟨its, hits, hi⟩)⟩
  have hpw := List.pairwise_iff_getElem.1 hp.2
  intro id id' its its' i h1 h2 hi hi'
  obtain ⟨hl1, e1⟩ := List.getElem?_eq_some_iff.1 h1
  obtain ⟨hl2, e2⟩ := List.getElem?_eq_some_iff.1 h2
  rcases Nat.lt_trichotomy id id' with hlt | heq | hlt
  · exact absurd hi' (by
      have := hpw id id' hl1 hl2 hlt
      rw [e1, e2] at this
      exact fun hc => this i hi i hc rfl)
  · exact heq
  · exact absurd hi (by
      have := hpw id' id hl2 hl1 hlt
      rw [e1, e2] at this
      exact fun hc => this i hi' i hc rfl)

theorem distinct_foreach {bs : Nat} (hbs : 1 ≤ bs) : Distinct ts (foreachCmds bs ts.length) := by
  refine ⟨?_, ?_⟩ <;> rw [enqueued_foreach, batches_flatten hbs]
  · exact List.nodup_range
  · intro i hi; simpa using hi

/-- the first failing task: the tasks before it ended well -/
theorem firstFailure_spec : ∀ (rs : List (Res Unit)) (r : Res Unit), firstFailure rs = r → r ≠ .ok () →
    ∃ id : Nat, rs[id]? = some r ∧ ∀ j : Nat, j < id → rs[j]? = some (.ok ())
  | [], r, h, hne => absurd h.symm hne
  | .ok () :: rs, r, h, hne => by
    obtain ⟨id, h1, h2⟩ := firstFailure_spec rs r h hne
    refine ⟨id + 1, by simpa using h1, ?_⟩
    intro j hj
    cases j with
    | zero => rfl
    | succ j => simpa using h2 j (by omega)
  | .throw e :: rs, r, h, _ => ⟨0, by simpa [firstFailure] using h, by simp⟩
  | .ub :: rs, r, h, _ => ⟨0, by simpa [firstFailure] using h, by simp⟩

theorem firstFailure_ok : ∀ (rs : List (Res Unit)), firstFailure rs = .ok () → ∀ r ∈ rs, r = .ok ()
  | [], _, _, hr => by simp at hr
  | .ok () :: rs, h, r, hr => by
    rcases List.mem_cons.1 hr with rfl | hr
    · rfl
    · exact firstFailure_ok rs h r hr
  | .throw e :: rs, h, _, _ => by simp [firstFailure] at h
  | .ub :: rs, h, _, _ => by simp [firstFailure] at h

/-- splitting a concatenation of lists at an element of one of them -/
theorem flatten_split {L : List (List Nat)} {id : Nat} {d rest : List Nat} {i : Nat}
    (h : L[id]? = some (d ++ i :: rest)) :
    L.flatten = ((L.take id).flatten ++ d) ++ i :: (rest ++ (L.drop (id + 1)).flatten) := by
  obtain ⟨hlt, he⟩ := List.getElem?_eq_some_iff.1 h
  conv => lhs; rw [← List.take_append_drop id L, List.drop_eq_getElem_cons hlt, he]
  simp

/-- a prefix of `0, 1, …` -/
theorem range_split {n i : Nat} {a b : List Nat} (h : List.range n = a ++ i :: b) : a = List.range i := by
  have hi : a.length = i := by
    have := congrArg (fun l => l[a.length]?) h
    simp at this
    have hl := congrArg List.length h
    simp at hl
    rw [List.getElem?_range (by omega)] at this
    exact Option.some.inj this
  have := congrArg (fun l => l.take a.length) h
  simp only [List.take_left'] at this
  rw [← this, List.take_range, hi]
  have hl := congrArg List.length h
  simp at hl
  congr 1
  omega

/-- the results `res` of the calls: thread ids below `n`, no item twice, and the values are those the items
    ended with -/
def ResOk (n : Nat) (T : List (Prog α)) (res : List (Nat × Nat × α)) : Prop :=
  (res.map fun t => t.2.1).Nodup ∧ ∀ t ∈ res, t.1 < n ∧ T[t.2.1]? = some (.ret (.ok t.2.2))

/-- The end of a loop over the pool. -/
theorem foreach_done {n bs : Nat} (hbs : 1 ≤ bs) {σ : Store} {es : List Event} {c : Config α}
    (hc : steps ts es (start n (foreachCmds bs ts.length) σ) = c) (hd : c.client = .done) :
    ∃ is T, interleave is (ts, σ) = (T, c.store) ∧ (c.log.map Prod.snd).Nodup ∧ (∀ t ∈ c.log, t.1 < n) ∧
      (∀ i ∈ c.log.map Prod.snd, i < ts.length ∧ ∃ r, T[i]? = some (.ret r)) ∧
      (∀ i, i ∉ c.log.map Prod.snd → i ∉ is) ∧
      (c.first = .ok () → ∀ i, i < ts.length → i ∈ c.log.map Prod.snd ∧ ∃ a, T[i]? = some (.ret (.ok a))) ∧
      (∀ r, c.first = r → r ≠ .ok () → ∃ i q, T[i]? = some (.ret q) ∧ failure q = some r ∧
        i ∈ c.log.map Prod.snd ∧
        ∀ j, j < i → j ∈ c.log.map Prod.snd ∧ ∃ a, T[j]? = some (.ret (.ok a))) ∧
      ResOk n T c.results ∧
      (c.first = .ok () → ∀ i, i < ts.length → i ∈ c.results.map fun t => t.2.1) := by
  have hdist := distinct_foreach (ts := ts) hbs
  have ht := hdist.tasks
  obtain ⟨g, k, h⟩ := (inv_start ts (foreachCmds bs ts.length) σ n).steps ht es
  rw [hc] at h
  rw [enqueued_foreach] at h ht
  obtain ⟨got, rs, hgot, hfut, hfirst⟩ := h.first
  rw [hd, show gets Client.done.left = [] from rfl, List.append_nil, gets_foreach] at hgot
  subst hgot
  have hlen : rs.length = (batches bs ts.length).length := by
    have := congrArg List.length hfut
    simpa using this.symm
  -- the future of each batch
  have hrs : ∀ (id : Nat) r, rs[id]? = some r → c.futures id = some r := by
    intro id r hr
    have := congrArg (fun l => l[id]?) hfut
    simp only [List.getElem?_map, hr, Option.map_some] at this
    have hid : id < (batches bs ts.length).length := by
      rw [← hlen]; exact (List.getElem?_eq_some_iff.1 hr).1
    rw [List.getElem?_range hid] at this
    exact Option.some.inj this
  have hflat := batches_flatten hbs ts.length
  have hTlen : g.T.length = ts.length := by
    have h1 := length_interleave g.is (ts, σ)
    rw [h.sim] at h1; exact h1
  -- every item of every batch
  have hitem : ∀ i, i < ts.length → ∃ (id : Nat) (its : List Nat) (r : Res Unit), (batches bs ts.length)[id]? = some its ∧ i ∈ its ∧
      rs[id]? = some r ∧ ItemsSt ts g its (.over r) := by
    intro i hi
    have : i ∈ (batches bs ts.length).flatten := by rw [hflat]; simpa using hi
    obtain ⟨its, hits, hmem⟩ := List.mem_flatten.1 this
    obtain ⟨id, hid⟩ := List.getElem?_of_mem hits
    have hlt : id < rs.length := by rw [hlen]; exact (List.getElem?_eq_some_iff.1 hid).1
    obtain ⟨its', h1, h2⟩ := h.fut id rs[id] (hrs id _ (List.getElem?_eq_getElem hlt))
    rw [hid] at h1
    cases h1
    exact ⟨id, its, rs[id], hid, hmem, List.getElem?_eq_getElem hlt, h2⟩
  have hst : ∀ i, i < ts.length → (i ∈ g.called ∧ ∃ r, g.T[i]? = some (.ret r)) ∨ Ghost.Fresh ts g i := by
    intro i hi
    obtain ⟨id, its, r, _, hmem, _, hsta⟩ := hitem i hi
    have hfail : ∀ r, (∃ d j rest q, its = d ++ j :: rest ∧ (∀ i ∈ d, Ghost.Done g i) ∧ Ghost.Ends g j q ∧
        failure q = some r ∧ ∀ i ∈ rest, Ghost.Fresh ts g i) →
        (i ∈ g.called ∧ ∃ r, g.T[i]? = some (.ret r)) ∨ Ghost.Fresh ts g i := by
      rintro r ⟨d, j, rest, q, rfl, ho, he, _, hf⟩
      rcases List.mem_append.1 hmem with hm | hm
      · obtain ⟨⟨a, ha⟩, _⟩ := ho i hm; exact .inl ⟨ha.1, _, ha.2⟩
      · rcases List.mem_cons.1 hm with rfl | hm
        · exact .inl ⟨he.1, _, he.2⟩
        · exact .inr (hf i hm)
    match r, hsta with
    | .ok (), ho => obtain ⟨⟨a, ha⟩, _⟩ := ho i hmem; exact .inl ⟨ha.1, _, ha.2⟩
    | .throw e, hx => exact hfail _ hx
    | .ub, hx => exact hfail _ hx
  have hcalled : ∀ i ∈ g.called, i < ts.length := by
    intro i hi
    -- a call is of an item of a batch; otherwise the item does not exist
    by_cases hlt : i < ts.length
    · exact hlt
    · exact absurd hi (h.range i (by omega))
  refine ⟨g.is, g.T, h.sim, by rw [← h.called]; exact h.logNodup, h.logTid, ?_, ?_, ?_, ?_,
    ⟨by rw [← h.done]; exact h.doneNodup, h.resVal⟩, ?_⟩
  · rw [← h.called]
    intro i hi
    refine ⟨hcalled i hi, ?_⟩
    rcases hst i (hcalled i hi) with h1 | h1
    · exact h1.2
    · exact absurd hi h1.2.2
  · rw [← h.called]
    intro i hi hc
    by_cases hlt : i < ts.length
    · rcases hst i hlt with h1 | h1
      · exact hi h1.1
      · exact h1.2.1 hc
    · exact h.rangeIs i (by omega) hc
  · rw [← h.called]
    intro hok i hi
    obtain ⟨id, its, r, _, hmem, hr, hsta⟩ := hitem i hi
    have : r = .ok () := firstFailure_ok rs (hfirst ▸ hok) r (List.mem_of_getElem? hr)
    subst this
    obtain ⟨⟨a, ha⟩, _⟩ := hsta i hmem
    exact ⟨ha.1, a, ha.2⟩
  · rw [← h.called]
    intro r hr hne
    obtain ⟨id, h1, h2⟩ := firstFailure_spec rs r (hfirst ▸ hr) hne
    have hidl : id < (batches bs ts.length).length := by
      rw [← hlen]; exact (List.getElem?_eq_some_iff.1 h1).1
    obtain ⟨its, h3, h4⟩ := h.fut id r (hrs id r h1)
    have hfail : ∃ d i rest q, its = d ++ i :: rest ∧ (∀ i ∈ d, Ghost.Done g i) ∧ Ghost.Ends g i q ∧
        failure q = some r ∧ ∀ i ∈ rest, Ghost.Fresh ts g i := by
      match r, h4 with
      | .ok (), _ => exact absurd rfl hne
      | .throw e, hx => exact hx
      | .ub, hx => exact hx
    obtain ⟨d, i, rest, q, rfl, ho, he, hq, _⟩ := hfail
    have hsplit := flatten_split h3
    rw [hflat] at hsplit
    have hpre := range_split hsplit
    refine ⟨i, q, he.2, hq, he.1, fun j hj => ?_⟩
    have hjm : j ∈ ((batches bs ts.length).take id).flatten ++ d := by rw [hpre]; simpa using hj
    have hok : Ghost.Done g j := by
      rcases List.mem_append.1 hjm with hm | hm
      · obtain ⟨its', hits', hji⟩ := List.mem_flatten.1 hm
        obtain ⟨id', hid'⟩ := List.getElem?_of_mem hits'
        rw [List.getElem?_take] at hid'
        by_cases hlt : id' < id
        · rw [if_pos hlt] at hid'
          obtain ⟨its2, h5, h6⟩ := h.fut id' (.ok ()) (hrs id' _ (h2 id' hlt))
          rw [hid'] at h5; cases h5
          exact h6 j hji
        · rw [if_neg hlt] at hid'; cases hid'
      · exact ho j hm
    obtain ⟨⟨a, ha⟩, _⟩ := hok
    exact ⟨ha.1, a, ha.2⟩
  · rw [← h.done]
    intro hok i hi
    obtain ⟨id, its, r, _, hmem, hr, hsta⟩ := hitem i hi
    have : r = .ok () := firstFailure_ok rs (hfirst ▸ hok) r (List.mem_of_getElem? hr)
    subst this
    exact (hsta i hmem).2

/-- running one task to its end -/
theorem interleave_run (i : Nat) : ∀ (p : Prog α) (T : List (Prog α)) (σ : Store), T[i]? = some p →
    ∃ m, interleave (List.replicate m i) (T, σ) = (T.set i (.ret (run p σ).1), (run p σ).2)
  | .ret r, T, σ, h => by
    refine ⟨0, ?_⟩
    obtain ⟨hi, he⟩ := List.getElem?_eq_some_iff.1 h
    simp only [List.replicate, interleave, run]
    rw [← he, List.set_getElem_self]
  | .act k f cont, T, σ, h => by
    obtain ⟨hi, he⟩ := List.getElem?_eq_some_iff.1 h
    obtain ⟨m, hm⟩ := interleave_run i (cont (σ k)) (T.set i (cont (σ k))) (σ.upd k (f (σ k))) (by simp [hi])
    refine ⟨m + 1, ?_⟩
    simp only [List.replicate, interleave, Prog.step, h, hm, run, List.set_set]

/-- The end of a loop in the calling thread. -/
theorem seqLoop_spec (ts0 : List (Prog α)) : ∀ (m i : Nat) (T : List (Prog α)) (σ : Store),
    i + m = ts0.length → T.length = ts0.length → (∀ j, i ≤ j → T[j]? = ts0[j]?) →
    ∃ is T' s, interleave is (T, σ) = (T', (seqLoop ts0 (List.range' i m) σ).2.1) ∧ T'.length = ts0.length ∧
      (seqLoop ts0 (List.range' i m) σ).2.2.1 = (List.range' i s).map (fun j => (0, j)) ∧ s ≤ m ∧
      (∀ j, j < i → T'[j]? = T[j]?) ∧ (∀ j, j < i ∨ i + s ≤ j → j ∉ is) ∧
      (∀ j, i ≤ j → j < i + s → ∃ r, T'[j]? = some (.ret r)) ∧
      ((seqLoop ts0 (List.range' i m) σ).1 = .ok () → s = m ∧
        ∀ j, i ≤ j → j < i + m → ∃ a, T'[j]? = some (.ret (.ok a))) ∧
      (∀ r, (seqLoop ts0 (List.range' i m) σ).1 = r → r ≠ .ok () → 0 < s ∧
        (∃ q, T'[i + s - 1]? = some (.ret q) ∧ failure q = some r) ∧
        ∀ j, i ≤ j → j + 1 < i + s → ∃ a, T'[j]? = some (.ret (.ok a))) ∧
      (∃ s', ((seqLoop ts0 (List.range' i m) σ).2.2.2.map fun t => t.2.1) = List.range' i s' ∧
        (∀ t ∈ (seqLoop ts0 (List.range' i m) σ).2.2.2, t.1 = 0 ∧ T'[t.2.1]? = some (.ret (.ok t.2.2))) ∧
        ((seqLoop ts0 (List.range' i m) σ).1 = .ok () → s' = m))
  | 0, i, T, σ, him, hl, hT =>
    ⟨[], T, 0, rfl, hl, rfl, Nat.le_refl _, fun _ _ => rfl, fun _ _ => by simp,
      fun j h1 h2 => by omega, fun _ => ⟨rfl, fun j h1 h2 => by omega⟩, fun r hr hne => absurd hr.symm hne,
      ⟨0, rfl, by simp [seqLoop], fun _ => rfl⟩⟩
  | m + 1, i, T, σ, him, hl, hT => by
    have hi : i < ts0.length := by omega
    have hTi : T[i]? = some ts0[i] := by rw [hT i (Nat.le_refl _), List.getElem?_eq_getElem hi]
    have hiT : i < T.length := by omega
    obtain ⟨x, hx⟩ := interleave_run i ts0[i] T σ hTi
    rw [List.range'_succ]
    simp only [seqLoop, List.getElem?_eq_getElem hi]
    -- a failing item ends the loop
    have hstop : ∀ (q : Res α) (r : Res Unit) (σ' : Store), run ts0[i] σ = (q, σ') → failure q = some r →
        ∃ is T' s, interleave is (T, σ) = (T', σ') ∧ T'.length = ts0.length ∧
          [((0 : Nat), i)] = (List.range' i s).map (fun j => (0, j)) ∧ s ≤ m + 1 ∧
          (∀ j, j < i → T'[j]? = T[j]?) ∧ (∀ j, j < i ∨ i + s ≤ j → j ∉ is) ∧
          (∀ j, i ≤ j → j < i + s → ∃ r, T'[j]? = some (.ret r)) ∧
          0 < s ∧ (∃ q, T'[i + s - 1]? = some (.ret q) ∧ failure q = some r) ∧
          ∀ j, i ≤ j → j + 1 < i + s → ∃ a, T'[j]? = some (.ret (.ok a)) := by
      intro q r σ' hrun hq
      rw [hrun] at hx
      refine ⟨List.replicate x i, T.set i (.ret q), 1, hx, by simpa using hl, rfl, by omega, ?_, ?_, ?_,
        by omega, ⟨q, by simp [hiT], hq⟩, fun j h1 h2 => by omega⟩
      · intro j hj
        rw [List.getElem?_set, if_neg (by omega)]
      · intro j hj hc
        have := (List.mem_replicate.1 hc).2
        omega
      · intro j h1 h2
        have : j = i := by omega
        subst this
        exact ⟨q, by simp [hiT]⟩
    match hrun : run ts0[i] σ with
    | (.throw e, σ') =>
      obtain ⟨is, T', s, h1, h2, h3, h4, h5, h6, h7, h8, h9, h10⟩ := hstop _ _ _ hrun rfl
      exact ⟨is, T', s, h1, h2, h3, h4, h5, h6, h7, fun h => (by cases h), fun r hr hne => by
        cases hr; exact ⟨h8, h9, h10⟩, ⟨0, rfl, by simp, fun h => by cases h⟩⟩
    | (.ub, σ') =>
      obtain ⟨is, T', s, h1, h2, h3, h4, h5, h6, h7, h8, h9, h10⟩ := hstop _ _ _ hrun rfl
      exact ⟨is, T', s, h1, h2, h3, h4, h5, h6, h7, fun h => (by cases h), fun r hr hne => by
        cases hr; exact ⟨h8, h9, h10⟩, ⟨0, rfl, by simp, fun h => by cases h⟩⟩
    | (.ok a, σ') =>
      rw [hrun] at hx
      dsimp only at hx ⊢
      obtain ⟨is, T', s, h1, h2, h3, h4, h5, h6, h7, h8, h9, s', h10, h11, h12⟩ :=
        seqLoop_spec ts0 m (i + 1) (T.set i (.ret (.ok a))) σ' (by omega) (by simpa using hl) (by
          intro j hj
          rw [List.getElem?_set, if_neg (by omega)]
          exact hT j (by omega))
      have hTi' : T'[i]? = some (.ret (.ok a)) := by rw [h5 i (by omega)]; simp [hiT]
      refine ⟨List.replicate x i ++ is, T', s + 1, ?_, h2, ?_, by omega, ?_, ?_, ?_, ?_, ?_,
        ⟨s' + 1, ?_, ?_, ?_⟩⟩
      · rw [interleave_append, hx, h1]
      · rw [h3, List.range'_succ]; rfl
      · intro j hj
        rw [h5 j (by omega), List.getElem?_set, if_neg (by omega)]
      · intro j hj hc
        rcases List.mem_append.1 hc with hc | hc
        · have := (List.mem_replicate.1 hc).2; omega
        · exact h6 j (by omega) hc
      · intro j hj1 hj2
        by_cases hji : j = i
        · subst hji; exact ⟨_, hTi'⟩
        · exact h7 j (by omega) (by omega)
      · intro hok
        obtain ⟨hs, hall⟩ := h8 hok
        refine ⟨by omega, fun j hj1 hj2 => ?_⟩
        by_cases hji : j = i
        · subst hji; exact ⟨_, hTi'⟩
        · exact hall j (by omega) (by omega)
      · intro r hr hne
        obtain ⟨hs, hq, hall⟩ := h9 r hr hne
        refine ⟨by omega, ?_, fun j hj1 hj2 => ?_⟩
        · rw [show i + (s + 1) - 1 = i + 1 + s - 1 by omega]; exact hq
        · by_cases hji : j = i
          · subst hji; exact ⟨_, hTi'⟩
          · exact hall j (by omega) (by omega)
      · rw [List.map_cons, h10, List.range'_succ]
      · intro t ht
        rcases List.mem_cons.1 ht with rfl | ht
        · exact ⟨rfl, hTi'⟩
        · exact h11 t ht
      · intro hok
        rw [h12 hok]

/-- What is true when `parallel_foreach` is over, for every number of threads. -/
theorem foreachRes_spec {n : Nat} {σ σ' : Store} {r : Res Unit} {log : List (Nat × Nat)}
    {res : List (Nat × Nat × α)} (h : ForeachRes ts n σ r σ' log res) :
    ∃ is T, interleave is (ts, σ) = (T, σ') ∧ (log.map Prod.snd).Nodup ∧ (∀ t ∈ log, t.1 < max 1 n) ∧
      (∀ i ∈ log.map Prod.snd, i < ts.length ∧ ∃ r, T[i]? = some (.ret r)) ∧
      (∀ i, i ∉ log.map Prod.snd → i ∉ is) ∧
      (r = .ok () → ∀ i, i < ts.length → i ∈ log.map Prod.snd ∧ ∃ a, T[i]? = some (.ret (.ok a))) ∧
      (r ≠ .ok () → ∃ i q, T[i]? = some (.ret q) ∧ failure q = some r ∧ i ∈ log.map Prod.snd ∧
        ∀ j, j < i → j ∈ log.map Prod.snd ∧ ∃ a, T[j]? = some (.ret (.ok a))) ∧
      ResOk (max 1 n) T res ∧ (r = .ok () → ∀ i, i < ts.length → i ∈ res.map fun t => t.2.1) := by
  cases h with
  | pool hn hbs hc hd =>
    obtain ⟨is, T, h1, h2, h3, h4, h5, h6, h7, h8, h9⟩ := foreach_done hbs hc hd
    exact ⟨is, T, h1, h2, fun t ht => by have := h3 t ht; omega, h4, h5, h6, fun hne => h7 _ rfl hne,
      ⟨h8.1, fun t ht => ⟨by have := (h8.2 t ht).1; omega, (h8.2 t ht).2⟩⟩, h9⟩
  | seq hn hs =>
    obtain ⟨is, T, s, h1, h2, h3, h4, h5, h6, h7, h8, h9, s', h10, h11, h12⟩ :=
      seqLoop_spec ts ts.length 0 ts σ (by omega) rfl (fun _ _ => rfl)
    rw [← List.range_eq_range'] at h1 h3 h8 h9 h10 h11 h12
    rw [hs] at h1 h3 h8 h9 h10 h11 h12
    dsimp only at h1 h3 h8 h9 h10 h11 h12
    have hlog : log.map Prod.snd = List.range s := by
      rw [h3, List.map_map, List.range_eq_range']
      conv => rhs; rw [← List.map_id (List.range' 0 s)]
      rfl
    refine ⟨is, T, h1, by rw [hlog]; exact List.nodup_range, ?_, ?_, ?_, ?_, ?_,
      ⟨by rw [h10]; exact List.nodup_range', fun t ht => ⟨by have := (h11 t ht).1; omega, (h11 t ht).2⟩⟩, ?_⟩
    · intro t ht
      rw [h3] at ht
      obtain ⟨j, _, rfl⟩ := List.mem_map.1 ht
      show 0 < max 1 n
      omega
    · rw [hlog]
      intro i hi
      have hi' : i < s := by simpa using hi
      exact ⟨by omega, h7 i (by omega) (by omega)⟩
    · rw [hlog]
      intro i hi
      have hi' : s ≤ i := by simpa using hi
      exact h6 i (by omega)
    · rw [hlog]
      intro hok i hi
      obtain ⟨hs', hall⟩ := h8 hok
      exact ⟨by simpa [hs'] using hi, hall i (by omega) (by omega)⟩
    · rw [hlog]
      intro hne
      obtain ⟨hpos, ⟨q, hq1, hq2⟩, hall⟩ := h9 r rfl hne
      refine ⟨s - 1, q, by simpa using hq1, hq2, by simp; omega, fun j hj => ⟨by simp; omega, ?_⟩⟩
      exact hall j (by omega) (by omega)
    · intro hok i hi
      rw [h10, h12 hok, ← List.range_eq_range']
      simpa using hi

/-- The same without the results. -/
theorem foreach_spec {n : Nat} {σ σ' : Store} {r : Res Unit} {log : List (Nat × Nat)}
    (h : Foreach ts n σ r σ' log) :
    ∃ is T, interleave is (ts, σ) = (T, σ') ∧ (log.map Prod.snd).Nodup ∧ (∀ t ∈ log, t.1 < max 1 n) ∧
      (∀ i ∈ log.map Prod.snd, i < ts.length ∧ ∃ r, T[i]? = some (.ret r)) ∧
      (∀ i, i ∉ log.map Prod.snd → i ∉ is) ∧
      (r = .ok () → ∀ i, i < ts.length → i ∈ log.map Prod.snd ∧ ∃ a, T[i]? = some (.ret (.ok a))) ∧
      (r ≠ .ok () → ∃ i q, T[i]? = some (.ret q) ∧ failure q = some r ∧ i ∈ log.map Prod.snd ∧
        ∀ j, j < i → j ∈ log.map Prod.snd ∧ ∃ a, T[j]? = some (.ret (.ok a))) := by
  obtain ⟨res, h⟩ := h
  obtain ⟨is, T, h1, h2, h3, h4, h5, h6, h7, _⟩ := foreachRes_spec h
  exact ⟨is, T, h1, h2, h3, h4, h5, h6, h7⟩

end Z5.Pool
