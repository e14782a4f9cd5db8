import Verif.Proofs.Concurrent
import Verif.Props.Steps
import Verif.Props.FileStore

/-!
# C76: processes that work on different nodes do not disturb each other

Processes make calls on a container at the same time, one access to the file system after the other, in any order.
-/

namespace Z5.Props
open Z5 Spec

/-- **C76.**  A process that works alone does what its calls do, one after the other. -/
theorem c76_alone (D : Disk) (cs : List Call) {σ : Fs} (h : σ [] = some .dir) : (process D cs).run σ = inTurn cs σ :=
  (Runs.process D cs σ h).1

theorem writes_touches {c : Call} {q : Path} (h : c.writes q) : c.touches q := by
  rcases h.2 with ⟨-, h⟩ | h
  · exact ⟨_, .inl rfl, .inl h⟩
  · exact ⟨_, .inl rfl, .inr h⟩

theorem filter_eq_replicate {α : Type} [BEq α] [LawfulBEq α] (a : α) : ∀ l : List α, l.filter (fun i => i == a) = List.replicate (l.count a) a
  | [] => rfl
  | x :: l => by
    by_cases h : x = a
    · subst h
      rw [List.filter_cons_of_pos (by simp), List.count_cons_self, List.replicate_succ, filter_eq_replicate]
    · rw [List.filter_cons_of_neg (by simpa using h), List.count_cons_of_ne h, filter_eq_replicate]

theorem apart_alone {D : Disk} {ps : List (List Call)} {σ : Fs}
    (hready : ∀ cs ∈ ps, ∀ c ∈ cs, c.Ready σ)
    (hap : ∀ (i j : Nat) (cs cs' : List Call), i ≠ j → ps[i]? = some cs → ps[j]? = some cs' → ∀ c ∈ cs, ∀ c' ∈ cs', c.Apart c')
    (is : List Nat) :
    let s := FsProg.interleave is (ps.map (process D), σ)
    (∀ q, (∀ cs ∈ ps, ∀ c ∈ cs, ¬ c.writes q) → s.2 q = σ q) ∧
    ∀ (i : Nat) (cs : List Call), ps[i]? = some cs →
      let s' := FsProg.interleave (List.replicate (is.count i) i) (ps.map (process D), σ)
      s.1[i]? = s'.1[i]? ∧ ∀ c ∈ cs, ∀ q, c.touches q → s.2 q = s'.2 q := by
  intro s
  let S : Path → Prop := fun q => ∃ cs ∈ ps, ∃ c ∈ cs, c.creates = true ∧ q <+: c.node ∧ q ≠ c.node
  let R : Nat → Path → Prop := fun i q => ∃ cs, ps[i]? = some cs ∧ ∃ c ∈ cs, c.touches q
  let W : Nat → Path → Prop := fun i q => ∃ cs, ps[i]? = some cs ∧ ∃ c ∈ cs, c.writes q
  have hI : Dirs S σ := by
    rintro q ⟨cs, hcs, c, hc, h1, h2, h3⟩
    exact hready cs hcs c hc h1 q h2 h3
  have hl : FsProg.LocalAll (Dirs S) id R W (ps.map (process D)) := by
    intro i t ht
    rw [List.getElem?_map] at ht
    cases e : ps[i]? with
    | none => rw [e] at ht; cases ht
    | some cs =>
      rw [e] at ht
      cases ht
      have hm := List.mem_of_getElem? e
      exact .process D (fun c hc q h => ⟨cs, e, c, hc, h⟩) (fun c hc q h => ⟨cs, e, c, hc, h⟩)
        fun c hc h1 q h2 h3 => ⟨cs, hm, c, hc, h1, h2, h3⟩
  have happ : ∀ g g', g ≠ g' → ∀ q, W g q → ¬ R g' q := by
    rintro g g' hne q ⟨cs, e, c, hc, h⟩ ⟨cs', e', c', hc', h'⟩
    exact (hap g g' cs cs' hne e e' c hc c' hc' q).1 ⟨h, h'⟩
  refine ⟨fun q hq => ?_, fun i cs hi => ?_⟩
  · refine (FsProg.LocalAll.interleave is hl hI).2.2 q fun i _ => ?_
    rintro ⟨cs, e, c, hc, h⟩
    exact hq cs (List.mem_of_getElem? e) c hc h
  · obtain ⟨h1, h2⟩ := FsProg.interleave_apart happ i is hl hl hI hI rfl (fun _ _ => rfl) (Fs.Agree.refl _ σ)
    have hf : is.filter (fun j => decide (id j = i)) = List.replicate (is.count i) i := by
      rw [← filter_eq_replicate]
      rfl
    rw [hf] at h1 h2
    exact ⟨h1 i rfl, fun c hc q hq => h2 q ⟨cs, hi, c, hc, hq⟩⟩

/-- **C76.**  Processes of which none writes what another one looks at.  At every moment of every schedule: what no call writes is
    as before; what a process looks at is as if it had made its steps alone (so it does not matter when other processes are
    killed); and if it has come to its end, it has the results that it has alone. -/
theorem c76_apart {D : Disk} {ps : List (List Call)} {σ : Fs} (h0 : σ [] = some .dir)
    (hready : ∀ cs ∈ ps, ∀ c ∈ cs, c.Ready σ)
    (hap : ∀ (i j : Nat) (cs cs' : List Call), i ≠ j → ps[i]? = some cs → ps[j]? = some cs' → ∀ c ∈ cs, ∀ c' ∈ cs', c.Apart c')
    (is : List Nat) :
    let s := FsProg.interleave is (ps.map (process D), σ)
    (∀ q, (∀ cs ∈ ps, ∀ c ∈ cs, ¬ c.writes q) → s.2 q = σ q) ∧
    ∀ (i : Nat) (cs : List Call), ps[i]? = some cs →
      (∀ c ∈ cs, ∀ q, c.touches q → s.2 q = (process D cs).crash (is.count i) σ q) ∧
      ∀ r, s.1[i]? = some (.ret r) → r = (inTurn cs σ).1 ∧ ∀ c ∈ cs, ∀ q, c.touches q → s.2 q = (inTurn cs σ).2 q := by
  intro s
  obtain ⟨h1, h2⟩ := apart_alone (D := D) hready hap is
  refine ⟨h1, fun i cs hi => ?_⟩
  obtain ⟨h3, h4⟩ := h2 i cs hi
  have hti : (ps.map (process D))[i]? = some (process D cs) := by rw [List.getElem?_map, hi]; rfl
  obtain ⟨h5, h6⟩ := FsProg.interleave_alone (is.count i) σ hti
  have h7 : ∀ c ∈ cs, ∀ q, c.touches q → s.2 q = (process D cs).crash (is.count i) σ q := fun c hc q hq => by
    rw [← h5]
    exact h4 c hc q hq
  refine ⟨h7, fun r hr => ?_⟩
  have h8 := h6 r (by rw [← h3]; exact hr)
  rw [c76_alone D cs h0] at h8
  exact ⟨by rw [h8], fun c hc q hq => by rw [h7 c hc q hq, h8]⟩

/-- **C76.**  No process waits for another one: after enough steps of its own it has come to its end, whatever the others do. -/
theorem c76_finishes {D : Disk} {ps : List (List Call)} {σ : Fs} (h0 : σ [] = some .dir)
    (hready : ∀ cs ∈ ps, ∀ c ∈ cs, c.Ready σ)
    (hap : ∀ (i j : Nat) (cs cs' : List Call), i ≠ j → ps[i]? = some cs → ps[j]? = some cs' → ∀ c ∈ cs, ∀ c' ∈ cs', c.Apart c')
    {i : Nat} {cs : List Call} (hi : ps[i]? = some cs) :
    ∃ n, ∀ is : List Nat, n ≤ is.count i →
      (FsProg.interleave is (ps.map (process D), σ)).1[i]? = some (.ret (inTurn cs σ).1) := by
  obtain ⟨n, hn⟩ := FsProg.interleave_finishes (i := i) (process D cs) σ
  refine ⟨n, fun is his => ?_⟩
  have hti : (ps.map (process D))[i]? = some (process D cs) := by rw [List.getElem?_map, hi]; rfl
  rw [((apart_alone (D := D) hready hap is).2 i cs hi).1, hn _ his _ hti, c76_alone D cs h0]

/-- **C76.**  Which calls are such: if a call that changes a node is on another node than the other call, and the other call does
    not go through the node it changes.  (No node has the name of a document.) -/
theorem c76_different_nodes {c c' : Call}
    (hn : ∀ name ∈ documentNames, name ∉ c.node ∧ name ∉ c.via ∧ name ∉ c'.node ∧ name ∉ c'.via)
    (h : c.modifies = true → c.node ≠ c'.node ∧ c.node ≠ c'.via)
    (h' : c'.modifies = true → c'.node ≠ c.node ∧ c'.node ≠ c.via) : c.Apart c' := by
  have key : ∀ {c c' : Call}, (∀ name ∈ documentNames, name ∉ c.node ∧ name ∉ c'.node ∧ name ∉ c'.via) →
      (c.modifies = true → c.node ≠ c'.node ∧ c.node ≠ c'.via) → ∀ q, ¬ (c.writes q ∧ c'.touches q) := by
    rintro c c' hn h q ⟨⟨hm, hw⟩, p, hp, ht⟩
    obtain ⟨h1, h2⟩ := h hm
    have hne : c.node ≠ p := by rcases hp with rfl | rfl <;> assumption
    have hnp : ∀ name ∈ documentNames, name ∉ p := fun n hx => by
      rcases hp with rfl | rfl
      · exact (hn n hx).2.1
      · exact (hn n hx).2.2
    rcases hw with ⟨-, rfl⟩ | ⟨n, hnm, rfl⟩
    · rcases ht with ht | ⟨m, hm, ht⟩
      · exact hne ht
      · exact (hn m hm).1 (by rw [ht]; simp)
    · rcases ht with ht | ⟨m, hm, ht⟩
      · exact hnp n hnm (by rw [← ht]; simp)
      · exact hne (List.append_inj' ht rfl).1
  exact fun q => ⟨key (fun n hx => ⟨(hn n hx).1, (hn n hx).2.2.1, (hn n hx).2.2.2⟩) h q,
    key (fun n hx => ⟨(hn n hx).2.2.1, (hn n hx).1, (hn n hx).2.1⟩) h' q⟩

/-! ### attributes -/

/-- One process creates a group, another one a dataset with an attribute. -/
def exProcesses : List (List Call) :=
  [[.createGroup exRoot ["g"] 2],
    [.createDataset exRoot ["d"] exArgs, .change (.dataset ⟨["d"], .a, ".", 2, "default", none⟩) (.write (.obj [("b", .int 2)]))]]

theorem exProcesses_ready : ∀ cs ∈ exProcesses, ∀ c ∈ cs, c.Ready exZarr := by
  have e : ∀ (x : String) (q : Path), q <+: [] ++ [x] → q ≠ [] ++ [x] → exZarr q = some .dir := by
    intro x q h1 h2
    rcases List.prefix_concat_iff.1 h1 with h | h
    · exact absurd h h2
    · rw [List.prefix_nil.1 h]; rfl
  intro cs hcs c hc
  simp only [exProcesses, List.mem_cons, List.not_mem_nil, or_false] at hcs
  rcases hcs with rfl | rfl
  · simp only [List.mem_cons, List.not_mem_nil, or_false] at hc
    rw [hc]
    exact fun _ => e "g"
  · simp only [List.mem_cons, List.not_mem_nil, or_false] at hc
    rcases hc with rfl | rfl
    · exact fun _ => e "d"
    · exact fun h => by cases h

theorem exProcesses_apart (i j : Nat) (cs cs' : List Call) (hij : i ≠ j) (hi : exProcesses[i]? = some cs) (hj : exProcesses[j]? = some cs') :
    ∀ c ∈ cs, ∀ c' ∈ cs', c.Apart c' := by
  have h : ∀ c ∈ exProcesses[1], ∀ c' ∈ exProcesses[0], c'.Apart c := by
    intro c hc c' hc'
    simp only [exProcesses, List.mem_cons, List.not_mem_nil, or_false, List.getElem_cons_zero, List.getElem_cons_succ] at hc hc'
    subst hc'
    rcases hc with rfl | rfl <;> exact c76_different_nodes (by decide +kernel) (by decide +kernel) (by decide +kernel)
  match i, j with
  | 0, 0 => exact absurd rfl hij
  | 0, 1 => cases hi; cases hj; exact fun c hc c' hc' => h c' hc' c hc
  | 1, 0 => cases hi; cases hj; exact fun c hc c' hc' q => (h c hc c' hc' q).symm
  | 1, 1 => exact absurd rfl hij
  | 0, _ + 2 | 1, _ + 2 => cases hj
  | _ + 2, _ => cases hi

/-- The other process is killed in the middle; the dataset is there, with its attribute. -/
example (is : List Nat) : ∃ n, n ≤ is.count 1 →
    (FsProg.interleave is (exProcesses.map (process exDisk), exZarr)).1[1]? = some (.ret (inTurn exProcesses[1] exZarr).1) := by
  obtain ⟨n, h⟩ := c76_finishes (D := exDisk) (σ := exZarr) rfl exProcesses_ready exProcesses_apart (i := 1) rfl
  exact ⟨n, h is⟩

/-- All its calls succeed. -/
example : (match (inTurn exProcesses[1] exZarr).1 with | .ok [.ok (.dataset _), .ok .done] => true | _ => false) = true := by decide +kernel

theorem inTurn_changes {t : Target} {L : Layout} (hw : t.mode.canWrite = true) : ∀ {ops : List AttrOp} {σ : Fs},
    t.Refers σ L → (∀ op ∈ ops, op.Valid) → (inTurn (ops.map (.change t)) σ).2 = t.changes ops σ
  | [], _, _, _ => rfl
  | op :: ops, σ, h, hv => by
    have ih := fun σ' (h : t.Refers σ' L) => inTurn_changes hw h fun o ho => hv o (List.mem_cons_of_mem _ ho)
    obtain ⟨h1, h2⟩ := c29_change hw h (hv op (by simp))
    have key : ∀ r σ', t.change op σ = (r, σ') → r ≠ .ub → t.Refers σ' L →
        (inTurn ((op :: ops).map (.change t)) σ).2 = t.changes ops σ' := by
      intro r σ' e hr hσ
      have e1 : (Call.alone (.change t op)).attempt σ = (.ok ((fun _ => Answer.done) <$> r), σ') := by
        unfold FsM.attempt Call.alone
        dsimp only
        rw [FsM.bind_run, e]
        cases r with
        | ok u => rfl
        | throw x => rfl
        | ub => exact absurd rfl hr
      rw [List.map_cons, inTurn, FsM.bind_run, e1]
      dsimp only
      rw [FsM.bind_run, ← ih σ' hσ]
      rcases inTurn (ops.map (.change t)) σ' with ⟨x, y⟩
      cases x <;> rfl
    show _ = t.changes ops (t.change op σ).2
    cases hn : op.names (t.locked L) with
    | true =>
      rw [key _ _ (h1 hn) (by simp) h, h1 hn]
    | false =>
      obtain ⟨σ', e, _, hr⟩ := h2 hn
      rw [key _ _ e (by simp) hr, e]

/-- the node looks the same -/
theorem refers_agree {t : Target} {L : Layout} {σ σ' : Fs} (h : t.Refers σ L)
    (hd : σ' t.path = σ t.path) (hdoc : ∀ name ∈ documentNames, σ' (t.path ++ [name]) = σ (t.path ++ [name])) :
    t.Refers σ' L ∧ σ'.attributes t.path L = σ.attributes t.path L := by
  have hL : L.file ∈ documentNames := by cases L <;> decide
  refine ⟨⟨⟨?_, ?_, ?_, ?_⟩, ?_, ?_⟩, ?_⟩
  · rw [hd]; exact h.node.dir
  · rw [hdoc _ hL]; exact h.node.doc
  · rw [hdoc _ (by decide)]; exact h.node.v3
  · rw [hdoc _ (by decide)]; exact h.node.v2
  · have hz := congrArg Prod.fst h.zarr
    cases t with
    | group g =>
      show g.isZarr σ' = _
      change (g.isZarr σ).1 = _ at hz
      dsimp only [Target.path] at hd hdoc
      rw [group_isZarr] at hz ⊢
      rw [hd, hdoc _ (by decide), hdoc _ (by decide)]
      exact Prod.ext hz rfl
    | file g =>
      show g.isZarr σ' = _
      change (g.isZarr σ).1 = _ at hz
      dsimp only [Target.path] at hd hdoc
      rw [group_isZarr] at hz ⊢
      rw [hd, hdoc _ (by decide), hdoc _ (by decide)]
      exact Prod.ext hz rfl
    | dataset d =>
      show d.isZarr σ' = _
      change (d.isZarr σ).1 = _ at hz
      dsimp only [Target.path] at hd hdoc
      rw [dataset_isZarr] at hz ⊢
      rw [hd, hdoc _ (by decide), hdoc _ (by decide)]
      exact Prod.ext hz rfl
  · rw [hdoc _ (by decide)]; exact h.dataset
  · unfold Fs.attributes Fs.docAt
    rw [hdoc _ hL, hdoc _ (by decide)]

/-- **C76.**  Processes that change the attributes of different nodes: when they have finished, under whatever schedule, the
    attributes of each node are those of its own changes. -/
theorem c76_attributes {D : Disk} {work : List (Target × List AttrOp)} {σ : Fs} (h0 : σ [] = some .dir)
    (hn : ∀ w ∈ work, ∀ name ∈ documentNames, name ∉ w.1.path) (hd : (work.map fun w => w.1.path).Nodup)
    (hw : ∀ w ∈ work, w.1.mode.canWrite = true ∧ ∀ op ∈ w.2, op.Valid) (is : List Nat) {rs : List (Res (List (Res Answer)))}
    (hfin : FsProg.Finished (FsProg.interleave is (work.map fun w => process D (w.2.map (.change w.1)), σ)).1 rs) :
    let σ' := (FsProg.interleave is (work.map fun w => process D (w.2.map (.change w.1)), σ)).2
    ∀ w ∈ work, ∀ L, w.1.Refers σ L →
      ∃ j, w.1.read σ' = (.ok j, σ') ∧ ∀ k, j.find k = w.1.shown L (w.1.replay L w.2 (σ.attributes w.1.path L)) k := by
  have hmap : (work.map fun w => process D (w.2.map (.change w.1)))
      = (work.map fun w => w.2.map (Call.change w.1)).map (process D) := by
    rw [List.map_map]
    rfl
  rw [hmap] at hfin ⊢
  intro σ' w hwm L hL
  have hcall : ∀ cs ∈ work.map (fun w => w.2.map (Call.change w.1)), ∀ c ∈ cs, ∃ w ∈ work, ∃ op ∈ w.2, c = .change w.1 op := by
    intro cs hcs c hc
    obtain ⟨w, hw, rfl⟩ := List.mem_map.1 hcs
    obtain ⟨op, ho, rfl⟩ := List.mem_map.1 hc
    exact ⟨w, hw, op, ho, rfl⟩
  have hget : ∀ (i : Nat) cs, (work.map fun w => w.2.map (Call.change w.1))[i]? = some cs →
      ∃ w, work[i]? = some w ∧ cs = w.2.map (Call.change w.1) := by
    intro i cs h
    rw [List.getElem?_map] at h
    cases e : work[i]? with
    | none => rw [e] at h; cases h
    | some w => rw [e] at h; cases h; exact ⟨w, rfl, rfl⟩
  have happ : ∀ (i j : Nat) (cs cs' : List Call), i ≠ j → (work.map fun w => w.2.map (Call.change w.1))[i]? = some cs →
      (work.map fun w => w.2.map (Call.change w.1))[j]? = some cs' → ∀ c ∈ cs, ∀ c' ∈ cs', c.Apart c' := by
    intro i j cs cs' hij hi hj c hc c' hc'
    obtain ⟨w, ew, rfl⟩ := hget i cs hi
    obtain ⟨w', ew', rfl⟩ := hget j cs' hj
    obtain ⟨op, _, rfl⟩ := List.mem_map.1 hc
    obtain ⟨op', _, rfl⟩ := List.mem_map.1 hc'
    have hne : w.1.path ≠ w'.1.path := by
      intro e
      refine hij ((List.getElem?_inj ?_ hd).1 ?_)
      · rw [List.length_map]; exact (List.getElem?_eq_some_iff.1 ew).1
      · rw [List.getElem?_map, List.getElem?_map, ew, ew']
        exact congrArg some e
    have h1 := hn w (List.mem_of_getElem? ew)
    have h2 := hn w' (List.mem_of_getElem? ew')
    exact c76_different_nodes (fun n hx => ⟨h1 n hx, h1 n hx, h2 n hx, h2 n hx⟩) (fun _ => ⟨hne, hne⟩)
      fun _ => ⟨hne.symm, hne.symm⟩
  obtain ⟨hA, hB⟩ := c76_apart (D := D) h0 (fun cs hcs c hc => by
    obtain ⟨_, _, _, _, rfl⟩ := hcall cs hcs c hc
    exact fun h => by cases h) happ is
  obtain ⟨i, hi, hiw⟩ := List.getElem_of_mem hwm
  have hi' : (work.map fun w => w.2.map (Call.change w.1))[i]? = some (w.2.map (Call.change w.1)) := by
    rw [List.getElem?_map, List.getElem?_eq_getElem hi, hiw]
    rfl
  obtain ⟨_, hC⟩ := hB i _ hi'
  -- the files of the node
  have hsame : ∀ q, (q = w.1.path ∨ ∃ name ∈ documentNames, q = w.1.path ++ [name]) → σ' q = w.1.changes w.2 σ q := by
    intro q hq
    cases hops : w.2 with
    | nil =>
      show σ' q = σ q
      refine hA q fun cs hcs c hc hwr => ?_
      obtain ⟨w', hw', op, ho, rfl⟩ := hcall cs hcs c hc
      by_cases e : w'.1.path = w.1.path
      · have hww : w' = w := by
          obtain ⟨j, hj, hjw⟩ := List.getElem_of_mem hw'
          have : j = i := (List.getElem?_inj (i := j) (j := i) (by rw [List.length_map]; exact hj) hd).1 (by
            rw [List.getElem?_map, List.getElem?_map, List.getElem?_eq_getElem hj, List.getElem?_eq_getElem hi, hjw, hiw]
            exact congrArg some e)
          subst this
          exact hjw.symm.trans hiw
        subst hww
        rw [hops] at ho
        cases ho
      · have := c76_different_nodes (c := .change w'.1 op) (c' := .read w.1)
          (fun n hx => ⟨hn _ hw' n hx, hn _ hw' n hx, hn _ hwm n hx, hn _ hwm n hx⟩) (fun _ => ⟨e, e⟩) (fun h => by cases h)
        exact (this q).1 ⟨hwr, _, .inl rfl, hq⟩
    | cons op ops =>
      have hlen := congrArg List.length hfin
      rw [List.length_map, List.length_map] at hlen
      have hri : (FsProg.interleave is (((work.map fun w => w.2.map (Call.change w.1)).map (process D)), σ)).1[i]?.map FsProg.outcome
          = (rs[i]?).map some := by
        rw [← List.getElem?_map, ← List.getElem?_map]
        exact congrArg (·[i]?) hfin
      have hlt : i < (FsProg.interleave is (((work.map fun w => w.2.map (Call.change w.1)).map (process D)), σ)).1.length := by
        rw [FsProg.length_interleave, List.length_map, List.length_map]; exact hi
      rw [List.getElem?_eq_getElem hlt, List.getElem?_eq_getElem (by omega)] at hri
      have hret : (FsProg.interleave is (((work.map fun w => w.2.map (Call.change w.1)).map (process D)), σ)).1[i]?
          = some (.ret (rs[i]'(by omega))) := by
        rw [List.getElem?_eq_getElem hlt]
        generalize (FsProg.interleave is (((work.map fun w => w.2.map (Call.change w.1)).map (process D)), σ)).1[i] = t at hri
        cases t with
        | ret r => injection hri with e; injection e with e; rw [e]
        | act f c => injection hri with e; cases e
      rw [← hops, ← inTurn_changes (hw w hwm).1 hL (hw w hwm).2]
      exact (hC _ hret).2 (.change w.1 op) (by rw [hops]; simp) q ⟨_, .inl rfl, hq⟩
  obtain ⟨h1, h2, _⟩ := c29_history (hw w hwm).1 hL (hw w hwm).2
  obtain ⟨h3, h4⟩ := refers_agree (σ' := σ') h2 (hsame _ (.inl rfl)) fun n hx => hsame _ (.inr ⟨n, hx, rfl⟩)
  obtain ⟨j, e, hj⟩ := Target.read_ok h3
  exact ⟨j, e, fun k => by rw [hj, h4, h1.attributes]⟩

/-! ### chunks -/

/-- **C76.**  Tasks that read and write chunks of a dataset, while processes make calls that look at no chunk (for example change
    the attributes of this dataset).  At every moment of every schedule: the tasks, and the chunks and the directories they are
    in, are as if the tasks had made their steps without the processes; and each process is as if it had made its steps
    alone. -/
theorem c76_chunks {α : Type} {D : Disk} {p : Path} {nested : Bool} {K : Key → Prop} {ts : List (Prog α)} {ps : List (List Call)}
    {σ : Fs} (hw : ∀ t ∈ ts, t.Within K) (h0 : ∀ q, q <+: p → σ q = some .dir) (hready : ∀ cs ∈ ps, ∀ c ∈ cs, c.Ready σ)
    (hap : ∀ (i j : Nat) (cs cs' : List Call), i ≠ j → ps[i]? = some cs → ps[j]? = some cs' → ∀ c ∈ cs, ∀ c' ∈ cs', c.Apart c')
    (havoid : ∀ cs ∈ ps, ∀ c ∈ cs, ∀ q, c.touches q → ¬ OnWay p K q) (is : List Nat) :
    let files := ts.map (·.onFiles p nested)
    let s := FsProg.interleave is (together files (ps.map (process D)), σ)
    let s' := FsProg.interleave (is.filter fun i => i < ts.length) (files, σ)
    (∀ q, OnWay p K q ∨ q <+: p → s.2 q = s'.2 q) ∧
    (∀ i, i < ts.length → s.1[i]? = (s'.1[i]?).map (·.as .inl)) ∧
    ∀ (i : Nat) (cs : List Call), ps[i]? = some cs →
      (∀ c ∈ cs, ∀ q, c.touches q → s.2 q = (process D cs).crash (is.count (ts.length + i)) σ q) ∧
      ∀ r, s.1[ts.length + i]? = some (.ret r) → r = .inr <$> (inTurn cs σ).1 ∧
        ∀ c ∈ cs, ∀ q, c.touches q → s.2 q = (inTurn cs σ).2 q := by
  intro files s s'
  let n := ts.length
  let S : Path → Prop := fun q => q <+: p ∨ ∃ cs ∈ ps, ∃ c ∈ cs, c.creates = true ∧ q <+: c.node ∧ q ≠ c.node
  let grp : Nat → Nat := fun i => if i < n then 0 else i - n + 1
  let R : Nat → Path → Prop := fun g q => match g with
    | 0 => OnWay p K q
    | i + 1 => ∃ cs, ps[i]? = some cs ∧ ∃ c ∈ cs, c.touches q
  let W : Nat → Path → Prop := fun g q => match g with
    | 0 => OnWay p K q
    | i + 1 => ∃ cs, ps[i]? = some cs ∧ ∃ c ∈ cs, c.writes q
  have hflen : files.length = n := List.length_map _
  have hI : Dirs S σ := by
    rintro q (h | ⟨cs, hcs, c, hc, h1, h2, h3⟩)
    · exact h0 q h
    · exact hready cs hcs c hc h1 q h2 h3
  have hl : FsProg.LocalAll (Dirs S) grp R W (together files (ps.map (process D))) := by
    intro i t ht
    unfold together at ht
    by_cases hi : i < n
    · rw [List.getElem?_append_left (by rw [List.length_map, hflen]; exact hi), List.getElem?_map, List.getElem?_map] at ht
      cases e : ts[i]? with
      | none => rw [e] at ht; cases ht
      | some x =>
        rw [e] at ht
        cases ht
        have : grp i = 0 := if_pos hi
        rw [this]
        exact (FsProg.Local.onFiles (fun q h => .inl h) (fun q h => h) (fun q h => h) (hw x (List.mem_of_getElem? e))).as _
    · rw [List.getElem?_append_right (by rw [List.length_map, hflen]; omega), List.length_map, hflen, List.getElem?_map,
        List.getElem?_map] at ht
      cases e : ps[i - n]? with
      | none => rw [e] at ht; cases ht
      | some cs =>
        rw [e] at ht
        cases ht
        have : grp i = i - n + 1 := if_neg hi
        rw [this]
        have hm := List.mem_of_getElem? e
        exact (FsProg.Local.process D (fun c hc q h => ⟨cs, e, c, hc, h⟩) (fun c hc q h => ⟨cs, e, c, hc, h⟩)
          fun c hc h1 q h2 h3 => .inr ⟨cs, hm, c, hc, h1, h2, h3⟩).as _
  have happ : ∀ g g', g ≠ g' → ∀ q, W g q → ¬ R g' q := by
    intro g g' hne q hwq hrq
    cases g with
    | zero => cases g' with
      | zero => exact hne rfl
      | succ j =>
        obtain ⟨cs, e, c, hc, h⟩ := hrq
        exact havoid cs (List.mem_of_getElem? e) c hc q h hwq
    | succ i =>
      obtain ⟨cs, e, c, hc, h⟩ := hwq
      cases g' with
      | zero => exact havoid cs (List.mem_of_getElem? e) c hc q (writes_touches h) hrq
      | succ j =>
        obtain ⟨cs', e', c', hc', h'⟩ := hrq
        exact (hap i j cs cs' (fun e => hne (congrArg _ e)) e e' c hc c' hc' q).1 ⟨h, h'⟩
  have hin : ∀ is, Dirs S (FsProg.interleave is (together files (ps.map (process D)), σ)).2 := fun is =>
    (FsProg.LocalAll.interleave is hl hI).2.1
  refine ⟨?_, ?_, fun i cs hi => ?_⟩
  · obtain ⟨h1, h2⟩ := FsProg.interleave_apart happ 0 is hl hl hI hI rfl (fun _ _ => rfl) (Fs.Agree.refl _ σ)
    have hf : is.filter (fun j => decide (grp j = 0)) = is.filter fun i => decide (i < ts.length) := by
      refine List.filter_congr fun j _ => ?_
      show decide ((if j < ts.length then 0 else j - ts.length + 1) = 0) = _
      by_cases hj : j < ts.length <;> simp [hj]
    rw [hf] at h2
    have hjs : ∀ j ∈ is.filter (fun i => decide (i < ts.length)), j < files.length := fun j hj => by
      rw [hflen]
      simpa using (List.mem_filter.1 hj).2
    have h3 := FsProg.interleave_together (us := ps.map (process D)) (ts := files) (σ := σ) _ hjs
    have h4 := hin (is.filter fun i => decide (i < ts.length))
    rw [h3] at h2 h4
    rintro q (hq | hq)
    · exact h2 q hq
    · rw [hin is q (.inl hq), h4 q (.inl hq)]
  · intro i hi
    obtain ⟨h1, h2⟩ := FsProg.interleave_apart happ 0 is hl hl hI hI rfl (fun _ _ => rfl) (Fs.Agree.refl _ σ)
    have hf : is.filter (fun j => decide (grp j = 0)) = is.filter fun i => decide (i < ts.length) := by
      refine List.filter_congr fun j _ => ?_
      show decide ((if j < ts.length then 0 else j - ts.length + 1) = 0) = _
      by_cases hj : j < ts.length <;> simp [hj]
    rw [hf] at h1
    have hjs : ∀ j ∈ is.filter (fun i => decide (i < ts.length)), j < files.length := fun j hj => by
      rw [hflen]
      simpa using (List.mem_filter.1 hj).2
    have h3 := FsProg.interleave_together (us := ps.map (process D)) (ts := files) (σ := σ) _ hjs
    rw [h3] at h1
    refine (h1 i (if_pos hi)).trans ?_
    show (together s'.1 _)[i]? = _
    unfold together
    have hl' : s'.1.length = n := (FsProg.length_interleave _ _).trans hflen
    rw [List.getElem?_append_left (by rw [List.length_map, hl']; exact hi), List.getElem?_map]
  · obtain ⟨h1, h2⟩ := FsProg.interleave_apart happ (i + 1) is hl hl hI hI rfl (fun _ _ => rfl) (Fs.Agree.refl _ σ)
    have hf : is.filter (fun j => decide (grp j = i + 1)) = List.replicate (is.count (ts.length + i)) (ts.length + i) := by
      rw [← filter_eq_replicate]
      refine List.filter_congr fun j _ => ?_
      show decide ((if j < ts.length then 0 else j - ts.length + 1) = i + 1) = decide (j = ts.length + i)
      by_cases hj : j < ts.length
      · have : j ≠ ts.length + i := by omega
        simp [hj, this]
      · have : (j - ts.length = i) ↔ (j = ts.length + i) := by omega
        simp [hj, this]
    rw [hf] at h1 h2
    have hti : (together files (ps.map (process D)))[ts.length + i]? = some ((process D cs).as .inr) := by
      unfold together
      rw [List.getElem?_append_right (by rw [List.length_map, hflen]; exact Nat.le_add_right _ _), List.length_map, hflen,
        List.getElem?_map, List.getElem?_map, Nat.add_sub_cancel_left, hi]
      rfl
    obtain ⟨h3, h4⟩ := FsProg.interleave_alone (is.count (ts.length + i)) σ hti
    rw [FsProg.crash_as] at h3 h4
    have h5 : ∀ c ∈ cs, ∀ q, c.touches q → s.2 q = (process D cs).crash (is.count (ts.length + i)) σ q := fun c hc q hq => by
      rw [← h3]
      exact h2 q ⟨cs, hi, c, hc, hq⟩
    refine ⟨h5, fun r hr => ?_⟩
    have hg : grp (ts.length + i) = i + 1 := by
      show (if ts.length + i < ts.length then 0 else ts.length + i - ts.length + 1) = i + 1
      rw [if_neg (by omega)]
      omega
    have h6 := h4 r (by rw [← h1 _ hg]; exact hr)
    rw [FsProg.run_as, c76_alone D cs (h0 [] (List.nil_prefix))] at h6
    injection h6 with h6 h7
    exact ⟨h6.symm, fun c hc q hq => by rw [h5 c hc q hq, h7]⟩

variable {E : Elem} {d : AnyDataset E} {p : Path}

theorem keyNames_head (x : Char) (hx : x ≠ '/') : ∀ (l : Key) (acc : List Char), ∃ r ns, keyNames l (acc ++ [x]) = String.ofList (x :: r) :: ns
  | [], acc => ⟨acc.reverse, [], by simp [keyNames]⟩
  | c :: l, acc => by
    unfold keyNames
    split
    · exact ⟨acc.reverse, _, by simp; rfl⟩
    · exact keyNames_head x hx l (c :: acc)

/-- **C76.**  Which calls look at no chunk of a dataset: those on the dataset itself, through any group above it, and those on a node
    that is not below the dataset. -/
theorem c76_no_chunks (hs : d.base.shape ≠ []) {c : Call}
    (h : ∀ q, q = c.node ∨ q = c.via → q = p ∨ ¬ p <+: q) {q : Path} (hq : c.touches q) : ¬ OnWay p d.IsKey q := by
  rintro ⟨k, ⟨x, hx, rfl⟩, h1, h2, h3⟩
  obtain ⟨y, hy, ht⟩ := hq
  have hxn : x ≠ [] := by
    intro e
    subst e
    apply hs
    have := All₃.length_eq hx
    apply List.eq_nil_of_length_eq_zero
    rw [this.1, this.2]
    rfl
  obtain ⟨a, l, he, ha⟩ := key_head d.base.key hxn
  have hslash : a ≠ '/' := by rintro rfl; revert ha; decide
  rcases ht with rfl | ⟨name, hname, rfl⟩
  · rcases h q hy with rfl | hn
    · exact h2 rfl
    · exact hn h1
  · have hyp : y = p := by
      rcases h y hy with e | hn
      · exact e
      · exfalso
        rcases List.prefix_concat_iff.1 h1 with e | e
        · exact h2 e.symm
        · exact hn e
    subst hyp
    unfold AnyDataset.fileKey chunkFile at h3
    rw [he, List.prefix_append_right_inj] at h3
    have hkn : keyNames (a :: l) [] = keyNames l ([] ++ [a]) := by
      rw [keyNames, if_neg hslash]
      rfl
    obtain ⟨r, ns, e⟩ := keyNames_head a hslash l []
    rw [hkn, e, List.cons_prefix_cons] at h3
    have hh := congrArg String.toList h3.1
    rw [String.toList_ofList] at hh
    have hx' : a = '.' ∨ a = 'z' ∨ a = 'a' := by
      simp only [documentNames, List.mem_cons, List.not_mem_nil, or_false] at hname
      rcases hname with rfl | rfl | rfl | rfl | rfl <;>
        (have := congrArg List.head? hh; simp at this; subst this; simp)
    rcases hx' with rfl | rfl | rfl <;> rcases ha with ha | ha <;> revert ha <;> decide

/-- reading depends on the chunks and the directories they are in -/
theorem readsAs_agree (h : d.WF) {σ σ' : Fs} (h0 : ∀ q, q <+: p → σ q = some .dir)
    (ha : ∀ q, OnWay p d.IsKey q ∨ q <+: p → σ' q = σ q) {A : List Nat → E.T} (hA : d.ReadsAs p σ A) : d.ReadsAs p σ' A := by
  intro off out outBuf scratch hr hf hn
  obtain ⟨ts, hts, hall⟩ := hA off out outBuf scratch hr hf hn
  refine ⟨ts, hts, fun is rs hfin => ?_⟩
  have hwi := AnyDataset.read_within h hr hts
  let S : Path → Prop := fun q => q <+: p
  have hl : FsProg.LocalAll (Dirs S) (fun _ => ()) (fun _ => OnWay p d.IsKey) (fun _ => OnWay p d.IsKey) (d.onFiles p ts) := by
    intro i t ht
    obtain ⟨x, hx, rfl⟩ := List.mem_map.1 (List.mem_of_getElem? ht)
    exact .onFiles (fun q h => h) (fun q h => h) (fun q h => h) (hwi x hx).1
  have hI' : Dirs S σ' := fun q hq => (ha q (.inr hq)).trans (h0 q hq)
  obtain ⟨h1, _⟩ := FsProg.interleave_apart (fun g g' hne => absurd (by cases g; cases g'; rfl) hne) () is hl hl hI' h0 rfl
    (fun _ _ => rfl) (fun q hq => ha q (.inl hq))
  have hft : is.filter (fun _ => decide (() = ())) = is := by simp
  rw [hft] at h1
  have heq : (FsProg.interleave is (d.onFiles p ts, σ')).1 = (FsProg.interleave is (d.onFiles p ts, σ)).1 :=
    List.ext_getElem? fun i => h1 i rfl
  obtain ⟨_, h3⟩ := hall is rs (by rw [← heq]; exact hfin)
  refine ⟨interleave_readOnly_files (p := p) (nested := d.base.key.nested) is fun t ht => ?_, h3⟩
  obtain ⟨x, hx, rfl⟩ := List.mem_map.1 ht
  exact ⟨x, (hwi x hx).2, rfl⟩

theorem finished_get {α : Type} {ts : List (FsProg α)} {rs : List (Res α)} (h : FsProg.Finished ts rs) (i : Nat) :
    ts[i]? = (rs[i]?).map .ret := by
  have e : (ts[i]?).map FsProg.outcome = (rs[i]?).map some := by
    rw [← List.getElem?_map, ← List.getElem?_map]
    exact congrArg (·[i]?) h
  cases ht : ts[i]? with
  | none => rw [ht] at e; cases hr : rs[i]? with
    | none => rfl
    | some r => rw [hr] at e; cases e
  | some t => rw [ht] at e; cases hr : rs[i]? with
    | none => rw [hr] at e; cases e
    | some r =>
      rw [hr] at e
      injection e with e
      cases t with
      | ret r' => injection e with e; rw [e]; rfl
      | act f c => cases e

/-- **C76.**  A region is written while processes change attributes (of this dataset, too) and create and open other nodes.  When all
    have finished, under whatever schedule, the tasks have succeeded, reading gives the data, and the processes have the results
    they have alone. -/
theorem c76_region_write {D : Disk} (h : d.WF) (hk : d.PlainKeys) (hw : d.base.canWrite = true)
    (hC : d.base.codec.TotalFor (prod d.base.chunkShape * E.size)) {ws : List (Write E.T)} {σ : Fs} (hreach : d.Reaches p ws σ)
    {call : RegionCall E} (hv : call.Valid d.base) {val : List Nat → E.T}
    (hval : ∀ i, InBox i call.shape → call.value i = some (val i)) {scratch : Nat → List E.T} {ts : List (Prog Unit)}
    (hts : d.start call scratch = .ok ts) {ps : List (List Call)} (hready : ∀ cs ∈ ps, ∀ c ∈ cs, c.Ready σ)
    (hap : ∀ (i j : Nat) (cs cs' : List Call), i ≠ j → ps[i]? = some cs → ps[j]? = some cs' → ∀ c ∈ cs, ∀ c' ∈ cs', c.Apart c')
    (havoid : ∀ cs ∈ ps, ∀ c ∈ cs, ∀ q, c.touches q → ¬ OnWay p d.IsKey q) (is : List Nat)
    {rs : List (Res (Unit ⊕ List (Res Answer)))}
    (hfin : FsProg.Finished (FsProg.interleave is (together (d.onFiles p ts) (ps.map (process D)), σ)).1 rs) :
    let σ' := (FsProg.interleave is (together (d.onFiles p ts) (ps.map (process D)), σ)).2
    (∀ i, i < ts.length → rs[i]? = some (.ok (.inl ())) ∨ (rs[i]? = some (.throw .lengthError) ∧ ∃ sd, d = .sharded sd)) ∧
    ((∀ i, i < ts.length → rs[i]? = some (.ok (.inl ()))) →
      ∃ A, d.ReadsAs p σ' A ∧ ∀ x, InBox x d.base.shape →
        SameOrFill E.ceq d.base.fill (A x) (replay (fun _ => d.base.fill) (ws ++ [⟨call.off, call.shape, val⟩]) x)) ∧
    ∀ (i : Nat) (cs : List Call), ps[i]? = some cs → rs[ts.length + i]? = some (.inr <$> (inTurn cs σ).1) := by
  intro σ'
  have ht := (hreach.effect h hk hw).1
  have hwi : ∀ t ∈ ts, t.Within d.IsKey := fun s hs =>
    (AnyDataset.start_within h hv hts s hs).mono fun _ => AnyDataset.Touched.isKey
  obtain ⟨h1, h2, h3⟩ := c76_chunks (D := D) (nested := d.base.key.nested) hwi ht.above hready hap havoid is
  change (∀ q, OnWay p d.IsKey q ∨ q <+: p → σ' q = _) at h1
  -- the tasks without the processes
  have hlen : (FsProg.interleave is (together (d.onFiles p ts) (ps.map (process D)), σ)).1.length = ts.length + ps.length := by
    rw [FsProg.length_interleave]
    simp [together, AnyDataset.onFiles]
  have hrl : rs.length = ts.length + ps.length := by
    have := congrArg List.length hfin
    simp only [List.length_map] at this
    rw [← this, hlen]
  have hget := finished_get hfin
  let s' := FsProg.interleave (is.filter fun i => i < ts.length) (d.onFiles p ts, σ)
  have hl' : s'.1.length = ts.length := by
    rw [FsProg.length_interleave]
    simp [AnyDataset.onFiles]
  -- their outcomes
  have hout : ∀ i, i < ts.length → ∃ r, s'.1[i]? = some (.ret r) ∧ rs[i]? = some (.inl <$> r) := by
    intro i hi
    have e1 := h2 i hi
    have e2 : (FsProg.interleave is (together (d.onFiles p ts) (ps.map (process D)), σ)).1[i]? = _ := hget i
    change (FsProg.interleave is (together (d.onFiles p ts) (ps.map (process D)), σ)).1[i]? = (s'.1[i]?).map _ at e1
    rw [e1, List.getElem?_eq_getElem (by omega : i < s'.1.length), List.getElem?_eq_getElem (by omega : i < rs.length)] at e2
    injection e2 with e2
    obtain ⟨r, hr, hr'⟩ := FsProg.as_ret e2
    exact ⟨r, by rw [List.getElem?_eq_getElem (by omega : i < s'.1.length), hr],
      by rw [List.getElem?_eq_getElem (by omega : i < rs.length), hr']⟩
  obtain ⟨rs', hrs'⟩ : ∃ rs', FsProg.Finished s'.1 rs' := by
    refine ⟨s'.1.map fun t => (t.outcome).getD .ub, ?_⟩
    unfold FsProg.Finished
    rw [List.map_map]
    refine List.map_congr_left fun t ht => ?_
    obtain ⟨i, hi, rfl⟩ := List.getElem_of_mem ht
    obtain ⟨r, hr, _⟩ := hout i (by omega)
    rw [List.getElem?_eq_getElem hi] at hr
    injection hr with hr
    rw [hr]
    rfl
  have hres : ∀ (i : Nat), i < ts.length → ∃ r, r ∈ rs' ∧ rs[i]? = some (.inl <$> r) := by
    intro i hi
    obtain ⟨r, hr, hr'⟩ := hout i hi
    rw [finished_get hrs' i] at hr
    cases e : rs'[i]? with
    | none => rw [e] at hr; cases hr
    | some x =>
      rw [e] at hr
      cases hr
      exact ⟨r, List.mem_of_getElem? e, hr'⟩
  obtain ⟨ts', hts', hsucc⟩ := c63_write_succeeds h hk hw hC hreach hv scratch
  rw [hts] at hts'
  cases hts'
  have hs := hsucc _ rs' hrs'
  refine ⟨fun i hi => ?_, fun hall => ?_, fun i cs hi => ?_⟩
  · obtain ⟨r, hr, hr'⟩ := hres i hi
    rcases hs r hr with rfl | ⟨rfl, hsd⟩
    · exact .inl hr'
    · exact .inr ⟨hr', hsd⟩
  · have hok : ∀ r ∈ rs', r = .ok () := by
      intro r hr
      obtain ⟨i, hi, rfl⟩ := List.getElem_of_mem hr
      have hi' : i < ts.length := by
        have := congrArg List.length hrs'
        simp only [List.length_map] at this
        omega
      obtain ⟨r', hr1, hr2⟩ := hout i hi'
      rw [finished_get hrs' i, List.getElem?_eq_getElem hi] at hr1
      injection hr1 with hr1
      injection hr1 with hr1
      rw [hall i hi'] at hr2
      rw [hr1]
      cases r' with
      | ok u => rfl
      | throw e => cases hr2
      | ub => cases hr2
    have hperf : d.Performs p ⟨call.off, call.shape, val⟩ σ s'.2 :=
      .region call val scratch ts _ hv hval hts ⟨rs', hrs', hok, rfl⟩
    obtain ⟨A, hA, hx⟩ := c63_read_after_write h hk hw (.step hreach hperf)
    have ht' := ((AnyDataset.Reaches.step hreach hperf).effect h hk hw).1
    exact ⟨A, readsAs_agree h ht'.above h1 hA, hx⟩
  · have hi' : i < ps.length := (List.getElem?_eq_some_iff.1 hi).1
    have e := hget (ts.length + i)
    rw [List.getElem?_eq_getElem (by omega : ts.length + i < rs.length)] at e ⊢
    rw [((h3 i cs hi).2 _ e).1]

/-! ### counterexamples: calls on the same node -/

theorem ok_such {α : Type} {r : Res α} {f : α → Bool} (h : (match r with | .ok a => f a | _ => false) = true) :
    ∃ a, r = .ok a ∧ f a = true := by
  cases r with
  | ok a => exact ⟨a, rfl, h⟩
  | throw e => cases h
  | ub => cases h

/-- the process has made one call, with a result of this kind -/
def oneResult (f : Res Answer → Bool) : FsProg (List (Res Answer)) → Bool
  | .ret (.ok [r]) => f r
  | _ => false

theorem oneResult_finished {f g : Res Answer → Bool} {ts : List (FsProg (List (Res Answer)))}
    (h : (match ts with | [t, t'] => oneResult f t && oneResult g t' | _ => false) = true) :
    ∃ r r', FsProg.Finished ts [.ok [r], .ok [r']] ∧ f r = true ∧ g r' = true := by
  have one : ∀ {f t}, oneResult f t = true → ∃ r, t = .ret (.ok [r]) ∧ f r = true := by
    intro f t h
    unfold oneResult at h
    split at h
    · exact ⟨_, rfl, h⟩
    · cases h
  split at h
  · rename_i t t'
    simp only [Bool.and_eq_true] at h
    obtain ⟨r, rfl, hr⟩ := one h.1
    obtain ⟨r', rfl, hr'⟩ := one h.2
    exact ⟨r, r', rfl, hr, hr'⟩
  · cases h

def isDone : Res Answer → Bool
  | .ok .done => true
  | _ => false

theorem isDone_eq {r : Res Answer} (h : isDone r = true) : r = .ok .done := by
  unfold isDone at h
  split at h
  · rfl
  · cases h

def lostUpdate : List (FsProg (List (Res Answer))) × Fs :=
  FsProg.interleave (List.replicate 9 0 ++ List.replicate 9 1 ++ List.replicate 9 0 ++ List.replicate 9 1)
    ([[Call.change (.file exRoot) (.write (.obj [("b", .int 2)]))], [Call.change (.file exRoot) (.write (.obj [("c", .int 3)]))]].map
      (process exDisk), exZattrs)

/-- **C76, counterexample.**  Two processes set different attributes of the same node.  Both calls succeed, and one of the attributes
    is lost. -/
theorem c76_lost_update_counterexample : ∃ (D : Disk) (t : Target) (σ : Fs) (is : List Nat),
    t.Refers σ .v2 ∧ t.mode.canWrite = true ∧
    let s := FsProg.interleave is
      ([[Call.change t (.write (.obj [("b", .int 2)]))], [Call.change t (.write (.obj [("c", .int 3)]))]].map (process D), σ)
    FsProg.Finished s.1 [.ok [.ok .done], .ok [.ok .done]] ∧ ∃ j, (t.read s.2).1 = .ok j ∧ j.find "b" = none := by
  refine ⟨exDisk, .file exRoot, exZattrs, List.replicate 9 0 ++ List.replicate 9 1 ++ List.replicate 9 0 ++ List.replicate 9 1,
    exZattrs_refers, rfl, ?_, ?_⟩
  · obtain ⟨r, r', h, h1, h2⟩ := oneResult_finished (f := isDone) (g := isDone) (ts := lostUpdate.1) (by decide +kernel)
    rw [isDone_eq h1, isDone_eq h2] at h
    exact h
  · obtain ⟨j, h, hj⟩ := ok_such (r := ((Target.file exRoot).read lostUpdate.2).1) (f := fun j => (j.find "b").isNone) (by decide +kernel)
    exact ⟨j, h, Option.isNone_iff_eq_none.1 hj⟩

/-- two processes, each with an attribute of its own node -/
def exWork : List (Target × List AttrOp) :=
  [(.file exRoot, [.write (.obj [("b", .int 2)])]), (.group ⟨["g"], .a⟩, [.write (.obj [("c", .int 3)]), .remove "x"])]

/-- Whatever the schedule is, the attributes of the container are there. -/
example {is : List Nat} {rs : List (Res (List (Res Answer)))}
    (hfin : FsProg.Finished (FsProg.interleave is (exWork.map fun w => process exDisk (w.2.map (.change w.1)), exZattrs)).1 rs) :
    ∃ j, ((Target.file exRoot).read (FsProg.interleave is (exWork.map fun w => process exDisk (w.2.map (.change w.1)), exZattrs)).2).1 =
      .ok j ∧ j.find "a" = some (.int 1) ∧ j.find "b" = some (.int 2) := by
  obtain ⟨j, h1, h2⟩ := c76_attributes (D := exDisk) (work := exWork) (σ := exZattrs) rfl (by decide +kernel) (by decide +kernel)
    (by
      intro w hw
      simp only [exWork, List.mem_cons, List.not_mem_nil, or_false] at hw
      rcases hw with rfl | rfl
      · exact ⟨rfl, fun op hop => by cases List.mem_singleton.1 hop; exact ⟨_, rfl, by decide⟩⟩
      · refine ⟨rfl, fun op hop => ?_⟩
        simp only [List.mem_cons, List.not_mem_nil, or_false] at hop
        rcases hop with rfl | rfl
        · exact ⟨_, rfl, by decide⟩
        · trivial) is hfin _ (List.mem_cons_self ..) .v2 exZattrs_refers
  exact ⟨j, by rw [h1], (h2 "a").trans rfl, (h2 "b").trans rfl⟩

/-- Such schedules exist. -/
example : ∃ is rs,
    FsProg.Finished (FsProg.interleave is (exWork.map fun w => process exDisk (w.2.map (.change w.1)), exZattrs)).1 rs := by
  have h : ∀ ts : List (FsProg (List (Res Answer))), (ts.all fun t => match t with | .ret _ => true | _ => false) = true →
      ∃ rs, FsProg.Finished ts rs := by
    intro ts h
    induction ts with
    | nil => exact ⟨[], rfl⟩
    | cons t ts ih =>
      simp only [List.all_cons, Bool.and_eq_true] at h
      obtain ⟨rs, hrs⟩ := ih h.2
      cases t with
      | act => cases h.1
      | ret r => exact ⟨r :: rs, by unfold FsProg.Finished at hrs ⊢; rw [List.map_cons, hrs]; rfl⟩
  exact ⟨(List.replicate 30 [0, 1]).flatten, h _ (by decide +kernel)⟩

/-- A region of the dataset `d` is written while another process changes the attributes of the dataset. -/
example {σ : Fs} {ws} (hreach : (AnyDataset.plain (exDataset true)).Reaches ["d"] ws σ) (v : Fin (256 ^ 2)) (is : List Nat)
    {rs : List (Res (Unit ⊕ List (Res Answer)))} {ts : List (Prog Unit)}
    (hts : (AnyDataset.plain (exDataset true)).start (.scalar [1, 0] [3, 3] v) (fun _ => []) = .ok ts)
    (hfin : FsProg.Finished (FsProg.interleave is (together ((AnyDataset.plain (exDataset true)).onFiles ["d"] ts)
      ([[Call.change (.dataset ⟨["d"], .a, ".", 2, "default", none⟩) (.write (.obj [("b", .int 2)]))]].map (process exDisk)), σ)).1 rs) :
    ∃ A, (AnyDataset.plain (exDataset true)).ReadsAs ["d"] (FsProg.interleave is (together ((AnyDataset.plain (exDataset true)).onFiles ["d"] ts)
      ([[Call.change (.dataset ⟨["d"], .a, ".", 2, "default", none⟩) (.write (.obj [("b", .int 2)]))]].map (process exDisk)), σ)).2 A := by
  obtain ⟨h1, h2, -⟩ := c76_region_write (D := exDisk) (d := .plain (exDataset true)) (exDataset_wf true) (exDataset_plainKeys true) rfl trivial hreach
    (call := .scalar [1, 0] [3, 3] v)
    ⟨show RegionOk (exDataset true).shape [1, 0] [3, 3] by decide, trivial⟩ (val := fun _ => v) (fun _ _ => rfl) hts
    (ps := [[Call.change (.dataset ⟨["d"], .a, ".", 2, "default", none⟩) (.write (.obj [("b", .int 2)]))]])
    (fun cs hcs c hc => by
      cases List.mem_singleton.1 hcs
      cases List.mem_singleton.1 hc
      exact fun h => by cases h)
    (fun i j cs cs' hij hi hj => by
      match i, j with
      | 0, 0 => exact absurd rfl hij
      | 0, _ + 1 => cases hj
      | _ + 1, _ => cases hi)
    (fun cs hcs c hc q hq => by
      cases List.mem_singleton.1 hcs
      cases List.mem_singleton.1 hc
      exact c76_no_chunks (d := .plain (exDataset true)) (by decide) (fun q hq => .inl (by rcases hq with rfl | rfl <;> rfl)) hq)
    is hfin
  obtain ⟨A, hA, -⟩ := h2 fun i hi => (h1 i hi).resolve_right fun h => by obtain ⟨-, sd, h⟩ := h; cases h
  exact ⟨A, hA⟩

def isTypeError : Res Answer → Bool
  | .throw .typeError => true
  | _ => false

theorem isTypeError_eq {r : Res Answer} (h : isTypeError r = true) : r = .throw .typeError := by
  unfold isTypeError at h
  split at h
  · rfl
  · cases h

def tornRead : List (FsProg (List (Res Answer))) × Fs :=
  FsProg.interleave (List.replicate 10 0 ++ List.replicate 9 1 ++ List.replicate 9 0)
    ([[Call.change (.file exRoot) (.write (.obj [("b", .int 2)]))], [Call.read (.file exRoot)]].map (process exDisk), exZattrs)

/-- **C76, counterexample.**  A process reads the attributes of a node while another one changes them, and gets an exception. -/
theorem c76_torn_read_counterexample : ∃ (D : Disk) (t : Target) (j : Json) (σ : Fs) (is : List Nat),
    t.Refers σ .v2 ∧ t.mode.canWrite = true ∧
    FsProg.Finished (FsProg.interleave is ([[Call.change t (.write j)], [Call.read t]].map (process D), σ)).1
      [.ok [.ok .done], .ok [.throw .typeError]] := by
  refine ⟨exDisk, .file exRoot, .obj [("b", .int 2)], exZattrs, List.replicate 10 0 ++ List.replicate 9 1 ++ List.replicate 9 0,
    exZattrs_refers, rfl, ?_⟩
  obtain ⟨r, r', h, h1, h2⟩ := oneResult_finished (f := isDone) (g := isTypeError) (ts := tornRead.1) (by decide +kernel)
  rw [isDone_eq h1, isTypeError_eq h2] at h
  exact h

def hasShape (l : List Nat) : Res Answer → Bool
  | .ok (.dataset ds) => ds.info.shape == l
  | _ => false

theorem hasShape_eq {l : List Nat} {r : Res Answer} (h : hasShape l r = true) : ∃ ds, r = .ok (.dataset ds) ∧ ds.info.shape = l := by
  unfold hasShape at h
  split at h
  · exact ⟨_, rfl, by simpa using h⟩
  · cases h

def createTwice : List (FsProg (List (Res Answer))) × Fs :=
  FsProg.interleave (List.replicate 4 0 ++ List.replicate 4 1 ++ List.replicate 20 0 ++ List.replicate 20 1)
    ([[Call.createDataset exRoot ["d"] exArgs], [Call.createDataset exRoot ["d"] { exArgs with shape := [7, 4] }]].map (process exDisk),
      exZarr)

/-- **C76, counterexample.**  Two processes create a dataset with the same name.  Both succeed, although the second one should find that the
    dataset exists; and the first one has a dataset object with another shape than that of the dataset. -/
theorem c76_create_twice_counterexample : ∃ (D : Disk) (a a' : CreateArgs) (is : List Nat),
    let s := FsProg.interleave is ([[Call.createDataset exRoot ["d"] a], [Call.createDataset exRoot ["d"] a']].map (process D), exZarr)
    ∃ ds ds', FsProg.Finished s.1 [.ok [.ok (.dataset ds)], .ok [.ok (.dataset ds')]] ∧ ds.info.shape = [5, 4] ∧
      ∃ ds'', (exRoot.openDataset ["d"] s.2).1 = .ok ds'' ∧ ds''.info.shape = [7, 4] := by
  refine ⟨exDisk, exArgs, { exArgs with shape := [7, 4] },
    List.replicate 4 0 ++ List.replicate 4 1 ++ List.replicate 20 0 ++ List.replicate 20 1, ?_⟩
  obtain ⟨r, r', h, h1, h2⟩ := oneResult_finished (f := hasShape [5, 4]) (g := hasShape [7, 4])
    (ts := createTwice.1) (by decide +kernel)
  obtain ⟨ds, rfl, e⟩ := hasShape_eq h1
  obtain ⟨ds', rfl, _⟩ := hasShape_eq h2
  refine ⟨ds, ds', h, e, ?_⟩
  obtain ⟨x, hx, hx'⟩ := ok_such (r := (exRoot.openDataset ["d"] createTwice.2).1) (f := fun ds => ds.info.shape == [7, 4]) (by decide +kernel)
  exact ⟨x, hx, by simpa using hx'⟩

end Z5.Props
