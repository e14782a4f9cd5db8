import Verif.Proofs.Confined

/-!
# C31, C52, C53: what operations on containers leave alone
-/

namespace Z5

theorem FileOp.below {root : Path} {op : FileOp} (hp : root <+: op.path) (ha : op.absolute = false) :
    FsM.Keeps (Below root) op.run := by
  have hI := inside_steps root
  have drop : ∀ {α : Type} {x : FsM α}, FsM.Keeps (Below root) x →
      FsM.Keeps (Below root) (do let _ ← x : FsM Unit) :=
    fun hx => FsM.Keeps.bind hI hx fun _ => FsM.Keeps.pure hI _
  cases op with
  | change t op => exact FsM.Keeps.change hp op
  | createFile g z f => exact FsM.Keeps.createFile hp z f
  | createGroup g k f => exact FsM.Keeps.createGroup hp k f
  | createDataset g k a => exact drop (FsM.Keeps.createDataset hp k a)
  | removeGroup g => exact FsM.Keeps.group_remove hp
  | removeDataset d => exact FsM.Keeps.dataset_remove hp
  | pyFile p b m u f => exact drop (FsM.Keeps.pyFile hp b m u f)
  | pyCreateGroup g n =>
    refine drop (FsM.Keeps.pyCreateGroup ?_)
    have ha : n.absolute = false := ha
    unfold PyName.under
    rw [ha]
    exact List.IsPrefix.trans hp (List.prefix_append _ _)
  | pyRequireGroup g k => exact drop (FsM.Keeps.requireGroup hp k)
  | pyCreateDataset g n a => exact drop (FsM.Keeps.pyCreateDataset ha hp a)
  | pyRequireDataset g k a => exact drop (FsM.Keeps.pyRequireDataset hp k a)

/-- **C52.**  Whatever sequence of operations is performed through handles at or below an existing path, with
    or without success, nothing changes elsewhere in the file system; names that start with a slash are
    excluded. -/
theorem c52_confined {root : Path} {σ : Fs} (hσ : σ.WF) (he : σ root ≠ none) {ops : List FileOp}
    (ho : ∀ op ∈ ops, root <+: op.path ∧ op.absolute = false) :
    (FileOp.runs ops σ).WF ∧ ∀ q, ¬ root <+: q → FileOp.runs ops σ q = σ q := by
  have hr : σ.Rooted root := by
    refine ⟨hσ, fun q ⟨t, ht⟩ hne => hσ q t ?_ (by rw [ht]; exact he)⟩
    intro e
    rw [e, List.append_nil] at ht
    exact hne ht
  clear hσ he
  induction ops generalizing σ with
  | nil => exact ⟨hr.1, fun _ _ => rfl⟩
  | cons op ops ih =>
    have h1 := (FileOp.below (ho op (by simp)).1 (ho op (by simp)).2 σ) hr
    have h2 := ih (fun o h => ho o (List.mem_cons_of_mem _ h)) h1.1
    exact ⟨h2.1, fun q hq => (h2.2 q hq).trans (h1.2 q hq)⟩

theorem eq_steps : Steps Eq := ⟨fun _ => rfl, fun h h' => h.trans h'⟩

/-- **C53.**  Questions about a container, reading attributes and metadata, opening datasets, and the Python
    lookup of a name never change anything, in any mode and however they end. -/
theorem c53_queries (σ : Fs) (g : GroupHandle) (d : DatasetHandle) (p : PyGroup) (key : Path) (n : PyName)
    (j : Json) :
    (g.isZarr σ).2 = σ ∧ (d.isZarr σ).2 = σ ∧ (g.has key σ).2 = σ ∧ (g.isSubGroup key σ).2 = σ ∧
      (g.readAttributes j σ).2 = σ ∧ (d.readAttributes j σ).2 = σ ∧ (g.readMetadata σ).2 = σ ∧
      (g.openDataset key σ).2 = σ ∧ (d.openDataset σ).2 = σ ∧ (p.getItem n σ).2 = σ :=
  have hI := eq_steps
  ⟨(FsM.Keeps.group_isZarr hI g σ).symm, (FsM.Keeps.dataset_isZarr hI d σ).symm, rfl,
    (FsM.Keeps.isSubGroup hI g key σ).symm, (FsM.Keeps.group_readAttributes hI g j σ).symm,
    (FsM.Keeps.dataset_readAttributes hI d j σ).symm, (FsM.Keeps.readMetadata hI g σ).symm,
    (FsM.Keeps.openDataset hI g key σ).symm, (FsM.Keeps.dataset_open hI d σ).symm,
    (FsM.Keeps.getItem hI p n σ).symm⟩

/-- What a Python file opened for reading does -/
theorem pyFile_read (p : Path) (b : String) (u : Option Bool) (f : Int) :
    FsM.Keeps Eq (pyFile p b .r u f) := by
  have hI := eq_steps
  have h4 : FsM.Keeps Eq (pyInferFormat p b) := by
    unfold pyInferFormat
    open FsM.Keeps in keeps hI
  have h3 := FsM.Keeps.checkVersion hI ⟨⟨p, .r⟩, f⟩
  unfold pyFile
  refine FsM.Keeps.bind hI h4 fun z => FsM.Keeps.ite (FsM.Keeps.lift hI _) ?_
  refine FsM.Keeps.bind hI (FsM.Keeps.exist hI _) fun e => ?_
  have hs : (e && FileMode.r.shouldTruncate) = false := by cases e <;> decide
  simp only [hs, Bool.false_eq_true, if_false]
  refine FsM.Keeps.bind hI (FsM.Keeps.exist hI _) fun e => ?_
  refine FsM.Keeps.ite ?_ ?_
  · rw [if_neg (by decide)]
    exact h3
  · rw [if_pos (by decide)]
    exact FsM.Keeps.lift hI _

/-- A first step that changes nothing, then an error -/
theorem refused {α β : Type} {x : FsM α} {f : α → FsM β} {σ : Fs} (hx : (x σ).2 = σ)
    (hf : ∀ a, ∃ r, f a σ = (r, σ) ∧ ∀ b, r ≠ .ok b) : ∃ r, (x >>= f) σ = (r, σ) ∧ ∀ b, r ≠ .ok b := by
  rw [FsM.bind_run]
  cases h : x σ with
  | mk r σ' =>
    rw [h] at hx
    subst hx
    cases r with
    | ok a => exact hf a
    | throw e => exact ⟨_, rfl, fun _ e => by cases e⟩
    | ub => exact ⟨_, rfl, fun _ e => by cases e⟩

theorem refused_first {α β : Type} {x : FsM α} {f : α → FsM β} {σ : Fs}
    (hx : ∃ r, x σ = (r, σ) ∧ ∀ b, r ≠ .ok b) : ∃ r, (x >>= f) σ = (r, σ) ∧ ∀ b, r ≠ .ok b := by
  obtain ⟨r, hx, hr⟩ := hx
  rw [FsM.bind_run, hx]
  cases r with
  | ok a => exact absurd rfl (hr a)
  | throw e => exact ⟨_, rfl, fun _ e => by cases e⟩
  | ub => exact ⟨_, rfl, fun _ e => by cases e⟩

theorem refused_throw {α : Type} {σ : Fs} (e : Err) :
    ∃ r, (FsM.lift (.throw e) : FsM α) σ = (r, σ) ∧ ∀ b, r ≠ .ok b :=
  ⟨_, rfl, fun _ e => by cases e⟩

/-- Whatever is to be done through a handle of mode `r`: it is refused. -/
theorem FileOp.refused {op : FileOp} (hm : op.mode = .r) (ho : op.opens = false) (σ : Fs) :
    ∃ r, op.run σ = (r, σ) ∧ ∀ b, r ≠ .ok b := by
  cases op with
  | change t op =>
    have hm : t.mode = .r := hm
    have hw : t.mode.canWrite = false := by rw [hm]; rfl
    cases t <;> cases op <;>
      simp only [run, Target.change, GroupHandle.writeAttributes, GroupHandle.removeAttribute,
        GroupHandle.writeFileAttributes, GroupHandle.removeFileAttribute, DatasetHandle.writeAttributes,
        DatasetHandle.removeAttribute] <;>
      (simp only [Target.mode] at hw; rw [hw]; exact refused_throw _)
  | createFile g z f =>
    have hm : g.mode = .r := hm
    refine refused_first ?_
    unfold GroupHandle.createAsFile
    rw [hm]
    exact refused_throw _
  | createGroup g k f =>
    have hm : g.mode = .r := hm
    refine Z5.refused (FsM.Keeps.group_isZarr eq_steps g σ).symm fun z => refused_first ?_
    unfold GroupHandle.create
    rw [if_pos (show (g.group k).mode = .r from hm)]
    exact refused_throw _
  | createDataset g k a =>
    have hm : g.mode = .r := hm
    refine refused_first (Z5.refused (FsM.Keeps.group_isZarr eq_steps g σ).symm fun z =>
      Z5.refused rfl fun m => refused_first ?_)
    unfold DatasetHandle.create
    rw [if_pos (show (g.dataset k a.delimiter a.zarrFormat a.encoding).mode = .r from hm)]
    exact refused_throw _
  | removeGroup g =>
    have hm : g.mode = .r := hm
    show ∃ r, g.remove σ = (r, σ) ∧ _
    unfold GroupHandle.remove
    rw [hm]
    exact refused_throw _
  | removeDataset d =>
    have hm : d.mode = .r := hm
    show ∃ r, d.remove σ = (r, σ) ∧ _
    unfold DatasetHandle.remove
    rw [hm]
    exact refused_throw _
  | pyFile p b m u f => cases ho
  | pyCreateGroup g n =>
    have hm : g.handle.mode = .r := hm
    refine refused_first ?_
    unfold PyGroup.createGroup
    rw [hm]
    exact refused_throw _
  | pyRequireGroup g k => cases ho
  | pyRequireDataset g k a => cases ho
  | pyCreateDataset g n a =>
    have hm : g.handle.mode = .r := hm
    refine refused_first ?_
    unfold PyGroup.createDatasetFull
    rw [hm]
    exact refused_throw _

/-- **C31.**  No operation on a container through a handle of mode `r` changes the file system, and all but
    opening (which may find what it asks for) are refused. -/
theorem c31_container {op : FileOp} (hm : op.mode = .r) (σ : Fs) :
    (op.run σ).2 = σ ∧ (op.opens = false → ∀ a, (op.run σ).1 ≠ .ok a) := by
  cases ho : op.opens with
  | false =>
    obtain ⟨r, h, hr⟩ := FileOp.refused hm ho σ
    rw [h]
    exact ⟨rfl, fun _ => hr⟩
  | true =>
    refine ⟨?_, fun e => by cases e⟩
    have hI := eq_steps
    cases op with
    | pyFile p b m u f =>
      have hm : m = .r := hm
      subst hm
      exact (FsM.Keeps.bind hI (pyFile_read p b u f) (fun _ => FsM.Keeps.pure hI _) σ).symm
    | pyRequireGroup g k =>
      have hm : g.handle.mode = .r := hm
      refine (FsM.Keeps.bind hI ?_ (fun _ => FsM.Keeps.pure hI _) σ).symm
      have h1 := FsM.Keeps.isSubGroup hI g.handle k
      unfold PyGroup.requireGroup PyGroup.contains GroupHandle.has
      rw [hm]
      refine FsM.Keeps.bind hI (FsM.Keeps.isDir hI _) fun b => FsM.Keeps.ite ?_ ?_
      · exact FsM.Keeps.bind hI h1 fun _ => FsM.Keeps.ite (FsM.Keeps.lift hI _) (FsM.Keeps.pure hI _)
      · rw [if_pos (by decide)]
        exact FsM.Keeps.lift hI _
    | pyRequireDataset g k a =>
      have hm : g.handle.mode = .r := hm
      refine (FsM.Keeps.bind hI ?_ (fun _ => FsM.Keeps.pure hI _) σ).symm
      have h1 := FsM.Keeps.isSubGroup hI g.handle k
      have h2 := FsM.Keeps.openDataset hI g.handle k
      unfold PyGroup.requireDataset GroupHandle.has
      rw [hm]
      refine FsM.Keeps.bind hI (FsM.Keeps.isDir hI _) fun b => FsM.Keeps.ite ?_ ?_
      · exact FsM.Keeps.bind hI h1 fun _ => FsM.Keeps.ite (FsM.Keeps.lift hI _) (FsM.Keeps.bind hI h2 fun _ =>
          FsM.Keeps.ite (FsM.Keeps.lift hI _) (FsM.Keeps.ite (FsM.Keeps.lift hI _) (FsM.Keeps.ite (FsM.Keeps.lift hI _)
            (FsM.Keeps.pure hI _))))
      · rw [if_pos (by decide)]
        exact FsM.Keeps.lift hI _
    | _ => cases ho

/-- **C31** for any sequence of operations -/
theorem c31_container_history {ops : List FileOp} (hm : ∀ op ∈ ops, op.mode = .r) (σ : Fs) :
    FileOp.runs ops σ = σ := by
  induction ops with
  | nil => rfl
  | cons op ops ih =>
    unfold FileOp.runs
    rw [(c31_container (hm op (by simp)) σ).1]
    exact ih fun o h => hm o (List.mem_cons_of_mem _ h)

/-- A container `c` in the file system, and a file beside it -/
def exBeside : Fs := fun q =>
  if q = [] ∨ q = ["c"] then some .dir
  else if q = ["c", ".zgroup"] then some (.doc (.obj [("zarr_format", .int 2)]))
  else if q = ["x"] then some (.file [1, 2])
  else none

theorem exBeside_wf : exBeside.WF := by
  intro p q hq h
  by_cases hp : p = [] ∨ p = ["c"]
  · unfold exBeside
    rw [if_pos hp]
  · refine absurd ?_ h
    rw [not_or] at hp
    obtain ⟨a, p, rfl⟩ := List.exists_cons_of_ne_nil hp.1
    obtain ⟨b, q, rfl⟩ := List.exists_cons_of_ne_nil hq
    unfold exBeside
    rw [if_neg, if_neg, if_neg]
    · simp
    · intro e
      simp only [List.cons_append, List.cons.injEq] at e
      obtain ⟨rfl, e⟩ := e
      cases p with
      | nil => exact hp.2 rfl
      | cons c p => simp at e
    · simp

/-- The hypotheses of `c52_confined` are met: a nested dataset, attributes, removal of everything. -/
example :
    let ops : List FileOp := [.pyCreateDataset ⟨⟨["c"], .a⟩, 2⟩ { parts := ["g", "d"] } { shape := some [5, 4], dtype := some "uint8" },
      .change (.group ⟨["c", "g"], .rp⟩) (.write (.obj [("a", .int 1)])), .removeGroup ⟨["c"], .a⟩]
    FileOp.runs ops exBeside ["x"] = some (.file [1, 2]) := by
  refine (c52_confined (root := ["c"]) exBeside_wf ?_ ?_).2 ["x"] (by decide)
  · intro e
    cases e
  · intro op hop
    simp only [List.mem_cons, List.not_mem_nil, or_false] at hop
    rcases hop with rfl | rfl | rfl <;> decide

/-- **C52, negation** for names that start with a slash: the Python method `create_group` strips it to see
    whether the name is taken, and then creates the group outside the container. -/
theorem c52_absolute_counterexample :
    ∃ (g : PyGroup) (n : PyName) (σ : Fs), σ.WF ∧ σ g.handle.path = some .dir ∧ n.absolute = true ∧
      ((g.createGroup n) σ).1.isOk = true ∧ isDirectory ((g.createGroup n σ).2 (g.handle.path ++ n.parts)) = false ∧
      σ n.parts = none ∧ ¬ g.handle.path <+: n.parts ∧ isDirectory ((g.createGroup n σ).2 n.parts) = true :=
  ⟨⟨⟨["c"], .a⟩, 2⟩, { absolute := true, parts := ["y"] }, exBeside, exBeside_wf, rfl, rfl,
    by decide +kernel, by decide +kernel, rfl, by decide, by decide +kernel⟩

/-- The hypotheses of `c31_container` are met. -/
example : (FileOp.pyCreateDataset ⟨⟨["c"], .r⟩, 2⟩ { parts := ["g", "d"] } { shape := some [5, 4], dtype := some "uint8" }).mode = .r ∧
    (FileOp.removeGroup ⟨["c"], .r⟩).mode = .r := ⟨rfl, rfl⟩

end Z5
