import Verif.Proofs.Remove

/-!
# C65: what is deleted is gone, and nothing else
-/

namespace Z5.Props
open Z5 Spec Prog

variable {E : Elem} {L : Libs} {elem : FillVal → E.T} {p : Path} {o₀ : DatasetObj} {d₀ : AnyDataset E}
  {Ty : ElemTypes} {os : List DatasetObj} {ws : List (Write E.T)} {σ : Fs}

theorem canWrite_of_ne {m : FileMode} (h : m ≠ .r) : m.canWrite = true := by
  revert h
  cases m <;> simp <;> rfl

/-! ### Handles -/

/-- **C65, groups and files.** `remove` of a group or file handle succeeds exactly if the mode allows to write and the path
exists; then everything at and below the path is gone and nothing else has changed.  Otherwise it throws
`std::invalid_argument` and changes nothing. -/
theorem c65_group_handle (g : GroupHandle) (σ : Fs) :
    (g.mode ≠ .r ∧ σ g.path ≠ none → g.remove σ = (.ok (), σ.without g.path)) ∧
    (¬ (g.mode ≠ .r ∧ σ g.path ≠ none) → g.remove σ = (.throw .invalidArgument, σ)) := by
  have hm : g.mode.canWrite = decide (g.mode ≠ .r) := by cases g.mode <;> rfl
  refine ⟨fun ⟨h1, h2⟩ => remove_run (by rw [hm]; simpa using h1) h2, fun h => ?_⟩
  unfold GroupHandle.remove
  by_cases h1 : g.mode ≠ .r
  · have h2 : σ g.path = none := Classical.byContradiction fun e => h ⟨h1, e⟩
    rw [if_neg (by rw [hm]; simp [h1]), FsM.bind_run, FsM.exist_run, h2]
    rfl
  · rw [if_pos (by rw [hm]; simpa using h1)]
    rfl

/-- **C65, dataset handles**: the same. -/
theorem c65_dataset_handle (g : DatasetHandle) (σ : Fs) :
    (g.mode ≠ .r ∧ σ g.path ≠ none → g.remove σ = (.ok (), σ.without g.path)) ∧
    (¬ (g.mode ≠ .r ∧ σ g.path ≠ none) → g.remove σ = (.throw .invalidArgument, σ)) := by
  have hm : g.mode.canWrite = decide (g.mode ≠ .r) := by cases g.mode <;> rfl
  refine ⟨fun ⟨h1, h2⟩ => DatasetHandle.remove_run (by rw [hm]; simpa using h1) h2, fun h => ?_⟩
  unfold DatasetHandle.remove
  by_cases h1 : g.mode ≠ .r
  · have h2 : σ g.path = none := Classical.byContradiction fun e => h ⟨h1, e⟩
    rw [if_neg (by rw [hm]; simp [h1]), FsM.bind_run, FsM.exist_run, h2]
    rfl
  · rw [if_pos (by rw [hm]; simpa using h1)]
    rfl

/-! ### `removeDataset` -/

/-- an open object of the dataset, with its elements -/
theorem sessions_object (hL : L.LawfulFor (prod d₀.base.chunkShape * E.size)) (hdesc : o₀.Describable) (hd : o₀.typed L elem = .ok d₀) (hwf : d₀.WF)
    (hk : d₀.PlainKeys) (hfit : prod (blocksPerDimension d₀.base.shape d₀.base.chunkShape) < 2 ^ 64)
    (h : Sessions L elem p o₀ os ws σ) {o : DatasetObj} (ho : o ∈ os) (hw : o.handle.mode ≠ .r) :
    o.handle.path = p ∧ o.handle.mode.canWrite = true ∧ ∃ d ts, o.typed L elem = .ok d ∧ d.removeDataset = .ok ts ∧
      d.WF ∧ d.PlainKeys ∧ Tidy p d.IsKey σ ∧ d.Intact (σ.chunks p) ∧ (∀ ds, d₀ = .plain ds → ∃ ds', d = .plain ds') ∧
      (∀ sd, d = .sharded sd → ∃ sd₀, d₀ = .sharded sd₀) ∧
      d.base.shape = d₀.base.shape ∧ d.base.chunkShape = d₀.base.chunkShape ∧
      ∀ t ∈ ts, ∃ κ, d.IsKey κ ∧ TouchesOnly κ t ∧ ∀ τ, d.Intact τ →
        ((Prog.run t τ).1 = .ok () ∧ d.Intact (Prog.run t τ).2) ∨
        ((Prog.run t τ).1 = .throw .lengthError ∧ ∃ sd, d = .sharded sd) := by
  have hm : o.handle.mode.canWrite = true := canWrite_of_ne hw
  obtain ⟨m, cfg, h1, h2, h3⟩ := h.carries hL hdesc hd hwf hk
  have hs := h3 o ho
  obtain ⟨t1, t2, _, _⟩ := hs.typed h1.self h1.shard hL hd
  refine ⟨hs.path, hm, d₀.variant o.keyCfg (L.codec E.size o.settings) o.handle.mode.canWrite, ?_⟩
  obtain ⟨ts, h4, h5⟩ := AnyDataset.removeDataset_calls (AnyDataset.variant_wf (w := o.handle.mode.canWrite) t2 hwf)
    (by rw [AnyDataset.variant_base]; exact hm) (by rw [AnyDataset.variant_base]; exact hfit)
  have hS := (AnyDataset.variant_holds (w := o.handle.mode.canWrite) t2).2 h2.holds
  refine ⟨ts, t1, h4, AnyDataset.variant_wf t2 hwf, AnyDataset.variant_plainKeys t2 hk,
    by rw [AnyDataset.variant_isKey t2]; exact h2.tidy, ?_, ?_, ?_, by rw [AnyDataset.variant_base]; rfl,
    by rw [AnyDataset.variant_base]; rfl, h5⟩
  · cases d₀ with
    | plain ds => trivial
    | sharded sd => exact And.left hS
  · rintro ds rfl
    exact ⟨_, rfl⟩
  · intro sd e
    cases d₀ with
    | plain ds => cases e
    | sharded sd => exact ⟨_, rfl⟩

/-- **C65, `removeDataset` with any number of threads**, for datasets without shards.  At any time in the life of a dataset,
through any open object that is not read-only, and under every schedule of the calls of the loop: all calls
succeed, and after the last step, `dataset.remove()`, everything at and below the path of the dataset is gone, and nothing else
has changed. -/
theorem c65_remove_dataset {ds₀ : Dataset E} (hL : L.LawfulFor (prod ds₀.chunkShape * E.size)) (hdesc : o₀.Describable)
    (hd : o₀.typed L elem = .ok (.plain ds₀)) (hwf : ds₀.WF) (hk : (AnyDataset.plain ds₀).PlainKeys)
    (hfit : prod (blocksPerDimension ds₀.shape ds₀.chunkShape) < 2 ^ 64)
    (h : Sessions L elem p o₀ os ws σ) {o : DatasetObj} (ho : o ∈ os) (hw : o.handle.mode ≠ .r) :
    ∃ d ts, o.typed L elem = .ok d ∧ d.removeDataset = .ok ts ∧
      ∀ is rs, FsProg.Finished (FsProg.interleave is (d.onFiles p ts, σ)).1 rs →
        (∀ r ∈ rs, r = .ok ()) ∧
        o.handle.remove (FsProg.interleave is (d.onFiles p ts, σ)).2 = (.ok (), σ.without p) := by
  obtain ⟨hp, hm, d, ts, h1, h2, h3, h4, h5, h6, h7, _, e1, e2, h8⟩ := sessions_object hL hdesc hd hwf hk hfit h ho hw
  obtain ⟨ds, rfl⟩ := h7 _ rfl
  refine ⟨_, ts, h1, h2, fun is rs hfin => ?_⟩
  obtain ⟨g1, g2, js, g3, g4⟩ := AnyDataset.onFiles_sim h4 h5 (ts := ts) (fun _ hk => hk)
    (fun s hs => by obtain ⟨κ, hκ, ht, _⟩ := h8 s hs; exact within_of_touches hκ ht) is
  have hcan : ds.canWrite = true := by
    cases hc : ds.canWrite with
    | true => rfl
    | false =>
      have : (AnyDataset.plain ds).removeDataset = .throw .invalidArgument := by
        unfold AnyDataset.removeDataset Dataset.removeDataset
        simp only
        rw [if_pos (by simp [hc])]
      rw [this] at h2
      cases h2
  refine ⟨?_, ?_⟩
  · have hfit' : prod (blocksPerDimension ds.shape ds.chunkShape) < 2 ^ 64 := by
      rw [show ds.shape = ds₀.shape from e1, show ds.chunkShape = ds₀.chunkShape from e2]
      exact hfit
    have e : ts = ((gridList ds).map fun c => (ds.chunkKey c, removeTask (ds.chunkExists c) (ds.removeChunk c))).map
        Prod.snd := by
      unfold AnyDataset.removeDataset Dataset.removeDataset at h2
      simp only at h2
      rw [if_neg (by simp [hcan]), eachChunk_eq h3 hfit'] at h2
      rw [← Res.ok.inj h2, List.map_map]
      rfl
    have hj := grid_jobs h3 (fun c => removeTask (ds.chunkExists c) (ds.removeChunk c)) fun c => touches_removeTask ds c
    have hf := g4 rs hfin
    rw [e] at hf
    rw [(finished_jobs hj hf).2]
    intro r hr
    obtain ⟨x, hx, rfl⟩ := List.mem_map.1 hr
    obtain ⟨c, hc, rfl⟩ := List.mem_map.1 hx
    rw [exec_removeTask h3 hcan ((mem_gridList h3).1 hc)]
  · rw [← hp] at g1 g2 ⊢
    rw [DatasetHandle.remove_run hm (by rw [g1.above _ (List.prefix_refl _)]; exact fun e => by cases e),
      without_eq fun q hq => g2.frame hq]

/-- **C65, `removeDataset` with one thread**, for all datasets.  Everything at and below the path of the dataset is gone and
nothing else has changed.  (Only for a dataset with shards: a shard that has to be written again without one of its
chunks could exceed 2^63 bytes; also then nothing outside the dataset has changed.) -/
theorem c65_remove_dataset_one_thread (hL : L.LawfulFor (prod d₀.base.chunkShape * E.size)) (hdesc : o₀.Describable) (hd : o₀.typed L elem = .ok d₀)
    (hwf : d₀.WF) (hk : d₀.PlainKeys) (hfit : prod (blocksPerDimension d₀.base.shape d₀.base.chunkShape) < 2 ^ 64)
    (h : Sessions L elem p o₀ os ws σ) {o : DatasetObj} (ho : o ∈ os) (hw : o.handle.mode ≠ .r) :
    o.removeDataset L elem σ = (.ok (), σ.without p) ∨
    ∃ sd₀ σ', d₀ = .sharded sd₀ ∧ o.removeDataset L elem σ = (.throw .lengthError, σ') ∧
      ∀ q, ¬ p <+: q → σ' q = σ q := by
  obtain ⟨hp, hm, d, ts, h1, h2, h3, h4, h5, h6, _, h7, _, _, h8⟩ :=
    sessions_object hL hdesc hd hwf hk hfit h ho hw
  obtain ⟨r, σ', g1, g2, g3, g4⟩ := runEach_calls h4 h8 h5 h6
  have hrun : ∀ r', FsProg.runEach (ts.map (·.onFiles p d.base.key.nested)) σ = (r', σ') →
      o.removeDataset L elem σ = (match r' with
      | .ok _ => o.handle.remove σ'
      | .throw e => (.throw e, σ')
      | .ub => (.ub, σ')) := by
    intro r' g1
    unfold DatasetObj.removeDataset
    rw [FsM.bind_run, FsM.lift_run, h1]
    simp only
    rw [FsM.bind_run, FsM.lift_run, h2]
    simp only
    rw [FsM.bind_run, hp, g1]
    cases r' <;> rfl
  rcases g4 with rfl | ⟨rfl, sd, rfl⟩
  · left
    rw [hrun _ g1]
    rw [← hp] at g2 g3 ⊢
    show o.handle.remove σ' = _
    rw [DatasetHandle.remove_run hm (by rw [g2.above _ (List.prefix_refl _)]; exact fun e => by cases e),
      without_eq fun q hq => g3.frame hq]
  · right
    obtain ⟨sd₀, e⟩ := h7 sd rfl
    exact ⟨sd₀, σ', e, hrun _ g1, fun q hq => g3.frame hq⟩

/-- **C65, read-only**: `removeDataset` through an object that was opened in mode `r` changes nothing, whatever is on disk. -/
theorem c65_remove_dataset_read_only {o : DatasetObj} {d : AnyDataset E} (hm : o.handle.mode = .r)
    (hd : o.typed L elem = .ok d) (σ : Fs) : o.removeDataset L elem σ = (.throw .invalidArgument, σ) := by
  have hcan : d.base.canWrite = false := by
    unfold DatasetObj.typed at hd
    simp only at hd
    split at hd
    · obtain ⟨sd, h1, h2⟩ := Res.bind_eq_ok.1 hd
      have h2 := Res.ok.inj h2
      subst h2
      unfold ShardedDataset.make Dataset.make at h1
      obtain ⟨d, h3, h4⟩ := Res.bind_eq_ok.1 h1
      obtain ⟨c, h5, h6⟩ := Res.bind_eq_ok.1 h4
      obtain ⟨B, h7, h8⟩ := Res.bind_eq_ok.1 h3
      have h6 := Res.ok.inj h6
      have h8 := Res.ok.inj h8
      subst h6 h8
      show o.handle.mode.canWrite = false
      rw [hm]; rfl
    · obtain ⟨ds, h1, h2⟩ := Res.bind_eq_ok.1 hd
      have h2 := Res.ok.inj h2
      subst h2
      unfold Dataset.make at h1
      obtain ⟨B, h3, h4⟩ := Res.bind_eq_ok.1 h1
      have h4 := Res.ok.inj h4
      subst h4
      show o.handle.mode.canWrite = false
      rw [hm]; rfl
  have hr : d.removeDataset = .throw .invalidArgument := by
    cases d with
    | plain ds =>
      have hcan : ds.canWrite = false := hcan
      unfold AnyDataset.removeDataset Dataset.removeDataset
      simp only
      rw [if_pos (by simp [hcan])]
    | sharded sd =>
      have hcan : sd.canWrite = false := hcan
      unfold AnyDataset.removeDataset ShardedDataset.removeDataset
      simp only
      rw [if_pos (by simp [hcan])]
  unfold DatasetObj.removeDataset
  rw [FsM.bind_run, FsM.lift_run, hd]
  simp only
  rw [FsM.bind_run, FsM.lift_run, hr]

/-! ### `del group[name]` -/

theorem contains_run (g : PyGroup) (n : PyName) (σ : Fs) :
    g.contains n σ = (.ok (isDirectory (σ (g.handle.path ++ n.parts))), σ) := rfl

/-- **C65, `del` refuses**: in a file opened for reading with `ValueError`, for a name that is not there with `KeyError`.
Nothing is changed. -/
theorem c65_del_refused (g : PyGroup) (n : PyName) (σ : Fs) :
    (g.handle.mode = .r → g.delItem n L Ty σ = (.throw .invalidArgument, σ)) ∧
    (g.handle.mode ≠ .r → (g.contains n σ).1 = .ok false → g.delItem n L Ty σ = (.throw .keyError, σ)) := by
  constructor
  · intro h
    unfold PyGroup.delItem
    rw [if_pos (by rw [h]; rfl)]
    rfl
  · intro h hc
    unfold PyGroup.delItem
    rw [contains_run] at hc
    rw [if_neg (by rw [canWrite_of_ne h]; decide), FsM.bind_run, contains_run, Res.ok.inj hc]
    rfl

/-- **C65, `del` of a group** (with everything in it, whatever it is): everything at and below its path is gone, nothing else
has changed. -/
theorem c65_del_group (g : PyGroup) (n : PyName) (σ : Fs) (hm : g.handle.mode ≠ .r)
    (hd : σ (g.handle.path ++ n.parts) = some .dir)
    (hs : g.handle.isSubGroup n.parts σ = (.ok true, σ)) :
    g.delItem n L Ty σ = (.ok (), σ.without (g.handle.path ++ n.parts)) := by
  unfold PyGroup.delItem
  rw [if_neg (by rw [canWrite_of_ne hm]; decide), FsM.bind_run, contains_run, hd]
  simp only [isDirectory, Bool.not_true, Bool.false_eq_true, if_false]
  rw [FsM.bind_run, hs]
  simp only [if_true]
  exact (c65_group_handle (g.handle.group n.parts) σ).1 ⟨hm, by
    show σ (g.handle.path ++ n.parts) ≠ none
    rw [hd]
    exact fun e => by cases e⟩

/-- **C65, `del` of a dataset**, at any time in its life, from any group above it (of a zarr dataset: a zarr group): everything
at and below its path is gone, nothing else has changed. -/
theorem c65_del_dataset {d₀ : AnyDataset (Ty.elem o₀.info.dtype)} {ws : List (Write (Ty.elem o₀.info.dtype).T)}
    (hL : L.LawfulFor (prod d₀.base.chunkShape * (Ty.elem o₀.info.dtype).size)) (hdesc : o₀.Describable) (hd : o₀.typed L (Ty.cast o₀.info.dtype) = .ok d₀) (hwf : d₀.WF) (hk : d₀.PlainKeys) (hfit : prod (blocksPerDimension d₀.base.shape d₀.base.chunkShape) < 2 ^ 64)
    (h : Sessions L (Ty.cast o₀.info.dtype) p o₀ os ws σ) {g : PyGroup} {n : PyName} (hp : g.handle.path ++ n.parts = p)
    (hz : o₀.info.isZarr = true → g.handle.isZarr σ = (.ok true, σ)) (hm : g.handle.mode ≠ .r) :
    g.delItem n L Ty σ = (.ok (), σ.without p) ∨
    ∃ sd₀ σ', d₀ = .sharded sd₀ ∧ g.delItem n L Ty σ = (.throw .lengthError, σ') ∧ ∀ q, ¬ p <+: q → σ' q = σ q := by
  obtain ⟨m, cfg, h1, h2, _⟩ := h.carries hL hdesc hd hwf hk
  have hdir : σ (g.handle.path ++ n.parts) = some .dir := by rw [hp]; exact h2.tidy.above _ (List.prefix_refl _)
  obtain ⟨b, hb, _⟩ := h2.isSubGroup hp hz
  cases b with
  | true => rw [← hp]; exact .inl (c65_del_group g n σ hm hdir hb)
  | false =>
    obtain ⟨o, ho, hom, _, _, hdt, _⟩ := c64_reopen hL hdesc hd hwf hk h hp hz
    have hrun : g.delItem n L Ty σ = o.removeDataset L (Ty.cast o₀.info.dtype) σ := by
      have hget : g.getItem n σ = (.ok (.inr o), σ) := by
        unfold PyGroup.getItem
        rw [FsM.bind_run, contains_run, hdir]
        simp only [isDirectory, Bool.not_true, Bool.false_eq_true, if_false]
        rw [FsM.bind_run, hb]
        simp only [Bool.false_eq_true, if_false]
        rw [FsM.bind_run, ho]
        rfl
      unfold PyGroup.delItem
      rw [if_neg (by rw [canWrite_of_ne hm]; decide), FsM.bind_run, contains_run, hdir]
      simp only [isDirectory, Bool.not_true, Bool.false_eq_true, if_false]
      rw [FsM.bind_run, hb]
      simp only [Bool.false_eq_true, if_false]
      rw [FsM.bind_run, hget, ← hdt]
    rw [hrun]
    exact c65_remove_dataset_one_thread hL hdesc hd hwf hk hfit (.opened h hp hz ho) (List.mem_cons_self ..)
      (by rw [hom]; exact hm)

/-- **C65, afterwards** the name is not in the group (nor any name below it), other names are as before, and the file
system is as well-formed as before, so that the name can be used again (`c45_succeeds`), for a dataset in which nothing of
the former one is left. -/
theorem c65_afterwards (g : PyGroup) (n : PyName) (hσ : σ.WF) :
    (σ.without (g.handle.path ++ n.parts)).WF ∧
    (∀ rest, (g.contains ⟨n.absolute, n.parts ++ rest⟩ (σ.without (g.handle.path ++ n.parts))).1 = .ok false) ∧
    (∀ n' : PyName, ¬ n.parts <+: n'.parts →
      (g.contains n' (σ.without (g.handle.path ++ n.parts))).1 = (g.contains n' σ).1) ∧
    ∀ (a : CreateArgs) (o₁ : DatasetObj) (σ₁ : Fs),
      g.handle.createDataset n.parts a (σ.without (g.handle.path ++ n.parts)) = (.ok o₁, σ₁) →
      Sessions L elem (g.handle.path ++ n.parts) o₁ [o₁] [] σ₁ := by
  refine ⟨hσ.without _, fun rest => ?_, fun n' hn => ?_, fun a o₁ σ₁ h => .created (hσ.without _) rfl h⟩
  · rw [contains_run]
    have : σ.without (g.handle.path ++ n.parts) (g.handle.path ++ (n.parts ++ rest)) = none := by
      unfold Fs.without
      rw [if_pos]
      rw [← List.append_assoc]
      exact List.prefix_append _ _
    show Res.ok _ = _
    rw [this]
    rfl
  · rw [contains_run, contains_run]
    have : σ.without (g.handle.path ++ n.parts) (g.handle.path ++ n'.parts) = σ (g.handle.path ++ n'.parts) := by
      unfold Fs.without
      rw [if_neg]
      exact fun e => hn ((List.prefix_append_right_inj _).1 e)
    show Res.ok _ = Res.ok _
    rw [this]

/-! ### Examples -/

/-- all elements are bytes -/
def exTypes : ElemTypes := ⟨fun _ => U8, fun _ => exElem⟩

/-- The theorems apply: the dataset `raw/d` of a zarr container is created and written, and `del` from the root in
mode `a` removes it, as does `removeDataset` of the object that created it. -/
example : ∃ σ, Sessions exLibs exElem ["raw", "d"] exDs [exDs] [⟨[1, 0], [3, 3], fun _ => (4 : Fin (256 ^ 1))⟩] σ ∧
    (⟨exRoot, 2⟩ : PyGroup).delItem ⟨true, ["raw", "d"]⟩ exLibs exTypes σ = (.ok (), σ.without ["raw", "d"]) ∧
    exDs.removeDataset exLibs exElem σ = (.ok (), σ.without ["raw", "d"]) ∧
    ((⟨exRoot, 2⟩ : PyGroup).contains ⟨false, ["raw"]⟩ (σ.without ["raw", "d"])).1 = .ok true := by
  have h0 : Sessions exLibs exElem ["raw", "d"] exDs [exDs] [] _ := .created exZarr_wf rfl (FsM.run_eq (by decide +kernel :
    (exRoot.createDataset ["raw", "d"] exArgs exZarr).1 = .ok exDs))
  obtain ⟨σ, h, e⟩ := exists_session_write h0 (List.mem_singleton.2 rfl) rfl (off := [1, 0]) (shape := [3, 3])
    (by decide) (4 : Fin (256 ^ 1))
  have hz : σ [".zgroup"] ≠ none := by
    rw [e _ (by decide)]
    intro e
    have : ((exRoot.createDataset ["raw", "d"] exArgs exZarr).2 [".zgroup"]).isSome = true := by decide +kernel
    rw [e] at this
    cases this
  have hroot : exRoot.isZarr σ = (.ok true, σ) := by
    rw [group_isZarr]
    cases e : σ [".zgroup"] with
    | none => exact absurd e hz
    | some x =>
      have h' := exSessions_dirs h [] (by decide)
      simp [exRoot, h', e]
  have hfit : prod (blocksPerDimension exDsTyped.shape exDsTyped.chunkShape) < 2 ^ 64 := by decide
  refine ⟨σ, h, ?_, ?_, ?_⟩
  · rcases c65_del_dataset (Ty := exTypes) (exLibs_lawful _) exDs_describable exDs_typed_eq exDsTyped_wf exDs_plainKeys hfit h
      (g := ⟨exRoot, 2⟩) (n := ⟨true, ["raw", "d"]⟩) rfl (fun _ => hroot) (by decide) with h | ⟨_, _, e, _⟩
    · exact h
    · cases e
  · rcases c65_remove_dataset_one_thread (exLibs_lawful _) exDs_describable exDs_typed_eq exDsTyped_wf exDs_plainKeys hfit h
      (List.mem_singleton.2 rfl) (by decide) with h | ⟨_, _, e, _⟩
    · exact h
    · cases e
  · rw [contains_run]
    have : σ.without ["raw", "d"] ["raw"] = some .dir := exSessions_dirs h ["raw"] (by decide)
    show Res.ok (isDirectory (σ.without ["raw", "d"] ["raw"])) = _
    rw [this]
    rfl

/-- the calls of `removeDataset` on `exSharded` -/
def exRemoveCalls : List (Prog Unit) :=
  exSharded.eachChunk fun c => removeTask (exSharded.chunkExists c) (exSharded.removeChunk c)

/-- **C65, counterexample**: with shards and two threads `removeDataset` can fail on a store written by this library, and the
dataset stays, without some of its chunks.  One thread removes chunk 1 and is writing the shard, the other one looks
for chunk 0 in the same shard, which takes no lock, and finds a truncated file. -/
theorem c65_sharded_race_counterexample : ∃ (σ σ' : Store) (ts : List (Prog Unit)) (log : List (Nat × Nat)),
    ShardedReaches exSharded [⟨[1], [4], fun _ => (9 : Fin (256 ^ 1))⟩] σ ∧
    exSharded.removeDataset = .ok ts ∧ Pool.Foreach ts 2 σ (.throw .runtimeError) σ' log := by
  have hfirst : (Pool.steps exRemoveCalls exRaceEvents (Pool.start 2 (Pool.foreachCmds 1 exRemoveCalls.length)
      exShardedStore)).first = .throw .runtimeError := by decide +kernel
  have hdone : (Pool.steps exRemoveCalls exRaceEvents (Pool.start 2 (Pool.foreachCmds 1 exRemoveCalls.length)
      exShardedStore)).client = .done := by decide +kernel
  have hpool : Pool.ForeachRes exRemoveCalls 2 exShardedStore _ _ _ _ :=
    .pool (by decide) (Nat.le_refl 1) rfl hdone
  rw [hfirst] at hpool
  exact ⟨exShardedStore, _, exRemoveCalls, _, exSharded_reaches, rfl, ⟨_, hpool⟩⟩

/-- a sharded dataset in a zarr container -/
def exShardArgs : CreateArgs :=
  { dtype := "uint8", shape := [6], chunkShape := [2], zarrFormat := 3, delimiter := "/", shardShape := [4] }

/-- its first shard is damaged: three bytes are left of it -/
def exTornShard : Fs := fun q => if q = ["s", "c"] then some .dir else if q = ["s", "c", "0"] then some (.file [1, 2, 3])
  else (exRoot.createDataset ["s"] exShardArgs exZarr).2 q

/-- **C65, counterexample**: a sharded dataset with one damaged shard cannot be deleted, neither by `removeDataset` nor by
`del`: each call first looks into the shard for the chunk to be removed.  (A dataset without shards can,
whatever is in its chunks: `c51_remove_dataset`.) -/
theorem c65_torn_shard_counterexample :
    ((⟨exRoot, 3⟩ : PyGroup).delItem ⟨false, ["s"]⟩ exLibs exTypes exTornShard).1 = .throw .runtimeError ∧
    ((⟨exRoot, 3⟩ : PyGroup).contains ⟨false, ["s"]⟩
      ((⟨exRoot, 3⟩ : PyGroup).delItem ⟨false, ["s"]⟩ exLibs exTypes exTornShard).2).1 = .ok true ∧
    ((⟨exRoot, 3⟩ : PyGroup).delItem ⟨false, ["s"]⟩ exLibs exTypes (exTornShard.without ["s", "c", "0"])).1 = .ok () := by
  refine ⟨?_, ?_, ?_⟩ <;> decide +kernel

/-- **C65, counterexample**: `del group["/"]` deletes the group itself. -/
theorem c65_slash_counterexample :
    (⟨exRoot, 2⟩ : PyGroup).delItem ⟨true, []⟩ exLibs exTypes exZarr = (.ok (), exZarr.without []) :=
  c65_del_group ⟨exRoot, 2⟩ ⟨true, []⟩ exZarr (by decide) rfl (FsM.run_eq (by decide +kernel))

end Z5.Props
