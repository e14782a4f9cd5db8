import Verif.Props.PyDataset
import Verif.Props.Classify

/-!
# C61: `require_dataset` in Python
-/

namespace Z5

theorem has_run (g : GroupHandle) (key : Path) (σ : Fs) :
    g.has key σ = (.ok (isDirectory (σ (g.path ++ key))), σ) := by
  unfold GroupHandle.has FsM.isDir isDirectory
  cases σ (g.path ++ key) with
  | none => rfl
  | some x => cases x <;> rfl

theorem asksShape_unique {a : PyCreateArgs} {s s' : List Nat} (h : a.AsksShape s) (h' : a.AsksShape s') : s = s' := by
  obtain ⟨h1, h2, h3⟩ := h
  cases hs : a.shape with
  | some x => exact (h1 _ hs).symm.trans (h'.1 _ hs)
  | none =>
    cases hd : a.data with
    | some x => exact (h2 _ _ hd).symm.trans (h'.2.1 _ _ hd)
    | none => simp [hs, hd] at h3

theorem asksType_unique {a : PyCreateArgs} {t t' : Datatype} (h : a.AsksType t) (h' : a.AsksType t') :
    plainTypeName t = plainTypeName t' := by
  obtain ⟨h1, h2, h3⟩ := h
  cases hs : a.dtype with
  | some x => exact (h1 _ hs).trans (h'.1 _ hs).symm
  | none =>
    cases hd : a.data with
    | some x => exact (h2 _ _ hd).trans (h'.2.1 _ _ hd).symm
    | none => simp [hs, hd] at h3

theorem asksChunks_unique {a : PyCreateArgs} {s c c' : List Nat} (h : a.AsksChunks s c) (h' : a.AsksChunks s c') :
    c = c' := by
  rcases h with ⟨x, h1, _, rfl⟩ | ⟨h1, d, hd, rfl⟩ <;> rcases h' with ⟨y, h2, _, rfl⟩ | ⟨h2, d', hd', rfl⟩
  · rw [h1] at h2
    cases h2
    rfl
  · simp [h1] at h2
  · simp [h1] at h2
  · rw [defaultLength_unique hd hd']

/-- **C61.**  A dataset that exists is returned if it is what is asked for; otherwise `require_dataset` raises a `TypeError`.
    Nothing is written, and no permission to write is needed. -/
theorem c61_existing {g : PyGroup} {key : Path} {a : PyCreateArgs} {ds : DatasetObj} {σ : Fs}
    (he : isDirectory (σ (g.handle.path ++ key)) = true) (hg : g.handle.isSubGroup key σ = (.ok false, σ))
    (ho : g.handle.openDataset key σ = (.ok ds, σ)) :
    (a.Matches ds → g.requireDataset key a σ = (.ok ds, σ)) ∧
    (¬ a.Matches ds → g.requireDataset key a σ = (.throw .typeError, σ)) := by
  have hrun : g.requireDataset key a σ =
      (if a.shape.any (· != ds.info.shape) then FsM.lift (.throw .typeError)
      else if a.chunks.any (· != ds.info.chunkShape) then FsM.lift (.throw .typeError)
      else if a.dtype.any (fun t => !decide (enumAt Datatype.dtypeToN5 ds.info.dtype = .ok t)) then
        FsM.lift (.throw .typeError)
      else pure ds : FsM DatasetObj) σ := by
    unfold PyGroup.requireDataset
    simp only [FsM.bind_run, has_run, he, if_true, hg, Bool.false_eq_true, if_false, ho]
  have h1 : a.shape.any (· != ds.info.shape) = true ↔ ¬ ∀ s, a.shape = some s → ds.info.shape = s := by
    cases a.shape with
    | none => simp
    | some s =>
      simp only [Option.any_some, bne_iff_ne, ne_eq, Option.some.injEq, forall_eq']
      exact not_congr eq_comm
  have h2 : a.chunks.any (· != ds.info.chunkShape) = true ↔ ¬ ∀ s, a.chunks = some s → ds.info.chunkShape = s := by
    cases a.chunks with
    | none => simp
    | some s =>
      simp only [Option.any_some, bne_iff_ne, ne_eq, Option.some.injEq, forall_eq']
      exact not_congr eq_comm
  have h3 : a.dtype.any (fun t => !decide (enumAt Datatype.dtypeToN5 ds.info.dtype = .ok t)) = true ↔
      ¬ ∀ t, a.dtype = some t → plainTypeName ds.info.dtype = some t := by
    cases a.dtype with
    | none => simp
    | some s => simp [plainName_eq]
  rw [hrun]
  constructor
  · rintro ⟨m1, m2, m3⟩
    rw [if_neg (fun e => h1.1 e m1), if_neg (fun e => h2.1 e m2), if_neg (fun e => h3.1 e m3)]
    rfl
  · intro hm
    by_cases m1 : ∀ s, a.shape = some s → ds.info.shape = s
    · rw [if_neg (fun e => h1.1 e m1)]
      by_cases m2 : ∀ s, a.chunks = some s → ds.info.chunkShape = s
      · rw [if_neg (fun e => h2.1 e m2), if_pos (h3.2 fun m3 => hm ⟨m1, m2, m3⟩)]
        rfl
      · rw [if_pos (h2.2 m2)]
        rfl
    · rw [if_pos (h1.2 m1)]
      rfl

/-- **C61.**  If there is a group under the name, `require_dataset` raises a `TypeError` and writes nothing. -/
theorem c61_group {g : PyGroup} {key : Path} (a : PyCreateArgs) {σ : Fs}
    (he : isDirectory (σ (g.handle.path ++ key)) = true) (hg : g.handle.isSubGroup key σ = (.ok true, σ)) :
    g.requireDataset key a σ = (.throw .typeError, σ) := by
  unfold PyGroup.requireDataset
  simp only [FsM.bind_run, has_run, he, if_true, hg]
  rfl

/-- **C61.**  If there is nothing under the name, `require_dataset` creates the dataset that is asked for (see C60); in
    read-only mode it raises a `ValueError` and writes nothing. -/
theorem c61_new {g : PyGroup} {key : Path} {a : PyCreateArgs} {σ : Fs} (hσ : σ.WF)
    (he : isDirectory (σ (g.handle.path ++ key)) = false) :
    (g.handle.mode.canWrite = false → g.requireDataset key a σ = (.throw .invalidArgument, σ)) ∧
    ∀ ds σ', g.requireDataset key a σ = (.ok ds, σ') → a.Typed → ds.handle.path = g.handle.path ++ key ∧
      g.handle.isZarr σ = (.ok ds.info.isZarr, σ) ∧
      ∃ j, a.Stored (Layout.of ds.info.isZarr g.zarrFormat) j ∧
        σ.NewNode σ' (g.handle.path ++ key)
          (fun k => if k = (Layout.of ds.info.isZarr g.zarrFormat).datasetFile then some j else none) := by
  have hrun : g.requireDataset key a σ = (if !g.handle.mode.canWrite then FsM.lift (.throw .invalidArgument)
      else g.newDatasetFull { parts := key } a : FsM DatasetObj) σ := by
    unfold PyGroup.requireDataset
    simp only [FsM.bind_run, has_run, he, Bool.false_eq_true, if_false]
  rw [hrun]
  constructor
  · intro hw
    rw [hw]
    rfl
  · intro ds σ' h ha
    by_cases hw : (!g.handle.mode.canWrite) = true
    · rw [if_pos hw] at h
      cases h
    · rw [if_neg hw] at h
      obtain ⟨e1, e2, j, e3, e4⟩ := newDatasetFull_ok hσ rfl ha h
      exact ⟨e2, e1, j, e3, e4⟩

/-- **C61.**  After `require_dataset` has created a dataset, and after any history of attribute changes through the dataset, it
    gives this dataset again, for arguments that agree with the first ones as far as they are given, without writing
    anything.  (Chunks larger than the array do not agree with the chunks created: `c61_again_counterexample`.) -/
theorem c61_again {g : PyGroup} {key : Path} {a b : PyCreateArgs} {ds : DatasetObj} {σ σ' : Fs} (hσ : σ.WF)
    (he : isDirectory (σ (g.handle.path ++ key)) = false) (ha : a.Typed)
    (h : g.requireDataset key a σ = (.ok ds, σ'))
    (hk : g.handle.isZarr σ = (.ok false, σ) → key.head? ≠ some ".zgroup" ∧ key.head? ≠ some "zarr.json")
    (hs : ∀ s, b.shape = some s → a.AsksShape s) (hc : ∀ s c, b.chunks = some c → a.AsksShape s → a.AsksChunks s c)
    (ht : ∀ t, b.dtype = some t → ∃ dt, plainTypeName dt = some t ∧ a.AsksType dt) :
    ∃ ds', g.requireDataset key b σ' = (.ok ds', σ') ∧ ds.SameAs ds' := by
  have hrun : g.requireDataset key a σ = (if !g.handle.mode.canWrite then FsM.lift (.throw .invalidArgument)
      else g.newDatasetFull { parts := key } a : FsM DatasetObj) σ := by
    unfold PyGroup.requireDataset
    simp only [FsM.bind_run, has_run, he, Bool.false_eq_true, if_false]
  rw [hrun] at h
  by_cases hw : (!g.handle.mode.canWrite) = true
  · rw [if_pos hw] at h
    cases h
  · rw [if_neg hw] at h
    obtain ⟨args, h1, h2, h3, h4, h5, h6⟩ := newDatasetFull_call hσ rfl ha h
    have h1 : g.handle.createDataset key args σ = (.ok ds, σ') := h1
    obtain ⟨ds', h7, h8⟩ := c45_reopen hσ h1 h2 (fun _ => h3)
    obtain ⟨z, m, j, hz, _, _, _, _, _, _, hnew⟩ := GroupHandle.createDataset_ok hσ h1
    have hsub := c49_dataset (ops := []) hσ h1 hz (fun e => hk (by rw [hz, e])) (by simp)
    have hsub : g.handle.isSubGroup key σ' = (.ok false, σ') := hsub
    refine ⟨ds', (c61_existing ?_ hsub h7).1 ⟨fun s e => ?_, fun c e => ?_, fun t e => ?_⟩, h8⟩
    · rw [hnew.dirs _ (List.prefix_refl _)]
      rfl
    · rw [h8.shape]
      exact asksShape_unique h4 (hs s e)
    · rw [h8.chunkShape]
      exact asksChunks_unique h6 (hc _ c e h4)
    · obtain ⟨dt, e1, e2⟩ := ht t e
      rw [h8.dtype, asksType_unique h5 e2, e1]

theorem fst_run {α : Type} {r : Res α × Fs} {x : Res α} (h : r.1 = x) : r = (x, r.2) := by
  rw [← h]

/-- `f.require_dataset(name, shape=(5, 4), dtype="uint8", chunks=…)` -/
def exRequire (c : List Nat) : PyCreateArgs := { shape := some [5, 4], dtype := some "uint8", chunks := some c }

/-- What two calls of `require_dataset` with the same arguments give: the path and the chunks, or an error -/
def exRequireTwice (k : Path) (c : List Nat) : Option (Path × List Nat) × Option (Path × List Nat) × Option Err :=
  let r1 := exPy.requireDataset k (exRequire c) exZarr
  let r2 := exPy.requireDataset k (exRequire c) r1.2
  let see : Res DatasetObj → Option (Path × List Nat) := fun
    | .ok ds => some (ds.handle.path, ds.info.chunkShape)
    | _ => none
  (see r1.1, see r2.1, match r2.1 with | .throw e => some e | _ => none)

example : exRequireTwice ["d"] [2, 4] = (some (["d"], [2, 4]), some (["d"], [2, 4]), none) := by decide +kernel

/-- **C61, counterexample.**  With chunks that are larger than the array, the second of two identical calls raises a
    `TypeError`: the chunks are limited to the shape when the dataset is created, but not when they are compared. -/
theorem c61_again_counterexample : ∃ (g : PyGroup) (key : Path) (a : PyCreateArgs) (ds : DatasetObj) (σ σ' : Fs), σ.WF ∧
    g.requireDataset key a σ = (.ok ds, σ') ∧ (g.requireDataset key a σ').1 = .throw .typeError := by
  have h : exRequireTwice ["d"] [2, 8] = (some (["d"], [2, 4]), none, some .typeError) := by decide +kernel
  unfold exRequireTwice at h
  dsimp only at h
  have h1 := (Prod.mk.inj h).1
  have h2 := (Prod.mk.inj (Prod.mk.inj h).2).2
  split at h1
  · rename_i ds hds
    refine ⟨exPy, ["d"], exRequire [2, 8], ds, exZarr, _, exZarr_wf, fst_run hds, ?_⟩
    split at h2
    · rename_i e he
      cases h2
      exact he
    · cases h2
  · cases h1

/-- Whether the parent `a` is a group after `require_dataset("a/d")` and after `create_dataset("a/d")` -/
def exParents : Option (Option Bool × Option Bool) :=
  let see : Res Bool → Option Bool := fun | .ok b => some b | _ => none
  let r1 := exPy.requireDataset ["a", "d"] (exRequire [2, 4]) exZarr
  let r2 := exPy.createDatasetFull { parts := ["a", "d"] } (exRequire [2, 4]) exZarr
  match r1.1, r2.1 with
  | .ok _, .ok _ => some (see (exRoot.isSubGroup ["a"] r1.2).1, see (exRoot.isSubGroup ["a"] r2.2).1)
  | _, _ => none

/-- **C61, counterexample.**  `require_dataset("a/d")` in a zarr container leaves the parent `a` without metadata: `a` is a
    directory that does not count as a group, unlike after `create_dataset("a/d")`. -/
theorem c61_parents_counterexample : ∃ (g : PyGroup) (a : PyCreateArgs) (ds : DatasetObj) (σ σ' : Fs), σ.WF ∧
    g.requireDataset ["a", "d"] a σ = (.ok ds, σ') ∧ (g.handle.isSubGroup ["a"] σ').1 = .ok false ∧
    ∃ (ds' : DatasetObj) (σ'' : Fs), g.createDatasetFull { parts := ["a", "d"] } a σ = (.ok ds', σ'') ∧
      (g.handle.isSubGroup ["a"] σ'').1 = .ok true := by
  have h : exParents = some (some false, some true) := by decide +kernel
  unfold exParents at h
  dsimp only at h
  split at h
  · rename_i ds ds' h1 h2
    have h := Option.some.inj h
    have h3 := (Prod.mk.inj h).1
    have h4 := (Prod.mk.inj h).2
    clear h
    split at h3
    · rename_i b1 e1
      cases h3
      split at h4
      · rename_i b2 e2
        cases h4
        exact ⟨exPy, exRequire [2, 4], ds, exZarr, _, exZarr_wf, fst_run h1, e1, ds', _, fst_run h2, e2⟩
      · cases h4
    · cases h3
  · cases h

/-- The hypotheses of `c61_group` are met: `create_dataset("a/d")`, then `require_dataset("a")`. -/
example : (let r := exPy.createDatasetFull { parts := ["a", "d"] } (exRequire [2, 4]) exZarr
    (isDirectory (r.2 ["a"]), match (exPy.requireDataset ["a"] (exRequire [2, 4]) r.2).1 with
      | .throw e => some e
      | _ => none)) = (true, some .typeError) := by
  decide +kernel

end Z5
