import Verif.Spec.Files
import Verif.Proofs.Keeps
import Verif.Proofs.Classify

/-!
# C42: file modes
-/

namespace Z5

theorem pyInferFormat_run (p : Path) (b : String) (σ : Fs) :
    pyInferFormat p b σ = (.ok (σ.looksLikeZarr p b), σ) := by
  unfold pyInferFormat Fs.looksLikeZarr
  simp only [FsM.bind_run, FsM.ite_run, FsM.exist_run, FsM.pure_run]
  split
  · rfl
  · split <;> rfl

theorem remove_run {g : GroupHandle} {σ : Fs} (hw : g.mode.canWrite = true) (he : σ g.path ≠ none) :
    g.remove σ = (.ok (), σ.without g.path) := by
  have : (σ g.path).isSome = true := by
    cases h : σ g.path with
    | none => exact absurd h he
    | some _ => rfl
  unfold GroupHandle.remove
  simp only [hw, FsM.bind_run, FsM.exist_run, FsM.ite_run, this, Bool.not_true, Bool.false_eq_true, if_false]
  rfl

theorem createFile_succeeds {g : GroupHandle} {z : Bool} {f : Int} {σ : Fs} (hσ : σ.WF)
    (hm : g.mode.canCreate = true) (hp : σ g.path = none) (hq : ∀ q, q <+: g.path → isOther (σ q) = false) :
    ∃ σ', g.createFile z f σ = (.ok (), σ') := by
  have hc : g.createAsFile σ = (.ok (), σ.mkdirs g.path) := by
    unfold GroupHandle.createAsFile
    simp only [hm, FsM.bind_run, FsM.exist_run, FsM.ite_run, hp, Option.isSome_none, Bool.not_true,
      Bool.false_eq_true, if_false]
    unfold FsM.createDirectories
    rw [if_neg]
    · rfl
    · rw [List.any_eq_true]
      rintro ⟨n, _, hn⟩
      rw [hq _ (List.take_prefix n _)] at hn
      cases hn
  unfold GroupHandle.createFile
  rw [FsM.bind_run, hc]
  show ∃ σ', writeFileMetadata g.path z f (σ.mkdirs g.path) = _
  unfold writeFileMetadata
  cases z with
  | false =>
    simp only [Bool.false_and, Bool.false_eq_true, if_false, FsM.bind_run, jsonRead_new hσ hp,
      Option.getD_none, FsM.lift_run, Json.set, writeDoc_new hσ hp]
    exact ⟨_, rfl⟩
  | true =>
    by_cases hf : f = 3
    · subst hf
      rw [if_pos (by decide), writeV3Group_new hσ hp]
      exact ⟨_, rfl⟩
    · rw [if_neg (by simpa using hf), if_pos rfl, writeDoc_new hσ hp]
      exact ⟨_, rfl⟩

/-- The outcome of the version check, for the version that is stated -/
def versionOutcome (p : Path) (m : FileMode) (r : Res Int) : Res PyGroup :=
  match r with
  | .ok i => .ok ⟨⟨p, m⟩, i⟩
  | .throw e => .throw e
  | .ub => .ub

/-- The version check of an existing container -/
theorem checkVersion_stated {p : Path} {m : FileMode} {f : Int} {σ : Fs} {v : Json} {z : Bool}
    (h : σ.StatesVersion p z v) : PyGroup.checkVersion ⟨⟨p, m⟩, f⟩ σ
      = (versionOutcome p m (if z then pyZarrVersion v else
          match pyN5Version v with
          | .ok _ => .ok f
          | .throw e => .throw e
          | .ub => .ub), σ) := by
  have obj : ∀ {j : Json} {k : String} {x : Json}, j.find k = some x → ∃ l, j = .obj l := by
    intro j k x h
    cases j <;> first | exact ⟨_, rfl⟩ | (cases h; done)
  have zarr : ∀ {n : String} {j : Json},
      (σ (p ++ ["zarr.json"])).isSome = decide (n = "zarr.json") → n = "zarr.json" ∨ n = ".zgroup" →
      GroupHandle.isZarr ⟨p, m⟩ σ = (.ok true, σ) → σ.docAt (p ++ [n]) = some j →
      j.find "zarr_format" = some v →
      PyGroup.checkVersion ⟨⟨p, m⟩, f⟩ σ = (versionOutcome p m (pyZarrVersion v), σ) := by
    intro n j h1 hn hz hd hj
    obtain ⟨l, rfl⟩ := obj hj
    have hr : ∃ l', GroupHandle.readMetadata ⟨p, m⟩ σ = (.ok (.obj (("zarr_format", v) :: l')), σ) := by
      unfold GroupHandle.readMetadata
      simp only [FsM.bind_run, hz, FsM.ite_run, FsM.exist_run, FsM.pure_run, if_true]
      rcases hn with rfl | rfl
      · simp only [h1, decide_true, if_true, parse_run, hd, hj, Option.getD_some]
        cases Json.find (.obj l) "node_type" with
        | none => exact ⟨_, rfl⟩
        | some x => exact ⟨_, rfl⟩
      · have : decide (".zgroup" = "zarr.json") = false := by decide
        simp only [h1, this, Bool.false_eq_true, if_false, parse_run, hd, hj, Option.getD_some]
        cases Json.find (.obj l) "node_type" with
        | none => exact ⟨_, rfl⟩
        | some x => exact ⟨_, rfl⟩
    obtain ⟨l', hr⟩ := hr
    unfold PyGroup.checkVersion
    simp only [FsM.bind_run, hr, hz, FsM.ite_run, if_true, Json.find, assocGet, FsM.lift_run, FsM.pure_run]
    cases pyZarrVersion v <;> rfl
  have hzarr : σ p ≠ none → GroupHandle.isZarr ⟨p, m⟩ σ
      = (.ok ((σ (p ++ [".zgroup"])).isSome || (σ (p ++ ["zarr.json"])).isSome), σ) := by
    intro h
    rw [group_isZarr]
    cases e : σ p with
    | none => exact absurd e h
    | some _ => rfl
  cases h with
  | v3 he hd hj =>
    have h1 := docAt_isSome hd
    exact zarr (n := "zarr.json") (by rw [h1]; rfl) (.inl rfl) (by rw [hzarr he, h1, Bool.or_true]) hd hj
  | v2 he hn hd hj =>
    exact zarr (n := ".zgroup") (by rw [hn]; decide) (.inr rfl)
      (by rw [hzarr he, docAt_isSome hd, Bool.true_or]) hd hj
  | n5 he hn hn' hd hj =>
    have hz : GroupHandle.isZarr ⟨p, m⟩ σ = (.ok false, σ) := by rw [hzarr he, hn, hn']; rfl
    have hr : GroupHandle.readMetadata ⟨p, m⟩ σ = (.ok (.obj [("n5", v)]), σ) := by
      unfold GroupHandle.readMetadata
      simp only [FsM.bind_run, hz, FsM.ite_run, Bool.false_eq_true, if_false, parse_run, hd, hj, FsM.pure_run]
    unfold PyGroup.checkVersion
    simp only [FsM.bind_run, hr, hz, FsM.ite_run, Bool.false_eq_true, if_false, assocGet, if_true, FsM.lift_run,
      FsM.pure_run]
    cases pyN5Version v <;> rfl

theorem pyN5Version_digit {c : Char} {cs : List Char} (hc : c.isDigit = true) :
    pyN5Version (.str (String.ofList (c :: cs))) = if c.toNat - 48 > 4 then .throw .runtimeError else .ok () := by
  unfold pyN5Version
  simp only [String.toList_ofList, hc, if_true]

theorem checkVersion_supported {p : Path} {m : FileMode} {f : Int} {σ : Fs} {v : Option Int}
    (h : σ.Supported p v) : PyGroup.checkVersion ⟨⟨p, m⟩, f⟩ σ = (.ok ⟨⟨p, m⟩, v.getD f⟩, σ) := by
  cases h with
  | @zarr i h hi =>
    rw [checkVersion_stated h]
    simp only [if_true, pyZarrVersion, if_pos hi]
    rfl
  | @n5 c cs h hc =>
    rw [checkVersion_stated h]
    have hv : pyN5Version (.str (String.ofList (c :: cs))) = .ok () := by
      have hd : c.isDigit = true := by
        simp only [List.mem_cons, List.not_mem_nil, or_false] at hc
        rcases hc with rfl | rfl | rfl | rfl | rfl <;> rfl
      rw [pyN5Version_digit hd, if_neg]
      simp only [List.mem_cons, List.not_mem_nil, or_false] at hc
      rcases hc with rfl | rfl | rfl | rfl | rfl <;> decide
    simp only [Bool.false_eq_true, if_false, hv]
    rfl

theorem checkVersion_unsupported {p : Path} {m : FileMode} {f : Int} {σ : Fs}
    (h : σ.Unsupported p) : PyGroup.checkVersion ⟨⟨p, m⟩, f⟩ σ = (.throw .runtimeError, σ) := by
  cases h with
  | @zarr i h h2 h3 =>
    rw [checkVersion_stated h]
    simp only [if_true, pyZarrVersion, if_neg (not_or.2 ⟨h2, h3⟩)]
    rfl
  | @n5 c cs h hc =>
    rw [checkVersion_stated h]
    have hv : pyN5Version (.str (String.ofList (c :: cs))) = .throw .runtimeError := by
      have hd : c.isDigit = true := by
        simp only [List.mem_cons, List.not_mem_nil, or_false] at hc
        rcases hc with rfl | rfl | rfl | rfl | rfl <;> rfl
      rw [pyN5Version_digit hd, if_pos]
      simp only [List.mem_cons, List.not_mem_nil, or_false] at hc
      rcases hc with rfl | rfl | rfl | rfl | rfl <;> decide
    simp only [Bool.false_eq_true, if_false, hv]
    rfl

/-- **C42.**  What each mode permits -/
theorem c42_flags (m : FileMode) :
    (m.canWrite = true ↔ m ≠ .r) ∧ (m.canCreate = true ↔ m = .w ∨ m = .wm ∨ m = .a) ∧
      (m.mustNotExist = true ↔ m = .wm) ∧ (m.shouldTruncate = true ↔ m = .w) := by
  cases m <;> decide

/-- **C42.**  If the requested format is not the one that is inferred, opening fails in every mode, and
    nothing is removed or created. -/
theorem c42_conflict {p : Path} {b : String} {m : FileMode} {z : Bool} {f : Int} {σ : Fs}
    (hz : z ≠ σ.looksLikeZarr p b) : pyFile p b m (some z) f σ = (.throw .runtimeError, σ) := by
  unfold pyFile
  rw [FsM.bind_run, pyInferFormat_run]
  have : (Option.any (fun x => x != σ.looksLikeZarr p b) (some z)) = true := by
    simpa using hz
  dsimp only
  rw [this]
  rfl

theorem pyFile_start {p : Path} {b : String} {m : FileMode} {u : Option Bool} {f : Int} {σ : Fs}
    (hu : ∀ z, u = some z → z = σ.looksLikeZarr p b) :
    pyFile p b m u f σ = (do
      if (← FsM.exist p) && m.shouldTruncate then GroupHandle.remove ⟨p, m⟩
      if ← FsM.exist p then
        if m.mustNotExist then FsM.lift (.throw .osError)
        else PyGroup.checkVersion ⟨⟨p, m⟩, f⟩
      else if !m.canCreate then FsM.lift (.throw .osError)
      else
        GroupHandle.createFile ⟨p, m⟩ (σ.looksLikeZarr p b) f
        return ⟨⟨p, m⟩, f⟩ : FsM PyGroup) σ := by
  unfold pyFile
  rw [FsM.bind_run, pyInferFormat_run]
  have : u.any (fun x => x != σ.looksLikeZarr p b) = false := by
    cases u with
    | none => rfl
    | some z => simpa using hu z rfl
  dsimp only
  rw [this]
  rfl

/-- **C42.**  `r` and `r+` need an existing container. -/
theorem c42_missing {p : Path} {b : String} {m : FileMode} {u : Option Bool} {f : Int} {σ : Fs}
    (hu : ∀ z, u = some z → z = σ.looksLikeZarr p b) (hm : m = .r ∨ m = .rp) (he : σ p = none) :
    pyFile p b m u f σ = (.throw .osError, σ) := by
  rw [pyFile_start hu]
  have h1 : m.canCreate = false := by rcases hm with rfl | rfl <;> rfl
  simp only [FsM.bind_run, FsM.exist_run, FsM.ite_run, he, Option.isSome_none, Bool.false_and,
    Bool.false_eq_true, if_false, h1, Bool.not_false, if_true]
  rfl

/-- **C42.**  `w-` (and `x`) need a path that does not exist. -/
theorem c42_exists {p : Path} {b : String} {u : Option Bool} {f : Int} {σ : Fs}
    (hu : ∀ z, u = some z → z = σ.looksLikeZarr p b) (he : σ p ≠ none) :
    pyFile p b .wm u f σ = (.throw .osError, σ) := by
  rw [pyFile_start hu]
  have h2 : (σ p).isSome = true := by
    cases h : σ p with
    | none => exact absurd h he
    | some _ => rfl
  have h3 : FileMode.wm.shouldTruncate = false := rfl
  have h4 : FileMode.wm.mustNotExist = true := rfl
  simp only [FsM.bind_run, FsM.exist_run, FsM.ite_run, h2, h3, h4, Bool.true_and,
    Bool.false_eq_true, if_false, FsM.pure_run, if_true]
  rfl

theorem pyFile_use {p : Path} {b : String} {m : FileMode} {u : Option Bool} {f : Int} {σ : Fs}
    (hu : ∀ z, u = some z → z = σ.looksLikeZarr p b) (hm : m = .r ∨ m = .rp ∨ m = .a) (he : σ p ≠ none) :
    pyFile p b m u f σ = PyGroup.checkVersion ⟨⟨p, m⟩, f⟩ σ := by
  rw [pyFile_start hu]
  have h2 : (σ p).isSome = true := by
    cases h : σ p with
    | none => exact absurd h he
    | some _ => rfl
  have h3 : m.shouldTruncate = false := by rcases hm with rfl | rfl | rfl <;> rfl
  have h4 : m.mustNotExist = false := by rcases hm with rfl | rfl | rfl <;> rfl
  simp only [FsM.bind_run, FsM.exist_run, FsM.ite_run, h2, h3, h4, Bool.true_and,
    Bool.false_eq_true, if_false, FsM.pure_run, if_true]

/-- **C42.**  `r`, `r+` and `a` use an existing container: it is not changed, and if its version is
    supported, opening succeeds and the format that the container has is used; if the version is one that is
    not supported, opening fails. -/
theorem c42_use {p : Path} {b : String} {m : FileMode} {u : Option Bool} {f : Int} {σ : Fs}
    (hu : ∀ z, u = some z → z = σ.looksLikeZarr p b) (hm : m = .r ∨ m = .rp ∨ m = .a) (he : σ p ≠ none) :
    (pyFile p b m u f σ).2 = σ ∧
      (∀ v, σ.Supported p v → pyFile p b m u f σ = (.ok ⟨⟨p, m⟩, v.getD f⟩, σ)) ∧
      (σ.Unsupported p → pyFile p b m u f σ = (.throw .runtimeError, σ)) := by
  rw [pyFile_use hu hm he]
  exact ⟨(FsM.Keeps.checkVersion ⟨fun _ => rfl, fun h h' => h.trans h'⟩ _ σ).symm,
    fun v hv => checkVersion_supported hv, fun hv => checkVersion_unsupported hv⟩

/-- **C42.**  `a`, `w-` and `w` create a container where there is none: a directory with the version
    document of the format, and nothing else. -/
theorem c42_create {p : Path} {b : String} {m : FileMode} {u : Option Bool} {f : Int} {σ : Fs} (hσ : σ.WF)
    (hu : ∀ z, u = some z → z = σ.looksLikeZarr p b) (hm : m = .w ∨ m = .wm ∨ m = .a) (he : σ p = none)
    (hq : ∀ q, q <+: p → isOther (σ q) = false) :
    ∃ σ', pyFile p b m u f σ = (.ok ⟨⟨p, m⟩, f⟩, σ') ∧
      σ.NewNode σ' p (groupDocs (.of (σ.looksLikeZarr p b) f) f true) := by
  have h1 : m.canCreate = true := by rcases hm with rfl | rfl | rfl <;> rfl
  obtain ⟨σ', h⟩ := createFile_succeeds (g := ⟨p, m⟩) (z := σ.looksLikeZarr p b) (f := f) hσ h1 he hq
  refine ⟨σ', ?_, (createFile_ok hσ h).2⟩
  rw [pyFile_start hu]
  simp only [FsM.bind_run, FsM.exist_run, FsM.ite_run, he, Option.isSome_none, Bool.false_and,
    Bool.false_eq_true, if_false, h1, FsM.pure_run, Bool.not_true, h]

/-- **C42.**  `w` replaces an existing container: everything in it is gone, whatever it was, and a new one
    of the format that was inferred before stands in its place; nothing else changes. -/
theorem c42_truncate {p : Path} {b : String} {u : Option Bool} {f : Int} {σ : Fs} (hσ : σ.WF)
    (hu : ∀ z, u = some z → z = σ.looksLikeZarr p b) (he : σ p ≠ none) :
    ∃ σ', pyFile p b .w u f σ = (.ok ⟨⟨p, .w⟩, f⟩, σ') ∧
      (σ.without p).NewNode σ' p (groupDocs (.of (σ.looksLikeZarr p b) f) f true) := by
  have hw := hσ.without p
  have hp : σ.without p p = none := if_pos (List.prefix_refl p)
  have hq : ∀ q, q <+: p → isOther (σ.without p q) = false := by
    intro q hq
    unfold Fs.without
    split
    · rfl
    · rename_i hn
      obtain ⟨t, ht⟩ := hq
      have htn : t ≠ [] := by
        rintro rfl
        rw [List.append_nil] at ht
        exact hn (ht ▸ List.prefix_refl _)
      rw [hσ q t htn (by rw [ht]; exact he)]
      rfl
  obtain ⟨σ', h⟩ := createFile_succeeds (g := ⟨p, .w⟩) (z := σ.looksLikeZarr p b) (f := f) hw (by show FileMode.canCreate .w = true; rfl) hp hq
  refine ⟨σ', ?_, (createFile_ok hw h).2⟩
  have h2 : (σ p).isSome = true := by
    cases h : σ p with
    | none => exact absurd h he
    | some _ => rfl
  have h3 : FileMode.w.shouldTruncate = true := rfl
  have h4 : FileMode.w.canCreate = true := rfl
  have hr := remove_run (g := ⟨p, .w⟩) (σ := σ) (by show FileMode.canWrite .w = true; rfl) he
  rw [pyFile_start hu]
  simp only [FsM.bind_run, FsM.exist_run, FsM.ite_run, h2, h3, h4, Bool.true_and, hr, hp, Option.isSome_none,
    if_true, Bool.false_eq_true, if_false, Bool.not_true, h, FsM.pure_run]

/-- A new container is of a supported version if its format is 2 or 3, or N5. -/
theorem supported_new {p : Path} {z : Bool} {f : Int} {σ σ' : Fs}
    (h : σ.NewNode σ' p (groupDocs (.of z f) f true)) (hf : z = true → f = 2 ∨ f = 3) :
    σ'.Supported p (if z then some f else none) := by
  have hd : σ' p ≠ none := by
    rw [h.dirs p (List.prefix_refl p)]
    exact fun e => by cases e
  cases z with
  | false =>
    rw [groupDocs_n5_file] at h
    exact .n5 (c := '2') (cs := ".0.0".toList) (.n5 hd (h.docs _) (h.docs _) (h.docAt _) rfl) (by decide)
  | true =>
    by_cases e : f = 3
    · rw [groupDocs_v3 e] at h
      subst e
      exact .zarr (i := 3) (.v3 hd (h.docAt _) rfl) (.inr rfl)
    · rw [groupDocs_v2 e] at h
      exact .zarr (i := f) (.v2 hd (h.docs _) (h.docAt _) rfl) (hf rfl)

/-- **C42.**  A container that was created by opening a file can be opened again, in every mode that does
    not forbid it, and the format it was created with is found. -/
theorem c42_reopen {p : Path} {b b' : String} {m m' : FileMode} {u u' : Option Bool} {f f' : Int} {σ σ' : Fs}
    {g : PyGroup} (hσ : σ.WF) (he : σ p = none) (h : pyFile p b m u f σ = (.ok g, σ'))
    (hf : σ.looksLikeZarr p b = true → f = 2 ∨ f = 3)
    (hu' : ∀ z, u' = some z → z = σ'.looksLikeZarr p b') (hm' : m' = .r ∨ m' = .rp ∨ m' = .a) :
    pyFile p b' m' u' f' σ' = (.ok ⟨⟨p, m'⟩, if σ.looksLikeZarr p b then f else f'⟩, σ') := by
  have hu : ∀ z, u = some z → z = σ.looksLikeZarr p b := by
    rintro z rfl
    refine Decidable.byContradiction fun hz => ?_
    rw [c42_conflict hz] at h
    cases h
  have hc : m.canCreate = true := by
    refine Decidable.byContradiction fun hn => ?_
    have hm : m = .r ∨ m = .rp := by cases m <;> first | exact .inl rfl | exact .inr rfl | (exact absurd rfl hn)
    rw [c42_missing hu hm he] at h
    cases h
  have hn : σ.NewNode σ' p (groupDocs (.of (σ.looksLikeZarr p b) f) f true) := by
    rw [pyFile_start hu] at h
    simp only [FsM.bind_run, FsM.exist_run, FsM.ite_run, he, Option.isSome_none, Bool.false_and,
      Bool.false_eq_true, if_false, hc, FsM.pure_run, Bool.not_true] at h
    split at h
    · rename_i a σ1 h1
      cases h
      exact (createFile_ok hσ h1).2
    · cases h
    · cases h
  have hd : σ' p ≠ none := by
    rw [hn.dirs p (List.prefix_refl p)]
    exact fun e => by cases e
  rw [(c42_use hu' hm' hd).2.1 _ (supported_new hn hf)]
  cases σ.looksLikeZarr p b <;> rfl

/-- **C42, deviation**: groups and datasets can be created in `r+`, although this mode is said not to create
    (`canCreate` is asked for files only). -/
theorem c42_group_modes {g : GroupHandle} {σ σ' : Fs} :
    (g.create σ = (.ok (), σ') → g.mode ≠ .r) ∧ ∃ σ σ', GroupHandle.create ⟨["g"], .rp⟩ σ = (.ok (), σ') :=
  ⟨fun h => (group_create_ok h).1, exZarr, _, FsM.run_eq (by decide +kernel)⟩

theorem checkVersion_handle {g g' : PyGroup} {σ σ' : Fs} (h : g.checkVersion σ = (.ok g', σ')) : g'.handle = g.handle := by
  unfold PyGroup.checkVersion at h
  obtain ⟨j, σ1, _, h⟩ := FsM.bind_ok.1 h
  obtain ⟨z, σ2, _, h⟩ := FsM.bind_ok.1 h
  cases z with
  | true =>
    simp only [if_true] at h
    cases e : j.find "zarr_format" with
    | none => rw [e] at h; cases h
    | some v =>
      rw [e] at h
      obtain ⟨v, σ3, _, h⟩ := FsM.bind_ok.1 h
      cases h; rfl
  | false =>
    simp only [Bool.false_eq_true, if_false] at h
    cases j with
    | obj l =>
      simp only at h
      cases e : assocGet l "n5" with
      | none => rw [e] at h; cases h; rfl
      | some v =>
        rw [e] at h
        obtain ⟨v, σ3, _, h⟩ := FsM.bind_ok.1 h
        cases h; rfl
    | _ => cases h

theorem pyFile_handle {p : Path} {b : String} {m : FileMode} {u : Option Bool} {f : Int} {g : PyGroup} {σ σ' : Fs}
    (h : pyFile p b m u f σ = (.ok g, σ')) : g.handle = ⟨p, m⟩ := by
  unfold pyFile at h
  obtain ⟨z, σ1, _, h⟩ := FsM.bind_ok.1 h
  split at h
  · cases h
  · obtain ⟨e, σ2, _, h⟩ := FsM.bind_ok.1 h
    have key : ∀ {σ3 σ' : Fs}, (do
        if ← FsM.exist p then
          if m.mustNotExist then FsM.lift (.throw .osError)
          else PyGroup.checkVersion ⟨⟨p, m⟩, f⟩
        else if !m.canCreate then FsM.lift (.throw .osError)
        else
          GroupHandle.createFile ⟨p, m⟩ z f
          return ⟨⟨p, m⟩, f⟩ : FsM PyGroup) σ3 = (.ok g, σ') → g.handle = ⟨p, m⟩ := by
      intro σ3 σ' h
      obtain ⟨e', σ4, _, h⟩ := FsM.bind_ok.1 h
      split at h
      · split at h
        · cases h
        · exact checkVersion_handle h
      · split at h
        · cases h
        · obtain ⟨_, σ5, _, h⟩ := FsM.bind_ok.1 h
          cases h; rfl
    split at h
    · obtain ⟨_, σ3, _, h⟩ := FsM.bind_ok.1 h
      exact key h
    · exact key h

/-- **C42, the modes by their names.**  `"r"` and `"r+"` need an existing container; `"x"` and `"w-"` refuse one and leave it
    alone; `"r"`, `"r+"` and `"a"` use an existing one as it is; only `"w"` replaces it; the others create a missing one.
    Other texts are a `KeyError`.  Only the object that was opened with `"r"` is read-only. -/
theorem c42_named {p : Path} {b s : String} {u : Option Bool} {f : Int} {σ : Fs} (hσ : σ.WF)
    (hu : ∀ z, u = some z → z = σ.looksLikeZarr p b) :
    (s ∉ ["r", "r+", "w", "w-", "x", "a"] → pyFileNamed p b s u f σ = (.throw .keyError, σ)) ∧
    (s ∈ ["r", "r+"] → σ p = none → pyFileNamed p b s u f σ = (.throw .osError, σ)) ∧
    (s ∈ ["w-", "x"] → σ p ≠ none → pyFileNamed p b s u f σ = (.throw .osError, σ)) ∧
    (s ∈ ["r", "r+", "a"] → σ p ≠ none → (pyFileNamed p b s u f σ).2 = σ) ∧
    (s = "w" → σ p ≠ none → ∃ g σ', pyFileNamed p b s u f σ = (.ok g, σ') ∧
      (σ.without p).NewNode σ' p (groupDocs (.of (σ.looksLikeZarr p b) f) f true)) ∧
    (s ∈ ["w", "w-", "x", "a"] → σ p = none → (∀ q, q <+: p → isOther (σ q) = false) →
      ∃ g σ', pyFileNamed p b s u f σ = (.ok g, σ') ∧
        σ.NewNode σ' p (groupDocs (.of (σ.looksLikeZarr p b) f) f true)) ∧
    (∀ g σ', pyFileNamed p b s u f σ = (.ok g, σ') → g.handle.path = p ∧ (g.handle.mode.canWrite = true ↔ s ≠ "r")) := by
  have hn : s ∉ ["r", "r+", "w", "w-", "x", "a"] → pyFileNamed p b s u f σ = (.throw .keyError, σ) := by
    intro hs
    simp only [List.mem_cons, List.not_mem_nil, or_false, not_or] at hs
    obtain ⟨h1, h2, h3, h4, h5, h6⟩ := hs
    have hl : pyFileModes.lookup s = none := by
      simp only [pyFileModes, List.lookup_cons, beq_eq_false_iff_ne.2 h1, beq_eq_false_iff_ne.2 h2, beq_eq_false_iff_ne.2 h3,
        beq_eq_false_iff_ne.2 h4, beq_eq_false_iff_ne.2 h5, beq_eq_false_iff_ne.2 h6, List.lookup_nil]
    unfold pyFileNamed
    rw [hl]
    simp only
    rw [FsM.bind_run, pyInferFormat_run]
    have : (Option.any (fun x => x != σ.looksLikeZarr p b) u) = false := by
      cases u with
      | none => rfl
      | some z => simp [hu z rfl]
    simp only [this, Bool.false_eq_true, if_false]
    rfl
  have hnamed : ∀ m, pyFileModes.lookup s = some m → pyFileNamed p b s u f σ = pyFile p b m u f σ := by
    intro m h
    unfold pyFileNamed
    rw [h]
  refine ⟨hn, ?_, ?_, ?_, ?_, ?_, ?_⟩
  · intro hs he
    simp only [List.mem_cons, List.not_mem_nil, or_false] at hs
    rcases hs with rfl | rfl
    · rw [hnamed .r (by decide)]; exact c42_missing hu (.inl rfl) he
    · rw [hnamed .rp (by decide)]; exact c42_missing hu (.inr rfl) he
  · intro hs he
    simp only [List.mem_cons, List.not_mem_nil, or_false] at hs
    rcases hs with rfl | rfl
    · rw [hnamed .wm (by decide)]; exact c42_exists hu he
    · rw [hnamed .wm (by decide)]; exact c42_exists hu he
  · intro hs he
    simp only [List.mem_cons, List.not_mem_nil, or_false] at hs
    rcases hs with rfl | rfl | rfl
    · rw [hnamed .r (by decide)]; exact (c42_use hu (.inl rfl) he).1
    · rw [hnamed .rp (by decide)]; exact (c42_use hu (.inr (.inl rfl)) he).1
    · rw [hnamed .a (by decide)]; exact (c42_use hu (.inr (.inr rfl)) he).1
  · rintro rfl he
    rw [hnamed .w (by decide)]
    obtain ⟨σ', h1, h2⟩ := c42_truncate (f := f) hσ hu he
    exact ⟨_, σ', h1, h2⟩
  · intro hs he hq
    simp only [List.mem_cons, List.not_mem_nil, or_false] at hs
    have key : ∀ m, (m = .w ∨ m = .wm ∨ m = .a) → pyFileModes.lookup s = some m → ∃ g σ', pyFileNamed p b s u f σ = (.ok g, σ') ∧
        σ.NewNode σ' p (groupDocs (.of (σ.looksLikeZarr p b) f) f true) := by
      intro m hm hl
      rw [hnamed m hl]
      obtain ⟨σ', h1, h2⟩ := c42_create (f := f) hσ hu hm he hq
      exact ⟨_, σ', h1, h2⟩
    rcases hs with rfl | rfl | rfl | rfl
    · exact key .w (.inl rfl) (by decide)
    · exact key .wm (.inr (.inl rfl)) (by decide)
    · exact key .wm (.inr (.inl rfl)) (by decide)
    · exact key .a (.inr (.inr rfl)) (by decide)
  · intro g σ' h
    by_cases hs : s ∈ ["r", "r+", "w", "w-", "x", "a"]
    · have key : ∀ m, pyFileModes.lookup s = some m → g.handle = ⟨p, m⟩ := by
        intro m hl
        rw [hnamed m hl] at h
        exact pyFile_handle h
      simp only [List.mem_cons, List.not_mem_nil, or_false] at hs
      rcases hs with rfl | rfl | rfl | rfl | rfl | rfl
      · rw [key .r (by decide)]; exact ⟨rfl, by dsimp only; decide⟩
      · rw [key .rp (by decide)]; exact ⟨rfl, by dsimp only; decide⟩
      · rw [key .w (by decide)]; exact ⟨rfl, by dsimp only; decide⟩
      · rw [key .wm (by decide)]; exact ⟨rfl, by dsimp only; decide⟩
      · rw [key .wm (by decide)]; exact ⟨rfl, by dsimp only; decide⟩
      · rw [key .a (by decide)]; exact ⟨rfl, by dsimp only; decide⟩
    · rw [hn hs] at h
      cases h

/-- `c42_named` applies to a container that exists: `File("b.zarr", "x")` is refused, and so is the mode `"wb"`. -/
example : pyFileNamed ["b.zarr"] "b.zarr" "x" none 2 (pyFileNamed ["b.zarr"] "b.zarr" "w" none 2 exZarr).2
      = (.throw .osError, (pyFileNamed ["b.zarr"] "b.zarr" "w" none 2 exZarr).2) ∧
    pyFileNamed ["b.zarr"] "b.zarr" "wb" none 2 exZarr = (.throw .keyError, exZarr) := by
  refine ⟨?_, (c42_named exZarr_wf (fun _ e => by cases e)).1 (by decide)⟩
  obtain ⟨g, σ', h, hn⟩ := (c42_named (p := ["b.zarr"]) (b := "b.zarr") (s := "w") (u := none) (f := 2) exZarr_wf
    (fun _ e => by cases e)).2.2.2.2.2.1 (by decide) rfl (by
      rintro q ⟨t, ht⟩
      cases q with
      | nil => rfl
      | cons a q =>
        simp only [List.cons_append, List.cons.injEq, List.append_eq_nil_iff] at ht
        obtain ⟨rfl, rfl, rfl⟩ := ht
        rfl)
  rw [h]
  exact (c42_named (hn.wf exZarr_wf) (fun _ e => by cases e)).2.2.1 (by decide) (by rw [hn.dirs _ (List.prefix_refl _)]; exact fun e => by cases e)

/-- The hypotheses of `c42_create` and `c42_reopen` are met; the extension decides. -/
example : ∃ σ', pyFile ["b.ZARR"] "b.ZARR" .a none 3 exZarr = (.ok ⟨⟨["b.ZARR"], .a⟩, 3⟩, σ') ∧
    pyFile ["b.ZARR"] "" .r (some true) 2 σ' = (.ok ⟨⟨["b.ZARR"], .r⟩, 3⟩, σ') := by
  have hz : exZarr.looksLikeZarr ["b.ZARR"] "b.ZARR" = true := by decide +kernel
  obtain ⟨σ', h, hn⟩ := c42_create (p := ["b.ZARR"]) (b := "b.ZARR") (m := .a) (u := none) (f := 3) exZarr_wf
    (fun z e => by cases e) (.inr (.inr rfl)) rfl (by
      rintro q ⟨t, ht⟩
      cases q with
      | nil => rfl
      | cons a q =>
        simp only [List.cons_append, List.cons.injEq, List.append_eq_nil_iff] at ht
        obtain ⟨rfl, rfl, rfl⟩ := ht
        rfl)
  refine ⟨σ', h, ?_⟩
  have := c42_reopen (b' := "") (m' := .r) (u' := some true) (f' := 2) exZarr_wf rfl h (fun _ => .inr rfl) ?_
    (.inl rfl)
  · rw [this, hz]
    rfl
  · rintro z ⟨⟩
    rw [hz] at hn
    have e := hn.docs "zarr.json"
    unfold Fs.looksLikeZarr
    rw [e]
    simp [groupDocs, Layout.of]
    decide

/-- The hypotheses of `c42_truncate` are met by the container of `exZarr`. -/
example : ∃ σ', pyFile [] "c.zarr" .w none 2 exZarr = (.ok ⟨⟨[], .w⟩, 2⟩, σ') ∧
    (exZarr.without []).NewNode σ' [] (groupDocs (.of (exZarr.looksLikeZarr [] "c.zarr") 2) 2 true) :=
  c42_truncate exZarr_wf (fun z e => by cases e) (fun e => by cases e)

/-- There are containers of a version that is not supported, of both kinds. -/
example : (Fs.Unsupported (fun q => if q = ["zarr.json"] then some (.doc (.obj [("zarr_format", .int 4)]))
      else if q = [] then some .dir else none) []) ∧
    (Fs.Unsupported (fun q => if q = ["attributes.json"] then some (.doc (.obj [("n5", .str "5.1.0")]))
      else if q = [] then some .dir else none) []) :=
  ⟨.zarr (i := 4) (.v3 (fun e => by cases e) rfl rfl) (by decide) (by decide),
    .n5 (c := '5') (cs := ".1.0".toList) (.n5 (fun e => by cases e) rfl rfl rfl rfl) (by decide)⟩

/-- **C42, negation**: N5 versions are compared by their first digit only, so that version 10 is accepted
    although versions above 4 are to be refused. -/
theorem c42_version_counterexample :
    ∃ (σ : Fs) (p : Path), σ.docAt (p ++ ["attributes.json"]) = some (.obj [("n5", .str "10.0.0")]) ∧
      (pyFile p "" .r none 2 σ).1 = .ok ⟨⟨p, .r⟩, 2⟩ :=
  ⟨fun q => if q = [] then some .dir
    else if q = ["attributes.json"] then some (.doc (.obj [("n5", .str "10.0.0")])) else none, [], rfl,
    by decide +kernel⟩

/-- **C42, negation**: an N5 container whose attributes say nothing about the version cannot be opened,
    although `_check_version` means to accept it. -/
theorem c42_no_version_counterexample :
    ∃ (σ : Fs) (p : Path), σ.docAt (p ++ ["attributes.json"]) = some (.obj [("a", .int 1)]) ∧
      (pyFile p "x.n5" .r none 2 σ).1 = .throw .attributeError :=
  ⟨fun q => if q = [] then some .dir
    else if q = ["attributes.json"] then some (.doc (.obj [("a", .int 1)])) else none, [], rfl,
    by decide +kernel⟩

/-- **C42, negation**: a format other than 2 and 3 can be created and not opened again. -/
theorem c42_format_counterexample :
    ∃ (σ : Fs) (p : Path), σ.WF ∧ (pyFile p "x.zarr" .a none 7 σ).1 = .ok ⟨⟨p, .a⟩, 7⟩ ∧
      (pyFile p "x.zarr" .r none 2 (pyFile p "x.zarr" .a none 7 σ).2).1 = .throw .runtimeError :=
  ⟨exZarr, ["x.zarr"], exZarr_wf, by decide +kernel, by decide +kernel⟩

end Z5
