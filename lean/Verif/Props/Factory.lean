import Verif.Proofs.Factory
import Verif.Props.Sharded

/-!
# C29, C31, C42, C45, C49: creating and opening files, groups and datasets
-/

namespace Z5

/-! ## New nodes -/

theorem Fs.NewNode.node {σ σ' : Fs} {p : Path} {docs : String → Option Json} {L : Layout}
    (h : σ.NewNode σ' p docs) (h1 : ∀ j, docs L.file = some j → j.IsObject)
    (h2 : L = .v3 → ∃ j, docs "zarr.json" = some j ∧ ∀ a, j.find "attributes" = some a → a.IsObject)
    (h3 : L = .v2 → docs "zarr.json" = none) : σ'.Node p L where
  dir := h.dirs p (List.prefix_refl p)
  doc := by
    rw [h.docs]
    cases e : docs L.file with
    | none => exact .inl rfl
    | some j => exact .inr ⟨j, rfl, h1 j e⟩
  v3 := fun e => by
    obtain ⟨j, hj, ha⟩ := h2 e
    subst e
    refine ⟨j, ?_, h1 j hj, ha⟩
    rw [h.docs, hj]
    rfl
  v2 := fun e => by rw [h.docs, h3 e]; rfl

theorem Fs.NewNode.group_isZarr {σ σ' : Fs} {g : GroupHandle} {docs : String → Option Json}
    (h : σ.NewNode σ' g.path docs) :
    g.isZarr σ' = (.ok ((docs ".zgroup").isSome || (docs "zarr.json").isSome), σ') := by
  rw [Z5.group_isZarr, h.dirs _ (List.prefix_refl _), h.isSome, h.isSome]
  rfl

theorem groupDocs_isZarr (z : Bool) (f : Int) (b : Bool) :
    ((groupDocs (.of z f) f b ".zgroup").isSome || (groupDocs (.of z f) f b "zarr.json").isSome)
      = (Layout.of z f).isZarr := by
  cases z with
  | false => simp [groupDocs, Layout.of, Layout.isZarr]
  | true => by_cases hf : f = 3 <;> simp [groupDocs, Layout.of, Layout.isZarr, hf]

theorem groupDocs_object {z : Bool} {f : Int} {b : Bool} {n : String} {j : Json}
    (h : groupDocs (.of z f) f b n = some j) :
    j.IsObject ∧ ((Layout.of z f) = .v3 → ∀ a, j.find "attributes" = some a → a.IsObject) := by
  cases z with
  | false =>
    cases b with
    | false => rw [groupDocs_n5] at h; cases h
    | true =>
      rw [groupDocs_n5_file] at h
      refine ⟨?_, fun e => by simp [Layout.of] at e⟩
      dsimp only at h
      split at h
      · cases h
        exact ⟨_, rfl, by decide⟩
      · cases h
  | true =>
    by_cases hf : f = 3
    · rw [groupDocs_v3 hf] at h
      dsimp only at h
      split at h
      · cases h
        refine ⟨⟨_, rfl, by decide⟩, fun _ a ha => ?_⟩
        cases ha
        exact isObject_empty
      · cases h
    · rw [groupDocs_v2 hf] at h
      refine ⟨?_, fun e => by simp [Layout.of, hf] at e⟩
      dsimp only at h
      split at h
      · cases h
        exact ⟨_, rfl, by simp⟩
      · cases h

theorem groupDocs_node {σ σ' : Fs} {p : Path} {z : Bool} {f : Int} {b : Bool}
    (h : σ.NewNode σ' p (groupDocs (.of z f) f b)) : σ'.Node p (.of z f) := by
  refine h.node (fun j hj => (groupDocs_object hj).1) ?_ ?_
  · intro e
    refine ⟨v3GroupDoc, ?_, fun a ha => ?_⟩
    · rw [e]
      rfl
    · cases ha
      exact isObject_empty
  · intro e
    rw [e]
    rfl

/-- **C29**, the start of histories: the handle of a file that was created refers to a node; its attributes
    are empty but for the version of an N5 file. -/
theorem c29_created_file {g : GroupHandle} {z : Bool} {f : Int} {σ σ' : Fs} (hσ : σ.WF)
    (h : g.createFile z f σ = (.ok (), σ')) :
    (Target.file g).Refers σ' (.of z f) ∧ g.mode.canWrite = true ∧
    σ'.attributes g.path (.of z f)
      = fun k => if z = false ∧ k = "n5" then some (.str "2.0.0") else none := by
  obtain ⟨hm, hn⟩ := createFile_ok hσ h
  refine ⟨⟨groupDocs_node hn, ?_, fun d e => by cases e⟩, ?_, ?_⟩
  · show g.isZarr σ' = _
    rw [hn.group_isZarr, groupDocs_isZarr]
  · revert hm
    cases g.mode <;> decide
  · funext k
    cases z with
    | false =>
      show (σ'.docAt (g.path ++ ["attributes.json"])).bind _ = _
      rw [hn.docAt, groupDocs_n5_file]
      by_cases hk : k = "n5"
      · subst hk
        rfl
      · simp [Json.find, assocGet, Ne.symm hk, hk]
    | true =>
      by_cases hf : f = 3
      · subst hf
        show ((σ'.docAt (g.path ++ ["zarr.json"])).bind _).bind _ = _
        rw [hn.docAt, groupDocs_v3 rfl]
        rfl
      · have hL : Layout.of true f = .v2 := by simp [Layout.of, hf]
        rw [hL]
        show (σ'.docAt (g.path ++ [".zattrs"])).bind _ = _
        rw [hn.docAt, groupDocs_v2 hf]
        rfl

/-- **C29**: the handle of a group that was created refers to a node with no attributes. -/
theorem c29_created_group {root : GroupHandle} {key : Path} {f : Int} {σ σ' : Fs} (hσ : σ.WF)
    (h : root.createGroup key f σ = (.ok (), σ')) :
    ∃ z, root.isZarr σ = (.ok z, σ) ∧
    (Target.group (root.group key)).Refers σ' (.of z f) ∧ root.mode.canWrite = true ∧
    σ'.attributes (root.path ++ key) (.of z f) = fun _ => none := by
  obtain ⟨z, hz, hm, hn⟩ := createGroup_ok hσ h
  refine ⟨z, hz, ⟨groupDocs_node hn, ?_, fun d e => by cases e⟩, ?_, ?_⟩
  · show (root.group key).isZarr σ' = _
    rw [Fs.NewNode.group_isZarr (g := root.group key) hn, groupDocs_isZarr]
  · revert hm
    cases root.mode <;> decide
  · funext k
    cases z with
    | false =>
      show (σ'.docAt (root.path ++ key ++ ["attributes.json"])).bind _ = _
      rw [hn.docAt, groupDocs_n5]
      rfl
    | true =>
      by_cases hf : f = 3
      · subst hf
        show ((σ'.docAt (root.path ++ key ++ ["zarr.json"])).bind _).bind _ = _
        rw [hn.docAt, groupDocs_v3 rfl]
        rfl
      · have hL : Layout.of true f = .v2 := by simp [Layout.of, hf]
        rw [hL]
        show (σ'.docAt (root.path ++ key ++ [".zattrs"])).bind _ = _
        rw [hn.docAt, groupDocs_v2 hf]
        rfl

theorem toJson_object {m : Meta} {j : Json} (h : m.toJson = .ok j)
    (hL : Layout.of m.isZarr m.zarrFormat ≠ .v2) : j.IsObject ∧
    (Layout.of m.isZarr m.zarrFormat = .v3 → j.find "attributes" = some (.obj [])) := by
  cases hz : m.isZarr with
  | false =>
    obtain ⟨s, c, _, _, rfl⟩ := (toJson_n5 hz).1 h
    exact ⟨⟨_, rfl, by simp⟩, fun e => by simp [Layout.of] at e⟩
  | true =>
    by_cases hf : m.zarrFormat = 3
    · obtain ⟨s, f, l, _, _, _, rfl⟩ := (toJson_v3 hz hf).1 h
      exact ⟨⟨_, rfl, by simp⟩, fun _ => rfl⟩
    · exact absurd (by simp [Layout.of, hz, hf]) hL

theorem fileName_cases (m : Meta) : m.fileName = "zarr.json" ∧ m.isZarr = true ∨
    m.fileName = ".zarray" ∧ m.isZarr = true ∨ m.fileName = "attributes.json" ∧ m.isZarr = false := by
  unfold Meta.fileName
  cases m.isZarr with
  | false => exact .inr (.inr ⟨rfl, rfl⟩)
  | true =>
    by_cases hf : m.zarrFormat = 3
    · exact .inl ⟨by simp [hf], rfl⟩
    · exact .inr (.inl ⟨by simp [hf], rfl⟩)

theorem fileName_layout (m : Meta) : m.fileName = (Layout.of m.isZarr m.zarrFormat).datasetFile := by
  unfold Meta.fileName
  cases m.isZarr with
  | false => rfl
  | true => by_cases hf : m.zarrFormat = 3 <;> simp [Layout.of, hf, Layout.datasetFile]

theorem createMeta_ok {a : CreateArgs} {z : Bool} {m : Meta} (h : a.toMeta z = .ok m) :
    m.isZarr = z ∧ m.zarrFormat = a.zarrFormat ∧ m.shape = a.shape ∧ m.chunkShape = a.chunkShape ∧
    m.shardShape = a.shardShape ∧ m.fillValue = a.fill ∧ m.delimiter = a.delimiter ∧
    m.encoding = a.encoding ∧ assocGet Datatype.n5ToDtype a.dtype = some m.dtype ∧
    assocGet Compressor.stringToCompressor a.compressor = some m.compressor ∧
    m.shape.length = m.chunkShape.length ∧ (m.shardShape ≠ [] → z = true ∧ m.zarrFormat = 3) := by
  unfold CreateArgs.toMeta createMeta Meta.atOrRuntime at h
  cases h1 : assocGet Datatype.n5ToDtype a.dtype with
  | none => rw [h1] at h; cases h
  | some dt =>
    cases h2 : assocGet Compressor.stringToCompressor a.compressor with
    | none => rw [h1, h2] at h; cases h
    | some comp =>
      rw [h1, h2] at h
      simp only [Res.bind_eq_ok, Meta.checkShapes] at h
      obtain ⟨_, e1, _, e2, h⟩ := h
      cases e1
      cases e2
      by_cases hs : a.shardShape = []
      · rw [if_neg (by simpa using hs)] at h
        by_cases hl : a.shape.length = a.chunkShape.length
        · rw [if_neg (by simpa using hl)] at h
          cases h
          exact ⟨rfl, rfl, rfl, rfl, rfl, rfl, rfl, rfl, rfl, rfl, hl, fun e => absurd hs e⟩
        · rw [if_pos (by simpa using hl)] at h
          cases h
      · rw [if_pos hs] at h
        obtain ⟨_, h3, h⟩ := Res.bind_eq_ok.1 h
        by_cases hl : a.shape.length = a.chunkShape.length
        · rw [if_neg (by simpa using hl)] at h
          cases h
          refine ⟨rfl, rfl, rfl, rfl, rfl, rfl, rfl, rfl, rfl, rfl, hl, fun _ => ?_⟩
          by_cases hz : z = true ∧ a.zarrFormat = 3
          · exact hz
          · rw [if_pos hz] at h3
            cases h3
        · rw [if_pos (by simpa using hl)] at h
          cases h

theorem makeDataset_ok {d : DatasetHandle} {m : Meta} {ds : DatasetObj} :
    makeDataset d m = .ok ds ↔ ∃ B f s, Blocking.make m.shape m.chunkShape = .ok B ∧
      m.dtype.castFill m.fillValue = .ok f ∧ initCompressor m.compressor m.options = .ok s ∧
      ((m.shardShape ≠ [] ∧ m.dtype.isComplex = false ∧ (∃ c, chunksPerShard m.shardShape m.chunkShape = .ok c) ∧
          ds = ⟨m, { d with cache := some true }, f, s, true⟩) ∨
       (¬ (m.shardShape ≠ [] ∧ m.dtype.isComplex = false) ∧
          ds = ⟨m, { d with cache := some m.isZarr }, f, s, false⟩)) := by
  unfold makeDataset
  simp only [Res.bind_eq_ok]
  constructor
  · rintro ⟨B, h1, f, h2, s, h3, h⟩
    refine ⟨B, f, s, h1, h2, h3, ?_⟩
    split at h
    · rename_i hs
      obtain ⟨c, h4, h5⟩ := Res.bind_eq_ok.1 h
      cases h5
      exact .inl ⟨hs.1, hs.2, ⟨c, h4⟩, rfl⟩
    · rename_i hs
      cases h
      exact .inr ⟨hs, rfl⟩
  · rintro ⟨B, f, s, h1, h2, h3, h⟩
    refine ⟨B, h1, f, h2, s, h3, ?_⟩
    rcases h with ⟨hs, hc, ⟨c, h4⟩, rfl⟩ | ⟨hs, rfl⟩
    · rw [if_pos ⟨hs, hc⟩]
      exact Res.bind_eq_ok.2 ⟨c, h4, rfl⟩
    · rw [if_neg hs]
      rfl

/-- What a dataset object knows of its metadata -/
theorem makeDataset_info {d : DatasetHandle} {m : Meta} {ds : DatasetObj} (h : makeDataset d m = .ok ds)
    (hs : m.shardShape ≠ [] → m.isZarr = true) :
    ds.info = m ∧ ds.handle = { d with cache := some m.isZarr } := by
  obtain ⟨B, f, s, _, _, _, h⟩ := makeDataset_ok.1 h
  rcases h with ⟨h1, _, _, rfl⟩ | ⟨_, rfl⟩
  · refine ⟨rfl, ?_⟩
    rw [hs h1]
  · exact ⟨rfl, rfl⟩

theorem GroupHandle.createDataset_ok {root : GroupHandle} {key : Path} {a : CreateArgs} {ds : DatasetObj}
    {σ σ' : Fs} (hσ : σ.WF) (h : root.createDataset key a σ = (.ok ds, σ')) :
    ∃ z m j, root.isZarr σ = (.ok z, σ) ∧ root.mode ≠ .r ∧ a.toMeta z = .ok m ∧ ds.info = m ∧
      makeDataset (root.dataset key a.delimiter a.zarrFormat a.encoding) m = .ok ds ∧
      ds.handle = { root.dataset key a.delimiter a.zarrFormat a.encoding with cache := some z } ∧
      m.toJson = .ok j ∧
      σ.NewNode σ' (root.path ++ key) (fun n => if n = m.fileName then some j else none) := by
  unfold GroupHandle.createDataset at h
  obtain ⟨z, σ0, h0, hc⟩ := FsM.bind_ok.1 h
  have : σ0 = σ := by
    rw [Z5.group_isZarr] at h0
    exact (Prod.mk.inj h0).2.symm
  subst this
  obtain ⟨m, σ1, h1, h2⟩ := FsM.bind_ok.1 hc
  obtain ⟨hm, rfl⟩ := FsM.lift_ok.1 h1
  obtain ⟨hr, hmk, j, hj, hn⟩ := Z5.createDataset_ok hσ h2
  have hmo := createMeta_ok hm
  obtain ⟨hi, hh⟩ := makeDataset_info hmk (fun e => by
    rw [hmo.1]
    exact (hmo.2.2.2.2.2.2.2.2.2.2.2 e).1)
  rw [hmo.1] at hh
  exact ⟨z, m, j, h0, hr, hm, hi, hmk, hh, hj, hn⟩

/-- **C29**: the handle of a dataset that was created refers to a node with no attributes to be seen. -/
theorem c29_created_dataset {root : GroupHandle} {key : Path} {a : CreateArgs} {ds : DatasetObj}
    {σ σ' : Fs} (hσ : σ.WF) (h : root.createDataset key a σ = (.ok ds, σ')) :
    ∃ z, root.isZarr σ = (.ok z, σ) ∧
    (Target.dataset ds.handle).Refers σ' (.of z a.zarrFormat) ∧ ds.handle.mode.canWrite = true ∧
    ∀ k, (Target.dataset ds.handle).shown (.of z a.zarrFormat)
      (σ'.attributes ds.handle.path (.of z a.zarrFormat)) k = none := by
  obtain ⟨z, m, j, h0, hr, hm, hi, hmk, hh, hj, hn⟩ := GroupHandle.createDataset_ok hσ h
  obtain ⟨e1, e2, _⟩ := createMeta_ok hm
  have hp : ds.handle.path = root.path ++ key := by rw [hh]; rfl
  have hL : Layout.of m.isZarr m.zarrFormat = Layout.of z a.zarrFormat := by rw [e1, e2]
  have hfile : m.fileName = match Layout.of z a.zarrFormat with
      | .v2 => ".zarray" | .v3 => "zarr.json" | .n5 => "attributes.json" := by
    unfold Meta.fileName
    rw [e1, e2]
    cases z with
    | false => rfl
    | true => by_cases hf : a.zarrFormat = 3 <;> simp [Layout.of, hf]
  have hnode : σ'.Node (root.path ++ key) (.of z a.zarrFormat) := by
    generalize hLL : Layout.of z a.zarrFormat = L at hfile hL ⊢
    refine hn.node ?_ ?_ ?_
    · intro j' hj'
      cases L with
      | v2 => rw [hfile] at hj'; cases hj'
      | v3 =>
        rw [hfile] at hj'
        cases hj'
        exact (toJson_object hj (by rw [hL]; decide)).1
      | n5 =>
        rw [hfile] at hj'
        cases hj'
        exact (toJson_object hj (by rw [hL]; decide)).1
    · rintro rfl
      refine ⟨j, by rw [hfile]; rfl, fun b hb => ?_⟩
      rw [(toJson_object hj (by rw [hL]; decide)).2 hL] at hb
      cases hb
      exact isObject_empty
    · rintro rfl
      rw [hfile]
      rfl
  refine ⟨z, h0, ⟨by show σ'.Node ds.handle.path _; rw [hp]; exact hnode, ?_, ?_⟩, ?_, ?_⟩
  · show ds.handle.isZarr σ' = _
    rw [dataset_isZarr, hh]
    cases z with
    | false => rfl
    | true => by_cases hf : a.zarrFormat = 3 <;> simp [Layout.of, hf, Layout.isZarr]
  · intro d _ hL5
    show σ' (ds.handle.path ++ ["attributes.json"]) ≠ none
    rw [hp, hn.docs, hfile, hL5]
    exact fun e => by cases e
  · rw [hh]
    revert hr
    show root.mode ≠ _ → root.mode.canWrite = true
    cases root.mode <;> decide
  · intro k
    rw [hp]
    generalize hLL : Layout.of z a.zarrFormat = L at hfile hL ⊢
    cases L with
    | v2 =>
      show (σ'.docAt (root.path ++ key ++ [".zattrs"])).bind _ = _
      rw [hn.docAt, hfile]
      rfl
    | v3 =>
      show ((σ'.docAt (root.path ++ key ++ ["zarr.json"])).bind _).bind _ = _
      rw [hn.docAt, hfile]
      show (j.find "attributes").bind _ = _
      rw [(toJson_object hj (by rw [hL]; decide)).2 hL]
      rfl
    | n5 =>
      show (if n5DatasetKeys.contains k then none else
        (σ'.docAt (root.path ++ key ++ ["attributes.json"])).bind _) = _
      rw [hn.docAt, hfile]
      show (if n5DatasetKeys.contains k then none else j.find k) = none
      have hz : m.isZarr = false := by
        rw [e1]
        cases z with
        | false => rfl
        | true => simp [Layout.of] at hLL; split at hLL <;> cases hLL
      obtain ⟨s, c, _, _, rfl⟩ := (toJson_n5 hz).1 hj
      split
      · rfl
      · rename_i hk
        simp [n5DatasetKeys] at hk
        simp [Json.find, assocGet, Ne.symm hk.1, Ne.symm hk.2.1, Ne.symm hk.2.2.1, Ne.symm hk.2.2.2.2]

/-! ## C45 -/

/-- **C45.**  If something exists at the key, no dataset is created and nothing is changed. -/
theorem c45_existing {root : GroupHandle} {key : Path} (a : CreateArgs) {σ : Fs}
    (he : σ (root.path ++ key) ≠ none) :
    (root.createDataset key a σ).2 = σ ∧ (∀ ds, (root.createDataset key a σ).1 ≠ .ok ds) ∧
    ∀ z m, root.isZarr σ = (.ok z, σ) → a.toMeta z = .ok m →
      root.createDataset key a σ = (.throw .invalidArgument, σ) := by
  have hc : ∀ m, (root.dataset key a.delimiter a.zarrFormat a.encoding).createDataset m σ
      = (.throw .invalidArgument, σ) := by
    intro m
    have he' : (σ (root.path ++ key)).isSome = true := by
      cases h : σ (root.path ++ key)
      · exact absurd h he
      · rfl
    have hcr : (root.dataset key a.delimiter a.zarrFormat a.encoding).create σ
        = (.throw .invalidArgument, σ) := by
      unfold DatasetHandle.create
      split
      · rfl
      · simp only [FsM.bind_run, FsM.exist_run]
        have : (σ (root.dataset key a.delimiter a.zarrFormat a.encoding).path).isSome = true := he'
        rw [this]
        rfl
    simp only [DatasetHandle.createDataset, FsM.bind_run, hcr]
  have main : root.createDataset key a σ = (match (root.isZarr σ).1 with
      | .ok z => match a.toMeta z with
        | .ok _ => .throw .invalidArgument
        | .throw e => .throw e
        | .ub => .ub
      | .throw e => .throw e
      | .ub => .ub, σ) := by
    have hz : root.isZarr σ = ((root.isZarr σ).1, σ) := by rw [Z5.group_isZarr]
    unfold GroupHandle.createDataset
    rw [FsM.bind_run, hz]
    cases (root.isZarr σ).1 with
    | ok z =>
      simp only [FsM.bind_run, FsM.lift_run]
      cases a.toMeta z with
      | ok m => exact hc m
      | throw e => rfl
      | ub => rfl
    | throw e => rfl
    | ub => rfl
  rw [main]
  refine ⟨rfl, ?_, ?_⟩
  · intro ds hd
    revert hd
    show (match (root.isZarr σ).1 with
      | .ok z => match a.toMeta z with
        | .ok _ => .throw .invalidArgument
        | .throw e => .throw e
        | .ub => .ub
      | .throw e => .throw e
      | .ub => .ub) = Res.ok ds → False
    cases (root.isZarr σ).1 with
    | ok z =>
      dsimp only
      cases a.toMeta z <;> exact fun e => by cases e
    | throw e => exact fun e => by cases e
    | ub => exact fun e => by cases e
  · intro z m hz hm
    rw [hz]
    dsimp only
    rw [hm]

/-- **C45.**  If `createDataset` succeeds, it has made a directory with the metadata document in it, and
    nothing else; the dataset has the requested properties. -/
theorem c45_created {root : GroupHandle} {key : Path} {a : CreateArgs} {ds : DatasetObj}
    {σ σ' : Fs} (hσ : σ.WF) (h : root.createDataset key a σ = (.ok ds, σ')) :
    σ'.WF ∧ (∃ j, σ.NewNode σ' (root.path ++ key) (fun n => if n = ds.info.fileName then some j else none)) ∧
    ds.info.shape = a.shape ∧ ds.info.chunkShape = a.chunkShape ∧ ds.info.shardShape = a.shardShape ∧
    ds.info.zarrFormat = a.zarrFormat ∧ ds.info.fillValue = a.fill ∧
    assocGet Datatype.n5ToDtype a.dtype = some ds.info.dtype ∧
    assocGet Compressor.stringToCompressor a.compressor = some ds.info.compressor ∧
    root.isZarr σ = (.ok ds.info.isZarr, σ) ∧ ds.handle.path = root.path ++ key ∧
    ds.keyCfg = ⟨ds.info.isZarr, a.delimiter.toList, a.zarrFormat.toNat, a.encoding.toList⟩ := by
  obtain ⟨z, m, j, h0, hr, hm, rfl, hmk, hh, hj, hn⟩ := GroupHandle.createDataset_ok hσ h
  obtain ⟨e1, e2, e3, e4, e5, e6, e7, e8, e9, e10, e11⟩ := createMeta_ok hm
  refine ⟨hn.wf hσ, ⟨j, hn⟩, e3, e4, e5, e2, e6, e9, e10, by rw [e1, h0], by rw [hh]; rfl, ?_⟩
  unfold DatasetObj.keyCfg
  rw [hh, e1]
  rfl

theorem readChunkConfig_run (p : Path) (σ : Fs) : readChunkConfig p σ
    = (if (σ (p ++ ["zarr.json"])).isSome then (match σ.docAt (p ++ ["zarr.json"]) with
        | some j => getZarrChunkConfig (some j) none
        | none => .throw .typeError)
      else if (σ (p ++ [".zarray"])).isSome then (match σ.docAt (p ++ [".zarray"]) with
        | some j => getZarrChunkConfig none (some j)
        | none => .throw .typeError)
      else .ok .initial, σ) := by
  unfold readChunkConfig
  simp only [FsM.bind_run, FsM.exist_run, FsM.ite_run, parse_run, FsM.lift_run]
  split
  · generalize σ.docAt (p ++ ["zarr.json"]) = o
    cases o <;> rfl
  · split
    · generalize σ.docAt (p ++ [".zarray"]) = o
      cases o <;> rfl
    · rfl

/-- In a container whose format is that of the new dataset, `openDataset` reads the new document. -/
theorem openDataset_new {root : GroupHandle} {key : Path} {m m' : Meta} {j : Json} {cfg : ChunkConfig}
    {ds' : DatasetObj} {σ σ' : Fs}
    (hσ : σ.WF) (hz : root.isZarr σ = (.ok m.isZarr, σ))
    (hn : σ.NewNode σ' (root.path ++ key) (fun n => if n = m.fileName then some j else none))
    (hf : Meta.fromJson j m.isZarr = .ok m')
    (hc : m.isZarr = true → getZarrChunkConfig (if m.fileName = "zarr.json" then some j else none)
      (if m.fileName = ".zarray" then some j else none) = .ok cfg)
    (hi : m.isZarr = false → cfg = ChunkConfig.initial)
    (hm : makeDataset (root.dataset key cfg.delimiter cfg.zarrFormat cfg.encoding) m' = .ok ds') :
    root.openDataset key σ' = (.ok ds', σ') := by
  have hp : σ' (root.path ++ key) = some .dir := hn.dirs _ (List.prefix_refl _)
  have hfile : m.fileName = "zarr.json" ∧ m.isZarr = true ∨ m.fileName = ".zarray" ∧ m.isZarr = true ∨
      m.fileName = "attributes.json" ∧ m.isZarr = false := by
    unfold Meta.fileName
    cases m.isZarr with
    | false => exact .inr (.inr ⟨rfl, rfl⟩)
    | true =>
      by_cases hf : m.zarrFormat = 3
      · exact .inl ⟨by simp [hf], rfl⟩
      · exact .inr (.inl ⟨by simp [hf], rfl⟩)
  -- the chunk configuration
  have hcfg : (if m.isZarr = true then readChunkConfig (root.path ++ key) else pure ChunkConfig.initial) σ'
        = (.ok cfg, σ') ∧ readChunkConfig (root.path ++ key) σ' = (.ok cfg, σ') := by
    have : readChunkConfig (root.path ++ key) σ' = (.ok cfg, σ') := by
      rw [readChunkConfig_run]
      simp only [hn.isSome, hn.docAt]
      rcases hfile with ⟨e1, e2⟩ | ⟨e1, e2⟩ | ⟨e1, e2⟩
      · have := hc e2
        rw [e1] at this
        rw [e1]
        exact Prod.ext this rfl
      · have := hc e2
        rw [e1] at this
        rw [e1]
        exact Prod.ext this rfl
      · rw [hi e2, e1]
        rfl
    refine ⟨?_, this⟩
    cases hzz : m.isZarr with
    | true => exact this
    | false => rw [hi hzz]; rfl
  have hread : readDatasetMetadata (root.path ++ key) σ' = (.ok m', σ') := by
    rw [readDatasetMetadata_run]
    simp only [hn.isSome, hn.docAt]
    rcases hfile with ⟨e1, e2⟩ | ⟨e1, e2⟩ | ⟨e1, e2⟩ <;> rw [e1] <;> rw [e2] at hf <;> exact Prod.ext hf rfl
  have hopen : (root.dataset key cfg.delimiter cfg.zarrFormat cfg.encoding).openDataset σ'
      = (.ok ds', σ') := by
    unfold DatasetHandle.openDataset
    have hp' : σ' (root.dataset key cfg.delimiter cfg.zarrFormat cfg.encoding).path = some .dir := hp
    have hr' : readDatasetMetadata (root.dataset key cfg.delimiter cfg.zarrFormat cfg.encoding).path σ'
      = (.ok m', σ') := hread
    simp only [FsM.bind_run, FsM.exist_run, hp']
    simp only [Option.isSome_some, Bool.not_true, Bool.false_eq_true, if_false, FsM.bind_run, hr', FsM.lift_run,
      hm]
  have hroot : (σ' root.path).isSome = true := by
    rw [hn.dirs _ (List.prefix_append _ _)]
    rfl
  unfold GroupHandle.openDataset
  cases hzz : m.isZarr with
  | true =>
    rw [hzz] at hz hcfg
    have hz' := hn.isZarr hσ hz (fun e => by cases e)
    simp only [FsM.bind_run, hz', if_true, hcfg.2, hopen]
  | false =>
    have hz' : ∃ z, root.isZarr σ' = (.ok z, σ') := by
      rw [Z5.group_isZarr, hroot]
      exact ⟨_, rfl⟩
    obtain ⟨z, hz'⟩ := hz'
    cases z with
    | true => simp only [FsM.bind_run, hz', if_true, hcfg.2, hopen]
    | false =>
      simp only [FsM.bind_run, hz', Bool.false_eq_true, if_false, FsM.pure_run]
      rw [← hi hzz]
      exact hopen

theorem settings_of_threads {m : Meta} (h : m.threads = none) :
    initCompressor m.compressor m.options = m.settings := by
  have h : assocGet m.options "nthreads" = none := h
  unfold Meta.settings
  cases m.compressor <;>
    simp [initCompressor, Opts.int, Opts.str, Opts.bool, mapAt, assocGet_erase, h]

theorem settings_exist {m : Meta} {s : Settings} (h : initCompressor m.compressor m.options = .ok s) :
    ∃ s', m.settings = .ok s' := by
  unfold Meta.settings
  generalize m.options = o at h
  generalize m.compressor = c at h
  cases c with
  | raw => exact ⟨_, rfl⟩
  | blosc =>
    simp only [initCompressor, Res.bind_eq_ok, opts_int_iff, opts_str_iff] at h
    obtain ⟨l, h1, sh, h2, cd, h3, bs, h4, _⟩ := h
    refine ⟨.blosc cd l sh bs 1, ?_⟩
    simp [initCompressor, Opts.int, Opts.str, mapAt, assocGet_erase, h1, h2, h3, h4]
  | zlib =>
    simp only [initCompressor, Res.bind_eq_ok, opts_int_iff, opts_bool_iff] at h
    obtain ⟨l, h1, z, h2, _⟩ := h
    refine ⟨.zlib l z, ?_⟩
    simp [initCompressor, Opts.int, Opts.bool, mapAt, assocGet_erase, h1, h2]
  | _ =>
    simp only [initCompressor, Res.bind_eq_ok, opts_int_iff] at h
    obtain ⟨l, h1, _⟩ := h
    simp [initCompressor, Opts.int, mapAt, assocGet_erase, h1]

theorem zlib_settings {c : Compressor} {o : Opts} {l : Int} {z : Bool}
    (h : initCompressor c o = .ok (.zlib l z)) : c = .zlib := by
  cases c with
  | zlib => rfl
  | raw => cases h
  | blosc =>
    simp only [initCompressor, Res.bind_eq_ok] at h
    obtain ⟨_, _, _, _, _, _, _, _, h⟩ := h
    split at h <;> cases h
  | _ =>
    simp only [initCompressor, Res.bind_eq_ok] at h
    obtain ⟨_, _, h⟩ := h
    cases h

/-- What is read from the document of a dataset that was created: a dataset with the same properties. -/
theorem reopen_pure {p : Path} {mode : FileMode} {z : Bool} {a : CreateArgs} {ds : DatasetObj} {j : Json}
    (hm : a.toMeta z = .ok ds.info)
    (hmk : makeDataset ⟨p, mode, a.delimiter, a.zarrFormat, a.encoding, none⟩ ds.info = .ok ds)
    (hj : ds.info.toJson = .ok j) (ht : ds.info.Typed)
    (hf : ds.info.isZarr = true → a.zarrFormat = 2 ∨ a.zarrFormat = 3) :
    ∃ m' cfg ds', Meta.fromJson j ds.info.isZarr = .ok m' ∧
      (ds.info.isZarr = true → getZarrChunkConfig (if ds.info.fileName = "zarr.json" then some j else none)
        (if ds.info.fileName = ".zarray" then some j else none) = .ok cfg) ∧
      (ds.info.isZarr = false → cfg = ChunkConfig.initial) ∧
      makeDataset ⟨p, mode, cfg.delimiter, cfg.zarrFormat, cfg.encoding, none⟩ m' = .ok ds' ∧ ds.SameAs ds' := by
  obtain ⟨e1, e2, e3, e4, e5, e6, e7, e8, e9, e10, e11, e12⟩ := createMeta_ok hm
  obtain ⟨_, hh⟩ := makeDataset_info hmk (fun e => by
    rw [e1]
    exact (e12 e).1)
  rw [e1] at hh
  obtain ⟨B, f, s, b1, b2, b3, hds⟩ := makeDataset_ok.1 hmk
  have hfill : ds.fill = f := by rcases hds with ⟨_, _, _, e⟩ | ⟨_, e⟩ <;> rw [e]
  have hset : ds.settings = s := by rcases hds with ⟨_, _, _, e⟩ | ⟨_, e⟩ <;> rw [e]
  have hkey : ds.keyCfg = ⟨z, a.delimiter.toList, a.zarrFormat.toNat, a.encoding.toList⟩ := by
    unfold DatasetObj.keyCfg
    rw [hh]
    rfl
  -- a dataset made from metadata `m'` read back, with a handle from `cfg`
  have make : ∀ (m' : Meta) (cfg : ChunkConfig) (s' : Settings) (f' : FillVal),
      m'.shape = ds.info.shape → m'.chunkShape = ds.info.chunkShape → m'.dtype = ds.info.dtype →
      m'.shardShape = ds.info.shardShape → m'.isZarr = ds.info.isZarr →
      m'.dtype.castFill m'.fillValue = .ok f' → initCompressor m'.compressor m'.options = .ok s' →
      ∃ ds', makeDataset ⟨p, mode, cfg.delimiter, cfg.zarrFormat, cfg.encoding, none⟩ m' = .ok ds' ∧
        ds'.info = m' ∧ ds'.fill = f' ∧ ds'.settings = s' ∧ ds'.sharded = ds.sharded ∧
        ds'.handle.path = ds.handle.path ∧ ds'.handle.mode = ds.handle.mode ∧
        ds'.keyCfg = ⟨z, cfg.delimiter.toList, cfg.zarrFormat.toNat, cfg.encoding.toList⟩ := by
    intro m' cfg s' f' c1 c2 c3 c4 c5 c6 c7
    have hp : ds.handle.path = p := by rw [hh]
    have hmo : ds.handle.mode = mode := by rw [hh]
    rcases hds with ⟨d1, d2, d3, e⟩ | ⟨d1, e⟩
    · refine ⟨_, makeDataset_ok.2 ⟨B, f', s', by rw [c1, c2]; exact b1, c6, c7,
        .inl ⟨by rw [c4]; exact d1, by rw [c3]; exact d2, by rw [c4, c2]; exact d3, rfl⟩⟩, rfl, rfl, rfl,
        by rw [e], hp.symm, hmo.symm, ?_⟩
      rw [← (e12 d1).1.symm]
      rfl
    · refine ⟨_, makeDataset_ok.2 ⟨B, f', s', by rw [c1, c2]; exact b1, c6, c7,
        .inr ⟨by rw [c4, c3]; exact d1, rfl⟩⟩, rfl, rfl, rfl, by rw [e], hp.symm, hmo.symm, ?_⟩
      unfold DatasetObj.keyCfg
      rw [c5, e1]
      rfl
  cases hz : ds.info.isZarr with
  | false =>
    obtain ⟨m', g1, g2, g3, g4, g5, g6, g7, g8, g9, g10⟩ := c27_roundtrip ht hz hj
    have hsh : ds.info.shardShape = [] := by
      by_cases hs : ds.info.shardShape = []
      · exact hs
      · rw [e1, (e12 hs).1] at hz
        cases hz
    have hs' : ∃ s', initCompressor m'.compressor m'.options = .ok s' ∧
        (ds.info.compressor ≠ .zlib → s' = s) ∧
        (∀ l z, s = .zlib l z → s' = .zlib l false) := by
      by_cases hc : ds.info.compressor = .zlib
      · have : ∃ l z, s = .zlib l z := by
          rw [hc] at b3
          simp only [initCompressor, Res.bind_eq_ok] at b3
          obtain ⟨l, _, z, _, h⟩ := b3
          cases h
          exact ⟨l, z, rfl⟩
        obtain ⟨l, z, rfl⟩ := this
        refine ⟨_, g9 hc l z b3, fun e => absurd hc e, fun l' z' e => ?_⟩
        cases e
        rfl
      · refine ⟨s, (g8 hc).trans b3, fun _ => rfl, fun l z e => ?_⟩
        rw [e] at b3
        exact absurd (zlib_settings b3) hc
    obtain ⟨s', k1, k2, k3⟩ := hs'
    have hcast : ∃ f', m'.dtype.castFill m'.fillValue = .ok f' := by
      rw [g10]
      cases m'.dtype <;> first | exact ⟨.int 0, by decide +kernel⟩ | exact ⟨.dbl .zero, by decide +kernel⟩
    obtain ⟨f', k4⟩ := hcast
    obtain ⟨ds', mk, i1, i2, i3, i4, i5, i6, i7⟩ := make m' ChunkConfig.initial s' f' g4 g5 g3
      (by rw [g6, hsh]) (by rw [g2, hz]) k4 k1
    have hz' : z = false := by rw [← e1]; exact hz
    refine ⟨m', .initial, ds', g1, (fun e => by cases e), fun _ => rfl, mk, ?_⟩
    exact {
      path := i5, mode := i6, isZarr := by rw [i1, g2, hz], dtype := by rw [i1, g3]
      shape := by rw [i1, g4], chunkShape := by rw [i1, g5], shardShape := by rw [i1, g6, hsh]
      sharded := i4
      keys := fun c => by rw [i7, hkey, hz']; rfl
      fill := fun e => by
        rcases e with e | e
        · rw [hz] at e; cases e
        · rw [i2, hfill]
          rw [g3, g10] at k4
          rw [e, k4] at b2
          exact Res.ok.inj b2
      fillN5 := fun _ => by rw [i1, g10]
      compressor := by rw [i1, g7]
      settingsV2 := fun e => by rw [hz] at e; cases e
      settingsV3 := fun e => by rw [hz] at e; cases e
      settingsN5 := fun _ e => by rw [i3, hset, k2 e]
      settingsN5zlib := fun _ l z e => by rw [i3]; exact k3 l z (by rw [← hset, e]) }
  | true =>
    have hz' : z = true := by rw [← e1]; exact hz
    rcases hf hz with hf | hf
    · have hf' : ds.info.zarrFormat = 2 := by rw [e2, hf]
      obtain ⟨m', g1, g2, g3, g4, g5, g6, g7, g8, g9, g10, g11, g12⟩ := c26_roundtrip ht hz hf' hj
      have hsh : ds.info.shardShape = [] := by
        by_cases hs : ds.info.shardShape = []
        · exact hs
        · rw [(e12 hs).2] at hf'
          cases hf'
      obtain ⟨s', hs'⟩ := settings_exist b3
      have hcfg := c26_key_config hz hf' hj
      have hfn : ds.info.fileName = ".zarray" := by
        unfold Meta.fileName
        rw [hz, hf']
        rfl
      obtain ⟨ds', mk, i1, i2, i3, i4, i5, i6, i7⟩ := make m' ⟨ds.info.delimiter, 2, "default"⟩ s' f g5 g6 g4
        (by rw [g7, hsh]) (by rw [g2, hz]) (by rw [g4, g8]; exact b2)
        (by rw [settings_of_threads g12, g11]; exact hs')
      refine ⟨m', _, ds', g1, (fun _ => by rw [hfn]; exact hcfg), (fun e => by cases e), mk, ?_⟩
      exact {
        path := i5, mode := i6, isZarr := by rw [i1, g2, hz], dtype := by rw [i1, g4]
        shape := by rw [i1, g5], chunkShape := by rw [i1, g6], shardShape := by rw [i1, g7, hsh]
        sharded := i4
        keys := fun c => by rw [i7, hkey, hz', hf, e7]; rfl
        fill := fun _ => by rw [i2, hfill]
        fillN5 := fun e => by rw [hz] at e; cases e
        compressor := by rw [i1, g10]
        settingsV2 := fun _ => by rw [i1, g11]
        settingsV3 := fun e => by rw [hz, hf'] at e; cases e
        settingsN5 := fun e => by rw [hz] at e; cases e
        settingsN5zlib := fun e => by rw [hz] at e; cases e }
    · have hf' : ds.info.zarrFormat = 3 := by rw [e2, hf]
      obtain ⟨m', g1, g2, g3, g4, g5, g6, g7, g8, g9, g10, g11, g12, g13, g14⟩ := c28_roundtrip ht hz hf' hj
      obtain ⟨s', hs'⟩ := settings_exist b3
      have hcfg := c28_key_config hz hf' hj none
      have hfn : ds.info.fileName = "zarr.json" := by
        unfold Meta.fileName
        rw [hz, hf']
        rfl
      obtain ⟨ds', mk, i1, i2, i3, i4, i5, i6, i7⟩ := make m' ⟨ds.info.delimiter, 3, ds.info.encoding⟩
        s'.asV3 f g5 g6 g4 g7 (by rw [g2, hz]) (by rw [g10]; exact b2)
        (by rw [settings_of_threads g14]; exact g13 s' hs')
      refine ⟨m', _, ds', g1, (fun _ => by rw [hfn]; exact hcfg), (fun e => by cases e), mk, ?_⟩
      exact {
        path := i5, mode := i6, isZarr := by rw [i1, g2, hz], dtype := by rw [i1, g4]
        shape := by rw [i1, g5], chunkShape := by rw [i1, g6], shardShape := by rw [i1, g7]
        sharded := i4
        keys := fun c => by rw [i7, hkey, hz', hf, e7, e8]
        fill := fun _ => by rw [i2, hfill]
        fillN5 := fun e => by rw [hz] at e; cases e
        compressor := by rw [i1, g12]
        settingsV2 := fun e => by rw [hz, hf'] at e; cases e
        settingsV3 := fun _ s hs => by rw [i1]; exact g13 s hs
        settingsN5 := fun e => by rw [hz] at e; cases e
        settingsN5zlib := fun e => by rw [hz] at e; cases e }

/-- **C45.**  What `createDataset` created, `openDataset` opens, as a dataset with the same properties. -/
theorem c45_reopen {root : GroupHandle} {key : Path} {a : CreateArgs} {ds : DatasetObj}
    {σ σ' : Fs} (hσ : σ.WF) (h : root.createDataset key a σ = (.ok ds, σ')) (ht : ds.info.Typed)
    (hf : ds.info.isZarr = true → a.zarrFormat = 2 ∨ a.zarrFormat = 3) :
    ∃ ds', root.openDataset key σ' = (.ok ds', σ') ∧ ds.SameAs ds' := by
  obtain ⟨z, m, j, h0, hr, hm, rfl, hmk, hh, hj, hn⟩ := GroupHandle.createDataset_ok hσ h
  obtain ⟨m', cfg, ds', h1, h2, h3, h4, h5⟩ := reopen_pure hm hmk hj ht hf
  exact ⟨ds', openDataset_new hσ (by rw [(createMeta_ok hm).1]; exact h0) hn h1 h2 h3 h4, h5⟩

/-- A new dataset has no chunks. -/
theorem Fs.NewNode.chunks {σ σ' : Fs} {p : Path} {docs : String → Option Json} (h : σ.NewNode σ' p docs) :
    σ'.chunks p = fun _ => none := by
  funext k
  have hne : ∀ k acc, keyNames k acc ≠ [] := by
    intro k
    induction k with
    | nil => exact fun _ => by simp [keyNames]
    | cons c cs ih =>
      intro acc
      unfold keyNames
      split
      · simp
      · exact ih _
  unfold Fs.chunks
  generalize hq : keyNames k [] = q
  have hq' : q ≠ [] := hq ▸ hne k []
  match q, hq' with
  | [n], _ =>
    rw [h.docs]
    cases docs n <;> rfl
  | a :: b :: l, _ => rw [h.below _ (by simp)]

/-- **C45.**  A new dataset is in the initial state of all histories (`Reaches`), and reads as the fill
    value everywhere.  `D` is the dataset object with the same shape and chunk shape. -/
theorem c45_all_fill {root : GroupHandle} {key : Path} {a : CreateArgs} {ds : DatasetObj}
    {σ σ' : Fs} (hσ : σ.WF) (h : root.createDataset key a σ = (.ok ds, σ')) {E : Elem} {D : Dataset E}
    (hD : D.WF) (hw : D.canWrite = true) :
    Reaches D [] (σ'.chunks (root.path ++ key)) ∧
    ∃ A, ReadsAs D (σ'.chunks (root.path ++ key)) A ∧ ∀ x, InBox x D.shape → A x = D.fill := by
  obtain ⟨_, ⟨j, hn⟩, _⟩ := c45_created hσ h
  rw [hn.chunks]
  have hr : Reaches D [] (fun _ => none) := .empty fun _ _ => rfl
  obtain ⟨A, h1, h2⟩ := Props.c12_unwritten_is_fill hD hw hr
  exact ⟨hr, A, h1, fun x hx => h2 x hx (fun w hw => by cases hw)⟩

/-- **C45**, for sharded datasets -/
theorem c45_all_fill_sharded {root : GroupHandle} {key : Path} {a : CreateArgs} {ds : DatasetObj}
    {σ σ' : Fs} (hσ : σ.WF) (h : root.createDataset key a σ = (.ok ds, σ')) {E : Elem}
    {D : ShardedDataset E} (hD : D.WF) (hw : D.canWrite = true) :
    ShardedReaches D [] (σ'.chunks (root.path ++ key)) ∧
    ∃ A, ShardedReadsAs D (σ'.chunks (root.path ++ key)) A ∧ ∀ x, InBox x D.shape → A x = D.fill := by
  obtain ⟨_, ⟨j, hn⟩, _⟩ := c45_created hσ h
  rw [hn.chunks]
  have hr : ShardedReaches D [] (fun _ => none) := .empty fun _ _ => rfl
  obtain ⟨A, h1, h2⟩ := Props.c12_sharded_unwritten_is_fill hD hw hr
  exact ⟨hr, A, h1, fun x hx => h2 x hx (fun w hw => by cases hw)⟩

/-- **C45.**  `createDataset` succeeds if the record is valid and can be serialised, the compressor
    accepts its options, nothing exists at the key and no file is on the way to it. -/
theorem c45_succeeds {root : GroupHandle} {key : Path} {a : CreateArgs} {σ : Fs} {z : Bool} {m : Meta}
    {j : Json} {ds : DatasetObj} (hσ : σ.WF) (hz : root.isZarr σ = (.ok z, σ)) (hr : root.mode ≠ .r)
    (he : σ (root.path ++ key) = none) (hw : ∀ q, q <+: root.path ++ key → σ q = some .dir ∨ σ q = none)
    (hm : a.toMeta z = .ok m) (hj : m.toJson = .ok j)
    (hmk : makeDataset (root.dataset key a.delimiter a.zarrFormat a.encoding) m = .ok ds) :
    ∃ σ', root.createDataset key a σ = (.ok ds, σ') := by
  have hdirs : FsM.createDirectories (root.path ++ key) σ = (.ok (), σ.mkdirs (root.path ++ key)) := by
    unfold FsM.createDirectories
    rw [if_neg]
    · rfl
    · intro hany
      obtain ⟨n, _, hn⟩ := List.any_eq_true.1 hany
      rcases hw _ (List.take_prefix n (root.path ++ key)) with e | e <;> rw [e] at hn <;> cases hn
  have hcr : (root.dataset key a.delimiter a.zarrFormat a.encoding).create σ
      = (.ok (), σ.mkdirs (root.path ++ key)) := by
    unfold DatasetHandle.create
    have : (root.dataset key a.delimiter a.zarrFormat a.encoding).mode ≠ .r := hr
    rw [if_neg this]
    simp only [FsM.bind_run, FsM.exist_run]
    have : (σ (root.dataset key a.delimiter a.zarrFormat a.encoding).path).isSome = false := by
      show (σ (root.path ++ key)).isSome = false
      rw [he]
      rfl
    rw [this, if_neg (by decide)]
    exact hdirs
  have hwr : writeDatasetMetadata (root.path ++ key) m (σ.mkdirs (root.path ++ key))
      = (.ok (), (σ.mkdirs (root.path ++ key)).setDoc (root.path ++ key ++ [m.fileName]) j) := by
    unfold writeDatasetMetadata Meta.fileName
    cases hmz : m.isZarr with
    | false =>
      simp only [Bool.false_and, Bool.false_eq_true, if_false, FsM.bind_run, FsM.lift_run, hj]
      exact writeDoc_new hσ he _ _
    | true =>
      by_cases hf : m.zarrFormat = 3
      · rw [if_pos (by rw [hf]; rfl)]
        simp only [FsM.bind_run, FsM.lift_run, hj, jsonRead_new hσ he, Option.bind_none, FsM.pure_run,
          hf, if_true]
        exact writeDoc_new hσ he _ _
      · rw [if_neg (by simpa using hf)]
        simp only [FsM.bind_run, FsM.lift_run, hj, hf, if_true, if_false]
        exact writeDoc_new hσ he _ _
  refine ⟨(σ.mkdirs (root.path ++ key)).setDoc (root.path ++ key ++ [m.fileName]) j, ?_⟩
  unfold GroupHandle.createDataset
  simp only [FsM.bind_run, hz, FsM.lift_run, hm]
  unfold DatasetHandle.createDataset
  have hwr' : writeDatasetMetadata (root.dataset key a.delimiter a.zarrFormat a.encoding).path m
      (σ.mkdirs (root.path ++ key)) = _ := hwr
  simp only [FsM.bind_run, hcr, hwr', FsM.lift_run, hmk]

/-- Whether an operation gave an error of this kind -/
def Res.isThrow {α : Type} : Res α → Err → Bool
  | .throw e, e' => decide (e = e')
  | _, _ => false

/-- An empty zarr container of format 2 -/
def exZarr : Fs := fun q =>
  if q = [] then some .dir
  else if q = [".zgroup"] then some (.doc (.obj [("zarr_format", .int 2)]))
  else none

/-- A handle of it -/
def exRoot : GroupHandle := ⟨[], .a⟩

/-- A dataset to be created in it -/
def exArgs : CreateArgs :=
  { dtype := "uint8", shape := [5, 4], chunkShape := [2, 3], compressor := "zlib", delimiter := "/" }

theorem exZarr_wf : exZarr.WF := by
  intro p q hq h
  cases p with
  | nil => rfl
  | cons a p =>
    refine absurd ?_ h
    show (if a :: p ++ q = [] then _ else if a :: p ++ q = [".zgroup"] then _ else _) = _
    rw [if_neg (by simp), if_neg]
    intro e
    cases q with
    | nil => exact hq rfl
    | cons b q => simp at e

theorem FsM.run_eq {α : Type} {x : FsM α} {σ : Fs} {r : Res α} (h : (x σ).1 = r) : x σ = (r, (x σ).2) :=
  Prod.ext h rfl

/-- The object that is made -/
def exDs : DatasetObj :=
  { info := { isZarr := true, zarrFormat := 2, dtype := .uint8, shape := [5, 4], chunkShape := [2, 3],
              compressor := .zlib, options := [("level", .int 5), ("useZlib", .bool true)],
              fillValue := .zero, delimiter := "/", encoding := "default", shardShape := [] },
    handle := ⟨["raw", "d"], .a, "/", 2, "default", some true⟩
    fill := .int 0, settings := .zlib 5 true, sharded := false }

theorem exDs_typed : exDs.info.Typed where
  axes := rfl
  shape := by decide
  chunks := by decide
  shards := by decide
  options := by
    intro k v h
    simp only [exDs, assocGet] at h
    split at h
    · cases h; decide
    · split at h
      · cases h; trivial
      · cases h
  fill := ⟨0, 0, by decide, by decide, rfl⟩

/-- The hypotheses of `c45_created`, `c45_reopen` and `c45_all_fill` are met: a dataset in a directory that
    does not exist yet. -/
example : ∃ ds' σ', exRoot.createDataset ["raw", "d"] exArgs exZarr = (.ok exDs, σ') ∧
    exRoot.openDataset ["raw", "d"] σ' = (.ok ds', σ') ∧ exDs.SameAs ds' := by
  have h := FsM.run_eq (by decide +kernel :
    (exRoot.createDataset ["raw", "d"] exArgs exZarr).1 = .ok exDs)
  obtain ⟨ds', h', hs⟩ := c45_reopen exZarr_wf h exDs_typed (fun _ => .inl rfl)
  exact ⟨ds', _, h, h', hs⟩

/-- **C45, negation**: creation that fails can leave a directory behind, which makes every later creation
    of this dataset fail.  (`xz` is a compressor of N5 that zarr has no name for, which is noticed when the
    metadata are written.) -/
theorem c45_leftover_counterexample :
    ∃ (root : GroupHandle) (key : Path) (a b : CreateArgs) (σ σ' : Fs), σ.WF ∧ σ (root.path ++ key) = none ∧
      root.createDataset key a σ = (.throw .runtimeError, σ') ∧ isDirectory (σ' (root.path ++ key)) = true ∧
      (∃ ds σ'', root.createDataset key b σ = (.ok ds, σ'')) ∧
      root.createDataset key b σ' = (.throw .invalidArgument, σ') := by
  have h := FsM.run_eq (by decide +kernel :
    (exRoot.createDataset ["raw", "d"] { exArgs with compressor := "xz" } exZarr).1 = .throw .runtimeError)
  have hd : isDirectory ((exRoot.createDataset ["raw", "d"] { exArgs with compressor := "xz" } exZarr).2
    ["raw", "d"]) = true := by decide +kernel
  refine ⟨exRoot, ["raw", "d"], _, exArgs, exZarr, _, exZarr_wf, rfl, h, hd, ⟨exDs, _, FsM.run_eq ?_⟩,
    Prod.ext ?_ (c45_existing _ ?_).1⟩
  · decide +kernel
  · decide +kernel
  · intro e
    have hd : isDirectory (_ : Option Entry) = true := hd
    rw [show (exRoot.path ++ ["raw", "d"]) = ["raw", "d"] from rfl] at e
    rw [e] at hd
    cases hd

/-- **C45, negation**: a zarr format other than 2 and 3 is accepted, and the dataset cannot be opened. -/
theorem c45_format_counterexample :
    ∃ (root : GroupHandle) (key : Path) (a : CreateArgs) (ds : DatasetObj) (σ σ' : Fs), σ.WF ∧
      root.createDataset key a σ = (.ok ds, σ') ∧ (root.openDataset key σ').1 = .throw .runtimeError :=
  ⟨exRoot, ["d"], { exArgs with zarrFormat := 7 },
    { exDs with info := { exDs.info with zarrFormat := 7 },
                handle := { exDs.handle with path := ["d"], zarrFormat := 7 } },
    exZarr, _, exZarr_wf, FsM.run_eq (by decide +kernel), by decide +kernel⟩

end Z5
