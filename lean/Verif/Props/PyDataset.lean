import Verif.Proofs.PyDataset
import Verif.Proofs.Grows

/-!
# C60: `create_dataset` in Python

What is created is what is asked for, arguments that make sense are accepted, and others are refused.
-/

namespace Z5

/-- **C60.**  If `create_dataset` succeeds, a dataset has come into being under the name, and its metadata document, read
    as the specification of the format says, describes the array that was asked for: shape, data type, chunks,
    shards, compression (as documented for the keyword arguments), fill value, separator and encoding of chunk
    keys.  (The levels of blosc in zarr v2 and N5, and gzip in zarr v2: `c60_clevel_counterexample`,
    `c60_gzip_counterexample`.) -/
theorem c60_created {g : PyGroup} {n : PyName} {a : PyCreateArgs} {ds : DatasetObj} {σ σ' : Fs} (hσ : σ.WF)
    (hn : n.absolute = false) (ha : a.Typed) (h : g.createDatasetFull n a σ = (.ok ds, σ')) :
    ds.handle.path = g.handle.path ++ n.parts ∧
    (n.parts.length ≤ 1 → g.handle.isZarr σ = (.ok ds.info.isZarr, σ)) ∧
    ∃ j, a.Stored (Layout.of ds.info.isZarr g.zarrFormat) j ∧
      σ (g.handle.path ++ n.parts) = none ∧
      σ' (g.handle.path ++ n.parts) = some .dir ∧
      ∀ k, σ'.docAt (g.handle.path ++ n.parts ++ [k])
        = if k = (Layout.of ds.info.isZarr g.zarrFormat).datasetFile then some j else none := by
  have hdoc : ∀ {σ σ' : Fs} {p : Path} {f : String} {j : Json},
      σ.NewNode σ' p (fun k => if k = f then some j else none) → σ' p = some .dir ∧
      ∀ k, σ'.docAt (p ++ [k]) = if k = f then some j else none := by
    intro σ σ' p f j hN
    refine ⟨hN.dirs p (List.prefix_refl p), fun k => ?_⟩
    unfold Fs.docAt
    rw [hN.docs]
    by_cases e : k = f <;> simp [e]
  unfold PyGroup.createDatasetFull at h
  by_cases hw : (!g.handle.mode.canWrite) = true
  · rw [if_pos hw] at h
    cases h
  · rw [if_neg hw] at h
    obtain ⟨b, σ1, h1, h2⟩ := FsM.bind_ok.1 h
    clear h
    obtain ⟨rfl, rfl⟩ : b = (match σ (g.handle.path ++ n.parts) with | some .dir => true | _ => false) ∧ σ1 = σ := by
      have : (Res.ok _, σ) = (Res.ok b, σ1) := h1
      cases this
      exact ⟨rfl, rfl⟩
    by_cases hb : (match σ1 (g.handle.path ++ n.parts) with | some .dir => true | _ => false) = true
    · rw [if_pos hb] at h2
      cases h2
    · rw [if_neg hb] at h2
      by_cases hl : n.parts.length > 1
      · rw [if_pos hl] at h2
        obtain ⟨g', σ2, h3, h4⟩ := FsM.bind_ok.1 h2
        clear h2
        have hg' := requireGroups_ok h3
        have hσ2 : σ2.WF := by
          have := FsM.Keeps.requireGroups (root := []) (ns := n.parts.dropLast) (g := g) List.nil_prefix σ1
            ⟨hσ, fun q hq hne => absurd (List.prefix_nil.1 hq) hne⟩
          rw [h3] at this
          exact this.1.1
        by_cases hw' : (!g'.handle.mode.canWrite) = true
        · rw [if_pos hw'] at h4
          cases h4
        · rw [if_neg hw'] at h4
          obtain ⟨b', σ3, h5, h6⟩ := FsM.bind_ok.1 h4
          clear h4
          obtain rfl : σ3 = σ2 := by
            have : (Res.ok _, σ2) = (Res.ok b', σ3) := h5
            cases this
            rfl
          by_cases hb' : b' = true
          · rw [if_pos hb'] at h6
            cases h6
          · rw [if_neg hb'] at h6
            obtain ⟨e1, e2, j, e3, e4⟩ := newDatasetFull_ok hσ2 rfl ha h6
            subst hg'
            have hp : g.handle.path ++ n.parts.dropLast ++ n.parts.getLast?.toList = g.handle.path ++ n.parts := by
              rw [List.append_assoc]
              congr 1
              cases hx : n.parts with
              | nil => rw [hx] at hl; cases hl
              | cons x xs =>
                rw [List.getLast?_eq_some_getLast (List.cons_ne_nil x xs)]
                exact List.dropLast_concat_getLast (List.cons_ne_nil x xs)
            have e2 : ds.handle.path = g.handle.path ++ n.parts.dropLast ++ n.parts.getLast?.toList := e2
            have e4 : σ3.NewNode σ' (g.handle.path ++ n.parts.dropLast ++ n.parts.getLast?.toList) _ := e4
            rw [hp] at e2 e4
            refine ⟨e2, fun e => absurd e (by omega), j, e3, ?_, (hdoc e4).1, (hdoc e4).2⟩
            have hgr := FsM.Keeps.grows_requireGroups n.parts.dropLast g σ1 (g.handle.path ++ n.parts)
            rw [h3] at hgr
            cases hx : σ1 (g.handle.path ++ n.parts) with
            | none => rfl
            | some x => exact absurd e4.fresh (hgr.2 (by rw [hx]; exact fun e => by cases e))
      · rw [if_neg hl] at h2
        obtain ⟨e1, e2, j, e3, e4⟩ := newDatasetFull_ok hσ hn ha h2
        exact ⟨e2, fun _ => e1, j, e3, e4.fresh, (hdoc e4).1, (hdoc e4).2⟩

/-- arguments that make sense lead to metadata, a document and a dataset -/
theorem args_accepted {a : PyCreateArgs} {zf : Int} {z : Bool} {dt : Datatype} {s c : List Nat} {S : Settings}
    (hg : (a.options.map Prod.fst).Nodup)
    (hs : a.AsksShape s) (ht : a.AsksType dt) (hc : a.AsksChunks s c) (hne : s ≠ []) (hpos : ∀ x ∈ c, 0 < x)
    (hfill : FillFits dt a.fill) (hsh : ShardsFit (Layout.of z zf) a.shards c)
    (hS : Asked (Layout.of z zf) (a.compression.getD (Layout.of z zf).defaultCompressor) a.options S)
    (hF : Faithful (Layout.of z zf) (a.compression.getD (Layout.of z zf).defaultCompressor) a.options) :
    ∃ args O r m j, a.resolve z zf = .ok (args, O) ∧
      Meta.atOrRuntime Compressor.stringToCompressor args.compressor = .ok m.compressor ∧ jsonToOptions O [] = .ok r ∧
      ({ args with options := r } : CreateArgs).toMeta z = .ok m ∧ m.toJson = .ok j ∧ m.dtype = dt ∧
      ∀ d, ∃ ds, makeDataset d m = .ok ds := by
  obtain ⟨args, O, r, h1, h2, h3, h4, h5⟩ := resolve_accepts hs ht hc hne hsh hS hg
  have R := resolve_ok h1
  have hS' := hS
  have hF' := hF
  rw [← R.compressor] at hS' hF'
  obtain ⟨comp, hcomp, hi, hi'⟩ := asked_settings R.options hS' hF' hg h2
  have hLz : (Layout.of z zf).isZarr = z := by
    cases z with
    | false => rfl
    | true => by_cases hf : zf = 3 <;> simp [Layout.of, hf, Layout.isZarr]
  rw [hLz] at hi hi'
  -- the metadata
  have hmeta : ∃ m, ({ args with options := r } : CreateArgs).toMeta z = .ok m := by
    unfold CreateArgs.toMeta createMeta Meta.atOrRuntime
    simp only [h5, hcomp, Res.ok_bind]
    have hax : ¬ args.shape.length ≠ args.chunkShape.length := by simpa using R.axes.symm
    by_cases e : args.shardShape = []
    · rw [if_neg (by simpa using e)]
      simp only [Meta.checkShapes, if_neg hax, Res.ok_bind]
      exact ⟨_, rfl⟩
    · rw [if_pos e]
      have hx : ∃ x, a.shards = some x ∧ args.shardShape = x := by
        have := R.shards
        cases hx : a.shards with
        | none => rw [hx] at this; exact absurd this e
        | some x => rw [hx] at this; exact ⟨x, rfl, this⟩
      obtain ⟨x, hx1, hx2⟩ := hx
      obtain ⟨hL, hl, hd⟩ := hsh x hx1
      have hz3 : z = true ∧ args.zarrFormat = 3 := by
        refine ⟨(Layout.of_v3.1 hL).1, ?_⟩
        rw [R.format, if_pos hL]
      rw [if_neg (by rw [hz3.1, hz3.2]; simp), if_neg (by rw [hx2, h4, hl]; simp), hx2, h4,
        shardMultiples_accepts hd, Res.ok_bind]
      rw [h4] at hax
      simp only [Meta.checkShapes, if_neg hax, Res.ok_bind]
      exact ⟨_, rfl⟩
  obtain ⟨m, hm⟩ := hmeta
  obtain ⟨e1, e2, e3, e4, e5, e6, e7, e8, e9, e10, e11, e12⟩ := createMeta_ok hm
  have eo := createMeta_options hm
  dsimp only at e2 e3 e4 e5 e6 e7 e8 e9 e10 eo
  rw [hcomp] at e10
  cases e10
  rw [h5] at e9
  cases e9
  rw [← eo] at hi hi'
  obtain ⟨hx1, hx2⟩ := hS'.compressor hcomp
  -- the document
  have hj : ∃ j, m.toJson = .ok j := by
    obtain ⟨t, ht1, _⟩ := what_accepts hs ht
    cases hzz : z with
    | false =>
      have hmz : m.isZarr = false := e1.trans hzz
      obtain ⟨x, hx⟩ := writeN5_accepts hi (by
        intro e
        rw [eo, e]
        simp only [defaultOptions, assocGet_orElse]
        cases assocGet r "nthreads" <;> simp)
      exact ⟨_, (toJson_n5 hmz).2 ⟨t, x, ht1, hx, rfl⟩⟩
    | true =>
      have hmz : m.isZarr = true := e1.trans hzz
      by_cases hf : zf = 3
      · have hL : Layout.of z zf = .v3 := Layout.of_v3.2 ⟨hzz, hf⟩
        obtain ⟨x, hx⟩ := writeV3_accepts (t := m.dtype.size) hi (hx2 hL)
        obtain ⟨f, hf⟩ := v3Fill_accepts hfill
        exact ⟨_, (toJson_v3 hmz (by rw [e2, R.format, if_pos hL])).2 ⟨t, f, x, ht1, by rw [e6, R.fill]; exact hf, hx, rfl⟩⟩
      · have hL : Layout.of z zf = .v2 := by
          rw [hzz]; simp [Layout.of, hf]
        obtain ⟨x, hx⟩ := writeZarr_accepts hi (hx1 (by rw [hL]; decide))
        rw [toJson_v2 hmz (by rw [e2, R.format, hL]; rfl), hx]
        exact ⟨_, rfl⟩
  obtain ⟨j, hj⟩ := hj
  -- the dataset
  obtain ⟨v, hv⟩ := castFill_accepts hfill
  rw [← R.fill, ← e6] at hv
  have hB : ∃ B, Blocking.make m.shape m.chunkShape = .ok B := by
    unfold Blocking.make
    rw [e3, e4, h3, h4, if_neg hne, if_neg (by rw [← h3, ← h4, R.axes]; omega), if_neg]
    · exact ⟨_, rfl⟩
    · intro e
      exact absurd (hpos 0 (List.mem_of_mem_take e)) (Nat.lt_irrefl 0)
  obtain ⟨B, hB⟩ := hB
  have hmk : ∀ d, ∃ ds, makeDataset d m = .ok ds := by
    intro d
    by_cases hcase : m.shardShape ≠ [] ∧ m.dtype.isComplex = false
    · have hx : ∃ x, a.shards = some x ∧ m.shardShape = x := by
        have := R.shards
        rw [← e5] at this
        cases hx : a.shards with
        | none => rw [hx] at this; exact absurd this hcase.1
        | some x => rw [hx] at this; exact ⟨x, rfl, this⟩
      obtain ⟨x, hx1, hx2⟩ := hx
      obtain ⟨hL, hl, hd⟩ := hsh x hx1
      have hcps : ∃ y, chunksPerShard m.shardShape m.chunkShape = .ok y := by
        unfold chunksPerShard
        rw [hx2, e4, h4, if_neg (by omega), if_neg]
        · exact ⟨_, rfl⟩
        · intro e
          exact absurd (hpos 0 (List.mem_of_mem_take e)) (Nat.lt_irrefl 0)
      exact ⟨_, makeDataset_ok.2 ⟨B, v, S, hB, hv, hi, .inl ⟨hcase.1, hcase.2, hcps, rfl⟩⟩⟩
    · exact ⟨_, makeDataset_ok.2 ⟨B, v, S, hB, hv, hi, .inr ⟨hcase, rfl⟩⟩⟩
  exact ⟨args, O, r, m, j, h1, by unfold Meta.atOrRuntime; rw [hcomp], h2, hm, hj, rfl, hmk⟩

/-- **C60.**  Arguments that make sense are accepted: a name that is not in use in a group that can be written, a shape of at
    least one axis without axes of length 0, chunks of at least one element, a compressor of the format with its
    options, a fill value that the data type has, and shards (zarr v3 only) that consist of whole chunks. -/
theorem c60_succeeds {g : PyGroup} {k : String} {a : PyCreateArgs} {σ : Fs} {z : Bool} {dt : Datatype} {s c : List Nat}
    {S : Settings} (hσ : σ.WF) (hz : g.handle.isZarr σ = (.ok z, σ)) (hw : g.handle.mode.canWrite = true)
    (hfree : σ (g.handle.path ++ [k]) = none) (hdir : ∀ q, q <+: g.handle.path → σ q = some .dir)
    (hg : (a.options.map Prod.fst).Nodup)
    (hs : a.AsksShape s) (ht : a.AsksType dt) (hc : a.AsksChunks s c) (hne : s ≠ []) (hpos : ∀ x ∈ c, 0 < x)
    (hfill : FillFits dt a.fill) (hsh : ShardsFit (Layout.of z g.zarrFormat) a.shards c)
    (hS : Asked (Layout.of z g.zarrFormat) (a.compression.getD (Layout.of z g.zarrFormat).defaultCompressor) a.options S)
    (hF : Faithful (Layout.of z g.zarrFormat) (a.compression.getD (Layout.of z g.zarrFormat).defaultCompressor) a.options) :
    ∃ ds σ', g.createDatasetFull { parts := [k] } a σ = (.ok ds, σ') := by
  obtain ⟨args, O, r, m, j, h1, hcomp, h2, hm, hj, _, hmk⟩ := args_accepted hg hs ht hc hne hpos hfill hsh hS hF
  obtain ⟨ds, hmk⟩ := hmk (g.handle.dataset [k] args.delimiter args.zarrFormat args.encoding)
  have hmode : g.handle.mode ≠ .r := fun e => by rw [e] at hw; cases hw
  obtain ⟨σ', hfin⟩ := c45_succeeds (a := { args with options := r }) hσ hz hmode hfree (by
    intro q hq
    rcases List.prefix_concat_iff.1 hq with rfl | hq
    · exact .inr hfree
    · exact .inl (hdir q hq)) hm hj hmk
  refine ⟨ds, σ', ?_⟩
  unfold PyGroup.createDatasetFull PyGroup.contains GroupHandle.has
  rw [if_neg (by rw [hw]; decide)]
  have hdirb : FsM.isDir (g.handle.path ++ [k]) σ = (.ok false, σ) := by
    unfold FsM.isDir
    rw [hfree]
    rfl
  simp only [FsM.bind_run, hdirb]
  rw [if_neg (by decide), if_neg (by simp)]
  unfold PyGroup.newDatasetFull
  refine FsM.bind_ok.2 ⟨z, σ, hz, FsM.bind_ok.2 ⟨(args, O), σ, FsM.lift_ok.2 ⟨h1, rfl⟩, ?_⟩⟩
  refine FsM.bind_ok.2 ⟨m.compressor, σ, FsM.lift_ok.2 ⟨?_, rfl⟩, FsM.bind_ok.2 ⟨r, σ, FsM.lift_ok.2 ⟨?_, rfl⟩, ?_⟩⟩
  · exact hcomp
  · exact h2
  · rw [createDatasetAt_relative rfl]
    exact hfin

/-- **C60.**  Other arguments are refused: if `create_dataset` succeeds, then the compressor is one of the format, the keyword
    arguments are options of it, shape, data type and chunks are given (or have defaults) and fit each other, no axis
    of the chunks is 0, the data type has the fill value, and shards are given for zarr v3 only and consist of
    whole chunks. -/
theorem c60_refuses {g : PyGroup} {n : PyName} {a : PyCreateArgs} {ds : DatasetObj} {σ σ' : Fs} (hσ : σ.WF)
    (hn : n.absolute = false) (h : g.createDatasetFull n a σ = (.ok ds, σ')) :
    let L := Layout.of ds.info.isZarr g.zarrFormat
    let comp := a.compression.getD L.defaultCompressor
    comp ∈ L.compressors ∧ (∀ p ∈ a.options, p.1 ∈ optionNames L comp) ∧
    ∃ dt s c, a.AsksShape s ∧ a.AsksType dt ∧ a.AsksChunks s c ∧ s ≠ [] ∧ (∀ x ∈ c, 0 < x) ∧ FillFits dt a.fill ∧
      ∀ sh, a.shards = some sh → L = .v3 ∧ (sh ≠ [] → ShardsFit L a.shards c) := by
  obtain ⟨g', n', σ1, hσ1, hn', hf, h⟩ := createDatasetFull_new hσ hn h
  rw [← hf]
  unfold PyGroup.newDatasetFull at h
  obtain ⟨z, σ2, h1, h3⟩ := FsM.bind_ok.1 h
  clear h
  have : σ2 = σ1 := by
    rw [Z5.group_isZarr] at h1
    exact (Prod.mk.inj h1).2.symm
  subst this
  obtain ⟨⟨args, O⟩, σ3, h2, h⟩ := FsM.bind_ok.1 h3
  clear h3
  obtain ⟨hr, rfl⟩ := FsM.lift_ok.1 h2
  have R := resolve_ok hr
  obtain ⟨r, hro, h⟩ := createDatasetJsonAt_ok hn' h
  obtain ⟨z', m, j, hz', _, hm, rfl, hmk, hh, hj, hnew⟩ := GroupHandle.createDataset_ok hσ1 h
  obtain rfl : z' = z := by
    rw [h1] at hz'
    cases hz'
    rfl
  obtain ⟨e1, e2, e3, e4, e5, e6, e7, e8, e9, e10, e11, e12⟩ := createMeta_ok hm
  dsimp only at e2 e3 e4 e5 e6 e7 e8 e9 e10
  obtain ⟨B, v, S, hB, hv, hi, _⟩ := makeDataset_ok.1 hmk
  obtain ⟨hs1, hs2, hs3, hs4⟩ := what_ok R.what
  have hd := dtype_name e9
  have hk := compressor_known R.called
  rw [e1]
  dsimp only
  rw [← R.compressor]
  have hblock : ds.info.shape ≠ [] ∧ 0 ∉ ds.info.chunkShape := by
    unfold Blocking.make at hB
    obtain ⟨h1, hB⟩ := ite_ok hB
    refine ⟨h1, ?_⟩
    by_cases hlt : ds.info.chunkShape.length < ds.info.shape.length
    · rw [if_pos hlt] at hB; cases hB
    · rw [if_neg hlt, e11, List.take_length] at hB
      intro h0
      rw [if_pos h0] at hB
      cases hB
  rw [e3, e4] at hblock
  refine ⟨hk, options_known R.options hk, ds.info.dtype, args.shape, args.chunkShape, hs1,
    ⟨fun t e => by rw [hd, hs2 t e], fun x t e => by rw [hd, hs3 x t e], hs4⟩, R.chunks, hblock.1, ?_, ?_, ?_⟩
  · intro x hx
    rcases Nat.eq_zero_or_pos x with e | e
    · exact absurd (e ▸ hx) hblock.2
    · exact e
  · rw [← R.fill, ← e6]
    exact castFill_fits hv
  · intro sh hsh
    have hL : Layout.of z' g'.zarrFormat = .v3 := by
      by_cases e : Layout.of z' g'.zarrFormat = .v3
      · exact e
      · have := R.noShards e
        rw [hsh] at this
        cases this
    refine ⟨hL, fun hne => ?_⟩
    intro sh' hsh'
    rw [hsh] at hsh'
    cases hsh'
    refine ⟨hL, ?_⟩
    have hsa : args.shardShape = sh := by rw [R.shards, hsh]; rfl
    have hmeta := hm
    unfold CreateArgs.toMeta createMeta at hmeta
    obtain ⟨_, _, hmeta⟩ := Res.bind_eq_ok.1 hmeta
    obtain ⟨_, _, hmeta⟩ := Res.bind_eq_ok.1 hmeta
    dsimp only at hmeta
    rw [if_pos (by rw [hsa]; exact hne)] at hmeta
    obtain ⟨⟨⟩, hx, _⟩ := Res.bind_eq_ok.1 hmeta
    obtain ⟨_, hx⟩ := ite_ok hx
    obtain ⟨hl, hx⟩ := ite_ok hx
    rw [hsa] at hl hx
    refine ⟨by simpa using hl, fun p hp => ?_⟩
    obtain ⟨x1, x2, x3⟩ := shardMultiples_ok hx p hp
    exact ⟨by omega, x3⟩

/-! ### Examples -/

/-- `f = z5py.File(..., use_zarr_format=True)` -/
def exPy : PyGroup := ⟨exRoot, 2⟩

/-- `f.create_dataset("d", shape=(5, 4), dtype="uint8", chunks=(2, 8), compression="zlib", level=7, fillvalue=3)` -/
def exPyArgs : PyCreateArgs :=
  { shape := some [5, 4], dtype := some "uint8", chunks := some [2, 8], compression := some "zlib",
    options := [("level", .int 7)], fill := .ofInt 3 }

/-- The hypotheses of `c60_succeeds` are met. -/
theorem exPy_created : ∃ ds σ', exPy.createDatasetFull { parts := ["d"] } exPyArgs exZarr = (.ok ds, σ') :=
  c60_succeeds (z := true) (dt := .uint8) (s := [5, 4]) (c := [2, 4]) (S := .zlib 7 true) exZarr_wf (by
      rw [show exPy.handle = exRoot from rfl, Z5.group_isZarr]
      exact Prod.ext (by decide +kernel) rfl) (by decide) rfl
    (fun q hq => by rw [List.prefix_nil.1 hq]; rfl) (by decide)
    ⟨fun _ e => by cases e; rfl, (fun _ _ e => by cases e), .inl (by decide)⟩
    ⟨fun _ e => by cases e; rfl, (fun _ _ e => by cases e), .inl (by decide)⟩
    (.inl ⟨_, rfl, rfl, rfl⟩) (by decide) (by decide) ⟨3, by decide +kernel, by decide, by decide⟩ (fun _ e => by cases e)
    (.zlib (fun k v e => by
      have := assocGet_some_mem e
      simp only [exPyArgs, List.mem_cons, List.not_mem_nil, or_false, Prod.mk.injEq] at this
      rw [this.1]
      decide) (.inl ⟨rfl, by decide, by decide⟩)) ⟨by decide, fun _ e => absurd e (by decide)⟩

/-- The hypotheses of `c60_created` are met, and what it says of the example: the array is described by `.zarray`, with the
    chunks limited to the shape. -/
example : ∃ ds σ' j, exPy.createDatasetFull { parts := ["d"] } exPyArgs exZarr = (.ok ds, σ') ∧
    σ'.docAt ["d", ".zarray"] = some j ∧
    ∃ d, ZarrV2.Describes j ⟨.uint8, [5, 4], [2, 4], [], .zlib 7 true, some d, ".", "default"⟩ ∧
      Datatype.castFill .uint8 d = .ok (.int 3) := by
  obtain ⟨ds, σ', h⟩ := exPy_created
  have ht : exPyArgs.Typed := by
    refine ⟨fun s hs => ?_, (fun s e => by cases e), ofInt_representable (by decide), by decide⟩
    rw [← hs.1 [5, 4] rfl]
    decide
  obtain ⟨h1, h2, j, ⟨dt, s, c, h3, h4, h5, h6⟩, h7, h8, h9⟩ := c60_created exZarr_wf rfl ht h
  have hz : ds.info.isZarr = true := by
    have := h2 (Nat.le_refl 1)
    rw [show exPy.handle.isZarr exZarr = (.ok true, exZarr) from by
      rw [show exPy.handle = exRoot from rfl, Z5.group_isZarr]
      exact Prod.ext (by decide +kernel) rfl] at this
    exact (Res.ok.inj (Prod.mk.inj this).1).symm
  rw [hz] at h6 h9
  obtain rfl : [5, 4] = s := h3.1 _ rfl
  obtain rfl : dt = .uint8 := by
    have := h4.1 "uint8" rfl
    cases dt <;> first | rfl | exact absurd this (by decide)
  obtain rfl : c = [2, 4] := by
    rcases h5 with ⟨c0, e, _, e'⟩ | ⟨e, _⟩
    · cases e; exact e'
    · cases e
  obtain ⟨d, hd, hf⟩ := h6 (.zlib 7 true) (.zlib (fun k v e => by
      have := assocGet_some_mem e
      simp only [exPyArgs, List.mem_cons, List.not_mem_nil, or_false, Prod.mk.injEq] at this
      rw [this.1]
      decide) (.inl ⟨rfl, by decide, by decide⟩)) ⟨by decide, fun _ e => absurd e (by decide)⟩
  exact ⟨ds, σ', j, h, h9 ".zarray", d, hd, (hf (by decide)).trans (by decide +kernel)⟩

/-- The default chunks of arrays with one, two and three axes -/
example : pyDefaultDim 1 = 262144 ∧ pyDefaultDim 2 = 512 ∧ pyDefaultDim 3 = 64 :=
  ⟨defaultLength_unique (pyDefaultDim_spec (by decide)) ⟨by decide, by decide⟩,
   defaultLength_unique (pyDefaultDim_spec (by decide)) ⟨by decide, by decide⟩,
   defaultLength_unique (pyDefaultDim_spec (by decide)) ⟨by decide, by decide⟩⟩

/-- the text in a JSON value -/
def textIn : Option Json → Option String
  | some (.str s) => some s
  | _ => none

/-- the number in a JSON value -/
def numberIn : Option Json → Option Int
  | some (.int i) => some i
  | _ => none

theorem textIn_some {j : Option Json} {s : String} (h : textIn j = some s) : j = some (.str s) := by
  unfold textIn at h
  split at h
  · cases h; rfl
  · cases h

theorem numberIn_some {j : Option Json} {i : Int} (h : numberIn j = some i) : j = some (.int i) := by
  unfold numberIn at h
  split at h
  · cases h; rfl
  · cases h

/-- the compressor in `.zarray` of a dataset -/
def compressorAt (σ : Fs) (p : Path) : Option Json := (σ.docAt p).bind (·.find "compressor")

/-- the settings and the object of the example with other arguments -/
def exPyRun (a : PyCreateArgs) : Option (Path × Bool × Settings) :=
  match (exPy.createDatasetFull { parts := ["d"] } a exZarr).1 with
  | .ok ds => some (ds.handle.path, ds.info.isZarr, ds.settings)
  | _ => none

theorem exPyRun_some {a : PyCreateArgs} {p : Path} {z : Bool} {S : Settings} (h : exPyRun a = some (p, z, S)) :
    ∃ ds, exPy.createDatasetFull { parts := ["d"] } a exZarr
      = (.ok ds, (exPy.createDatasetFull { parts := ["d"] } a exZarr).2) ∧ ds.handle.path = p ∧ ds.settings = S := by
  unfold exPyRun at h
  split at h
  · rename_i ds hds
    cases h
    exact ⟨ds, Prod.ext hds rfl, rfl, rfl⟩
  · cases h

/-- `f.create_dataset("d", shape=(5, 4), dtype="uint8", chunks=(2, 8), compression="gzip")` -/
def exPyGzip : PyCreateArgs := { exPyArgs with compression := some "gzip", options := [] }

/-- **C60, counterexample.**  `compression="gzip"` in zarr v2 gives a dataset with zlib compression. -/
theorem c60_gzip_counterexample : ∃ (g : PyGroup) (n : PyName) (a : PyCreateArgs) (ds : DatasetObj) (σ σ' : Fs) (c : Json),
    σ.WF ∧ a.compression = some "gzip" ∧ Asked .v2 "gzip" a.options (.zlib 5 false) ∧
    g.createDatasetFull n a σ = (.ok ds, σ') ∧ ds.settings = .zlib 5 true ∧
    (∃ j, σ'.docAt (ds.handle.path ++ [".zarray"]) = some j ∧ j.find "compressor" = some c) ∧
    ZarrV2.Compression c (.zlib 5 true) ∧ ¬ ZarrV2.Compression c (.zlib 5 false) := by
  obtain ⟨ds, h, hp, hs⟩ := exPyRun_some (by decide +kernel : exPyRun exPyGzip = some (["d"], true, .zlib 5 true))
  have h1 : textIn ((compressorAt (exPy.createDatasetFull { parts := ["d"] } exPyGzip exZarr).2 ["d", ".zarray"]).bind
    (·.find "id")) = some "zlib" := by decide +kernel
  have h2 : numberIn ((compressorAt (exPy.createDatasetFull { parts := ["d"] } exPyGzip exZarr).2 ["d", ".zarray"]).bind
    (·.find "level")) = some 5 := by decide +kernel
  have h1 := textIn_some h1
  have h2 := numberIn_some h2
  unfold compressorAt at h1 h2
  cases hj : (exPy.createDatasetFull { parts := ["d"] } exPyGzip exZarr).2.docAt ["d", ".zarray"] with
  | none => rw [hj] at h1; cases h1
  | some j =>
    rw [hj] at h1 h2
    cases hc : j.find "compressor" with
    | none => simp [hc] at h1
    | some c =>
      simp only [Option.bind_some, hc] at h1 h2
      refine ⟨exPy, { parts := ["d"] }, exPyGzip, ds, exZarr, _, c, exZarr_wf, rfl,
        .gzip (fun k v e => by cases e) (.inr ⟨rfl, rfl⟩), h, hs, ⟨j, by rw [hp]; exact hj, hc⟩,
        .zlib h1 ⟨h2, by decide, by decide⟩, fun hx => ?_⟩
      cases hx with
      | gzip h3 _ =>
        unfold Json.IsStr at h3
        rw [h1] at h3
        exact absurd (Json.str.inj (Option.some.inj h3)) (by decide)

/-- `f.create_dataset("d", shape=(5, 4), dtype="uint8", chunks=(2, 8), compression="blosc", clevel=9)` -/
def exPyBlosc : PyCreateArgs := { exPyArgs with compression := some "blosc", options := [("clevel", .int 9)] }

/-- **C60, counterexample.**  The option `clevel` of blosc, which is the one accepted in zarr v2 and N5, has no effect: the level
    is 5. -/
theorem c60_clevel_counterexample :
    ∃ (g : PyGroup) (n : PyName) (a : PyCreateArgs) (ds : DatasetObj) (σ σ' : Fs) (c : Json),
    σ.WF ∧ a.compression = some "blosc" ∧ Asked .v2 "blosc" a.options (.blosc "lz4" 9 1 0 1) ∧
    g.createDatasetFull n a σ = (.ok ds, σ') ∧ ds.settings = .blosc "lz4" 5 1 0 1 ∧
    (∃ j, σ'.docAt (ds.handle.path ++ [".zarray"]) = some j ∧ j.find "compressor" = some c) ∧
    ¬ ZarrV2.Compression c (.blosc "lz4" 9 1 0 1) := by
  obtain ⟨ds, h, hp, hs⟩ := exPyRun_some
    (by decide +kernel : exPyRun exPyBlosc = some (["d"], true, .blosc "lz4" 5 1 0 1))
  have h2 : numberIn ((compressorAt (exPy.createDatasetFull { parts := ["d"] } exPyBlosc exZarr).2 ["d", ".zarray"]).bind
    (·.find "clevel")) = some 5 := by decide +kernel
  have h2 := numberIn_some h2
  unfold compressorAt at h2
  cases hj : (exPy.createDatasetFull { parts := ["d"] } exPyBlosc exZarr).2.docAt ["d", ".zarray"] with
  | none => rw [hj] at h2; cases h2
  | some j =>
    rw [hj] at h2
    cases hc : j.find "compressor" with
    | none => simp [hc] at h2
    | some c =>
      simp only [Option.bind_some, hc] at h2
      refine ⟨exPy, { parts := ["d"] }, exPyBlosc, ds, exZarr, _, c, exZarr_wf, rfl, ?_, h, hs,
        ⟨j, by rw [hp]; exact hj, hc⟩, fun hx => ?_⟩
      · refine .blosc (fun k v e => ?_) (.inr ⟨rfl, rfl⟩) (.inl ⟨rfl, by decide, by decide⟩) (.inr ⟨rfl, rfl⟩) (by decide)
          (.inr ⟨rfl, rfl⟩) (.inr ⟨rfl, rfl⟩) (fun _ => rfl)
        have := assocGet_some_mem e
        simp only [exPyBlosc, List.mem_cons, List.not_mem_nil, or_false, Prod.mk.injEq] at this
        rw [this.1]
        decide
      · cases hx with
        | blosc _ _ h3 _ _ =>
          have h3 := h3.1
          rw [h2] at h3
          exact absurd (Json.int.inj (Option.some.inj h3)) (by decide)

/-- A file of zarr v3 -/
def exZarr3 : Fs := fun q =>
  if q = [] then some .dir
  else if q = ["zarr.json"] then some (.doc v3GroupDoc)
  else none

/-- `f.create_dataset("d", shape=(n,), dtype="uint8", chunks=(16,), shards=(32,))` -/
def exPyShards (n : Nat) : PyCreateArgs :=
  { shape := some [n], dtype := some "uint8", chunks := some [16], shards := some [32] }

/-- how `create_dataset` ends in the example -/
def exPy3Run (n : Nat) : Option (Option Err) :=
  match (PyGroup.createDatasetFull ⟨exRoot, 3⟩ { parts := ["d"] } (exPyShards n) exZarr3).1 with
  | .ok _ => some none
  | .throw e => some (some e)
  | .ub => none

/-- **C60, counterexample.**  Shards of whole chunks are refused if the chunks are larger than the array, because the chunks are
    limited to the shape before shards and chunks are compared: with chunks of 16 and shards of 32 an array of
    10 elements cannot be created. -/
theorem c60_shards_counterexample : ∃ (g : PyGroup) (n : PyName) (a : PyCreateArgs) (σ : Fs),
    a.shape = some [10] ∧ a.chunks = some [16] ∧ a.shards = some [32] ∧
    (g.createDatasetFull n a σ).1 = .throw .runtimeError ∧
    ∃ ds σ', g.createDatasetFull n { a with shape := some [16] } σ = (.ok ds, σ') := by
  refine ⟨⟨exRoot, 3⟩, { parts := ["d"] }, exPyShards 10, exZarr3, rfl, rfl, rfl, ?_, ?_⟩
  · have : exPy3Run 10 = some (some .runtimeError) := by decide +kernel
    unfold exPy3Run at this
    split at this
    · cases this
    · rename_i e he
      cases this
      exact he
    · cases this
  · have : exPy3Run 16 = some none := by decide +kernel
    unfold exPy3Run at this
    split at this
    · rename_i ds hds
      refine ⟨ds, (PyGroup.createDatasetFull ⟨exRoot, 3⟩ { parts := ["d"] } (exPyShards 16) exZarr3).2, ?_⟩
      show PyGroup.createDatasetFull ⟨exRoot, 3⟩ { parts := ["d"] } (exPyShards 16) exZarr3 = _
      rw [← hds]
    · cases this
    · cases this

/-- **C60, counterexample.**  An axis of length 0 gives chunks of length 0 and with them undefined behaviour (a division by
    zero), although no chunks are asked for. -/
theorem c60_empty_counterexample : ∃ (g : PyGroup) (n : PyName) (a : PyCreateArgs) (σ : Fs), σ.WF ∧
    a.shape = some [0] ∧ a.chunks = none ∧ (g.createDatasetFull n a σ).1 = .ub := by
  refine ⟨exPy, { parts := ["d"] }, { shape := some [0], dtype := some "uint8" }, exZarr, exZarr_wf, rfl, rfl, ?_⟩
  decide +kernel

end Z5
