import Verif.Spec.PyProps
import Verif.Proofs.Persist
import Verif.Props.PyRequire

/-!
# C73: the properties of a dataset
-/

namespace Z5.Props

open Z5 Spec

theorem blocksInAxis_least {s c : Nat} (hc : 0 < c) : s ≤ blocksInAxis s c * c ∧ ∀ m, s ≤ m * c → blocksInAxis s c ≤ m := by
  unfold blocksInAxis
  have h1 := Nat.div_add_mod s c
  have h2 := Nat.mod_lt s hc
  split
  · rename_i h
    rw [h, Nat.mul_comm] at h1
    refine ⟨by simp only [Nat.add_zero] at h1 ⊢; omega, fun m hm => ?_⟩
    have : s / c * c ≤ m * c := by omega
    simpa using Nat.le_of_mul_le_mul_right this hc
  · rename_i h
    refine ⟨?_, fun m hm => ?_⟩
    · rw [Nat.add_mul, Nat.one_mul, Nat.mul_comm]
      omega
    · have : s / c < m := by
        apply Nat.lt_of_mul_lt_mul_right (a := c)
        rw [Nat.mul_comm]
        omega
      omega

/-- The object is made of a record that says what the description says. -/
theorem reports_of {h : DatasetHandle} {ds : DatasetObj} {L : Layout} {d : ArrayDesc} {m : Meta} (hmk : makeDataset h m = .ok ds)
    (hz : m.isZarr = L.isZarr) (hd : m.dtype = d.dtype) (hs : m.shape = d.shape) (hc : m.chunkShape = d.chunks)
    (hsh : m.shardShape = d.shards) (hcomp : initCompressor m.compressor m.options = .ok d.compression)
    (hl : d.shape.length = d.chunks.length)
    (hx : L ≠ .n5 → d.compression.compressor ≠ .xz) (hcx : d.shards ≠ [] → d.dtype.isComplex = false) : Reports ds L d := by
  obtain ⟨B, f, s, h1, h2, h3, h4⟩ := makeDataset_ok.1 hmk
  have hi : ds.info = m := by
    rcases h4 with ⟨_, _, _, rfl⟩ | ⟨_, rfl⟩ <;> rfl
  have hset : ds.settings = d.compression := by
    rw [hcomp] at h3
    cases h3
    rcases h4 with ⟨_, _, _, rfl⟩ | ⟨_, rfl⟩ <;> rfl
  have hshards : ds.sharded = decide (d.shards ≠ []) := by
    rcases h4 with ⟨h5, h6, _, rfl⟩ | ⟨h5, rfl⟩
    · rw [hsh] at h5
      simp [h5]
    · by_cases e : d.shards = []
      · simp [e]
      · exact absurd ⟨by rw [hsh]; exact e, by rw [hd]; exact hcx e⟩ h5
  have hcompr := initCompressor_compressor hcomp
  have hB := h1
  unfold Blocking.make at h1
  rw [hs, hc] at h1 hB
  obtain ⟨hne, h1⟩ := ite_ok h1
  rw [if_neg (by omega), hl, List.take_length] at h1
  have hpos : 0 ∉ d.chunks := by
    intro h0
    rw [if_pos h0] at h1
    cases h1
  rw [if_neg hpos] at h1
  cases h1
  refine ⟨by rw [← hs, ← hi]; rfl, ?_, ?_, ?_, by rw [← hc, ← hi]; rfl, ?_, ?_, by rw [← hz, ← hi]; rfl, ?_, ?_, ?_⟩
  · intro hlt
    unfold DatasetObj.pyNdim
    rw [hi, hs]
    exact Nat.mod_eq_of_lt hlt
  · intro hlt
    unfold DatasetObj.pySize
    rw [hi, hs]
    exact accumulateMul_eq hlt
  · intro n t e hn
    unfold DatasetObj.pyLen
    rw [hi, hs, e]
    exact if_pos hn
  · unfold DatasetObj.pyShards
    rw [hshards, hi, hsh]
    by_cases e : d.shards = [] <;> simp [e]
  · intro t ht
    unfold DatasetObj.pyDtype DatasetObj.implDtype
    rw [hi, hd]
    revert ht
    cases d.dtype <;> intro ht <;> cases ht <;> rfl
  · refine ⟨blocksPerDimension d.shape d.chunks, ?_, length_blocksPerDimension hl, ?_, ?_⟩
    · unfold DatasetObj.pyChunksPerDimension
      rw [hi, hs, hc, hB]
      rfl
    · intro i s c n e1 e2 e3
      unfold blocksPerDimension at e3
      rw [List.getElem?_zipWith, e1, e2] at e3
      cases e3
      refine blocksInAxis_least ?_
      have : c ∈ d.chunks := List.mem_of_getElem? e2
      rcases Nat.eq_zero_or_pos c with e | e
      · exact absurd (e ▸ this) hpos
      · exact e
    · intro hlt
      unfold DatasetObj.pyNumberOfChunks
      rw [hi, hs, hc, hB]
      exact congrArg Res.ok (accumulateMul_eq hlt)
  · unfold DatasetObj.pyCompression
    rw [hi, hz, ← hcompr]
    cases L <;> cases hS : d.compression <;> first
      | rfl
      | (rw [hS] at hx; exact absurd rfl (hx (by decide)))
  · intro hraw
    unfold DatasetObj.pyCompressionOpts
    rw [hset]
    cases hS : d.compression with
    | raw => exact absurd hS hraw
    | blosc c l s b n =>
      refine ⟨[("blocksize", .int b), ("codec", .str c), ("level", .int l), ("nthreads", .int n), ("shuffle", .int s)], rfl,
        by simp, fun k => ?_⟩
      simp only [assocGet, settingOf]
      repeat' split
      all_goals first | rfl | simp_all
    | zlib l z => exact ⟨[("level", .int l)], rfl, by simp, fun k => by simp only [assocGet, settingOf, eq_comm]⟩
    | bzip2 l => exact ⟨[("level", .int l)], rfl, by simp, fun k => by simp only [assocGet, settingOf, eq_comm]⟩
    | lz4 l => exact ⟨[("level", .int l)], rfl, by simp, fun k => by simp only [assocGet, settingOf, eq_comm]⟩
    | xz l => exact ⟨[("level", .int l)], rfl, by simp, fun k => by simp only [assocGet, settingOf, eq_comm]⟩
    | zstd l => exact ⟨[("level", .int l)], rfl, by simp, fun k => by simp only [assocGet, settingOf, eq_comm]⟩

/-- Zarr has no xz. -/
theorem describes_facts {L : Layout} {j : Json} {d : ArrayDesc} (h : L.Describes j d) :
    (L ≠ .n5 → d.compression.compressor ≠ .xz) ∧ (d.shards ≠ [] → d.dtype.isComplex = false) := by
  cases L with
  | v2 =>
    obtain ⟨c, _, hc⟩ := ZarrV2.Describes.compression h
    refine ⟨fun _ => ?_, fun hs => absurd (ZarrV2.Describes.noShards h) hs⟩
    generalize d.compression = S at hc
    cases hc <;> intro e <;> cases e
  | v3 =>
    obtain ⟨l, _, hc⟩ := ZarrV3.Describes.codecs h
    obtain ⟨s, hs, _⟩ := ZarrV3.Describes.dtype h
    have hk : ∀ {dt : Datatype} {l : List Json} {S : Settings}, ZarrV3.Codecs dt l S → S.compressor ≠ .xz := by
      intro dt l S hc
      cases hc <;> intro e <;> cases e
    refine ⟨fun _ => ?_, fun _ => ?_⟩
    · cases hc with
      | chunks _ hc => exact hk hc
      | shards _ _ _ _ hc => exact hk hc
    · revert hs
      cases d.dtype <;> intro hs <;> first | rfl | cases hs
  | n5 => exact ⟨fun e => absurd rfl e, fun hs => absurd (N5.Describes.noShards h) hs⟩

theorem docAt_isSome {σ : Fs} {p : Path} {j : Json} (h : σ.docAt p = some j) : (σ p).isSome = true := by
  unfold Fs.docAt at h
  cases e : σ p with
  | none => rw [e] at h; cases h
  | some _ => rfl

/-- **C73.**  The properties of a dataset that was opened say what its document says. -/
theorem c73_opened {g : GroupHandle} {key : Path} {ds : DatasetObj} {σ σ' : Fs} {L : Layout} {j : Json} {d : ArrayDesc}
    (h : g.openDataset key σ = (.ok ds, σ')) (hdoc : Documented σ (g.path ++ key) L j) (hj : L.Describes j d) (hd : d.Fits) :
    Reports ds L d := by
  obtain ⟨hx, hcx⟩ := describes_facts hj
  obtain ⟨h1, h2, h3⟩ := hdoc
  have hs := docAt_isSome h1
  have key : ∀ {H : DatasetHandle} {σ1 : Fs}, H.path = g.path ++ key → σ1 = σ → H.openDataset σ1 = (.ok ds, σ') → Reports ds L d := by
    intro H σ1 hp e h'
    subst e
    unfold DatasetHandle.openDataset at h'
    obtain ⟨b, σ2, hb, h'⟩ := FsM.bind_ok.1 h'
    rw [FsM.exist_run] at hb
    cases hb
    split at h'
    · cases h'
    · obtain ⟨m, σ3, hm, h'⟩ := FsM.bind_ok.1 h'
      obtain ⟨hmk, _⟩ := FsM.lift_ok.1 h'
      rw [readDatasetMetadata_run, hp] at hm
      have hm := (Prod.mk.inj hm).1
      dsimp only at hm
      cases L with
      | v2 =>
        change (σ1 (g.path ++ key ++ [".zarray"])).isSome = true at hs
        change σ1.docAt (g.path ++ key ++ [".zarray"]) = some j at h1
        rw [hs, h2 (by decide)] at hm
        cases hn : (σ1 (g.path ++ key ++ ["attributes.json"])).isSome <;> rw [hn] at hm
        · simp only [Option.isSome_none, Bool.or_false, Bool.and_false, Bool.false_eq_true, if_false, Bool.not_true, Bool.false_and,
            if_true, h1] at hm
          obtain ⟨m', e1, e2, e3, e4⟩ := c59_v2_read hj hd
          rw [e1] at hm
          cases hm
          exact reports_of hmk e2 e4.dtype e4.shape e4.chunks e4.shards e4.compression hd.axes hx hcx
        · cases hm
      | v3 =>
        change (σ1 (g.path ++ key ++ ["zarr.json"])).isSome = true at hs
        change σ1.docAt (g.path ++ key ++ ["zarr.json"]) = some j at h1
        rw [hs] at hm
        cases hn : (σ1 (g.path ++ key ++ ["attributes.json"])).isSome <;> rw [hn] at hm
        · simp only [Bool.or_true, Bool.and_false, Bool.false_eq_true, if_false, Bool.not_true,
            if_true, h1] at hm
          obtain ⟨m', e1, e2, e3, e4⟩ := c59_v3_read hj hd
          rw [e1] at hm
          cases hm
          exact reports_of hmk e2 e4.dtype e4.shape e4.chunks e4.shards e4.compression hd.axes hx hcx
        · simp at hm
      | n5 =>
        change (σ1 (g.path ++ key ++ ["attributes.json"])).isSome = true at hs
        change σ1.docAt (g.path ++ key ++ ["attributes.json"]) = some j at h1
        rw [hs, h2 (by decide), h3 rfl] at hm
        simp only [Option.isSome_none, Bool.or_false, Bool.false_and, Bool.false_eq_true, if_false, Bool.not_true, Bool.and_false,
          h1] at hm
        obtain ⟨m', e1, e2, e4⟩ := c59_n5_read hj hd
        rw [e1] at hm
        cases hm
        exact reports_of hmk e2 e4.dtype e4.shape e4.chunks e4.shards e4.compression hd.axes hx hcx
  unfold GroupHandle.openDataset at h
  obtain ⟨z, σ1, hz, h'⟩ := FsM.bind_ok.1 h
  have hσ1 : σ1 = σ := by
    rw [Z5.group_isZarr] at hz
    exact (Prod.mk.inj hz).2.symm
  dsimp only at h'
  split at h'
  · obtain ⟨c, σ2, hc, h'⟩ := FsM.bind_ok.1 h'
    rw [readChunkConfig_run] at hc
    exact key rfl ((Prod.mk.inj hc).2.symm.trans hσ1) h'
  · obtain ⟨c, σ2, hc, h'⟩ := FsM.bind_ok.1 h'
    exact key rfl ((Prod.mk.inj hc).2.symm.trans hσ1) h'

/-- **C73.**  The properties of a dataset that was created say what was asked for. -/
theorem c73_created {g : PyGroup} {n : PyName} {a : PyCreateArgs} {ds : DatasetObj} {σ σ' : Fs} {S : Settings} (hσ : σ.WF)
    (hn : n.absolute = false) (ha : a.Typed) (h : g.createDatasetFull n a σ = (.ok ds, σ')) :
    let L := Layout.of ds.info.isZarr g.zarrFormat
    Asked L (a.compression.getD L.defaultCompressor) a.options S →
    Faithful L (a.compression.getD L.defaultCompressor) a.options →
    ∃ dt s c, a.AsksShape s ∧ a.AsksType dt ∧ a.AsksChunks s c ∧
      ∀ f sep enc, Reports ds L ⟨dt, s, c, a.shards.getD [], S, f, sep, enc⟩ := by
  obtain ⟨g', n', σ1, hσ1, hn', hf, h⟩ := createDatasetFull_new hσ hn h
  rw [← hf]
  unfold PyGroup.newDatasetFull at h
  obtain ⟨z, σ2, h1, h3⟩ := FsM.bind_ok.1 h
  clear h
  have : σ2 = σ1 := by
    rw [Z5.group_isZarr] at h1
    exact (Prod.mk.inj h1).2.symm
  subst this
  obtain ⟨⟨args, O⟩, σ3, h2, h⟩ := FsM.bind_ok.1 h3
  clear h3
  obtain ⟨hr, rfl⟩ := FsM.lift_ok.1 h2
  have R := resolve_ok hr
  obtain ⟨r, hro, h⟩ := createDatasetJsonAt_ok hn' h
  obtain ⟨z', m, j, hz', _, hm, rfl, hmk, hh, hj, hnew⟩ := GroupHandle.createDataset_ok hσ1 h
  obtain rfl : z' = z := by
    rw [h1] at hz'
    cases hz'
    rfl
  have eo := createMeta_options hm
  obtain ⟨e1, e2, e3, e4, e5, e6, e7, e8, e9, e10, e11, e12⟩ := createMeta_ok hm
  dsimp only at e2 e3 e4 e5 e6 e7 e8 e9 e10 eo
  obtain ⟨hs1, hs2, hs3, hs4⟩ := what_ok R.what
  have hd := dtype_name e9
  rw [e1]
  intro L hA hF
  rw [← R.compressor] at hA hF
  obtain ⟨comp, hcomp, hi, _⟩ := asked_settings R.options hA hF ha.options hro
  rw [e10] at hcomp
  cases hcomp
  obtain ⟨hx, _⟩ := hA.compressor e10
  refine ⟨ds.info.dtype, args.shape, args.chunkShape, hs1,
    ⟨fun t e => by rw [hd, hs2 t e], fun x t e => by rw [hd, hs3 x t e], hs4⟩, R.chunks, fun f sep enc => ?_⟩
  have hLz : L.isZarr = z' := by
    show (Layout.of z' g'.zarrFormat).isZarr = z'
    unfold Layout.of
    cases z' <;> by_cases e : g'.zarrFormat = 3 <;> simp [e, Layout.isZarr]
  rw [hLz] at hi
  refine reports_of hmk (e1.trans hLz.symm) rfl e3 e4 (e5.trans R.shards) (by rw [eo]; exact hi) R.axes.symm (fun hL => ?_) (fun _ => ?_)
  · have := initCompressor_compressor hi
    show S.compressor ≠ _
    rw [this]
    exact hx hL
  · revert hd
    show _ → ds.info.dtype.isComplex = false
    cases ds.info.dtype <;> intro hd <;> first | rfl | cases hd

/-- **C73.**  The properties of a dataset that was created and is opened again say what was asked for. -/
theorem c73_reopened {g : PyGroup} {n : PyName} {a : PyCreateArgs} {ds ds' : DatasetObj} {σ σ' σ'' : Fs} {S : Settings} (hσ : σ.WF)
    (hn : n.absolute = false) (ha : a.Typed) (h : g.createDatasetFull n a σ = (.ok ds, σ'))
    (ho : g.handle.openDataset n.parts σ' = (.ok ds', σ'')) :
    let L := Layout.of ds.info.isZarr g.zarrFormat
    Asked L (a.compression.getD L.defaultCompressor) a.options S →
    Faithful L (a.compression.getD L.defaultCompressor) a.options →
    ∃ dt s c f sep enc, a.AsksShape s ∧ a.AsksType dt ∧ a.AsksChunks s c ∧
      Reports ds' L ⟨dt, s, c, a.shards.getD [], S, f, sep, enc⟩ := by
  intro L hA hF
  obtain ⟨hp, _⟩ := c60_created hσ hn ha h
  obtain ⟨g', n', σ1, hσ1, hn', hf, h'⟩ := createDatasetFull_new hσ hn h
  obtain ⟨_, hp', j, hst, hnew⟩ := newDatasetFull_ok hσ1 hn' ha h'
  rw [← hp', hp, hf] at hnew
  rw [hf] at hst
  obtain ⟨dt, s, c, h1, h2, h3, h4⟩ := hst
  obtain ⟨f, h5, _⟩ := h4 S hA hF
  have hc : c.length = s.length ∧ ∀ x ∈ c, x < 2 ^ 64 := by
    have hs := ha.shape s h1
    rcases h3 with ⟨c0, _, hl, rfl⟩ | ⟨_, d, _, rfl⟩
    · refine ⟨by rw [List.length_zipWith]; omega, fun x hx => ?_⟩
      obtain ⟨i, hi⟩ := List.mem_iff_getElem?.1 hx
      rw [List.getElem?_zipWith] at hi
      split at hi
      · rename_i y z _ hz
        cases hi
        exact Nat.lt_of_le_of_lt (Nat.min_le_right y z) (hs z (List.mem_of_getElem? hz))
      · cases hi
    · refine ⟨List.length_map .., fun x hx => ?_⟩
      obtain ⟨y, hy, rfl⟩ := List.mem_map.1 hx
      exact Nat.lt_of_le_of_lt (Nat.min_le_right d y) (hs y hy)
  have hdoc : ∀ k, σ' (g.handle.path ++ n.parts ++ [k]) = if k = L.datasetFile then some (.doc j) else none := by
    intro k
    rw [hnew.docs]
    show Option.map _ (if k = L.datasetFile then some j else none) = _
    split <;> rfl
  refine ⟨dt, s, c, _, _, _, h1, h2, h3, c73_opened ho ⟨?_, fun hL => ?_, fun hL => ?_⟩ h5 ⟨hc.1.symm, ha.shape s h1, hc.2, ?_⟩⟩
  · unfold Fs.docAt
    rw [hdoc, if_pos rfl]
  · rw [hdoc, if_neg]
    cases hL' : L <;> first | decide | exact absurd hL' hL
  · rw [hdoc, if_neg]
    rw [hL]
    decide
  · intro x hx
    cases e : a.shards with
    | none => rw [e] at hx; cases hx
    | some sh => rw [e] at hx; exact ha.shards sh e x hx

/-- **C73.**  `compression` is the name that was given, except for gzip in zarr v3 and bzip2 in zarr v2
    (`c73_gzip_counterexample`, `c73_bzip2_counterexample`). -/
theorem c73_name {L : Layout} {name : String} {o : PyDict} {S : Settings} (hA : Asked L name o S) (hF : Faithful L name o)
    (h2 : ¬ (L = .v2 ∧ name = "bzip2")) (h3 : ¬ (L = .v3 ∧ name = "gzip")) : compressionName L S = name := by
  cases hA with
  | @gzip L o l h _ =>
    cases L with
    | v2 => exact absurd ⟨rfl, rfl⟩ hF.1
    | v3 => exact absurd ⟨rfl, rfl⟩ h3
    | n5 => rfl
  | @bzip2 L o l hL _ _ =>
    cases L with
    | v2 => exact absurd ⟨rfl, rfl⟩ h2
    | v3 => exact absurd rfl hL
    | n5 => rfl
  | @raw L _ _ => cases L <;> rfl
  | @zstd L _ _ _ _ => cases L <;> rfl
  | @blosc L _ _ _ _ _ _ _ _ _ _ _ _ _ _ => cases L <;> rfl
  | zlib _ _ => rfl
  | xz _ _ => rfl
  | lz4 _ _ => rfl

/-- What is reported for a compressor with a level is the level. -/
theorem level_asked {o : PyDict} {S : Settings} {l d : Int} (h : ∀ k, assocGet o k = settingOf S k)
    (hs : ∀ k, settingOf S k = if k = "level" then some (.int l) else none) (hl : -2 ^ 31 ≤ l ∧ l < 2 ^ 31) :
    OnlyOptions o ["level"] ∧ IntOption o "level" d l := by
  refine ⟨fun k v e => ?_, .inl ⟨by rw [h, hs, if_pos rfl], hl.1, hl.2⟩⟩
  rw [h, hs] at e
  split at e
  · rename_i hk
    rw [hk]
    exact List.mem_singleton.2 rfl
  · cases e

/-- **C73.**  Where the compressor can be passed on, passing `compression` and `compression_opts` of one dataset on to `create_dataset`
    asks for the compressor of that dataset. -/
theorem c73_passed_on {ds : DatasetObj} {L : Layout} {d : ArrayDesc} (hR : Reports ds L d) (hp : CanBePassedOn L d.compression)
    (hl : ∀ l, settingOf d.compression "level" = some (.int l) → -2 ^ 31 ≤ l ∧ l < 2 ^ 31) :
    ∃ o, ds.pyCompressionOpts = .ok o ∧ Asked L ds.pyCompression o d.compression ∧ Faithful L ds.pyCompression o ∧
      ∀ {g : PyGroup} {n : PyName} {a : PyCreateArgs} {ds' : DatasetObj} {σ σ' : Fs}, σ.WF → n.absolute = false → a.Typed →
        a.compression = some ds.pyCompression → a.options = o → g.createDatasetFull n a σ = (.ok ds', σ') →
        Layout.of ds'.info.isZarr g.zarrFormat = L →
        ∃ dt s c, a.AsksShape s ∧ a.AsksType dt ∧ a.AsksChunks s c ∧
          ∀ f sep enc, Reports ds' L ⟨dt, s, c, a.shards.getD [], d.compression, f, sep, enc⟩ := by
  have hne : d.compression ≠ .raw := by
    intro e
    rw [e] at hp
    cases L <;> exact hp
  obtain ⟨o, h1, h2, h3⟩ := hR.options hne
  have hAF : Asked L ds.pyCompression o d.compression ∧ Faithful L ds.pyCompression o := by
    rw [hR.compression]
    revert hp hl h3 hne
    cases d.compression with
    | raw => intro hp _ hne _; exact absurd rfl hne
    | blosc c l s b n => intro hp; cases L <;> exact hp.elim
    | zlib l z =>
      intro hp hl _ h3
      obtain ⟨x1, x2⟩ := level_asked (d := 5) h3 (fun k => rfl) (hl l rfl)
      cases L with
      | v2 => obtain rfl := hp; exact ⟨.zlib x1 x2, by simp [compressionName], by simp [compressionName]⟩
      | v3 => exact hp.elim
      | n5 => obtain rfl := hp; exact ⟨.gzip x1 x2, by simp [compressionName], by simp [compressionName]⟩
    | bzip2 l =>
      intro hp hl _ h3
      obtain ⟨x1, x2⟩ := level_asked (d := 5) h3 (fun k => rfl) (hl l rfl)
      cases L with
      | v2 => exact hp.elim
      | v3 => exact hp.elim
      | n5 => exact ⟨.bzip2 (by decide) x1 x2, by simp [compressionName], by simp [compressionName]⟩
    | lz4 l =>
      intro hp hl _ h3
      obtain ⟨x1, x2⟩ := level_asked (d := 6) h3 (fun k => rfl) (hl l rfl)
      cases L with
      | v2 => exact hp.elim
      | v3 => exact hp.elim
      | n5 => exact ⟨.lz4 x1 x2, by simp [compressionName], by simp [compressionName]⟩
    | xz l =>
      intro hp hl _ h3
      obtain ⟨x1, x2⟩ := level_asked (d := 6) h3 (fun k => rfl) (hl l rfl)
      cases L with
      | v2 => exact hp.elim
      | v3 => exact hp.elim
      | n5 => exact ⟨.xz x1 x2, by simp [compressionName], by simp [compressionName]⟩
    | zstd l =>
      intro hp hl _ h3
      obtain ⟨x1, x2⟩ := level_asked (d := 3) h3 (fun k => rfl) (hl l rfl)
      cases L <;> exact ⟨.zstd x1 x2, by simp [compressionName], by simp [compressionName]⟩
  refine ⟨o, h1, hAF.1, hAF.2, fun {g n a ds' σ σ'} hσ hn ha hc ho h hL => ?_⟩
  have := c73_created (S := d.compression) hσ hn ha h
  dsimp only at this
  rw [hL, hc, ho] at this
  exact this hAF.1 hAF.2

/-- **C73.**  For other compressors than those of `c73_passed_on`, `create_dataset` never accepts what the properties report, although
    the documentation of `compression_opts` says that it can be passed on: blosc in all formats, bzip2 in zarr v2, gzip in
    zarr v3. -/
theorem c73_not_passed_on {ds : DatasetObj} {L : Layout} {d : ArrayDesc} (hR : Reports ds L d)
    (hp : CannotBePassedOn L d.compression) :
    ∃ o, ds.pyCompressionOpts = .ok o ∧
      ∀ (g : PyGroup) (n : PyName) (a : PyCreateArgs) (ds' : DatasetObj) (σ σ' : Fs), σ.WF → n.absolute = false →
        a.compression = some ds.pyCompression → a.options = o → g.createDatasetFull n a σ = (.ok ds', σ') →
        Layout.of ds'.info.isZarr g.zarrFormat ≠ L := by
  have hne : d.compression ≠ .raw := by
    intro e
    rw [e] at hp
    cases L <;> exact hp
  obtain ⟨o, h1, h2, h3⟩ := hR.options hne
  refine ⟨o, h1, fun g n a ds' σ σ' hσ hn hc ho h hL => ?_⟩
  have := c60_refuses hσ hn h
  dsimp only at this
  rw [hL, hc, ho, hR.compression] at this
  obtain ⟨h4, h5, _⟩ := this
  revert hp h3 h4 h5
  cases d.compression with
  | raw => intro hp; cases L <;> exact hp.elim
  | blosc c l s b n =>
    intro _ h3 _ h5
    have := assocGet_some_mem (h3 "nthreads")
    have h6 := assocGet_some_mem (h3 "level")
    cases L with
    | v2 => exact absurd (show "nthreads" ∈ ["codec", "clevel", "shuffle", "blocksize"] from h5 _ this) (by decide)
    | v3 => exact absurd (show "nthreads" ∈ ["codec", "level", "shuffle", "blocksize"] from h5 _ this) (by decide)
    | n5 => exact absurd (show "level" ∈ ["codec", "clevel", "shuffle", "blocksize", "nthreads"] from h5 _ h6) (by decide)
  | zlib l z => intro hp _ h4 _; cases L <;> first | exact hp.elim | exact absurd h4 (by simp [compressionName, Layout.compressors])
  | bzip2 l => intro hp _ h4 _; cases L <;> first | exact hp.elim | exact absurd h4 (by simp [compressionName, Layout.compressors])
  | lz4 l => intro hp _ h4 _; cases L <;> first | exact hp.elim | exact absurd h4 (by simp [compressionName, Layout.compressors])
  | xz l => intro hp; cases L <;> exact hp.elim
  | zstd l => intro hp; cases L <;> exact hp.elim

/-- **C73.**  Without compression, `compression_opts` raises an `AttributeError`. -/
theorem c73_raw_counterexample {ds : DatasetObj} (hs : ds.settings = .raw) :
    ds.pyCompressionOpts = .throw .attributeError := by
  unfold DatasetObj.pyCompressionOpts
  rw [hs]
  rfl

/-! ### Examples -/

/-- what the properties say about a dataset created in the example -/
def exReport (format : Int) (a : PyCreateArgs) : Option ((List Nat × List Nat × Option (List Nat)) × String × Settings × Bool) :=
  match (({ exPy with zarrFormat := format } : PyGroup).createDatasetFull { parts := ["d"] } a exZarr).1 with
  | .ok ds => some ((ds.pyShape, ds.pyChunks, ds.pyShards), ds.pyCompression, ds.settings, ds.info.isZarr)
  | _ => none

theorem exReport_some {f : Int} {a : PyCreateArgs} {s c : List Nat} {sh : Option (List Nat)} {n : String} {S : Settings} {z : Bool}
    (h : exReport f a = some ((s, c, sh), n, S, z)) :
    ∃ ds σ', ({ exPy with zarrFormat := f } : PyGroup).createDatasetFull { parts := ["d"] } a exZarr = (.ok ds, σ') ∧ ds.pyShape = s ∧
      ds.pyChunks = c ∧ ds.pyShards = sh ∧ ds.pyCompression = n ∧ ds.settings = S ∧ ds.info.isZarr = z := by
  unfold exReport at h
  split at h
  · rename_i ds hds
    cases h
    exact ⟨ds, _, Prod.ext hds rfl, rfl, rfl, rfl, rfl, rfl, rfl⟩
  · cases h

/-- what the properties say after the dataset was opened again -/
def exReopened (a : PyCreateArgs) : Option (List Nat × List Nat × String) :=
  match exPy.handle.openDataset ["d"] (exPy.createDatasetFull { parts := ["d"] } a exZarr).2 with
  | (.ok ds, _) => some (ds.pyShape, ds.pyChunks, ds.pyCompression)
  | _ => none

theorem exPyArgs_typed : exPyArgs.Typed := by
  refine ⟨fun s hs => ?_, (fun s e => by cases e), ofInt_representable (by decide), by decide⟩
  rw [← hs.1 [5, 4] rfl]
  decide

theorem exPyArgs_asked : Asked .v2 "zlib" exPyArgs.options (.zlib 7 true) :=
  .zlib (fun k v e => by
      have := assocGet_some_mem e
      simp only [exPyArgs, List.mem_cons, List.not_mem_nil, or_false, Prod.mk.injEq] at this
      rw [this.1]
      decide) (.inl ⟨rfl, by decide, by decide⟩)

/-- The hypotheses of `c73_created` and `c73_passed_on` are met, and what they say of the example. -/
example : ∃ ds σ' o, exPy.createDatasetFull { parts := ["d"] } exPyArgs exZarr = (.ok ds, σ') ∧ ds.pyShape = [5, 4] ∧
    ds.pyDtype = .ok "uint8" ∧ ds.pyCompression = "zlib" ∧ ds.pyCompressionOpts = .ok o ∧ assocGet o "level" = some (.int 7) ∧
    Asked .v2 ds.pyCompression o (.zlib 7 true) := by
  obtain ⟨ds, σ', h, _, _, _, _, _, hz⟩ :=
    exReport_some (by decide +kernel : exReport 2 exPyArgs = some (([5, 4], [2, 4], none), "zlib", .zlib 7 true, true))
  have := c73_created (S := .zlib 7 true) exZarr_wf rfl exPyArgs_typed h
  dsimp only at this
  rw [hz] at this
  obtain ⟨dt, s, c, h1, h2, _, hR⟩ := this exPyArgs_asked ⟨by decide, fun _ e => absurd e (by decide)⟩
  have hR := hR none "" ""
  obtain rfl : [5, 4] = s := h1.1 _ rfl
  obtain rfl : dt = .uint8 := by
    have := h2.1 "uint8" rfl
    cases dt <;> first | rfl | exact absurd this (by decide)
  obtain ⟨o, ho, hA, _, _⟩ := c73_passed_on hR rfl (fun l e => by cases e; decide)
  obtain ⟨o', ho', _, hk⟩ := hR.options (fun e => by cases e)
  rw [ho] at ho'
  cases ho'
  exact ⟨ds, σ', o, h, hR.shape, hR.dtype _ rfl, hR.compression, ho, (hk "level").trans rfl, hA⟩

/-- The hypotheses of `c73_reopened` are met. -/
example : ∃ ds σ' ds' σ'', exPy.createDatasetFull { parts := ["d"] } exPyArgs exZarr = (.ok ds, σ') ∧
    exPy.handle.openDataset ["d"] σ' = (.ok ds', σ'') ∧ ds'.pyShape = [5, 4] ∧ ds'.pyChunks = [2, 4] ∧ ds'.pyCompression = "zlib" := by
  obtain ⟨ds, σ', h⟩ := exPy_created
  have h2 : exReopened exPyArgs = some ([5, 4], [2, 4], "zlib") := by decide +kernel
  unfold exReopened at h2
  rw [h] at h2
  split at h2
  · rename_i ds' σ'' h3
    obtain ⟨e1, e2⟩ := Prod.mk.inj (Option.some.inj h2)
    obtain ⟨e2, e3⟩ := Prod.mk.inj e2
    exact ⟨ds, σ', ds', σ'', h, h3, e1, e2, e3⟩
  · cases h2

/-- the example with the default compressor -/
def exPyDefault : PyCreateArgs := { exPyArgs with compression := none, options := [] }

theorem exPyDefault_typed : exPyDefault.Typed := by
  refine ⟨fun s hs => ?_, (fun s e => by cases e), ofInt_representable (by decide), by decide⟩
  rw [← hs.1 [5, 4] rfl]
  decide

/-- The hypotheses of `c73_not_passed_on` are met: a dataset of zarr v2 with the default compressor, which is blosc. -/
example : ∃ ds σ' d, exPy.createDatasetFull { parts := ["d"] } exPyDefault exZarr = (.ok ds, σ') ∧ Reports ds .v2 d ∧ CannotBePassedOn .v2 d.compression := by
  obtain ⟨ds, σ', h, _, _, _, _, _, hz⟩ :=
    exReport_some (by decide +kernel : exReport 2 exPyDefault = some (([5, 4], [2, 4], none), "blosc", .blosc "lz4" 5 1 0 1, true))
  have := c73_created (S := .blosc "lz4" 5 1 0 1) exZarr_wf rfl
    exPyDefault_typed h
  dsimp only at this
  rw [hz] at this
  obtain ⟨dt, s, c, _, _, _, hR⟩ := this
    (.blosc (fun k v e => by cases e) (.inr ⟨rfl, rfl⟩) (.inr ⟨rfl, rfl⟩) (.inr ⟨rfl, rfl⟩) (by decide) (.inr ⟨rfl, rfl⟩)
      (.inr ⟨rfl, rfl⟩) (fun _ => rfl)) ⟨by decide, fun _ _ => .inr ⟨rfl, rfl⟩⟩
  exact ⟨ds, σ', _, h, hR none "" "", trivial⟩

/-- **C73, counterexample.**  A dataset of zarr v2 that is created with `compression="bzip2"` reports `"bz2"`, which `create_dataset`
    does not know. -/
theorem c73_bzip2_counterexample : ∃ (g : PyGroup) (n : PyName) (a : PyCreateArgs) (ds : DatasetObj) (σ σ' : Fs), σ.WF ∧
    a.compression = some "bzip2" ∧ g.createDatasetFull n a σ = (.ok ds, σ') ∧ Layout.of ds.info.isZarr g.zarrFormat = .v2 ∧
    ds.pyCompression = "bz2" ∧ "bz2" ∉ Layout.v2.compressors := by
  obtain ⟨ds, σ', h, _, _, _, hc, _, hz⟩ :=
    exReport_some (by decide +kernel : exReport 2 { exPyArgs with compression := some "bzip2", options := [] }
      = some (([5, 4], [2, 4], none), "bz2", .bzip2 5, true))
  exact ⟨_, _, _, ds, exZarr, σ', exZarr_wf, rfl, h, by rw [hz]; rfl, hc, by decide⟩

/-- **C73, counterexample.**  A dataset of zarr v3 that is created with `compression="gzip"` reports `"zlib"`, which `create_dataset`
    does not know for zarr v3. -/
theorem c73_gzip_counterexample : ∃ (g : PyGroup) (n : PyName) (a : PyCreateArgs) (ds : DatasetObj) (σ σ' : Fs), σ.WF ∧
    a.compression = some "gzip" ∧ g.createDatasetFull n a σ = (.ok ds, σ') ∧ Layout.of ds.info.isZarr g.zarrFormat = .v3 ∧
    ds.pyCompression = "zlib" ∧ "zlib" ∉ Layout.v3.compressors := by
  obtain ⟨ds, σ', h, _, _, _, hc, _, hz⟩ :=
    exReport_some (by decide +kernel : exReport 3 { exPyArgs with compression := some "gzip", options := [] }
      = some (([5, 4], [2, 4], none), "zlib", .zlib 5 false, true))
  exact ⟨_, _, _, ds, exZarr, σ', exZarr_wf, rfl, h, by rw [hz]; rfl, hc, by decide⟩

/-- A dataset of zarr v3 with shards -/
example : exReport 3 { exPyArgs with compression := some "raw", options := [], shards := some [4, 4] }
    = some (([5, 4], [2, 4], some [4, 4]), "raw", .raw, true) := by decide +kernel

/-- The hypothesis of `c73_raw_counterexample` is met. -/
example : ∃ ds σ', exPy.createDatasetFull { parts := ["d"] } { exPyArgs with compression := some "raw", options := [] } exZarr
    = (.ok ds, σ') ∧ ds.settings = .raw := by
  obtain ⟨ds, σ', h, _, _, _, _, hs, _⟩ :=
    exReport_some (by decide +kernel : exReport 2 { exPyArgs with compression := some "raw", options := [] }
      = some (([5, 4], [2, 4], none), "raw", .raw, true))
  exact ⟨ds, σ', h, hs⟩

end Z5.Props
