import Verif.Spec.Foreign
import Verif.Props.Exchange
import Verif.Props.Formats
import Verif.Props.JsonGrammar
import Verif.Proofs.Container

/-!
# Directories of other programs
-/

namespace Z5
open Spec Props

variable {E : Elem} {p : Path}

/-! ### Dataset objects and the stored form of arrays -/

namespace AnyDataset

variable {d : AnyDataset E}

/-- the files of the array that the dataset object describes -/
def Files (d : AnyDataset E) (σ : Store) (A : List Nat → E.T) : Prop :=
  match d with
  | plain ds => if ds.isZarr = true then ZarrFiles ds σ A else N5Files ds σ A
  | sharded sd => ShardFiles sd σ A

theorem Files.holds (h : d.WF) {σ : Fs} {A : List Nat → E.T} (hA : d.Files (σ.chunks p) A) :
    ∃ S, d.Holds p σ S ∧ ∀ x, InBox x d.base.shape → S x = A x := by
  cases d with
  | plain ds =>
    unfold Files at hA
    dsimp only at hA
    cases hz : ds.isZarr with
    | true =>
      rw [hz, if_pos rfl] at hA
      obtain ⟨P, hP, hB⟩ := holds_of_zarrFiles h hz hA
      exact ⟨P, ⟨P, hB, fun _ _ _ _ => Or.inl rfl⟩, hP⟩
    | false =>
      rw [hz, if_neg (by decide)] at hA
      exact ⟨A, ⟨A, (n5_iff_holds h hz).1 hA, fun _ _ _ _ => Or.inl rfl⟩, fun _ _ => rfl⟩
  | sharded sd =>
    obtain ⟨hv, P, hP, hB⟩ := holds_of_sharded h ((shardFiles_iff h).1 hA)
    exact ⟨P, ⟨hv, P, hB, fun _ _ _ _ => Or.inl rfl⟩, hP⟩

theorem Holds.files (h : d.WF) {σ : Fs} {S : List Nat → E.T} (hS : d.Holds p σ S) :
    ∃ A, d.Files (σ.chunks p) A ∧ ∀ x, InBox x d.base.shape → SameOrFill E.ceq d.base.fill (A x) (S x) := by
  cases d with
  | plain ds =>
    obtain ⟨A, h1, h2⟩ := hS
    refine ⟨A, ?_, fun x hx => ?_⟩
    · unfold Files
      dsimp only
      cases hz : ds.isZarr with
      | true => rw [if_pos rfl]; exact zarrFiles_of_holds h hz h1
      | false => rw [if_neg (by decide)]; exact (n5_iff_holds h hz).2 h1
    · have hch := (inChunk_iff_div (c := divV x ds.chunkShape) h.dims.axes).2 ⟨hx, rfl⟩
      exact h2 _ x (inGrid_of_inChunk hch) (.of_inChunk hch)
  | sharded sd =>
    obtain ⟨hv, A, h1, h2⟩ := hS
    exact ⟨A, (shardFiles_iff h).2 (sharded_of_holds h hv h1), refinesB_inBox h h2⟩

theorem Files.readsAs (h : d.WF) (hk : d.PlainKeys) {σ : Fs} (ht : Tidy p d.IsKey σ) {A : List Nat → E.T}
    (hA : d.Files (σ.chunks p) A) : d.ReadsAs p σ A := by
  intro off out outBuf scratch hr hfit hna
  have hts : ∃ ts, d.readSubarray out off scratch = .ok ts ∧
      ∀ is rs, Prog.Finished (Prog.interleave is (ts, σ.chunks p)).1 rs →
        (Prog.interleave is (ts, σ.chunks p)).2 = σ.chunks p ∧ (∃ out', Delivers outBuf rs out') ∧
        ∀ out', Delivers outBuf rs out' → out'.length = outBuf.length ∧
          (∀ i, InBox i out.shape → out'[out.base + dot i out.strides]? = some (A (addV off i))) ∧
          (∀ a, (∀ i, InBox i out.shape → out.base + dot i out.strides ≠ a) →
            out'[a]? = outBuf[a]?) := by
    cases d with
    | plain ds =>
      unfold Files at hA
      dsimp only at hA
      cases hz : ds.isZarr with
      | true =>
        rw [hz, if_pos rfl] at hA
        exact c81_read_zarr h hz hA off out outBuf scratch hr hfit hna
      | false =>
        rw [hz, if_neg (by decide)] at hA
        exact c81_read_n5 h hz hA off out outBuf scratch hr hfit hna
    | sharded sd => exact c81_read_sharded h hA off out outBuf scratch hr hfit hna
  obtain ⟨ts, hts, hread⟩ := hts
  refine ⟨ts, hts, fun is rs hfin => ?_⟩
  have hwi := read_within h hr hts
  obtain ⟨_, _, js, h3, h4⟩ := onFiles_sim hk ht (fun _ hk => hk) (fun s hs => (hwi s hs).1) is
  refine ⟨?_, (hread js rs (h4 rs hfin)).2⟩
  exact interleave_readOnly_files is fun t ht => by
    obtain ⟨s, hs, rfl⟩ := List.mem_map.1 ht
    exact ⟨s, (hwi s hs).2, rfl⟩

end AnyDataset

/-- what the object for elements has from the object without -/
theorem typed_fields {o : DatasetObj} {L : Libs} {elem : FillVal → E.T} {B : Backend} {d : AnyDataset E} (h : o.typed L elem B = .ok d) :
    d.base.codec = L.codec E.size o.settings ∧ d.base.fill = elem o.fill ∧ d.base.canWrite = o.handle.mode.canWrite ∧
    d.base.shape = o.info.shape ∧ d.base.chunkShape = o.info.chunkShape ∧
    (match d with
      | .plain ds => o.sharded = false ∧ ds.key = o.keyCfg
      | .sharded sd => o.sharded = true ∧ sd.shardShape = o.info.shardShape ∧ sd.key = { o.keyCfg with isZarr := true }) := by
  unfold DatasetObj.typed at h
  have e0 : o.keyCfg = ⟨o.handle.cache.getD o.info.isZarr, o.handle.delimiter.toList, o.handle.zarrFormat.toNat,
    o.handle.encoding.toList⟩ := rfl
  rw [← e0] at h
  cases hsh : o.sharded with
  | false =>
    simp only [hsh, Bool.false_eq_true, if_false] at h
    obtain ⟨ds, h1, h2⟩ := Res.bind_eq_ok.1 h
    have h2 : AnyDataset.plain ds = d := Res.ok.inj h2
    subst h2
    unfold Dataset.make at h1
    obtain ⟨B, h3, h4⟩ := Res.bind_eq_ok.1 h1
    have h4 := Res.ok.inj h4
    subst h4
    exact ⟨rfl, rfl, rfl, rfl, rfl, rfl, rfl⟩
  | true =>
    simp only [hsh, if_true] at h
    obtain ⟨sd, h1, h2⟩ := Res.bind_eq_ok.1 h
    have h2 : AnyDataset.sharded sd = d := Res.ok.inj h2
    subst h2
    unfold ShardedDataset.make Dataset.make at h1
    obtain ⟨d, h3, h4⟩ := Res.bind_eq_ok.1 h1
    obtain ⟨c, h5, h6⟩ := Res.bind_eq_ok.1 h4
    obtain ⟨B, h7, h8⟩ := Res.bind_eq_ok.1 h3
    have h6 := Res.ok.inj h6
    have h8 := Res.ok.inj h8
    subst h8
    subst h6
    exact ⟨rfl, rfl, rfl, rfl, rfl, rfl, rfl, rfl⟩

/-! ### Opening -/

theorem ArrayDesc.Supported.fits {a : ArrayDesc} {La : Layout} {size : Nat} (h : a.Supported La size) : a.Fits where
  axes := h.axes.2.2
  shape n hn := Nat.lt_trans (h.small n hn) (by decide)
  chunks n hn := Nat.lt_trans (h.bytes.1 n hn) (by decide)
  shards n hn := by
    by_cases e : a.shards = []
    · rw [e] at hn; cases hn
    · exact (h.shards e).2.1 n hn

theorem ArrayDesc.Supported.dims {a : ArrayDesc} {La : Layout} {size : Nat} (h : a.Supported La size) :
    ChunkDims a.shape a.chunks := by
  refine ⟨h.axes.1, ?_⟩
  have h1 := h.axes.2.2
  have h2 := h.positive
  have h3 := h.small
  have h4 := h.bytes.1
  generalize a.shape = s at h1 h3 ⊢
  generalize a.chunks = c at h1 h2 h4 ⊢
  clear h a
  induction s generalizing c with
  | nil => cases c with
    | nil => trivial
    | cons => cases h1
  | cons x s ih => cases c with
    | nil => cases h1
    | cons y c =>
      have a1 := h2 y (by simp)
      have a2 := h3 x (by simp)
      have a3 := h4 y (by simp)
      exact ⟨⟨a1, by omega⟩, ih (fun n hn => h3 n (by simp [hn])) c (by simpa using h1) (fun n hn => h2 n (by simp [hn]))
        (fun n hn => h4 n (by simp [hn]))⟩

theorem ArrayDesc.Supported.shards_all {a : ArrayDesc} {La : Layout} {size : Nat} (hs : a.Supported La size) (e : a.shards ≠ []) :
    All₂ (fun S b => 0 < b ∧ 0 < S ∧ S % b = 0) a.shards a.chunks := by
  have h1 := (hs.shards e).1
  have h2 := hs.positive
  clear e hs
  generalize a.shards = s at h1 ⊢
  generalize a.chunks = c at h1 h2 ⊢
  induction s generalizing c with
  | nil => cases c <;> exact h1
  | cons x s ih => cases c with
    | nil => exact h1
    | cons y c => exact ⟨⟨h2 y (by simp), h1.1⟩, ih c h1.2 fun n hn => h2 n (by simp [hn])⟩

/-- the configuration of chunk names that a document leads to -/
def ArrayDesc.config (a : ArrayDesc) : Layout → ChunkConfig
  | .v2 => ⟨a.separator, 2, a.encoding⟩
  | .v3 => ⟨a.separator, 3, a.encoding⟩
  | .n5 => .initial

/-- The document is read. -/
theorem document_read {σ : Fs} {La : Layout} {a : ArrayDesc} {j : Json} (hf : a.Fits)
    (hj : σ.docAt (p ++ [La.datasetFile]) = some j) (hd : La.Says j a)
    (ho : ∀ n ∈ [".zarray", "zarr.json", "attributes.json"], n ≠ La.datasetFile → σ (p ++ [n]) = none) :
    ∃ m, readDatasetMetadata p σ = (.ok m, σ) ∧ m.isZarr = La.isZarr ∧ (La = .v3 → m.zarrFormat = 3) ∧
      (La = .v2 → m.zarrFormat = 2) ∧ m.Holds a ∧ (La.isZarr = true → readChunkConfig p σ = (.ok (a.config La), σ)) := by
  have hs := docAt_isSome hj
  rw [readDatasetMetadata_run, readChunkConfig_run]
  cases La with
  | v2 =>
    have h1 := ho "zarr.json" (by simp) (by decide)
    have h2 := ho "attributes.json" (by simp) (by decide)
    have hj : σ.docAt (p ++ [".zarray"]) = some j := hj
    have hs : (σ (p ++ [".zarray"])).isSome = true := hs
    obtain ⟨m, e1, e2, e3, e4⟩ := c59_v2_read hd hf
    refine ⟨m, ?_, e2, (by rintro ⟨⟩), fun _ => e3, e4, fun _ => ?_⟩
    · simp [h1, h2, hs, hj, e1]
    · have := c59_v2_keys hd
      simp [h1, hs, hj, this, ArrayDesc.config]
  | v3 =>
    have h1 := ho ".zarray" (by simp) (by decide)
    have h2 := ho "attributes.json" (by simp) (by decide)
    have hj : σ.docAt (p ++ ["zarr.json"]) = some j := hj
    have hs : (σ (p ++ ["zarr.json"])).isSome = true := hs
    obtain ⟨m, e1, e2, e3, e4⟩ := c59_v3_read hd hf
    refine ⟨m, ?_, e2, fun _ => e3, (by rintro ⟨⟩), e4, fun _ => ?_⟩
    · simp [h1, h2, hs, hj, e1]
    · have := c59_v3_keys hd none
      simp [hs, hj, this, ArrayDesc.config]
  | n5 =>
    have h1 := ho ".zarray" (by simp) (by decide)
    have h2 := ho "zarr.json" (by simp) (by decide)
    have hj : σ.docAt (p ++ ["attributes.json"]) = some j := hj
    have hs : (σ (p ++ ["attributes.json"])).isSome = true := hs
    have : ∃ m, Meta.fromJson j false = .ok m ∧ m.isZarr = false ∧ m.Holds a := by
      rcases hd with hd | hd
      · exact c59_n5_read hd hf
      · exact c59_n5_read_old hd hf
    obtain ⟨m, e1, e2, e4⟩ := this
    refine ⟨m, ?_, e2, (by rintro ⟨⟩), (by rintro ⟨⟩), e4, (by rintro ⟨⟩)⟩
    simp [h1, h2, hs, hj, e1]

theorem Layout.Says.v3_of_shards {La : Layout} {j : Json} {a : ArrayDesc} (h : La.Says j a) (hs : a.shards ≠ []) : La = .v3 := by
  cases La with
  | v2 => exact absurd (ZarrV2.Describes.noShards h) hs
  | v3 => rfl
  | n5 =>
    rcases h with h | h
    · exact absurd h.noShards hs
    · exact absurd h.noShards hs

theorem plainTypeName_complex {dt : Datatype} {s : String} (h : plainTypeName dt = some s) : dt.isComplex = false := by
  cases dt <;> first | rfl | cases h

theorem Layout.Says.fileName {La : Layout} {j : Json} {a : ArrayDesc} (h : La.Says j a) {k : KeyCfg}
    (hz : k.isZarr = La.isZarr) (h1 : La.isZarr = true → k.delimiter = a.separator.toList)
    (h2 : La = .v3 → k.encoding = a.encoding.toList) (h3 : La = .v3 → k.zarrFormat = 3) (h4 : La = .v2 → k.zarrFormat = 2) :
    getChunkKey k = a.fileName La ∧ (La.isZarr = true → zarrName k.zarrFormat k.encoding k.delimiter = a.fileName La) := by
  have : La.isZarr = true → zarrName k.zarrFormat k.encoding k.delimiter = a.fileName La := by
    cases La with
    | v2 =>
      intro _
      rw [h1 rfl, h4 rfl]
      unfold zarrName
      rw [if_neg (by simp)]
      rfl
    | v3 =>
      intro _
      rw [h1 rfl, h2 rfl, h3 rfl]
      rfl
    | n5 => rintro ⟨⟩
  refine ⟨?_, this⟩
  cases hLa : La.isZarr with
  | true =>
    rw [← this hLa]
    funext c
    exact zarrChunkName_eq (hz.trans hLa) c
  | false =>
    cases La with
    | v2 => cases hLa
    | v3 => cases hLa
    | n5 =>
      funext c
      exact n5Name_eq hz c

/-- A dataset object of the same shapes and names has the same files. -/
theorem described {La : Layout} {a : ArrayDesc} {j : Json} {d : AnyDataset E} (hd : La.Says j a) (hshape : d.base.shape = a.shape)
    (hchunks : d.base.chunkShape = a.chunks) (hz : d.base.key.isZarr = La.isZarr)
    (k1 : getChunkKey d.base.key = a.fileName La)
    (k2 : La.isZarr = true → zarrName d.base.key.zarrFormat d.base.key.encoding d.base.key.delimiter = a.fileName La)
    (hsh : match d with | .plain _ => a.shards = [] | .sharded sd => sd.shardShape = a.shards ∧ a.shards ≠ []) :
    d.IsKey = a.IsFile La ∧ ∀ S A, d.Files S A ↔ a.IsStored La E d.base.codec d.base.fill S A := by
  cases d with
  | plain ds =>
    have e : a.shards = [] := hsh
    have t4 : ds.shape = a.shape := hshape
    have t5 : ds.chunkShape = a.chunks := hchunks
    have hzz : ds.isZarr = La.isZarr := hz
    refine ⟨?_, ?_⟩
    · funext k
      unfold AnyDataset.IsKey AnyDataset.fileKey AnyDataset.fileShape ArrayDesc.IsFile ArrayDesc.part
      rw [k1]
      unfold AnyDataset.base
      dsimp only
      rw [t4, t5, if_pos e]
    · intro S A
      unfold AnyDataset.Files
      dsimp only
      cases hLa : La.isZarr with
      | true =>
        have k2 : zarrName ds.key.zarrFormat ds.key.encoding ds.key.delimiter = a.fileName La := k2 hLa
        rw [hzz, hLa, if_pos rfl, ZarrFiles, k2, t4, t5]
        cases La with
        | v2 => unfold ArrayDesc.IsStored; dsimp only; rw [if_pos e]; rfl
        | v3 => unfold ArrayDesc.IsStored; dsimp only; rw [if_pos e]; rfl
        | n5 => cases hLa
      | false =>
        rw [hzz, hLa, if_neg (by decide), N5Files, t4, t5]
        cases La with
        | v2 => cases hLa
        | v3 => cases hLa
        | n5 => exact Iff.rfl
  | sharded sd =>
    obtain ⟨g2, e⟩ := hsh
    have hLa := hd.v3_of_shards e
    subst hLa
    have t4 : sd.shape = a.shape := hshape
    have t5 : sd.chunkShape = a.chunks := hchunks
    have k2 : zarrName sd.key.zarrFormat sd.key.encoding sd.key.delimiter = a.fileName .v3 := k2 rfl
    refine ⟨?_, ?_⟩
    · funext k
      unfold AnyDataset.IsKey AnyDataset.fileKey AnyDataset.fileShape ArrayDesc.IsFile ArrayDesc.part
      rw [k1]
      unfold AnyDataset.base
      dsimp only
      rw [t4, g2, if_neg e]
    · intro S A
      unfold AnyDataset.Files ShardFiles ArrayDesc.IsStored
      dsimp only
      rw [if_neg e, k2, t4, t5, g2]
      rfl

/-- The objects for an array that a document describes, on either kind of storage -/
theorem object_made {La : Layout} {a : ArrayDesc} {j : Json} {L : Libs} {elem : FillVal → E.T} {x : Dbl} {v : FillVal} {m : Meta}
    {hd0 : DatasetHandle} (hL : L.Lawful) (hd : La.Says j a) (hs : a.Supported La E.size) (hx : a.fill = some x)
    (hv : a.dtype.castFill x = .ok v) (r2 : m.isZarr = La.isZarr) (r4 : m.Holds a)
    (hcfg : hd0.delimiter = (a.config La).delimiter ∧ hd0.zarrFormat = (a.config La).zarrFormat ∧
      hd0.encoding = (a.config La).encoding) (B : Backend) :
    ∃ o d, makeDataset hd0 m = .ok o ∧ o.info = m ∧ o.handle.path = hd0.path ∧ o.handle.mode = hd0.mode ∧
      o.handle.cache = some La.isZarr ∧
      o.typed L elem B = .ok d ∧ d.WF ∧ d.PlainKeys ∧ d.base.shape = a.shape ∧ d.base.chunkShape = a.chunks ∧ d.base.fill = elem v ∧
      d.base.codec = L.codec E.size a.compression ∧
      d.base.canWrite = hd0.mode.canWrite ∧ d.IsKey = a.IsFile La ∧
      (∀ S A, d.Files S A ↔ a.IsStored La E (L.codec E.size a.compression) (elem v) S A) ∧ (∀ sd, d = .sharded sd → a.shards ≠ []) ∧
      getChunkKey d.base.key = a.fileName La ∧ d.fileShape = a.part := by
  have hB : Blocking.make m.shape m.chunkShape = .ok (mkBlocking a.shape a.chunks) := by
    rw [r4.shape, r4.chunks]; exact make_eq hs.dims
  have hfill : m.dtype.castFill m.fillValue = .ok v := by rw [r4.dtype, r4.fill x hx]; exact hv
  have hcomplex : a.shards ≠ [] → m.dtype.isComplex = false := by
    intro e
    have := hd.v3_of_shards e
    subst this
    obtain ⟨s, h1, _⟩ := ZarrV3.Describes.dtype hd
    rw [r4.dtype]
    exact plainTypeName_complex h1
  have hall := fun e => hs.shards_all e
  have hmk : ∃ o, makeDataset hd0 m = .ok o ∧ o.info = m ∧ o.handle.path = hd0.path ∧ o.handle.mode = hd0.mode ∧ o.fill = v ∧
      o.settings = a.compression ∧ o.sharded = decide (a.shards ≠ []) ∧
      o.keyCfg = ⟨La.isZarr, (a.config La).delimiter.toList, (a.config La).zarrFormat.toNat, (a.config La).encoding.toList⟩ ∧
      o.handle.cache = some m.isZarr ∧ o.handle.delimiter = (a.config La).delimiter := by
    rw [← hcfg.1, ← hcfg.2.1, ← hcfg.2.2]
    by_cases e : a.shards = []
    · refine ⟨⟨m, { hd0 with cache := some m.isZarr }, v, a.compression, false⟩,
        makeDataset_ok.2 ⟨_, v, a.compression, hB, hfill, r4.compression, .inr ⟨?_, rfl⟩⟩, rfl, rfl, rfl, rfl, rfl, by simp [e], ?_, rfl, rfl⟩
      · rw [r4.shards]; exact fun h => h.1 e
      · rw [← r2]; rfl
    · have hLa := hd.v3_of_shards e
      have hz : m.isZarr = true := by rw [r2, hLa]; rfl
      refine ⟨⟨m, { hd0 with cache := some true }, v, a.compression, true⟩,
        makeDataset_ok.2 ⟨_, v, a.compression, hB, hfill, r4.compression,
          .inl ⟨by rw [r4.shards]; exact e, hcomplex e, ?_, rfl⟩⟩, rfl, rfl, rfl, rfl, rfl, by simp [e], ?_, ?_, rfl⟩
      · rw [r4.shards, r4.chunks]; exact ⟨_, (chunksPerShard_eq (hall e)).1⟩
      · have : La.isZarr = true := by rw [hLa]; rfl
        rw [this]; rfl
      · rw [hz]
  obtain ⟨o, ho, hi, hpath, hmode, hofill, hset, hsharded, hkey, hcache, hdel⟩ := hmk
  have hsep : o.handle.delimiter = "." ∨ o.handle.delimiter = "/" := by
    rw [hdel]
    cases La with
    | v2 => simpa [ArrayDesc.config] using hs.separator (by decide)
    | v3 => simpa [ArrayDesc.config] using hs.separator (by decide)
    | n5 => exact .inl rfl
  obtain ⟨d, t1, t2, t3, t4, t5⟩ := Container.typed_of_make (elem := elem) (o := o) (L := L) (by rw [hi]; exact ho) hL
    (by rw [hi, r4.chunks]; exact hs.bytes.2) (by rw [hi, r4.shape, r4.chunks]; exact hs.dims)
    (by rw [hi, r4.shape]; exact hs.small) hsep (by rw [hi]; exact hcache) (by rw [hi, r4.shape]; exact hs.axes.2.1)
    (by rw [hi, r4.chunks]; exact hs.bytes.1) (by
      rw [hi, r4.shards, r4.chunks]
      intro e
      exact ⟨by rw [r2, hd.v3_of_shards e]; rfl, hall e, (hs.shards e).2.2⟩) B
  obtain ⟨f1, f2, f3, f4, f5, f6⟩ := typed_fields t1
  rw [hi, r4.shape] at t4
  rw [hi, r4.chunks] at t5
  rw [hofill] at f2
  rw [hset] at f1
  rw [hmode] at f3
  have hcfg : ∀ k : KeyCfg, k = o.keyCfg → getChunkKey k = a.fileName La ∧
      (La.isZarr = true → zarrName k.zarrFormat k.encoding k.delimiter = a.fileName La) := by
    intro k e
    rw [hkey] at e
    subst e
    refine hd.fileName rfl ?_ ?_ ?_ ?_
    · intro e
      cases La with
      | v2 => rfl
      | v3 => rfl
      | n5 => cases e
    · rintro rfl; rfl
    · rintro rfl; rfl
    · rintro rfl; rfl
  have hk : d.base.key = o.keyCfg := by
    cases d with
    | plain ds => exact f6.2
    | sharded sd =>
      obtain ⟨g1, g2, g3⟩ := f6
      have e : a.shards ≠ [] := by
        rw [hsharded] at g1
        simpa using g1
      show sd.key = _
      rw [g3, hkey, hd.v3_of_shards e]
      rfl
  obtain ⟨k1, k2⟩ := hcfg _ hk
  obtain ⟨q1, q2⟩ := described hd t4 t5 (by rw [hk, hkey]) k1 k2 (by
    cases d with
    | plain ds =>
      have := f6.1
      rw [hsharded] at this
      simpa using this
    | sharded sd =>
      obtain ⟨g1, g2, _⟩ := f6
      rw [hi, r4.shards] at g2
      refine ⟨g2, ?_⟩
      rw [hsharded] at g1
      simpa using g1)
  rw [f1, f2] at q2
  have hpart : d.fileShape = a.part := by
    unfold ArrayDesc.part
    cases d with
    | plain ds =>
      have := f6.1
      rw [hsharded] at this
      rw [if_pos (by simpa using this)]
      exact t5
    | sharded sd =>
      obtain ⟨g1, g2, _⟩ := f6
      rw [hi, r4.shards] at g2
      rw [hsharded] at g1
      rw [if_neg (by simpa using g1)]
      exact g2
  exact ⟨o, d, ho, hi, hpath, hmode, by rw [hcache, r2], t1, t2, t3, t4, t5, f2, f1, f3, q1, q2,
    fun sd e => by subst e; have g1 := f6.1; rw [hsharded] at g1; simpa using g1, k1, hpart⟩

/-- Opening an array: the object, and the object for its elements. -/
theorem document_open {σ : Fs} {La : Layout} {a : ArrayDesc} {L : Libs} {elem : FillVal → E.T} {x : Dbl} {v : FillVal}
    (hL : L.Lawful) (hdir : σ p = some .dir) (hdoc : ∃ j, σ.docAt (p ++ [La.datasetFile]) = some j ∧ La.Says j a)
    (hoth : ∀ n ∈ [".zarray", "zarr.json", "attributes.json"], n ≠ La.datasetFile → σ (p ++ [n]) = none)
    (hs : a.Supported La E.size) (hx : a.fill = some x) (hv : a.dtype.castFill x = .ok v)
    {root : GroupHandle} {key : Path} (hp : root.path ++ key = p) (hz : root.isZarr σ = (.ok La.isZarr, σ)) :
    ∃ o d, root.openDataset key σ = (.ok o, σ) ∧ o.handle.path = p ∧ o.handle.mode = root.mode ∧ o.info.Holds a ∧ (o.info.isZarr = La.isZarr ∧ o.handle.cache = some La.isZarr) ∧
      o.typed L elem = .ok d ∧ d.WF ∧ d.PlainKeys ∧ d.base.shape = a.shape ∧ d.base.chunkShape = a.chunks ∧ d.base.fill = elem v ∧
      d.base.codec = L.codec E.size a.compression ∧
      d.base.canWrite = root.mode.canWrite ∧ d.IsKey = a.IsFile La ∧
      (∀ S A, d.Files S A ↔ a.IsStored La E (L.codec E.size a.compression) (elem v) S A) ∧ (∀ sd, d = .sharded sd → a.shards ≠ []) ∧
      getChunkKey d.base.key = a.fileName La ∧ d.fileShape = a.part := by
  obtain ⟨j, hj, hd⟩ := hdoc
  obtain ⟨m, r1, r2, r3, r3', r4, r5⟩ := document_read hs.fits hj hd hoth
  have hdir : σ (root.path ++ key) = some .dir := by rw [hp]; exact hdir
  have hrun := openDataset_run (m := m) (cfg := a.config La) hz hdir (by rw [hp]; exact r5)
    (by intro e; cases La with | v2 => cases e | v3 => cases e | n5 => rfl) (by rw [hp]; exact r1)
  obtain ⟨o, d, ho, hi, hpath, hmode, hcache, rest⟩ := object_made (elem := elem)
    (hd0 := root.dataset key (a.config La).delimiter (a.config La).zarrFormat (a.config La).encoding) hL hd hs hx hv r2 r4
    ⟨rfl, rfl, rfl⟩ .files
  exact ⟨o, d, by rw [hrun]; exact Prod.ext ho rfl, hpath.trans hp, hmode, hi ▸ r4, ⟨hi ▸ r2, hcache⟩, rest⟩

/-! ### Bytes in files -/

theorem keyNames_last {x : Char} (hx : x ≠ '/') : ∀ (k : Key) (acc : List Char),
    ∃ s, (keyNames (k ++ [x]) acc).getLast? = some s ∧ s.toList.getLast? = some x
  | [], acc => by
    refine ⟨String.ofList (x :: acc).reverse, ?_, by simp⟩
    simp [keyNames, hx]
  | c :: k, acc => by
    by_cases e : c = '/'
    · obtain ⟨s, h1, h2⟩ := keyNames_last hx k []
      refine ⟨s, ?_, h2⟩
      simp only [List.cons_append, keyNames, e, if_true]
      rw [List.getLast?_cons, h1]
      rfl
    · obtain ⟨s, h1, h2⟩ := keyNames_last hx k (c :: acc)
      exact ⟨s, by simpa only [List.cons_append, keyNames, e, if_false] using h1, h2⟩

theorem decimal_last (i : Nat) : ∃ l x, decimal i = l ++ [x] ∧ x.isDigit = true := by
  have h : decimal i ≠ [] := by
    intro e
    have := Nat.length_toDigits_pos (b := 10) (n := i)
    unfold decimal at e
    rw [e] at this
    cases this
  refine ⟨_, _, (List.dropLast_concat_getLast h).symm, ?_⟩
  exact Nat.isDigit_of_mem_toDigits (by decide) (by decide) (List.getLast_mem h)

theorem v2Name_last (sep : List Char) : ∀ {c : List Nat}, c ≠ [] → ∃ l x, v2Name sep c = l ++ [x] ∧ x.isDigit = true
  | [i], _ => by
    obtain ⟨l, x, h1, h2⟩ := decimal_last i
    exact ⟨l, x, by rw [← h1]; simp [v2Name, List.intercalate], h2⟩
  | i :: j :: c, _ => by
    obtain ⟨l, x, h1, h2⟩ := v2Name_last sep (c := j :: c) (by simp)
    refine ⟨decimal i ++ sep ++ l, x, ?_, h2⟩
    unfold v2Name at h1 ⊢
    simp only [List.map_cons, List.intercalate, List.intersperse_cons_cons, List.flatten_cons] at h1 ⊢
    rw [h1]
    simp

theorem v3Name_last (sep : List Char) {c : List Nat} (hc : c ≠ []) : ∃ l x, v3Name sep c = l ++ [x] ∧ x.isDigit = true := by
  obtain ⟨l, x, h1, h2⟩ := decimal_last (c.getLast hc)
  refine ⟨'c' :: ((c.dropLast.map fun i => sep ++ decimal i).flatten ++ (sep ++ l)), x, ?_, h2⟩
  unfold v3Name
  conv => lhs; rw [← List.dropLast_concat_getLast hc]
  simp [h1]

theorem ArrayDesc.fileName_last (a : ArrayDesc) (La : Layout) {c : List Nat} (hc : c ≠ []) :
    ∃ l x, a.fileName La c = l ++ [x] ∧ x.isDigit = true := by
  cases La with
  | v2 => exact v2Name_last _ hc
  | v3 =>
    unfold fileName zarrName
    dsimp only
    split
    · exact v3Name_last _ hc
    · exact v2Name_last _ hc
  | n5 => exact v2Name_last ['/'] (c := c.reverse) (by simpa using hc)

/-- a file with elements is none of the documents -/
theorem ArrayDesc.IsFile.last {a : ArrayDesc} {La : Layout} {k : Key} (h : a.IsFile La k) (hs : a.shape ≠ []) :
    ∃ s x, (chunkFile p k).getLast? = some s ∧ s.toList.getLast? = some x ∧ x.isDigit = true := by
  obtain ⟨c, hc, rfl⟩ := h
  have : c ≠ [] := by
    rintro rfl
    cases e : a.shape with
    | nil => exact hs e
    | cons x l =>
      rw [e] at hc
      cases e' : a.part with
      | nil => rw [e'] at hc; exact hc
      | cons y m => rw [e'] at hc; exact hc
  obtain ⟨l, x, h1, h2⟩ := a.fileName_last La this
  have hx : x ≠ '/' := by rintro rfl; revert h2; decide
  obtain ⟨s, h3, h4⟩ := keyNames_last hx l []
  refine ⟨s, x, ?_, h4, h2⟩
  unfold chunkFile
  rw [h1, List.getLast?_append, h3]
  rfl

theorem documentFiles_last {n : String} (h : n ∈ documentFiles) {x : Char} (hx : n.toList.getLast? = some x) : x.isDigit = false := by
  simp only [documentFiles, List.mem_cons, List.not_mem_nil, or_false] at h
  rcases h with rfl | rfl | rfl | rfl | rfl <;>
    (simp at hx; subst hx; decide)

namespace RawFs

variable {R : RawFs}

theorem view_none : R.view p = none ↔ R p = none := by
  unfold view
  cases R p with
  | none => simp
  | some e => cases e with
    | dir => simp
    | file b =>
      simp only
      split
      · split <;> simp
      · simp

theorem view_dir : R.view p = some .dir ↔ R p = some .dir := by
  unfold view
  cases R p with
  | none => simp
  | some e => cases e with
    | dir => simp
    | file b =>
      simp only
      split
      · split <;> simp
      · simp

theorem view_file (h : ∀ n ∈ documentFiles, p.getLast? ≠ some n) :
    R.view p = (match R p with | none => none | some .dir => some .dir | some (.file b) => some (.file b)) := by
  unfold view
  have : ¬ ∃ n ∈ documentFiles, p.getLast? = some n := fun ⟨n, h1, h2⟩ => h n h1 h2
  simp only [this, if_false]
  cases R p with
  | none => rfl
  | some e => cases e <;> rfl

theorem HasText.view {n : String} {j : Json} (h : R.HasText (p ++ [n]) j) (hn : n ∈ documentFiles) :
    R.view (p ++ [n]) = some (.doc j) := by
  obtain ⟨bom, t, hb, ht, hc⟩ := h
  have : R (p ++ [n]) = some (.file (Utf8.encode (bom ++ t))) := by
    unfold content at hc
    cases e : R (p ++ [n]) with
    | none => rw [e] at hc; cases hc
    | some e' => cases e' with
      | dir => rw [e] at hc; cases hc
      | file b => rw [e] at hc; cases hc; rfl
  unfold RawFs.view
  rw [this]
  simp only
  rw [if_pos ⟨n, hn, by simp⟩, (c82_file hb ht).1]

theorem view_chunks {La : Layout} {a : ArrayDesc} (hs : a.shape ≠ []) {k : Key} (hk : a.IsFile La k) :
    R.view (chunkFile p k) = (match R (chunkFile p k) with | none => none | some .dir => some .dir | some (.file b) => some (.file b)) := by
  apply view_file
  intro n hn e
  obtain ⟨s, x, h1, h2, h3⟩ := hk.last (p := p) hs
  rw [h1] at e
  cases e
  rw [documentFiles_last hn h2] at h3
  cases h3

end RawFs

theorem ArrayDesc.datasetFile_mem (La : Layout) : La.datasetFile ∈ documentFiles := by
  cases La <;> simp [Layout.datasetFile, documentFiles]

/-- the elements depend on the files of the array only -/
theorem ArrayDesc.IsStored.congr {a : ArrayDesc} {La : Layout} {C : Codec} {fill : E.T} {σ σ' : Store} {A : List Nat → E.T}
    (h : a.IsStored La E C fill σ A) (hk : ∀ k, a.IsFile La k → σ' k = σ k) (hs : a.Supported La E.size)
    (hn : a.shards ≠ [] → La = .v3) : a.IsStored La E C fill σ' A := by
  have hplain : a.shards = [] → IsZarrArray E a.shape a.chunks (a.fileName La) C fill σ A →
      IsZarrArray E a.shape a.chunks (a.fileName La) C fill σ' A := by
    rintro e ⟨P, h1, h2⟩
    refine ⟨P, h1, fun c hc => ?_⟩
    dsimp only
    rw [hk _ ⟨c, by unfold part; rw [if_pos e]; exact hc, rfl⟩]
    exact h2 c hc
  cases La with
  | v2 =>
    have e : a.shards = [] := Classical.byContradiction fun e => by cases hn e
    unfold IsStored at h ⊢
    dsimp only at h ⊢
    rw [if_pos e] at h ⊢
    exact hplain e h
  | v3 =>
    unfold IsStored at h ⊢
    dsimp only at h ⊢
    by_cases e : a.shards = []
    · rw [if_pos e] at h ⊢
      exact hplain e h
    · rw [if_neg e] at h ⊢
      obtain ⟨st, h1, h2⟩ := h
      refine ⟨st, fun s hg => ?_, h2⟩
      have := hk (a.fileName .v3 s) ⟨s, by
        unfold part
        rw [if_neg e]
        rw [mulV_div (hs.shards_all e)] at hg
        exact hg, rfl⟩
      rw [this]
      exact h1 s hg
  | n5 =>
    have e : a.shards = [] := Classical.byContradiction fun e => by cases hn e
    intro g hg
    have := hk (n5Name g) ⟨g.reverse, by
      unfold part
      rw [if_pos e]
      exact inGrid_reverse.1 (by rw [List.reverse_reverse]; exact hg), by show n5Name g = n5Name g.reverse.reverse; rw [List.reverse_reverse]⟩
    dsimp only
    rw [this]
    exact h g hg

/-- What is in the bytes is what the library sees. -/
theorem RawFs.HoldsArray.view {R : RawFs} {La : Layout} {a : ArrayDesc} {C : Codec} {fill : E.T} {A : List Nat → E.T}
    (h : R.HoldsArray p La a E C fill A) (hs : a.Supported La E.size) : R.view.HoldsArray p La a E C fill A where
  tidy :=
    { above := fun q hq => view_dir.2 (h.above q hq)
      files := fun k hk => by
        rw [view_chunks hs.axes.1 hk]
        have := h.files k hk
        cases e : R (chunkFile p k) with
        | none => rfl
        | some x => cases x with
          | dir => exact absurd e this
          | file b => rfl
      dirs := fun k hk q h1 h2 h3 => by
        have := h.dirs k hk q h1 h2 h3
        cases e : R q with
        | none => rw [view_none.2 e]; rfl
        | some x => cases x with
          | dir => rw [view_dir.2 e]; rfl
          | file b => exact absurd e (this b) }
  document := by
    obtain ⟨j, h1, h2⟩ := h.document
    refine ⟨j, ?_, h2⟩
    unfold Fs.docAt
    rw [h1.view (ArrayDesc.datasetFile_mem La)]
  others n hn hne := view_none.2 (h.others n hn hne)
  elements := by
    obtain ⟨j, _, h2⟩ := h.document
    refine h.elements.congr (fun k hk => ?_) hs fun e => h2.v3_of_shards e
    have := view_chunks (R := R) (p := p) hs.axes.1 hk
    unfold Fs.chunks
    show (match R.view (chunkFile p k) with | some (.file b) => some b | _ => none) = _
    rw [this]
    unfold content
    cases R (chunkFile p k) with
    | none => rfl
    | some x => cases x <;> rfl

/-! ### Writing -/

theorem AnyDataset.Does.effect {d : AnyDataset E} (h : d.WF) (hk : d.PlainKeys) (hw : d.base.canWrite = true)
    {ws : List (Write E.T)} {σ σ' : Fs} (hp : d.Does p ws σ σ') (ht : Tidy p d.IsKey σ) :
    Tidy p d.IsKey σ' ∧ (∀ n, MetaName n → σ' (p ++ [n]) = σ (p ++ [n])) ∧
      ∀ S, d.Holds p σ S → d.Holds p σ' (replay S ws) := by
  induction hp with
  | nil => exact ⟨ht, fun _ _ => rfl, fun S hS => hS⟩
  | step _ hp ih =>
    obtain ⟨i1, i2, i3⟩ := ih ht
    obtain ⟨j1, j2, j3⟩ := hp.effect h hk hw i1
    refine ⟨j1, fun n hn => (AnyDataset.onlyChunks_meta j2 hn).trans (i2 n hn), fun S hS => ?_⟩
    rw [replay_append]
    exact j3 _ (i3 S hS)

theorem datasetFile_meta (La : Layout) : MetaName La.datasetFile := by
  cases La <;> simp [Layout.datasetFile, MetaName]

theorem other_meta {n : String} (hn : n ∈ [".zarray", "zarr.json", "attributes.json"]) : MetaName n := by
  simp only [List.mem_cons, List.not_mem_nil, or_false] at hn
  rcases hn with rfl | rfl | rfl <;> simp [MetaName]

/-- Writing keeps an array an array. -/
theorem Fs.HoldsArray.does {σ σ' : Fs} {La : Layout} {a : ArrayDesc} {d : AnyDataset E} {A : List Nat → E.T} {ws : List (Write E.T)}
    (h : σ.HoldsArray p La a E d.base.codec d.base.fill A) (hwf : d.WF) (hk : d.PlainKeys) (hw : d.base.canWrite = true)
    (hs : d.base.shape = a.shape) (hkey : d.IsKey = a.IsFile La)
    (hfiles : ∀ S A, d.Files S A ↔ a.IsStored La E d.base.codec d.base.fill S A) (hp : d.Does p ws σ σ') :
    ∃ A', σ'.HoldsArray p La a E d.base.codec d.base.fill A' ∧
      ∀ x, InBox x a.shape → SameOrFill E.ceq d.base.fill (A' x) (replay A ws x) := by
  obtain ⟨e1, e2, e3⟩ := hp.effect hwf hk hw (hkey ▸ h.tidy)
  obtain ⟨S, hS, hSA⟩ := AnyDataset.Files.holds hwf ((hfiles _ _).2 h.elements)
  obtain ⟨A', f1, f2⟩ := AnyDataset.Holds.files hwf (e3 S hS)
  refine ⟨A', ⟨hkey ▸ e1, ?_, fun n hn hne => ?_, (hfiles _ _).1 f1⟩, fun x hx => ?_⟩
  · obtain ⟨j, h1, h2⟩ := h.document
    refine ⟨j, ?_, h2⟩
    rw [← h1]
    unfold Fs.docAt
    rw [e2 _ (datasetFile_meta La)]
  · rw [e2 n (other_meta hn)]
    exact h.others n hn hne
  · rw [← hs] at hx
    rw [← replay_congr ws (hSA x hx)]
    exact f2 x hx

/-- The document of a new array says what the array is. -/
theorem created_says {z : Bool} {args : CreateArgs} {o : DatasetObj} {j : Json} {h0 : DatasetHandle} (hm : args.toMeta z = .ok o.info)
    (hmk : makeDataset h0 o.info = .ok o) (hj : o.info.toJson = .ok j) (hd : o.Describable) :
    ∃ a x, o.layout.Says j a ∧ a.dtype = o.info.dtype ∧ a.shape = o.info.shape ∧ a.chunks = o.info.chunkShape ∧
      a.shards = o.info.shardShape ∧ a.fill = some x ∧ a.dtype.castFill x = .ok o.fill ∧
      a.compression.compressor = o.settings.compressor ∧
      (o.info.isZarr = true → a.separator = o.info.delimiter) ∧ (o.layout = .v3 → a.encoding = o.info.encoding) ∧
      (o.layout = .v2 → a.encoding = "default") := by
  obtain ⟨e1, e2, _, _, _, _, _, _, _, _, _, e3⟩ := createMeta_ok hm
  obtain ⟨B, f, s, m1, m2, m3, m4⟩ := makeDataset_ok.1 hmk
  have hf : o.fill = f ∧ o.settings = s := by
    rcases m4 with ⟨_, _, _, e⟩ | ⟨_, e⟩ <;> (have e1 := congrArg DatasetObj.fill e; have e2 := congrArg DatasetObj.settings e; exact ⟨e1, e2⟩)
  rw [hf.1, hf.2]
  have hcs := initCompressor_compressor m3
  cases hz : o.info.isZarr with
  | false =>
    have hLa : o.layout = .n5 := by unfold DatasetObj.layout Layout.of; rw [hz]; rfl
    have hns : o.info.shardShape = [] := Classical.byContradiction fun e => by
      have := (e3 e).1
      rw [← e1, hz] at this
      cases this
    have h := c59_n5_write hd.typed hz hj m3 "." "default"
    rw [hLa]
    refine ⟨_, .zero, .inl h, rfl, rfl, rfl, hns.symm, rfl, ?_, ?_, (by rintro ⟨⟩), (by rintro ⟨⟩), (by rintro ⟨⟩)⟩
    · rcases hd.fill with e | e
      · rw [hz] at e; cases e
      · rw [← e]; exact m2
    · cases s <;> rfl
  | true =>
    obtain ⟨s', hs'⟩ : ∃ s', o.info.settings = .ok s' := by
      exact settings_exist m3
    have hc' := initCompressor_compressor hs'
    rcases hd.version hz with hv | hv
    · have hLa : o.layout = .v2 := by unfold DatasetObj.layout Layout.of; rw [hz, hv]; rfl
      have hns : o.info.shardShape = [] := Classical.byContradiction fun e => by
        have := (e3 e).2
        rw [hv] at this
        cases this
      have h := c59_v2_write hd.typed hz hv hj hs'
      rw [hLa]
      exact ⟨_, o.info.fillValue, h, rfl, rfl, rfl, hns.symm, rfl, m2, hc'.trans hcs.symm, fun _ => rfl, (by rintro ⟨⟩), fun _ => rfl⟩
    · have hLa : o.layout = .v3 := by unfold DatasetObj.layout Layout.of; rw [hz, hv]; rfl
      obtain ⟨x, h, hx⟩ := c59_v3_write hd.typed hz hv hj hs'
      rw [hLa]
      refine ⟨_, x, h, rfl, rfl, rfl, rfl, rfl, hx.trans m2, ?_, fun _ => rfl, fun _ => rfl, (by rintro ⟨⟩)⟩
      rw [← hcs] at hc'
      rw [← hc']
      cases s' <;> rfl

/-- A new array and the objects for it, on either kind of storage.  The compressor is that of the document. -/
theorem created_object {z : Bool} {args : CreateArgs} {o : DatasetObj} {j : Json} {h0 : DatasetHandle} {L : Libs}
    {elem : FillVal → E.T} {d : AnyDataset E} {B : Backend} (hm : args.toMeta z = .ok o.info)
    (hmk : makeDataset h0 o.info = .ok o) (hkey : o.keyCfg = ⟨z, args.delimiter.toList, args.zarrFormat.toNat, args.encoding.toList⟩)
    (hj : o.info.toJson = .ok j) (hdesc : o.Describable) (hL : L.LawfulFor (prod d.base.chunkShape * E.size))
    (ht : o.typed L elem B = .ok d) :
    ∃ a x, o.layout.Says j a ∧ a.dtype = o.info.dtype ∧ a.shape = o.info.shape ∧ a.chunks = o.info.chunkShape ∧
      a.shards = o.info.shardShape ∧ a.fill = some x ∧ a.dtype.castFill x = .ok o.fill ∧
      d.base.Alike d.base.key (L.codec E.size a.compression) ∧ d.IsKey = a.IsFile o.layout ∧
      (∀ S A, (d.variant d.base.key (L.codec E.size a.compression) d.base.canWrite).Files S A ↔
        a.IsStored o.layout E (L.codec E.size a.compression) (elem o.fill) S A) ∧
      (o.info.isZarr = true → a.separator = o.info.delimiter) ∧ d.fileShape = a.part ∧
      getChunkKey d.base.key = a.fileName o.layout := by
  obtain ⟨e1, e2, e3, e4, e5, e6, e7, e8, _, _, _, e9⟩ := createMeta_ok hm
  obtain ⟨a, x, hsays, a1, a2, a3, a4, a5, a6, a7, a8, a9, a10⟩ := created_says hm hmk hj hdesc
  obtain ⟨f1, f2, f3, f4, f5, f6⟩ := typed_fields ht
  have hLz : o.layout.isZarr = z := by rw [DatasetObj.layout_isZarr, e1]
  have hk3 : o.layout = .v3 → args.zarrFormat = 3 := by
    intro e
    unfold DatasetObj.layout Layout.of at e
    rw [← e2]
    cases hz : o.info.isZarr with
    | false => rw [hz] at e; cases e
    | true =>
      rw [hz] at e
      by_cases hf : o.info.zarrFormat = 3
      · exact hf
      · simp [hf] at e
  have hk2 : o.layout = .v2 → args.zarrFormat = 2 := by
    intro e
    have hz : o.info.isZarr = true := by rw [← DatasetObj.layout_isZarr, e]; rfl
    rcases hdesc.version hz with hf | hf
    · rw [← e2]; exact hf
    · unfold DatasetObj.layout Layout.of at e
      rw [hz, hf] at e
      cases e
  have hsharded : o.sharded = true ↔ o.info.shardShape ≠ [] := by
    obtain ⟨B, f, s, m1, m2, m3, m4⟩ := makeDataset_ok.1 hmk
    rcases m4 with ⟨g1, _, _, e⟩ | ⟨g1, e⟩
    · have := congrArg DatasetObj.sharded e
      exact ⟨fun _ => g1, fun _ => this⟩
    · have := congrArg DatasetObj.sharded e
      refine ⟨fun h => (by rw [this] at h; cases h), fun h => absurd ⟨h, ?_⟩ g1⟩
      have hLa := hsays.v3_of_shards (a4 ▸ h)
      rw [hLa] at hsays
      obtain ⟨_, h1, _⟩ := ZarrV3.Describes.dtype hsays
      rw [← a1]
      exact plainTypeName_complex h1
  have hdk : d.base.key = o.keyCfg := by
    cases d with
    | plain ds => exact f6.2
    | sharded sd =>
      obtain ⟨g1, g2, g3⟩ := f6
      have e := hsharded.1 g1
      show sd.key = _
      rw [g3, hkey, (e9 e).1]
  -- the object with the compressor as the document has it
  let C := L.codec E.size a.compression
  have hal : d.base.Alike d.base.key C :=
    ⟨rfl, fun _ => rfl, by rw [f1]; exact L.sameDecoder E.size a7, hL E.size a.compression⟩
  have hb : (d.variant d.base.key C d.base.canWrite).base = d.base.variant d.base.key C d.base.canWrite := AnyDataset.variant_base
  obtain ⟨k1, k2⟩ := hsays.fileName (k := d.base.key) (by rw [hdk, hkey]; exact hLz.symm)
    (fun e => by rw [hdk, hkey, a8 (by rw [e1, ← hLz, e]), e7])
    (fun e => by rw [hdk, hkey, a9 e, e8])
    (fun e => by rw [hdk, hkey]; show args.zarrFormat.toNat = 3; rw [hk3 e]; rfl)
    (fun e => by rw [hdk, hkey]; show args.zarrFormat.toNat = 2; rw [hk2 e]; rfl)
  obtain ⟨q1, q2⟩ := described (d := d.variant d.base.key C d.base.canWrite) hsays (by rw [hb, a2]; exact f4)
    (by rw [hb, a3]; exact f5) (by rw [hb]; show d.base.key.isZarr = _; rw [hdk, hkey, hLz])
    (by rw [hb]; exact k1) (by rw [hb]; exact k2) (by
      cases d with
      | plain ds =>
        show a.shards = []
        rw [a4]
        exact Classical.byContradiction fun e => by
          have := hsharded.2 e
          rw [f6.1] at this
          cases this
      | sharded sd =>
        obtain ⟨g1, g2, _⟩ := f6
        exact ⟨g2.trans a4.symm, by rw [a4]; exact hsharded.1 g1⟩)
  rw [hb] at q2
  have hff : elem o.fill = d.base.fill := f2.symm
  rw [hff]
  refine ⟨a, x, hsays, a1, a2, a3, a4, a5, a6, hal, by rw [← q1, AnyDataset.variant_isKey hal], q2, a8, ?_, k1⟩
  unfold ArrayDesc.part
  cases d with
  | plain ds =>
    have : a.shards = [] := by
      rw [a4]
      exact Classical.byContradiction fun e => by
        have := hsharded.2 e
        rw [f6.1] at this
        cases this
    rw [if_pos this, a3]
    exact f5
  | sharded sd =>
    obtain ⟨g1, g2, _⟩ := f6
    rw [if_neg (by rw [a4]; exact hsharded.1 g1), a4]
    exact g2

theorem datasetFile_eq (o : DatasetObj) : o.info.fileName = o.layout.datasetFile := by
  unfold Meta.fileName DatasetObj.layout Layout.of
  cases o.info.isZarr with
  | false => rfl
  | true => by_cases hf : o.info.zarrFormat = 3 <;> simp [hf, Layout.datasetFile]

/-- What was written to a new array is there in the format. -/
theorem created_holds {root : GroupHandle} {key : Path} {args : CreateArgs} {o : DatasetObj} {σ σ' σ'' : Fs} {L : Libs}
    {elem : FillVal → E.T} {d : AnyDataset E} {ws : List (Write E.T)} (hσ : σ.WF)
    (h : root.createDataset key args σ = (.ok o, σ')) (hdesc : o.Describable) (hL : L.LawfulFor (prod d.base.chunkShape * E.size))
    (ht : o.typed L elem = .ok d) (hwf : d.WF) (hk : d.PlainKeys) (hw : d.Does (root.path ++ key) ws σ' σ'') :
    ∃ a x A, σ''.HoldsArray (root.path ++ key) o.layout a E (L.codec E.size a.compression) (elem o.fill) A ∧
      a.dtype = o.info.dtype ∧ a.shape = o.info.shape ∧ a.chunks = o.info.chunkShape ∧ a.shards = o.info.shardShape ∧
      a.fill = some x ∧ a.dtype.castFill x = .ok o.fill ∧
      ∀ y, InBox y a.shape → SameOrFill E.ceq (elem o.fill) (A y) (replay (fun _ => elem o.fill) ws y) := by
  obtain ⟨m', cfg, _, hcar⟩ := created_carries hσ h hdesc hwf
  obtain ⟨z, m, j, h0, hr, hm, rfl, hmk, hh, hj, hn⟩ := GroupHandle.createDataset_ok hσ h
  obtain ⟨f1, f2, f3, f4, f5, f6⟩ := typed_fields ht
  have hwrite : d.base.canWrite = true := by
    rw [f3, hh]
    show root.mode.canWrite = true
    revert hr
    cases root.mode <;> first | (intro h; exact absurd rfl h) | (intro _; rfl)
  have hkey : o.keyCfg = ⟨z, args.delimiter.toList, args.zarrFormat.toNat, args.encoding.toList⟩ := by
    unfold DatasetObj.keyCfg
    rw [hh]
    rfl
  obtain ⟨a, x, hsays, a1, a2, a3, a4, a5, a6, hal, q1, q2, _⟩ := created_object hm hmk hkey hj hdesc hL ht
  obtain ⟨u1, u2, u3⟩ := hw.effect hwf hk hwrite hcar.tidy
  obtain ⟨A, v1, v2⟩ := AnyDataset.Holds.files (AnyDataset.variant_wf hal hwf)
    ((AnyDataset.variant_holds (w := d.base.canWrite) hal).2 (u3 _ hcar.holds))
  rw [AnyDataset.variant_base] at v2
  have hfile := datasetFile_eq o
  have hff : elem o.fill = d.base.fill := f2.symm
  rw [hff] at q2 ⊢
  refine ⟨a, x, A, ⟨?_, ⟨j, ?_, hsays⟩, fun n hn' hne => ?_, (q2 _ _).1 v1⟩, a1, a2, a3, a4, a5, a6, fun y hy => ?_⟩
  · rw [← q1]
    exact u1
  · unfold Fs.docAt
    rw [u2 _ (datasetFile_meta _), hn.docs, ← hfile, if_pos rfl]
    rfl
  · rw [u2 n (other_meta hn'), hn.docs, if_neg (by rw [hfile]; exact hne)]
    rfl
  · refine v2 y ?_
    show InBox y d.base.shape
    rw [f4, ← a2]
    exact hy

end Z5
