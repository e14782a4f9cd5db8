import Verif.Props.Metadata
import Verif.Proofs.Formats

/-!
# C59: metadata documents as the formats define them
-/

namespace Z5

/-! ### Reading -/

/-- **C59 (zarr v2).**  A document that describes an array is read as what it says, whoever has written it. -/
theorem c59_v2_read {j : Json} {a : ArrayDesc} (h : ZarrV2.Describes j a) (hf : a.Fits) :
    ∃ m, Meta.fromJson j true = .ok m ∧ m.isZarr = true ∧ m.zarrFormat = 2 ∧ m.Holds a := by
  obtain ⟨c, hc, hcomp⟩ := h.compression
  obtain ⟨comp, o, ho, hi⟩ := v2_compression hcomp
  have hfill : ∃ f d, j.find "fill_value" = some f ∧ Meta.readFill f .nan = .ok d ∧ ∀ x, a.fill = some x → d = x := by
    rcases h.fill with hq | ⟨hq, e⟩
    · obtain ⟨f, d, h1, h2, h3⟩ := fill_read hq .nan
      exact ⟨f, d, h1, h3, fun x e => by rw [h2] at e; cases e; rfl⟩
    · exact ⟨_, .nan, hq, rfl, fun x e' => by rw [e] at e'; cases e'⟩
  obtain ⟨f, d, h1, h2, h3⟩ := hfill
  obtain ⟨vs, hvs, hs⟩ := shape_read h.shape hf.shape
  obtain ⟨vc, hvc, hcs⟩ := shape_read h.chunks hf.chunks
  refine ⟨{ isZarr := true, zarrFormat := 2, dtype := a.dtype, shape := a.shape, chunkShape := a.chunks,
            compressor := comp, options := o, fillValue := d, delimiter := a.separator, encoding := "default",
            shardShape := [] }, ?_, rfl, rfl, rfl, rfl, rfl, h.noShards.symm, hi, h3, fun _ => rfl,
          fun _ => h.encoding.symm⟩
  have hcheck : Meta.checkJson j = .ok () := by
    have ho : j.find "order" = some (.str "C") := h.order
    unfold Meta.checkJson
    rw [ho, h.format]
    rcases h.filters with e | e <;> rw [e] <;> rfl
  rcases h.separator with e | ⟨e, e'⟩
  · simp [Meta.fromJson, Meta.fromJsonZarr, hcheck, h.format, getInt_int (i := 2) (by decide), sub_of_find h.dtype,
      Json.getStr, zarrName_read, sub_of_find hvs, hs, sub_of_find hvc, hcs, sub_of_find h1, h2, sub_of_find hc, ho,
      Meta.checkShapes, hf.axes, show j.find "dimension_separator" = _ from e]
  · simp [Meta.fromJson, Meta.fromJsonZarr, hcheck, h.format, getInt_int (i := 2) (by decide), sub_of_find h.dtype,
      Json.getStr, zarrName_read, sub_of_find hvs, hs, sub_of_find hvc, hcs, sub_of_find h1, h2, sub_of_find hc, ho,
      Meta.checkShapes, hf.axes, e, e']

/-- **C59 (zarr v2).**  The keys of the chunks are joined with the separator that the document says, by default a dot. -/
theorem c59_v2_keys {j : Json} {a : ArrayDesc} (h : ZarrV2.Describes j a) :
    getZarrChunkConfig none (some j) = .ok ⟨a.separator, 2, a.encoding⟩ := by
  unfold getZarrChunkConfig
  dsimp only
  rcases h.separator with e | ⟨e, e'⟩
  · rw [show j.find "dimension_separator" = _ from e, h.encoding]
    rfl
  · rw [e, e', h.encoding]
    rfl

/-- **C59 (N5).**  A document that describes an array is read as what it says, whoever has written it. -/
theorem c59_n5_read {j : Json} {a : ArrayDesc} (h : N5.Describes j a) (hf : a.Fits) :
    ∃ m, Meta.fromJson j false = .ok m ∧ m.isZarr = false ∧ m.Holds a := by
  obtain ⟨c, hc, hcomp⟩ := h.compression
  obtain ⟨comp, o, ho, hi⟩ := n5_compression hc hcomp
  obtain ⟨s, hs1, hs2⟩ := h.dtype
  have hs : Json.sizes (Json.arr (a.shape.reverse.map fun (n : Nat) => Json.int (n : Int))).elems.reverse = .ok a.shape := by
    show Json.sizes (a.shape.reverse.map fun (n : Nat) => Json.int (n : Int)).reverse = _
    rw [← List.map_reverse, List.reverse_reverse]
    exact sizes_ofShape hf.shape
  have hcs : Json.sizes (Json.arr (a.chunks.reverse.map fun (n : Nat) => Json.int (n : Int))).elems.reverse
      = .ok a.chunks := by
    show Json.sizes (a.chunks.reverse.map fun (n : Nat) => Json.int (n : Int)).reverse = _
    rw [← List.map_reverse, List.reverse_reverse]
    exact sizes_ofShape hf.chunks
  refine ⟨{ isZarr := false, zarrFormat := 2, dtype := a.dtype, shape := a.shape, chunkShape := a.chunks,
            compressor := comp, options := o, fillValue := .zero, delimiter := "", encoding := "default",
            shardShape := [] }, ?_, rfl, rfl, rfl, rfl, h.noShards.symm, hi, ?_, (fun e => by cases e),
          (fun e => by cases e)⟩
  · have hm : mapAt Datatype.n5ToDtype s = .ok a.dtype := by
      unfold mapAt
      rw [plainName_read hs1]
    simp only [Meta.fromJson, Meta.fromJsonN5, Bool.false_eq_true, if_false, sub_of_find hs2, sub_of_find h.shape,
      sub_of_find h.chunks, Res.ok_bind, Json.getStr, hm, hs, hcs, ho, Meta.checkShapes]
    simp [hf.axes]
  · intro d hd
    rw [h.fill] at hd
    cases hd
    rfl

/-- **C59 (N5).**  So is a document in the form of old versions of N5. -/
theorem c59_n5_read_old {j : Json} {a : ArrayDesc} (h : N5.DescribesOld j a) (hf : a.Fits) :
    ∃ m, Meta.fromJson j false = .ok m ∧ m.isZarr = false ∧ m.Holds a := by
  obtain ⟨t, ht, htc⟩ := h.compression
  obtain ⟨s, hs1, hs2⟩ := h.dtype
  have hc : ∃ comp o, Meta.readN5Compressor j = .ok (comp, o) ∧ initCompressor comp o = .ok a.compression := by
    unfold Meta.readN5Compressor
    simp only [h.noCompression, show j.find "compressionType" = _ from ht]
    simp only [List.mem_cons, List.not_mem_nil, or_false, Prod.mk.injEq] at htc
    rcases htc with ⟨rfl, e⟩ | ⟨rfl, e⟩ | ⟨rfl, e⟩ | ⟨rfl, e⟩ <;> rw [e] <;> exact ⟨_, _, rfl, rfl⟩
  obtain ⟨comp, o, ho, hi⟩ := hc
  have hs : Json.sizes (Json.arr (a.shape.reverse.map fun (n : Nat) => Json.int (n : Int))).elems.reverse = .ok a.shape := by
    show Json.sizes (a.shape.reverse.map fun (n : Nat) => Json.int (n : Int)).reverse = _
    rw [← List.map_reverse, List.reverse_reverse]
    exact sizes_ofShape hf.shape
  have hcs : Json.sizes (Json.arr (a.chunks.reverse.map fun (n : Nat) => Json.int (n : Int))).elems.reverse
      = .ok a.chunks := by
    show Json.sizes (a.chunks.reverse.map fun (n : Nat) => Json.int (n : Int)).reverse = _
    rw [← List.map_reverse, List.reverse_reverse]
    exact sizes_ofShape hf.chunks
  refine ⟨{ isZarr := false, zarrFormat := 2, dtype := a.dtype, shape := a.shape, chunkShape := a.chunks,
            compressor := comp, options := o, fillValue := .zero, delimiter := "", encoding := "default",
            shardShape := [] }, ?_, rfl, rfl, rfl, rfl, h.noShards.symm, hi, ?_, (fun e => by cases e),
          (fun e => by cases e)⟩
  · have hm : mapAt Datatype.n5ToDtype s = .ok a.dtype := by
      unfold mapAt
      rw [plainName_read hs1]
    simp only [Meta.fromJson, Meta.fromJsonN5, Bool.false_eq_true, if_false, sub_of_find hs2, sub_of_find h.shape,
      sub_of_find h.chunks, Res.ok_bind, Json.getStr, hm, hs, hcs, ho, Meta.checkShapes]
    simp [hf.axes]
  · intro d hd
    rw [h.fill] at hd
    cases hd
    rfl

theorem v3_separator {j cke : Json} {a : ArrayDesc} (h : ZarrV3.Describes j a)
    (hk : j.find "chunk_key_encoding" = some cke) : Meta.separatorOf cke a.encoding = .ok a.separator := by
  have hp : j.path ["chunk_key_encoding", "configuration", "separator"]
      = (cke.find "configuration").bind (·.find "separator") := by
    rw [← path_two]
    simp only [Json.path, hk]
  unfold Meta.separatorOf
  rw [← hp]
  rcases h.separator with e | ⟨e, e1 | e1⟩
  · rw [show j.path ["chunk_key_encoding", "configuration", "separator"] = _ from e]
    rfl
  · rw [e, e1.1, e1.2]
    rfl
  · rw [e, e1.1, e1.2]
    rfl

theorem v3_encoding {j : Json} {a : ArrayDesc} (h : ZarrV3.Describes j a) :
    ∃ cke, j.find "chunk_key_encoding" = some cke ∧ cke.find "name" = some (.str a.encoding) := by
  obtain ⟨cke, h1, h2⟩ := path_cons.1 h.encoding
  rw [path_one] at h2
  exact ⟨cke, h1, h2⟩

/-- **C59 (zarr v3).**  A document that describes an array, with or without shards, is read as what it says, whoever has
    written it. -/
theorem c59_v3_read {j : Json} {a : ArrayDesc} (h : ZarrV3.Describes j a) (hf : a.Fits) :
    ∃ m, Meta.fromJson j true = .ok m ∧ m.isZarr = true ∧ m.zarrFormat = 3 ∧ m.Holds a := by
  obtain ⟨s, hs1, hs2⟩ := h.dtype
  have hdt : Meta.atOrRuntime Datatype.n5ToDtype s = .ok a.dtype := by
    unfold Meta.atOrRuntime
    rw [plainName_read hs1]
  obtain ⟨vs, hvs, hs⟩ := shape_read h.shape hf.shape
  obtain ⟨cg, hcg, hcg'⟩ := path_cons.1 h.gridShape
  obtain ⟨cgc, hcgc, hcgs⟩ := path_cons.1 hcg'
  rw [path_one] at hcgs
  obtain ⟨vo, hvo, hos⟩ := shape_read (j := cgc.find "chunk_shape")
    (s := if a.shards = [] then a.chunks else a.shards) hcgs (by
      split
      · exact hf.chunks
      · exact hf.shards)
  obtain ⟨cke, hk, hkn⟩ := v3_encoding h
  obtain ⟨f, d, hfill, hd, hfr⟩ := fill_read h.fill .zero
  obtain ⟨l, hl, hst⟩ := h.codecs
  have hpre : ∀ {c o ch sh}, (match Meta.findSharding l with
      | .ok (some cfg) => (do
          let chunkShape ← Json.sizes (← cfg.at' "chunk_shape").elems
          let inner ← cfg.at' "codecs"
          let (compressor, options) ← readV3Codecs inner []
          return (compressor, options, chunkShape, if a.shards = [] then a.chunks else a.shards))
      | .ok none => (do
          let (compressor, options) ← readV3Codecs (.arr l) []
          return (compressor, options, if a.shards = [] then a.chunks else a.shards, []))
      | .throw e => .throw e
      | .ub => .ub : Res (Compressor × Opts × List Nat × List Nat)) = .ok (c, o, ch, sh) →
      Meta.fromJsonV3 j = .ok ⟨true, 3, a.dtype, a.shape, ch, c, o, d, a.separator, a.encoding, sh⟩ := by
    intro c o ch sh hx
    unfold Meta.fromJsonV3
    simp only [at_of_find h.node, Res.ok_bind, Json.eqStr, decide_true, Bool.not_true, Bool.false_eq_true, if_false,
      at_of_find hs2, Json.getStr, hdt, at_of_find hvs, hs, at_of_find hcg, at_of_find hcgc, at_of_find hvo, hos,
      at_of_find hk, at_of_find hkn, v3_separator h hk, at_of_find hfill, hfr, at_of_find hl, show (Json.arr l).elems = l from rfl]
    cases hfs : Meta.findSharding l with
    | throw e => rw [hfs] at hx; cases hx
    | ub => rw [hfs] at hx; cases hx
    | ok q =>
      rw [hfs] at hx
      cases q with
      | none =>
        obtain ⟨⟨c', o'⟩, h1, h2⟩ := Res.bind_eq_ok.1 hx
        cases h2
        simp only [Res.ok_bind, h1]
        rfl
      | some cfg =>
        obtain ⟨v1, h1, hx⟩ := Res.bind_eq_ok.1 hx
        obtain ⟨v2, h2, hx⟩ := Res.bind_eq_ok.1 hx
        obtain ⟨v3, h3, hx⟩ := Res.bind_eq_ok.1 hx
        obtain ⟨⟨c', o'⟩, h4, hx⟩ := Res.bind_eq_ok.1 hx
        cases hx
        simp only [Res.ok_bind, h1, h2, h3, h4]
        rfl
  have hfin : ∀ {m : Meta}, Meta.fromJsonV3 j = .ok m → m.shape = a.shape → m.chunkShape = a.chunks →
      Meta.fromJson j true = .ok m := by
    intro m h1 h2 h3
    simp [Meta.fromJson, h.format, getInt_int (i := 3) (by decide), h1, Meta.checkShapes, h2, h3, hf.axes]
  cases hst with
  | chunks hsh hco =>
    obtain ⟨⟨c, o, hr, hi⟩, hn⟩ := v3_codecs hco
    have := hpre (c := c) (o := o) (ch := a.chunks) (sh := []) (by
      rw [hn, if_pos hsh]
      simp only [hr, Res.ok_bind]
      rfl)
    exact ⟨_, hfin this rfl rfl, rfl, rfl, rfl, rfl, rfl, hsh.symm, hi, (fun x e => by rw [hd] at e; cases e; rfl),
      fun _ => rfl, fun _ => rfl⟩
  | @shards c0 l' hsh hname hch hcc hco hix hloc =>
    obtain ⟨⟨c, o, hr, hi⟩, hn⟩ := v3_codecs hco
    obtain ⟨cfg, hcfg, hp⟩ := configOf hcc
    rw [hp] at hch hcc
    obtain ⟨vch, hvch, hchs⟩ := shape_read hch hf.chunks
    have hfs : Meta.findSharding [c0] = .ok (some cfg) := by
      simp only [Meta.findSharding, at_of_find hname, Res.ok_bind, Json.eqStr, decide_true, if_true, at_of_find hcfg]
      rfl
    have := hpre (c := c) (o := o) (ch := a.chunks) (sh := a.shards) (by
      rw [hfs, if_neg hsh]
      simp only [at_of_find hvch, at_of_find hcc, hchs, hr, Res.ok_bind]
      rfl)
    exact ⟨_, hfin this rfl rfl, rfl, rfl, rfl, rfl, rfl, rfl, hi, (fun x e => by rw [hd] at e; cases e; rfl),
      fun _ => rfl, fun _ => rfl⟩

/-- **C59 (zarr v3).**  The keys of the chunks are those of the encoding and separator that the document says; the
    separator is by default a slash for the encoding `default` and a dot for the encoding `v2`. -/
theorem c59_v3_keys {j : Json} {a : ArrayDesc} (h : ZarrV3.Describes j a) (v2 : Option Json) :
    getZarrChunkConfig (some j) v2 = .ok ⟨a.separator, 3, a.encoding⟩ := by
  obtain ⟨cke, hk, hkn⟩ := v3_encoding h
  unfold getZarrChunkConfig
  dsimp only
  rw [hk]
  dsimp only
  rw [valueStr_of_find hkn, Res.ok_bind, v3_separator h hk]
  rfl

/-! ### Writing -/

theorem elementBytes_eq (dt : Datatype) : dt.size = elementBytes dt := by
  cases dt <;> rfl

theorem v2_write_compression {c : Compressor} {o : Opts} {j : Json} {s : Settings}
    (ho : ∀ k v, assocGet o k = some v → v.Typed) (h : writeZarrOptions c o = .ok j)
    (hs : initCompressor c (assocErase o "nthreads") = .ok s) : ZarrV2.Compression j s := by
  cases c with
  | raw =>
    cases h
    cases hs
    exact .raw
  | blosc =>
    simp only [writeZarrOptions, Compressor.compressorToZarr, enumAt, reduceCtorEq, if_false, if_true,
      Res.bind_eq_ok, opts_int_iff, opts_str_iff] at h
    obtain ⟨cd, h1, lv, h2, sh, h3, bs, h4, h⟩ := h
    cases h
    have : s = .blosc cd lv sh bs 1 := by
      revert hs
      options_solve [h1, h2, h3, h4]
      exact fun e => e.symm
    subst this
    exact .blosc rfl rfl ⟨rfl, ho _ _ h2⟩ ⟨rfl, ho _ _ h3⟩ (.inl ⟨rfl, ho _ _ h4⟩)
  | zlib =>
    simp only [writeZarrOptions, Compressor.compressorToZarr, enumAt, reduceCtorEq, if_false, if_true,
      Res.bind_eq_ok, opts_int_iff, opts_bool_iff] at h
    obtain ⟨uz, h1, lv, h2, h⟩ := h
    cases h
    have : s = .zlib lv uz := by
      revert hs
      options_solve [h1, h2]
      exact fun e => e.symm
    subst this
    cases uz with
    | true => exact .zlib rfl ⟨rfl, ho _ _ h2⟩
    | false => exact .gzip rfl ⟨rfl, ho _ _ h2⟩
  | xz => simp [writeZarrOptions, Compressor.compressorToZarr, enumAt] at h
  | bzip2 =>
    simp only [writeZarrOptions, Compressor.compressorToZarr, enumAt, reduceCtorEq, if_false, if_true,
      Res.bind_eq_ok, opts_int_iff] at h
    obtain ⟨lv, h2, h⟩ := h
    cases h
    have : s = .bzip2 lv := by
      revert hs
      options_solve [h2]
      exact fun e => e.symm
    subst this
    exact .bz2 rfl ⟨rfl, ho _ _ h2⟩
  | lz4 =>
    simp only [writeZarrOptions, Compressor.compressorToZarr, enumAt, reduceCtorEq, if_false, if_true,
      Res.bind_eq_ok, opts_int_iff] at h
    obtain ⟨lv, h2, h⟩ := h
    cases h
    have : s = .lz4 lv := by
      revert hs
      options_solve [h2]
      exact fun e => e.symm
    subst this
    exact .lz4 rfl ⟨rfl, ho _ _ h2⟩
  | zstd =>
    simp only [writeZarrOptions, Compressor.compressorToZarr, enumAt, reduceCtorEq, if_false, if_true,
      Res.bind_eq_ok, opts_int_iff] at h
    obtain ⟨lv, h2, h⟩ := h
    cases h
    have : s = .zstd lv := by
      revert hs
      options_solve [h2]
      exact fun e => e.symm
    subst this
    exact .zstd rfl ⟨rfl, ho _ _ h2⟩

theorem fill_written (d : Dbl) : Json.IsFill (some ((Meta.specialFill d).getD (.float d))) (some d) := by
  cases d with
  | nan => exact .nan
  | inf b => cases b <;> constructor
  | fin b u => exact .float b u

/-- **C59 (zarr v2).**  What is written is a document of the format, and it describes the dataset. -/
theorem c59_v2_write {m : Meta} {j : Json} {s : Settings} (hm : m.Typed) (hz : m.isZarr = true) (hf : m.zarrFormat = 2)
    (h : m.toJson = .ok j) (hs : m.settings = .ok s) :
    ZarrV2.Describes j ⟨m.dtype, m.shape, m.chunkShape, [], s, some m.fillValue, m.delimiter, "default"⟩ := by
  rw [toJson_v2 hz hf] at h
  obtain ⟨c, hc, h⟩ := Res.bind_eq_ok.1 h
  cases h
  exact ⟨rfl, rfl, rfl, rfl, rfl, .inl rfl, ⟨c, rfl, v2_write_compression hm.options hc hs⟩, .inl (fill_written _),
    .inl rfl, rfl, rfl⟩

theorem n5_write_compression {c : Compressor} {o : Opts} {j : Json} {s : Settings}
    (ho : ∀ k v, assocGet o k = some v → v.Typed) (h : writeN5Options c o = .ok j)
    (hs : initCompressor c o = .ok s) : N5.Compression j s.asN5 := by
  cases c with
  | raw =>
    cases h
    cases hs
    exact .raw rfl
  | blosc =>
    simp only [writeN5Options, Compressor.compressorToN5, enumAt, reduceCtorEq, if_false, if_true,
      Res.bind_eq_ok, opts_int_iff, opts_str_iff] at h
    obtain ⟨cd, h1, lv, h2, sh, h3, bs, h4, nt, h5, h⟩ := h
    cases h
    have : s = .blosc cd lv sh bs nt := by
      revert hs
      options_solve [h1, h2, h3, h4, h5]
      exact fun e => e.symm
    subst this
    exact .blosc rfl rfl ⟨rfl, ho _ _ h2⟩ ⟨rfl, ho _ _ h3⟩ (.inl ⟨rfl, ho _ _ h4⟩) (.inl ⟨rfl, ho _ _ h5⟩)
  | zlib =>
    simp only [writeN5Options, Compressor.compressorToN5, enumAt, reduceCtorEq, if_false, if_true,
      Res.bind_eq_ok, opts_int_iff] at h
    obtain ⟨lv, h2, h⟩ := h
    cases h
    simp only [initCompressor, Res.bind_eq_ok, opts_int_iff, opts_bool_iff] at hs
    obtain ⟨lv', h2', z, _, hs⟩ := hs
    rw [h2] at h2'
    cases h2'
    cases hs
    exact .gzip rfl ⟨rfl, ho _ _ h2⟩ (.inl rfl)
  | bzip2 =>
    simp only [writeN5Options, Compressor.compressorToN5, enumAt, reduceCtorEq, if_false, if_true,
      Res.bind_eq_ok, opts_int_iff] at h
    obtain ⟨lv, h2, h⟩ := h
    cases h
    have : s = .bzip2 lv := by
      revert hs
      options_solve [h2]
      exact fun e => e.symm
    subst this
    exact .bzip2 rfl ⟨rfl, ho _ _ h2⟩
  | xz =>
    simp only [writeN5Options, Compressor.compressorToN5, enumAt, reduceCtorEq, if_false, if_true,
      Res.bind_eq_ok, opts_int_iff] at h
    obtain ⟨lv, h2, h⟩ := h
    cases h
    have : s = .xz lv := by
      revert hs
      options_solve [h2]
      exact fun e => e.symm
    subst this
    exact .xz rfl ⟨rfl, ho _ _ h2⟩
  | lz4 =>
    simp only [writeN5Options, Compressor.compressorToN5, enumAt, reduceCtorEq, if_false, if_true,
      Res.bind_eq_ok, opts_int_iff] at h
    obtain ⟨lv, h2, h⟩ := h
    cases h
    have : s = .lz4 lv := by
      revert hs
      options_solve [h2]
      exact fun e => e.symm
    subst this
    exact .lz4 rfl ⟨rfl, ho _ _ h2⟩
  | zstd =>
    simp only [writeN5Options, Compressor.compressorToN5, enumAt, reduceCtorEq, if_false, if_true,
      Res.bind_eq_ok, opts_int_iff] at h
    obtain ⟨lv, h2, h⟩ := h
    cases h
    have : s = .zstd lv := by
      revert hs
      options_solve [h2]
      exact fun e => e.symm
    subst this
    exact .zstd rfl ⟨rfl, ho _ _ h2⟩

/-- **C59 (N5).**  What is written is a document of the format, and it describes the dataset; except that it says gzip if
    the dataset uses zlib encoding, and does not hold the fill value (`c27_zlib_counterexample`,
    `c27_fill_counterexample`). -/
theorem c59_n5_write {m : Meta} {j : Json} {s : Settings} (hm : m.Typed) (hz : m.isZarr = false) (h : m.toJson = .ok j)
    (hs : initCompressor m.compressor m.options = .ok s) (sep enc : String) :
    N5.Describes j ⟨m.dtype, m.shape, m.chunkShape, [], s.asN5, some .zero, sep, enc⟩ := by
  obtain ⟨t, c, ht, hc, rfl⟩ := (toJson_n5 hz).1 h
  exact ⟨⟨t, ht, rfl⟩, rfl, rfl, ⟨c, rfl, n5_write_compression hm.options hc hs⟩, rfl, rfl⟩

theorem v3_write_codecs {dt : Datatype} {c : Compressor} {o : Opts} {l : List Json} {s : Settings}
    (ho : ∀ k v, assocGet o k = some v → v.Typed) (h : writeV3Codecs c o dt.size = .ok l)
    (hs : initCompressor c (assocErase o "nthreads") = .ok s) : ZarrV3.Codecs dt l s.asV3 := by
  have hb : ZarrV3.Bytes bytesCodec dt := ⟨rfl, .inl rfl⟩
  cases c with
  | raw =>
    cases h
    cases hs
    exact .raw hb
  | blosc =>
    simp only [writeV3Codecs, Res.bind_eq_ok, opts_int_iff, opts_str_iff] at h
    obtain ⟨cd, h1, lv, h2, sh, h3, bs, h4, h⟩ := h
    cases h
    have : s = .blosc cd lv sh bs 1 := by
      revert hs
      options_solve [h1, h2, h3, h4]
      exact fun e => e.symm
    subst this
    refine .blosc hb rfl rfl ⟨rfl, ho _ _ h2⟩ ⟨shuffleToString sh, ?_, rfl⟩ (.inl ?_) ⟨rfl, ho _ _ h4⟩
    · unfold shuffleToString
      split
      · rfl
      · split <;> rfl
    · rw [← elementBytes_eq]
      rfl
  | zlib =>
    simp only [writeV3Codecs, Res.bind_eq_ok, opts_int_iff] at h
    obtain ⟨lv, h2, h⟩ := h
    cases h
    simp only [initCompressor, Res.bind_eq_ok, opts_int_iff, opts_bool_iff, assocGet_erase,
      String.reduceEq, if_false] at hs
    obtain ⟨lv', h2', z, _, hs⟩ := hs
    rw [h2] at h2'
    cases h2'
    cases hs
    exact .gzip hb rfl ⟨rfl, ho _ _ h2⟩
  | zstd =>
    simp only [writeV3Codecs, Res.bind_eq_ok, opts_int_iff] at h
    obtain ⟨lv, h2, h⟩ := h
    cases h
    simp only [initCompressor, Res.bind_eq_ok, opts_int_iff, assocGet_erase,
      String.reduceEq, if_false] at hs
    obtain ⟨lv', h2', hs⟩ := hs
    rw [h2] at h2'
    cases h2'
    cases hs
    exact .zstd hb rfl ⟨rfl, ho _ _ h2⟩
  | _ => cases h

/-- **C59 (zarr v3).**  What is written is a document of the format, and it describes the dataset, with the same fill
    value for its elements; except that it says gzip if the dataset uses zlib encoding
    (`c28_zlib_counterexample`). -/
theorem c59_v3_write {m : Meta} {j : Json} {s : Settings} (hm : m.Typed) (hz : m.isZarr = true) (hf : m.zarrFormat = 3)
    (h : m.toJson = .ok j) (hs : m.settings = .ok s) :
    ∃ d, ZarrV3.Describes j ⟨m.dtype, m.shape, m.chunkShape, m.shardShape, s.asV3, some d, m.delimiter, m.encoding⟩ ∧
      m.dtype.castFill d = m.dtype.castFill m.fillValue := by
  obtain ⟨t, f, l, h1, h2, h3, rfl⟩ := (toJson_v3 hz hf).1 h
  have hfill : ∃ d, Json.IsFill (some f) (some d) ∧ m.dtype.castFill d = m.dtype.castFill m.fillValue := by
    rcases intType_of_range h2 with ⟨lo, hi, i, hR, rfl, ht⟩ | ⟨s, rfl, hs⟩ | ⟨hR, rfl, b, u, e⟩
    · refine ⟨_, .int i, castFill_congr (fun e => ?_) ?_⟩
      · rw [hR] at e; cases e
      · rw [ht]; exact trunc_exact hm.fill ht
    · refine ⟨m.fillValue, ?_, rfl⟩
      have := fill_written m.fillValue
      rw [hs] at this
      exact this
    · rw [e]
      exact ⟨_, .float b u, rfl⟩
  obtain ⟨d, hd, hc⟩ := hfill
  refine ⟨d, ⟨rfl, rfl, ⟨t, h1, rfl⟩, rfl, rfl, ?_, rfl, .inl rfl, hd, ⟨_, rfl, ?_⟩⟩, hc⟩
  · by_cases e : m.shardShape = []
    · rw [if_pos e, if_neg (not_not_intro e)]
      rfl
    · rw [if_neg e, if_pos e]
      rfl
  · have hco := v3_write_codecs hm.options h3 hs
    by_cases e : m.shardShape = []
    · rw [if_neg (not_not_intro e)]
      exact .chunks e hco
    · rw [if_pos e]
      exact .shards e rfl rfl rfl hco ⟨rfl, rfl, rfl⟩ (.inl rfl)

/-! ### What is refused -/

theorem find_of_sub {j v : Json} {k : String} (h : j.sub k = .ok v) : j.find k = some v := by
  cases j with
  | obj l =>
    simp only [Json.sub] at h
    simp only [Json.find]
    cases hg : assocGet l k with
    | none => rw [hg] at h; cases h
    | some w => rw [hg] at h; cases h; rfl
  | _ => cases h

theorem find_of_at {j v : Json} {k : String} (h : j.at' k = .ok v) : j.find k = some v := by
  cases j with
  | obj l =>
    simp only [Json.at'] at h
    simp only [Json.find]
    cases hg : assocGet l k with
    | none => rw [hg] at h; cases h
    | some w => rw [hg] at h; cases h; rfl
  | _ => cases h

theorem getStr_ok {j : Json} {s : String} : j.getStr = .ok s ↔ j = .str s := by
  cases j <;> simp [Json.getStr]

theorem eqStr_true {j : Json} {s : String} : j.eqStr s = true ↔ j = .str s := by
  cases j <;> simp [Json.eqStr]

theorem readFill_str {s : String} {e d : Dbl} (h : Meta.readFill (.str s) e = .ok d) :
    s = "NaN" ∨ s = "Infinity" ∨ s = "-Infinity" := by
  simp only [Meta.readFill] at h
  split at h
  · exact .inl ‹_›
  · split at h
    · exact .inr (.inl ‹_›)
    · split at h
      · exact .inr (.inr ‹_›)
      · cases h

theorem assocGet_some_mem {β : Type} {l : List (String × β)} {k : String} {v : β} (h : assocGet l k = some v) :
    (k, v) ∈ l := by
  induction l with
  | nil => cases h
  | cons p l ih =>
    obtain ⟨a, b⟩ := p
    simp only [assocGet] at h
    split at h
    · rename_i e
      cases h
      rw [e]
      exact List.mem_cons_self
    · exact List.mem_cons_of_mem _ (ih h)

theorem atOrRuntime_ok {β : Type} {l : List (String × β)} {k : String} {v : β} (h : Meta.atOrRuntime l k = .ok v) :
    (k, v) ∈ l := by
  unfold Meta.atOrRuntime at h
  cases hg : assocGet l k with
  | none => rw [hg] at h; cases h
  | some w => rw [hg] at h; cases h; exact assocGet_some_mem hg

theorem zarrToDtype_name {s : String} {dt : Datatype} (h : (s, dt) ∈ Datatype.zarrToDtype) : s = zarrTypeName dt := by
  unfold Datatype.zarrToDtype at h
  simp only [List.mem_cons, List.not_mem_nil, or_false, Prod.mk.injEq] at h
  rcases h with ⟨rfl, rfl⟩ | ⟨rfl, rfl⟩ | ⟨rfl, rfl⟩ | ⟨rfl, rfl⟩ | ⟨rfl, rfl⟩ | ⟨rfl, rfl⟩ | ⟨rfl, rfl⟩ | ⟨rfl, rfl⟩ |
    ⟨rfl, rfl⟩ | ⟨rfl, rfl⟩ | ⟨rfl, rfl⟩ | ⟨rfl, rfl⟩ | ⟨rfl, rfl⟩ <;> rfl

theorem n5ToDtype_name {s : String} {dt : Datatype} (h : (s, dt) ∈ Datatype.n5ToDtype) : plainTypeName dt = some s := by
  unfold Datatype.n5ToDtype at h
  simp only [List.mem_cons, List.not_mem_nil, or_false, Prod.mk.injEq] at h
  rcases h with ⟨rfl, rfl⟩ | ⟨rfl, rfl⟩ | ⟨rfl, rfl⟩ | ⟨rfl, rfl⟩ | ⟨rfl, rfl⟩ | ⟨rfl, rfl⟩ | ⟨rfl, rfl⟩ | ⟨rfl, rfl⟩ |
    ⟨rfl, rfl⟩ | ⟨rfl, rfl⟩ <;> rfl

theorem ite_ok {c : Prop} [Decidable c] {e : Err} {r : Res α} {v : α} (h : (if c then .throw e else r) = Res.ok v) :
    ¬ c ∧ r = .ok v := by
  by_cases hc : c
  · rw [if_pos hc] at h; cases h
  · rw [if_neg hc] at h; exact ⟨hc, h⟩

theorem checkJson_ok {j : Json} (h : Meta.checkJson j = .ok ()) :
    (∀ o, j.find "order" = some o → o = .str "C") ∧ (∀ z, j.find "zarr_format" = some z → z.eqInt 2 = true) ∧
    ∀ f, j.find "filters" = some f → f = .null ∨ f.size = 0 := by
  unfold Meta.checkJson at h
  obtain ⟨h1, h⟩ := ite_ok h
  obtain ⟨h2, h⟩ := ite_ok h
  obtain ⟨h3, h⟩ := ite_ok h
  refine ⟨fun o e => ?_, fun z e => ?_, fun f e => ?_⟩
  · rw [e] at h1
    exact eqStr_true.1 (by simpa using h1)
  · rw [e] at h2
    simpa using h2
  · rw [e] at h3
    cases f <;> simp_all [Json.isNull]

theorem checkShapes_ok {m : Meta} (h : m.checkShapes = .ok ()) : m.shape.length = m.chunkShape.length := by
  unfold Meta.checkShapes at h
  exact Classical.not_not.1 (ite_ok h).1

/-- what a codec list may hold -/
theorem readV3Loop_names {l : List Json} {s r : Compressor × Opts} (h : readV3Loop l s = .ok r) :
    ∀ c ∈ l, ∃ n ∈ ["bytes", "gzip", "zstd", "blosc"], c.find "name" = some (.str n) := by
  induction l generalizing s with
  | nil => intro c hc; cases hc
  | cons c l ih =>
    obtain ⟨comp, o⟩ := s
    simp only [readV3Loop] at h
    obtain ⟨v, hv, h⟩ := Res.bind_eq_ok.1 h
    obtain ⟨n, hn, h⟩ := Res.bind_eq_ok.1 h
    have hf := find_of_at hv
    rw [getStr_ok.1 hn] at hf
    have key : n ∈ ["bytes", "gzip", "zstd", "blosc"] ∧ ∃ s', readV3Loop l s' = .ok r := by
      by_cases e1 : n = "bytes"
      · rw [if_pos e1] at h; exact ⟨by simp [e1], _, h⟩
      rw [if_neg e1] at h
      by_cases e2 : n = "gzip"
      · rw [if_pos e2] at h
        obtain ⟨_, _, h⟩ := Res.bind_eq_ok.1 h
        exact ⟨by simp [e2], _, h⟩
      rw [if_neg e2] at h
      by_cases e3 : n = "zstd"
      · rw [if_pos e3] at h
        obtain ⟨_, _, h⟩ := Res.bind_eq_ok.1 h
        exact ⟨by simp [e3], _, h⟩
      rw [if_neg e3] at h
      by_cases e4 : n = "blosc"
      · rw [if_pos e4] at h
        obtain ⟨_, _, h⟩ := Res.bind_eq_ok.1 h
        obtain ⟨_, _, h⟩ := Res.bind_eq_ok.1 h
        split at h
        all_goals
          obtain ⟨_, _, h⟩ := Res.bind_eq_ok.1 h
          obtain ⟨_, _, h⟩ := Res.bind_eq_ok.1 h
          exact ⟨by simp [e4], _, h⟩
      rw [if_neg e4] at h
      cases h
    obtain ⟨hmem, s', h'⟩ := key
    intro c' hc'
    rcases List.mem_cons.1 hc' with rfl | hc'
    · exact ⟨n, hmem, hf⟩
    · exact ih h' c' hc'

theorem findSharding_ok {l : List Json} {r : Option Json} (h : Meta.findSharding l = .ok r) :
    (∀ cfg, r = some cfg → ∃ c ∈ l, c.find "name" = some (.str "sharding_indexed") ∧ c.find "configuration" = some cfg) ∧
    (r = none → ∀ c ∈ l, c.find "name" ≠ some (.str "sharding_indexed")) := by
  induction l with
  | nil => cases h; exact ⟨(fun _ e => by cases e), fun _ _ hc => by cases hc⟩
  | cons c l ih =>
    simp only [Meta.findSharding] at h
    obtain ⟨v, hv, h⟩ := Res.bind_eq_ok.1 h
    by_cases e : v.eqStr "sharding_indexed" = true
    · rw [if_pos e] at h
      obtain ⟨cfg, hc, h⟩ := Res.bind_eq_ok.1 h
      cases h
      have hn := find_of_at hv
      rw [eqStr_true.1 e] at hn
      exact ⟨(fun _ e => by cases e; exact ⟨c, List.mem_cons_self, hn, find_of_at hc⟩), fun e => by cases e⟩
    · rw [if_neg e] at h
      obtain ⟨h1, h2⟩ := ih h
      refine ⟨fun cfg hr => ?_, fun hr c' hc' => ?_⟩
      · obtain ⟨c', hm, h'⟩ := h1 cfg hr
        exact ⟨c', List.mem_cons_of_mem _ hm, h'⟩
      · rcases List.mem_cons.1 hc' with rfl | hc'
        · intro hn
          rw [find_of_at hv] at hn
          cases hn
          exact e (eqStr_true.2 rfl)
        · exact h2 hr c' hc'

theorem fromJsonV3_ok {j : Json} {m : Meta} (h : Meta.fromJsonV3 j = .ok m) : V3Accepted j m := by
  unfold Meta.fromJsonV3 at h
  obtain ⟨node, hnode, h⟩ := Res.bind_eq_ok.1 h
  obtain ⟨hn, h⟩ := ite_ok h
  obtain ⟨dv, hdv, h⟩ := Res.bind_eq_ok.1 h
  obtain ⟨ds, hds, h⟩ := Res.bind_eq_ok.1 h
  obtain ⟨dt, hdt, h⟩ := Res.bind_eq_ok.1 h
  obtain ⟨sv, hsv, h⟩ := Res.bind_eq_ok.1 h
  obtain ⟨shape, hshape, h⟩ := Res.bind_eq_ok.1 h
  obtain ⟨g1, hg1, h⟩ := Res.bind_eq_ok.1 h
  obtain ⟨g2, hg2, h⟩ := Res.bind_eq_ok.1 h
  obtain ⟨g3, hg3, h⟩ := Res.bind_eq_ok.1 h
  obtain ⟨outer, houter, h⟩ := Res.bind_eq_ok.1 h
  obtain ⟨cke, hcke, h⟩ := Res.bind_eq_ok.1 h
  obtain ⟨ev, hev, h⟩ := Res.bind_eq_ok.1 h
  obtain ⟨enc, henc, h⟩ := Res.bind_eq_ok.1 h
  obtain ⟨delim, hdelim, h⟩ := Res.bind_eq_ok.1 h
  obtain ⟨fv, hfv, h⟩ := Res.bind_eq_ok.1 h
  obtain ⟨fill, hfill, h⟩ := Res.bind_eq_ok.1 h
  obtain ⟨cv, hcv, h⟩ := Res.bind_eq_ok.1 h
  obtain ⟨sh, hsh, h⟩ := Res.bind_eq_ok.1 h
  have a1 : j.find "node_type" = some (.str "array") := by
    have hn' : node.eqStr "array" = true := by simpa using hn
    rw [find_of_at hnode, eqStr_true.1 hn']
  have a2 : plainTypeName dt = some ds ∧ j.find "data_type" = some (.str ds) := by
    refine ⟨n5ToDtype_name (atOrRuntime_ok hdt), ?_⟩
    rw [find_of_at hdv, getStr_ok.1 hds]
  have a3 : j.path ["chunk_key_encoding", "name"] = some (.str enc) := by
    rw [path_two, find_of_at hcke]
    show cke.find "name" = _
    rw [find_of_at hev, getStr_ok.1 henc]
  have a4 : ∃ f, j.find "fill_value" = some f ∧ ∀ s, f = .str s → s = "NaN" ∨ s = "Infinity" ∨ s = "-Infinity" := by
    refine ⟨fv, find_of_at hfv, fun s e => ?_⟩
    subst e
    exact readFill_str hfill
  obtain ⟨f1, f2⟩ := findSharding_ok hsh
  cases sh with
  | none =>
    obtain ⟨⟨c, o⟩, hco, h⟩ := Res.bind_eq_ok.1 h
    cases h
    exact ⟨rfl, a1, ⟨_, a2⟩, a3, a4, cv, find_of_at hcv, .inl ⟨readV3Loop_names hco, rfl⟩⟩
  | some cfg =>
    obtain ⟨qv, hqv, h⟩ := Res.bind_eq_ok.1 h
    obtain ⟨q, hq, h⟩ := Res.bind_eq_ok.1 h
    obtain ⟨iv, hiv, h⟩ := Res.bind_eq_ok.1 h
    obtain ⟨⟨c, o⟩, hco, h⟩ := Res.bind_eq_ok.1 h
    cases h
    obtain ⟨s, hs, hs1, hs2⟩ := f1 cfg rfl
    refine ⟨rfl, a1, ⟨_, a2⟩, a3, a4, cv, find_of_at hcv, .inr ⟨s, hs, hs1, iv, ?_, readV3Loop_names hco⟩⟩
    rw [path_two, hs2]
    exact find_of_at hiv

theorem fromJsonZarr_ok {j : Json} {m : Meta} (h : Meta.fromJsonZarr j = .ok m) : V2Accepted j m := by
  unfold Meta.fromJsonZarr at h
  obtain ⟨⟨⟩, hck, h⟩ := Res.bind_eq_ok.1 h
  obtain ⟨dv, hdv, h⟩ := Res.bind_eq_ok.1 h
  obtain ⟨ds, hds, h⟩ := Res.bind_eq_ok.1 h
  obtain ⟨dt, hdt, h⟩ := Res.bind_eq_ok.1 h
  obtain ⟨sv, hsv, h⟩ := Res.bind_eq_ok.1 h
  obtain ⟨shape, hshape, h⟩ := Res.bind_eq_ok.1 h
  obtain ⟨kv, hkv, h⟩ := Res.bind_eq_ok.1 h
  obtain ⟨chunks, hchunks, h⟩ := Res.bind_eq_ok.1 h
  obtain ⟨fv, hfv, h⟩ := Res.bind_eq_ok.1 h
  obtain ⟨fill, hfill, h⟩ := Res.bind_eq_ok.1 h
  have h : ∃ delimiter, (do
      let (compressor, options) ← Meta.readZarrCompressor (← j.sub "compressor")
      return { isZarr := true, zarrFormat := 2, dtype := dt, shape := shape, chunkShape := chunks,
               compressor := compressor, options := options, fillValue := fill, delimiter := delimiter,
               encoding := "default", shardShape := [] }) = Res.ok m := by
    cases hd : j.find "dimension_separator" with
    | none => rw [hd] at h; exact ⟨_, h⟩
    | some d =>
      rw [hd] at h
      obtain ⟨delim, hdelim, h⟩ := Res.bind_eq_ok.1 h
      exact ⟨_, h⟩
  obtain ⟨delim, h⟩ := h
  obtain ⟨cv, hcv, h⟩ := Res.bind_eq_ok.1 h
  obtain ⟨⟨c, o⟩, hco, h⟩ := Res.bind_eq_ok.1 h
  cases h
  obtain ⟨c1, c2, c3⟩ := checkJson_ok hck
  refine ⟨⟨rfl, c2⟩, c1, c3, ?_, ⟨fv, find_of_sub hfv, fun s e => by subst e; exact readFill_str hfill⟩,
    ⟨cv, find_of_sub hcv, ?_⟩, rfl⟩
  · rw [find_of_sub hdv, getStr_ok.1 hds, ← zarrToDtype_name (atOrRuntime_ok hdt)]
  · unfold Meta.readZarrCompressor at hco
    cases hn : cv.isNull with
    | true => left; cases cv <;> first | rfl | cases hn
    | false =>
      right
      rw [hn] at hco
      obtain ⟨id, hid, hco⟩ := Res.bind_eq_ok.1 hco
      obtain ⟨c', hc', hco⟩ := Res.bind_eq_ok.1 hco
      obtain ⟨iv, h1, h2⟩ := Res.bind_eq_ok.1 hid
      refine ⟨id, ?_, List.mem_map_of_mem (f := Prod.fst) (atOrRuntime_ok hc')⟩
      rw [find_of_sub h1, getStr_ok.1 h2]

/-- **C59 (zarr).**  Whatever is accepted as a zarr array: shape and chunks have the same number of axes.  Documents of
    zarr v2 do not ask for Fortran order, filters, a data type that is not a little endian one of the library or a
    compressor that the library does not have; documents of zarr v3 are arrays, name their chunk key encoding, have a
    data type of the library, and the codecs of the chunks are ones that the library has; a text for the fill
    value is one of those of the formats.  (Everything else is refused, rather than read as something else.) -/
theorem c59_zarr_accepts {j : Json} {m : Meta} (h : Meta.fromJson j true = .ok m) :
    m.shape.length = m.chunkShape.length ∧
    (V2Accepted j m ∨ V3Accepted j m ∧ ∃ z, j.find "zarr_format" = some z ∧ z.getInt = .ok 3) := by
  unfold Meta.fromJson at h
  rw [if_pos rfl] at h
  obtain ⟨m', h1, h⟩ := Res.bind_eq_ok.1 h
  obtain ⟨⟨⟩, h2, h⟩ := Res.bind_eq_ok.1 h
  cases h
  refine ⟨checkShapes_ok h2, ?_⟩
  cases hz : j.find "zarr_format" with
  | none => rw [hz] at h1; exact .inl (fromJsonZarr_ok h1)
  | some z =>
    rw [hz] at h1
    obtain ⟨i, hi, h1⟩ := Res.bind_eq_ok.1 h1
    by_cases e : i = 3
    · rw [if_pos e] at h1
      subst e
      exact .inr ⟨fromJsonV3_ok h1, z, rfl, hi⟩
    · rw [if_neg e] at h1
      exact .inl (fromJsonZarr_ok h1)

/-- **C59 (N5).**  Whatever is accepted as an N5 dataset has a data type and a compression type that the library has, and as
    many block sizes as dimensions. -/
theorem c59_n5_accepts {j : Json} {m : Meta} (h : Meta.fromJson j false = .ok m) :
    m.shape.length = m.chunkShape.length ∧ (∃ s, plainTypeName m.dtype = some s ∧ j.find "dataType" = some (.str s)) ∧
    ∃ t ∈ ["raw", "gzip", "bzip2", "xz", "lz4", "blosc", "zstd"], j.path ["compression", "type"] = some (.str t) ∨
      j.find "compression" = none ∧ j.find "compressionType" = some (.str t) := by
  unfold Meta.fromJson at h
  rw [if_neg (by simp)] at h
  obtain ⟨m', h1, h⟩ := Res.bind_eq_ok.1 h
  obtain ⟨⟨⟩, h2, h⟩ := Res.bind_eq_ok.1 h
  cases h
  refine ⟨checkShapes_ok h2, ?_⟩
  unfold Meta.fromJsonN5 at h1
  obtain ⟨dv, hdv, h⟩ := Res.bind_eq_ok.1 h1
  obtain ⟨ds, hds, h⟩ := Res.bind_eq_ok.1 h
  obtain ⟨dt, hdt, h⟩ := Res.bind_eq_ok.1 h
  obtain ⟨sv, hsv, h⟩ := Res.bind_eq_ok.1 h
  obtain ⟨shape, hshape, h⟩ := Res.bind_eq_ok.1 h
  obtain ⟨kv, hkv, h⟩ := Res.bind_eq_ok.1 h
  obtain ⟨chunks, hchunks, h⟩ := Res.bind_eq_ok.1 h
  obtain ⟨⟨c, o⟩, hco, h⟩ := Res.bind_eq_ok.1 h
  cases h
  refine ⟨⟨ds, n5ToDtype_name ?_, by rw [find_of_sub hdv, getStr_ok.1 hds]⟩, ?_⟩
  · unfold mapAt at hdt
    cases hg : assocGet Datatype.n5ToDtype ds with
    | none => rw [hg] at hdt; cases hdt
    | some w => rw [hg] at hdt; cases hdt; exact assocGet_some_mem hg
  · unfold Meta.readN5Compressor at hco
    cases hc : j.find "compression" with
    | some opts =>
      rw [hc] at hco
      cases htt : opts.find "type" with
      | none => simp only [htt] at hco; cases hco
      | some v =>
        simp only [htt] at hco
        obtain ⟨t, ht, hco⟩ := Res.bind_eq_ok.1 hco
        obtain ⟨c', hc', hco⟩ := Res.bind_eq_ok.1 hco
        refine ⟨t, List.mem_map_of_mem (f := Prod.fst) (atOrRuntime_ok hc'), .inl ?_⟩
        rw [path_two, hc]
        show opts.find "type" = _
        rw [htt, getStr_ok.1 ht]
    | none =>
      rw [hc] at hco
      cases htt : j.find "compressionType" with
      | none => simp only [htt] at hco; cases hco
      | some v =>
        simp only [htt] at hco
        obtain ⟨t, ht, hco⟩ := Res.bind_eq_ok.1 hco
        obtain ⟨c', hc', hco⟩ := Res.bind_eq_ok.1 hco
        exact ⟨t, List.mem_map_of_mem (f := Prod.fst) (atOrRuntime_ok hc'), .inr ⟨rfl, by rw [getStr_ok.1 ht]⟩⟩

/-- The hypotheses of `c59_v2_read` and `c59_v2_keys` are met by a document as zarr-python writes it. -/
example : ZarrV2.Describes (.obj [("chunks", .arr [.int 10, .int 20]),
      ("compressor", .obj [("blocksize", .int 0), ("clevel", .int 5), ("cname", .str "lz4"), ("id", .str "blosc"),
        ("shuffle", .int 1)]),
      ("dtype", .str "<u2"), ("fill_value", .int 0), ("filters", .null), ("order", .str "C"),
      ("shape", .arr [.int 100, .int 50]), ("zarr_format", .int 2)])
    ⟨.uint16, [100, 50], [10, 20], [], .blosc "lz4" 5 1 0 1, some (.ofInt 0), ".", "default"⟩ :=
  ⟨rfl, rfl, rfl, rfl, rfl, .inl rfl,
    ⟨_, rfl, .blosc rfl rfl ⟨rfl, by decide⟩ ⟨rfl, by decide⟩ (.inl ⟨rfl, by decide⟩)⟩, .inl (.int 0), .inr ⟨rfl, rfl⟩,
    rfl, rfl⟩

/-- The hypotheses of `c59_n5_read` are met by a document as Java's N5 writes it. -/
example : N5.Describes (.obj [("dataType", .str "uint8"), ("compression", .obj [("type", .str "gzip"),
      ("useZlib", .bool false), ("level", .int 6)]), ("blockSize", .arr [.int 64, .int 32]),
      ("dimensions", .arr [.int 1000, .int 500])])
    ⟨.uint8, [500, 1000], [32, 64], [], .zlib 6 false, some .zero, "", "default"⟩ :=
  ⟨⟨_, rfl, rfl⟩, rfl, rfl, ⟨_, rfl, .gzip rfl ⟨rfl, by decide⟩ (.inr rfl)⟩, rfl, rfl⟩

/-- … and those of `c59_n5_read_old` by one of an old version. -/
example : N5.DescribesOld (.obj [("dataType", .str "uint8"), ("compressionType", .str "gzip"),
      ("blockSize", .arr [.int 64, .int 32]), ("dimensions", .arr [.int 1000, .int 500])])
    ⟨.uint8, [500, 1000], [32, 64], [], .zlib 5 false, some .zero, "", "default"⟩ :=
  ⟨⟨_, rfl, rfl⟩, rfl, rfl, rfl, ⟨_, rfl, by simp⟩, rfl, rfl⟩

/-- The numbers of these descriptions fit the C++ types. -/
example : (⟨.uint8, [500, 1000], [32, 64], [], .zlib 6 false, some .zero, "", "default"⟩ : ArrayDesc).Fits :=
  ⟨rfl, by decide, by decide, by decide⟩

/-- The hypotheses of `c59_v2_write` are met by `exMetaV2`. -/
example : ∃ j, exMetaV2.toJson = .ok j ∧ ∃ s, exMetaV2.settings = .ok s ∧ ZarrV2.Describes j
    ⟨exMetaV2.dtype, exMetaV2.shape, exMetaV2.chunkShape, [], s, some exMetaV2.fillValue, exMetaV2.delimiter,
      "default"⟩ := by
  obtain ⟨j, hj⟩ := (c26_accepts (m := exMetaV2) rfl rfl).2 ⟨by decide, _, rfl⟩
  exact ⟨j, hj, _, rfl, c59_v2_write exMetaV2_typed rfl rfl hj rfl⟩

/-! ### What is accepted although it is not supported -/

/-- A zarr v3 document with the given codecs. -/
def exV3With (codecs : List Json) : Json :=
  .obj [("zarr_format", .int 3), ("node_type", .str "array"), ("data_type", .str "int32"),
    ("shape", .arr [.int 100, .int 50]),
    ("chunk_grid", .obj [("name", .str "regular"),
      ("configuration", .obj [("chunk_shape", .arr [.int 20, .int 50])])]),
    ("chunk_key_encoding", .obj [("name", .str "default")]), ("fill_value", .int 1), ("codecs", .arr codecs)]

/-- The codec for elements -/
def exBytes (endian : String) : Json :=
  .obj [("name", .str "bytes"), ("configuration", .obj [("endian", .str endian)])]

/-- A compressor -/
def exGzip : Json := .obj [("name", .str "gzip"), ("configuration", .obj [("level", .int 6)])]

/-- Another one -/
def exZstd : Json := .obj [("name", .str "zstd"), ("configuration", .obj [("level", .int 3)])]

/-- The sharding codec with the given codecs and position of the index -/
def exSharding (codecs indexCodecs : List Json) (location : String) : Json :=
  .obj [("name", .str "sharding_indexed"), ("configuration", .obj [("chunk_shape", .arr [.int 5, .int 10]),
    ("codecs", .arr codecs), ("index_codecs", .arr indexCodecs), ("index_location", .str location)])]

/-- The documents `exV3With` describe arrays, if the codecs are as the format defines them. -/
example : ZarrV3.Describes (exV3With [exBytes "little", exGzip])
    ⟨.int32, [100, 50], [20, 50], [], .zlib 6 false, some (.ofInt 1), "/", "default"⟩ :=
  ⟨rfl, rfl, ⟨_, rfl, rfl⟩, rfl, rfl, rfl, rfl, .inr ⟨rfl, .inl ⟨rfl, rfl⟩⟩, .int 1, _, rfl,
    .chunks rfl (.gzip ⟨rfl, .inl rfl⟩ rfl ⟨rfl, by decide⟩)⟩

example : ZarrV3.Describes
    (exV3With [exSharding [exBytes "little", exGzip] [exBytes "little", .obj [("name", .str "crc32c")]] "end"])
    ⟨.int32, [100, 50], [5, 10], [20, 50], .zlib 6 false, some (.ofInt 1), "/", "default"⟩ :=
  ⟨rfl, rfl, ⟨_, rfl, rfl⟩, rfl, rfl, rfl, rfl, .inr ⟨rfl, .inl ⟨rfl, rfl⟩⟩, .int 1, _, rfl,
    .shards (by decide) rfl rfl rfl (.gzip ⟨rfl, .inl rfl⟩ rfl ⟨rfl, by decide⟩) ⟨rfl, rfl, rfl⟩ (.inl rfl)⟩

/-- **C59, counterexample.**  Not everything that the library cannot read is refused: data in big endian is read as if it were
    in little endian. -/
theorem c59_endian_counterexample : ∃ m, Meta.fromJson (exV3With [exBytes "big", exGzip]) true = .ok m ∧
    Meta.fromJson (exV3With [exBytes "little", exGzip]) true = .ok m :=
  ⟨_, rfl, rfl⟩

/-- **C59, counterexample.**  The position and the codecs of the index of shards are not looked at: an index at the start,
    or without a checksum, is read as one at the end, with a checksum. -/
theorem c59_index_counterexample :
    ∃ m, Meta.fromJson (exV3With [exSharding [exBytes "little", exGzip] [exBytes "big"] "start"]) true = .ok m ∧
      Meta.fromJson (exV3With [exSharding [exBytes "little", exGzip]
        [exBytes "little", .obj [("name", .str "crc32c")]] "end"]) true = .ok m :=
  ⟨_, rfl, rfl⟩

/-- **C59, counterexample.**  Of several compressors only the last one is used. -/
theorem c59_codecs_counterexample : ∃ m s, Meta.fromJson (exV3With [exBytes "little", exGzip, exZstd]) true = .ok m ∧
    m.settings = .ok s ∧ s = .zstd 3 ∧ ∃ m', Meta.fromJson (exV3With [exBytes "little", exZstd]) true = .ok m' ∧
    m'.settings = .ok s :=
  ⟨_, _, rfl, rfl, rfl, _, rfl, rfl⟩

/-- **C59, counterexample.**  Codecs beside the sharding codec are not looked at, for instance a transposition of the axes. -/
theorem c59_transpose_counterexample :
    ∃ m, Meta.fromJson (exV3With [.obj [("name", .str "transpose"),
        ("configuration", .obj [("order", .arr [.int 1, .int 0])])],
        exSharding [exBytes "little", exGzip] [exBytes "little", .obj [("name", .str "crc32c")]] "end"]) true = .ok m ∧
      Meta.fromJson (exV3With [exSharding [exBytes "little", exGzip]
        [exBytes "little", .obj [("name", .str "crc32c")]] "end"]) true = .ok m :=
  ⟨_, rfl, rfl⟩

end Z5
