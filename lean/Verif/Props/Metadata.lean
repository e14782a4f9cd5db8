import Verif.Proofs.Metadata

/-!
# C26, C27, C28, C48: metadata documents
-/

namespace Z5

/-! ## Examples -/

/-- zarr v2, blosc, three axes, fill value 7 -/
def exMetaV2 : Meta :=
  { isZarr := true, zarrFormat := 2, dtype := .uint16, shape := [100, 50, 7], chunkShape := [10, 10, 7],
    compressor := .blosc,
    options := [("codec", .str "lz4"), ("level", .int 5), ("shuffle", .int 2), ("blocksize", .int 0),
      ("nthreads", .int 4)],
    fillValue := .fin false (7 * Dbl.one), delimiter := "/", encoding := "default", shardShape := [] }

/-- N5, gzip -/
def exMetaN5 : Meta :=
  { isZarr := false, zarrFormat := 2, dtype := .float32, shape := [100, 50], chunkShape := [10, 25],
    compressor := .zlib, options := [("level", .int 6), ("useZlib", .bool false)],
    fillValue := .zero, delimiter := ".", encoding := "default", shardShape := [] }

/-- zarr v3, sharded, gzip -/
def exMetaV3 : Meta :=
  { isZarr := true, zarrFormat := 3, dtype := .int32, shape := [100, 50], chunkShape := [5, 10],
    compressor := .zlib, options := [("level", .int 6), ("useZlib", .bool false)],
    fillValue := .fin true (3 * Dbl.one), delimiter := "/", encoding := "default",
    shardShape := [20, 50] }

set_option exponentiation.threshold 2000 in
theorem representable_mul_one {n : Nat} (h : n < 2 ^ 53) (b : Bool) :
    (Dbl.fin b (n * Dbl.one)).Representable := ⟨n, 1074, h, by decide, rfl⟩

theorem ofInt_representable {i : Int} (h : i.natAbs < 2 ^ 53) : (Dbl.ofInt i).Representable := by
  have e : Dbl.roundNat i.natAbs = i.natAbs := by
    have := roundNat_exact (j := 0) h
    rwa [Nat.pow_zero, Nat.mul_one] at this
  unfold Dbl.ofInt
  rw [e]
  exact representable_mul_one h _

theorem typed_of_all {o : Opts} (h : ∀ p ∈ o, p.2.Typed) : ∀ k v, assocGet o k = some v → v.Typed := by
  intro k v hv
  induction o with
  | nil => cases hv
  | cons p o ih =>
    obtain ⟨a, b⟩ := p
    simp only [assocGet] at hv
    split at hv
    · cases hv
      exact h _ List.mem_cons_self
    · exact ih (fun q hq => h q (List.mem_cons_of_mem _ hq)) hv

instance : DecidablePred OptVal.Typed := fun v => by
  cases v <;> unfold OptVal.Typed <;> infer_instance

theorem exMetaV2_typed : exMetaV2.Typed :=
  ⟨rfl, by decide, by decide, by decide, typed_of_all (by decide),
    representable_mul_one (by decide) _⟩
theorem exMetaN5_typed : exMetaN5.Typed :=
  ⟨rfl, by decide, by decide, by decide, typed_of_all (by decide), ⟨0, 0, by decide, by decide, rfl⟩⟩
theorem exMetaV3_typed : exMetaV3.Typed :=
  ⟨rfl, by decide, by decide, by decide, typed_of_all (by decide),
    representable_mul_one (by decide) _⟩

/-! ## C26: zarr v2 -/

theorem zarrName_eq (dt : Datatype) : enumAt Datatype.dtypeToZarr dt = .ok (zarrTypeName dt) := by
  cases dt <;> rfl

theorem zarrName_read (dt : Datatype) :
    Meta.atOrRuntime Datatype.zarrToDtype (zarrTypeName dt) = .ok dt := by
  cases dt <;> rfl

theorem readFill_special (d e : Dbl) :
    Meta.readFill ((Meta.specialFill d).getD (.float d)) e = .ok d := by
  cases d with
  | nan => rfl
  | inf b => cases b <;> rfl
  | fin b u => rfl

/-- The document that `toJson` writes for zarr v2. -/
theorem toJson_v2 {m : Meta} (hz : m.isZarr = true) (hf : m.zarrFormat = 2) :
    m.toJson = (writeZarrOptions m.compressor m.options).bind fun c => .ok (.obj
      [("compressor", c), ("dtype", .str (zarrTypeName m.dtype)), ("shape", Json.ofShape m.shape),
       ("chunks", Json.ofShape m.chunkShape),
       ("fill_value", (Meta.specialFill m.fillValue).getD (.float m.fillValue)), ("filters", .null),
       ("order", .str "C"), ("zarr_format", .int 2), ("dimension_separator", .str m.delimiter)]) := by
  unfold Meta.toJson
  rw [if_neg (by rw [hf]; simp), if_pos hz]
  unfold Meta.toJsonZarr
  rw [zarrName_eq, hf]
  cases writeZarrOptions m.compressor m.options <;> rfl

/-- **C26.**  What `toJson` writes for zarr v2, `fromJson` reads back: the same data type, shape, chunk
    shape, fill value, delimiter and compressor, and compression options with which the compressor is set
    up in the same way (the number of threads is not stored). -/
theorem c26_roundtrip {m : Meta} {j : Json} (hm : m.Typed) (hz : m.isZarr = true)
    (hf : m.zarrFormat = 2) (h : m.toJson = .ok j) :
    ∃ m', Meta.fromJson j true = .ok m' ∧ m'.isZarr = true ∧ m'.zarrFormat = 2 ∧
      m'.dtype = m.dtype ∧ m'.shape = m.shape ∧ m'.chunkShape = m.chunkShape ∧ m'.shardShape = [] ∧
      m'.fillValue = m.fillValue ∧ m'.delimiter = m.delimiter ∧
      m'.compressor = m.compressor ∧ m'.settings = m.settings ∧ m'.threads = none := by
  rw [toJson_v2 hz hf] at h
  cases hc : writeZarrOptions m.compressor m.options with
  | throw e => rw [hc] at h; cases h
  | ub => rw [hc] at h; cases h
  | ok c =>
    rw [hc] at h
    cases h
    obtain ⟨o', ho', hs, hnt⟩ := zarr_options hm.options hc
    refine ⟨{ isZarr := true, zarrFormat := 2, dtype := m.dtype, shape := m.shape,
              chunkShape := m.chunkShape, compressor := m.compressor, options := o',
              fillValue := m.fillValue, delimiter := m.delimiter, encoding := "default",
              shardShape := [] }, ?_, rfl, rfl, rfl, rfl, rfl, rfl, rfl, rfl, rfl, hs, hnt⟩
    simp [Meta.fromJson, Meta.fromJsonZarr, Meta.checkJson, Json.find, assocGet, Json.eqStr, Json.eqInt,
      Json.isNull, Json.sub, Json.getStr, zarrName_read, elems_ofShape, sizes_ofShape hm.shape,
      sizes_ofShape hm.chunks, readFill_special, getInt_int (i := 2) (by decide), ho',
      Meta.checkShapes, hm.axes]

/-- **C26**, the document itself: the fields that the zarr v2 specification asks for. -/
theorem c26_document {m : Meta} {j : Json} (hz : m.isZarr = true) (hf : m.zarrFormat = 2)
    (h : m.toJson = .ok j) :
    Json.IsShape (j.find "shape") m.shape ∧ Json.IsShape (j.find "chunks") m.chunkShape ∧
    j.find "dtype" = some (.str (zarrTypeName m.dtype)) ∧
    j.find "zarr_format" = some (.int 2) ∧ j.find "order" = some (.str "C") ∧
    j.find "filters" = some .null ∧ j.find "dimension_separator" = some (.str m.delimiter) ∧
    (m.fillValue = .nan → j.find "fill_value" = some (.str "NaN")) ∧
    (m.fillValue = .inf false → j.find "fill_value" = some (.str "Infinity")) ∧
    (m.fillValue = .inf true → j.find "fill_value" = some (.str "-Infinity")) ∧
    (∀ b u, m.fillValue = .fin b u → j.find "fill_value" = some (.float (.fin b u))) ∧
    (m.compressor = .raw → j.find "compressor" = some .null) ∧
    (∀ s, m.compressor = .zlib → m.settings = .ok s →
      ∃ l z, s = .zlib l z ∧ j.path ["compressor", "level"] = some (.int l) ∧
        j.path ["compressor", "id"] = some (.str (if z then "zlib" else "gzip"))) := by
  rw [toJson_v2 hz hf] at h
  cases hc : writeZarrOptions m.compressor m.options with
  | throw e => rw [hc] at h; cases h
  | ub => rw [hc] at h; cases h
  | ok c =>
    rw [hc] at h
    cases h
    refine ⟨rfl, rfl, rfl, rfl, rfl, rfl, rfl, ?_, ?_, ?_, ?_, ?_, ?_⟩
    · intro e; rw [e]; rfl
    · intro e; rw [e]; rfl
    · intro e; rw [e]; rfl
    · intro b u e; rw [e]; rfl
    · intro e
      rw [e] at hc
      cases hc
      rfl
    · intro s e hs
      rw [e] at hc
      unfold Meta.settings at hs
      rw [e] at hs
      simp only [writeZarrOptions, Compressor.compressorToZarr, enumAt, reduceCtorEq, if_false, if_true,
        Res.bind_eq_ok, opts_int_iff, opts_bool_iff] at hc
      obtain ⟨uz, h1, lv, h2, hc⟩ := hc
      cases hc
      refine ⟨lv, uz, ?_, rfl, rfl⟩
      revert hs
      options_solve [h1, h2]
      exact fun e => e.symm

/-- **C26**: `toJson` succeeds exactly for the compressors of zarr v2 with the options they need. -/
theorem c26_accepts {m : Meta} (hz : m.isZarr = true) (hf : m.zarrFormat = 2) :
    (∃ j, m.toJson = .ok j) ↔ m.compressor ≠ .xz ∧ ∃ s, m.settings = .ok s := by
  rw [toJson_v2 hz hf]
  unfold Meta.settings
  generalize m.compressor = c
  generalize m.options = o
  have key : (∃ c', writeZarrOptions c o = .ok c') ↔
      c ≠ .xz ∧ ∃ s, initCompressor c (assocErase o "nthreads") = .ok s := by
    cases c with
    | raw => exact ⟨fun _ => ⟨by decide, _, rfl⟩, fun _ => ⟨_, rfl⟩⟩
    | blosc =>
      simp only [writeZarrOptions, Compressor.compressorToZarr, enumAt, reduceCtorEq, if_false, if_true,
        Res.bind_eq_ok, opts_int_iff, opts_str_iff, initCompressor, assocGet_erase, String.reduceEq,
        ne_eq, not_false_eq_true, true_and]
      constructor
      · rintro ⟨c', cd, h1, lv, h2, sh, h3, bs, h4, _⟩
        exact ⟨_, lv, h2, sh, h3, cd, h1, bs, h4, rfl⟩
      · rintro ⟨c', lv, h2, sh, h3, cd, h1, bs, h4, _⟩
        exact ⟨_, cd, h1, lv, h2, sh, h3, bs, h4, rfl⟩
    | zlib =>
      simp only [writeZarrOptions, Compressor.compressorToZarr, enumAt, reduceCtorEq, if_false, if_true,
        Res.bind_eq_ok, opts_int_iff, opts_bool_iff, initCompressor, assocGet_erase, String.reduceEq,
        ne_eq, not_false_eq_true, true_and]
      constructor
      · rintro ⟨c', uz, h1, lv, h2, _⟩
        exact ⟨_, lv, h2, uz, h1, rfl⟩
      · rintro ⟨c', lv, h2, uz, h1, _⟩
        exact ⟨_, uz, h1, lv, h2, rfl⟩
    | xz => simp [writeZarrOptions, Compressor.compressorToZarr, enumAt]
    | _ =>
      simp only [writeZarrOptions, Compressor.compressorToZarr, enumAt, reduceCtorEq, if_false, if_true,
        Res.bind_eq_ok, opts_int_iff, initCompressor, assocGet_erase, String.reduceEq,
        ne_eq, not_false_eq_true, true_and]
      constructor
      · rintro ⟨c', lv, h2, _⟩
        exact ⟨_, lv, h2, rfl⟩
      · rintro ⟨c', lv, h2, _⟩
        exact ⟨_, lv, h2, rfl⟩
  rw [← key]
  cases writeZarrOptions c o with
  | ok c' => exact ⟨fun _ => ⟨c', rfl⟩, fun _ => ⟨_, rfl⟩⟩
  | throw e =>
    constructor
    · rintro ⟨_, h⟩; cases h
    · rintro ⟨_, h⟩; cases h
  | ub =>
    constructor
    · rintro ⟨_, h⟩; cases h
    · rintro ⟨_, h⟩; cases h

/-- The hypotheses of `c26_roundtrip` are met by `exMetaV2`. -/
example : ∃ m', (exMetaV2.toJson.bind fun j => Meta.fromJson j true) = .ok m' ∧
    m'.settings = .ok (.blosc "lz4" 5 2 0 1) ∧ m'.chunkShape = [10, 10, 7] ∧
    m'.fillValue = .fin false (7 * Dbl.one) := by
  obtain ⟨j, hj⟩ := (c26_accepts (m := exMetaV2) rfl rfl).2 ⟨by decide, _, rfl⟩
  obtain ⟨m', h, _, _, _, _, h1, _, h2, _, _, h3, _⟩ := c26_roundtrip exMetaV2_typed rfl rfl hj
  exact ⟨m', by rw [hj]; exact h, h3, h1, h2⟩

/-! ## C27: N5 -/

theorem plainName_eq {dt : Datatype} {s : String} :
    enumAt Datatype.dtypeToN5 dt = .ok s ↔ plainTypeName dt = some s := by
  cases dt <;> simp [enumAt, Datatype.dtypeToN5, plainTypeName]

theorem plainName_read {dt : Datatype} {s : String} (h : plainTypeName dt = some s) :
    assocGet Datatype.n5ToDtype s = some dt := by
  cases dt <;> simp only [plainTypeName, Option.some.injEq, reduceCtorEq] at h <;> subst h <;> rfl

theorem toJson_n5 {m : Meta} {j : Json} (hz : m.isZarr = false) :
    m.toJson = .ok j ↔ ∃ s c, plainTypeName m.dtype = some s ∧
      writeN5Options m.compressor m.options = .ok c ∧
      j = .obj [("dimensions", Json.ofShape m.shape.reverse),
        ("blockSize", Json.ofShape m.chunkShape.reverse), ("dataType", .str s), ("compression", c)] := by
  unfold Meta.toJson
  rw [if_neg (by rw [hz]; simp), if_neg (by rw [hz]; simp)]
  unfold Meta.toJsonN5
  simp only [Res.bind_eq_ok, plainName_eq, Res.pure_eq, Res.ok.injEq]
  constructor
  · rintro ⟨s, h1, c, h2, h3⟩
    exact ⟨s, c, h1, h2, h3.symm⟩
  · rintro ⟨s, c, h1, h2, h3⟩
    exact ⟨s, h1, c, h2, h3.symm⟩

/-- **C27.**  What `toJson` writes for N5, `fromJson` reads back: data type, shape, block size and
    compressor; the compressor is set up in the same way (number of threads included), except that a gzip
    compressor always comes back in gzip, not zlib, encoding.  The fill value comes back as zero. -/
theorem c27_roundtrip {m : Meta} {j : Json} (hm : m.Typed) (hz : m.isZarr = false)
    (h : m.toJson = .ok j) :
    ∃ m', Meta.fromJson j false = .ok m' ∧ m'.isZarr = false ∧
      m'.dtype = m.dtype ∧ m'.shape = m.shape ∧ m'.chunkShape = m.chunkShape ∧ m'.shardShape = [] ∧
      m'.compressor = m.compressor ∧
      (m.compressor ≠ .zlib →
        initCompressor m'.compressor m'.options = initCompressor m.compressor m.options) ∧
      (m.compressor = .zlib → ∀ l z, initCompressor m.compressor m.options = .ok (.zlib l z) →
        initCompressor m'.compressor m'.options = .ok (.zlib l false)) ∧
      m'.fillValue = .zero := by
  obtain ⟨s, c, h1, h2, h3⟩ := (toJson_n5 hz).1 h
  subst h3
  obtain ⟨o', ho, hs1, hs2⟩ := n5_options hm.options h2
  refine ⟨{ isZarr := false, zarrFormat := 2, dtype := m.dtype, shape := m.shape,
            chunkShape := m.chunkShape, compressor := m.compressor, options := o',
            fillValue := .zero, delimiter := "", encoding := "default",
            shardShape := [] }, ?_, rfl, rfl, rfl, rfl, rfl, rfl, hs1, ?_, rfl⟩
  · have hd := ho (.obj [("dimensions", Json.ofShape m.shape.reverse),
        ("blockSize", Json.ofShape m.chunkShape.reverse), ("dataType", .str s), ("compression", c)]) rfl
    simp [Meta.fromJson, Meta.fromJsonN5, Json.sub, assocGet, Json.getStr, mapAt, plainName_read h1,
      elems_ofShape, ← List.map_reverse, sizes_ofShape hm.shape, sizes_ofShape hm.chunks, hd,
      Meta.checkShapes, hm.axes]
  · intro hc l z hi
    obtain ⟨e1, e2⟩ := hs2 hc
    rw [hc] at hi ⊢
    simp only [initCompressor, Res.bind_eq_ok, opts_int_iff, opts_bool_iff] at hi
    obtain ⟨l', g1, z', g2, g3⟩ := hi
    cases g3
    simp only [initCompressor, Opts.int, Opts.bool, mapAt, e1, e2, g1]
    rfl

/-- **C27**: the fields of the document; shape and block size in reversed order. -/
theorem c27_document {m : Meta} {j : Json} (hz : m.isZarr = false) (h : m.toJson = .ok j) :
    Json.IsShape (j.find "dimensions") m.shape.reverse ∧
    Json.IsShape (j.find "blockSize") m.chunkShape.reverse ∧
    (∃ s, plainTypeName m.dtype = some s ∧ j.find "dataType" = some (.str s)) ∧
    (m.compressor = .raw → j.path ["compression", "type"] = some (.str "raw")) ∧
    (m.compressor = .zlib → j.path ["compression", "type"] = some (.str "gzip")) := by
  obtain ⟨s, c, h1, h2, h3⟩ := (toJson_n5 hz).1 h
  subst h3
  refine ⟨rfl, rfl, ⟨s, h1, rfl⟩, ?_, ?_⟩
  · intro e
    rw [e] at h2
    cases h2
    rfl
  · intro e
    rw [e] at h2
    simp only [writeN5Options, Compressor.compressorToN5, enumAt, reduceCtorEq, if_false, if_true,
      Res.bind_eq_ok, opts_int_iff] at h2
    obtain ⟨lv, _, hc⟩ := h2
    cases hc
    rfl

/-- **C27**: complex data types cannot be stored. -/
theorem c27_complex {m : Meta} (hz : m.isZarr = false) (hd : plainTypeName m.dtype = none) :
    m.toJson = .throw .outOfRange := by
  unfold Meta.toJson
  rw [if_neg (by rw [hz]; simp), if_neg (by rw [hz]; simp)]
  unfold Meta.toJsonN5
  cases h : m.dtype <;> rw [h] at hd <;> first | rfl | cases hd

/-- **C27, negation**: a fill value other than zero is not stored; the reopened dataset reads other values
    where nothing was written. -/
theorem c27_fill_counterexample :
    ∃ (m : Meta) (j : Json) (m' : Meta), m.Typed ∧ m.isZarr = false ∧ m.toJson = .ok j ∧ Meta.fromJson j false = .ok m' ∧
      m.dtype.castFill m.fillValue = .ok (.int 7) ∧ m'.dtype.castFill m'.fillValue = .ok (.int 0) := by
  let m : Meta := { exMetaN5 with dtype := .uint8, fillValue := .ofInt 7 }
  have hm : m.Typed := { exMetaN5_typed with fill := ofInt_representable (i := 7) (by decide) }
  obtain ⟨m', h, _, h1, _, _, _, _, _, _, h2⟩ := c27_roundtrip (j := _) hm rfl rfl
  refine ⟨m, _, m', hm, rfl, rfl, h, by decide +kernel, ?_⟩
  rw [h1, h2]
  decide +kernel

/-- **C27, negation**: a zlib encoded N5 dataset is taken for a gzip encoded one when it is reopened. -/
theorem c27_zlib_counterexample :
    ∃ (m : Meta) (j : Json) (m' : Meta), m.Typed ∧ m.isZarr = false ∧ m.toJson = .ok j ∧ Meta.fromJson j false = .ok m' ∧
      m.settings = .ok (.zlib 6 true) ∧ m'.settings = .ok (.zlib 6 false) := by
  let m : Meta := { exMetaN5 with options := [("level", .int 6), ("useZlib", .bool true)] }
  have hm : m.Typed := { exMetaN5_typed with options := typed_of_all (by decide) }
  exact ⟨m, _, _, hm, rfl, rfl, rfl, rfl, rfl⟩

/-- The hypotheses of `c27_roundtrip` are met by `exMetaN5`. -/
example : ∃ m', (exMetaN5.toJson.bind fun j => Meta.fromJson j false) = .ok m' ∧
    m'.settings = .ok (.zlib 6 false) ∧ m'.shape = [100, 50] := ⟨_, rfl, rfl, rfl⟩

/-! ## C28: zarr v3 -/

theorem toJson_v3 {m : Meta} {j : Json} (hz : m.isZarr = true) (hf : m.zarrFormat = 3) :
    m.toJson = .ok j ↔ ∃ s f l, plainTypeName m.dtype = some s ∧ Meta.v3Fill m.dtype m.fillValue = .ok f ∧
      writeV3Codecs m.compressor m.options m.dtype.size = .ok l ∧
      j = .obj [("zarr_format", .int 3), ("node_type", .str "array"), ("data_type", .str s),
        ("shape", Json.ofShape m.shape),
        ("chunk_grid", .obj [("name", .str "regular"), ("configuration",
          .obj [("chunk_shape",
            Json.ofShape (if m.shardShape ≠ [] then m.shardShape else m.chunkShape))])]),
        ("chunk_key_encoding", .obj [("name", .str m.encoding),
          ("configuration", .obj [("separator", .str m.delimiter)])]),
        ("fill_value", f),
        ("codecs", .arr (if m.shardShape ≠ [] then [Meta.shardingCodec m.chunkShape l] else l)),
        ("attributes", .obj [])] := by
  unfold Meta.toJson
  rw [if_pos ⟨hz, hf⟩]
  unfold Meta.toJsonV3
  simp only [Res.bind_eq_ok, plainName_eq, Res.pure_eq, Res.ok.injEq]
  constructor
  · rintro ⟨s, h1, f, h2, l, h3, h4⟩
    exact ⟨s, f, l, h1, h2, h3, h4.symm⟩
  · rintro ⟨s, f, l, h1, h2, h3, h4⟩
    exact ⟨s, h1, f, h2, l, h3, h4.symm⟩

theorem intType_of_range {dt : Datatype} {d : Dbl} {f : Json} (h : Meta.v3Fill dt d = .ok f) :
    (∃ lo hi i, dt.range = some (lo, hi) ∧ f = .int i ∧ d.trunc = some i) ∨
    (∃ s, f = .str s ∧ Meta.specialFill d = some (.str s)) ∨
    (dt.range = none ∧ f = .float d ∧ ∃ b u, d = .fin b u) := by
  unfold Meta.v3Fill at h
  cases d with
  | nan => cases h; exact .inr (.inl ⟨_, rfl, rfl⟩)
  | inf b => cases h; exact .inr (.inl ⟨_, rfl, rfl⟩)
  | fin b u =>
    simp only [Meta.specialFill] at h
    cases dt <;> simp only [Res.bind_eq_ok, toInt_ok, Res.pure_eq, Res.ok.injEq] at h
    case float32 => exact .inr (.inr ⟨rfl, h.symm, b, u, rfl⟩)
    case float64 => exact .inr (.inr ⟨rfl, h.symm, b, u, rfl⟩)
    case complex64 => exact .inr (.inr ⟨rfl, h.symm, b, u, rfl⟩)
    case complex128 => exact .inr (.inr ⟨rfl, h.symm, b, u, rfl⟩)
    case complex256 => exact .inr (.inr ⟨rfl, h.symm, b, u, rfl⟩)
    all_goals
      obtain ⟨i, ⟨h1, _, _⟩, h2⟩ := h
      exact .inl ⟨_, _, i, rfl, h2.symm, h1⟩

/-- The fill value of the document is read as a double that means the same for the data type. -/
theorem v3Fill_read {dt : Datatype} {d : Dbl} {f : Json} (hr : d.Representable)
    (h : Meta.v3Fill dt d = .ok f) :
    ∃ d', Meta.readFill f .zero = .ok d' ∧ (dt.range = none → d' = d) ∧
      (d.trunc = none → d' = d) ∧ d'.trunc = d.trunc := by
  rcases intType_of_range h with ⟨lo, hi, i, hR, rfl, ht⟩ | ⟨s, rfl, hs⟩ | ⟨hR, rfl, b, u, rfl⟩
  · refine ⟨.ofInt i, rfl, fun e => ?_, fun e => ?_, ?_⟩
    · rw [hR] at e; cases e
    · rw [ht] at e; cases e
    · rw [ht]; exact trunc_exact hr ht
  · refine ⟨d, ?_, fun _ => rfl, fun _ => rfl, rfl⟩
    have := readFill_special d .zero
    rw [hs] at this
    exact this
  · exact ⟨_, rfl, fun _ => rfl, fun _ => rfl, rfl⟩

theorem castFill_congr {dt : Datatype} {d d' : Dbl} (h1 : dt.range = none → d' = d)
    (h2 : d'.trunc = d.trunc) : dt.castFill d' = dt.castFill d := by
  unfold Datatype.castFill
  cases h : dt.range with
  | none => rw [h1 h]
  | some r => simp only [Dbl.toInt, h2]

/-- The names of the codecs that `writeV3Codecs` lists. -/
theorem findSharding_codecs {c : Compressor} {o : Opts} {n : Nat} {l : List Json}
    (h : writeV3Codecs c o n = .ok l) : Meta.findSharding l = .ok none := by
  cases c <;> simp only [writeV3Codecs, Res.bind_eq_ok, reduceCtorEq] at h
  · cases h; rfl
  · obtain ⟨_, _, _, _, _, _, _, _, h⟩ := h
    cases h; rfl
  · obtain ⟨_, _, h⟩ := h
    cases h; rfl
  · obtain ⟨_, _, h⟩ := h
    cases h; rfl

/-- **C28.**  What `toJson` writes for zarr v3, `fromJson` reads back: data type, shape, chunk and shard
    shape, key encoding, delimiter and compressor, a fill value that is the same for the data type, and the
    same compressor settings, as far as v3 can express them. -/
theorem c28_roundtrip {m : Meta} {j : Json} (hm : m.Typed) (hz : m.isZarr = true)
    (hf : m.zarrFormat = 3) (h : m.toJson = .ok j) :
    ∃ m', Meta.fromJson j true = .ok m' ∧ m'.isZarr = true ∧ m'.zarrFormat = 3 ∧
      m'.dtype = m.dtype ∧ m'.shape = m.shape ∧ m'.chunkShape = m.chunkShape ∧
      m'.shardShape = m.shardShape ∧ m'.delimiter = m.delimiter ∧ m'.encoding = m.encoding ∧
      m'.dtype.castFill m'.fillValue = m.dtype.castFill m.fillValue ∧
      (m.dtype.range = none → m'.fillValue = m.fillValue) ∧
      m'.compressor = m.compressor ∧ (∀ s, m.settings = .ok s → m'.settings = .ok s.asV3) ∧
      m'.threads = none := by
  obtain ⟨s, f, l, h1, h2, h3, h4⟩ := (toJson_v3 hz hf).1 h
  subst h4
  obtain ⟨o', ho, hset, hnt⟩ := v3_options hm.options h3
  obtain ⟨d', hd1, hd2, _, hd3⟩ := v3Fill_read hm.fill h2
  refine ⟨{ isZarr := true, zarrFormat := 3, dtype := m.dtype, shape := m.shape,
            chunkShape := m.chunkShape, compressor := m.compressor, options := o',
            fillValue := d', delimiter := m.delimiter, encoding := m.encoding,
            shardShape := m.shardShape }, ?_, rfl, rfl, rfl, rfl, rfl, rfl, rfl, rfl,
            castFill_congr hd2 hd3, hd2, rfl, hset, hnt⟩
  have hname : Meta.atOrRuntime Datatype.n5ToDtype s = .ok m.dtype := by
    unfold Meta.atOrRuntime
    rw [plainName_read h1]
  have hel : ∀ l, (Json.arr l).elems = l := fun _ => rfl
  by_cases hsh : m.shardShape = []
  · have hfs := findSharding_codecs h3
    simp [Meta.fromJson, Meta.fromJsonV3, Json.find, Json.at', assocGet, Json.getStr, Json.eqStr, hname,
      elems_ofShape, sizes_ofShape hm.shape, sizes_ofShape hm.chunks, Meta.separatorOf, hd1, hsh,
      getInt_int (i := 3) (by decide), hel, hfs, ho, Meta.checkShapes, hm.axes]
  · simp [Meta.fromJson, Meta.fromJsonV3, Json.find, Json.at', assocGet, Json.getStr, Json.eqStr, hname,
      elems_ofShape, sizes_ofShape hm.shape, sizes_ofShape hm.chunks, sizes_ofShape hm.shards,
      Meta.separatorOf, hd1, hsh, getInt_int (i := 3) (by decide), Meta.findSharding, Meta.shardingCodec,
      ho, Meta.checkShapes, hm.axes, hel]

/-- **C28**: the chunk key configuration that `openDataset` reads from the document is the one of the
    record, whether or not there is a `.zarray` as well. -/
theorem c28_key_config {m : Meta} {j : Json} (hz : m.isZarr = true) (hf : m.zarrFormat = 3)
    (h : m.toJson = .ok j) (v2 : Option Json) :
    getZarrChunkConfig (some j) v2 = .ok ⟨m.delimiter, 3, m.encoding⟩ := by
  obtain ⟨s, f, l, _, _, _, h4⟩ := (toJson_v3 hz hf).1 h
  subst h4
  rfl

/-- **C26**: likewise for zarr v2 (where the encoding is not used). -/
theorem c26_key_config {m : Meta} {j : Json} (hz : m.isZarr = true) (hf : m.zarrFormat = 2)
    (h : m.toJson = .ok j) :
    getZarrChunkConfig none (some j) = .ok ⟨m.delimiter, 2, "default"⟩ := by
  rw [toJson_v2 hz hf] at h
  cases hc : writeZarrOptions m.compressor m.options with
  | throw e => rw [hc] at h; cases h
  | ub => rw [hc] at h; cases h
  | ok c =>
    rw [hc] at h
    cases h
    rfl

/-- **C28**: every chunk is looked for where it was stored.  `v3` and `v2` are the documents of the
    dataset as its creation leaves them. -/
theorem c28_same_keys {m : Meta} {j : Json} {cfg : ChunkConfig} (hz : m.isZarr = true)
    (hf : m.zarrFormat = 2 ∨ m.zarrFormat = 3) (h : m.toJson = .ok j)
    (hc : getZarrChunkConfig (if m.zarrFormat = 3 then some j else none)
      (if m.zarrFormat = 2 then some j else none) = .ok cfg) (c : List Nat) :
    getChunkKey ⟨true, cfg.delimiter.toList, cfg.zarrFormat.toNat, cfg.encoding.toList⟩ c
      = getChunkKey ⟨true, m.delimiter.toList, m.zarrFormat.toNat, m.encoding.toList⟩ c := by
  rcases hf with hf | hf
  · rw [if_neg (by rw [hf]; decide), if_pos hf, c26_key_config hz hf h] at hc
    cases hc
    rw [hf]
    rfl
  · rw [if_pos hf, c28_key_config hz hf h] at hc
    cases hc
    rw [hf]

/-- **C28**, the document: the fields that the zarr v3 specification asks for.  The chunk grid is that of
    the shards if there are any; the chunks of the shards are then described in the `sharding_indexed`
    codec. -/
theorem c28_document {m : Meta} {j : Json} (hz : m.isZarr = true) (hf : m.zarrFormat = 3)
    (h : m.toJson = .ok j) :
    j.find "zarr_format" = some (.int 3) ∧ j.find "node_type" = some (.str "array") ∧
    (∃ s, plainTypeName m.dtype = some s ∧ j.find "data_type" = some (.str s)) ∧
    Json.IsShape (j.find "shape") m.shape ∧
    j.path ["chunk_grid", "name"] = some (.str "regular") ∧
    j.path ["chunk_key_encoding", "name"] = some (.str m.encoding) ∧
    j.path ["chunk_key_encoding", "configuration", "separator"] = some (.str m.delimiter) ∧
    (m.shardShape = [] →
      Json.IsShape (j.path ["chunk_grid", "configuration", "chunk_shape"]) m.chunkShape) ∧
    (m.shardShape ≠ [] →
      Json.IsShape (j.path ["chunk_grid", "configuration", "chunk_shape"]) m.shardShape ∧
      ∃ c, j.find "codecs" = some (.arr [c]) ∧ c.find "name" = some (.str "sharding_indexed") ∧
        Json.IsShape (c.path ["configuration", "chunk_shape"]) m.chunkShape ∧
        c.path ["configuration", "index_location"] = some (.str "end")) ∧
    (∀ i, (∃ r, m.dtype.range = some r) → m.fillValue.trunc = some i →
      j.find "fill_value" = some (.int i)) := by
  obtain ⟨s, f, l, h1, h2, h3, h4⟩ := (toJson_v3 hz hf).1 h
  subst h4
  refine ⟨rfl, rfl, ⟨s, h1, rfl⟩, rfl, rfl, rfl, rfl, ?_, ?_, ?_⟩
  · intro e
    rw [e]
    rfl
  · intro e
    rw [if_pos e, if_pos e]
    exact ⟨rfl, _, rfl, rfl, rfl, rfl⟩
  · rintro i ⟨r, hr⟩ ht
    rcases intType_of_range h2 with ⟨_, _, i', _, rfl, ht'⟩ | ⟨s, rfl, hs⟩ | ⟨hR, _, _⟩
    · rw [ht] at ht'
      cases ht'
      rfl
    · cases hd : m.fillValue <;> rw [hd] at ht hs <;> first | (cases hs; done) | (cases ht; done)
    · rw [hr] at hR; cases hR

/-- **C28**: `toJson` succeeds exactly for data types that are not complex, the compressors of zarr v3 with
    the options they need, and a fill value that, for integer data types, fits 64 bits. -/
theorem c28_accepts {m : Meta} (hz : m.isZarr = true) (hf : m.zarrFormat = 3) :
    (∃ j, m.toJson = .ok j) ↔ (∃ s, plainTypeName m.dtype = some s) ∧
      (∃ f, Meta.v3Fill m.dtype m.fillValue = .ok f) ∧
      (m.compressor = .raw ∨
       (m.compressor = .zlib ∨ m.compressor = .zstd) ∧ (∃ l, m.options.int "level" = .ok l) ∨
       m.compressor = .blosc ∧ ∃ s, m.settings = .ok s) := by
  have key : (∃ l, writeV3Codecs m.compressor m.options m.dtype.size = .ok l) ↔
      (m.compressor = .raw ∨
       (m.compressor = .zlib ∨ m.compressor = .zstd) ∧ (∃ l, m.options.int "level" = .ok l) ∨
       m.compressor = .blosc ∧ ∃ s, m.settings = .ok s) := by
    unfold Meta.settings
    generalize m.compressor = c
    generalize m.options = o
    cases c with
    | raw => exact ⟨fun _ => .inl rfl, fun _ => ⟨_, rfl⟩⟩
    | blosc =>
      simp only [writeV3Codecs, reduceCtorEq, false_or, or_self, false_and, true_and, initCompressor,
        Res.bind_eq_ok, opts_int_iff, opts_str_iff, assocGet_erase, String.reduceEq, if_false, if_true]
      constructor
      · rintro ⟨c', cd, h1, lv, h2, sh, h3, bs, h4, _⟩
        exact ⟨_, lv, h2, sh, h3, cd, h1, bs, h4, rfl⟩
      · rintro ⟨c', lv, h2, sh, h3, cd, h1, bs, h4, _⟩
        exact ⟨_, cd, h1, lv, h2, sh, h3, bs, h4, rfl⟩
    | zlib =>
      simp only [writeV3Codecs, reduceCtorEq, false_or, or_false, false_and, true_and, Res.bind_eq_ok]
      constructor
      · rintro ⟨_, l, h, _⟩
        exact ⟨l, h⟩
      · rintro ⟨l, h⟩
        exact ⟨_, l, h, rfl⟩
    | zstd =>
      simp only [writeV3Codecs, reduceCtorEq, false_or, or_false, false_and, true_and, Res.bind_eq_ok]
      constructor
      · rintro ⟨_, l, h, _⟩
        exact ⟨l, h⟩
      · rintro ⟨l, h⟩
        exact ⟨_, l, h, rfl⟩
    | _ => simp [writeV3Codecs]
  rw [← key]
  constructor
  · rintro ⟨j, h⟩
    obtain ⟨s, f, l, h1, h2, h3, _⟩ := (toJson_v3 hz hf).1 h
    exact ⟨⟨s, h1⟩, ⟨f, h2⟩, l, h3⟩
  · rintro ⟨⟨s, h1⟩, ⟨f, h2⟩, l, h3⟩
    exact ⟨_, (toJson_v3 hz hf).2 ⟨s, f, l, h1, h2, h3, rfl⟩⟩

/-- The hypotheses of `c28_roundtrip` are met by `exMetaV3` (sharded, negative fill value). -/
example : ∃ j m', exMetaV3.toJson = .ok j ∧ Meta.fromJson j true = .ok m' ∧
    m'.settings = .ok (.zlib 6 false) ∧ m'.shardShape = [20, 50] ∧ m'.chunkShape = [5, 10] ∧
    getZarrChunkConfig (some j) none = .ok ⟨"/", 3, "default"⟩ := by
  have ht : Dbl.trunc (.fin true (3 * Dbl.one)) = some (-3) := by decide +kernel
  have hfill : Meta.v3Fill exMetaV3.dtype exMetaV3.fillValue = .ok (.int (-3)) := by
    show (do return Json.int (← Dbl.toInt (-2 ^ 63) (2 ^ 63) (.fin true (3 * Dbl.one)))) = _
    rw [toInt_ok.2 ⟨ht, by decide, by decide⟩]
    rfl
  obtain ⟨j, hj⟩ := (c28_accepts (m := exMetaV3) rfl rfl).2
    ⟨⟨_, rfl⟩, ⟨_, hfill⟩, .inr (.inl ⟨.inl rfl, 6, rfl⟩)⟩
  obtain ⟨m', h, _, _, _, _, h1, h2, _, _, _, _, _, h3, _⟩ := c28_roundtrip exMetaV3_typed rfl rfl hj
  exact ⟨j, m', hj, h, h3 _ rfl, h2, h1, c28_key_config rfl rfl hj none⟩

/-- **C28, negation**: a zarr v3 dataset created with compressor `zlib` and the default options is written
    in zlib encoding, but its document says gzip, and it is read in gzip encoding when it is reopened. -/
theorem c28_zlib_counterexample :
    ∃ m j m', createMeta "uint8" [100] [10] true "zlib" [] .zero "/" 3 "default" [] = .ok m ∧
      m.Typed ∧ m.toJson = .ok j ∧ Meta.fromJson j true = .ok m' ∧
      m.settings = .ok (.zlib 5 true) ∧ m'.settings = .ok (.zlib 5 false) := by
  let m : Meta :=
    { isZarr := true, zarrFormat := 3, dtype := .uint8, shape := [100], chunkShape := [10],
      compressor := .zlib, options := [("level", .int 5), ("useZlib", .bool true)],
      fillValue := .zero, delimiter := "/", encoding := "default", shardShape := [] }
  have hm : m.Typed := ⟨rfl, by decide, by decide, by decide, typed_of_all (by decide),
    ⟨0, 0, by decide, by decide, rfl⟩⟩
  have ht : Dbl.trunc .zero = some 0 := by decide +kernel
  have hfill : Meta.v3Fill m.dtype m.fillValue = .ok (.int 0) := by
    show (do return Json.int (← Dbl.toInt 0 (2 ^ 64) .zero)) = _
    rw [toInt_ok.2 ⟨ht, by decide, by decide⟩]
    rfl
  obtain ⟨j, hj⟩ := (c28_accepts (m := m) rfl rfl).2
    ⟨⟨_, rfl⟩, ⟨_, hfill⟩, .inr (.inl ⟨.inl rfl, 5, rfl⟩)⟩
  obtain ⟨m', h, _, _, _, _, _, _, _, _, _, _, _, hs, _⟩ := c28_roundtrip hm rfl rfl hj
  exact ⟨m, j, m', rfl, hm, hj, h, rfl, hs _ rfl⟩

theorem v3_fill_ub {m : Meta} {s : String} (hz : m.isZarr = true) (hf : m.zarrFormat = 3)
    (h1 : enumAt Datatype.dtypeToN5 m.dtype = .ok s) (h : Meta.v3Fill m.dtype m.fillValue = .ub) :
    m.toJson = .ub := by
  rw [show m.toJson = m.toJsonV3 from if_pos ⟨hz, hf⟩, Meta.toJsonV3, h1, h]
  rfl

/-- **C28, negation**: converting a fill value that does not fit 64 bits is undefined behaviour, here a
    negative one for an unsigned data type. -/
theorem c28_fill_counterexample :
    ∃ m, createMeta "uint8" [100] [10] true "raw" [] (.ofInt (-1)) "/" 3 "default" [] = .ok m ∧
      m.Typed ∧ m.toJson = .ub := by
  refine ⟨_, rfl, ⟨rfl, by decide, by decide, by decide, typed_of_all (by decide),
    ofInt_representable (by decide)⟩, ?_⟩
  refine v3_fill_ub (s := "uint8") rfl rfl rfl ?_
  have ht : Dbl.toInt 0 (2 ^ 64) (.ofInt (-1)) = .ub := by decide +kernel
  have hs : Meta.specialFill (.ofInt (-1)) = none := by decide +kernel
  show Meta.v3Fill .uint8 (.ofInt (-1)) = .ub
  simp only [Meta.v3Fill, hs, ht]
  rfl

/-! ## C48: fill values -/

/-- **C48.**  An integer fill value with at most 53 significant bits is used as requested. -/
theorem c48_requested {dt : Datatype} {lo hi v : Int} (hd : dt.range = some (lo, hi))
    (hv : lo ≤ v ∧ v < hi) (h53 : ∃ m j, m < 2 ^ 53 ∧ v.natAbs = m * 2 ^ j) :
    dt.castFill (.ofInt v) = .ok (.int v) := by
  unfold Datatype.castFill
  simp only [hd, toInt_ok.2 ⟨trunc_ofInt h53, hv⟩]
  rfl

/-- **C48**: in particular every value of the types of at most 32 bits, and every value of the 64 bit types
    up to 2^53 in absolute value. -/
theorem c48_requested_small {dt : Datatype} {lo hi v : Int} (hd : dt.range = some (lo, hi))
    (hv : lo ≤ v ∧ v < hi) (hs : v.natAbs < 2 ^ 53) : dt.castFill (.ofInt v) = .ok (.int v) :=
  c48_requested hd hv ⟨v.natAbs, 0, hs, by rw [Nat.pow_zero, Nat.mul_one]⟩

example : Datatype.castFill .int16 (.ofInt (-32768)) = .ok (.int (-32768)) :=
  c48_requested_small rfl (by decide) (by decide)
example : Datatype.castFill .uint64 (.ofInt (2 ^ 63)) = .ok (.int (2 ^ 63)) :=
  c48_requested rfl (by decide) ⟨1, 63, by decide, by decide⟩

/-- **C48**: other integers are replaced by the closest one with at most 53 significant bits; of two that are equally close,
    which are neighbours, the even multiple of their distance is taken. -/
theorem c48_rounded {dt : Datatype} {lo hi v w : Int} (hd : dt.range = some (lo, hi))
    (h : dt.castFill (.ofInt v) = .ok (.int w)) {x : Int} (hx : ∃ m j, m < 2 ^ 53 ∧ x.natAbs = m * 2 ^ j) :
    (v - w).natAbs ≤ (v - x).natAbs ∧
    ((v - w).natAbs = (v - x).natAbs → x ≠ w → ∃ k : Int, ∃ e : Nat, w = 2 * k * 2 ^ e ∧ (w - x).natAbs = 2 ^ e) := by
  have hw : w = if v < 0 then -(Dbl.roundNat v.natAbs : Int) else (Dbl.roundNat v.natAbs : Int) := by
    unfold Datatype.castFill at h
    simp only [hd] at h
    obtain ⟨i, h1, h2⟩ := Res.bind_eq_ok.1 h
    cases h2
    have := (toInt_ok.1 h1).1
    rw [trunc_round] at this
    exact (Option.some.inj this).symm
  obtain ⟨m, j, hm, hmj⟩ := hx
  obtain ⟨n1, n2⟩ := roundNat_nearest v.natAbs m j hm
  obtain ⟨z1, -⟩ := roundNat_nearest v.natAbs 0 0 (by decide)
  rw [Nat.zero_mul] at z1
  rw [← hmj] at n1 n2
  generalize Dbl.roundNat v.natAbs = R at *
  have hpow : ∀ e : Nat, ((2 ^ e : Nat) : Int) = 2 ^ e := fun e => by simp
  have hcast : ∀ (k : Nat) (e : Nat), R = 2 * k * 2 ^ e → (R : Int) = 2 * (k : Int) * 2 ^ e := by
    intro k e he
    rw [he]
    simp
  unfold natDist at n1 n2 z1
  by_cases hneg : v < 0
  · rw [if_pos hneg] at hw
    by_cases hxs : x ≤ 0
    · refine ⟨by clear n2; omega, fun h1 h2 => ?_⟩
      obtain ⟨k, h3, h4⟩ := n2 (by clear n2; omega) (by clear n2; omega)
      refine ⟨-(k : Int), Dbl.excess v.natAbs, ?_, ?_⟩
      rotate_left
      · rw [← h4]
        clear n2
        omega
      · rw [hw, hcast k _ h3, Int.mul_neg, Int.neg_mul]
    · exact ⟨by clear n2; omega, fun h1 h2 => by clear n2; omega⟩
  · rw [if_neg hneg] at hw
    by_cases hxs : 0 ≤ x
    · refine ⟨by clear n2; omega, fun h1 h2 => ?_⟩
      obtain ⟨k, h3, h4⟩ := n2 (by clear n2; omega) (by clear n2; omega)
      refine ⟨(k : Int), Dbl.excess v.natAbs, ?_, ?_⟩
      rotate_left
      · rw [← h4]
        clear n2
        omega
      · rw [hw, hcast k _ h3]
    · exact ⟨by clear n2; omega, fun h1 h2 => by clear n2; omega⟩

/-- Two examples of ties. -/
example : Datatype.castFill .uint64 (.ofInt (2 ^ 53 + 1)) = .ok (.int (2 ^ 53)) ∧
    Datatype.castFill .uint64 (.ofInt (2 ^ 53 + 3)) = .ok (.int (2 ^ 53 + 4)) := by decide +kernel

/-- **C48**: the fill value of a zarr dataset is the same after reopening, whatever double was given. -/
theorem c48_reopened {m : Meta} {j : Json} (hm : m.Typed) (hz : m.isZarr = true)
    (hf : m.zarrFormat = 2 ∨ m.zarrFormat = 3) (h : m.toJson = .ok j) :
    ∃ m', Meta.fromJson j true = .ok m' ∧
      m'.dtype.castFill m'.fillValue = m.dtype.castFill m.fillValue := by
  rcases hf with hf | hf
  · obtain ⟨m', h, _, _, h1, _, _, _, h2, _⟩ := c26_roundtrip hm hz hf h
    exact ⟨m', h, by rw [h1, h2]⟩
  · obtain ⟨m', h, _, _, _, _, _, _, _, _, h1, _⟩ := c28_roundtrip hm hz hf h
    exact ⟨m', h, h1⟩

/-- **C48**: an N5 dataset keeps the fill value zero. -/
theorem c48_reopened_n5 {m : Meta} {j : Json} (hm : m.Typed) (hz : m.isZarr = false)
    (h0 : m.fillValue = .zero) (h : m.toJson = .ok j) :
    ∃ m', Meta.fromJson j false = .ok m' ∧
      m'.dtype.castFill m'.fillValue = m.dtype.castFill m.fillValue := by
  obtain ⟨m', h, _, h1, _, _, _, _, _, _, h2⟩ := c27_roundtrip hm hz h
  exact ⟨m', h, by rw [h1, h2, h0]⟩

/-- **C48, negation**: the integer fill value 2^53 + 1 becomes 2^53, and the largest value of `uint64`
    is converted with undefined behaviour. -/
theorem c48_large_counterexample :
    Datatype.castFill .uint64 (.ofInt (2 ^ 53 + 1)) = .ok (.int (2 ^ 53)) ∧
    Datatype.castFill .uint64 (.ofInt (2 ^ 64 - 1)) = .ub := by
  decide +kernel

end Z5
