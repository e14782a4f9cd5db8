import Verif.Model.Compressors

/-!
# What is assumed of the compression libraries (C68)

From their documentation.  Nothing is assumed about what they do to data that they did not compress, except that they
stay within the room they are given.
-/

namespace Z5.Compression

/-- zlib.  `Z_FINISH` in one step needs `deflateBound` bytes of room; `inflate` with `Z_FINISH` never returns `Z_OK`. -/
structure Zlib.Contract (Z : Zlib) : Prop where
  room : ∀ l u x n, (Z.deflate l u x n).2.length ≤ n
  enough : ∀ l u x n, Z.deflateInit l u = true → Z.deflateBound l u x.length ≤ n → (Z.deflate l u x n).1 = .streamEnd
  bound : ∀ l u n, Z.deflateBound l u n ≤ 2 * n + 100
  nonempty : ∀ l u x n, (Z.deflate l u x n).1 = .streamEnd → (Z.deflate l u x n).2 ≠ []
  /-- a finished stream decodes to what was compressed, if there is room -/
  decodes : ∀ l u x n s m, (Z.deflate l u x n).1 = .streamEnd → Z.inflateInit = some s → x.length ≤ m →
    (Z.inflate s (Z.deflate l u x n).2 m).ret = .streamEnd ∧ (Z.inflate s (Z.deflate l u x n).2 m).out = x
  started : Z.inflateInit ≠ none
  inflateRoom : ∀ s y n, (Z.inflate s y n).out.length ≤ n
  finish : ∀ s y n, (Z.inflate s y n).ret ≠ .ok

/-- libdeflate.  Data in one wrapper are an error for the other. -/
structure LibDeflate.Contract (D : LibDeflate) : Prop where
  alloc : ∀ l, 1 ≤ l → l ≤ 12 → D.alloc l = true
  room : ∀ u l x n, (D.compress u l x n).length ≤ n
  enough : ∀ u l x n, D.bound u l x.length ≤ n → D.compress u l x n ≠ []
  decodes : ∀ u l x n m, D.compress u l x n ≠ [] → x.length ≤ m → D.decompress u (D.compress u l x n) m = (true, x)
  other : ∀ u l x n m, D.compress u l x n ≠ [] → (D.decompress (!u) (D.compress u l x n) m).1 = false
  decompressRoom : ∀ w y n, (D.decompress w y n).2.length ≤ n

/-- bzip2.  "To guarantee that the compressed data will fit in its buffer, allocate an output buffer of size 1% larger
    than the uncompressed data, plus six hundred extra bytes." -/
structure Bzip2.Contract (B : Bzip2) : Prop where
  room : ∀ l x n, (B.compress l x n).2.length ≤ n
  enough : ∀ l x n, B.compressInit l = true → 101 * x.length + 60000 ≤ 100 * n → (B.compress l x n).1 = .streamEnd
  nonempty : ∀ l x n, (B.compress l x n).1 = .streamEnd → (B.compress l x n).2 ≠ []
  decodes : ∀ l x n m, (B.compress l x n).1 = .streamEnd → x.length ≤ m →
    B.decompress (B.compress l x n).2 m = (.streamEnd, x)
  started : B.decompressInit = true
  decompressRoom : ∀ y n, (B.decompress y n).2.length ≤ n

/-- lz4.  A negative room is an error. -/
structure Lz4.Contract (L : Lz4) : Prop where
  room : ∀ x n, (L.compress x n).2.length ≤ n
  size : ∀ x n, 0 < (L.compress x n).1 → (L.compress x n).1 = (L.compress x n).2.length
  enough : ∀ x n, x.length ≤ lz4MaxInput → L.compressBound x.length ≤ n → 0 < (L.compress x n).1
  bound : ∀ n, n ≤ lz4MaxInput → L.compressBound n < 2 ^ 31
  decodes : ∀ x n (m : Nat), 0 < (L.compress x n).1 → x.length ≤ m → m < 2 ^ 31 →
    L.decompress (L.compress x n).2 (L.compress x n).2.length m = ((x.length : Int), x)
  decompressRoom : ∀ y k m, (L.decompress y k m).2.length ≤ m.toNat

/-- liblzma.  `made s x y`: the encoder in state `s` has read `x` and written `y`; `Stream x y`: `y` is a complete
    stream with the contents `x`; `rest s y x`: the decoder in state `s` is going to write `x` when it reads `y`.
    `encMeasure` and `decMeasure` bound the number of further calls that return `LZMA_OK`: a call that can neither read
    nor write returns something else, at the latest the second time. -/
structure Xz.Contract (X : Xz) where
  Stream : Bytes → Bytes → Prop
  made : X.Enc → Bytes → Bytes → Prop
  rest : X.Dec → Bytes → Bytes → Prop
  encMeasure : X.Enc → Bytes → Bool → Nat
  decMeasure : X.Dec → Bytes → Bool → Nat
  encRoom : ∀ s inp n f, (X.encode s inp n f).out.length ≤ n
  encLess : ∀ s inp n f, 0 < n → (X.encode s inp n f).ret = .ok →
    let left := inp.drop (X.encode s inp n f).used
    encMeasure (X.encode s inp n f).next left (f || left.isEmpty) < encMeasure s inp f
  encStart : ∀ l s, X.encoder l = some s → made s [] []
  encOk : ∀ s x y inp n f, made s x y → (X.encode s inp n f).ret = .ok →
    made (X.encode s inp n f).next (x ++ inp.take (X.encode s inp n f).used) (y ++ (X.encode s inp n f).out)
  /-- the stream ends only when that is asked for, and then everything was read -/
  encEnd : ∀ s x y inp n f, made s x y → (X.encode s inp n f).ret = .streamEnd →
    f = true ∧ Stream (x ++ inp) (y ++ (X.encode s inp n f).out)
  encNoError : ∀ s x y inp n f, made s x y → 0 < n → (X.encode s inp n f).ret ≠ .other
  nonempty : ∀ x y, Stream x y → y ≠ []
  started : X.decoder ≠ none
  decRoom : ∀ s inp n f, (X.decode s inp n f).out.length ≤ n
  decLess : ∀ s inp n f, (X.decode s inp n f).ret = .ok →
    let left := inp.drop (X.decode s inp n f).used
    decMeasure (X.decode s inp n f).next left (f || left.isEmpty) < decMeasure s inp f
  decStart : ∀ s x y, X.decoder = some s → Stream x y → rest s y x
  /-- as much is written as there is room for -/
  decOut : ∀ s y x n f, rest s y x → (X.decode s y n f).out = x.take n
  decOk : ∀ s y x n f, rest s y x → (X.decode s y n f).ret = .ok →
    rest (X.decode s y n f).next (y.drop (X.decode s y n f).used) (x.drop n)
  decEnd : ∀ s y x n f, rest s y x → (X.decode s y n f).ret = .streamEnd → x.length ≤ n
  decNoError : ∀ s y x n f, rest s y x → x.length ≤ n → (X.decode s y n f).ret ≠ .other

/-- zstd -/
structure Zstd.Contract (Z : Zstd) : Prop where
  room : ∀ l x n y, Z.compress l x n = some y → y.length ≤ n
  enough : ∀ l x n, Z.compressBound x.length ≤ n → Z.compress l x n ≠ none
  nonempty : ∀ l x n, Z.compress l x n ≠ some []
  decodes : ∀ l x n y m, Z.compress l x n = some y → x.length ≤ m → Z.decompress y m = some x
  decompressRoom : ∀ y n x, Z.decompress y n = some x → x.length ≤ n

/-- blosc.  `Accepts` are the settings it accepts; it refuses more than 2^31 - 17 bytes, and it reads its header of 16
    bytes before anything else. -/
structure Blosc.Contract (B : Blosc) (Accepts : Settings → Prop) : Prop where
  room : ∀ c l sh ty b t x n, (B.compress c l sh ty b t x n).2.length ≤ n
  size : ∀ c l sh ty b t x n, 0 < (B.compress c l sh ty b t x n).1 →
    (B.compress c l sh ty b t x n).1 = (B.compress c l sh ty b t x n).2.length
  enough : ∀ c l sh ty b t x n, Accepts (.blosc c l sh b t) → x.length ≤ 2 ^ 31 - 1 - 16 →
    x.length + bloscOverhead ≤ n → 0 < (B.compress c l sh ty b t x n).1
  limit : ∀ c l sh ty b t x n, 2 ^ 31 - 1 - 16 < x.length → (B.compress c l sh ty b t x n).1 ≤ 0
  decodes : ∀ c l sh ty b t x n m t', 0 < (B.compress c l sh ty b t x n).1 → x.length ≤ m → 0 < t' →
    B.decompress (B.compress c l sh ty b t x n).2 m t' = ((x.length : Int), x) ∧
    B.reads (B.compress c l sh ty b t x n).2 m t' ≤ (B.compress c l sh ty b t x n).2.length
  header : ∀ y n t, 16 ≤ B.reads y n t
  decompressRoom : ∀ y n t, (B.decompress y n t).2.length ≤ n

/-- all of them -/
structure Libraries.Contract (W : Libraries) (Accepts : Settings → Prop) where
  zlib : W.zlib.Contract
  libdeflate : ∀ D, W.libdeflate = some D → D.Contract
  bzip2 : W.bzip2.Contract
  lz4 : W.lz4.Contract
  xz : W.xz.Contract
  zstd : W.zstd.Contract
  blosc : W.blosc.Contract Accepts

/-- The bounds for the loops are large enough; blosc has at least one thread. -/
structure Reader.Fits (R : Reader) {W : Libraries} {Accepts : Settings → Prop} (K : W.Contract Accepts) : Prop where
  zlib : 0 < R.zlibFuel
  encode : ∀ l s x, W.xz.encoder l = some s → K.xz.encMeasure s x false < R.encodeFuel l x
  decode : ∀ s y cap, W.xz.decoder = some s → K.xz.decMeasure s y false < R.decodeFuel y cap
  nthreads : 0 < R.nthreads

/-- Up to how many bytes of a chunk the compressor is right: zlib and bzip2 count in 32 bits. -/
def Libraries.limit (W : Libraries) : Settings → Nat
  | .zlib .. => if W.libdeflate.isSome then 2 ^ 64 - 1 else 2 ^ 32 - 1
  | .bzip2 .. => 2 ^ 32 - 1
  | _ => 2 ^ 64 - 1

/-- The settings the libraries accept -/
def Libraries.Accepts (W : Libraries) (A : Settings → Prop) : Settings → Prop
  | .zlib l u => W.libdeflate.isSome = true ∨ W.zlib.deflateInit l u = true
  | .bzip2 l => W.bzip2.compressInit l = true
  | .xz l => W.xz.encoder l ≠ none
  | s@(.blosc ..) => A s
  | _ => True

end Z5.Compression
