import Verif.Model.Opened

/-!
# The compressor classes

`compression/*.hxx`: what z5 does around the calls of the compression libraries.  The libraries themselves are
parameters (`Zlib`, `LibDeflate`, `Bzip2`, `Lz4`, `Xz`, `Zstd`, `Blosc`); what is assumed of them is in
`Spec/Compressors.lean`.

A buffer of `T` is its bytes (`size` is `sizeof(T)`).  `decompress` returns the bytes it wrote to the output.
Sizes in bytes are below 2^64, so that `sizeIn * sizeof(T)` does not wrap around.  `std::bad_alloc` is not modelled.
-/

namespace Z5.Compression

/-- conversion of `std::size_t` to `unsigned int` (zlib's `uInt`) -/
def uInt (n : Nat) : Nat := n % 2 ^ 32

/-- conversion of `std::size_t` to `int` -/
def toInt (n : Nat) : Int := if n % 2 ^ 32 < 2 ^ 31 then (n % 2 ^ 32 : Nat) else (n % 2 ^ 32 : Nat) - 2 ^ 32

/-- return codes of the streaming libraries: `Z_OK`, `BZ_OK`, `BZ_FINISH_OK`, `LZMA_OK`; `…_STREAM_END`; others -/
inductive Ret where
  | ok
  | streamEnd
  | other
  deriving DecidableEq, Repr

/-- What one call of a streaming library does: return code, bytes written, number of bytes read, new state -/
structure Call (S : Type) where
  ret : Ret
  out : Bytes
  used : Nat
  next : S

/-- `out` is written to a buffer at position `p`.  (If `p` is beyond what was written so far the bytes between have
    their former values; here they are 0.) -/
def writeAt (buf : Bytes) (p : Nat) (out : Bytes) : Bytes :=
  buf.take p ++ List.replicate (p - buf.length) 0 ++ out ++ buf.drop (p + out.length)

/-! ## zlib -/

/-- zlib; `deflate` is one call with `Z_FINISH` on a new stream, `inflate` a call with `Z_FINISH` -/
structure Zlib where
  /-- `deflateInit`, `deflateInit2` return `Z_OK` -/
  deflateInit : (level : Int) → (useZlib : Bool) → Bool
  deflateBound : Int → Bool → Nat → Nat
  deflate : Int → Bool → Bytes → (availOut : Nat) → Ret × Bytes
  S : Type
  inflateInit : Option S
  inflate : S → Bytes → (availOut : Nat) → Call S

/-- zlib_compressor.hxx:128-170 `compress` -/
def zlibCompress (Z : Zlib) (level : Int) (useZlib : Bool) (x : Bytes) : Res Bytes :=
  if !Z.deflateInit level useZlib then .throw .runtimeError
  else
    let bound := Z.deflateBound level useZlib x.length
    let r := Z.deflate level useZlib (x.take (uInt x.length)) (uInt bound)
    if r.2.length > bound then .ub
    else if r.1 ≠ .streamEnd then .throw .runtimeError
    else .ok r.2

/-- zlib_compressor.hxx:190-206, the loop of `decompress`; `cap` is `sizeOut * sizeof(T)` and `total` is
    `zs.total_out`.  More than `fuel` passes count as undefined. -/
def zlibLoop (Z : Zlib) (size cap : Nat) : Nat → Z.S → Bytes → (total : Nat) → Bytes → Res Bytes
  | 0, _, _, _, _ => .ub
  | fuel + 1, s, inp, total, buf =>
    let pos := total / size * size
    if pos > cap then .ub
    else
      let c := Z.inflate s inp (uInt (cap - pos))
      if pos + c.out.length > cap then .ub
      else
        let buf := writeAt buf pos c.out
        match c.ret with
        | .ok => zlibLoop Z size cap fuel c.next (inp.drop c.used) (total + c.out.length) buf
        | .streamEnd => .ok buf
        | .other => .throw .runtimeError

/-- zlib_compressor.hxx:173-215 `decompress` -/
def zlibDecompress (Z : Zlib) (size fuel : Nat) (y : Bytes) (cap : Nat) : Res Bytes :=
  match Z.inflateInit with
  | none => .throw .runtimeError
  | some s => zlibLoop Z size cap fuel s (y.take (uInt y.length)) 0 []

/-! ## libdeflate -/

/-- libdeflate; a result of 0 bytes of `compress` is an error -/
structure LibDeflate where
  /-- `libdeflate_alloc_compressor` -/
  alloc : (level : Int) → Bool
  bound : (useZlib : Bool) → Int → Nat → Nat
  compress : (useZlib : Bool) → Int → Bytes → (room : Nat) → Bytes
  /-- `LIBDEFLATE_SUCCESS`, and what was written -/
  decompress : (zlibWrapper : Bool) → Bytes → (room : Nat) → Bool × Bytes

/-- zlib_compressor.hxx:48-89 `compress` -/
def libdeflateCompress (D : LibDeflate) (level : Int) (useZlib : Bool) (x : Bytes) : Res Bytes :=
  let level := if level < 1 then 1 else level
  let level := if level > 12 then 12 else level
  if !D.alloc level then .throw .runtimeError
  else
    let bound := D.bound useZlib level x.length
    let out := D.compress useZlib level x bound
    if out.length > bound then .ub
    else if out.length = 0 then .throw .runtimeError
    else .ok out

/-- zlib_compressor.hxx:92-123 `decompress` -/
def libdeflateDecompress (D : LibDeflate) (useZlib : Bool) (y : Bytes) (cap : Nat) : Res Bytes :=
  let r := D.decompress useZlib y cap
  if r.2.length > cap then .ub
  else if r.1 then .ok r.2
  else
    let r' := D.decompress (!useZlib) y cap
    if r'.2.length > cap then .ub
    else if r'.1 then .ok (writeAt r.2 0 r'.2)
    else .throw .runtimeError

/-! ## bzip2 -/

/-- bzip2; one call of `BZ2_bzCompress` with `BZ_FINISH`, one call of `BZ2_bzDecompress`, on new streams -/
structure Bzip2 where
  compressInit : (level : Int) → Bool
  compress : Int → Bytes → (availOut : Nat) → Ret × Bytes
  decompressInit : Bool
  decompress : Bytes → (availOut : Nat) → Ret × Bytes
  /-- `static_cast<std::size_t>(0.01 * static_cast<float>(sizeIn))`; the theorems hold for any function -/
  percent : Nat → Nat

/-- bzip2_compressor.hxx:32-33: the size of the output buffer -/
def Bzip2.outSize (B : Bzip2) (size n : Nat) : Nat := size * (n / size + B.percent (n / size)) + 600

/-- bzip2_compressor.hxx:26-64 `compress` -/
def bzip2Compress (B : Bzip2) (size : Nat) (level : Int) (x : Bytes) : Res Bytes :=
  if !B.compressInit level then .throw .runtimeError
  else
    let outSize := B.outSize size x.length
    let r := B.compress level (x.take (uInt x.length)) (uInt outSize)
    if r.2.length > outSize then .ub
    else if r.1 ≠ .streamEnd then .throw .runtimeError
    else
      let availOut := uInt outSize - r.2.length
      .ok (writeAt (List.replicate outSize 0) 0 r.2 |>.take (outSize - availOut))

/-- bzip2_compressor.hxx:67-99 `decompress` -/
def bzip2Decompress (B : Bzip2) (y : Bytes) (cap : Nat) : Res Bytes :=
  if !B.decompressInit then .throw .runtimeError
  else
    let r := B.decompress (y.take (uInt y.length)) (uInt cap)
    if r.2.length > cap then .ub
    else if r.1 ≠ .streamEnd then .throw .runtimeError
    else .ok r.2

/-! ## lz4 -/

/-- lz4: the functions return an `int` and write bytes -/
structure Lz4 where
  compressBound : Nat → Nat
  compress : Bytes → (room : Nat) → Int × Bytes
  decompress : Bytes → (srcSize room : Int) → Int × Bytes

/-- `LZ4_MAX_INPUT_SIZE` -/
def lz4MaxInput : Nat := 0x7E000000

/-- lz4_compressor.hxx:27-46 `compress` -/
def lz4Compress (L : Lz4) (x : Bytes) : Res Bytes :=
  if x.length > lz4MaxInput then .throw .runtimeError
  else
    let outSize := L.compressBound x.length
    let r := L.compress x outSize
    if r.2.length > outSize then .ub
    else if r.1 ≤ 0 then .throw .runtimeError
    else .ok ((writeAt (List.replicate outSize 0) 0 r.2).take r.1.toNat)

/-- lz4_compressor.hxx:48-56 `decompress` -/
def lz4Decompress (L : Lz4) (y : Bytes) (cap : Nat) : Res Bytes :=
  let r := L.decompress (y.take (toInt y.length).toNat) (toInt y.length) (toInt cap)
  if r.2.length > cap then .ub
  else if r.1 ≤ 0 then .throw .runtimeError
  else .ok r.2

/-! ## xz -/

/-- liblzma; the flag of a call is whether the action is `LZMA_FINISH` -/
structure Xz where
  Enc : Type
  Dec : Type
  /-- `lzma_easy_encoder` -/
  encoder : (level : Int) → Option Enc
  encode : Enc → Bytes → (availOut : Nat) → (finish : Bool) → Call Enc
  /-- `lzma_stream_decoder` -/
  decoder : Option Dec
  decode : Dec → Bytes → (availOut : Nat) → (finish : Bool) → Call Dec

/-- xz_compressor.hxx:51-52 -/
def xzBuffer : Nat := 262144

/-- xz_compressor.hxx:63-80, the loop of `compress` -/
def xzEncodeLoop (X : Xz) : Nat → X.Enc → Bytes → (finish : Bool) → Bytes → Res Bytes
  | 0, _, _, _, _ => .ub
  | fuel + 1, s, inp, finish, dataOut =>
    let c := X.encode s inp xzBuffer finish
    if c.out.length > xzBuffer then .ub
    else
      let dataOut := dataOut ++ c.out
      let inp := inp.drop c.used
      match c.ret with
      | .ok => xzEncodeLoop X fuel c.next inp (finish || inp.isEmpty) dataOut
      | .streamEnd => .ok dataOut
      | .other => .throw .runtimeError

/-- xz_compressor.hxx:32-88 `compress` -/
def xzCompress (X : Xz) (fuel : Bytes → Nat) (level : Int) (x : Bytes) : Res Bytes :=
  match X.encoder level with
  | none => .throw .runtimeError
  | some s => xzEncodeLoop X (fuel x) s x false []

/-- xz_compressor.hxx:107-123, the loop of `decompress` -/
def xzDecodeLoop (X : Xz) (size cap : Nat) : Nat → X.Dec → Bytes → (finish : Bool) → (total : Nat) → Bytes → Res Bytes
  | 0, _, _, _, _, _ => .ub
  | fuel + 1, s, inp, finish, total, buf =>
    let pos := total / size * size
    if pos > cap then .ub
    else
      let c := X.decode s inp (cap - pos) finish
      if pos + c.out.length > cap then .ub
      else
        let buf := writeAt buf pos c.out
        let inp := inp.drop c.used
        match c.ret with
        | .ok => xzDecodeLoop X size cap fuel c.next inp (finish || inp.isEmpty) (total + c.out.length) buf
        | .streamEnd => .ok buf
        | .other => .throw .runtimeError

/-- xz_compressor.hxx:91-131 `decompress` -/
def xzDecompress (X : Xz) (size : Nat) (fuel : Bytes → Nat → Nat) (y : Bytes) (cap : Nat) : Res Bytes :=
  match X.decoder with
  | none => .throw .runtimeError
  | some s => xzDecodeLoop X size cap (fuel y cap) s y false 0 []

/-! ## zstd -/

/-- zstd: `none` is an error -/
structure Zstd where
  compressBound : Nat → Nat
  compress : (level : Int) → Bytes → (room : Nat) → Option Bytes
  decompress : Bytes → (room : Nat) → Option Bytes

/-- zstd_compressor.hxx:26-42 `compress` -/
def zstdCompress (Z : Zstd) (level : Int) (x : Bytes) : Res Bytes :=
  let outSize := Z.compressBound x.length
  match Z.compress level x outSize with
  | none => .throw .runtimeError
  | some y => if y.length > outSize then .ub else .ok y

/-- zstd_compressor.hxx:44-53 `decompress` -/
def zstdDecompress (Z : Zstd) (y : Bytes) (cap : Nat) : Res Bytes :=
  match Z.decompress y cap with
  | none => .throw .runtimeError
  | some x => if x.length > cap then .ub else .ok x

/-! ## blosc -/

/-- `blosc_compress_ctx`, `blosc_decompress_ctx`.  The latter is not told the size of its input: `reads` is how many
    bytes of it are read. -/
structure Blosc where
  compress : (codec : String) → (level shuffle : Int) → (typesize : Nat) → (blocksize nthreads : Int) → Bytes →
    (room : Nat) → Int × Bytes
  decompress : Bytes → (room : Nat) → (nthreads : Int) → Int × Bytes
  reads : Bytes → (room : Nat) → (nthreads : Int) → Nat

/-- `BLOSC_MAX_OVERHEAD` -/
def bloscOverhead : Nat := 16

/-- blosc_compressor.hxx:24-48 `compress` -/
def bloscCompress (B : Blosc) (size : Nat) (codec : String) (level shuffle blocksize nthreads : Int) (x : Bytes) :
    Res Bytes :=
  let sizeOut := x.length + bloscOverhead
  let r := B.compress codec level shuffle size blocksize nthreads x sizeOut
  if r.2.length > sizeOut then .ub
  else if r.1 ≤ 0 then .throw .runtimeError
  else .ok ((writeAt (List.replicate sizeOut 0) 0 r.2).take r.1.toNat)

/-- blosc_compressor.hxx:50-63 `decompress` -/
def bloscDecompress (B : Blosc) (nthreads : Int) (y : Bytes) (cap : Nat) : Res Bytes :=
  let r := B.decompress y cap nthreads
  if B.reads y cap nthreads > y.length then .ub
  else if r.2.length > cap then .ub
  else if r.1 ≤ 0 then .throw .runtimeError
  else .ok r.2

/-! ## All of them -/

/-- The libraries z5 is built with; `libdeflate` is used in place of zlib if it is there (CMakeLists.txt:62-65). -/
structure Libraries where
  zlib : Zlib
  libdeflate : Option LibDeflate
  bzip2 : Bzip2
  lz4 : Lz4
  xz : Xz
  zstd : Zstd
  blosc : Blosc

/-- Bounds for the loops, and what a reading object has of its own settings: the wrapper libdeflate tries first and
    the number of threads of blosc.  The theorems hold for all of them. -/
structure Reader where
  zlibFuel : Nat
  encodeFuel : Int → Bytes → Nat
  decodeFuel : Bytes → Nat → Nat
  useZlib : Bool
  nthreads : Int

/-- dataset.hxx:187-216 with the classes in `compression/` -/
def Libraries.libs (W : Libraries) (R : Reader) : Libs where
  compress
    | _, .raw, _ => .throw .runtimeError
    | size, .blosc codec level shuffle blocksize nthreads, x =>
      bloscCompress W.blosc size codec level shuffle blocksize nthreads x
    | _, .zlib level useZlib, x => match W.libdeflate with
      | some D => libdeflateCompress D level useZlib x
      | none => zlibCompress W.zlib level useZlib x
    | size, .bzip2 level, x => bzip2Compress W.bzip2 size level x
    | _, .lz4 _, x => lz4Compress W.lz4 x
    | _, .xz level, x => xzCompress W.xz (R.encodeFuel level) level x
    | _, .zstd level, x => zstdCompress W.zstd level x
  decompress
    | _, .raw, _, _ => .throw .runtimeError
    | _, .blosc, y, cap => bloscDecompress W.blosc R.nthreads y cap
    | size, .zlib, y, cap => match W.libdeflate with
      | some D => libdeflateDecompress D R.useZlib y cap
      | none => zlibDecompress W.zlib size R.zlibFuel y cap
    | _, .bzip2, y, cap => bzip2Decompress W.bzip2 y cap
    | _, .lz4, y, cap => lz4Decompress W.lz4 y cap
    | size, .xz, y, cap => xzDecompress W.xz size R.decodeFuel y cap
    | _, .zstd, y, cap => zstdDecompress W.zstd y cap

end Z5.Compression
