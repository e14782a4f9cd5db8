import Verif.Model.Elem
import Verif.Model.Handle
import Verif.Model.Blocking

/-!
# Model of `util/format_data.hxx` (chunk encoding) and of the N5 header readers of
`filesystem/store.hxx`

Shapes are `std::vector<std::size_t>`.  The number of dimensions is below 2^29 (a vector of
dimensions that large is not constructible through the API), so `(ndim + 1) * 4` does not wrap.
-/

namespace Z5

/-- util/format_data.hxx:10-19 `compress`: the first `dataSize` elements of `dataIn`. -/
def compress (E : Elem) (C : Codec) (dataIn : List E.T) (dataSize : Nat) : Res Bytes :=
  if dataIn.length < dataSize then .ub
  else
    match C with
    | .raw => .ok (encodeList E (dataIn.take dataSize))
    | .lib c _ => c (encodeList E (dataIn.take dataSize))

/-- big-endian bytes: the memory bytes of a `k`-byte unsigned integer after
    `reverseEndiannessInplace` (util/util.hxx:86-96); conversion to the `k`-byte type truncates. -/
def beBytes (k n : Nat) : Bytes := reverseBytes (leBytes k n)

/-- value of a `k`-byte unsigned integer read from memory and byte-swapped -/
def beNat (b : Bytes) : Nat := leNat (reverseBytes b)

/-- util/format_data.hxx:22-62 `write_n5_header`. -/
def writeN5Header (shape : List Nat) (isVarlen : Bool) (varlen : Nat) : Bytes :=
  beBytes 2 (if isVarlen then 1 else 0) ++ beBytes 2 shape.length ++
    (shape.map (beBytes 4)).reverse.flatten ++
    (if isVarlen then beBytes 4 varlen else [])

/-- util/format_data.hxx:66-91 `data_to_n5_format`. -/
def dataToN5Format (E : Elem) (C : Codec) (dataIn : List E.T) (dataSize : Nat) (shape : List Nat)
    (isVarlen : Bool) : Res Bytes := do
  let header := writeN5Header shape isVarlen dataSize
  let data ← if E.size > 1 then
      (if dataIn.length < dataSize then .ub else .ok ((dataIn.take dataSize).map (revElem E)))
    else .ok dataIn
  let compressed ← compress E C data dataSize
  return header ++ compressed

/-- What `data_to_buffer` and `buffer_to_data` use of a chunk handle (handle.hxx:138-186). -/
structure ChunkShapes where
  isZarr : Bool
  defaultShape : List Nat
  boundedShape : List Nat
  deriving DecidableEq, Repr

/-- util/format_data.hxx:95-138 `data_to_buffer`; `none`: returns `false`, nothing to write. -/
def dataToBuffer (E : Elem) (C : Codec) (h : ChunkShapes) (dataIn : List E.T) (fill : E.T)
    (isVarlen : Bool) (varSize : Nat) : Res (Option Bytes) :=
  if isVarlen && h.isZarr then .throw .runtimeError
  else
    let chunkSize := if h.isZarr then accumulateMul h.defaultShape else accumulateMul h.boundedShape
    let dataSize := if isVarlen then varSize else chunkSize
    let chunkShape := if h.isZarr then h.defaultShape else h.boundedShape
    let encode : Res (Option Bytes) :=
      if h.isZarr then do
        let b ← compress E C dataIn dataSize
        return some b
      else do
        let b ← dataToN5Format E C dataIn dataSize chunkShape isVarlen
        return some b
    if !isVarlen then
      if dataIn.length < chunkSize then .ub
      else if (dataIn.take chunkSize).all fun v => E.ceq v fill then .ok none
      else encode
    else if varSize = 0 then .ok none
    else encode

/-- util/format_data.hxx:142-156 `decompress`: writes to the start of `dest`. -/
def decompress (E : Elem) (C : Codec) (buffer : Bytes) (dest : List E.T) (dataSize : Nat) :
    Res (List E.T) :=
  match C with
  | .raw =>
    if buffer.length > wmul dataSize E.size then .throw .runtimeError
    else if buffer.length > dest.length * E.size then .ub
    else .ok (overlay E dest buffer)
  | .lib _ d => do
    let out ← d buffer (wmul dataSize E.size)
    if out.length > dest.length * E.size then .ub else .ok (overlay E dest out)

/-- util/format_data.hxx:196-199: the shape entries of the header, in file order. -/
def readShapeLoop (buffer : Bytes) : Nat → Nat → Res (List Nat)
  | _, 0 => .ok []
  | d, n + 1 => do
    let b ← slice buffer ((d + 1) * 4) 4
    let rest ← readShapeLoop buffer (d + 1) n
    return beNat b :: rest

/-- util/format_data.hxx:170-221 `read_n5_header`: varlen flag, number of elements, header length. -/
def readN5Header (buffer : Bytes) : Res (Bool × Nat × Nat) :=
  if buffer.length < 4 then .throw .runtimeError
  else do
    let mode ← slice buffer 0 2
    let nd ← slice buffer 2 2
    let ndim := beNat nd
    let isVarlen := beNat mode = 1
    let fullHeaderLen := (ndim + 1) * 4 + (if isVarlen then 4 else 0)
    if buffer.length < fullHeaderLen then .throw .runtimeError
    else do
      let fileShape ← readShapeLoop buffer 0 ndim
      let shape := fileShape.reverse
      let headerlen := (ndim + 1) * 4
      if isVarlen then do
        let v ← slice buffer headerlen 4
        return (true, beNat v, headerlen + 4)
      else return (false, accumulateMul shape, headerlen)

/-- util/format_data.hxx:225-249 `buffer_to_data`: the varlen flag and the new content of the output
    buffer. -/
def bufferToData (E : Elem) (C : Codec) (h : ChunkShapes) (buffer : Bytes) (dataOut : List E.T) :
    Res (Bool × List E.T) := do
  let (isVarlen, chunkSize, headerLen) ←
    if h.isZarr then .ok (false, accumulateMul h.defaultShape, 0) else readN5Header buffer
  let out ← decompress E C (buffer.drop headerLen) dataOut chunkSize
  if !h.isZarr && decide (E.size > 1) then do
    let out ← revPrefix E chunkSize out
    return (isVarlen, out)
  else return (isVarlen, out)

/-- filesystem/store.hxx:97-125 `readVarlenFromHeader`, on the content of the chunk file; `none`: not
    varlen.  Reading past the end of the file leaves the variable uninitialised (`ub`). -/
def readVarlenFromHeader (file : Bytes) : Res (Option Nat) := do
  let mode ← slice file 0 2
  if beNat mode = 0 then return none
  else do
    let nd ← slice file 2 2
    let v ← slice file ((beNat nd + 1) * 4) 4
    return some (beNat v)

/-- filesystem/store.hxx:128-154 `readShapeFromHeader`, on the content of the chunk file.  The shape
    vector is zero-initialised, so bytes past the end of the file read as zero. -/
def readShapeFromHeader (file : Bytes) : Res (List Nat) := do
  let nd ← slice file 2 2
  let ndim := beNat nd
  let entry := fun d =>
    let b := (file.drop ((d + 1) * 4)).take 4
    beNat (b ++ List.replicate (4 - b.length) 0)
  return ((List.range ndim).map entry).reverse

end Z5
