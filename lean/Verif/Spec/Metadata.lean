import Verif.Model.Metadata

/-!
# Vocabulary for the metadata theorems (C26, C27, C28, C48)
-/

namespace Z5

/-- An option of the C++ type `int` fits that type. -/
def OptVal.Typed : OptVal → Prop
  | .int i => -2 ^ 31 ≤ i ∧ i < 2 ^ 31
  | _ => True

/-- The values of a record fit their C++ types, and shape and chunk shape have the same number of axes
    (the constructor checks that). -/
structure Meta.Typed (m : Meta) : Prop where
  axes : m.shape.length = m.chunkShape.length
  shape : ∀ n ∈ m.shape, n < 2 ^ 64
  chunks : ∀ n ∈ m.chunkShape, n < 2 ^ 64
  shards : ∀ n ∈ m.shardShape, n < 2 ^ 64
  options : ∀ k v, assocGet m.options k = some v → v.Typed
  fill : m.fillValue.Representable

/-- What the compressor of a dataset with these metadata is set to; the number of threads that blosc may
    use is left out (it does not influence the data). -/
def Meta.settings (m : Meta) : Res Settings :=
  initCompressor m.compressor (assocErase m.options "nthreads")

/-- What a zarr v3 document can say about compressor settings: gzip but not zlib encoding, and the three
    shuffle modes of blosc. -/
def Settings.asV3 : Settings → Settings
  | .zlib l _ => .zlib l false
  | .blosc c l s b n => .blosc c l (if s = 0 then 0 else if s = 2 then 2 else 1) b n
  | s => s

/-- The number of threads blosc uses. -/
def Meta.threads (m : Meta) : Option OptVal := assocGet m.options "nthreads"

/-- The name of a data type in the zarr v2 and numpy convention: byte order (`|` if irrelevant, `<` little
    endian), kind, number of bytes. -/
def zarrTypeName : Datatype → String
  | .int8 => "|i1" | .int16 => "<i2" | .int32 => "<i4" | .int64 => "<i8"
  | .uint8 => "|u1" | .uint16 => "<u2" | .uint32 => "<u4" | .uint64 => "<u8"
  | .float32 => "<f4" | .float64 => "<f8"
  | .complex64 => "<c8" | .complex128 => "<c16" | .complex256 => "<c32"

/-- The name of a data type in N5 and zarr v3; complex types have none. -/
def plainTypeName : Datatype → Option String
  | .int8 => some "int8" | .int16 => some "int16" | .int32 => some "int32" | .int64 => some "int64"
  | .uint8 => some "uint8" | .uint16 => some "uint16" | .uint32 => some "uint32"
  | .uint64 => some "uint64"
  | .float32 => some "float32" | .float64 => some "float64"
  | _ => none

/-- A JSON document that is an array of these numbers. -/
def Json.IsShape (j : Option Json) (s : List Nat) : Prop :=
  j = some (.arr (s.map fun (n : Nat) => .int (n : Int)))

/-- The value of a JSON document at a path of keys. -/
def Json.path (j : Json) : List String → Option Json
  | [] => some j
  | k :: ks => match j.find k with
    | some v => v.path ks
    | none => none

end Z5
