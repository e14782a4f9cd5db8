import Verif.Proofs.Compressors
import Verif.Spec.Persist
import Verif.Props.ChunkApi

/-!
# C68: the compressor classes

The libraries are any that satisfy `Libraries.Contract` (`Spec/Compressors.lean`).
-/

namespace Z5.Props

open Spec Compression

variable {W : Libraries} {A : Settings → Prop} {R R' : Reader} {s : Settings}

/-- **C68.** What `compress` made of a chunk, `decompress` turns back into the chunk, whatever the settings of the object
that reads (`R'`), with a buffer of the size of the chunk. -/
theorem c68_roundtrip (K : W.Contract A) (hR : R.Fits K) (hR' : R'.Fits K) {size : Nat} {x y : Bytes} (hne : x ≠ [])
    (hx : x.length ≤ W.limit s) (hc : (W.libs R).compress size s x = .ok y) :
    y ≠ [] ∧ (W.libs R').decompress size s.compressor y x.length = .ok x := by
  cases s with
  | raw => cases hc
  | blosc c l sh b t => exact blosc_lawful K.blosc hR'.nthreads hne hc
  | zlib l u =>
    simp only [Libraries.libs, Settings.compressor, Libraries.limit] at hc hx ⊢
    cases hd : W.libdeflate with
    | some D =>
      simp only [hd] at hc ⊢
      exact libdeflate_lawful (K.libdeflate D hd) hc
    | none =>
      simp only [hd, Option.isSome_none, Bool.false_eq_true, if_false] at hc hx ⊢
      exact zlib_lawful K.zlib hR'.zlib (by omega) hc
  | bzip2 l =>
    simp only [Libraries.limit] at hx
    exact bzip2_lawful K.bzip2 (by omega) hc
  | lz4 l => exact lz4_lawful K.lz4 hne hc
  | xz l => exact xz_lawful K.xz (fun s x h => hR.encode l s x h) (fun s y cap h => hR'.decode s y cap h) hc
  | zstd l => exact zstd_lawful K.zstd hc

/-- **C68, no undefined behaviour.** -/
theorem c68_compress_defined (K : W.Contract A) (hR : R.Fits K) (size : Nat) (s : Settings) (x : Bytes) :
    (W.libs R).compress size s x ≠ .ub := by
  cases s with
  | raw => exact fun h => by cases h
  | blosc c l sh b t => exact blosc_no_ub K.blosc _ _ _ _ _ _ _
  | zlib l u =>
    simp only [Libraries.libs]
    cases hd : W.libdeflate with
    | some D => exact libdeflate_no_ub (K.libdeflate D hd) _ _ _
    | none => exact zlib_no_ub K.zlib _ _ _
  | bzip2 l => exact bzip2_no_ub K.bzip2 _ _ _
  | lz4 l => exact lz4_no_ub K.lz4 _
  | xz l => exact xz_no_ub K.xz (fun s x h => hR.encode l s x h) x
  | zstd l => exact zstd_no_ub K.zstd _ _

/-- **C68.** So every compressor meets what the other theorems ask of a compressor, for chunks up to its limit. -/
theorem c68_lawful (K : W.Contract A) (hR : R.Fits K) (size : Nat) (s : Settings) :
    ((W.libs R).codec size s).LawfulFor (W.limit s) := by
  unfold Libs.codec
  split
  · trivial
  · exact ⟨fun x y h1 h2 h3 => (c68_roundtrip K hR hR h1 h2 h3).2, fun x y h1 h2 h3 => (c68_roundtrip K hR hR h1 h2 h3).1,
      fun x _ _ => c68_compress_defined K hR size s x⟩

theorem limit_ge (W : Libraries) (s : Settings) : 2 ^ 32 - 1 ≤ W.limit s := by
  unfold Libraries.limit
  split
  · split <;> omega
  · omega
  · omega

/-- **C68.** Together they meet it for chunks below 4 GiB. -/
theorem c68_all_lawful (K : W.Contract A) (hR : R.Fits K) : (W.libs R).Lawful :=
  fun size s => (c68_lawful K hR size s).mono (limit_ge W s)

/-- **C68, arbitrary data.** Whatever the file contains, `decompress` stays within its buffers, except for blosc. -/
theorem c68_safe (K : W.Contract A) (hR : R.Fits K) (size : Nat) (hs : s.compressor ≠ .blosc) :
    ((W.libs R).codec size s).SafeFor size := by
  have hd : s ≠ .raw → ∀ y n, (W.libs R).decompress size s.compressor y (n * size) ≠ .ub ∧
      ∀ x, (W.libs R).decompress size s.compressor y (n * size) = .ok x → x.length ≤ n * size := by
    intro hr y n
    cases s with
    | raw => exact absurd rfl hr
    | blosc c l sh b t => exact absurd rfl hs
    | zlib l u =>
      simp only [Libraries.libs, Settings.compressor]
      cases hd : W.libdeflate with
      | some D => exact libdeflate_safe (K.libdeflate D hd) ..
      | none => exact zlib_safe K.zlib size hR.zlib y _
    | bzip2 l => exact bzip2_safe K.bzip2 ..
    | lz4 l => exact lz4_safe K.lz4 ..
    | xz l => exact xz_safe K.xz size (fun s y cap h => hR.decode s y cap h) y n
    | zstd l => exact zstd_safe K.zstd ..
  unfold Libs.codec
  split
  · trivial
  · next hr => exact ⟨fun y n x h => (hd hr y n).2 x h, fun y n => (hd hr y n).1⟩

/-- **C68, success.** With settings the library accepts, chunks of up to 1 GiB are compressed without an error; for bzip2
if the buffer has the size that its documentation asks for. -/
theorem c68_total (K : W.Contract A) (hR : R.Fits K) (size : Nat) (ha : W.Accepts A s)
    (hb : s.compressor = .bzip2 → ∀ n ≤ 2 ^ 30, W.bzip2.outSize size n < 2 ^ 32 ∧ 101 * n + 60000 ≤ 100 * W.bzip2.outSize size n) :
    ((W.libs R).codec size s).TotalFor (2 ^ 30) := by
  unfold Libs.codec
  split
  · trivial
  · next hr =>
    intro x _ hx
    cases s with
    | raw => exact absurd rfl hr
    | blosc c l sh b t => exact blosc_total K.blosc size ha (by omega)
    | zlib l u =>
      simp only [Libraries.libs, Libraries.Accepts] at ha ⊢
      cases hd : W.libdeflate with
      | some D => exact libdeflate_total (K.libdeflate D hd) ..
      | none =>
        rw [hd] at ha
        exact zlib_total K.zlib (ha.resolve_left (by simp)) hx
    | bzip2 l => exact bzip2_total K.bzip2 ha (by omega) (hb rfl _ hx).1 (hb rfl _ hx).2
    | lz4 l => exact lz4_total K.lz4 (Nat.le_trans hx (by decide))
    | xz l => exact xz_total K.xz ha (fun s x h => hR.encode l s x h) x
    | zstd l => exact zstd_total K.zstd ..

/-- **C68, chunks that are too large for the library.** More than `LZ4_MAX_INPUT_SIZE` bytes with lz4, and more than
2^31 - 17 bytes with blosc, are refused. -/
theorem c68_too_large (K : W.Contract A) (size : Nat) (x : Bytes) :
    (lz4MaxInput < x.length → ∀ l, (W.libs R).compress size (.lz4 l) x = .throw .runtimeError) ∧
    (2 ^ 31 - 1 - 16 < x.length → ∀ c l sh b t, (W.libs R).compress size (.blosc c l sh b t) x = .throw .runtimeError) := by
  refine ⟨fun h l => ?_, fun h c l sh b t => ?_⟩
  · simp only [Libraries.libs, lz4Compress]
    rw [if_pos h]
  · simp only [Libraries.libs, bloscCompress]
    have h1 := K.blosc.room c l sh size b t x (x.length + bloscOverhead)
    have h2 := K.blosc.limit c l sh size b t x (x.length + bloscOverhead) h
    rw [if_neg (by omega), if_pos h2]

/-! ### What does not hold -/

/-- A chunk of exactly 4 GiB: zlib is told that there are 0 bytes.  `compress` and `decompress` succeed, and the data are
lost.  (`deflateBound` of zlib meets the hypothesis.  Not with libdeflate, which is the default.) -/
theorem c68_zlib_4GiB_counterexample {Z : Zlib} (K : Z.Contract) {l : Int} {u : Bool} (hi : Z.deflateInit l u = true)
    (hb : Z.deflateBound l u 0 ≤ uInt (Z.deflateBound l u (2 ^ 32))) {size fuel : Nat} (hf : 0 < fuel) {x : Bytes}
    (hx : x.length = 2 ^ 32) :
    ∃ y, zlibCompress Z l u x = .ok y ∧ zlibDecompress Z size fuel y x.length = .ok [] := by
  have h0 : uInt (2 ^ 32) = 0 := by decide
  have hend := K.enough l u [] _ hi hb
  have hroom := K.room l u [] (uInt (Z.deflateBound l u (2 ^ 32)))
  have hle := uInt_le (Z.deflateBound l u (2 ^ 32))
  have hlt := uInt_lt (Z.deflateBound l u (2 ^ 32))
  refine ⟨(Z.deflate l u [] (uInt (Z.deflateBound l u (2 ^ 32)))).2, ?_, ?_⟩
  · unfold zlibCompress
    rw [hx, h0, hi, if_neg (by decide), List.take_zero]
    simp only
    rw [if_neg (by omega), if_neg (fun h => h hend)]
  · unfold zlibDecompress
    rw [take_uInt (by omega), hx]
    cases hs : Z.inflateInit with
    | none => exact absurd hs K.started
    | some s =>
      obtain ⟨h1, h2⟩ := K.decodes l u [] _ s 0 hend hs (Nat.le_refl _)
      cases fuel with
      | zero => omega
      | succ fuel =>
        unfold zlibLoop
        simp only [Nat.zero_div, Nat.zero_mul, Nat.sub_zero, h0, h1, h2, Nat.zero_add, List.length_nil]
        rw [if_neg (by omega), if_neg (by omega), writeAt_zero, List.length_nil, List.drop_nil, List.append_nil]

/-- The same with bzip2. -/
theorem c68_bzip2_4GiB_counterexample {B : Bzip2} (K : B.Contract) {l : Int} (hi : B.compressInit l = true) {size : Nat}
    (hb : 600 ≤ uInt (B.outSize size (2 ^ 32))) {x : Bytes} (hx : x.length = 2 ^ 32) :
    ∃ y, bzip2Compress B size l x = .ok y ∧ bzip2Decompress B y x.length = .ok [] := by
  have h0 : uInt (2 ^ 32) = 0 := by decide
  have hend := K.enough l [] (uInt (B.outSize size (2 ^ 32))) hi (by rw [List.length_nil]; omega)
  have hroom := K.room l [] (uInt (B.outSize size (2 ^ 32)))
  have hle := uInt_le (B.outSize size (2 ^ 32))
  have hlt := uInt_lt (B.outSize size (2 ^ 32))
  have hdec := K.decodes l [] _ 0 hend (Nat.le_refl _)
  unfold bzip2Compress
  rw [hx, h0, hi, if_neg (by decide), List.take_zero]
  simp only
  generalize B.outSize size (2 ^ 32) = m at *
  rw [if_neg (by omega), if_neg (fun h => h hend)]
  refine ⟨_, rfl, ?_⟩
  unfold bzip2Decompress
  rw [K.started, if_neg (by decide), h0]
  have hlen : uInt ((Compression.writeAt (List.replicate m 0) 0 (B.compress l [] (uInt m)).2).take
      (m - (uInt m - (B.compress l [] (uInt m)).2.length))).length = (B.compress l [] (uInt m)).2.length := by
    rw [List.length_take, length_writeAt, List.length_replicate]
    have : min (m - (uInt m - (B.compress l [] (uInt m)).2.length)) (max m (0 + (B.compress l [] (uInt m)).2.length)) =
        (B.compress l [] (uInt m)).2.length + 2 ^ 32 * (m / 2 ^ 32) := by
      unfold uInt at *
      omega
    rw [this]
    unfold uInt at *
    rw [Nat.add_mul_mod_self_left, Nat.mod_eq_of_lt (by omega)]
  simp only
  rw [hlen, List.take_take, Nat.min_eq_left (by omega), take_writeAt_zero, hdec]
  rw [if_neg (by simp), if_neg (by simp)]

/-- blosc is not told how long its input is: data of less than 16 bytes are read beyond their end. -/
theorem c68_blosc_short_input_counterexample {B : Blosc} (K : B.Contract A) (t : Int) {y : Bytes} (hy : y.length < 16)
    (cap : Nat) : bloscDecompress B t y cap = .ub := by
  unfold bloscDecompress
  have := K.header y cap t
  simp only
  rw [if_pos (by omega)]

/-- A chunk that decodes to fewer bytes than a chunk has is not noticed; the rest of the buffer is as it was. -/
theorem c68_short_data_counterexample {Z : Zstd} (K : Z.Contract) {l : Int} {x y : Bytes}
    (hc : zstdCompress Z l x = .ok y) {cap : Nat} (h : x.length < cap) : zstdDecompress Z y cap = .ok x := by
  unfold zstdCompress at hc
  simp only at hc
  cases hy : Z.compress l x (Z.compressBound x.length) with
  | none => rw [hy] at hc; cases hc
  | some r =>
    simp only [hy] at hc
    split at hc
    · cases hc
    · cases hc
      unfold zstdDecompress
      rw [K.decodes l x _ _ cap hy (Nat.le_of_lt h)]
      simp only
      rw [if_neg (by omega)]

/-! ### Libraries that meet the contracts: a header, then the data as they are -/

def exZlib : Zlib where
  deflateInit _ _ := true
  deflateBound _ _ n := n + 1
  deflate _ _ x n := if x.length + 1 ≤ n then (.streamEnd, 7 :: x) else (.ok, [])
  S := Unit
  inflateInit := some ()
  inflate _ y n := match y with
    | _ :: x => if x.length ≤ n then ⟨.streamEnd, x, y.length, ()⟩ else ⟨.other, [], 0, ()⟩
    | [] => ⟨.other, [], 0, ()⟩

theorem exZlib_contract : exZlib.Contract where
  room l u x n := by
    simp only [exZlib]
    split <;> simp_all
  enough l u x n _ h := by
    simp only [exZlib] at h ⊢
    rw [if_pos h]
  bound l u n := by simp only [exZlib]; omega
  nonempty l u x n := by
    simp only [exZlib]
    split <;> simp
  decodes l u x n s m := by
    simp only [exZlib]
    split
    · intro _ _ h
      simp [h]
    · intro h; cases h
  started := by simp [exZlib]
  inflateRoom s y n := by
    simp only [exZlib]
    cases y with
    | nil => simp
    | cons b y =>
      simp only
      split <;> simp_all
  finish s y n := by
    simp only [exZlib]
    cases y with
    | nil => simp
    | cons b y =>
      simp only
      split <;> simp

def exLibDeflate : LibDeflate where
  alloc _ := true
  bound _ _ n := n + 1
  compress u _ x n := if x.length + 1 ≤ n then (if u then 1 else 2) :: x else []
  decompress w y n := match y with
    | b :: x => if b = (if w then 1 else 2) ∧ x.length ≤ n then (true, x) else (false, [])
    | [] => (false, [])

theorem exLibDeflate_contract : exLibDeflate.Contract where
  alloc _ _ _ := rfl
  room u l x n := by
    simp only [exLibDeflate]
    split <;> simp_all
  enough u l x n h := by
    simp only [exLibDeflate] at h ⊢
    rw [if_pos h]
    simp
  decodes u l x n m := by
    simp only [exLibDeflate]
    split
    · intro _ h
      simp [h]
    · intro h; exact absurd rfl h
  other u l x n m := by
    simp only [exLibDeflate]
    split
    · intro _
      cases u <;> simp
    · intro h; exact absurd rfl h
  decompressRoom w y n := by
    simp only [exLibDeflate]
    cases y with
    | nil => simp
    | cons b y =>
      simp only
      by_cases h : b = (if w then 1 else 2) ∧ y.length ≤ n
      · rw [if_pos h]; exact h.2
      · rw [if_neg h]; simp

/-- needs exactly the room that the documentation of bzip2 asks for -/
def exBzip2 : Bzip2 where
  compressInit _ := true
  compress _ x n := if 101 * x.length + 60000 ≤ 100 * n then (.streamEnd, 7 :: x) else (.ok, [])
  decompressInit := true
  decompress y n := match y with
    | _ :: x => if x.length ≤ n then (.streamEnd, x) else (.other, [])
    | [] => (.other, [])
  percent n := n / 100

theorem exBzip2_contract : exBzip2.Contract where
  room l x n := by
    simp only [exBzip2]
    split
    · simp only [List.length_cons]; omega
    · simp
  enough l x n _ h := by
    simp only [exBzip2]
    rw [if_pos h]
  nonempty l x n := by
    simp only [exBzip2]
    split <;> simp
  decodes l x n m := by
    simp only [exBzip2]
    split
    · intro _ h
      simp [h]
    · intro h; cases h
  started := rfl
  decompressRoom y n := by
    simp only [exBzip2]
    cases y with
    | nil => simp
    | cons b y =>
      simp only
      split <;> simp_all

theorem exBzip2_fails {x : Bytes} (hx : x.length = 792) : bzip2Compress exBzip2 8 9 x = .throw .runtimeError := by
  have hc : exBzip2.compress 9 x 1392 = (.ok, []) := by
    simp only [exBzip2]
    rw [if_neg (by omega)]
  have hs : exBzip2.outSize 8 x.length = 1392 := by rw [hx]; rfl
  unfold bzip2Compress
  rw [take_uInt (by omega), hs]
  simp only [show uInt 1392 = 1392 from rfl, hc]
  rfl

/-- bzip2: the output buffer of z5 has `sizeof(T)` times 1% of the *number of elements*, rounded down, not 1% of the number of
bytes: with 99 elements of 8 bytes there are 7 bytes less than the documentation of bzip2 asks for, and `compress` may fail. -/
theorem c68_bzip2_buffer_counterexample : ∃ B : Bzip2, B.Contract ∧ (∀ n, B.percent n = n / 100) ∧ B.compressInit 9 = true ∧
    B.outSize 8 (99 * 8) = 99 * 8 + 600 ∧ bzip2Compress B 8 9 (List.replicate (99 * 8) 0) = .throw .runtimeError :=
  ⟨exBzip2, exBzip2_contract, fun _ => rfl, rfl, rfl, exBzip2_fails List.length_replicate⟩

def exLz4 : Lz4 where
  compressBound n := n + 1
  compress x n := if x.length + 1 ≤ n then ((x.length + 1 : Nat), 7 :: x) else (0, [])
  decompress y _ m := match y with
    | _ :: x => if x.length ≤ m.toNat then ((x.length : Nat), x) else (-1, [])
    | [] => (-1, [])

theorem exLz4_contract : exLz4.Contract where
  room x n := by
    simp only [exLz4]
    split <;> simp_all
  size x n := by
    simp only [exLz4]
    split <;> simp
  enough x n _ h := by
    simp only [exLz4] at h ⊢
    rw [if_pos h]
    simp only
    omega
  bound n h := by
    simp only [exLz4]
    exact Nat.lt_of_le_of_lt (Nat.succ_le_succ h) (by decide)
  decodes x n m := by
    simp only [exLz4]
    split
    · intro _ h _
      simp only
      rw [if_pos (by omega)]
    · intro h; simp at h
  decompressRoom y k m := by
    simp only [exLz4]
    cases y with
    | nil => simp
    | cons b y =>
      simp only
      split <;> simp_all

/-- the encoder keeps what is not written yet; the decoder knows whether the header was read -/
@[reducible] def exXz : Xz where
  Enc := Bytes
  Dec := Bool
  encoder _ := some [7]
  encode q inp n f :=
    if f then
      if (q ++ inp).length ≤ n then ⟨.streamEnd, q ++ inp, inp.length, []⟩
      else ⟨.ok, (q ++ inp).take n, inp.length, (q ++ inp).drop n⟩
    else ⟨.ok, [], inp.length, q ++ inp⟩
  decoder := some false
  decode started y n _ :=
    let skip := if started then 0 else 1
    if y.length < skip then ⟨.other, [], 0, started⟩
    else if (y.drop skip).length ≤ n then ⟨.streamEnd, y.drop skip, y.length, true⟩
    else if n = 0 then ⟨.other, [], 0, started⟩
    else ⟨.ok, (y.drop skip).take n, skip + n, true⟩

def exXz_contract : exXz.Contract where
  Stream x y := y = 7 :: x
  made q x y := y ++ q = 7 :: x
  rest s y x := if s = true then y = x else y = 7 :: x
  encMeasure q inp f := if f then List.length (α := Byte) q + inp.length else List.length (α := Byte) q + inp.length + 1
  decMeasure _ y _ := y.length
  encRoom s inp n f := by
    simp only [exXz]
    split
    · split
      · assumption
      · simp only [List.length_take]; omega
    · simp
  encLess s inp n f hn := by
    simp only [exXz]
    cases f with
    | false => simp
    | true =>
      simp only [if_true]
      split
      · intro h; cases h
      · intro _
        simp only [List.drop_length, Bool.true_or, if_true, List.length_nil, List.length_drop, List.length_append] at *
        omega
  encStart l s h := by
    cases h
    rfl
  encOk s x y inp n f := by
    simp only [exXz]
    intro hm
    cases f with
    | false =>
      simp only [Bool.false_eq_true, if_false, List.append_nil, List.take_length]
      intro _
      rw [← List.append_assoc, hm]
      rfl
    | true =>
      simp only [if_true]
      split
      · intro h; cases h
      · intro _
        simp only [List.take_length, List.append_assoc, List.take_append_drop]
        rw [← List.append_assoc, hm]
        rfl
  encEnd s x y inp n f := by
    simp only [exXz]
    intro hm
    cases f with
    | false => intro h; cases h
    | true =>
      simp only [if_true]
      split
      · intro _
        refine ⟨trivial, ?_⟩
        simp only
        rw [← List.append_assoc, hm]
        rfl
      · intro h; cases h
  encNoError s x y inp n f _ _ := by
    simp only [exXz]
    split
    · split <;> simp
    · simp
  nonempty x y h := by rw [h]; simp
  started := by simp [exXz]
  decRoom s inp n f := by
    simp only [exXz]
    generalize (if s = true then 0 else 1) = skip
    split
    · simp
    · split
      · assumption
      · split
        · simp
        · simp only [List.length_take]; omega
  decLess s inp n f := by
    simp only [exXz]
    generalize (if s = true then 0 else 1) = skip
    split
    · intro h; cases h
    · split
      · intro h; cases h
      · split
        · intro h; cases h
        · intro _
          simp only [List.length_drop] at *
          omega
  decStart s x y h hs := by
    cases h
    simpa using hs
  decOut s y x n f h := by
    simp only [exXz]
    cases s with
    | true =>
      simp only [if_true] at h ⊢
      subst h
      simp only [Nat.not_lt_zero, if_false, List.drop_zero]
      split
      · rw [List.take_of_length_le (by assumption)]
      · split
        · next h => subst h; simp
        · rfl
    | false =>
      simp only [Bool.false_eq_true, if_false] at h ⊢
      subst h
      simp only [List.length_cons, List.drop_succ_cons, List.drop_zero]
      rw [if_neg (by omega)]
      split
      · rw [List.take_of_length_le (by assumption)]
      · split
        · next h => subst h; simp
        · rfl
  decOk s y x n f h := by
    simp only [exXz]
    cases s with
    | true =>
      simp only [if_true] at h ⊢
      subst h
      simp only [Nat.not_lt_zero, if_false, List.drop_zero]
      split
      · intro h; cases h
      · split
        · intro h; cases h
        · intro _; simp
    | false =>
      simp only [Bool.false_eq_true, if_false] at h ⊢
      subst h
      simp only [List.length_cons, List.drop_succ_cons, List.drop_zero]
      rw [if_neg (by omega)]
      split
      · intro h; cases h
      · split
        · intro h; cases h
        · intro _
          simp [Nat.add_comm 1 n]
  decEnd s y x n f h := by
    simp only [exXz]
    cases s with
    | true =>
      simp only [if_true] at h ⊢
      subst h
      simp only [Nat.not_lt_zero, if_false, List.drop_zero]
      split
      · intro _; assumption
      · split <;> (intro h; cases h)
    | false =>
      simp only [Bool.false_eq_true, if_false] at h ⊢
      subst h
      simp only [List.length_cons, List.drop_succ_cons, List.drop_zero]
      rw [if_neg (by omega)]
      split
      · intro _; assumption
      · split <;> (intro h; cases h)
  decNoError s y x n f h hn := by
    simp only [exXz]
    cases s with
    | true =>
      simp only [if_true] at h ⊢
      subst h
      simp [hn]
    | false =>
      simp only [Bool.false_eq_true, if_false] at h ⊢
      subst h
      simp [hn]

def exZstd : Zstd where
  compressBound n := n + 1
  compress _ x n := if x.length + 1 ≤ n then some (7 :: x) else none
  decompress y n := match y with
    | _ :: x => if x.length ≤ n then some x else none
    | [] => none

theorem exZstd_contract : exZstd.Contract where
  room l x n y h := by
    simp only [exZstd] at h
    split at h
    · cases h; simpa
    · cases h
  enough l x n h := by
    simp only [exZstd] at h ⊢
    rw [if_pos h]
    simp
  nonempty l x n := by
    simp only [exZstd]
    split <;> simp
  decodes l x n y m h hm := by
    simp only [exZstd] at h ⊢
    split at h
    · cases h
      simp [hm]
    · cases h
  decompressRoom y n x h := by
    simp only [exZstd] at h
    cases y with
    | nil => cases h
    | cons b y =>
      simp only at h
      split at h
      · cases h; assumption
      · cases h

def exBlosc : Blosc where
  compress _ _ _ _ _ _ x n :=
    if x.length + 16 ≤ n ∧ x.length ≤ 2 ^ 31 - 1 - 16 then ((x.length + 16 : Nat), List.replicate 16 7 ++ x) else (0, [])
  decompress y n _ := if (y.drop 16).length ≤ n then (((y.drop 16).length : Nat), y.drop 16) else (-1, [])
  reads _ _ _ := 16

theorem exBlosc_contract : exBlosc.Contract fun _ => True where
  room c l sh ty b t x n := by
    simp only [exBlosc]
    split
    · simp only [List.length_append, List.length_replicate]; omega
    · simp
  size c l sh ty b t x n := by
    simp only [exBlosc]
    split
    · simp; omega
    · simp
  enough c l sh ty b t x n _ h1 h2 := by
    simp only [exBlosc]
    rw [if_pos ⟨h2, h1⟩]
    simp only
    omega
  limit c l sh ty b t x n h := by
    simp only [exBlosc]
    rw [if_neg (by omega)]
    simp
  decodes c l sh ty b t x n m t' := by
    simp only [exBlosc]
    split
    · intro _ h _
      simp [h]
    · intro h; simp at h
  header _ _ _ := Nat.le_refl _
  decompressRoom y n t := by
    simp only [exBlosc]
    split
    · assumption
    · simp

def exLibraries (D : Option LibDeflate) : Libraries := ⟨exZlib, D, exBzip2, exLz4, exXz, exZstd, exBlosc⟩

def exLibraries_contract : (exLibraries (some exLibDeflate)).Contract fun _ => True :=
  ⟨exZlib_contract, fun D h => by cases h; exact exLibDeflate_contract, exBzip2_contract, exLz4_contract, exXz_contract,
    exZstd_contract, exBlosc_contract⟩

def exReader : Reader := ⟨1, fun _ x => x.length + 3, fun y _ => y.length + 1, false, 4⟩

theorem exReader_fits : exReader.Fits exLibraries_contract where
  zlib := by decide
  encode l s x h := by
    cases h
    simp [exLibraries_contract, exXz_contract, exReader]
    omega
  decode s y cap _ := by simp [exLibraries_contract, exXz_contract, exReader]
  nthreads := by decide

/-- the hypotheses of the theorems above are met -/
example : ((exLibraries (some exLibDeflate)).libs exReader).Lawful := c68_all_lawful exLibraries_contract exReader_fits

example : (((exLibraries (some exLibDeflate)).libs exReader).codec 8 (.xz 6)).SafeFor 8 :=
  c68_safe exLibraries_contract exReader_fits 8 (by decide)

example : (((exLibraries (some exLibDeflate)).libs exReader).codec 8 (.xz 6)).TotalFor (2 ^ 30) :=
  c68_total exLibraries_contract exReader_fits 8 (by simp [Libraries.Accepts, exLibraries, exXz]) (by simp [Settings.compressor])

/-- all compressors do something -/
example : ((exLibraries (some exLibDeflate)).libs exReader).compress 8 (.xz 6) [1, 2, 3] = .ok [7, 1, 2, 3] ∧
    ((exLibraries (some exLibDeflate)).libs exReader).decompress 8 .zlib [1, 5, 6] 2 = .ok [5, 6] ∧
    ((exLibraries none).libs exReader).decompress 8 .zlib [7, 5, 6] 2 = .ok [5, 6] := ⟨rfl, rfl, rfl⟩

/-- reading the contents of any file, for a dataset whose chunks are compressed with xz -/
example {E : Elem} {ds : Dataset E} (h : ds.WF) (hs : ds.codec = ((exLibraries (some exLibDeflate)).libs exReader).codec E.size (.xz 6)) {off : List Nat}
    {out : View} {outBuf : List E.T} (hr : RegionOk ds.shape off out.shape) (hfit : FitsIn out outBuf.length)
    (scratch : Nat → List E.T) : ∃ ts, ds.readSubarray out off scratch = .ok ts := by
  obtain ⟨ts, h1, _⟩ := c23_read_memory_safe h (by rw [hs]; exact c68_safe exLibraries_contract exReader_fits E.size (by decide)) hr hfit scratch
  exact ⟨ts, h1⟩

/-- a chunk of 4 GiB is lost with zlib and with bzip2 -/
example : (∃ y, zlibCompress exZlib 5 true (List.replicate (2 ^ 32) 1) = .ok y ∧
      zlibDecompress exZlib 8 1 y (2 ^ 32) = .ok []) ∧
    ∃ y, bzip2Compress exBzip2 8 9 (List.replicate (2 ^ 32) 1) = .ok y ∧ bzip2Decompress exBzip2 y (2 ^ 32) = .ok [] := by
  have h1 := c68_zlib_4GiB_counterexample exZlib_contract (l := 5) (u := true) rfl (by decide) (size := 8) (fuel := 1) (by decide)
    (x := List.replicate (2 ^ 32) 1) List.length_replicate
  have h2 := c68_bzip2_4GiB_counterexample exBzip2_contract (l := 9) rfl (size := 8) (by decide)
    (x := List.replicate (2 ^ 32) 1) List.length_replicate
  rw [List.length_replicate] at h1 h2
  exact ⟨h1, h2⟩

end Z5.Props
