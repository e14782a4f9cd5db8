import Verif.Spec.Compressors
import Verif.Spec.Calls

/-!
# The compressor classes do their job
-/

namespace Z5.Compression

theorem uInt_eq {n : Nat} (h : n < 2 ^ 32) : uInt n = n := Nat.mod_eq_of_lt h

theorem uInt_lt (n : Nat) : uInt n < 2 ^ 32 := Nat.mod_lt _ (by decide)

theorem uInt_le (n : Nat) : uInt n ≤ n := Nat.mod_le _ _

theorem take_uInt {x : Bytes} (h : x.length < 2 ^ 32) : x.take (uInt x.length) = x := by
  rw [uInt_eq h, List.take_length]

theorem toInt_eq {n : Nat} (h : n < 2 ^ 31) : toInt n = n := by
  unfold toInt
  rw [Nat.mod_eq_of_lt (by omega), if_pos h]

theorem writeAt_zero (buf out : Bytes) : writeAt buf 0 out = out ++ buf.drop out.length := by
  unfold writeAt
  simp

theorem take_writeAt_zero (buf out : Bytes) : (writeAt buf 0 out).take out.length = out := by
  rw [writeAt_zero, List.take_left]

theorem length_writeAt (buf : Bytes) (p : Nat) (out : Bytes) :
    (writeAt buf p out).length = max buf.length (p + out.length) := by
  unfold writeAt
  simp only [List.length_append, List.length_take, List.length_replicate, List.length_drop]
  omega

theorem writeAt_nil (buf : Bytes) {p : Nat} (h : p ≤ buf.length) : writeAt buf p [] = buf := by
  unfold writeAt
  rw [show p - buf.length = 0 by omega]
  simp

/-! ### zlib -/

theorem zlib_lawful {Z : Zlib} (K : Z.Contract) {l : Int} {u : Bool} {size fuel : Nat} (hf : 0 < fuel) {x y : Bytes}
    (hx : x.length < 2 ^ 32) (hc : zlibCompress Z l u x = .ok y) :
    y ≠ [] ∧ zlibDecompress Z size fuel y x.length = .ok x := by
  unfold zlibCompress at hc
  rw [take_uInt hx] at hc
  split at hc
  · cases hc
  · simp only at hc
    split at hc
    · cases hc
    · split at hc
      · cases hc
      · next h =>
        have hend : (Z.deflate l u x (uInt (Z.deflateBound l u x.length))).1 = .streamEnd := Classical.byContradiction h
        cases hc
        have hroom := K.room l u x (uInt (Z.deflateBound l u x.length))
        have hlt := uInt_lt (Z.deflateBound l u x.length)
        refine ⟨K.nonempty _ _ _ _ hend, ?_⟩
        unfold zlibDecompress
        rw [take_uInt (by omega)]
        cases hs : Z.inflateInit with
        | none => exact absurd hs K.started
        | some s =>
          obtain ⟨h1, h2⟩ := K.decodes l u x _ s x.length hend hs (Nat.le_refl _)
          cases fuel with
          | zero => omega
          | succ fuel =>
            unfold zlibLoop
            simp only [Nat.zero_div, Nat.zero_mul, Nat.sub_zero, uInt_eq hx, h1, h2, Nat.zero_add, gt_iff_lt, Nat.lt_irrefl,
              if_false, Nat.not_lt_zero]
            rw [writeAt_zero, List.drop_nil, List.append_nil]

theorem zlib_no_ub {Z : Zlib} (K : Z.Contract) (l : Int) (u : Bool) (x : Bytes) : zlibCompress Z l u x ≠ .ub := by
  unfold zlibCompress
  have h1 := K.room l u (x.take (uInt x.length)) (uInt (Z.deflateBound l u x.length))
  have h2 := uInt_le (Z.deflateBound l u x.length)
  split
  · simp
  · simp only
    rw [if_neg (by omega)]
    split <;> simp

theorem zlib_total {Z : Zlib} (K : Z.Contract) {l : Int} {u : Bool} (hi : Z.deflateInit l u = true) {x : Bytes}
    (hx : x.length ≤ 2 ^ 30) : ∃ y, zlibCompress Z l u x = .ok y := by
  unfold zlibCompress
  have h0 := K.bound l u x.length
  have hb : uInt (Z.deflateBound l u x.length) = Z.deflateBound l u x.length := uInt_eq (by omega)
  rw [take_uInt (by omega), hi, if_neg (by decide)]
  simp only [hb]
  have h1 := K.room l u x (Z.deflateBound l u x.length)
  rw [if_neg (by omega), if_neg (fun h => h (K.enough l u x _ hi (Nat.le_refl _)))]
  exact ⟨_, rfl⟩

theorem zlib_safe {Z : Zlib} (K : Z.Contract) (size : Nat) {fuel : Nat} (hf : 0 < fuel) (y : Bytes) (cap : Nat) :
    zlibDecompress Z size fuel y cap ≠ .ub ∧ ∀ x, zlibDecompress Z size fuel y cap = .ok x → x.length ≤ cap := by
  unfold zlibDecompress
  cases Z.inflateInit with
  | none => exact ⟨fun h => (by cases h), fun x h => by cases h⟩
  | some s =>
    cases fuel with
    | zero => omega
    | succ fuel =>
      simp only
      unfold zlibLoop
      simp only [Nat.zero_div, Nat.zero_mul, Nat.sub_zero, Nat.zero_add]
      rw [if_neg (Nat.not_lt_zero _)]
      have h1 := K.inflateRoom s (y.take (uInt y.length)) (uInt cap)
      have h2 := uInt_le cap
      rw [if_neg (by omega)]
      have h3 := K.finish s (y.take (uInt y.length)) (uInt cap)
      cases hr : (Z.inflate s (y.take (uInt y.length)) (uInt cap)).ret with
      | ok => exact absurd hr h3
      | streamEnd =>
        refine ⟨fun h => (by cases h), fun x h => ?_⟩
        cases h
        rw [length_writeAt, List.length_nil]
        omega
      | other => exact ⟨fun h => (by cases h), fun x h => by cases h⟩

/-! ### libdeflate -/

theorem libdeflate_lawful {D : LibDeflate} (K : D.Contract) {l : Int} {u u' : Bool} {x y : Bytes}
    (hc : libdeflateCompress D l u x = .ok y) : y ≠ [] ∧ libdeflateDecompress D u' y x.length = .ok x := by
  unfold libdeflateCompress at hc
  simp only at hc
  generalize (if (if l < 1 then 1 else l) > 12 then 12 else if l < 1 then 1 else l : Int) = l at hc
  split at hc
  · cases hc
  · split at hc
    · cases hc
    · split at hc
      · cases hc
      · next h =>
        cases hc
        have hne : D.compress u l x (D.bound u l x.length) ≠ [] := fun e => h (by rw [e]; rfl)
        refine ⟨hne, ?_⟩
        have h1 := K.decodes u l x _ x.length hne (Nat.le_refl _)
        have h2 := K.other u l x _ x.length hne
        unfold libdeflateDecompress
        by_cases hu : u' = u
        · subst hu
          rw [h1]
          simp
        · have hu : u' = !u := by cases u <;> cases u' <;> simp_all
          subst hu
          have h3 := K.decompressRoom (!u) (D.compress u l x (D.bound u l x.length)) x.length
          simp only [h2, Bool.not_not, h1]
          rw [if_neg (by omega), if_neg (by decide), if_neg (by omega), if_pos trivial, writeAt_zero, List.drop_of_length_le (by omega), List.append_nil]

theorem libdeflate_no_ub {D : LibDeflate} (K : D.Contract) (l : Int) (u : Bool) (x : Bytes) :
    libdeflateCompress D l u x ≠ .ub := by
  unfold libdeflateCompress
  simp only
  generalize (if (if l < 1 then 1 else l) > 12 then 12 else if l < 1 then 1 else l : Int) = l
  have h1 := K.room u l x (D.bound u l x.length)
  split
  · simp
  · rw [if_neg (by omega)]
    split <;> simp

theorem libdeflate_total {D : LibDeflate} (K : D.Contract) (l : Int) (u : Bool) (x : Bytes) :
    ∃ y, libdeflateCompress D l u x = .ok y := by
  unfold libdeflateCompress
  simp only
  have hl : 1 ≤ (if (if l < 1 then 1 else l) > 12 then 12 else if l < 1 then 1 else l : Int) ∧
      (if (if l < 1 then 1 else l) > 12 then 12 else if l < 1 then 1 else l : Int) ≤ 12 := by
    split <;> split <;> omega
  generalize (if (if l < 1 then 1 else l) > 12 then 12 else if l < 1 then 1 else l : Int) = l at hl
  have h1 := K.room u l x (D.bound u l x.length)
  have h2 := K.enough u l x _ (Nat.le_refl _)
  rw [K.alloc l hl.1 hl.2, if_neg (by decide), if_neg (by omega), if_neg (fun h => h2 (List.length_eq_zero_iff.1 h))]
  exact ⟨_, rfl⟩

theorem libdeflate_safe {D : LibDeflate} (K : D.Contract) (u : Bool) (y : Bytes) (cap : Nat) :
    libdeflateDecompress D u y cap ≠ .ub ∧ ∀ x, libdeflateDecompress D u y cap = .ok x → x.length ≤ cap := by
  have h1 := K.decompressRoom u y cap
  have h2 := K.decompressRoom (!u) y cap
  unfold libdeflateDecompress
  simp only
  rw [if_neg (by omega)]
  split
  · exact ⟨fun h => (by cases h), fun x h => by cases h; exact h1⟩
  · rw [if_neg (by omega)]
    split
    · refine ⟨fun h => (by cases h), fun x h => ?_⟩
      cases h
      rw [length_writeAt]
      omega
    · exact ⟨fun h => (by cases h), fun x h => by cases h⟩

/-! ### bzip2 -/

theorem bzip2_lawful {B : Bzip2} (K : B.Contract) {size : Nat} {l : Int} {x y : Bytes} (hx : x.length < 2 ^ 32)
    (hc : bzip2Compress B size l x = .ok y) : y ≠ [] ∧ bzip2Decompress B y x.length = .ok x := by
  unfold bzip2Compress at hc
  rw [take_uInt hx] at hc
  simp only at hc
  generalize B.outSize size x.length = m at hc
  have h1 := K.room l x (uInt m)
  have h2 := uInt_lt m
  have h3 := uInt_le m
  split at hc
  · cases hc
  · rw [if_neg (by omega)] at hc
    split at hc
    · cases hc
    · next h =>
      have hend : (B.compress l x (uInt m)).1 = .streamEnd := Classical.byContradiction h
      have hne := K.nonempty l x _ hend
      have hdec := K.decodes l x _ x.length hend (Nat.le_refl _)
      generalize hr : (B.compress l x (uInt m)).2 = r at *
      have hy := (Res.ok.inj hc).symm
      have hlen : y.length = m - (uInt m - r.length) := by
        rw [hy, List.length_take, length_writeAt, List.length_replicate]
        omega
      have hmod : uInt y.length = r.length := by
        rw [hlen]
        unfold uInt at *
        have : m - (m % 2 ^ 32 - r.length) = r.length + 2 ^ 32 * (m / 2 ^ 32) := by omega
        rw [this, Nat.add_mul_mod_self_left, Nat.mod_eq_of_lt (by omega)]
      have hpos : 0 < r.length := List.length_pos_iff.2 hne
      have htake : y.take (uInt y.length) = r := by
        rw [hmod, hy, List.take_take, Nat.min_eq_left (by omega), take_writeAt_zero]
      refine ⟨fun e => ?_, ?_⟩
      · rw [e, List.length_nil] at hlen
        omega
      · unfold bzip2Decompress
        rw [K.started, if_neg (by decide)]
        simp only [htake, uInt_eq hx, hdec]
        rw [if_neg (by omega), if_neg (by simp)]

theorem bzip2_no_ub {B : Bzip2} (K : B.Contract) (size : Nat) (l : Int) (x : Bytes) : bzip2Compress B size l x ≠ .ub := by
  unfold bzip2Compress
  simp only
  generalize B.outSize size x.length = m
  have h1 := K.room l (x.take (uInt x.length)) (uInt m)
  have h3 := uInt_le m
  split
  · simp
  · rw [if_neg (by omega)]
    split <;> simp

theorem bzip2_safe {B : Bzip2} (K : B.Contract) (y : Bytes) (cap : Nat) :
    bzip2Decompress B y cap ≠ .ub ∧ ∀ x, bzip2Decompress B y cap = .ok x → x.length ≤ cap := by
  have h1 := K.decompressRoom (y.take (uInt y.length)) (uInt cap)
  have h2 := uInt_le cap
  unfold bzip2Decompress
  simp only
  split
  · exact ⟨fun h => (by cases h), fun x h => by cases h⟩
  · rw [if_neg (by omega)]
    split
    · exact ⟨fun h => (by cases h), fun x h => by cases h⟩
    · refine ⟨fun h => (by cases h), fun x h => ?_⟩
      cases h
      omega

/-- If the buffer is as large as the documentation of bzip2 asks for, there is no error. -/
theorem bzip2_total {B : Bzip2} (K : B.Contract) {size : Nat} {l : Int} (hi : B.compressInit l = true) {x : Bytes}
    (hx : x.length < 2 ^ 32) (hm : B.outSize size x.length < 2 ^ 32)
    (hb : 101 * x.length + 60000 ≤ 100 * B.outSize size x.length) : ∃ y, bzip2Compress B size l x = .ok y := by
  unfold bzip2Compress
  rw [take_uInt hx, hi, if_neg (by decide)]
  simp only [uInt_eq hm]
  have h1 := K.room l x (B.outSize size x.length)
  rw [if_neg (by omega), if_neg (fun h => h (K.enough l x _ hi hb))]
  exact ⟨_, rfl⟩

/-! ### lz4 -/

theorem lz4_lawful {L : Lz4} (K : L.Contract) {x y : Bytes} (hne : x ≠ []) (hc : lz4Compress L x = .ok y) :
    y ≠ [] ∧ lz4Decompress L y x.length = .ok x := by
  unfold lz4Compress at hc
  simp only at hc
  split at hc
  · cases hc
  · next hx =>
    have hx : x.length ≤ lz4MaxInput := by omega
    have hx' : x.length < 2 ^ 31 := Nat.lt_of_le_of_lt hx (by decide)
    have h1 := K.room x (L.compressBound x.length)
    have h2 := K.bound x.length hx
    rw [if_neg (by omega)] at hc
    split at hc
    · cases hc
    · next h =>
      have hpos : 0 < (L.compress x (L.compressBound x.length)).1 := by omega
      have hsz := K.size x _ hpos
      have hdec := K.decodes x _ x.length hpos (Nat.le_refl _) hx'
      generalize (L.compress x (L.compressBound x.length)).2 = r at *
      rw [hsz, Int.toNat_natCast, take_writeAt_zero] at hc
      cases hc
      have hr : 0 < y.length := by omega
      refine ⟨fun e => by rw [e] at hr; simp at hr, ?_⟩
      unfold lz4Decompress
      rw [toInt_eq (by omega), toInt_eq hx', Int.toNat_natCast, List.take_length]
      simp only [hdec]
      rw [if_neg (by omega)]
      have := List.length_pos_iff.2 hne
      rw [if_neg (by omega)]

theorem lz4_no_ub {L : Lz4} (K : L.Contract) (x : Bytes) : lz4Compress L x ≠ .ub := by
  unfold lz4Compress
  simp only
  have h1 := K.room x (L.compressBound x.length)
  split
  · simp
  · rw [if_neg (by omega)]
    split <;> simp

theorem lz4_total {L : Lz4} (K : L.Contract) {x : Bytes} (hx : x.length ≤ lz4MaxInput) : ∃ y, lz4Compress L x = .ok y := by
  unfold lz4Compress
  simp only
  have h1 := K.room x (L.compressBound x.length)
  have h2 := K.enough x _ hx (Nat.le_refl _)
  rw [if_neg (by omega), if_neg (by omega), if_neg (by omega)]
  exact ⟨_, rfl⟩

theorem toInt_toNat_le (n : Nat) : (toInt n).toNat ≤ n := by
  unfold toInt
  have := Nat.mod_le n (2 ^ 32)
  split <;> omega

theorem lz4_safe {L : Lz4} (K : L.Contract) (y : Bytes) (cap : Nat) :
    lz4Decompress L y cap ≠ .ub ∧ ∀ x, lz4Decompress L y cap = .ok x → x.length ≤ cap := by
  have h1 := K.decompressRoom (y.take (toInt y.length).toNat) (toInt y.length) (toInt cap)
  have h2 := toInt_toNat_le cap
  unfold lz4Decompress
  simp only
  rw [if_neg (by omega)]
  split
  · exact ⟨fun h => (by cases h), fun x h => by cases h⟩
  · refine ⟨fun h => (by cases h), fun x h => ?_⟩
    cases h
    omega

/-! ### xz -/

theorem xz_encode {X : Xz} (K : X.Contract) : ∀ (fuel : Nat) (s : X.Enc) (inp : Bytes) (f : Bool) (x out : Bytes),
    K.made s x out → K.encMeasure s inp f < fuel → ∃ y, xzEncodeLoop X fuel s inp f out = .ok y ∧ K.Stream (x ++ inp) y
  | 0, _, _, _, _, _, _, h => absurd h (Nat.not_lt_zero _)
  | fuel + 1, s, inp, f, x, out, hm, hf => by
    unfold xzEncodeLoop
    simp only
    have h1 := K.encRoom s inp xzBuffer f
    rw [if_neg (by omega)]
    cases hr : (X.encode s inp xzBuffer f).ret with
    | ok =>
      have h2 := K.encLess s inp xzBuffer f (by decide) hr
      obtain ⟨y, h3, h4⟩ := xz_encode K fuel _ _ _ _ _ (K.encOk s x out inp xzBuffer f hm hr)
        (Nat.lt_of_lt_of_le h2 (Nat.le_of_lt_succ hf))
      refine ⟨y, h3, ?_⟩
      rw [List.append_assoc, List.take_append_drop] at h4
      exact h4
    | streamEnd => exact ⟨_, rfl, (K.encEnd s x out inp xzBuffer f hm hr).2⟩
    | other => exact absurd hr (K.encNoError s x out inp xzBuffer f hm (by decide))

theorem xz_decode {X : Xz} (K : X.Contract) (size cap : Nat) : ∀ (fuel : Nat) (s : X.Dec) (inp : Bytes) (f : Bool)
    (buf : Bytes), buf.length = cap → K.rest s inp [] → K.decMeasure s inp f < fuel →
    xzDecodeLoop X size cap fuel s inp f cap buf = .ok buf
  | 0, _, _, _, _, _, _, h => absurd h (Nat.not_lt_zero _)
  | fuel + 1, s, inp, f, buf, hb, hm, hf => by
    unfold xzDecodeLoop
    simp only
    have hp : cap / size * size ≤ cap := Nat.div_mul_le_self _ _
    rw [if_neg (by omega)]
    have h1 := K.decOut s inp [] (cap - cap / size * size) f hm
    rw [List.take_nil] at h1
    rw [h1, List.length_nil, Nat.add_zero, Nat.add_zero, if_neg (by omega), writeAt_nil _ (by omega)]
    cases hr : (X.decode s inp (cap - cap / size * size) f).ret with
    | ok =>
      have h2 := K.decLess s inp (cap - cap / size * size) f hr
      have h3 := K.decOk s inp [] _ f hm hr
      rw [List.drop_nil] at h3
      exact xz_decode K size cap fuel _ _ _ buf hb h3 (Nat.lt_of_lt_of_le h2 (Nat.le_of_lt_succ hf))
    | streamEnd => rfl
    | other => exact absurd hr (K.decNoError s inp [] _ f hm (Nat.zero_le _))

theorem xz_lawful {X : Xz} (K : X.Contract) {size : Nat} {ef : Bytes → Nat} {df : Bytes → Nat → Nat} {l : Int}
    (he : ∀ s x, X.encoder l = some s → K.encMeasure s x false < ef x)
    (hd : ∀ s y cap, X.decoder = some s → K.decMeasure s y false < df y cap) {x y : Bytes}
    (hc : xzCompress X ef l x = .ok y) : y ≠ [] ∧ xzDecompress X size df y x.length = .ok x := by
  unfold xzCompress at hc
  cases hs : X.encoder l with
  | none => rw [hs] at hc; cases hc
  | some s =>
    rw [hs] at hc
    obtain ⟨y', h1, h2⟩ := xz_encode K _ s x false [] [] (K.encStart l s hs) (he s x hs)
    simp only [h1] at hc
    cases hc
    rw [List.nil_append] at h2
    refine ⟨K.nonempty _ _ h2, ?_⟩
    unfold xzDecompress
    cases hs' : X.decoder with
    | none => exact absurd hs' K.started
    | some d =>
      have hf := hd d y x.length hs'
      have hrest := K.decStart d x y hs' h2
      simp only
      cases hfu : df y x.length with
      | zero => omega
      | succ fuel =>
        rw [hfu] at hf
        unfold xzDecodeLoop
        simp only [Nat.zero_div, Nat.zero_mul, Nat.sub_zero, Nat.zero_add]
        have h3 := K.decOut d y x x.length false hrest
        rw [List.take_length] at h3
        rw [if_neg (by omega), h3, if_neg (by omega), writeAt_zero, List.drop_nil, List.append_nil]
        cases hr : (X.decode d y x.length false).ret with
        | ok =>
          have h4 := K.decOk d y x x.length false hrest hr
          rw [List.drop_length] at h4
          have h5 := K.decLess d y x.length false hr
          exact xz_decode K size x.length fuel _ _ _ x rfl h4 (Nat.lt_of_lt_of_le h5 (Nat.le_of_lt_succ hf))
        | streamEnd => rfl
        | other => exact absurd hr (K.decNoError d y x _ false hrest (Nat.le_refl _))

theorem xz_total {X : Xz} (K : X.Contract) {ef : Bytes → Nat} {l : Int} (hl : X.encoder l ≠ none)
    (he : ∀ s x, X.encoder l = some s → K.encMeasure s x false < ef x) (x : Bytes) : ∃ y, xzCompress X ef l x = .ok y := by
  unfold xzCompress
  cases hs : X.encoder l with
  | none => exact absurd hs hl
  | some s =>
    obtain ⟨y, h1, _⟩ := xz_encode K _ s x false [] [] (K.encStart l s hs) (he s x hs)
    exact ⟨y, h1⟩

theorem xz_no_ub {X : Xz} (K : X.Contract) {ef : Bytes → Nat} {l : Int}
    (he : ∀ s x, X.encoder l = some s → K.encMeasure s x false < ef x) (x : Bytes) : xzCompress X ef l x ≠ .ub := by
  by_cases hl : X.encoder l = none
  · unfold xzCompress
    rw [hl]
    simp
  · obtain ⟨y, h⟩ := xz_total K hl he x
    rw [h]
    simp

/-- Every position at which the loop writes is within the buffer, whatever the data. -/
theorem xz_loop_safe {X : Xz} (K : X.Contract) (size n : Nat) : ∀ (fuel : Nat) (s : X.Dec) (inp : Bytes) (f : Bool)
    (total : Nat) (buf : Bytes), buf.length ≤ n * size → total / size ≤ n → K.decMeasure s inp f < fuel →
    xzDecodeLoop X size (n * size) fuel s inp f total buf ≠ .ub ∧
    ∀ x, xzDecodeLoop X size (n * size) fuel s inp f total buf = .ok x → x.length ≤ n * size
  | 0, _, _, _, _, _, _, _, h => absurd h (Nat.not_lt_zero _)
  | fuel + 1, s, inp, f, total, buf, hb, ht, hf => by
    unfold xzDecodeLoop
    simp only
    have hp : total / size * size ≤ n * size := Nat.mul_le_mul_right _ ht
    rw [if_neg (by omega)]
    have h1 := K.decRoom s inp (n * size - total / size * size) f
    rw [if_neg (by omega)]
    have hb' : (writeAt buf (total / size * size) (X.decode s inp (n * size - total / size * size) f).out).length ≤ n * size := by
      rw [length_writeAt]
      omega
    cases hr : (X.decode s inp (n * size - total / size * size) f).ret with
    | ok =>
      have h2 := K.decLess s inp (n * size - total / size * size) f hr
      refine xz_loop_safe K size n fuel _ _ _ _ _ hb' ?_ (Nat.lt_of_lt_of_le h2 (Nat.le_of_lt_succ hf))
      rcases Nat.eq_zero_or_pos size with e | hs
      · subst e; simp
      · apply Nat.le_of_lt_succ
        rw [Nat.div_lt_iff_lt_mul hs, Nat.succ_mul]
        have := Nat.mod_lt total hs
        have := Nat.div_add_mod total size
        rw [Nat.mul_comm] at this
        omega
    | streamEnd => exact ⟨fun h => (by cases h), fun x h => by cases h; exact hb'⟩
    | other => exact ⟨fun h => (by cases h), fun x h => by cases h⟩

theorem xz_safe {X : Xz} (K : X.Contract) (size : Nat) {df : Bytes → Nat → Nat}
    (hd : ∀ s y cap, X.decoder = some s → K.decMeasure s y false < df y cap) (y : Bytes) (n : Nat) :
    xzDecompress X size df y (n * size) ≠ .ub ∧ ∀ x, xzDecompress X size df y (n * size) = .ok x → x.length ≤ n * size := by
  unfold xzDecompress
  cases hs : X.decoder with
  | none => exact ⟨fun h => (by cases h), fun x h => by cases h⟩
  | some d => exact xz_loop_safe K size n _ d y false 0 [] (Nat.zero_le _) (by simp) (hd d y _ hs)

/-! ### zstd -/

theorem zstd_lawful {Z : Zstd} (K : Z.Contract) {l : Int} {x y : Bytes} (hc : zstdCompress Z l x = .ok y) :
    y ≠ [] ∧ zstdDecompress Z y x.length = .ok x := by
  unfold zstdCompress at hc
  simp only at hc
  cases hy : Z.compress l x (Z.compressBound x.length) with
  | none => rw [hy] at hc; cases hc
  | some r =>
    simp only [hy] at hc
    split at hc
    · cases hc
    · cases hc
      refine ⟨fun e => K.nonempty l x _ (by rw [hy, e]), ?_⟩
      unfold zstdDecompress
      rw [K.decodes l x _ _ x.length hy (Nat.le_refl _)]
      simp

theorem zstd_no_ub {Z : Zstd} (K : Z.Contract) (l : Int) (x : Bytes) : zstdCompress Z l x ≠ .ub := by
  unfold zstdCompress
  simp only
  cases hy : Z.compress l x (Z.compressBound x.length) with
  | none => simp
  | some r =>
    have := K.room l x _ _ hy
    simp only
    rw [if_neg (by omega)]
    simp

theorem zstd_total {Z : Zstd} (K : Z.Contract) (l : Int) (x : Bytes) : ∃ y, zstdCompress Z l x = .ok y := by
  unfold zstdCompress
  simp only
  cases hy : Z.compress l x (Z.compressBound x.length) with
  | none => exact absurd hy (K.enough l x _ (Nat.le_refl _))
  | some r =>
    have := K.room l x _ _ hy
    simp only
    rw [if_neg (by omega)]
    exact ⟨_, rfl⟩

theorem zstd_safe {Z : Zstd} (K : Z.Contract) (y : Bytes) (cap : Nat) :
    zstdDecompress Z y cap ≠ .ub ∧ ∀ x, zstdDecompress Z y cap = .ok x → x.length ≤ cap := by
  unfold zstdDecompress
  cases hy : Z.decompress y cap with
  | none => exact ⟨fun h => (by cases h), fun x h => by cases h⟩
  | some r =>
    have := K.decompressRoom y cap _ hy
    simp only
    rw [if_neg (by omega)]
    exact ⟨fun h => (by cases h), fun x h => by cases h; exact this⟩

/-! ### blosc -/

theorem blosc_lawful {B : Blosc} {A : Settings → Prop} (K : B.Contract A) {size : Nat} {c : String} {l sh b t t' : Int}
    (ht : 0 < t') {x y : Bytes} (hx : x ≠ []) (hc : bloscCompress B size c l sh b t x = .ok y) :
    y ≠ [] ∧ bloscDecompress B t' y x.length = .ok x := by
  unfold bloscCompress at hc
  simp only at hc
  have h1 := K.room c l sh size b t x (x.length + bloscOverhead)
  rw [if_neg (by omega)] at hc
  split at hc
  · cases hc
  · have hpos : 0 < (B.compress c l sh size b t x (x.length + bloscOverhead)).1 := by omega
    have hsz := K.size c l sh size b t x _ hpos
    obtain ⟨hdec, hreads⟩ := K.decodes c l sh size b t x _ x.length t' hpos (Nat.le_refl _) ht
    generalize (B.compress c l sh size b t x (x.length + bloscOverhead)).2 = r at *
    rw [hsz, Int.toNat_natCast, take_writeAt_zero] at hc
    cases hc
    have hr : 0 < y.length := by omega
    have hx0 : 0 < x.length := List.length_pos_iff.2 hx
    refine ⟨fun e => by rw [e] at hr; simp at hr, ?_⟩
    unfold bloscDecompress
    simp only [hdec]
    rw [if_neg (by omega), if_neg (by omega), if_neg (by omega)]

theorem blosc_no_ub {B : Blosc} {A : Settings → Prop} (K : B.Contract A) (size : Nat) (c : String) (l sh b t : Int) (x : Bytes) :
    bloscCompress B size c l sh b t x ≠ .ub := by
  unfold bloscCompress
  simp only
  have h1 := K.room c l sh size b t x (x.length + bloscOverhead)
  rw [if_neg (by omega)]
  split <;> simp

theorem blosc_total {B : Blosc} {A : Settings → Prop} (K : B.Contract A) (size : Nat) {c : String} {l sh b t : Int}
    (ha : A (.blosc c l sh b t)) {x : Bytes} (hx : x.length ≤ 2 ^ 31 - 1 - 16) :
    ∃ y, bloscCompress B size c l sh b t x = .ok y := by
  unfold bloscCompress
  simp only
  have h1 := K.room c l sh size b t x (x.length + bloscOverhead)
  have h2 := K.enough c l sh size b t x _ ha hx (Nat.le_refl _)
  rw [if_neg (by omega), if_neg (by omega)]
  exact ⟨_, rfl⟩

end Z5.Compression
