import Verif.Spec.Metadata

/-!
# Lemmas for the metadata theorems
-/

namespace Z5

theorem assocGet_set {β : Type} (l : List (String × β)) (k : String) (v : β) (k' : String) :
    assocGet (assocSet l k v) k' = if k = k' then some v else assocGet l k' := by
  induction l with
  | nil => rfl
  | cons p l ih =>
    obtain ⟨a, b⟩ := p
    unfold assocSet
    by_cases h : a = k
    · subst h
      simp only [if_true, assocGet]
      split <;> rfl
    · simp only [h, if_false, assocGet, ih]
      by_cases h' : k = k'
      · subst h'
        simp only [if_true, h, if_false]
      · simp only [h', if_false]

theorem assocGet_erase {β : Type} (l : List (String × β)) (k k' : String) :
    assocGet (assocErase l k) k' = if k = k' then none else assocGet l k' := by
  induction l with
  | nil => simp [assocErase, assocGet]
  | cons p l ih =>
    obtain ⟨a, b⟩ := p
    unfold assocErase at ih ⊢
    by_cases h : a = k
    · subst h
      rw [List.filter_cons, if_neg (by simp), ih]
      simp only [assocGet]
      split <;> rfl
    · rw [List.filter_cons, if_pos (by simp [h])]
      simp only [assocGet, ih]
      by_cases h' : k = k'
      · subst h'
        simp only [if_true, h, if_false]
      · simp only [h', if_false]

theorem opts_int_iff {o : Opts} {k : String} {i : Int} :
    o.int k = .ok i ↔ assocGet o k = some (.int i) := by
  unfold Opts.int mapAt
  cases h : assocGet o k with
  | none => simp
  | some v => cases v <;> simp

theorem opts_bool_iff {o : Opts} {k : String} {b : Bool} :
    o.bool k = .ok b ↔ assocGet o k = some (.bool b) := by
  unfold Opts.bool mapAt
  cases h : assocGet o k with
  | none => simp
  | some v => cases v <;> simp

theorem opts_str_iff {o : Opts} {k : String} {s : String} :
    o.str k = .ok s ↔ assocGet o k = some (.str s) := by
  unfold Opts.str mapAt
  cases h : assocGet o k with
  | none => simp
  | some v => cases v <;> simp

theorem getInt_int {i : Int} (h : -2 ^ 31 ≤ i ∧ i < 2 ^ 31) : (Json.int i).getInt = .ok i := by
  show Res.ok (Int.bmod i (2 ^ 32)) = .ok i
  have : Int.bmod i (2 ^ 32) = i := by
    apply Int.bmod_eq_of_le <;> omega
  rw [this]

theorem sizes_ofShape {s : List Nat} (h : ∀ n ∈ s, n < 2 ^ 64) :
    Json.sizes (s.map fun (n : Nat) => Json.int (n : Int)) = .ok s := by
  induction s with
  | nil => rfl
  | cons a s ih =>
    have ha := h a (List.mem_cons_self)
    simp only [List.map_cons, Json.sizes, Json.getSize, Res.ok_bind,
      ih (fun n hn => h n (List.mem_cons_of_mem _ hn)), Res.pure_eq]
    congr 2
    omega

theorem elems_ofShape (s : List Nat) :
    (Json.ofShape s).elems = s.map fun (n : Nat) => Json.int (n : Int) := rfl

/-! ### Doubles -/

theorem roundAt_exact {n b : Nat} (h : n % 2 ^ b = 0) : Dbl.roundAt n b = n := by
  unfold Dbl.roundAt
  have hb : 0 < 2 ^ b := Nat.pow_pos (by decide)
  simp only [h, Nat.mul_zero, hb, if_true]
  have := Nat.div_add_mod n (2 ^ b)
  rw [h] at this
  rw [Nat.mul_comm]
  exact this

theorem excess_le {m j : Nat} (hm : m < 2 ^ 53) (h0 : m ≠ 0) : Dbl.excess (m * 2 ^ j) ≤ j := by
  unfold Dbl.excess
  have h1 : m * 2 ^ j < 2 ^ (53 + j) := by
    rw [Nat.pow_add]
    exact Nat.mul_lt_mul_of_pos_right hm (Nat.pow_pos (by decide))
  have hne : m * 2 ^ j ≠ 0 := by
    have : 0 < 2 ^ j := Nat.pow_pos (by decide)
    exact Nat.mul_ne_zero h0 (by omega)
  have := (Nat.log2_lt hne).2 h1
  omega

/-- Numbers with at most 53 significant bits are converted exactly. -/
theorem roundNat_exact {m j : Nat} (hm : m < 2 ^ 53) : Dbl.roundNat (m * 2 ^ j) = m * 2 ^ j := by
  by_cases h0 : m = 0
  · subst h0
    rw [Nat.zero_mul]
    rfl
  · apply roundAt_exact
    apply Nat.mod_eq_zero_of_dvd
    exact Nat.dvd_trans (Nat.pow_dvd_pow 2 (excess_le hm h0)) (Nat.dvd_mul_left _ _)

set_option exponentiation.threshold 2000 in
theorem one_pos : 0 < Dbl.one := Nat.pow_pos (n := 1074) Nat.two_pos

theorem shift_div (z : Nat) {m j : Nat} (hm : m < 2 ^ 53) :
    ∃ m' j', m' < 2 ^ 53 ∧ m * 2 ^ j / 2 ^ z = m' * 2 ^ j' := by
  by_cases h : z ≤ j
  · refine ⟨m, j - z, hm, ?_⟩
    have e : 2 ^ j = 2 ^ (j - z) * 2 ^ z := by
      rw [← Nat.pow_add, Nat.sub_add_cancel h]
    rw [e, ← Nat.mul_assoc]
    exact Nat.mul_div_cancel _ (Nat.pow_pos (by decide))
  · refine ⟨m / 2 ^ (z - j), 0, Nat.lt_of_le_of_lt (Nat.div_le_self _ _) hm, ?_⟩
    have e : 2 ^ z = 2 ^ (z - j) * 2 ^ j := by
      rw [← Nat.pow_add, Nat.sub_add_cancel (by omega)]
    rw [e, Nat.mul_div_mul_right _ _ (Nat.pow_pos (by decide)), Nat.pow_zero, Nat.mul_one]

set_option exponentiation.threshold 2000 in
/-- The integer part of a double has at most 53 significant bits. -/
theorem units_div {m j : Nat} (hm : m < 2 ^ 53) :
    ∃ m' j', m' < 2 ^ 53 ∧ m * 2 ^ j / Dbl.one = m' * 2 ^ j' := shift_div 1074 hm

theorem trunc_ofInt {i : Int} (h : ∃ m j, m < 2 ^ 53 ∧ i.natAbs = m * 2 ^ j) :
    (Dbl.ofInt i).trunc = some i := by
  obtain ⟨m, j, hm, hi⟩ := h
  unfold Dbl.ofInt Dbl.trunc
  simp only [hi, roundNat_exact hm, Nat.mul_div_cancel _ one_pos]
  rw [← hi]
  by_cases hn : i < 0
  · simp only [hn, decide_true, if_true]
    congr 1
    omega
  · simp only [hn, decide_false, Bool.false_eq_true, if_false]
    congr 1
    omega

theorem trunc_exact {d : Dbl} {i : Int} (hr : d.Representable) (h : d.trunc = some i) :
    (Dbl.ofInt i).trunc = some i := by
  cases d with
  | nan => cases h
  | inf b => cases h
  | fin neg u =>
    obtain ⟨m, j, hm, _, hu⟩ := hr
    obtain ⟨m', j', hm', e⟩ := units_div (j := j) hm
    apply trunc_ofInt
    refine ⟨m', j', hm', ?_⟩
    rw [← e, ← hu]
    have h' : (if neg then -((u / Dbl.one : Nat) : Int) else ((u / Dbl.one : Nat) : Int)) = i :=
      Option.some.inj h
    revert h'
    generalize u / Dbl.one = q
    intro h'
    cases neg
    · have h'' : (q : Int) = i := h'
      omega
    · have h'' : -(q : Int) = i := h'
      omega

theorem toInt_ok {lo hi i : Int} {d : Dbl} :
    d.toInt lo hi = .ok i ↔ d.trunc = some i ∧ lo ≤ i ∧ i < hi := by
  unfold Dbl.toInt
  cases d.trunc with
  | none => simp
  | some k =>
    simp only [Option.some.injEq]
    split
    · rename_i h
      constructor
      · intro e
        cases e
        exact ⟨rfl, h⟩
      · intro e
        rw [e.1]
    · rename_i h
      constructor
      · intro e
        cases e
      · intro e
        rw [e.1] at h
        exact absurd e.2 h

/-! ### Compression options -/

macro "options_solve" "[" ts:Lean.Parser.Tactic.simpLemma,* "]" : tactic =>
  `(tactic| simp [initCompressor, Opts.int, Opts.str, Opts.bool, mapAt, assocGet_erase, assocGet, Json.sub,
      Json.getStr, Json.find, assocSet, Json.at', $ts,*])

theorem zarr_options {c : Compressor} {o : Opts} {j : Json} (ho : ∀ k v, assocGet o k = some v → v.Typed)
    (h : writeZarrOptions c o = .ok j) :
    ∃ o', Meta.readZarrCompressor j = .ok (c, o') ∧
      initCompressor c (assocErase o' "nthreads") = initCompressor c (assocErase o "nthreads") ∧
      assocGet o' "nthreads" = none := by
  cases c with
  | raw =>
    cases h
    exact ⟨_, rfl, rfl, rfl⟩
  | blosc =>
    simp only [writeZarrOptions, Compressor.compressorToZarr, enumAt, reduceCtorEq, if_false, if_true,
      Res.bind_eq_ok, opts_int_iff, opts_str_iff] at h
    obtain ⟨cd, h1, lv, h2, sh, h3, bs, h4, h⟩ := h
    cases h
    refine ⟨[("codec", .str cd), ("level", .int lv), ("shuffle", .int sh), ("blocksize", .int bs)], ?_, ?_, rfl⟩
    · options_solve [Meta.readZarrCompressor, Json.isNull, Meta.atOrRuntime, Compressor.zarrToCompressor, readZarrOptions, getInt_int (ho _ _ h2), getInt_int (ho _ _ h3),
        getInt_int (ho _ _ h4)]
    · options_solve [h1, h2, h3, h4]
  | zlib =>
    simp only [writeZarrOptions, Compressor.compressorToZarr, enumAt, reduceCtorEq, if_false, if_true,
      Res.bind_eq_ok, opts_int_iff, opts_bool_iff] at h
    obtain ⟨uz, h1, lv, h2, h⟩ := h
    cases h
    refine ⟨[("level", .int lv), ("useZlib", .bool uz)], ?_, ?_, rfl⟩
    · cases uz <;> options_solve [Meta.readZarrCompressor, Json.isNull, Meta.atOrRuntime, Compressor.zarrToCompressor, readZarrOptions, getInt_int (ho _ _ h2)]
    · options_solve [h1, h2]
  | xz => simp [writeZarrOptions, Compressor.compressorToZarr, enumAt] at h
  | _ =>
    simp only [writeZarrOptions, Compressor.compressorToZarr, enumAt, reduceCtorEq, if_false, if_true,
      Res.bind_eq_ok, opts_int_iff] at h
    obtain ⟨lv, h2, h⟩ := h
    cases h
    refine ⟨[("level", .int lv)], ?_, ?_, rfl⟩
    · options_solve [Meta.readZarrCompressor, Json.isNull, Meta.atOrRuntime, Compressor.zarrToCompressor, readZarrOptions, getInt_int (ho _ _ h2)]
    · options_solve [h2]

theorem n5_options {c : Compressor} {o : Opts} {j : Json} (ho : ∀ k v, assocGet o k = some v → v.Typed)
    (h : writeN5Options c o = .ok j) :
    ∃ o', (∀ d, d.find "compression" = some j → Meta.readN5Compressor d = .ok (c, o')) ∧
      (c ≠ .zlib → initCompressor c o' = initCompressor c o) ∧
      (c = .zlib → assocGet o' "level" = assocGet o "level" ∧
        assocGet o' "useZlib" = some (.bool false)) := by
  cases c with
  | raw =>
    cases h
    exact ⟨[], fun d hd => by simp only [Meta.readN5Compressor, hd]; rfl, fun _ => rfl, fun h => (by cases h)⟩
  | blosc =>
    simp only [writeN5Options, Compressor.compressorToN5, enumAt, reduceCtorEq, if_false, if_true,
      Res.bind_eq_ok, opts_int_iff, opts_str_iff] at h
    obtain ⟨cd, h1, lv, h2, sh, h3, bs, h4, nt, h5, h⟩ := h
    cases h
    refine ⟨[("codec", .str cd), ("level", .int lv), ("shuffle", .int sh),
      ("blocksize", .int bs), ("nthreads", .int nt)], ?_, ?_, fun h => (by cases h)⟩
    · intro d hd
      simp only [Meta.readN5Compressor, hd]
      options_solve [Meta.atOrRuntime, Compressor.n5ToCompressor, readN5Options, getInt_int (ho _ _ h2), getInt_int (ho _ _ h3),
        getInt_int (ho _ _ h4), getInt_int (ho _ _ h5)]
    · intro _
      options_solve [h1, h2, h3, h4, h5]
  | zlib =>
    simp only [writeN5Options, Compressor.compressorToN5, enumAt, reduceCtorEq, if_false, if_true,
      Res.bind_eq_ok, opts_int_iff] at h
    obtain ⟨lv, h2, h⟩ := h
    cases h
    refine ⟨[("level", .int lv), ("useZlib", .bool false)], ?_, fun h => absurd rfl h, ?_⟩
    · intro d hd
      simp only [Meta.readN5Compressor, hd]
      options_solve [Meta.atOrRuntime, Compressor.n5ToCompressor, readN5Options, getInt_int (ho _ _ h2)]
    · options_solve [h2]
  | _ =>
    simp only [writeN5Options, Compressor.compressorToN5, enumAt, reduceCtorEq, if_false, if_true,
      Res.bind_eq_ok, opts_int_iff] at h
    obtain ⟨lv, h2, h⟩ := h
    cases h
    refine ⟨[("level", .int lv)], ?_, ?_, fun h => (by cases h)⟩
    · intro d hd
      simp only [Meta.readN5Compressor, hd]
      options_solve [Meta.atOrRuntime, Compressor.n5ToCompressor, readN5Options, getInt_int (ho _ _ h2)]
    · options_solve [h2]

theorem v3_options {c : Compressor} {o : Opts} {n : Nat} {l : List Json}
    (ho : ∀ k v, assocGet o k = some v → v.Typed) (h : writeV3Codecs c o n = .ok l) :
    ∃ o', readV3Codecs (.arr l) [] = .ok (c, o') ∧
      (∀ s, initCompressor c (assocErase o "nthreads") = .ok s →
        initCompressor c (assocErase o' "nthreads") = .ok s.asV3) ∧ assocGet o' "nthreads" = none := by
  cases c with
  | raw =>
    cases h
    exact ⟨[], rfl, (fun s hs => by cases hs; rfl), rfl⟩
  | blosc =>
    simp only [writeV3Codecs, Res.bind_eq_ok, opts_int_iff, opts_str_iff] at h
    obtain ⟨cd, h1, lv, h2, sh, h3, bs, h4, h⟩ := h
    cases h
    refine ⟨[("codec", .str cd), ("level", .int lv),
      ("shuffle", .int (if sh = 0 then 0 else if sh = 2 then 2 else 1)),
      ("blocksize", .int bs)], ?_, ?_, rfl⟩
    · have e : shuffleFromJson (.str (shuffleToString sh))
          = .ok (if sh = 0 then 0 else if sh = 2 then 2 else 1) := by
        unfold shuffleToString
        split
        · rfl
        · split <;> rfl
      options_solve [readV3Codecs, readV3Loop, Json.elems, bytesCodec, Json.valueStr, Json.valueInt, e,
        getInt_int (ho _ _ h2), getInt_int (ho _ _ h4)]
    · intro s hs
      have : s = .blosc cd lv sh bs 1 := by
        revert hs
        options_solve [h1, h2, h3, h4]
        exact fun e => e.symm
      subst this
      options_solve [Settings.asV3]
  | zlib =>
    simp only [writeV3Codecs, Res.bind_eq_ok, opts_int_iff] at h
    obtain ⟨lv, h2, h⟩ := h
    cases h
    refine ⟨[("level", .int lv), ("useZlib", .bool false)], ?_, ?_, rfl⟩
    · options_solve [readV3Codecs, readV3Loop, Json.elems, bytesCodec, Json.valueStr, Json.valueInt,
        getInt_int (ho _ _ h2)]
    · intro s hs
      simp only [initCompressor, Res.bind_eq_ok, opts_int_iff, opts_bool_iff, assocGet_erase,
        String.reduceEq, if_false] at hs
      obtain ⟨lv', h2', z, _, hs⟩ := hs
      rw [h2] at h2'
      cases h2'
      cases hs
      rfl
  | zstd =>
    simp only [writeV3Codecs, Res.bind_eq_ok, opts_int_iff] at h
    obtain ⟨lv, h2, h⟩ := h
    cases h
    refine ⟨[("level", .int lv)], ?_, ?_, rfl⟩
    · options_solve [readV3Codecs, readV3Loop, Json.elems, bytesCodec, Json.valueStr, Json.valueInt,
        getInt_int (ho _ _ h2)]
    · intro s hs
      simp only [initCompressor, Res.bind_eq_ok, opts_int_iff, assocGet_erase,
        String.reduceEq, if_false] at hs
      obtain ⟨lv', h2', hs⟩ := hs
      rw [h2] at h2'
      cases h2'
      cases hs
      rfl
  | _ => cases h

/-! ### Rounding -/

/-- the distance of two natural numbers -/
def natDist (a b : Nat) : Nat := (a - b) + (b - a)

theorem roundNat_nearest (n m j : Nat) (hm : m < 2 ^ 53) :
    natDist n (Dbl.roundNat n) ≤ natDist n (m * 2 ^ j) ∧
    (natDist n (Dbl.roundNat n) = natDist n (m * 2 ^ j) → m * 2 ^ j ≠ Dbl.roundNat n →
      ∃ k, Dbl.roundNat n = 2 * k * 2 ^ Dbl.excess n ∧ natDist (Dbl.roundNat n) (m * 2 ^ j) = 2 ^ Dbl.excess n) := by
  by_cases hn : n < 2 ^ 53
  · have := roundNat_exact (j := 0) hn
    rw [Nat.pow_zero, Nat.mul_one] at this
    rw [this]
    unfold natDist
    constructor
    · omega
    · intro h h'
      omega
  · have hb : ∃ b, Dbl.excess n = b + 1 ∧ 2 ^ (b + 53) ≤ n := by
      have h0 : n ≠ 0 := by omega
      have h1 : 53 ≤ Nat.log2 n := (Nat.le_log2 h0).2 (by omega)
      refine ⟨Nat.log2 n - 53, by unfold Dbl.excess; omega, ?_⟩
      rw [show Nat.log2 n - 53 + 53 = Nat.log2 n by omega]
      exact Nat.log2_self_le h0
    obtain ⟨b, he, hle⟩ := hb
    have hB : 0 < 2 ^ (b + 1) := Nat.pow_pos (by decide)
    have hdm := Nat.div_add_mod n (2 ^ (b + 1))
    have hmod := Nat.mod_lt n hB
    unfold Dbl.roundNat
    rw [he]
    unfold Dbl.roundAt
    generalize hq : n / 2 ^ (b + 1) = q at *
    generalize hr : n % 2 ^ (b + 1) = r at *
    dsimp only
    -- either a multiple of the unit in the last place, or small
    have hx : (∃ t, m * 2 ^ j = t * 2 ^ (b + 1)) ∨ m * 2 ^ j < q * 2 ^ (b + 1) := by
      by_cases hj : b + 1 ≤ j
      · refine .inl ⟨m * 2 ^ (j - (b + 1)), ?_⟩
        rw [Nat.mul_assoc, ← Nat.pow_add, Nat.sub_add_cancel hj]
      · refine .inr ?_
        have h1 : m * 2 ^ j < 2 ^ (b + 53) := by
          have h2 : 2 ^ j ≤ 2 ^ b := Nat.pow_le_pow_right (by decide) (by omega)
          calc m * 2 ^ j < 2 ^ 53 * 2 ^ j := Nat.mul_lt_mul_of_pos_right hm (Nat.pow_pos (by decide))
            _ ≤ 2 ^ 53 * 2 ^ b := Nat.mul_le_mul_left _ h2
            _ = 2 ^ (b + 53) := by rw [Nat.add_comm, Nat.pow_add]
        have h3 : 2 ^ 52 ≤ q := by
          rw [← hq]
          refine (Nat.le_div_iff_mul_le hB).2 ?_
          rw [← Nat.pow_add]
          rw [show 52 + (b + 1) = b + 53 by omega]
          exact hle
        have h4 : 2 ^ (b + 53) ≤ q * 2 ^ (b + 1) := by
          rw [show b + 53 = 52 + (b + 1) by omega, Nat.pow_add]
          exact Nat.mul_le_mul_right _ h3
        omega
    generalize hu : 2 ^ (b + 1) = u at *
    have hc : u * q = q * u := Nat.mul_comm _ _
    have hs : (q + 1) * u = q * u + u := Nat.succ_mul _ _
    generalize hxx : m * 2 ^ j = x at *
    have hdist : ∀ w, (w = q * u ∨ w = q * u + u) → (w = q * u → 2 * r ≤ u) → (w = q * u + u → u ≤ 2 * r) →
        natDist n w ≤ natDist n x ∧
        (natDist n w = natDist n x → x ≠ w → 2 * r = u ∧ natDist w x = u) := by
      intro w hw h1 h2
      rcases hx with ⟨t, rfl⟩ | hx
      · rcases Nat.lt_trichotomy t q with ht | ht | ht
        · have : (t + 1) * u ≤ q * u := Nat.mul_le_mul_right _ ht
          rw [Nat.succ_mul] at this
          unfold natDist
          rcases hw with hw | hw
          · have := h1 hw; subst hw; constructor
            · omega
            · intro h3 h4; omega
          · have := h2 hw; subst hw; constructor
            · omega
            · intro h3 h4; omega
        · subst ht
          unfold natDist
          rcases hw with hw | hw
          · have := h1 hw; subst hw; constructor
            · omega
            · intro h3 h4; omega
          · have := h2 hw; subst hw; constructor
            · omega
            · intro h3 h4; omega
        · have : (q + 1) * u ≤ t * u := Nat.mul_le_mul_right _ ht
          unfold natDist
          rcases hw with hw | hw
          · have := h1 hw; subst hw; constructor
            · omega
            · intro h3 h4; omega
          · have := h2 hw; subst hw; constructor
            · omega
            · intro h3 h4; omega
      · unfold natDist
        rcases hw with hw | hw
        · have := h1 hw; subst hw; constructor
          · omega
          · intro h3 h4; omega
        · have := h2 hw; subst hw; constructor
          · omega
          · intro h3 h4; omega
    by_cases c1 : 2 * r < u
    · rw [if_pos c1]
      obtain ⟨d1, d2⟩ := hdist (q * u) (.inl rfl) (fun _ => by omega) (fun e => by omega)
      exact ⟨d1, fun h h' => by have := d2 h h'; omega⟩
    · rw [if_neg c1]
      by_cases c2 : 2 * r = u
      · rw [if_pos c2]
        by_cases c3 : q % 2 = 0
        · rw [if_pos c3]
          obtain ⟨d1, d2⟩ := hdist (q * u) (.inl rfl) (fun _ => by omega) (fun e => by omega)
          refine ⟨d1, fun h h' => ⟨q / 2, ?_, (d2 h h').2⟩⟩
          rw [show 2 * (q / 2) = q by omega]
        · rw [if_neg c3, hs]
          obtain ⟨d1, d2⟩ := hdist (q * u + u) (.inr rfl) (fun e => by omega) (fun _ => by omega)
          refine ⟨d1, fun h h' => ⟨(q + 1) / 2, ?_, (d2 h h').2⟩⟩
          rw [show 2 * ((q + 1) / 2) = q + 1 by omega, hs]
      · rw [if_neg c2, hs]
        obtain ⟨d1, d2⟩ := hdist (q * u + u) (.inr rfl) (fun e => by omega) (fun _ => by omega)
        exact ⟨d1, fun h h' => by have := d2 h h'; omega⟩

theorem trunc_round (v : Int) : (Dbl.ofInt v).trunc =
    some (if v < 0 then -(Dbl.roundNat v.natAbs : Int) else (Dbl.roundNat v.natAbs : Int)) := by
  unfold Dbl.ofInt Dbl.trunc
  simp only [Nat.mul_div_cancel _ one_pos, decide_eq_true_eq]

end Z5
