import Verif.Proofs.PyScalar
import Verif.Props.Index

/-!
# Numbers that are assigned from Python (C70)
-/

namespace Z5.Props

open Z5.Spec Z5.Prog

variable {E : Elem}

/-- **C70.**  A number that can be stored (`Stores`) is converted to such a value, and that is what is written: integers of
    the data type as they are, also those that a double cannot hold, other integers of 64 bits modulo the number of values of
    the type, numbers with a fraction without it, and for floating point types a nearest number of the type. -/
theorem c70_stored {N : NbCast} (hN : N.Ok) {dt : Datatype} {v : PyNumber} {x₀ : CValue} (h : Stores dt v x₀) :
    ∃ x, Stores dt v x ∧ ∀ {α : Type} (write : List Nat → List Nat → CValue → Res (List α)) (off shape : List Nat),
      pyWriteScalar N dt write off shape v = write off shape x := by
  suffices ∃ x, Stores dt v x ∧ castScalar N v dt = .ok x ∧ (dt ≠ .complex64 ∧ dt ≠ .complex128 ∧ dt ≠ .complex256) by
    obtain ⟨x, h1, h2, h3⟩ := this
    refine ⟨x, h1, fun write off shape => ?_⟩
    rw [pyWriteScalar_eq N write off shape v h3, h2]
    rfl
  cases h with
  | @integer _ lo hi i k hd hf h1 h2 =>
    obtain ⟨hlt, hlo, hhi⟩ := range_bounds hd
    obtain ⟨w1, w2, k', w3⟩ := wrapInt_spec hlt i
    refine ⟨.int (wrapInt lo hi i), ?_, ?_, range_real hd⟩
    · rw [w3] at w1 w2 ⊢
      exact .integer hd hf w1 w2
    · rw [castScalar_int hd]
      unfold castToInt
      rw [hN.intInt, if_pos]
      unfold Datatype.Fits64 at hf
      by_cases hl : lo < 0
      · simpa only [if_pos hl] using hf
      · simpa only [if_neg hl] using hf
  | @truncated _ lo hi d t hd ht h1 h2 =>
    obtain ⟨hlt, hlo, hhi⟩ := range_bounds hd
    refine ⟨.int t, .truncated hd ht h1 h2, ?_, range_real hd⟩
    rw [castScalar_int hd]
    unfold castToInt
    cases e : N.toInt (if lo < 0 then -2 ^ 63 else 0) (if lo < 0 then 2 ^ 63 else 2 ^ 64) (.float d) with
    | some t' =>
      have := (hN.intFloat _ _ _ _ e).1
      rw [ht] at this
      cases this
      show Res.ok (CValue.int (wrapInt lo hi t)) = _
      rw [wrapInt_id ⟨h1, h2⟩]
    | none =>
      rw [hN.doubleFloat]
      show (do return CValue.int (← d.toInt lo hi)) = _
      rw [toInt_ok.2 ⟨ht, h1, h2⟩]
      rfl
  | @double d =>
    refine ⟨_, .double, ?_, by decide, by decide, by decide⟩
    show castToFloat N .ok (.float d) = _
    unfold castToFloat
    rw [hN.doubleFloat]
    rfl
  | @doubleInt i m j hmax hm hnear =>
    obtain ⟨m', j', hm', e⟩ := roundNat_bits i.natAbs
    refine ⟨_, .doubleInt (m := m') (j := j') hmax hm' fun m'' j'' hm'' => ?_, ?_, by decide, by decide, by decide⟩
    · rw [← e]
      exact (roundNat_nearest _ m'' j'' hm'').1
    · show castToFloat N .ok (.int i) = _
      unfold castToFloat
      rw [hN.doubleInt, if_pos (roundNat_le_max hmax)]
      show Res.ok (CValue.flt (.ofInt i)) = _
      unfold Dbl.ofInt
      rw [e]
  | singleNan =>
    refine ⟨_, .singleNan, ?_, by decide, by decide, by decide⟩
    show castToFloat N Dbl.toFloat _ = _
    unfold castToFloat
    rw [hN.doubleFloat]
    rfl
  | singleInf =>
    refine ⟨_, .singleInf, ?_, by decide, by decide, by decide⟩
    show castToFloat N Dbl.toFloat _ = _
    unfold castToFloat
    rw [hN.doubleFloat]
    rfl
  | @single neg u w hmax hw hnear =>
    refine ⟨_, .single (w := Dbl.roundAt u (Dbl.floatExp u)) hmax (isFloat_round hmax) fun w' hw' => float_nearest u hw', ?_,
      by decide, by decide, by decide⟩
    show castToFloat N Dbl.toFloat _ = _
    unfold castToFloat
    rw [hN.doubleFloat]
    show (do return CValue.flt (← Dbl.toFloat (.fin neg u))) = _
    unfold Dbl.toFloat
    dsimp only
    rw [if_pos hmax]
    rfl
  | @singleInt i hf =>
    refine ⟨_, .singleInt hf, ?_, by decide, by decide, by decide⟩
    have hle := isFloat_le hf
    have hr : Dbl.roundNat i.natAbs = i.natAbs := by
      obtain ⟨m, j, hm, _, _, e⟩ := hf
      obtain ⟨m', j', hm', e'⟩ := units_div (j := j) (show m < 2 ^ 53 by omega)
      rw [← e, Nat.mul_div_cancel _ one_pos] at e'
      rw [e', roundNat_exact hm']
    show castToFloat N Dbl.toFloat _ = _
    unfold castToFloat
    rw [hN.doubleInt, hr, if_pos]
    · show (do return CValue.flt (← Dbl.toFloat (.ofInt i))) = _
      unfold Dbl.ofInt Dbl.toFloat
      dsimp only
      rw [hr, if_pos hle, round_isFloat hf]
      rfl
    · exact Nat.le_trans hle maxFloat_le

/-- **C70**: what is written determines nothing else: an integer of the data type has only one value that it can become. -/
theorem c70_integer_exact {dt : Datatype} {lo hi i : Int} (hd : dt.range = some (lo, hi)) (h : lo ≤ i ∧ i < hi) {x : CValue} :
    Stores dt (.int i) x ↔ x = .int i := by
  obtain ⟨hlt, hlo, hhi⟩ := range_bounds hd
  constructor
  · intro hs
    cases hs with
    | @integer _ lo' hi' _ k hd' hf h1 h2 =>
      rw [hd] at hd'
      cases hd'
      have : k = 0 := by
        rcases Int.lt_trichotomy k 0 with hk | hk | hk
        · have := Int.mul_le_mul_of_nonneg_right (show k ≤ -1 by omega) (show 0 ≤ hi - lo by omega)
          omega
        · exact hk
        · have := Int.mul_le_mul_of_nonneg_right (show 1 ≤ k by omega) (show 0 ≤ hi - lo by omega)
          omega
      subst this
      rw [Int.zero_mul, Int.add_zero]
    | doubleInt => cases hd
    | singleInt => cases hd
  · rintro rfl
    have := Stores.integer (i := i) (k := 0) hd (by
      unfold Datatype.Fits64
      by_cases hl : lo < 0
      · simp only [if_pos hl] at *
        omega
      · simp only [if_neg hl] at *
        omega) (by omega) (by omega)
    rwa [Int.zero_mul, Int.add_zero] at this

/-- **C70**: a `float` of 32 bits is stored as it is. -/
theorem c70_float_exact {neg : Bool} {u : Nat} (h : Dbl.IsFloat u) {x : CValue} :
    Stores .float32 (.float (.fin neg u)) x ↔ x = .flt (.fin neg u) := by
  constructor
  · intro hs
    cases hs with
    | truncated hd => cases hd
    | single _ _ hn =>
      have := hn u h
      unfold dist at this
      congr 2
      omega
  · rintro rfl
    exact .single (isFloat_le h) h fun w' _ => by unfold dist; omega

/-- **C48**: the fill value of a dataset of doubles (or complex numbers of them) is the number it was created with. -/
theorem c48_double {dt : Datatype} (hd : dt = .float64 ∨ dt = .complex128 ∨ dt = .complex256) (d : Dbl) : dt.castFill d = .ok (.dbl d) := by
  rcases hd with rfl | rfl | rfl <;> rfl

/-- **C48**: the fill value of a dataset of `float` is the number it was created with, if this is a `float`, NaN or an infinity. -/
theorem c48_float {dt : Datatype} (hd : dt = .float32 ∨ dt = .complex64) {d : Dbl} (h : ∀ neg u, d = .fin neg u → Dbl.IsFloat u) :
    dt.castFill d = .ok (.dbl d) := by
  have e : d.toFloat = .ok d := by
    cases d with
    | nan => rfl
    | inf => rfl
    | fin neg u =>
      have h := h neg u rfl
      unfold Dbl.toFloat
      dsimp only
      rw [if_pos (isFloat_le h), round_isFloat h]
  rcases hd with rfl | rfl
  · show (do return FillVal.dbl (← d.toFloat)) = _
    rw [e]; rfl
  · show (do return FillVal.dbl (← d.toFloat)) = _
    rw [e]; rfl

/-- **C48**: otherwise it is a nearest `float`. -/
theorem c48_float_rounded {dt : Datatype} (hd : dt = .float32 ∨ dt = .complex64) {neg : Bool} {u : Nat} {x : FillVal}
    (h : dt.castFill (.fin neg u) = .ok x) :
    ∃ w, x = .dbl (.fin neg w) ∧ Dbl.IsFloat w ∧ ∀ w', Dbl.IsFloat w' → dist u w ≤ dist u w' := by
  have h : (do return FillVal.dbl (← Dbl.toFloat (.fin neg u))) = Res.ok x := by rcases hd with rfl | rfl <;> exact h
  obtain ⟨d, h1, h2⟩ := Res.bind_eq_ok.1 h
  cases h2
  unfold Dbl.toFloat at h1
  dsimp only at h1
  by_cases hu : u ≤ Dbl.maxFloat
  · rw [if_pos hu] at h1
    cases h1
    exact ⟨_, rfl, isFloat_round hu, fun w' hw' => float_nearest u hw'⟩
  · rw [if_neg hu] at h1; cases h1

/-- 0.1 is not a `float`; the fill value is the closest one, 13421773 * 2^-27. -/
example : Datatype.castFill .float32 (.fin false (3602879701896397 * 2 ^ 1019)) = .ok (.dbl (.fin false (13421773 * 2 ^ 1047))) := by
  decide +kernel

set_option exponentiation.threshold 2000 in
/-- **C48**, disagreement: to create a dataset of `float` with the fill value 2^129, which is a double, is undefined behaviour. -/
theorem c48_float_overflow_counterexample : ∃ u, (Dbl.fin false u).Representable ∧ Datatype.castFill .float32 (.fin false u) = .ub :=
  ⟨2 ^ 1203, ⟨1, 1203, by decide, by decide, (Nat.one_mul _).symm⟩, by decide +kernel⟩

/-- **C70** with **C43**: `ds[index] = v` with a number that can be stored: when it has completed, the elements that numpy's
    rules select have such a value, the same for all of them; the others are as before.  `elem` takes the value to an element
    of the dataset. -/
theorem c70_assign {N : NbCast} (hN : N.Ok) {dt : Datatype} {v : PyNumber} {x₀ : CValue} (hv : Stores dt v x₀)
    (elem : CValue → E.T) {ds : Dataset E} {ws : List (Write E.T)} {σ : Store} (hreach : Reaches ds ws σ)
    {index : List PyItem} {ss : List AxisSel} (h : npSelect index ds.shape = some ss) (ht : TameIndex index ds.shape)
    (scratch : Nat → List E.T) {ts : List (Prog Unit)}
    (hts : pySetNumber N dt (fun off shape x => ds.writeScalar off shape (elem x) scratch) ds.shape index v = .ok ts)
    {is : List Nat} {σ' : Store} (hc : Completes ts is σ σ') :
    ∃ x ws', Stores dt v x ∧ Reaches ds (ws ++ ws') σ' ∧ ∀ (A : List Nat → E.T) (i : List Nat),
      ((∃ j, Picks ss j i) → replay A ws' i = elem x) ∧ ((¬ ∃ j, Picks ss j i) → replay A ws' i = A i) := by
  obtain ⟨x, hx, hw⟩ := c70_stored hN hv
  have e : pySetNumber N dt (fun off shape x => ds.writeScalar off shape (elem x) scratch) ds.shape index v
      = pySetScalar (fun off shape v => ds.writeScalar off shape v scratch) ds.shape index (elem x) := by
    unfold pySetNumber pySetScalar
    simp only [hw]
  rw [e] at hts
  obtain ⟨ws', h1, h2⟩ := c43_set_scalar hreach h ht (elem x) scratch hts hc
  exact ⟨x, ws', hx, h1, h2⟩

/-- **C70** with **C43** for sharded datasets -/
theorem c70_assign_sharded {N : NbCast} (hN : N.Ok) {dt : Datatype} {v : PyNumber} {x₀ : CValue} (hv : Stores dt v x₀)
    (elem : CValue → E.T) {sd : ShardedDataset E} {ws : List (Write E.T)} {σ : Store} (hreach : ShardedReaches sd ws σ)
    {index : List PyItem} {ss : List AxisSel} (h : npSelect index sd.shape = some ss) (ht : TameIndex index sd.shape)
    (scratch : Nat → List E.T) {ts : List (Prog Unit)}
    (hts : pySetNumber N dt (fun off shape x => sd.writeRegion (scalarRequest (elem x)) off shape scratch) sd.shape index v
      = .ok ts)
    {is : List Nat} {σ' : Store} (hc : Completes ts is σ σ') :
    ∃ x ws', Stores dt v x ∧ ShardedReaches sd (ws ++ ws') σ' ∧ ∀ (A : List Nat → E.T) (i : List Nat),
      ((∃ j, Picks ss j i) → replay A ws' i = elem x) ∧ ((¬ ∃ j, Picks ss j i) → replay A ws' i = A i) := by
  obtain ⟨x, hx, hw⟩ := c70_stored hN hv
  have e : pySetNumber N dt (fun off shape x => sd.writeRegion (scalarRequest (elem x)) off shape scratch) sd.shape index v
      = pySetScalar (fun off shape v => sd.writeRegion (scalarRequest v) off shape scratch) sd.shape index (elem x) := by
    unfold pySetNumber pySetScalar
    simp only [hw]
  rw [e] at hts
  obtain ⟨ws', h1, h2⟩ := c43_set_scalar_sharded hreach h ht (elem x) scratch hts hc
  exact ⟨x, ws', hx, h1, h2⟩

/-- **C70**: a complex number cannot be assigned to elements that are not complex: an error, and nothing is written. -/
theorem c70_complex {N : NbCast} (hN : N.Ok) {dt : Datatype} (hdt : dt ≠ .complex64 ∧ dt ≠ .complex128 ∧ dt ≠ .complex256)
    (re im : Dbl) {α : Type} (write : List Nat → List Nat → CValue → Res (List α)) (off shape : List Nat) :
    pyWriteScalar N dt write off shape (.complex re im) = .throw .runtimeError := by
  rw [pyWriteScalar_eq N write off shape _ hdt]
  have : castScalar N (.complex re im) dt = .throw .runtimeError := by
    cases dt with
    | complex64 => exact absurd rfl hdt.1
    | complex128 => exact absurd rfl hdt.2.1
    | complex256 => exact absurd rfl hdt.2.2
    | float32 => show castToFloat N _ _ = _; unfold castToFloat; rw [hN.doubleComplex]
    | float64 => show castToFloat N _ _ = _; unfold castToFloat; rw [hN.doubleComplex]
    | _ => show castToInt N _ _ _ _ _ = _; unfold castToInt; rw [hN.intComplex, hN.doubleComplex]
  rw [this]
  rfl

/-- **C70, negation**: nothing can be assigned to datasets of complex numbers, for every number, although the C++ library
    and the conversions of the module have the types: the data type has no name in Python. -/
theorem c70_complex_dataset_counterexample (N : NbCast) {dt : Datatype} (hdt : dt = .complex64 ∨ dt = .complex128)
    (v : PyNumber) {α : Type} (write : List Nat → List Nat → CValue → Res (List α)) (off shape : List Nat) :
    pyWriteScalar N dt write off shape v = .throw .typeError := by
  rcases hdt with rfl | rfl <;> rfl

/-- **C70, negation**: an integer that is not one of the type of 64 bits with the sign of the data type, like `-1` for every
    unsigned type or `2^63` for `int64`, is converted by way of a double, to a type that does not have the value: undefined
    behaviour.  (For `int64`, a number little below the smallest one can round to it.) -/
theorem c70_too_large_counterexample {N : NbCast} (hN : N.Ok) {dt : Datatype} {lo hi i : Int} (hd : dt.range = some (lo, hi))
    (hf : ¬ Datatype.Fits64 lo i) (hi' : 0 ≤ i ∨ lo ≠ -2 ^ 63) (hmax : i.natAbs * Dbl.one ≤ Dbl.maxDouble)
    {α : Type} (write : List Nat → List Nat → CValue → Res (List α)) (off shape : List Nat) :
    pyWriteScalar N dt write off shape (.int i) = .ub := by
  rw [pyWriteScalar_eq N write off shape _ (range_real hd), castScalar_int hd]
  unfold castToInt
  rw [hN.intInt, if_neg, hN.doubleInt, if_pos (roundNat_le_max hmax)]
  · have : Dbl.toInt lo hi (.ofInt i) = .ub := by
      unfold Dbl.toInt
      rw [trunc_round]
      dsimp only
      rw [if_neg]
      obtain ⟨hlt, hlo, hhi⟩ := range_bounds hd
      unfold Datatype.Fits64 at hf
      by_cases hl : lo < 0
      · simp only [if_pos hl] at hf hlo hhi
        have := roundNat_ge (n := i.natAbs) (k := 63) (by omega)
        by_cases h0 : i < 0
        · rw [if_pos h0]
          omega
        · rw [if_neg h0]
          omega
      · simp only [if_neg hl] at hf hlo hhi
        by_cases h0 : i < 0
        · have := roundNat_ge (n := i.natAbs) (k := 0) (by omega)
          rw [if_pos h0]
          omega
        · have := roundNat_ge (n := i.natAbs) (k := 64) (by omega)
          rw [if_neg h0]
          omega
    dsimp only
    rw [this]
    rfl
  · unfold Datatype.Fits64 at hf
    by_cases hl : lo < 0
    · simpa only [if_pos hl] using hf
    · simpa only [if_neg hl] using hf

/-- **C70, negation**: so is a `float` that is not a number, is infinite or has an integral part beyond 64 bits, assigned to
    integers. -/
theorem c70_float_counterexample {N : NbCast} (hN : N.Ok) {dt : Datatype} {lo hi : Int} {d : Dbl} (hd : dt.range = some (lo, hi))
    (h : ∀ t, d.trunc = some t → ¬ Datatype.Fits64 lo t)
    {α : Type} (write : List Nat → List Nat → CValue → Res (List α)) (off shape : List Nat) :
    pyWriteScalar N dt write off shape (.float d) = .ub := by
  obtain ⟨hlt, hlo, hhi⟩ := range_bounds hd
  rw [pyWriteScalar_eq N write off shape _ (range_real hd), castScalar_int hd]
  unfold castToInt
  have h1 : N.toInt (if lo < 0 then -2 ^ 63 else 0) (if lo < 0 then 2 ^ 63 else 2 ^ 64) (.float d) = none := by
    cases e : N.toInt (if lo < 0 then -2 ^ 63 else 0) (if lo < 0 then 2 ^ 63 else 2 ^ 64) (.float d) with
    | none => rfl
    | some t =>
      obtain ⟨e1, e2⟩ := hN.intFloat _ _ _ _ e
      refine absurd ?_ (h t e1)
      unfold Datatype.Fits64
      by_cases hl : lo < 0
      · simpa only [if_pos hl] using e2
      · simpa only [if_neg hl] using e2
  rw [h1, hN.doubleFloat]
  dsimp only
  have : Dbl.toInt lo hi d = .ub := by
    unfold Dbl.toInt
    cases e : d.trunc with
    | none => rfl
    | some t =>
      have hf := h t e
      dsimp only
      rw [if_neg]
      unfold Datatype.Fits64 at hf
      by_cases hl : lo < 0
      · simp only [if_pos hl] at hf hlo hhi
        omega
      · simp only [if_neg hl] at hf hlo hhi
        omega
  rw [this]
  rfl

/-- **C70, negation**: the smallest integer of 64 bits is also what an integer becomes that is too small for `int64`. -/
theorem c70_rounded_counterexample {N : NbCast} (hN : N.Ok) {α : Type} (write : List Nat → List Nat → CValue → Res (List α))
    (off shape : List Nat) :
    pyWriteScalar N .int64 write off shape (.int (-2 ^ 63 - 1)) = write off shape (.int (-2 ^ 63)) := by
  rw [pyWriteScalar_eq N write off shape _ (by decide)]
  have : castScalar N (.int (-2 ^ 63 - 1)) .int64 = .ok (.int (-2 ^ 63)) := by
    show castToInt N _ _ _ _ _ = _
    unfold castToInt
    rw [hN.intInt, if_neg (by decide), hN.doubleInt, if_pos (by decide +kernel)]
    decide +kernel
  rw [this]
  rfl

/-- Conversions as they are for the numbers of Python -/
def exCast : NbCast where
  toInt lo hi v := match v with
    | .int i => if lo ≤ i ∧ i < hi then some i else none
    | _ => none
  toDouble v := match v with
    | .int i => if Dbl.roundNat i.natAbs * Dbl.one ≤ Dbl.maxDouble then some (.ofInt i) else none
    | .float d => some d
    | .complex .. => none
  toComplex v := match v with
    | .complex re im => some (re, im)
    | _ => none

theorem exCast_ok : exCast.Ok where
  intInt _ _ _ := rfl
  intFloat _ _ _ _ h := by cases h
  intComplex _ _ _ _ := rfl
  doubleInt _ := by simp only [exCast]
  doubleFloat _ := rfl
  doubleComplex _ _ := rfl

-- C70: 2^64 - 1 to `uint64`, 300 to `uint8`, 2.75 to `int16`, 2^53 + 1 to `float64` and 0.1 to `float32`
example : pyWriteScalar exCast .uint64 (fun _ _ x => .ok [x]) [0] [1] (.int (2 ^ 64 - 1)) = .ok [.int (2 ^ 64 - 1)] := by
  decide +kernel
example : pyWriteScalar exCast .uint8 (fun _ _ x => .ok [x]) [0] [1] (.int 300) = .ok [.int 44] := by decide +kernel
example : pyWriteScalar exCast .int16 (fun _ _ x => .ok [x]) [0] [1] (.float (.fin true (11 * 2 ^ 1072))) = .ok [.int (-2)] := by
  decide +kernel
example : pyWriteScalar exCast .float64 (fun _ _ x => .ok [x]) [0] [1] (.int (2 ^ 53 + 1))
    = .ok [.flt (.fin false (2 ^ 53 * Dbl.one))] := by
  decide +kernel
example : pyWriteScalar exCast .float32 (fun _ _ x => .ok [x]) [0] [1] (.float (.fin false (0x1999999999999A * 2 ^ 1018)))
    = .ok [.flt (.fin false (0xCCCCCD * 2 ^ 1047))] := by
  decide +kernel
example : Stores .uint8 (.int 300) (.int 44) := .integer (lo := 0) (hi := 2 ^ 8) (i := 300) (k := -1) rfl (by decide) (by decide) (by decide)
-- `ds[:] = -1` for a dataset of `uint8`; NaN for one of `int32`
example : pyWriteScalar exCast .uint8 (fun _ _ x => .ok [x]) [0] [1] (.int (-1)) = .ub := by decide +kernel
example : pyWriteScalar exCast .int32 (fun _ _ x => .ok [x]) [0] [1] (.float .nan) = .ub := by decide +kernel
example : ¬ Datatype.Fits64 0 (-1) := by decide


/-- Elements of `uint16` -/
def exNumber : CValue → U16.T
  | .int i => Fin.ofNat (256 ^ 2) i.toNat
  | _ => (0 : Fin (256 ^ 2))

-- `ds[1] = 70000` for a dataset of `uint16` of shape (5, 3): the calls that are made, and that they can complete
example : npSelect [.int 1] (exDataset true).shape = some [.point 1, .range [0, 1, 2]] ∧
    TameIndex [.int 1] (exDataset true).shape ∧ Stores .uint16 (.int 70000) (.int 4464) ∧
    ∃ ts is σ', Reaches (exDataset true) [] (fun _ => none) ∧
      pySetNumber exCast .uint16 (fun off shape x => (exDataset true).writeScalar off shape (exNumber x) fun _ => [])
        (exDataset true).shape [.int 1] (.int 70000) = .ok ts ∧ Completes ts is (fun _ => none) σ' := by
  refine ⟨by decide, fun items hi => ?_,
    .integer (lo := 0) (hi := 2 ^ 16) (i := 70000) (k := -1) rfl (by decide) (by decide) (by decide), ?_⟩
  · obtain rfl : [.int 1, .slice none none none] = items := by
      have e : npExpand [.int 1] (exDataset true).shape.length = some [.int 1, .slice none none none] := by decide
      rw [e] at hi
      exact Option.some.inj hi
    intro p hp
    have hp' : p ∈ [(PyItem.int 1, 5), (PyItem.slice none none none, 3)] := hp
    simp only [List.mem_cons, List.not_mem_nil, or_false] at hp'
    rcases hp' with rfl | rfl
    · show (1 : Int) ≠ -((5 : Nat) : Int)
      decide
    · intro x hx
      cases hx
  have h0 : Reaches (exDataset true) [] (fun _ => none) := .empty fun _ _ => rfl
  have h := exDataset_wf true
  have hr : RegionOk (exDataset true).shape [1, 0] [1, 3] := by decide
  obtain ⟨is, rs, hfin⟩ := exists_finished
    (((exDataset true).jobs (scalarRequest (exNumber (.int 4464))) [1, 0] [1, 3] fun _ => []).map Prod.snd, fun _ => none)
  exact ⟨_, is, _, h0, (show _ = (exDataset true).writeScalar [1, 0] [1, 3] (exNumber (.int 4464)) (fun _ => []) from rfl).trans
    (writeRegion_jobs h hr _ _), rs, hfin, writeRegion_total h rfl trivial hr (scalarRequest_spec _ _)
      (reaches_refines h rfl h0) hfin, rfl⟩

end Z5.Props
