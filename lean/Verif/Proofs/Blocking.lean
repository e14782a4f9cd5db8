import Verif.Model.Blocking
import Verif.Spec.Grid

/-! # Lemmas about the block grid -/

namespace Z5
open Spec

/-! ## one axis -/

theorem lt_blocksInAxis {s b c : Nat} (hb : 0 < b) : c < blocksInAxis s b ↔ c * b < s := by
  unfold blocksInAxis
  have e := Nat.div_add_mod s b
  have hm := Nat.mod_lt s hb
  split
  · next h =>
    rw [h, Nat.add_zero] at e
    rw [Nat.add_zero]
    constructor
    · intro h1
      calc c * b < (s / b) * b := (Nat.mul_lt_mul_right hb).2 h1
        _ = s := by rw [Nat.mul_comm]; exact e
    · intro h1
      rcases Nat.lt_or_ge c (s / b) with h2 | h2
      · exact h2
      · have := Nat.mul_le_mul_right b h2
        rw [Nat.mul_comm (s / b)] at this
        omega
  · next h =>
    constructor
    · intro h1
      have : c * b ≤ s / b * b := Nat.mul_le_mul_right b (by omega)
      rw [Nat.mul_comm (s / b)] at this
      omega
    · intro h1
      have : c ≤ s / b := (Nat.le_div_iff_mul_le hb).2 (by omega)
      omega

theorem div_eq_iff {x b c : Nat} (hb : 0 < b) : x / b = c ↔ c * b ≤ x ∧ x < (c + 1) * b := by
  rw [Nat.div_eq_iff hb]
  constructor
  · rintro ⟨h1, h2⟩; rw [Nat.add_mul, Nat.one_mul]; omega
  · rintro ⟨h1, h2⟩; rw [Nat.add_mul, Nat.one_mul] at h2; omega

/-! ## grid -/

theorem inBox_blocksPerDimension : ∀ {shape chunk c : List Nat},
    All₂ (fun s b => 0 < b ∧ s + b ≤ 2 ^ 64) shape chunk →
    (InBox c (blocksPerDimension shape chunk) ↔ InGrid shape chunk c)
  | [], [], [], _ => by simp [blocksPerDimension, InGrid]
  | [], [], _ :: _, _ => by simp [blocksPerDimension, InGrid]
  | _ :: _, _ :: _, [], _ => by simp [blocksPerDimension, InGrid]
  | s :: ss, b :: bs, c :: cs, h => by
    have ih := inBox_blocksPerDimension (c := cs) h.2
    have h1 := lt_blocksInAxis (s := s) (c := c) h.1.1
    simp only [blocksPerDimension, InGrid] at ih ⊢
    simp [List.zipWith, h1, ih]

theorem length_blocksPerDimension {shape chunk : List Nat} (h : shape.length = chunk.length) :
    (blocksPerDimension shape chunk).length = shape.length := by
  simp [blocksPerDimension, h]

theorem foldl_wmul (l : List Nat) : ∀ a, l.foldl wmul a = if l = [] then a else (a * prod l) % 2 ^ 64 := by
  induction l with
  | nil => simp
  | cons n l ih =>
    intro a
    rw [List.foldl_cons, ih]
    by_cases hl : l = []
    · subst hl; simp [wmul]
    · simp only [hl, if_false, wmul, prod_cons, reduceCtorEq]
      rw [Nat.mod_mul_mod, Nat.mul_assoc]

theorem accumulateMul_eq {l : List Nat} (h : prod l < 2 ^ 64) : accumulateMul l = prod l := by
  unfold accumulateMul
  rw [foldl_wmul]
  split
  · next h' => subst h'; rfl
  · rw [Nat.one_mul, Nat.mod_eq_of_lt h]

theorem blockStridesOf_eq : ∀ {l : List Nat}, AllPos l → prod l < 2 ^ 64 →
    blockStridesOf l = strides l
  | [], _, _ => rfl
  | [_], _, _ => rfl
  | n :: m :: s, hp, h => by
    have h' : prod (m :: s) < 2 ^ 64 := by
      refine Nat.lt_of_le_of_lt ?_ h
      rw [prod_cons n]
      exact Nat.le_mul_of_pos_left _ hp.1
    have ih := blockStridesOf_eq hp.2 h'
    rw [blockStridesOf, ih]
    simp only [strides_cons]
    congr 1
    rw [wmul_eq (by rw [Nat.mul_comm]; exact h'), Nat.mul_comm, prod_cons]

theorem idToCoordLoop_eq : ∀ {l : List Nat} {k : Nat}, AllPos l → prod l < 2 ^ 64 → k < prod l →
    idToCoordLoop (strides l) k = .ok (unravel l k)
  | [], _, _, _, _ => rfl
  | n :: s, k, hp, h, hk => by
    have hps := hp.2.prod_pos
    have h' : prod s < 2 ^ 64 := by
      refine Nat.lt_of_le_of_lt ?_ h
      rw [prod_cons n]; exact Nat.le_mul_of_pos_left _ hp.1
    have hd : k / prod s < n := by rw [Nat.div_lt_iff_lt_mul hps]; exact hk
    have hmul : k / prod s * prod s ≤ k := Nat.div_mul_le_self _ _
    have e : k - k / prod s * prod s = k % prod s := by
      rw [Nat.mul_comm]; exact (Nat.mod_eq_sub_mul_div).symm
    have ih := idToCoordLoop_eq hp.2 h' (Nat.mod_lt k hps)
    have hu : unravel s (k % prod s) = unravel s k := by
      have e2 : k = k % prod s + (k / prod s) * prod s := by
        rw [Nat.mul_comm]; exact (Nat.mod_add_div k (prod s)).symm
      conv => rhs; rw [e2]
      rw [unravel_add_mul _ _ hp.2]
    rw [strides_cons, idToCoordLoop, if_neg (by omega)]
    simp only [unravel_cons]
    rw [wmul_eq (by omega), wsub_eq hmul (by omega), e, ih, hu, Nat.mod_eq_of_lt hd]
    rfl

theorem coordToIdLoop_eq : ∀ {l c : List Nat} {a : Nat}, InBox c l → a + prod l ≤ 2 ^ 64 →
    coordToIdLoop (strides l) c a = .ok (a + ravel l c)
  | [], [], _, _, _ => by simp [coordToIdLoop]
  | n :: s, x :: c, a, hb, h => by
    have hl : ravel s c < prod s := ravel_lt hb.2
    have hl2 := ravel_lt hb
    rw [ravel_cons, prod_cons] at hl2
    rw [prod_cons] at h
    have hx : (x + 1) * prod s ≤ n * prod s := Nat.mul_le_mul_right _ hb.1
    rw [Nat.add_mul, Nat.one_mul] at hx
    rw [strides_cons, coordToIdLoop, wmul_eq (by rw [Nat.mul_comm]; omega), Nat.mul_comm (prod s),
      wadd_eq (by omega), coordToIdLoop_eq hb.2 (by omega), ravel_cons]
    congr 1; omega

/-! ## construction -/

theorem Spec.ChunkDims.length_eq {shape chunk : List Nat} (h : ChunkDims shape chunk) :
    shape.length = chunk.length := h.axes.length_eq

theorem zero_not_mem_of_dims : ∀ {shape chunk : List Nat},
    All₂ (fun s b => 0 < b ∧ s + b ≤ 2 ^ 64) shape chunk → 0 ∉ chunk
  | [], [], _ => by simp
  | s :: ss, b :: bs, h => by
    have := zero_not_mem_of_dims h.2
    have h1 := h.1.1
    simp only [List.mem_cons, not_or]
    exact ⟨by omega, this⟩

/-- the object built for usable chunk extents -/
def mkBlocking (shape chunk : List Nat) : Blocking :=
  { shape := shape, blockShape := chunk, blocksPerDim := blocksPerDimension shape chunk,
    blockStrides := blockStridesOf (blocksPerDimension shape chunk),
    numberOfBlocks := accumulateMul (blocksPerDimension shape chunk) }

theorem make_eq {shape chunk : List Nat} (h : ChunkDims shape chunk) :
    Blocking.make shape chunk = .ok (mkBlocking shape chunk) := by
  have hl := h.length_eq
  unfold Blocking.make
  rw [if_neg h.nonempty, if_neg (by omega), if_neg]
  · rfl
  · rw [hl, List.take_length]
    exact zero_not_mem_of_dims h.axes

/-! ## begin and extent of a block -/

@[simp] theorem extV_nil (b c) : extV [] b c = [] := rfl
@[simp] theorem extV_cons (s ss b bs c cs) : extV (s :: ss) (b :: bs) (c :: cs) =
    (min ((c + 1) * b) s - c * b) :: extV ss bs cs := rfl

theorem length_extV : ∀ {shape chunk c : List Nat}, InGrid shape chunk c →
    (extV shape chunk c).length = shape.length
  | [], [], [], _ => rfl
  | _ :: ss, _ :: bs, _ :: cs, h => by simp [length_extV (shape := ss) (chunk := bs) (c := cs) h.2]

theorem loops_eq : ∀ {shape chunk c : List Nat},
    All₂ (fun s b => 0 < b ∧ s + b ≤ 2 ^ 64) shape chunk → InGrid shape chunk c →
    beginLoop chunk c = mulV c chunk ∧
    List.zipWith wsub (endLoop shape chunk c) (mulV c chunk) = extV shape chunk c ∧
    endLoop shape chunk c = addV (mulV c chunk) (extV shape chunk c)
  | [], [], [], _, _ => ⟨rfl, rfl, rfl⟩
  | s :: ss, b :: bs, c :: cs, h, hg => by
    obtain ⟨i1, i2, i3⟩ := loops_eq (c := cs) h.2 hg.2
    have h1 := h.1.1
    have h2 := h.1.2
    have h3 : c * b < s := hg.1
    have h4 : c ≤ c * b := Nat.le_mul_of_pos_right c h1
    have h5 : (c + 1) * b = c * b + b := by rw [Nat.add_mul, Nat.one_mul]
    simp only [beginLoop, endLoop, mulV_cons, extV_cons, addV_cons, List.zipWith_cons_cons, i1, i2]
    rw [wmul_eq (by omega), wadd_eq (by omega), wmul_eq (by omega), wsub_eq (by omega) (by omega)]
    refine ⟨rfl, rfl, ?_⟩
    rw [i3]
    congr 1
    omega

theorem getBlockBeginAndShape_eq {shape chunk c : List Nat} (h : ChunkDims shape chunk)
    (hg : InGrid shape chunk c) :
    (mkBlocking shape chunk).getBlockBeginAndShape c =
      .ok (mulV c chunk, extV shape chunk c) := by
  obtain ⟨i1, i2, _⟩ := loops_eq h.axes hg
  have hl : shape.length = chunk.length ∧ chunk.length = c.length := All₃.length_eq hg
  unfold Blocking.getBlockBeginAndShape mkBlocking
  simp only
  rw [if_neg (by omega), hl.1, List.take_length, i1, i2]

theorem getBlockBeginAndEnd_eq {shape chunk c : List Nat} (h : ChunkDims shape chunk)
    (hg : InGrid shape chunk c) :
    (mkBlocking shape chunk).getBlockBeginAndEnd c =
      .ok (mulV c chunk, addV (mulV c chunk) (extV shape chunk c)) := by
  obtain ⟨i1, i2, i3⟩ := loops_eq h.axes hg
  have hl : shape.length = chunk.length ∧ chunk.length = c.length := All₃.length_eq hg
  unfold Blocking.getBlockBeginAndEnd mkBlocking
  simp only
  rw [if_neg (by omega), hl.1, List.take_length, i1, i3]

theorem inChunk_iff_region : ∀ {shape chunk c x : List Nat}, InGrid shape chunk c →
    (InChunk shape chunk c x ↔ InRegion x (mulV c chunk) (extV shape chunk c))
  | [], [], [], [], _ => by simp [InChunk, InRegion]
  | [], [], [], _ :: _, _ => by simp [InChunk, InRegion, All₄]
  | _ :: _, _ :: _, _ :: _, [], _ => by simp [InChunk, InRegion, All₄]
  | s :: ss, b :: bs, c :: cs, x :: xs, h => by
    have ih := inChunk_iff_region (x := xs) h.2
    have h1 : c * b < s := h.1
    have h5 : (c + 1) * b = c * b + b := by rw [Nat.add_mul, Nat.one_mul]
    simp only [InChunk, InRegion, mulV_cons, extV_cons, all₄_cons, all₃_cons] at ih ⊢
    rw [ih]
    constructor
    · rintro ⟨h, h'⟩; exact ⟨by omega, h'⟩
    · rintro ⟨h, h'⟩; exact ⟨by omega, h'⟩

theorem extV_pos : ∀ {shape chunk c : List Nat},
    All₂ (fun s b => 0 < b ∧ s + b ≤ 2 ^ 64) shape chunk → InGrid shape chunk c →
    AllPos (extV shape chunk c)
  | [], [], [], _, _ => trivial
  | s :: ss, b :: bs, c :: cs, h, hg => by
    have ih := extV_pos (c := cs) h.2 hg.2
    have h1 := h.1.1
    have h3 : c * b < s := hg.1
    have h5 : (c + 1) * b = c * b + b := by rw [Nat.add_mul, Nat.one_mul]
    refine ⟨?_, ih⟩
    omega

theorem inChunk_iff_div : ∀ {shape chunk c x : List Nat},
    All₂ (fun s b => 0 < b ∧ s + b ≤ 2 ^ 64) shape chunk →
    (InChunk shape chunk c x ↔ InBox x shape ∧ c = divV x chunk)
  | [], [], c, x, _ => by
    cases c <;> cases x <;> simp [InChunk, All₄, divV]
  | s :: ss, b :: bs, [], [], h => by simp [InChunk, All₄]
  | s :: ss, b :: bs, c :: cs, [], h => by simp [InChunk, All₄]
  | s :: ss, b :: bs, [], x :: xs, h => by simp [InChunk, All₄]
  | s :: ss, b :: bs, c :: cs, x :: xs, h => by
    have ih := inChunk_iff_div (c := cs) (x := xs) h.2
    have hd := div_eq_iff (x := x) (c := c) h.1.1
    simp only [InChunk, all₄_cons, inBox_cons, divV_cons, List.cons.injEq] at ih ⊢
    rw [ih, eq_comm (a := c), hd]
    constructor
    · rintro ⟨⟨h1, h2, h3⟩, h4, h5⟩; exact ⟨⟨h3, h4⟩, ⟨h1, h2⟩, h5⟩
    · rintro ⟨⟨h3, h4⟩, ⟨h1, h2⟩, h5⟩; exact ⟨⟨h1, h2, h3⟩, h4, h5⟩

theorem inGrid_of_inChunk : ∀ {shape chunk c x : List Nat}, InChunk shape chunk c x →
    InGrid shape chunk c
  | [], [], [], [], _ => trivial
  | _ :: _, _ :: _, _ :: _, _ :: _, h => ⟨by have := h.1; omega, inGrid_of_inChunk h.2⟩

theorem exists_inChunk {shape chunk c : List Nat}
    (h : All₂ (fun s b => 0 < b ∧ s + b ≤ 2 ^ 64) shape chunk) (hg : InGrid shape chunk c) :
    InChunk shape chunk c (mulV c chunk) := by
  induction shape generalizing chunk c with
  | nil =>
    cases chunk <;> cases c <;> simp_all [InGrid, InChunk]
  | cons s ss ih =>
    match chunk, c, h, hg with
    | b :: bs, c :: cs, h, hg =>
      have h1 := h.1.1
      have h3 : c * b < s := hg.1
      have h5 : (c + 1) * b = c * b + b := by rw [Nat.add_mul, Nat.one_mul]
      exact ⟨⟨Nat.le_refl _, by show c * b < _; omega, h3⟩, ih h.2 hg.2⟩

end Z5
