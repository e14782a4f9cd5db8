import Verif.Proofs.Blocking
import Verif.Lib.Odometer

/-! # `makeRegularGrid` and the blocks overlapping a region -/

namespace Z5
open Spec

/-- extents of the grid between `min` and `max` (inclusive) -/
def spanV : List Nat → List Nat → List Nat
  | mn :: mns, mx :: mxs => (mx - mn + 1) :: spanV mns mxs
  | _, _ => []

@[simp] theorem spanV_nil : spanV [] [] = [] := rfl
@[simp] theorem spanV_cons (a as b bs) : spanV (a :: as) (b :: bs) = (b - a + 1) :: spanV as bs := rfl

def SpanOk (mins maxs : List Nat) : Prop := All₂ (fun mn mx => mn ≤ mx ∧ mx + 1 < 2 ^ 64) mins maxs

theorem spanV_pos : ∀ {mins maxs : List Nat}, SpanOk mins maxs → AllPos (spanV mins maxs)
  | [], [], _ => trivial
  | _ :: _, _ :: _, h => ⟨by simp, spanV_pos h.2⟩

theorem gridFuel_eq : ∀ {mins maxs : List Nat}, SpanOk mins maxs →
    gridFuel mins maxs = prod (spanV mins maxs)
  | [], [], _ => rfl
  | _ :: _, _ :: _, h => by rw [gridFuel, spanV_cons, prod_cons, gridFuel_eq h.2]

theorem gridBump_eq : ∀ {mins maxs : List Nat} (k : Nat), SpanOk mins maxs →
    gridBump mins maxs (addV mins (unravel (spanV mins maxs) k)) =
      (addV mins (unravel (spanV mins maxs) (k + 1)),
        decide ((k + 1) % prod (spanV mins maxs) ≠ 0))
  | [], [], k, _ => by simp [gridBump, Nat.mod_one]
  | mn :: mns, mx :: mxs, k, h => by
    have ih := gridBump_eq k h.2
    have hP := (spanV_pos h.2).prod_pos
    have h1 := h.1.1
    have h2 := h.1.2
    simp only [spanV_cons, unravel_cons, addV_cons, gridBump, ih, prod_cons]
    have hn : 0 < mx - mn + 1 := by omega
    by_cases hc : (k + 1) % prod (spanV mns mxs) = 0
    · have hq := succ_div_of_mod_eq hP hc
      have hz := mod_mul_eq_zero (n := mx - mn + 1) (k := k + 1) hP
      rw [hq] at hz ⊢
      simp only [hc, true_and] at hz
      simp only [hc, ne_eq, not_true_eq_false, decide_false, Bool.false_eq_true, if_false]
      rcases mod_succ_cases (q := k / prod (spanV mns mxs)) hn with ⟨ha, hb⟩ | ⟨ha, hb⟩
      · rw [hb] at hz ⊢
        have hz' : ¬ (k + 1) % ((mx - mn + 1) * prod (spanV mns mxs)) = 0 := by rw [hz]; omega
        rw [wadd_eq (by omega), if_pos (by omega)]
        simp only [hz', not_false_eq_true, decide_true, Nat.add_assoc]
      · rw [hb] at hz ⊢
        have hz' : (k + 1) % ((mx - mn + 1) * prod (spanV mns mxs)) = 0 := by rw [hz]
        rw [wadd_eq (by omega), if_neg (by omega)]
        simp only [hz', not_true_eq_false, decide_false, Nat.add_zero]
    · have hq := succ_div_of_mod_ne hP hc
      have hz := mod_mul_eq_zero (n := mx - mn + 1) (k := k + 1) hP
      have hz' : ¬ (k + 1) % ((mx - mn + 1) * prod (spanV mns mxs)) = 0 := by rw [hz]; exact fun h => hc h.1
      simp only [hc, ne_eq, not_false_eq_true, decide_true, if_true, hq, hz']

theorem gridLoop_eq {mins maxs : List Nat} (h : SpanOk mins maxs) : ∀ (fuel k : Nat),
    0 < fuel → k + fuel = prod (spanV mins maxs) →
    gridLoop mins maxs fuel (addV mins (unravel (spanV mins maxs) k)) =
      some ((List.range' k fuel).map fun j => addV mins (unravel (spanV mins maxs) j))
  | 0, _, h0, _ => absurd h0 (by omega)
  | fuel + 1, k, _, hk => by
    rw [gridLoop, gridBump_eq k h]
    simp only
    by_cases hf : fuel = 0
    · subst hf
      have : (k + 1) % prod (spanV mins maxs) = 0 := by rw [← hk]; simp
      simp [this]
    · have : (k + 1) % prod (spanV mins maxs) ≠ 0 := by
        rw [Nat.mod_eq_of_lt (by omega)]; omega
      simp only [this, ne_eq, not_false_eq_true, decide_true, if_true]
      rw [gridLoop_eq h fuel (k + 1) (by omega) (by omega), List.range'_succ]
      rfl

theorem addV_unravel_zero : ∀ {mins maxs : List Nat}, SpanOk mins maxs →
    addV mins (unravel (spanV mins maxs) 0) = mins
  | [], [], _ => rfl
  | mn :: mns, mx :: mxs, h => by
    simp [addV_unravel_zero h.2]

theorem makeRegularGrid_eq {mins maxs : List Nat} (h : SpanOk mins maxs) (hne : mins ≠ []) :
    makeRegularGrid mins maxs = .ok ((boxList (spanV mins maxs)).map (addV mins)) := by
  have hl := All₂.length_eq h
  have hp := (spanV_pos h).prod_pos
  have := gridLoop_eq h (prod (spanV mins maxs)) 0 hp (by omega)
  rw [addV_unravel_zero h] at this
  unfold makeRegularGrid
  rw [if_neg (by omega), if_neg hne, gridFuel_eq h, this]
  simp only
  rw [boxList_eq_map _ (spanV_pos h), List.map_map, List.range_eq_range']
  rfl

theorem mem_grid : ∀ {mins maxs c : List Nat}, SpanOk mins maxs →
    (c ∈ (boxList (spanV mins maxs)).map (addV mins) ↔
      All₃ (fun mn mx c => mn ≤ c ∧ c ≤ mx) mins maxs c) := by
  intro mins maxs c h
  rw [List.mem_map]
  constructor
  · rintro ⟨i, hi, rfl⟩
    rw [mem_boxList] at hi
    induction mins generalizing maxs i with
    | nil =>
      match maxs, h with
      | [], _ => cases i <;> simp_all
    | cons mn mns ih =>
      match maxs, h, i, hi with
      | mx :: mxs, h, i :: is, hi =>
        have h1 : i < mx - mn + 1 := hi.1
        have h2 := h.1.1
        exact ⟨⟨by dsimp only; omega, by dsimp only; omega⟩, ih h.2 is hi.2⟩
  · intro hc
    refine ⟨subV c mins, ?_, ?_⟩
    · rw [mem_boxList]
      induction mins generalizing maxs c with
      | nil =>
        match maxs, h, c, hc with
        | [], _, [], _ => trivial
      | cons mn mns ih =>
        match maxs, h, c, hc with
        | mx :: mxs, h, c :: cs, hc =>
          have := hc.1.1
          have := hc.1.2
          exact ⟨by dsimp only; omega, ih h.2 hc.2⟩
    · induction mins generalizing maxs c with
      | nil =>
        match maxs, h, c, hc with
        | [], _, [], _ => rfl
      | cons mn mns ih =>
        match maxs, h, c, hc with
        | mx :: mxs, h, c :: cs, hc =>
          have := hc.1.1
          simp only [subV_cons, addV_cons, List.cons.injEq]
          exact ⟨by omega, ih h.2 hc.2⟩

theorem addV_left_inj : ∀ {m a b : List Nat}, a.length = m.length → b.length = m.length →
    addV m a = addV m b → a = b
  | [], [], [], _, _, _ => rfl
  | m :: ms, a :: as, b :: bs, ha, hb, h => by
    simp only [addV_cons, List.cons.injEq] at h
    have := addV_left_inj (m := ms) (a := as) (b := bs) (by simpa using ha) (by simpa using hb) h.2
    rw [this]; congr 1; omega

theorem length_spanV : ∀ {mins maxs : List Nat}, SpanOk mins maxs →
    (spanV mins maxs).length = mins.length
  | [], [], _ => rfl
  | _ :: _, _ :: _, h => by simp [length_spanV h.2]

theorem nodup_map_of_inj {α β : Type} {f : α → β} : ∀ {l : List α}, l.Nodup →
    (∀ a ∈ l, ∀ b ∈ l, f a = f b → a = b) → (l.map f).Nodup
  | [], _, _ => by simp
  | a :: l, h, hf => by
    rw [List.map_cons, List.nodup_cons]
    rw [List.nodup_cons] at h
    constructor
    · intro hm
      obtain ⟨b, hb, he⟩ := List.mem_map.1 hm
      have := hf b (List.mem_cons_of_mem _ hb) a List.mem_cons_self he
      exact h.1 (this ▸ hb)
    · exact nodup_map_of_inj h.2 fun x hx y hy => hf x (List.mem_cons_of_mem _ hx) y
        (List.mem_cons_of_mem _ hy)

theorem nodup_grid {mins maxs : List Nat} (h : SpanOk mins maxs) :
    ((boxList (spanV mins maxs)).map (addV mins)).Nodup := by
  apply nodup_map_of_inj (nodup_boxList _)
  intro a ha b hb he
  rw [mem_boxList] at ha hb
  exact addV_left_inj (by rw [ha.length_eq, length_spanV h]) (by rw [hb.length_eq, length_spanV h]) he

/-! ## blocks overlapping a region -/

theorem maxBlockId_eq {rb rs b s : Nat} (hb : 0 < b) (hs : s + b ≤ 2 ^ 64) (hr : 0 < rs)
    (he : rb + rs ≤ s) : maxBlockId rb rs b = (rb + rs - 1) / b := by
  unfold maxBlockId
  simp only
  rw [wadd_eq (by omega)]
  have hq := Nat.div_le_self (rb + rs) b
  obtain ⟨k, hk⟩ : ∃ k, rb + rs = k + 1 := ⟨rb + rs - 1, by omega⟩
  rw [hk] at hq ⊢
  split
  · next h =>
    have := succ_div_of_mod_eq hb h
    rw [this] at hq ⊢
    simp only [Nat.add_sub_cancel]
    generalize k / b = q at *
    rw [wsub_eq (by omega) (by omega)]; omega
  · next h =>
    have := succ_div_of_mod_ne hb h
    simp only [Nat.add_sub_cancel, this]

/-- last block touched, as a list -/
def lastV : List Nat → List Nat → List Nat → List Nat
  | rb :: rbs, rs :: rss, b :: bs => ((rb + rs - 1) / b) :: lastV rbs rss bs
  | _, _, _ => []

theorem maxLoop_eq : ∀ {shape chunk rb rs : List Nat},
    All₂ (fun s b => 0 < b ∧ s + b ≤ 2 ^ 64) shape chunk → RegionOk shape rb rs →
    maxLoop rb rs chunk = lastV rb rs chunk ∧ SpanOk (divV rb chunk) (lastV rb rs chunk)
  | [], [], [], [], _, _ => ⟨rfl, trivial⟩
  | s :: ss, b :: bs, rb :: rbs, rs :: rss, h, hr => by
    obtain ⟨i1, i2⟩ := maxLoop_eq h.2 hr.2
    have e := maxBlockId_eq h.1.1 h.1.2 hr.1.1 hr.1.2
    refine ⟨?_, ?_, i2⟩
    · rw [maxLoop, lastV, i1, e]
    · have h1 : 0 < rs := hr.1.1
      have h2 : rb + rs ≤ s := hr.1.2
      have h3 := h.1.2
      have h4 := h.1.1
      have := Nat.div_le_self (rb + rs - 1) b
      exact ⟨Nat.div_le_div_right (by omega), by omega⟩

theorem mem_overlap : ∀ {shape chunk rb rs c : List Nat},
    All₂ (fun s b => 0 < b ∧ s + b ≤ 2 ^ 64) shape chunk → RegionOk shape rb rs →
    (All₃ (fun mn mx c => mn ≤ c ∧ c ≤ mx) (divV rb chunk) (lastV rb rs chunk) c ↔
      ∃ x, InRegion x rb rs ∧ InChunk shape chunk c x)
  | [], [], [], [], c, _, _ => by
    cases c with
    | nil => simp only [divV_nil, lastV, all₃_nil, true_iff]; exact ⟨[], trivial, trivial⟩
    | cons c cs =>
      constructor
      · intro h; exact absurd h (by simp [divV_nil])
      · rintro ⟨x, _, h⟩; cases x <;> exact absurd h (by simp [InChunk, All₄])
  | s :: ss, b :: bs, rb :: rbs, rs :: rss, [], _, _ => by
    constructor
    · intro h; exact absurd h (by simp [lastV])
    · rintro ⟨x, _, h⟩; cases x <;> exact absurd h (by simp [InChunk, All₄])
  | s :: ss, b :: bs, rb :: rbs, rs :: rss, c :: cs, h, hr => by
    have ih := mem_overlap (c := cs) h.2 hr.2
    have h1 : 0 < rs := hr.1.1
    have h2 : rb + rs ≤ s := hr.1.2
    have h4 := h.1.1
    have h5 : (c + 1) * b = c * b + b := by rw [Nat.add_mul, Nat.one_mul]
    simp only [divV_cons, lastV, all₃_cons, ih]
    constructor
    · rintro ⟨⟨ha, hb⟩, x, hx, hc⟩
      have e1 : rb < (c + 1) * b := by
        have := (Nat.div_lt_iff_lt_mul h4).1 (Nat.lt_succ_of_le ha)
        simpa using this
      have e2 : c * b ≤ rb + rs - 1 := (Nat.le_div_iff_mul_le h4).1 hb
      refine ⟨max rb (c * b) :: x, ⟨?_, hx⟩, ⟨?_, hc⟩⟩
      · omega
      · omega
    · rintro ⟨x, hx, hc⟩
      match x, hx, hc with
      | x :: xs, hx, hc =>
        have a1 : rb ≤ x := hx.1.1
        have a2 : x < rb + rs := hx.1.2
        have a3 : c * b ≤ x := hc.1.1
        have a4 : x < (c + 1) * b := hc.1.2.1
        refine ⟨⟨?_, ?_⟩, xs, hx.2, hc.2⟩
        · have : rb / b < c + 1 := (Nat.div_lt_iff_lt_mul h4).2 (by omega)
          omega
        · exact (Nat.le_div_iff_mul_le h4).2 (by omega)

/-- the list returned for a region inside the array -/
def overlapList (chunk rb rs : List Nat) : List (List Nat) :=
  (boxList (spanV (divV rb chunk) (lastV rb rs chunk))).map (addV (divV rb chunk))

theorem getBlocksOverlappingRoi_eq {shape chunk rb rs : List Nat} (h : ChunkDims shape chunk)
    (hr : RegionOk shape rb rs) :
    (mkBlocking shape chunk).getBlocksOverlappingRoi rb rs = .ok (overlapList chunk rb rs) := by
  obtain ⟨i1, i2⟩ := maxLoop_eq h.axes hr
  have hl : shape.length = rb.length ∧ rb.length = rs.length := All₃.length_eq hr
  have hl2 := h.length_eq
  have hne : divV rb chunk ≠ [] := by
    intro he
    have h0 : (divV rb chunk).length = 0 := by rw [he]; rfl
    have : 0 < shape.length := List.length_pos_iff.2 h.nonempty
    simp only [divV, List.length_zipWith] at h0
    omega
  unfold Blocking.getBlocksOverlappingRoi mkBlocking
  simp only
  rw [if_neg (by omega), i1]
  exact makeRegularGrid_eq i2 hne

theorem mem_overlapList {shape chunk rb rs c : List Nat} (h : ChunkDims shape chunk)
    (hr : RegionOk shape rb rs) :
    c ∈ overlapList chunk rb rs ↔ ∃ x, InRegion x rb rs ∧ InChunk shape chunk c x := by
  rw [overlapList, mem_grid (maxLoop_eq h.axes hr).2, mem_overlap h.axes hr]

theorem nodup_overlapList {shape chunk rb rs : List Nat} (h : ChunkDims shape chunk)
    (hr : RegionOk shape rb rs) : (overlapList chunk rb rs).Nodup :=
  nodup_grid (maxLoop_eq h.axes hr).2

/-! ## intersection of one block with a region -/

theorem axisOverlap_eq {bb bsh rb rs : Nat} (hb : bb + bsh < 2 ^ 31) (hr : rb + rs < 2 ^ 31)
    (h1 : bb < rb + rs) (h2 : rb < bb + bsh) :
    axisOverlap bb bsh rb rs = .ok
      { beginInRoi := bb - rb, shapeInRoi := min (bb + bsh) (rb + rs) - max bb rb,
        beginInBlock := rb - bb, complete := decide (rb ≤ bb ∧ bb + bsh ≤ rb + rs) } := by
  unfold axisOverlap
  simp only
  rw [wadd_eq (by omega), wadd_eq (by omega)]
  have ho : toInt32 (wsub bb rb) = (bb : Int) - rb := by unfold toInt32 wsub; omega
  have he : toInt32 (wsub (rb + rs) (bb + bsh)) = ((rb + rs : Nat) : Int) - (bb + bsh : Nat) := by
    unfold toInt32 wsub; omega
  rw [ho, he]
  by_cases c1 : bb < rb
  · rw [if_pos (by omega), if_neg (by omega)]
    have : intToSize (-((bb : Int) - rb)) = rb - bb := by unfold intToSize; omega
    rw [this, wsub_eq (by omega) (by omega), wsub_eq (by omega) (by omega)]
    congr 2
    · omega
    · split <;> omega
    · rw [eq_comm, decide_eq_false_iff_not]; omega
  · rw [if_neg (by omega)]
    by_cases c2 : rb + rs < bb + bsh
    · rw [if_pos (by omega), wsub_eq (by omega) (by omega), wsub_eq (by omega) (by omega)]
      congr 2
      · omega
      · omega
      · rw [eq_comm, decide_eq_false_iff_not]; omega
    · rw [if_neg (by omega), wsub_eq (by omega) (by omega)]
      congr 2
      · omega
      · omega
      · rw [eq_comm, decide_eq_true_eq]; omega

/-- closed form of `getCoordinatesInRoi` -/
def roiOverlap : List Nat → List Nat → List Nat → List Nat → RoiOverlap
  | bb :: bbs, bsh :: bshs, rb :: rbs, rs :: rss =>
    let r := roiOverlap bbs bshs rbs rss
    { beginInRoi := (bb - rb) :: r.beginInRoi
      shapeInRoi := (min (bb + bsh) (rb + rs) - max bb rb) :: r.shapeInRoi
      beginInBlock := (rb - bb) :: r.beginInBlock
      complete := decide (rb ≤ bb ∧ bb + bsh ≤ rb + rs) && r.complete }
  | _, _, _, _ => { beginInRoi := [], shapeInRoi := [], beginInBlock := [], complete := true }

/-- block and region overlap and all coordinates are below 2^31 -/
def Overlaps : List Nat → List Nat → List Nat → List Nat → Prop :=
  All₄ fun bb bsh rb rs => bb + bsh < 2 ^ 31 ∧ rb + rs < 2 ^ 31 ∧ bb < rb + rs ∧ rb < bb + bsh ∧ 0 < bsh ∧ 0 < rs

theorem overlapLoop_eq : ∀ {bb bsh rb rs : List Nat}, Overlaps bb bsh rb rs →
    ∃ l, overlapLoop bb bsh rb rs = .ok l ∧
      (⟨l.map (·.beginInRoi), l.map (·.shapeInRoi), l.map (·.beginInBlock), l.all (·.complete)⟩ :
        RoiOverlap) = roiOverlap bb bsh rb rs
  | [], [], [], [], _ => ⟨[], rfl, rfl⟩
  | bb :: bbs, bsh :: bshs, rb :: rbs, rs :: rss, h => by
    obtain ⟨l, h1, h2⟩ := overlapLoop_eq h.2
    obtain ⟨a1, a2, a3, a4, _⟩ := h.1
    refine ⟨AxisOverlap.mk (bb - rb) (min (bb + bsh) (rb + rs) - max bb rb) (rb - bb)
      (decide (rb ≤ bb ∧ bb + bsh ≤ rb + rs)) :: l, ?_, ?_⟩
    · rw [overlapLoop, axisOverlap_eq a1 a2 a3 a4, h1]; rfl
    · rw [roiOverlap, ← h2]; rfl

theorem chunk_overlaps : ∀ {shape chunk rb rs c : List Nat}, (∀ s ∈ shape, s < 2 ^ 31) →
    RegionOk shape rb rs → (∃ x, InRegion x rb rs ∧ InChunk shape chunk c x) →
    Overlaps (mulV c chunk) (extV shape chunk c) rb rs := by
  intro shape
  induction shape with
  | nil =>
    rintro chunk rb rs c _ hr ⟨x, hx, hc⟩
    match chunk, rb, rs, c, x, hr, hx, hc with
    | [], [], [], [], [], _, _, _ => trivial
  | cons s ss ih =>
    rintro chunk rb rs c hs hr ⟨x, hx, hc⟩
    match chunk, rb, rs, c, x, hr, hx, hc with
    | b :: bs, rb :: rbs, rs :: rss, c :: cs, x :: xs, hr, hx, hc =>
      have hs1 : s < 2 ^ 31 := hs s List.mem_cons_self
      have a0 : rb + rs ≤ s := hr.1.2
      have a1 : rb ≤ x := hx.1.1
      have a2 : x < rb + rs := hx.1.2
      have a3 : c * b ≤ x := hc.1.1
      have a4 : x < (c + 1) * b := hc.1.2.1
      have a5 : x < s := hc.1.2.2
      refine ⟨⟨?_, ?_, ?_, ?_, ?_, ?_⟩, ih (fun s h => hs s (List.mem_cons_of_mem _ h)) hr.2 ⟨xs, hx.2, hc.2⟩⟩
      all_goals (try dsimp only)
      all_goals omega

theorem getCoordinatesInRoi_eq {shape chunk rb rs c : List Nat} (h : ChunkDims shape chunk)
    (hs : ∀ s ∈ shape, s < 2 ^ 31) (hr : RegionOk shape rb rs)
    (hc : ∃ x, InRegion x rb rs ∧ InChunk shape chunk c x) :
    (mkBlocking shape chunk).getCoordinatesInRoi c rb rs =
      .ok (roiOverlap (mulV c chunk) (extV shape chunk c) rb rs) := by
  have hg : InGrid shape chunk c := inGrid_of_inChunk hc.choose_spec.2
  obtain ⟨l, h1, h2⟩ := overlapLoop_eq (chunk_overlaps hs hr hc)
  unfold Blocking.getCoordinatesInRoi
  rw [getBlockBeginAndShape_eq h hg]
  simp only [Res.ok_bind, h1]
  rw [← h2]; rfl

/-- the `i`-th element of the intersection, seen from the region and from the chunk -/
def sameElement (regionBegin beginInRoi chunkBegin beginInBlock i x : List Nat) : Prop :=
  x = addV regionBegin (addV beginInRoi i) ∧ x = addV chunkBegin (addV beginInBlock i)

theorem overlap_complete : ∀ {bb bsh rb rs : List Nat}, Overlaps bb bsh rb rs →
    ((roiOverlap bb bsh rb rs).complete = true ↔
      ∀ x, InRegion x bb bsh → InRegion x rb rs)
  | [], [], [], [], _ => by
    simp only [roiOverlap, true_iff]
    intro x hx; cases x <;> simp_all [InRegion]
  | bb :: bbs, bsh :: bshs, rb :: rbs, rs :: rss, h => by
    have ih := overlap_complete h.2
    obtain ⟨a1, a2, a3, a4, a5, a6⟩ := h.1
    have hw : ∃ y, InRegion y bbs bshs := by
      clear ih
      have hh := h.2
      clear h a1 a2 a3 a4 a5 a6
      induction bbs generalizing bshs rbs rss with
      | nil => match bshs, rbs, rss, hh with | [], [], [], _ => exact ⟨[], trivial⟩
      | cons b bbs ih =>
        match bshs, rbs, rss, hh with
        | s :: ss, r :: rs, t :: ts, hh =>
          obtain ⟨y, hy⟩ := ih (bshs := ss) (rbs := rs) (rss := ts) hh.2
          obtain ⟨b1, b2, b3, b4, b5, b6⟩ := hh.1
          refine ⟨b :: y, ⟨?_, hy⟩⟩
          omega
    simp only [roiOverlap, Bool.and_eq_true, decide_eq_true_eq, ih]
    constructor
    · rintro ⟨⟨h1, h2⟩, h3⟩ x hx
      match x, hx with
      | x :: xs, hx =>
        have c1 : bb ≤ x := hx.1.1
        have c2 : x < bb + bsh := hx.1.2
        refine ⟨?_, h3 xs hx.2⟩
        omega
    · intro hx
      obtain ⟨y, hy⟩ := hw
      have e1 := hx (bb :: y) ⟨⟨Nat.le_refl _, by omega⟩, hy⟩
      have e2 := hx ((bb + bsh - 1) :: y) ⟨by omega, hy⟩
      have c1 : rb ≤ bb := e1.1.1
      have c2 : bb + bsh - 1 < rb + rs := e2.1.2
      refine ⟨by omega, fun z hz => (hx (bb :: z) ⟨⟨Nat.le_refl _, by omega⟩, hz⟩).2⟩

theorem overlap_elements : ∀ {bb bsh rb rs : List Nat}, Overlaps bb bsh rb rs → ∀ x,
    (InRegion x bb bsh ∧ InRegion x rb rs ↔
      ∃ i, InBox i (roiOverlap bb bsh rb rs).shapeInRoi ∧
        sameElement rb (roiOverlap bb bsh rb rs).beginInRoi bb
          (roiOverlap bb bsh rb rs).beginInBlock i x)
  | [], [], [], [], _, x => by
    cases x with
    | nil =>
      simp only [InRegion, roiOverlap, sameElement]
      exact ⟨fun _ => ⟨[], trivial, rfl, rfl⟩, fun _ => ⟨trivial, trivial⟩⟩
    | cons x xs => simp [InRegion, roiOverlap, sameElement, addV]
  | bb :: bbs, bsh :: bshs, rb :: rbs, rs :: rss, h, [] => by
    constructor
    · rintro ⟨h, _⟩; exact absurd h (by simp [InRegion])
    · rintro ⟨i, hi, he, _⟩
      cases i with
      | nil => exact absurd hi (by simp [roiOverlap])
      | cons i is => simp [roiOverlap, addV] at he
  | bb :: bbs, bsh :: bshs, rb :: rbs, rs :: rss, h, x :: xs => by
    have ih := overlap_elements h.2 xs
    obtain ⟨a1, a2, a3, a4, a5, a6⟩ := h.1
    simp only [InRegion, all₃_cons, roiOverlap] at ih ⊢
    constructor
    · rintro ⟨⟨h1, h2⟩, h3, h4⟩
      obtain ⟨i, hi, e1, e2⟩ := ih.1 ⟨h2, h4⟩
      refine ⟨(x - max bb rb) :: i, ⟨by omega, hi⟩, ?_, ?_⟩
      · simp only [addV_cons]; rw [← e1]; congr 1; omega
      · simp only [addV_cons]; rw [← e2]; congr 1; omega
    · rintro ⟨i, hi, e1, e2⟩
      match i, hi with
      | i :: is, hi =>
        simp only [addV_cons, List.cons.injEq] at e1 e2
        have := ih.2 ⟨is, hi.2, e1.2, e2.2⟩
        have hi1 : i < min (bb + bsh) (rb + rs) - max bb rb := hi.1
        exact ⟨⟨by omega, this.1⟩, by omega, this.2⟩

end Z5
