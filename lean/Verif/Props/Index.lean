import Verif.Spec.Calls
import Verif.Spec.Sharded
import Verif.Proofs.Index
import Verif.Proofs.Rectify
import Verif.Props.Example

/-!
# C43, C44: indexing and assignment in Python
-/

namespace Z5
open Spec Prog

variable {E : Elem}

/-! ### Selections as regions -/

/-- where the region starts -/
def regionStart : List AxisSel → List Nat
  | [] => []
  | .point k :: ss => k :: regionStart ss
  | .range ks :: ss => ks.head?.getD 0 :: regionStart ss

theorem RangesOf.roiShape {rs ss ns} (h : RangesOf rs ss ns) :
    rs.map (fun r => match r.start with | none => 0 | some a => r.stop - a) = (regionShape ss).map Int.ofNat := by
  induction h with
  | nil => rfl
  | cons h _ ih =>
    cases h with
    | point => rw [List.map_cons, ih]; simp [regionShape]; omega
    | range => rw [List.map_cons, ih]; simp [regionShape]; omega
    | empty => rw [List.map_cons, ih]; simp [regionShape]

theorem toSizes_cons {n : Nat} {bs : List (Option Int)} {l : List Nat} (h : toSizes bs = .ok l) :
    toSizes (some (n : Int) :: bs) = .ok (n :: l) := by
  have hn : ¬ (n : Int) < 0 := by omega
  rw [toSizes, h]
  refine (if_neg (t := Res.throw Err.typeError) (e := Res.ok ((n : Int).toNat :: l)) hn).trans ?_
  rw [Int.toNat_natCast]

theorem npShape_nat (s : List Nat) : npShape (s.map Int.ofNat) = .ok s := by
  induction s with
  | nil => rfl
  | cons n s ih =>
    have hn : ¬ (n : Int) < 0 := by omega
    rw [List.map_cons, npShape, ih]
    exact if_neg (t := Res.throw Err.invalidArgument) (e := Res.ok ((n : Int).toNat :: s)) hn

theorem toSizes_nat (s : List Nat) : toSizes ((s.map Int.ofNat).map some) = .ok s := by
  induction s with
  | nil => rfl
  | cons n s ih =>
    rw [List.map_cons, List.map_cons]
    exact toSizes_cons ih

theorem zero_mem_map {s : List Nat} : (0 : Int) ∈ s.map Int.ofNat ↔ 0 ∈ s := by
  simp

theorem RangesOf.start {rs ss ns} (h : RangesOf rs ss ns) (h0 : 0 ∉ regionShape ss) :
    toSizes (rs.map (·.start)) = .ok (regionStart ss) ∧ RegionOk ns (regionStart ss) (regionShape ss) := by
  induction h with
  | nil => exact ⟨rfl, trivial⟩
  | cons h _ ih =>
    cases h with
    | @point k n hk =>
      obtain ⟨h1, h2⟩ := ih (fun h => h0 (List.mem_cons_of_mem _ h))
      refine ⟨?_, ⟨by omega, by omega⟩, h2⟩
      exact toSizes_cons h1
    | @range a m n hm =>
      obtain ⟨h1, h2⟩ := ih (fun h => h0 (List.mem_cons_of_mem _ h))
      have hp : 0 < m := by
        refine Nat.pos_of_ne_zero fun e => h0 ?_
        subst e
        exact List.mem_cons_self ..
      have hh : (List.range' a m).head?.getD 0 = a := by
        obtain ⟨q, rfl⟩ := Nat.exists_eq_succ_of_ne_zero (Nat.ne_of_gt hp)
        rfl
      refine ⟨?_, ⟨?_, ?_⟩, h2⟩
      · rw [regionStart, hh]
        exact toSizes_cons h1
      · simpa using hp
      · simpa [hh] using hm
    | empty => exact absurd (List.mem_cons_self ..) h0

/-- the axes of points are the ones that are squeezed out -/
theorem squeeze_points : ∀ (ss : List AxisSel) (d : Nat) (axes : List Nat),
    (∀ k, d ≤ k → (k ∈ axes ↔ k ∈ pointAxes d ss)) → squeezeFrom axes d (regionShape ss) = resultShape ss
  | [], _, _, _ => rfl
  | .point k :: ss, d, axes, h => by
    unfold regionShape squeezeFrom resultShape
    rw [if_pos ((h d (Nat.le_refl d)).2 (by simp [pointAxes]))]
    refine squeeze_points ss (d + 1) axes fun k hk => ?_
    rw [h k (by omega)]
    simp only [pointAxes, List.mem_cons]
    exact or_iff_right (by omega)
  | .range ks :: ss, d, axes, h => by
    have hlow : ∀ (ss : List AxisSel) (d k : Nat), k ∈ pointAxes d ss → d ≤ k := by
      intro ss
      induction ss with
      | nil => intro d k hk; cases hk
      | cons s ss ih =>
        intro d k hk
        cases s with
        | point _ =>
          simp only [pointAxes, List.mem_cons] at hk
          rcases hk with rfl | hk
          · exact Nat.le_refl _
          · exact Nat.le_of_succ_le (ih _ _ hk)
        | range _ => exact Nat.le_of_succ_le (ih _ _ hk)
    unfold regionShape squeezeFrom resultShape
    rw [if_neg (fun hd => by have := hlow ss (d + 1) d ((h d (Nat.le_refl d)).1 hd); omega)]
    rw [squeeze_points ss (d + 1) axes fun k hk => h k (by omega)]

/-- the elements of the result are those of the region, in the same order -/
theorem RangesOf.picks {rs ss ns} (h : RangesOf rs ss ns) : ∀ {j x : List Nat}, Picks ss j x →
    ∃ i, InBox i (regionShape ss) ∧ x = addV (regionStart ss) i ∧
      ravel (regionShape ss) i = ravel (resultShape ss) j ∧ InBox j (resultShape ss) := by
  have hprod : ∀ ss, prod (regionShape ss) = prod (resultShape ss) := by
    intro ss
    induction ss with
    | nil => rfl
    | cons s ss ih => cases s <;> simp [regionShape, resultShape, ih]
  induction h with
  | nil =>
    intro j x hp
    cases hp
    exact ⟨[], trivial, rfl, rfl, trivial⟩
  | @cons r s n rs ss ns h _ ih =>
    intro j x hp
    cases h with
    | point =>
      cases hp with
      | point hp =>
        obtain ⟨i, h1, h2, h3, h4⟩ := ih hp
        refine ⟨0 :: i, ⟨by decide, h1⟩, ?_, ?_, h4⟩
        · rw [h2]; rfl
        · show 0 * prod (regionShape ss) + ravel (regionShape ss) i = _
          rw [Nat.zero_mul, Nat.zero_add, h3]
          rfl
    | @range a m _ hm =>
      cases hp with
      | @range _ q k _ j x hq hp =>
        obtain ⟨i, h1, h2, h3, h4⟩ := ih hp
        have hlt : q < m := by
          have := (List.getElem?_eq_some_iff.1 hq).1
          simpa using this
        rw [List.getElem?_range' hlt] at hq
        cases hq
        refine ⟨q :: i, ⟨by simpa using hlt, h1⟩, ?_, ?_, by simpa using hlt, h4⟩
        · have hh : (List.range' a m).head?.getD 0 = a := by
            obtain ⟨p, rfl⟩ := Nat.exists_eq_succ_of_ne_zero (Nat.ne_of_gt (by omega : 0 < m))
            rfl
          rw [h2]
          simp [regionStart, hh]
        · show q * prod (regionShape ss) + ravel (regionShape ss) i = q * prod (resultShape ss) + _
          rw [h3, hprod]
          rfl
    | empty =>
      cases hp with
      | range hq _ => cases hq

theorem inRegion_addV : ∀ {b s i : List Nat}, b.length = s.length → InBox i s → InRegion (addV b i) b s
  | [], [], [], _, _ => trivial
  | _ :: _, _ :: _, _ :: _, hl, h => ⟨⟨Nat.le_add_right .., Nat.add_lt_add_left h.1 _⟩,
      inRegion_addV (Nat.succ.inj hl) h.2⟩

theorem region_lengths (ss : List AxisSel) : (regionStart ss).length = (regionShape ss).length := by
  induction ss with
  | nil => rfl
  | cons s ss ih => cases s <;> simp [regionStart, regionShape, ih]

theorem RangesOf.inRegion {rs ss ns} (h : RangesOf rs ss ns) {j x : List Nat} (hp : Picks ss j x) :
    InRegion x (regionStart ss) (regionShape ss) := by
  obtain ⟨i, hi, rfl, _⟩ := h.picks hp
  exact inRegion_addV (region_lengths ss) hi

/-- every position of the region is picked -/
theorem RangesOf.picked {rs ss ns} (h : RangesOf rs ss ns) : ∀ {x : List Nat},
    InRegion x (regionStart ss) (regionShape ss) → ∃ j, Picks ss j x := by
  induction h with
  | nil =>
    intro x hx
    cases x with
    | nil => exact ⟨[], .nil⟩
    | cons y x => exact hx.elim
  | cons h _ ih =>
    intro x hx
    cases h with
    | point =>
      cases x with
      | nil => exact hx.elim
      | cons y x =>
        obtain ⟨⟨h1, h2⟩, h3⟩ := hx
        obtain ⟨j, hj⟩ := ih h3
        cases Nat.le_antisymm h1 (Nat.le_of_lt_succ h2)
        exact ⟨j, .point hj⟩
    | @range a m _ hm =>
      cases x with
      | nil => exact hx.elim
      | cons y x =>
        obtain ⟨⟨h1, h2⟩, h3⟩ := hx
        obtain ⟨j, hj⟩ := ih h3
        rw [List.length_range'] at h2
        cases m with
        | zero => exact absurd h1 (by omega)
        | succ m =>
          have h1 : a ≤ y := h1
          have h2 : y < a + (m + 1) := h2
          refine ⟨(y - a) :: j, .range ?_ hj⟩
          rw [List.getElem?_range' (by omega)]
          congr 1
          omega
    | empty =>
      cases x with
      | nil => exact hx.elim
      | cons y x =>
        obtain ⟨⟨h1, h2⟩, _⟩ := hx
        exact absurd h2 (by simp at h1 ⊢)

/-- every index of the result picks an element -/
theorem picks_total : ∀ {ss : List AxisSel} {j : List Nat}, InBox j (resultShape ss) → ∃ x, Picks ss j x
  | [], [], _ => ⟨[], .nil⟩
  | .point k :: ss, j, h => by
    obtain ⟨x, hx⟩ := picks_total (ss := ss) h
    exact ⟨_, .point hx⟩
  | .range ks :: ss, i :: j, h => by
    obtain ⟨x, hx⟩ := picks_total (ss := ss) h.2
    exact ⟨_, .range (List.getElem?_eq_getElem h.1) hx⟩

theorem makeView_fits (s : List Nat) {n : Nat} (h : prod s ≤ n) : Props.FitsIn (makeView s) n := by
  refine ⟨?_, fun c hc => ?_⟩
  · show (cOrderStrides s).length = s.length
    rw [cOrderStrides_eq, length_strides]
  · show 0 + dot c (cOrderStrides s) < n
    rw [cOrderStrides_eq, Nat.zero_add]
    exact Nat.lt_of_lt_of_le (ravel_lt hc) h

theorem makeView_noAlias (s : List Nat) : Props.NoAlias (makeView s) := by
  intro c d hc hd h
  have h : 0 + dot c (cOrderStrides s) = 0 + dot d (cOrderStrides s) := h
  rw [cOrderStrides_eq, Nat.zero_add, Nat.zero_add] at h
  exact ravel_inj hc hd h

theorem interleave_none {α : Type} (is : List Nat) (σ : Store) :
    interleave is (([] : List (Prog α)), σ) = ([], σ) := by
  induction is with
  | nil => rfl
  | cons i is ih => exact ih

/-! ### C43 -/

/-- **C43.**  Where numpy raises an error - an integer out of range, too many items, several ellipses - so
    does the library, for reading and for writing; and it does for steps. -/
theorem c43_rejects {index : List PyItem} {shape : List Nat} (h : npSelect index shape = none) :
    (∀ {α : Type} (read : View → List Nat → Res (List α)), ∃ e, pyGetItem read shape index = .throw e) ∧
    (∀ {α β : Type} (write : List Nat → List Nat → β → Res (List α)) (v : β),
      ∃ e, pySetScalar write shape index v = .throw e) ∧
    (∀ {α β : Type} (write : List β → View → List Nat → Res (List α)) (item : NpArray β),
      ∃ e, pySetArray write shape index item = .throw e) := by
  obtain ⟨e, he⟩ := (normalizeSlices_spec index shape).2 h
  have hr : indexToRoi index shape = .throw e := by
    unfold indexToRoi
    rw [he]
    rfl
  refine ⟨fun read => ⟨e, ?_⟩, fun write v => ⟨e, ?_⟩, fun write item => ⟨e, ?_⟩⟩
  · unfold pyGetItem; rw [hr]; rfl
  · unfold pySetScalar; rw [hr]; rfl
  · unfold pySetArray; rw [hr]; rfl

theorem indexToRoi_ok {index : List PyItem} {shape : List Nat} {ss : List AxisSel}
    (h : npSelect index shape = some ss) (ht : TameIndex index shape) :
    ∃ begins, indexToRoi index shape = .ok (begins, (regionShape ss).map Int.ofNat, pointAxes 0 ss) ∧
      (0 ∉ regionShape ss → toSizes begins = .ok (regionStart ss) ∧
        RegionOk shape (regionStart ss) (regionShape ss)) ∧ ∃ rs, RangesOf rs ss shape := by
  obtain ⟨rs, h1, h2⟩ := (normalizeSlices_spec index shape).1 ss h ht
  refine ⟨rs.map (·.start), ?_, h2.start, rs, h2⟩
  unfold indexToRoi
  rw [h1, ← h2.roiShape]
  rfl

theorem getItem_ok {α : Type} {read : View → List Nat → Res (List α)} {index : List PyItem} {shape : List Nat}
    {ss : List AxisSel} (h : npSelect index shape = some ss) (ht : TameIndex index shape) :
    pyGetItem read shape index = (do
      let ts ← if 0 ∈ regionShape ss then pure [] else read (makeView (regionShape ss)) (regionStart ss)
      return ⟨regionShape ss, resultShape ss, ts⟩) := by
  obtain ⟨begins, h1, h2, _⟩ := indexToRoi_ok h ht
  unfold pyGetItem
  rw [h1]
  show (do
    let out ← npShape ((regionShape ss).map Int.ofNat)
    _) = _
  rw [npShape_nat]
  show (do
    let ts ← if 0 ∈ regionShape ss then pure [] else do
      let b ← toSizes begins
      read (makeView (regionShape ss)) b
    return (⟨regionShape ss, squeezeFrom (pointAxes 0 ss) 0 (regionShape ss), ts⟩ : PyRead α)) = _
  rw [squeeze_points ss 0 _ (fun _ _ => Iff.rfl)]
  by_cases h0 : 0 ∈ regionShape ss
  · rw [if_pos h0, if_pos h0]
  · rw [if_neg h0, if_neg h0, (h2 h0).1]
    rfl

/-- `ReadsAs` for any way to read -/
def ReadsWith {T : Type} (shape : List Nat)
    (read : View → List Nat → Res (List (Prog (List (Nat × T))))) (σ : Store) (A : List Nat → T) : Prop :=
  ∀ (off : List Nat) (out : View) (outBuf : List T),
    RegionOk shape off out.shape → Props.FitsIn out outBuf.length → Props.NoAlias out →
    ∃ ts, read out off = .ok ts ∧
      ∀ is rs, Finished (interleave is (ts, σ)).1 rs →
        (interleave is (ts, σ)).2 = σ ∧ (∃ out', Delivers outBuf rs out') ∧
        ∀ out', Delivers outBuf rs out' → out'.length = outBuf.length ∧
          (∀ i, InBox i out.shape → out'[out.base + dot i out.strides]? = some (A (addV off i))) ∧
          (∀ a, (∀ i, InBox i out.shape → out.base + dot i out.strides ≠ a) → out'[a]? = outBuf[a]?)

theorem getItem_reads {T : Type} {shape : List Nat}
    {read : View → List Nat → Res (List (Prog (List (Nat × T))))} {σ : Store} {A : List Nat → T}
    (hA : ReadsWith shape read σ A) {index : List PyItem} {ss : List AxisSel}
    (h : npSelect index shape = some ss) (ht : TameIndex index shape) :
    ∃ r, pyGetItem read shape index = .ok r ∧ r.result = resultShape ss ∧
      ∀ (junk : List T), junk.length = prod r.out → ∀ is rs, Finished (interleave is (r.tasks, σ)).1 rs →
        (interleave is (r.tasks, σ)).2 = σ ∧ (∃ out, Delivers junk rs out) ∧
        ∀ out, Delivers junk rs out → out.length = prod r.result ∧
          ∀ j x, Picks ss j x → out[ravel r.result j]? = some (A x) := by
  obtain ⟨_, _, h2, rs0, hr⟩ := indexToRoi_ok h ht
  rw [getItem_ok h ht]
  have hprod : ∀ ss, prod (regionShape ss) = prod (resultShape ss) := by
    intro ss
    induction ss with
    | nil => rfl
    | cons s ss ih => cases s <;> simp [regionShape, resultShape, ih]
  by_cases h0 : 0 ∈ regionShape ss
  · rw [if_pos h0]
    refine ⟨_, rfl, rfl, fun junk hj is rs hf => ?_⟩
    dsimp only at hj hf ⊢
    rw [interleave_none] at hf ⊢
    have hrs : rs = [] := by
      unfold Finished at hf
      cases rs with
      | nil => rfl
      | cons r rs => cases hf
    subst hrs
    refine ⟨rfl, ⟨junk, [], [], rfl, .nil, rfl⟩, ?_⟩
    rintro out ⟨ps, order, h3, h4, h5⟩
    have hps : ps = [] := by
      cases ps with
      | nil => rfl
      | cons p ps => cases h3
    subst hps
    cases h4.eq_nil
    cases h5
    refine ⟨hj.trans (hprod ss), fun j x hp => ?_⟩
    obtain ⟨i, hi, _⟩ := hr.picks hp
    exfalso
    have : ∀ {i s : List Nat}, InBox i s → 0 ∉ s := by
      intro i s
      induction s generalizing i with
      | nil => intro _ h; cases h
      | cons n s ih =>
        intro hi h
        cases i with
        | nil => exact hi.elim
        | cons y i =>
          rcases List.mem_cons.1 h with rfl | h
          · exact absurd hi.1 (by omega)
          · exact ih hi.2 h
    exact this hi h0
  · rw [if_neg h0]
    obtain ⟨ts, h3, h4⟩ := hA (regionStart ss) (makeView (regionShape ss))
      (List.replicate (prod (regionShape ss)) (A [])) (h2 h0).2 (makeView_fits _ (by simp)) (makeView_noAlias _)
    rw [h3]
    refine ⟨_, rfl, rfl, fun junk hj is rs hf => ?_⟩
    dsimp only at hj hf ⊢
    obtain ⟨ts', h3', h4⟩ := hA (regionStart ss) (makeView (regionShape ss)) junk (h2 h0).2
      (makeView_fits _ (by omega)) (makeView_noAlias _)
    rw [h3] at h3'
    cases h3'
    obtain ⟨h5, h6, h7⟩ := h4 is rs hf
    refine ⟨h5, h6, fun out ho => ?_⟩
    obtain ⟨h8, h9, _⟩ := h7 out ho
    refine ⟨h8.trans (hj.trans (hprod ss)), fun j x hp => ?_⟩
    obtain ⟨i, hi, hx, hrv, _⟩ := hr.picks hp
    have := h9 i hi
    rw [hx, ← this, ← hrv]
    congr 1
    show ravel (regionShape ss) i = 0 + dot i (cOrderStrides (regionShape ss))
    rw [cOrderStrides_eq, Nat.zero_add]
    rfl

/-- **C43.**  Reading `ds[index]` gives the array that numpy's rules give for the current content `A` of the
    dataset: it has that shape, and each of its elements is the one that is picked (`picks_total`: there is one
    for each), for every schedule of the threads; the store is not changed. -/
theorem c43_getitem {ds : Dataset E} {σ : Store} {A : List Nat → E.T} (hA : ReadsAs ds σ A)
    {index : List PyItem} {ss : List AxisSel} (h : npSelect index ds.shape = some ss)
    (ht : TameIndex index ds.shape) (scratch : Nat → List E.T) :
    ∃ r, pyGetItem (fun out off => ds.readSubarray out off scratch) ds.shape index = .ok r ∧
      r.result = resultShape ss ∧
      ∀ (junk : List E.T), junk.length = prod r.out → ∀ is rs, Finished (interleave is (r.tasks, σ)).1 rs →
        (interleave is (r.tasks, σ)).2 = σ ∧ (∃ out, Delivers junk rs out) ∧
        ∀ out, Delivers junk rs out → out.length = prod r.result ∧
          ∀ j x, Picks ss j x → out[ravel r.result j]? = some (A x) :=
  getItem_reads (fun off out buf h1 h2 h3 => hA off out buf scratch h1 h2 h3) h ht

/-- **C43** for sharded datasets -/
theorem c43_getitem_sharded {sd : ShardedDataset E} {σ : Store} {A : List Nat → E.T}
    (hA : ShardedReadsAs sd σ A) {index : List PyItem} {ss : List AxisSel}
    (h : npSelect index sd.shape = some ss) (ht : TameIndex index sd.shape) (scratch : Nat → List E.T) :
    ∃ r, pyGetItem (fun out off => sd.readSubarray out off scratch) sd.shape index = .ok r ∧
      r.result = resultShape ss ∧
      ∀ (junk : List E.T), junk.length = prod r.out → ∀ is rs, Finished (interleave is (r.tasks, σ)).1 rs →
        (interleave is (r.tasks, σ)).2 = σ ∧ (∃ out, Delivers junk rs out) ∧
        ∀ out, Delivers junk rs out → out.length = prod r.result ∧
          ∀ j x, Picks ss j x → out[ravel r.result j]? = some (A x) :=
  getItem_reads (fun off out buf h1 h2 h3 => hA off out buf scratch h1 h2 h3) h ht

theorem inBox_no_zero : ∀ {i s : List Nat}, InBox i s → 0 ∉ s
  | [], [], _ => (fun h => by cases h)
  | y :: i, n :: s, hi => by
    intro h
    rcases List.mem_cons.1 h with rfl | h
    · exact absurd hi.1 (by omega)
    · exact inBox_no_zero hi.2 h

theorem completes_none {is : List Nat} {σ σ' : Store} (h : Completes [] is σ σ') : σ' = σ := by
  obtain ⟨_, _, _, h⟩ := h
  rw [h, interleave_none]

theorem setScalar_ok {α β : Type} {write : List Nat → List Nat → β → Res (List α)} {shape : List Nat}
    {index : List PyItem} {ss : List AxisSel} (h : npSelect index shape = some ss) (ht : TameIndex index shape)
    {v : β} {ts : List α} (hts : pySetScalar write shape index v = .ok ts) :
    (∃ rs, RangesOf rs ss shape) ∧ ((ts = [] ∧ 0 ∈ regionShape ss) ∨
      (write (regionStart ss) (regionShape ss) v = .ok ts ∧ RegionOk shape (regionStart ss) (regionShape ss))) := by
  obtain ⟨begins, h1, h2, hr⟩ := indexToRoi_ok h ht
  refine ⟨hr, ?_⟩
  unfold pySetScalar at hts
  rw [h1] at hts
  have hts : (if (0 : Int) ∈ (regionShape ss).map Int.ofNat then pure [] else do
      let b ← toSizes begins
      let s ← toSizes (((regionShape ss).map Int.ofNat).map some)
      write b s v) = .ok ts := hts
  by_cases h0 : 0 ∈ regionShape ss
  · rw [if_pos (zero_mem_map.2 h0)] at hts
    cases hts
    exact .inl ⟨rfl, h0⟩
  · rw [if_neg (fun h => h0 (zero_mem_map.1 h)), (h2 h0).1, toSizes_nat] at hts
    exact .inr ⟨hts, (h2 h0).2⟩

theorem rectify_ok {α : Type} {arr r : NpArray α} {req : List Nat} (h : rectifyShape arr req = .ok r) :
    r.shape = req ∧ r.data = arr.data ∧ prod arr.shape = prod req := by
  unfold rectifyShape at h
  split at h
  · rename_i e
    cases h
    exact ⟨e, rfl, by rw [e]⟩
  · dsimp only at h
    split at h
    · cases h
    · split at h
      · split at h
        · rename_i e
          cases h
          exact ⟨rfl, rfl, e⟩
        · cases h
      · cases h

theorem setArray_ok {α β : Type} {write : List β → View → List Nat → Res (List α)} {shape : List Nat}
    {index : List PyItem} {ss : List AxisSel} (h : npSelect index shape = some ss) (ht : TameIndex index shape)
    {item : NpArray β} {ts : List α} (hts : pySetArray write shape index item = .ok ts) :
    (∃ rs, RangesOf rs ss shape) ∧ ((ts = [] ∧ 0 ∈ regionShape ss) ∨
      (write item.data (makeView (regionShape ss)) (regionStart ss) = .ok ts ∧
        RegionOk shape (regionStart ss) (regionShape ss) ∧ ∃ r, rectifyShape item (regionShape ss) = .ok r)) := by
  obtain ⟨begins, h1, h2, hr⟩ := indexToRoi_ok h ht
  refine ⟨hr, ?_⟩
  unfold pySetArray at hts
  rw [h1] at hts
  have hts : (if (0 : Int) ∈ (regionShape ss).map Int.ofNat then pure [] else do
      let s ← npShape ((regionShape ss).map Int.ofNat)
      let arr ← rectifyShape item s
      let b ← toSizes begins
      write arr.data (makeView arr.shape) b) = .ok ts := hts
  by_cases h0 : 0 ∈ regionShape ss
  · rw [if_pos (zero_mem_map.2 h0)] at hts
    cases hts
    exact .inl ⟨rfl, h0⟩
  · rw [if_neg (fun h => h0 (zero_mem_map.1 h)), npShape_nat] at hts
    cases hrec : rectifyShape item (regionShape ss) with
    | ok r =>
      obtain ⟨h3, h4, _⟩ := rectify_ok hrec
      have hts : (do
        let arr ← rectifyShape item (regionShape ss)
        let b ← toSizes begins
        write arr.data (makeView arr.shape) b) = .ok ts := hts
      rw [hrec, (h2 h0).1] at hts
      have hts : write r.data (makeView r.shape) (regionStart ss) = .ok ts := hts
      rw [h3, h4] at hts
      exact .inr ⟨hts, (h2 h0).2, r, rfl⟩
    | throw e =>
      have hts : (do
        let arr ← rectifyShape item (regionShape ss)
        let b ← toSizes begins
        write arr.data (makeView arr.shape) b) = .ok ts := hts
      rw [hrec] at hts
      cases hts
    | ub =>
      have hts : (do
        let arr ← rectifyShape item (regionShape ss)
        let b ← toSizes begins
        write arr.data (makeView arr.shape) b) = .ok ts := hts
      rw [hrec] at hts
      cases hts

theorem no_picks {rs ss ns} (hr : RangesOf rs ss ns) (h0 : 0 ∈ regionShape ss) (j x : List Nat) :
    ¬ Picks ss j x := fun hp => by
  obtain ⟨i, hi, _⟩ := hr.picks hp
  exact inBox_no_zero hi h0

theorem scalar_replay {T : Type} {rs ss ns} (hr : RangesOf rs ss ns) (v : T) (A : List Nat → T) (x : List Nat) :
    ((∃ j, Picks ss j x) → replay A [⟨regionStart ss, regionShape ss, fun _ => v⟩] x = v) ∧
    ((¬ ∃ j, Picks ss j x) → replay A [⟨regionStart ss, regionShape ss, fun _ => v⟩] x = A x) := by
  constructor
  · rintro ⟨j, hp⟩
    exact if_pos (hr.inRegion hp)
  · intro hn
    exact if_neg fun hx => hn (hr.picked hx)

/-- **C43.**  `ds[index] = v` with a number: when it has completed, exactly the elements that numpy's rules
    select have that value; the others are as before.  (`ws'` is the write, or nothing if nothing is
    selected.) -/
theorem c43_set_scalar {ds : Dataset E} {ws : List (Write E.T)} {σ : Store} (hreach : Reaches ds ws σ)
    {index : List PyItem} {ss : List AxisSel} (h : npSelect index ds.shape = some ss)
    (ht : TameIndex index ds.shape) (v : E.T) (scratch : Nat → List E.T) {ts : List (Prog Unit)}
    (hts : pySetScalar (fun off shape v => ds.writeScalar off shape v scratch) ds.shape index v = .ok ts)
    {is : List Nat} {σ' : Store} (hc : Completes ts is σ σ') :
    ∃ ws', Reaches ds (ws ++ ws') σ' ∧ ∀ (A : List Nat → E.T) (x : List Nat),
      ((∃ j, Picks ss j x) → replay A ws' x = v) ∧ ((¬ ∃ j, Picks ss j x) → replay A ws' x = A x) := by
  obtain ⟨⟨rs, hr⟩, ⟨rfl, h0⟩ | ⟨h1, h2⟩⟩ := setScalar_ok h ht hts
  · refine ⟨[], ?_, fun A x => ⟨fun ⟨j, hp⟩ => absurd hp (no_picks hr h0 j x), fun _ => rfl⟩⟩
    rw [List.append_nil, completes_none hc]
    exact hreach
  · exact ⟨_, hreach.step (.scalar _ _ v scratch ts is h2 h1 hc), scalar_replay hr v⟩

/-- **C43** for sharded datasets -/
theorem c43_set_scalar_sharded {sd : ShardedDataset E} {ws : List (Write E.T)} {σ : Store}
    (hreach : ShardedReaches sd ws σ)
    {index : List PyItem} {ss : List AxisSel} (h : npSelect index sd.shape = some ss)
    (ht : TameIndex index sd.shape) (v : E.T) (scratch : Nat → List E.T) {ts : List (Prog Unit)}
    (hts : pySetScalar (fun off shape v => sd.writeRegion (scalarRequest v) off shape scratch) sd.shape index v
      = .ok ts)
    {is : List Nat} {σ' : Store} (hc : Completes ts is σ σ') :
    ∃ ws', ShardedReaches sd (ws ++ ws') σ' ∧ ∀ (A : List Nat → E.T) (x : List Nat),
      ((∃ j, Picks ss j x) → replay A ws' x = v) ∧ ((¬ ∃ j, Picks ss j x) → replay A ws' x = A x) := by
  obtain ⟨⟨rs, hr⟩, ⟨rfl, h0⟩ | ⟨h1, h2⟩⟩ := setScalar_ok h ht hts
  · refine ⟨[], ?_, fun A x => ⟨fun ⟨j, hp⟩ => absurd hp (no_picks hr h0 j x), fun _ => rfl⟩⟩
    rw [List.append_nil, completes_none hc]
    exact hreach
  · exact ⟨_, hreach.step (.region (.scalar (regionStart ss) (regionShape ss) v) (fun _ => v) scratch ts is
      ⟨h2, trivial⟩ (fun _ _ => rfl) h1 hc), scalar_replay hr v⟩

theorem array_replay {T : Type} {rs ss ns} (hr : RangesOf rs ss ns) {data : List T} {val : List Nat → T}
    (hval : ∀ i, InBox i (regionShape ss) → data[ravel (regionShape ss) i]? = some (val i))
    (A : List Nat → T) (x : List Nat) :
    (∀ j, Picks ss j x → data[ravel (resultShape ss) j]?
      = some (replay A [⟨regionStart ss, regionShape ss, val⟩] x)) ∧
    ((¬ ∃ j, Picks ss j x) → replay A [⟨regionStart ss, regionShape ss, val⟩] x = A x) := by
  constructor
  · intro j hp
    have e : replay A [⟨regionStart ss, regionShape ss, val⟩] x = val (subV x (regionStart ss)) :=
      if_pos (hr.inRegion hp)
    obtain ⟨i, hi, rfl, h3, _⟩ := hr.picks hp
    rw [e, subV_addV (by rw [hi.length_eq, region_lengths]), ← h3, hval i hi]
  · intro hn
    exact if_neg fun hx => hn (hr.picked hx)

theorem array_values {T : Type} {s : List Nat} {data : List T} (h : data.length = prod s) (d : T) :
    ∃ val : List Nat → T, ∀ i, InBox i s → data[ravel s i]? = some (val i) := by
  refine ⟨fun i => (data[ravel s i]?).getD d, fun i hi => ?_⟩
  have : ravel s i < data.length := by rw [h]; exact ravel_lt hi
  show data[ravel s i]? = some ((data[ravel s i]?).getD d)
  rw [List.getElem?_eq_getElem this]
  rfl

/-- **C43.**  `ds[index] = item` with an array: when it has completed, the elements that numpy's rules select
    have the values of the array, in the order of its elements; the others are as before. -/
theorem c43_set_array {ds : Dataset E} {ws : List (Write E.T)} {σ : Store} (hreach : Reaches ds ws σ)
    {index : List PyItem} {ss : List AxisSel} (h : npSelect index ds.shape = some ss)
    (ht : TameIndex index ds.shape) (item : NpArray E.T) (hitem : item.data.length = prod item.shape)
    (scratch : Nat → List E.T) {ts : List (Prog Unit)}
    (hts : pySetArray (fun buf view off => ds.writeSubarray buf view off scratch) ds.shape index item = .ok ts)
    {is : List Nat} {σ' : Store} (hc : Completes ts is σ σ') :
    ∃ ws', Reaches ds (ws ++ ws') σ' ∧ ∀ (A : List Nat → E.T) (x : List Nat),
      (∀ j, Picks ss j x → item.data[ravel (resultShape ss) j]? = some (replay A ws' x)) ∧
      ((¬ ∃ j, Picks ss j x) → replay A ws' x = A x) := by
  obtain ⟨⟨rs, hr⟩, ⟨rfl, h0⟩ | ⟨h1, h2, r, h3⟩⟩ := setArray_ok h ht hts
  · refine ⟨[], ?_, fun A x => ⟨fun j hp => absurd hp (no_picks hr h0 j x), fun _ => rfl⟩⟩
    rw [List.append_nil, completes_none hc]
    exact hreach
  · have hlen : item.data.length = prod (regionShape ss) := by rw [hitem, (rectify_ok h3).2.2]
    obtain ⟨val, hval⟩ := array_values hlen ds.fill
    refine ⟨_, hreach.step (.subarray item.data (makeView (regionShape ss)) (regionStart ss) val scratch ts is h2
      (makeView_fits _ (by omega)) (fun i hi => ?_) h1 hc), array_replay hr hval⟩
    rw [← hval i hi]
    congr 1
    show 0 + dot i (cOrderStrides (regionShape ss)) = _
    rw [cOrderStrides_eq, Nat.zero_add]
    rfl

/-- **C43** for sharded datasets -/
theorem c43_set_array_sharded {sd : ShardedDataset E} {ws : List (Write E.T)} {σ : Store}
    (hreach : ShardedReaches sd ws σ)
    {index : List PyItem} {ss : List AxisSel} (h : npSelect index sd.shape = some ss)
    (ht : TameIndex index sd.shape) (item : NpArray E.T) (hitem : item.data.length = prod item.shape)
    (scratch : Nat → List E.T) {ts : List (Prog Unit)}
    (hts : pySetArray (fun buf view off => sd.writeRegion (copyRequest buf view) off view.shape scratch) sd.shape
      index item = .ok ts)
    {is : List Nat} {σ' : Store} (hc : Completes ts is σ σ') :
    ∃ ws', ShardedReaches sd (ws ++ ws') σ' ∧ ∀ (A : List Nat → E.T) (x : List Nat),
      (∀ j, Picks ss j x → item.data[ravel (resultShape ss) j]? = some (replay A ws' x)) ∧
      ((¬ ∃ j, Picks ss j x) → replay A ws' x = A x) := by
  obtain ⟨⟨rs, hr⟩, ⟨rfl, h0⟩ | ⟨h1, h2, r, h3⟩⟩ := setArray_ok h ht hts
  · refine ⟨[], ?_, fun A x => ⟨fun j hp => absurd hp (no_picks hr h0 j x), fun _ => rfl⟩⟩
    rw [List.append_nil, completes_none hc]
    exact hreach
  · have hlen : item.data.length = prod (regionShape ss) := by rw [hitem, (rectify_ok h3).2.2]
    obtain ⟨val, hval⟩ := array_values hlen sd.fill
    refine ⟨_, hreach.step (.region (.copy item.data (makeView (regionShape ss)) (regionStart ss)) val scratch ts
      is ⟨h2, makeView_fits _ (by omega)⟩ (fun i hi => ?_) h1 hc), array_replay hr hval⟩
    rw [← hval i hi]
    show item.data[0 + dot i (cOrderStrides (regionShape ss))]? = _
    rw [cOrderStrides_eq, Nat.zero_add]
    rfl

/-- **C43, negation**: the first element of an axis cannot be addressed as minus its length, although numpy
    selects it: along an axis of any length, reading it raises an error. -/
theorem c43_first_counterexample {α : Type} (read : View → List Nat → Res (List α)) (n : Nat) :
    npSelect [.int (-(n + 1 : Nat))] [n + 1] = some [.point 0] ∧
      pyGetItem read [n + 1] [.int (-(n + 1 : Nat))] = .throw .typeError := by
  constructor
  · have h1 : npItem (.int (-(n + 1 : Nat))) (n + 1) = some (.point 0) := by
      simp only [npItem]
      rw [if_pos ⟨Int.le_refl _, by omega⟩]
      unfold wrap
      rw [if_pos (by omega)]
      congr 2
      omega
    show npAxes [.int (-(n + 1 : Nat))] [n + 1] = _
    unfold npAxes
    rw [h1]
    rfl
  · have h2 : intToStartStop (-(n + 1 : Nat)) (n + 1) = .ok ⟨some (-(n + 1 : Nat)), -(n + 1 : Nat) + 1⟩ := by
      unfold intToStartStop
      dsimp only
      rw [if_neg (by omega), if_neg (by omega)]
    have h3 : indexToRoi [.int (-(n + 1 : Nat))] [n + 1] = .ok ([some (-(n + 1 : Nat))], [1], [0]) := by
      have hn : normalizeSlices [.int (-(n + 1 : Nat))] [n + 1] = (do
          let r ← intToStartStop (-(n + 1 : Nat)) (n + 1)
          normalizeLoop [n + 1] 1 [] ([] ++ [r]) false [0]) := rfl
      rw [h2] at hn
      unfold indexToRoi
      rw [hn]
      show Res.ok ([some (-((n + 1 : Nat) : Int))], [-((n + 1 : Nat) : Int) + 1 - -((n + 1 : Nat) : Int)], [0]) = _
      rw [show -((n + 1 : Nat) : Int) + 1 - -((n + 1 : Nat) : Int) = 1 by omega]
    unfold pyGetItem
    rw [h3]
    have h4 : toSizes [some (-((n + 1 : Nat) : Int))] = .throw .typeError := by
      show (if -((n + 1 : Nat) : Int) < 0 then Res.throw .typeError else _) = _
      rw [if_pos (by omega)]
    show (do
      let b ← toSizes [some (-((n + 1 : Nat) : Int))]
      let ts ← read (makeView [1]) b
      return (⟨[1], squeezeFrom [0] 0 [1], ts⟩ : PyRead α)) = _
    rw [h4]
    rfl

/-- **C43, negation**: a slice that starts before the first element is empty, although numpy cuts it off
    there: along an axis of any length, with any such start. -/
theorem c43_start_counterexample {α : Type} (read : View → List Nat → Res (List α)) (n m : Nat) (h : n + 1 < m) :
    npSelect [.slice (some (-(m : Int))) none none] [n + 1] = some [.range (List.range (n + 1))] ∧
      pyGetItem read [n + 1] [.slice (some (-(m : Int))) none none] = .ok ⟨[0], [0], []⟩ := by
  constructor
  · have h1 : npItem (.slice (some (-(m : Int))) none none) (n + 1) = some (.range (List.range (n + 1))) := by
      simp only [npItem]
      rw [if_pos (.inl trivial)]
      congr 2
      refine List.filter_eq_self.2 fun k _ => ?_
      have : wrap (-(m : Int)) (n + 1) ≤ k := by
        unfold wrap
        rw [if_pos (by omega)]
        omega
      simp [this]
    show npAxes [.slice (some (-(m : Int))) none none] [n + 1] = _
    unfold npAxes
    rw [h1]
    rfl
  · have h2 : sliceToStartStop (some (-(m : Int))) none none (n + 1) = .ok ⟨none, 0⟩ := by
      unfold sliceToStartStop
      rw [if_neg (by simp)]
      have : sliceStart (some (-(m : Int))) ((n + 1 : Nat) : Int) = none := by
        unfold sliceStart
        dsimp only
        rw [if_neg (by omega), if_pos (by omega)]
      rw [this]
    have h3 : indexToRoi [.slice (some (-(m : Int))) none none] [n + 1] = .ok ([none], [0], []) := by
      have hn : normalizeSlices [.slice (some (-(m : Int))) none none] [n + 1] = (do
          let r ← sliceToStartStop (some (-(m : Int))) none none (n + 1)
          normalizeLoop [n + 1] 1 [] ([] ++ [r]) false []) := rfl
      rw [h2] at hn
      unfold indexToRoi
      rw [hn]
      rfl
    unfold pyGetItem
    rw [h3]
    rfl

end Z5
