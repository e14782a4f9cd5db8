import Verif.Props.Index

/-!
# C44: assigning arrays of another shape
-/

namespace Z5
open Spec Prog Props

variable {E : Elem}

theorem stripFront_ones : ∀ (p : Nat), stripFront (singles (p + 1)) = [1]
  | 0 => rfl
  | p + 1 => stripFront_ones p

theorem stripOnes_ones (p : Nat) : stripOnes (singles (p + 1)) = [1] := by
  unfold stripOnes
  rw [stripFront_ones]
  rfl

theorem dropWhile_ones (l : List Nat) : ∀ (k : Nat), (singles k ++ l).dropWhile (· = 1) = l.dropWhile (· = 1)
  | 0 => rfl
  | k + 1 => dropWhile_ones l k

theorem dropWhile_core {l : List Nat} (h : l.head? ≠ some 1) : l.dropWhile (· = 1) = l := by
  cases l with
  | nil => rfl
  | cons x l =>
    rw [List.dropWhile_cons, if_neg]
    intro e
    exact h (by simpa using e)

theorem head_append {l : List Nat} (h : l ≠ []) (m : List Nat) : (l ++ m).head? = l.head? := by
  cases l with
  | nil => exact absurd rfl h
  | cons x l => rfl

theorem trimmed_core {core : List Nat} (h2 : core.head? ≠ some 1) (h3 : core.getLast? ≠ some 1)
    (a b : Nat) : trimmed (singles a ++ core ++ singles b) = core := by
  by_cases h1 : core = []
  · subst h1
    unfold trimmed
    rw [List.append_nil, dropWhile_ones, ← List.append_nil (singles b), dropWhile_ones]
    rfl
  · unfold trimmed
    rw [List.append_assoc, dropWhile_ones, dropWhile_core (l := core ++ singles b), List.reverse_append,
      List.reverse_replicate, dropWhile_ones, dropWhile_core, List.reverse_reverse]
    · rwa [List.head?_reverse]
    · rw [head_append h1]
      exact h2

theorem split_front : ∀ (s : List Nat), ∃ a t, s = singles a ++ t ∧ t.head? ≠ some 1
  | [] => ⟨0, [], rfl, (fun h => by cases h)⟩
  | x :: s => by
    by_cases hx : x = 1
    · obtain ⟨a, t, h1, h2⟩ := split_front s
      exact ⟨a + 1, t, by rw [hx, h1]; rfl, h2⟩
    · exact ⟨0, x :: s, rfl, fun h => hx (Option.some.inj h)⟩

theorem split_core (s : List Nat) :
    ∃ a core b, s = singles a ++ core ++ singles b ∧ core.head? ≠ some 1 ∧ core.getLast? ≠ some 1 := by
  obtain ⟨a, t, h1, h2⟩ := split_front s
  obtain ⟨b, u, h3, h4⟩ := split_front t.reverse
  have ht : t = u.reverse ++ singles b := by
    rw [← List.reverse_reverse t, h3, List.reverse_append, List.reverse_replicate]
  refine ⟨a, u.reverse, b, by rw [h1, ht, List.append_assoc], ?_, ?_⟩
  · by_cases hu : u = []
    · rw [hu]
      exact fun h => by cases h
    · rw [ht, head_append (by simpa using hu)] at h2
      exact h2
  · rwa [List.getLast?_reverse]

/-- The shape that is searched for is the array's without the singletons at its ends, unless that is nothing. -/
theorem stripOnes_trimmed {s : List Nat} (h : s ≠ []) :
    (∃ p, s = singles (p + 1) ∧ stripOnes s = [1]) ∨ stripOnes s = trimmed s := by
  obtain ⟨a, core, b, rfl, h2, h3⟩ := split_core s
  by_cases h1 : core = []
  · left
    subst h1
    have e : singles a ++ [] ++ singles b = singles (a + b) := by
      rw [List.append_nil]
      exact List.replicate_append_replicate
    rw [e] at h ⊢
    cases hab : a + b with
    | zero =>
      rw [hab] at h
      exact absurd rfl h
    | succ p => exact ⟨p, rfl, stripOnes_ones p⟩
  · right
    rw [stripOnes_core h1 h2 h3, trimmed_core h2 h3]

theorem squeezed_length_le (l : List Nat) : (squeezed l).length ≤ l.length := List.length_filter_le ..

/-- Shapes that are accepted -/
theorem rectify_sound {α : Type} {arr r : NpArray α} {req : List Nat} (h : rectifyShape arr req = .ok r)
    (hg : (trimmed arr.shape).length ≤ (squeezed req).length) : squeezed arr.shape = squeezed req := by
  unfold rectifyShape at h
  split at h
  · rename_i e
    rw [e]
  · rename_i hne
    dsimp only at h
    split at h
    · cases h
    · rename_i hle
      rw [windows_eq] at h
      split at h
      · rename_i hw
        by_cases hs : arr.shape = []
        · rw [hs] at hw hne
          cases req with
          | nil => exact absurd rfl hne
          | cons x l =>
            exfalso
            have : windowLoop [] (windows 0 (x :: l)) true = true := hw
            unfold windows at this
            rw [if_pos (Nat.zero_le _)] at this
            cases l with
            | nil => cases this
            | cons y l => cases this
        · obtain ⟨a, b, hab⟩ := stripOnes_eq arr.shape
          rcases windowLoop_sound (stripOnes_ne_nil hs) hw with ⟨k, m, hkm⟩ | hall
          · rw [hkm]
            conv => lhs; rw [hab]
            simp only [squeezed_append, squeezed_ones, List.nil_append, List.append_nil]
          · rcases stripOnes_trimmed hs with ⟨p, hp, hp1⟩ | ht
            · rw [hp1, show req.length + 1 - [1].length = req.length from rfl, List.take_length] at hall
              rw [eq_ones hall, hp, squeezed_ones, squeezed_ones]
            · exfalso
              rw [← ht] at hg
              have hpos := List.length_pos_iff.2 (stripOnes_ne_nil hs)
              have e := List.take_append_drop (req.length + 1 - (stripOnes arr.shape).length) req
              have : (squeezed req).length ≤ (stripOnes arr.shape).length - 1 := by
                rw [← e, squeezed_append, eq_ones hall, squeezed_ones, List.nil_append]
                refine Nat.le_trans (squeezed_length_le _) ?_
                rw [List.length_drop]
                omega
              omega
      · cases h

theorem squeezed_region : ∀ (ss : List AxisSel), squeezed (regionShape ss) = squeezed (resultShape ss)
  | [] => rfl
  | .point _ :: ss => by
    show squeezed (1 :: regionShape ss) = squeezed (resultShape ss)
    rw [← squeezed_region ss]
    rfl
  | .range ks :: ss => by
    show squeezed (ks.length :: regionShape ss) = squeezed (ks.length :: resultShape ss)
    have ih : List.filter (· ≠ 1) (regionShape ss) = List.filter (· ≠ 1) (resultShape ss) := squeezed_region ss
    unfold squeezed
    rw [List.filter_cons, List.filter_cons, ih]

theorem zero_mem_squeezed {s : List Nat} : 0 ∈ squeezed s ↔ 0 ∈ s := by
  unfold squeezed
  rw [List.mem_filter]
  exact and_iff_left (by decide)

/-- **C44.**  If the assignment of an array to a selection that is not empty is accepted, and the array has, not
    counting singletons at its ends, no more axes than the selection has other than singletons: then the shapes
    of the array and of the selection are the same but for singletons. -/
theorem c44_shapes {α β : Type} {write : List β → View → List Nat → Res (List α)} {shape : List Nat}
    {index : List PyItem} {ss : List AxisSel} (h : npSelect index shape = some ss) (ht : TameIndex index shape)
    {item : NpArray β} {ts : List α} (hts : pySetArray write shape index item = .ok ts)
    (h0 : 0 ∉ resultShape ss)
    (hg : (trimmed item.shape).length ≤ (squeezed (resultShape ss)).length) :
    squeezed item.shape = squeezed (resultShape ss) := by
  obtain ⟨_, ⟨_, h1⟩ | ⟨_, _, r, h3⟩⟩ := setArray_ok h ht hts
  · rw [← zero_mem_squeezed, squeezed_region, zero_mem_squeezed] at h1
    exact absurd h1 h0
  · rw [← squeezed_region] at hg ⊢
    exact rectify_sound h3 hg

theorem picks_inBox : ∀ {ss : List AxisSel} {j x : List Nat}, Picks ss j x → InBox j (resultShape ss)
  | _, _, _, .nil => trivial
  | .point _ :: ss, _, _, .point hp => picks_inBox (ss := ss) hp
  | _, _, _, .range hk hp => ⟨(List.getElem?_eq_some_iff.1 hk).1, picks_inBox hp⟩

/-- **C44**, what is written then: each element that is selected has the value of the array at the same
    position, singletons aside. -/
theorem c44_values {ds : Dataset E} {ws : List (Write E.T)} {σ : Store} (hreach : Reaches ds ws σ)
    {index : List PyItem} {ss : List AxisSel} (h : npSelect index ds.shape = some ss)
    (ht : TameIndex index ds.shape) (item : NpArray E.T) (hitem : item.data.length = prod item.shape)
    (scratch : Nat → List E.T) {ts : List (Prog Unit)}
    (hts : pySetArray (fun buf view off => ds.writeSubarray buf view off scratch) ds.shape index item = .ok ts)
    (hg : (trimmed item.shape).length ≤ (squeezed (resultShape ss)).length)
    {is : List Nat} {σ' : Store} (hc : Completes ts is σ σ') :
    ∃ ws', Reaches ds (ws ++ ws') σ' ∧ ∀ (A : List Nat → E.T) (x : List Nat),
      (∀ j q, Picks ss j x → InBox q item.shape →
        squeezedIndex (resultShape ss) j = squeezedIndex item.shape q →
        item.data[ravel item.shape q]? = some (replay A ws' x)) ∧
      ((¬ ∃ j, Picks ss j x) → replay A ws' x = A x) := by
  obtain ⟨ws', h1, h2⟩ := c43_set_array hreach h ht item hitem scratch hts hc
  refine ⟨ws', h1, fun A x => ⟨fun j q hp hq hjq => ?_, (h2 A x).2⟩⟩
  have hj := picks_inBox hp
  have hs := c44_shapes h ht hts (fun h0 => inBox_no_zero hj h0) hg
  rw [← (h2 A x).1 j hp, ← ravel_squeezed hq, ← ravel_squeezed hj, hs, hjq]

/-- **C44** for sharded datasets -/
theorem c44_values_sharded {sd : ShardedDataset E} {ws : List (Write E.T)} {σ : Store}
    (hreach : ShardedReaches sd ws σ)
    {index : List PyItem} {ss : List AxisSel} (h : npSelect index sd.shape = some ss)
    (ht : TameIndex index sd.shape) (item : NpArray E.T) (hitem : item.data.length = prod item.shape)
    (scratch : Nat → List E.T) {ts : List (Prog Unit)}
    (hts : pySetArray (fun buf view off => sd.writeRegion (copyRequest buf view) off view.shape scratch) sd.shape
      index item = .ok ts)
    (hg : (trimmed item.shape).length ≤ (squeezed (resultShape ss)).length)
    {is : List Nat} {σ' : Store} (hc : Completes ts is σ σ') :
    ∃ ws', ShardedReaches sd (ws ++ ws') σ' ∧ ∀ (A : List Nat → E.T) (x : List Nat),
      (∀ j q, Picks ss j x → InBox q item.shape →
        squeezedIndex (resultShape ss) j = squeezedIndex item.shape q →
        item.data[ravel item.shape q]? = some (replay A ws' x)) ∧
      ((¬ ∃ j, Picks ss j x) → replay A ws' x = A x) := by
  obtain ⟨ws', h1, h2⟩ := c43_set_array_sharded hreach h ht item hitem scratch hts hc
  refine ⟨ws', h1, fun A x => ⟨fun j q hp hq hjq => ?_, (h2 A x).2⟩⟩
  have hj := picks_inBox hp
  have hs := c44_shapes h ht hts (fun h0 => inBox_no_zero hj h0) hg
  rw [← (h2 A x).1 j hp, ← ravel_squeezed hq, ← ravel_squeezed hj, hs, hjq]

/-- **C44, negation**: without that condition an array may be assigned to a selection of another shape, for
    example any matrix to a row of as many elements. -/
theorem c44_shapes_counterexample {α β : Type} (write : List β → View → List Nat → Res (List α))
    (a b : Nat) (ha : 1 < a) (hb : 1 < b) (data : List β) :
    pySetArray write [1, a * b] [] ⟨[a, b], data⟩ = write data (makeView [1, a * b]) [0, 0] ∧
      npSelect [] [1, a * b] = some [.range [0], .range (List.range (a * b))] ∧
      squeezed [a, b] = [a, b] ∧ squeezed [1, a * b] = [a * b] := by
  have hab : 1 < a * b := by
    calc 1 < a := ha
      _ = a * 1 := (Nat.mul_one a).symm
      _ ≤ a * b := Nat.mul_le_mul_left a (Nat.le_of_lt hb)
  refine ⟨?_, ?_, ?_, ?_⟩
  · have h1 : indexToRoi [] [1, a * b] = .ok ([some 0, some 0], [1, ((a * b : Nat) : Int)], []) := by
      show Res.ok ([some 0, some 0], [(1 : Int), ((a * b : Nat) : Int) - 0], ([] : List Nat)) = _
      rw [Int.sub_zero]
    have h2 : rectifyShape ⟨[a, b], data⟩ [1, a * b] = .ok ⟨[1, a * b], data⟩ := by
      have h3 : stripOnes [a, b] = [a, b] := stripOnes_core (core := [a, b]) (by simp) (by simp; omega)
        (by simp; omega) 0 0
      unfold rectifyShape
      rw [if_neg (by simp; omega)]
      dsimp only
      rw [h3, if_neg (by simp)]
      have h4 : windowLoop [a, b] (slidingWindow [1, a * b] [a, b].length) true = true := by
        show windowLoop [a, b] [[1, a * b]] true = true
        unfold windowLoop
        rw [if_neg (by simp; omega)]
        rfl
      rw [if_pos h4, if_pos (by simp [prod])]
    unfold pySetArray
    rw [h1]
    have h5 : npShape [1, ((a * b : Nat) : Int)] = .ok [1, a * b] := npShape_nat [1, a * b]
    show (if (0 : Int) ∈ [1, ((a * b : Nat) : Int)] then pure [] else do
      let s ← npShape [1, ((a * b : Nat) : Int)]
      let arr ← rectifyShape ⟨[a, b], data⟩ s
      let b ← toSizes [some 0, some 0]
      write arr.data (makeView arr.shape) b) = _
    rw [if_neg (by simp; omega), h5]
    show (do
      let arr ← rectifyShape ⟨[a, b], data⟩ [1, a * b]
      let b ← toSizes [some 0, some 0]
      write arr.data (makeView arr.shape) b) = _
    rw [h2]
    rfl
  · show npAxes [.slice none none none, .slice none none none] [1, a * b] = _
    simp [npAxes, npItem]
  · unfold squeezed
    rw [List.filter_eq_self]
    simp
    omega
  · unfold squeezed
    simp
    omega

/-- **C44**, the converse: an array whose shape is that of the region but for singletons at its ends passes the
    check, if it is not all singletons. -/
theorem c44_accepts {β : Type} {core : List Nat} (h1 : core ≠ []) (h2 : core.head? ≠ some 1)
    (h3 : core.getLast? ≠ some 1) (a b k m : Nat) (data : List β) :
    rectifyShape ⟨List.replicate a 1 ++ core ++ List.replicate b 1, data⟩
        (List.replicate k 1 ++ core ++ List.replicate m 1)
      = .ok ⟨List.replicate k 1 ++ core ++ List.replicate m 1, data⟩ := by
  unfold rectifyShape
  split
  · rename_i e
    have e : singles a ++ core ++ singles b = singles k ++ core ++ singles m := e
    rw [e]
  · dsimp only
    rw [stripOnes_core h1 h2 h3, windows_eq, if_neg (by simp; omega),
      if_pos (windowLoop_complete h1 h2 h3 m k), if_pos]
    simp only [prod_append, prod_ones, Nat.one_mul, Nat.mul_one]

/-- **C44, negation** of the converse: an array of a single element cannot be assigned to an element of two or
    more axes, unless it has just as many. -/
theorem c44_accepts_counterexample {β : Type} (p m : Nat) (h : p ≠ m + 1) (data : List β) :
    rectifyShape ⟨List.replicate (p + 1) 1, data⟩ (List.replicate (m + 2) 1) = .throw .invalidArgument := by
  unfold rectifyShape
  rw [if_neg]
  · dsimp only
    rw [stripOnes_ones, if_neg (by simp), if_neg]
    rw [windows_eq]
    intro hw
    have : windowLoop [1] ([1] :: [1] :: windows 1 (singles m)) true = true := hw
    cases this
  · intro e
    have := congrArg List.length e
    simp at this
    exact h this

/-! ### The hypotheses can be met -/

/-- `ds[-2, :2] = [1, 2]` on a dataset of shape (5, 3) with a history: elements (3, 0) and (3, 1) are selected,
    the assignment is accepted, and it can be completed. -/
example (zarr : Bool) : ∃ (ws : List (Write U16.T)) (σ σ' : Store) (ts : List (Prog Unit)) (is : List Nat),
    Reaches (exDataset zarr) ws σ ∧ ws.length = 2 ∧
    npSelect [.int (-2), .slice none (some 2) none] (exDataset zarr).shape = some [.point 3, .range [0, 1]] ∧
    TameIndex [.int (-2), .slice none (some 2) none] (exDataset zarr).shape ∧
    pySetArray (fun buf view off => (exDataset zarr).writeSubarray buf view off fun _ => [])
      (exDataset zarr).shape [.int (-2), .slice none (some 2) none]
      (⟨[2], [(1 : Fin (256 ^ 2)), (2 : Fin (256 ^ 2))]⟩ : NpArray U16.T) = .ok ts ∧
    (trimmed [2]).length ≤ (squeezed (resultShape [.point 3, .range [0, 1]])).length ∧
    Completes ts is σ σ' := by
  obtain ⟨σ, hσ⟩ := exDataset_reaches zarr
  have h := exDataset_wf zarr
  have hr : RegionOk (exDataset zarr).shape [3, 0] [1, 2] := by cases zarr <;> decide
  obtain ⟨is, rs, hfin⟩ := exists_finished
    (((exDataset zarr).jobs (copyRequest [(1 : Fin (256 ^ 2)), (2 : Fin (256 ^ 2))] (makeView [1, 2])) [3, 0] [1, 2]
      fun _ => []).map Prod.snd, σ)
  refine ⟨_, σ, _, _, is, hσ, rfl, ?_, ?_, ?_, by decide, rs, hfin, ?_, rfl⟩
  · show npSelect [.int (-2), .slice none (some 2) none] [5, 3] = _
    decide
  · show TameIndex [.int (-2), .slice none (some 2) none] [5, 3]
    intro items hi p hp
    cases hi
    revert p
    simp [Tame]
  · exact writeRegion_jobs h hr _ _
  · obtain ⟨val, hval⟩ := array_values (s := [1, 2])
      (data := ([(1 : Fin (256 ^ 2)), (2 : Fin (256 ^ 2))] : List U16.T)) rfl (1 : Fin (256 ^ 2))
    refine writeRegion_total h rfl trivial hr (copyRequest_spec _ _ val (makeView_fits _ (by decide))
      fun i hi => ?_) (reaches_refines h rfl hσ) hfin
    rw [← hval i hi]
    show _[0 + dot i (cOrderStrides [1, 2])]? = _
    rw [cOrderStrides_eq, Nat.zero_add]
    rfl

/-- `ds[1:, ..., 0]` and `ds[...]`, and indices that are rejected: three items, two ellipses, a step, out of
    range -/
example : npSelect [.slice (some 1) none none, .ellipsis, .int 0] [5, 3] = some [.range [1, 2, 3, 4], .point 0] ∧
    npSelect [.ellipsis] [2, 1] = some [.range [0, 1], .range [0]] ∧
    npSelect [.int 0, .int 0, .int 0] [5, 3] = none ∧ npSelect [.ellipsis, .ellipsis] [5, 3] = none ∧
    npSelect [.slice none none (some 2)] [5, 3] = none ∧ npSelect [.int 5] [5, 3] = none := by
  decide

/-- Shapes that pass and shapes that do not -/
example : rectifyShape (⟨[1, 2, 1], [0, 1]⟩ : NpArray Nat) [2, 1, 1, 1] matches .ok ⟨[2, 1, 1, 1], [0, 1]⟩ ∧
    rectifyShape (⟨[2, 3], [0, 1, 2, 3, 4, 5]⟩ : NpArray Nat) [3, 2] matches .throw _ := by
  decide

end Z5
