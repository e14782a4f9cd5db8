import Verif.Spec.Index

/-!
# Lemmas on indexing
-/

namespace Z5
open Spec

theorem filter_range (n lo hi : Nat) :
    (List.range n).filter (fun k => decide (lo ≤ k) && decide (k < hi)) = List.range' lo (min hi n - lo) := by
  induction n with
  | zero => simp
  | succ n ih =>
    rw [List.range_succ, List.filter_append, ih]
    by_cases h : lo ≤ n ∧ n < hi
    · have e : min hi (n + 1) - lo = (min hi n - lo) + 1 := by omega
      rw [e, List.range'_concat]
      have e2 : lo + 1 * (min hi n - lo) = n := by omega
      simp [h.1, h.2]
      omega
    · have e : min hi (n + 1) - lo = min hi n - lo := by omega
      rw [e]
      have : (decide (lo ≤ n) && decide (n < hi)) = false := by
        simp only [Bool.and_eq_false_iff, decide_eq_false_iff_not]
        omega
      simp [this]

/-- what a normalized slice has to do with a selection -/
inductive RangeOf : PyRange → AxisSel → Nat → Prop where
  | point {k n : Nat} : k < n → RangeOf ⟨some (k : Int), k + 1⟩ (.point k) n
  | range {a m n : Nat} : a + m ≤ n → RangeOf ⟨some (a : Int), (a : Int) + m⟩ (.range (List.range' a m)) n
  | empty {n : Nat} : RangeOf ⟨none, 0⟩ (.range []) n

theorem filter_slice (a b : Option Int) (n lo hi : Nat)
    (ha : ∀ k : Nat, k < n → (a.all (fun x => decide (wrap x n ≤ k)) = true ↔ lo ≤ k))
    (hb : ∀ k : Nat, k < n → (b.all (fun y => decide ((k : Int) < wrap y n)) = true ↔ k < hi)) :
    (List.range n).filter (fun k : Nat =>
        a.all (fun x => decide (wrap x n ≤ k)) && b.all (fun y => decide ((k : Int) < wrap y n)))
      = List.range' lo (min hi n - lo) := by
  rw [← filter_range]
  apply List.filter_congr
  intro k hk
  have hk := List.mem_range.1 hk
  rw [Bool.eq_iff_iff]
  simp only [Bool.and_eq_true, ha k hk, hb k hk, decide_eq_true_eq]

theorem slice_ok {a b s : Option Int} {n : Nat} {sel : AxisSel} (h : npItem (.slice a b s) n = some sel)
    (ht : Tame (.slice a b s) n) : ∃ r, sliceToStartStop a b s n = .ok r ∧ RangeOf r sel n := by
  simp only [npItem] at h
  split at h
  · rename_i hs
    cases h
    unfold sliceToStartStop
    rw [if_neg (not_not_intro hs)]
    -- the bounds
    have hlo : ∃ lo : Nat, (∀ k : Nat, k < n → (a.all (fun x => decide (wrap x n ≤ k)) = true ↔ lo ≤ k)) ∧
        sliceStart a n = (if lo < n ∨ a = none then some (lo : Int) else none) ∧ (a = none → lo = 0) := by
      cases a with
      | none => exact ⟨0, fun k _ => by simp, by simp [sliceStart], fun _ => rfl⟩
      | some x =>
        have hx := ht x rfl
        refine ⟨(wrap x n).toNat, fun k _ => ?_, ?_, fun e => by cases e⟩
        · simp only [Option.all_some, decide_eq_true_eq]
          unfold wrap
          split <;> omega
        · unfold wrap sliceStart
          dsimp only
          by_cases h0 : x < 0
          · rw [if_pos ⟨hx, h0⟩, if_pos h0, if_pos (.inl (by omega))]
            congr 1
            omega
          · rw [if_neg (by omega), if_neg h0]
            by_cases h1 : x ≥ n
            · rw [if_pos (.inr h1), if_neg]
              rintro (h | h)
              · omega
              · cases h
            · rw [if_neg (by omega), if_pos (.inl (by omega))]
              congr 1
              omega
    have hhi : ∃ hi : Nat, (∀ k : Nat, k < n → (b.all (fun y => decide ((k : Int) < wrap y n)) = true ↔ k < hi)) ∧
        (sliceStop b n).toNat = hi ∧ hi ≤ n := by
      refine ⟨_, ?_, rfl, ?_⟩
      · intro k hk
        cases b with
        | none => simpa [sliceStop] using hk
        | some y =>
          simp only [Option.all_some, decide_eq_true_eq]
          unfold wrap sliceStop
          dsimp only
          split <;> split <;> first | omega | (split <;> omega)
      · cases b with
        | none => simp [sliceStop]
        | some y => unfold sliceStop; dsimp only; split <;> first | omega | (split <;> omega)
    obtain ⟨lo, h1, h2, h3⟩ := hlo
    obtain ⟨hi, h4, h5, h6⟩ := hhi
    rw [h2, filter_slice a b n lo hi h1 h4]
    by_cases hl : lo < n ∨ a = none
    · rw [if_pos hl]
      dsimp only
      generalize sliceStop b n = e at h5 ⊢
      by_cases hc : e < 1 ∨ e ≤ (lo : Int)
      · rw [if_pos hc, show min hi n - lo = 0 from by omega]
        exact ⟨_, rfl, .empty⟩
      · rw [if_neg hc]
        refine ⟨_, rfl, ?_⟩
        have he : e = (lo : Int) + ((min hi n - lo : Nat) : Int) := by omega
        rw [he]
        exact .range (by omega)
    · rw [if_neg hl, show min hi n - lo = 0 from by
        rw [not_or] at hl
        omega]
      exact ⟨_, rfl, .empty⟩
  · cases h

theorem int_ok {i : Int} {n : Nat} {sel : AxisSel} (h : npItem (.int i) n = some sel)
    (ht : Tame (.int i) n) : ∃ r, intToStartStop i n = .ok r ∧ RangeOf r sel n ∧ ∃ k, sel = .point k := by
  simp only [npItem] at h
  split at h
  · rename_i hs
    cases h
    have ht : i ≠ -(n : Int) := ht
    unfold intToStartStop wrap
    dsimp only
    by_cases h0 : i < 0
    · rw [if_pos (by omega), if_pos h0]
      refine ⟨_, rfl, ?_, _, rfl⟩
      have e : i + (n : Int) = ((i + n).toNat : Int) := by omega
      rw [e, Int.toNat_natCast]
      exact .point (by omega)
    · rw [if_neg (by omega), if_neg (by omega), if_neg h0]
      refine ⟨_, rfl, ?_, _, rfl⟩
      obtain ⟨k, rfl⟩ := Int.eq_ofNat_of_zero_le (by omega : 0 ≤ i)
      exact .point (by omega)
  · cases h

theorem slice_throws {a b s : Option Int} {n : Nat} (h : npItem (.slice a b s) n = none) :
    ∃ e, sliceToStartStop a b s n = .throw e := by
  simp only [npItem] at h
  split at h
  · cases h
  · rename_i hs
    unfold sliceToStartStop
    rw [if_pos hs]
    exact ⟨_, rfl⟩

theorem int_throws {i : Int} {n : Nat} (h : npItem (.int i) n = none) :
    ∃ e, intToStartStop i n = .throw e := by
  simp only [npItem] at h
  split at h
  · cases h
  · unfold intToStartStop
    dsimp only
    rw [if_neg (by omega), if_pos (by omega)]
    exact ⟨_, rfl⟩

/-- the ranges belong to the selections along the axes -/
inductive RangesOf : List PyRange → List AxisSel → List Nat → Prop where
  | nil : RangesOf [] [] []
  | cons {r s n rs ss ns} : RangeOf r s n → RangesOf rs ss ns → RangesOf (r :: rs) (s :: ss) (n :: ns)

theorem RangesOf.append {rs ss ns rs' ss' ns'} (h : RangesOf rs ss ns) (h' : RangesOf rs' ss' ns') :
    RangesOf (rs ++ rs') (ss ++ ss') (ns ++ ns') := by
  induction h with
  | nil => exact h'
  | cons h _ ih => exact .cons h ih

theorem RangesOf.lengths {rs ss ns} (h : RangesOf rs ss ns) : rs.length = ss.length ∧ ss.length = ns.length := by
  induction h with
  | nil => exact ⟨rfl, rfl⟩
  | cons _ _ ih => simp [ih.1, ih.2]

/-- the axes of points, counted from `d` on -/
def pointAxes : Nat → List AxisSel → List Nat
  | _, [] => []
  | d, .point _ :: ss => d :: pointAxes (d + 1) ss
  | d, .range _ :: ss => pointAxes (d + 1) ss

theorem pointAxes_append (d : Nat) (a b : List AxisSel) :
    pointAxes d (a ++ b) = pointAxes d a ++ pointAxes (d + a.length) b := by
  induction a generalizing d with
  | nil => rfl
  | cons x a ih =>
    have e : d + 1 + a.length = d + (a.length + 1) := by omega
    cases x <;> simp [pointAxes, ih, e]

theorem npAxes_length {its : List PyItem} {ns : List Nat} {ss : List AxisSel} (h : npAxes its ns = some ss) :
    its.length = ns.length ∧ ss.length = ns.length := by
  induction its generalizing ns ss with
  | nil =>
    cases ns with
    | nil => cases h; exact ⟨rfl, rfl⟩
    | cons n ns => cases h
  | cons it its ih =>
    cases ns with
    | nil => cases h
    | cons n ns =>
      unfold npAxes at h
      split at h
      · rename_i h2
        cases h
        obtain ⟨h3, h4⟩ := ih h2
        simp [h3, h4]
      · cases h

theorem npAxes_append {a b : List PyItem} {s t : List Nat} (hl : a.length = s.length) :
    npAxes (a ++ b) (s ++ t) = match npAxes a s, npAxes b t with
      | some x, some y => some (x ++ y)
      | _, _ => none := by
  induction a generalizing s with
  | nil =>
    cases s with
    | nil => simp only [List.nil_append, npAxes]; cases npAxes b t <;> rfl
    | cons n s => cases hl
  | cons it a ih =>
    cases s with
    | nil => cases hl
    | cons n s =>
      simp only [List.cons_append, npAxes, ih (Nat.succ.inj hl)]
      cases npItem it n <;> cases npAxes a s <;> cases npAxes b t <;> rfl

/-- The loop over items that are no ellipses -/
theorem loop_items {shape : List Nat} {total : Nat} : ∀ {items : List PyItem} {ns : List Nat}
    {ss : List AxisSel} {norm : List PyRange} {found : Bool} {sq : List Nat} {rest : List PyItem} {tl : List Nat},
    npAxes items ns = some ss → (∀ p ∈ items.zip ns, Tame p.1 p.2) → shape.drop norm.length = ns ++ tl →
    ∃ rs, normalizeLoop shape total (items ++ rest) norm found sq
        = normalizeLoop shape total rest (norm ++ rs) found (sq ++ pointAxes norm.length ss) ∧
      RangesOf rs ss ns
  | [], [], ss, norm, found, sq, rest, tl, h, ht, hd => by
    cases h
    exact ⟨[], by simp [pointAxes], .nil⟩
  | [], n :: ns, ss, norm, found, sq, rest, tl, h, ht, hd => by cases h
  | it :: items, [], ss, norm, found, sq, rest, tl, h, ht, hd => by cases h
  | it :: items, n :: ns, ss, norm, found, sq, rest, tl, h, ht, hd => by
    unfold npAxes at h
    split at h
    · rename_i s ss h1 h2
      cases h
      have hn : shape[norm.length]? = some n := by
        have := congrArg List.head? hd
        rw [List.head?_drop] at this
        exact this
      have hd' : ∀ r : PyRange, shape.drop (norm ++ [r]).length = ns ++ tl := by
        intro r
        have := congrArg (List.drop 1) hd
        rw [List.drop_drop] at this
        simpa using this
      have ht0 : Tame it n := ht (it, n) (by simp)
      have ht' : ∀ p ∈ items.zip ns, Tame p.1 p.2 := fun p hp => ht p (by simp [hp])
      cases it with
      | int i =>
        obtain ⟨r, h3, h4, k, rfl⟩ := int_ok h1 ht0
        obtain ⟨rs, h5, h6⟩ := loop_items (total := total) (norm := norm ++ [r]) (found := found)
          (sq := sq ++ [norm.length]) (rest := rest) h2 ht' (hd' r)
        refine ⟨r :: rs, ?_, .cons h4 h6⟩
        rw [List.cons_append, normalizeLoop, hn]
        simp only [h3]
        refine h5.trans ?_
        simp [pointAxes]
      | slice a b c =>
        obtain ⟨r, h3, h4⟩ := slice_ok h1 ht0
        obtain ⟨rs, h5, h6⟩ := loop_items (total := total) (norm := norm ++ [r]) (found := found)
          (sq := sq) (rest := rest) h2 ht' (hd' r)
        refine ⟨r :: rs, ?_, .cons h4 h6⟩
        rw [List.cons_append, normalizeLoop, hn]
        simp only [h3]
        refine h5.trans ?_
        have : ∃ ks, s = .range ks := by
          cases h4 with
          | point =>
            simp only [npItem] at h1
            split at h1 <;> cases h1
          | range => exact ⟨_, rfl⟩
          | empty => exact ⟨_, rfl⟩
        obtain ⟨ks, rfl⟩ := this
        simp [pointAxes]
      | ellipsis => cases h1
    · cases h

/-- The loop fails where an item does. -/
theorem loop_fails {shape : List Nat} {total : Nat} : ∀ {items : List PyItem} {ns : List Nat}
    {norm : List PyRange} {found : Bool} {sq : List Nat} {rest : List PyItem} {tl : List Nat},
    npAxes items ns = none → items.length = ns.length → .ellipsis ∉ items → shape.drop norm.length = ns ++ tl →
    ∃ e, normalizeLoop shape total (items ++ rest) norm found sq = .throw e
  | [], [], norm, found, sq, rest, tl, h, hl, he, hd => by cases h
  | [], n :: ns, norm, found, sq, rest, tl, h, hl, he, hd => by cases hl
  | it :: items, [], norm, found, sq, rest, tl, h, hl, he, hd => by cases hl
  | it :: items, n :: ns, norm, found, sq, rest, tl, h, hl, he, hd => by
    have hn : shape[norm.length]? = some n := by
      have := congrArg List.head? hd
      rw [List.head?_drop] at this
      exact this
    have hd' : ∀ r : PyRange, shape.drop (norm ++ [r]).length = ns ++ tl := by
      intro r
      have := congrArg (List.drop 1) hd
      rw [List.drop_drop] at this
      simpa using this
    have he' : .ellipsis ∉ items := fun h => he (List.mem_cons_of_mem _ h)
    unfold npAxes at h
    have hc : npItem it n = none ∨ npAxes items ns = none := by
      cases h1 : npItem it n with
      | none => exact .inl rfl
      | some x =>
        cases h2 : npAxes items ns with
        | none => exact .inr rfl
        | some y => rw [h1, h2] at h; cases h
    cases it with
    | int i =>
      rw [List.cons_append, normalizeLoop, hn]
      rcases hc with h1 | h1
      · obtain ⟨e, h2⟩ := int_throws h1
        simp only [h2]
        exact ⟨e, rfl⟩
      · cases h2 : intToStartStop i n with
        | ok r =>
          obtain ⟨e, h3⟩ := loop_fails (total := total) (norm := norm ++ [r]) (found := found)
            (sq := sq ++ [norm.length]) (rest := rest) h1 (Nat.succ.inj hl) he' (hd' r)
          simp only [h2]
          exact ⟨e, h3⟩
        | throw e =>
          simp only [h2]
          exact ⟨e, rfl⟩
        | ub =>
          unfold intToStartStop at h2
          dsimp only at h2
          split at h2
          · cases h2
          · split at h2 <;> cases h2
    | slice a b c =>
      rw [List.cons_append, normalizeLoop, hn]
      rcases hc with h1 | h1
      · obtain ⟨e, h2⟩ := slice_throws h1
        simp only [h2]
        exact ⟨e, rfl⟩
      · cases h2 : sliceToStartStop a b c n with
        | ok r =>
          obtain ⟨e, h3⟩ := loop_fails (total := total) (norm := norm ++ [r]) (found := found)
            (sq := sq) (rest := rest) h1 (Nat.succ.inj hl) he' (hd' r)
          simp only [h2]
          exact ⟨e, h3⟩
        | throw e =>
          simp only [h2]
          exact ⟨e, rfl⟩
        | ub => exact absurd h2 (slice_ne_ub a b c n)
    | ellipsis => exact absurd (List.mem_cons_self ..) he
where
  slice_ne_ub (a b c : Option Int) (n : Nat) : sliceToStartStop a b c n ≠ .ub := by
    unfold sliceToStartStop
    intro h
    split at h
    · cases h
    · split at h
      · cases h
      · split at h <;> cases h

theorem npItem_full (n : Nat) : npItem (.slice none none none) n = some (.range (List.range n)) := by
  simp [npItem]

theorem npAxes_full (ns : List Nat) :
    npAxes (List.replicate ns.length (.slice none none none)) ns = some (ns.map fun n => .range (List.range n)) := by
  induction ns with
  | nil => rfl
  | cons n ns ih => simp [npAxes, List.replicate_succ, ih, npItem_full]

theorem fillAxes_eq {ndim rest : Nat} : ∀ {ns : List Nat} {norm : List PyRange},
    norm.length + ns.length = ndim → rest ≤ ns.length →
    fillAxes ndim rest ns norm = norm ++ (ns.take (ns.length - rest)).map fun (n : Nat) => ⟨some 0, (n : Int)⟩
  | [], norm, h, hr => by simp [fillAxes]
  | n :: ns, norm, h, hr => by
    unfold fillAxes
    simp only [List.length_cons] at h hr
    by_cases hc : norm.length + rest < ndim
    · rw [if_pos hc, fillAxes_eq (by simp; omega) (by omega)]
      have e : (n :: ns).length - rest = (ns.length - rest) + 1 := by simp only [List.length_cons]; omega
      rw [e, List.take_succ_cons]
      simp
    · rw [if_neg hc, show (n :: ns).length - rest = 0 from by simp only [List.length_cons]; omega]
      simp

theorem rangesOf_full (ns : List Nat) :
    RangesOf (ns.map fun (n : Nat) => ⟨some 0, (n : Int)⟩) (ns.map fun n => .range (List.range n)) ns := by
  induction ns with
  | nil => exact .nil
  | cons n ns ih =>
    refine .cons ?_ ih
    show RangeOf ⟨some 0, (n : Int)⟩ (.range (List.range n)) n
    rw [List.range_eq_range']
    have := RangeOf.range (a := 0) (m := n) (n := n) (by omega)
    simpa using this

theorem pointAxes_full (d : Nat) (ns : List Nat) :
    pointAxes d (ns.map fun n => .range (List.range n)) = [] := by
  induction ns generalizing d with
  | nil => rfl
  | cons n ns ih => exact ih _

/-- The loop over items that are no ellipses either fails or goes on behind them. -/
theorem loop_any {shape : List Nat} {total : Nat} : ∀ {items : List PyItem}
    {norm : List PyRange} {found : Bool} {sq : List Nat} {rest : List PyItem}, .ellipsis ∉ items →
    (∃ e, normalizeLoop shape total (items ++ rest) norm found sq = .throw e) ∨
    ∃ rs sq', rs.length = items.length ∧ normalizeLoop shape total (items ++ rest) norm found sq
      = normalizeLoop shape total rest (norm ++ rs) found sq'
  | [], norm, found, sq, rest, he => .inr ⟨[], sq, rfl, by simp⟩
  | it :: items, norm, found, sq, rest, he => by
    have he' : .ellipsis ∉ items := fun h => he (List.mem_cons_of_mem _ h)
    cases it with
    | int i =>
      rw [List.cons_append, normalizeLoop]
      split
      · exact .inl ⟨_, rfl⟩
      · rename_i n _
        cases h2 : intToStartStop i n with
        | ok r =>
          rcases loop_any (shape := shape) (total := total) (norm := norm ++ [r]) (found := found)
            (sq := sq ++ [norm.length]) (rest := rest) he' with h | ⟨rs, sq', h, h'⟩
          · exact .inl h
          · refine .inr ⟨r :: rs, sq', by simp [h], h'.trans ?_⟩
            rw [List.append_assoc]
            rfl
        | throw e => exact .inl ⟨e, rfl⟩
        | ub =>
          unfold intToStartStop at h2
          dsimp only at h2
          split at h2
          · cases h2
          · split at h2 <;> cases h2
    | slice a b c =>
      rw [List.cons_append, normalizeLoop]
      split
      · exact .inl ⟨_, rfl⟩
      · rename_i n _
        cases h2 : sliceToStartStop a b c n with
        | ok r =>
          rcases loop_any (shape := shape) (total := total) (norm := norm ++ [r]) (found := found)
            (sq := sq) (rest := rest) he' with h | ⟨rs, sq', h, h'⟩
          · exact .inl h
          · refine .inr ⟨r :: rs, sq', by simp [h], h'.trans ?_⟩
            rw [List.append_assoc]
            rfl
        | throw e => exact .inl ⟨e, rfl⟩
        | ub => exact absurd h2 (loop_fails.slice_ne_ub a b c n)
    | ellipsis => exact absurd (List.mem_cons_self ..) he

/-- An index with one ellipsis -/
theorem loop_split {shape : List Nat} {pre post : List PyItem}
    (hl : pre.length + post.length ≤ shape.length) (h1 : .ellipsis ∉ pre) (h2 : .ellipsis ∉ post) :
    let items := pre ++ List.replicate (shape.length - (pre.length + post.length)) (.slice none none none) ++ post
    let loop := normalizeLoop shape (pre.length + 1 + post.length) (pre ++ .ellipsis :: post) [] false []
    (∀ ss, npAxes items shape = some ss → (∀ p ∈ items.zip shape, Tame p.1 p.2) →
      ∃ rs, loop = .ok (rs, pointAxes 0 ss) ∧ RangesOf rs ss shape) ∧
    (npAxes items shape = none → ∃ e, loop = .throw e) := by
  dsimp only
  generalize hm : shape.length - (pre.length + post.length) = m
  -- the shape in three parts
  obtain ⟨s1, s2, s3, rfl, hs1, hs2, hs3⟩ : ∃ s1 s2 s3, shape = s1 ++ (s2 ++ s3) ∧ s1.length = pre.length ∧
      s2.length = m ∧ s3.length = post.length := by
    refine ⟨shape.take pre.length, (shape.drop pre.length).take m, (shape.drop pre.length).drop m, ?_, ?_, ?_, ?_⟩
    · rw [List.take_append_drop, List.take_append_drop]
    · rw [List.length_take]; omega
    · rw [List.length_take, List.length_drop]; omega
    · rw [List.length_drop, List.length_drop]; omega
  have hax : npAxes (pre ++ List.replicate m (.slice none none none) ++ post) (s1 ++ (s2 ++ s3))
      = match npAxes pre s1, npAxes post s3 with
        | some x, some y => some (x ++ (s2.map (fun n => .range (List.range n)) ++ y))
        | _, _ => none := by
    rw [List.append_assoc, npAxes_append hs1.symm, npAxes_append (by simp [hs2]), ← hs2, npAxes_full]
    cases npAxes pre s1 <;> cases npAxes post s3 <;> rfl
  -- the ellipsis
  have hell : ∀ (norm : List PyRange) (sq : List Nat), norm.length = pre.length →
      normalizeLoop (s1 ++ (s2 ++ s3)) (pre.length + 1 + post.length) (.ellipsis :: post) norm false sq
        = normalizeLoop (s1 ++ (s2 ++ s3)) (pre.length + 1 + post.length) post
          (norm ++ s2.map fun (n : Nat) => ⟨some 0, (n : Int)⟩) true sq := by
    intro norm sq hn
    rw [normalizeLoop, if_neg (by decide), hn, ← hs1, List.drop_left, fillAxes_eq]
    · rw [hs1, show pre.length + 1 + post.length - pre.length - 1 = s3.length from by omega]
      simp
    · simp [hn, hs1]
    · rw [List.length_append]; omega
  constructor
  · intro ss hss ht
    rw [hax] at hss
    split at hss
    · rename_i x y hx hy
      cases hss
      have hz : (pre ++ List.replicate m (PyItem.slice none none none) ++ post).zip (s1 ++ (s2 ++ s3))
          = pre.zip s1 ++ ((List.replicate m (PyItem.slice none none none)).zip s2 ++ post.zip s3) := by
        rw [List.append_assoc, List.zip_append hs1.symm, List.zip_append (by simp [hs2])]
      rw [hz] at ht
      obtain ⟨rs, h3, h4⟩ := loop_items (shape := s1 ++ (s2 ++ s3)) (total := pre.length + 1 + post.length)
        (norm := []) (found := false) (sq := []) (rest := .ellipsis :: post) (tl := s2 ++ s3) hx
        (fun p hp => ht p (by simp only [List.mem_append]; exact .inl hp)) rfl
      have h5 := hell ([] ++ rs) ([] ++ pointAxes 0 x)
        (by rw [List.nil_append, h4.lengths.1, h4.lengths.2, hs1])
      obtain ⟨rs', h6, h7⟩ := loop_items (shape := s1 ++ (s2 ++ s3)) (total := pre.length + 1 + post.length)
        (norm := ([] ++ rs) ++ s2.map fun (n : Nat) => ⟨some 0, (n : Int)⟩) (found := true)
        (sq := [] ++ pointAxes 0 x) (rest := []) (tl := []) hy
        (fun p hp => ht p (by simp only [List.mem_append]; exact .inr (.inr hp)))
        (by
          rw [List.append_nil, ← List.append_assoc]
          apply List.drop_left'
          simp [h4.lengths.1, h4.lengths.2])
      rw [List.append_nil] at h6
      refine ⟨rs ++ ((s2.map fun (n : Nat) => ⟨some 0, (n : Int)⟩) ++ rs'), (h3.trans (h5.trans h6)).trans ?_, ?_⟩
      · rw [normalizeLoop]
        congr 2
        · simp
        · rw [pointAxes_append, pointAxes_append, pointAxes_full]
          simp [h4.lengths.1, h4.lengths.2]
      · exact h4.append ((rangesOf_full s2).append h7)
    · cases hss
  · intro hn
    rw [hax] at hn
    cases hx : npAxes pre s1 with
    | none =>
      exact loop_fails (ns := s1) (tl := s2 ++ s3) hx hs1.symm h1 rfl
    | some x =>
      cases hy : npAxes post s3 with
      | some y => rw [hx, hy] at hn; cases hn
      | none =>
        rcases loop_any (shape := s1 ++ (s2 ++ s3)) (total := pre.length + 1 + post.length) (norm := [])
          (found := false) (sq := []) (rest := .ellipsis :: post) h1 with h | ⟨rs, sq', h, h'⟩
        · exact h
        · rw [h', hell _ _ (by simpa using h), ← List.append_nil post]
          refine loop_fails (ns := s3) (tl := []) hy hs3.symm h2 ?_
          rw [List.append_nil, ← List.append_assoc]
          apply List.drop_left'
          simp [h, hs1]

/-- Two ellipses -/
theorem loop_ellipses {shape : List Nat} {total : Nat} : ∀ {items : List PyItem} {norm : List PyRange}
    {found : Bool} {sq : List Nat}, items.count .ellipsis + found.toNat > 1 →
    ∃ e, normalizeLoop shape total items norm found sq = .throw e
  | [], norm, found, sq, h => by cases found <;> simp at h
  | it :: items, norm, found, sq, h => by
    have hc : it ≠ .ellipsis → items.count .ellipsis + found.toNat > 1 := by
      intro hn
      rw [List.count_cons_of_ne hn] at h
      exact h
    cases it with
    | int i =>
      rw [normalizeLoop]
      split
      · exact ⟨_, rfl⟩
      · rename_i n _
        cases h2 : intToStartStop i n with
        | ok r => exact loop_ellipses (hc (fun e => by cases e))
        | throw e => exact ⟨e, rfl⟩
        | ub =>
          unfold intToStartStop at h2
          dsimp only at h2
          split at h2
          · cases h2
          · split at h2 <;> cases h2
    | slice a b c =>
      rw [normalizeLoop]
      split
      · exact ⟨_, rfl⟩
      · rename_i n _
        cases h2 : sliceToStartStop a b c n with
        | ok r => exact loop_ellipses (hc (fun e => by cases e))
        | throw e => exact ⟨e, rfl⟩
        | ub => exact absurd h2 (loop_fails.slice_ne_ub a b c n)
    | ellipsis =>
      rw [normalizeLoop]
      cases found with
      | true => exact ⟨_, rfl⟩
      | false =>
        rw [if_neg (by decide)]
        refine loop_ellipses ?_
        rw [List.count_cons_self] at h
        simpa using h

theorem split_ellipsis {idx : List PyItem} (h : .ellipsis ∈ idx) (hc : ¬ idx.count .ellipsis > 1) :
    ∃ pre post, idx = pre ++ .ellipsis :: post ∧ .ellipsis ∉ pre ∧ .ellipsis ∉ post := by
  obtain ⟨pre, post, rfl⟩ := List.append_of_mem h
  refine ⟨pre, post, rfl, ?_, ?_⟩
  · intro hm
    have := List.count_pos_iff.2 hm
    rw [List.count_append, List.count_cons_self] at hc
    omega
  · intro hm
    have := List.count_pos_iff.2 hm
    rw [List.count_append, List.count_cons_self] at hc
    omega

theorem filter_none {l : List PyItem} (h : .ellipsis ∉ l) : l.filter (· ≠ .ellipsis) = l := by
  rw [List.filter_eq_self]
  intro a ha
  simp only [ne_eq, decide_not, Bool.not_eq_true', decide_eq_false_iff_not]
  rintro rfl
  exact h ha

theorem flatMap_none {l : List PyItem} {x : List PyItem} (h : .ellipsis ∉ l) :
    (l.flatMap fun it => if it = .ellipsis then x else [it]) = l := by
  induction l with
  | nil => rfl
  | cons a l ih =>
    rw [List.flatMap_cons, if_neg (fun e => h (by simp [e])), ih (fun h' => h (List.mem_cons_of_mem _ h'))]
    rfl

theorem normalizeSlices_spec (idx : List PyItem) (shape : List Nat) :
    (∀ ss, npSelect idx shape = some ss → TameIndex idx shape →
      ∃ rs, normalizeSlices idx shape = .ok (rs, pointAxes 0 ss) ∧ RangesOf rs ss shape) ∧
    (npSelect idx shape = none → ∃ e, normalizeSlices idx shape = .throw e) := by
  unfold npSelect TameIndex
  by_cases hn : (idx.filter (· ≠ .ellipsis)).length > shape.length
  · have : npExpand idx shape.length = none := if_pos (.inr hn)
    rw [this]
    refine ⟨fun ss h => (by cases h), fun _ => ⟨.typeError, ?_⟩⟩
    exact if_pos hn
  have hns : normalizeSlices idx shape = normalizeLoop shape _ _ [] false [] := if_neg hn
  rw [hns]
  by_cases hc : idx.count .ellipsis > 1
  · have : npExpand idx shape.length = none := if_pos (.inl hc)
    rw [this]
    refine ⟨fun ss h => (by cases h), fun _ => ?_⟩
    have hm : .ellipsis ∈ idx := List.count_pos_iff.1 (by omega)
    rw [if_neg (fun h : _ ∧ ¬ _ => h.2 hm)]
    exact loop_ellipses (by simpa using hc)
  have hexp : npExpand idx shape.length = some _ := if_neg (not_or.2 ⟨hc, hn⟩)
  rw [hexp]
  by_cases hm : .ellipsis ∈ idx
  · obtain ⟨pre, post, rfl, h1, h2⟩ := split_ellipsis hm hc
    have hf : ((pre ++ PyItem.ellipsis :: post).filter (· ≠ .ellipsis)) = pre ++ post := by
      rw [List.filter_append, List.filter_cons_of_neg (by simp), filter_none h1, filter_none h2]
    rw [if_neg (fun h : _ ∧ ¬ _ => h.2 hm), if_pos hm]
    simp only [hf] at hn ⊢
    rw [List.length_append] at hn
    have := loop_split (shape := shape) (Nat.le_of_not_lt hn) h1 h2
    dsimp only at this
    rw [List.flatMap_append, List.flatMap_cons, if_pos rfl, flatMap_none h1, flatMap_none h2,
      ← List.append_assoc, List.length_append, show (pre ++ PyItem.ellipsis :: post).length
        = pre.length + 1 + post.length from by simp; omega]
    refine ⟨fun ss h ht => this.1 ss h (ht _ rfl), fun h => this.2 h⟩
  · rw [if_neg hm]
    have hf : (idx.filter (· ≠ .ellipsis)) = idx := filter_none hm
    rw [hf] at hn ⊢
    rw [List.flatMap_append, List.flatMap_cons, if_pos rfl, flatMap_none hm, List.flatMap_nil, List.append_nil]
    by_cases hl : idx.length < shape.length
    · rw [if_pos ⟨hl, hm⟩]
      have := loop_split (shape := shape) (pre := idx) (post := []) (by simp; omega) hm (by simp)
      dsimp only at this
      rw [List.append_nil] at this
      rw [show (idx ++ [PyItem.ellipsis]).length = idx.length + 1 + [].length from by simp]
      exact ⟨fun ss h ht => this.1 ss h (ht _ rfl), fun h => this.2 h⟩
    · rw [if_neg (fun h : _ ∧ _ => hl h.1)]
      have e : shape.length - idx.length = 0 := by omega
      rw [e, List.replicate_zero, List.append_nil]
      constructor
      · intro ss h ht
        obtain ⟨rs, h3, h4⟩ := loop_items (shape := shape) (total := idx.length)
          (norm := []) (found := false) (sq := []) (rest := []) (tl := []) h (ht _ rfl) (by simp)
        rw [List.append_nil] at h3
        exact ⟨rs, h3.trans (by simp [normalizeLoop]), h4⟩
      · intro h
        obtain ⟨e, h3⟩ := loop_fails (shape := shape) (total := idx.length)
          (norm := []) (found := false) (sq := []) (rest := []) (tl := []) h (by omega) hm (by simp)
        rw [List.append_nil] at h3
        exact ⟨e, h3⟩

end Z5
