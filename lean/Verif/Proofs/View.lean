import Verif.Model.View
import Verif.Lib.Odometer

/-! # Lemmas about views, strided copies and fills -/

namespace Z5

theorem flatMap_congr' {α β : Type} {f g : α → List β} : ∀ {l : List α},
    (∀ a ∈ l, f a = g a) → l.flatMap f = l.flatMap g
  | [], _ => rfl
  | a :: l, h => by
    rw [List.flatMap_cons, List.flatMap_cons, h a List.mem_cons_self,
      flatMap_congr' fun x hx => h x (List.mem_cons_of_mem _ hx)]

theorem flatMap_singleton' {α β : Type} (f : α → β) : ∀ (l : List α),
    l.flatMap (fun a => [f a]) = l.map f
  | [] => rfl
  | a :: l => by rw [List.flatMap_cons, flatMap_singleton' f l]; rfl

theorem cOrderStrides_eq : ∀ (s : List Nat), cOrderStrides s = strides s
  | [] => rfl
  | [_] => rfl
  | n :: m :: s => by
    rw [cOrderStrides, cOrderStrides_eq (m :: s)]
    simp only [strides_cons, prod_cons]
    rw [Nat.mul_comm]

theorem nRuns_eq (l : List Nat) : nRuns l = prod l := by
  have : ∀ (l : List Nat) a, l.foldl (· * ·) a = a * prod l := by
    intro l
    induction l with
    | nil => simp
    | cons n l ih => intro a; rw [List.foldl_cons, ih, prod_cons, Nat.mul_assoc]
  rw [nRuns, this, Nat.one_mul]

theorem odoIncr_eq : ∀ {s : List Nat} (k : Nat), AllPos s →
    odoIncr s (unravel s k) = (unravel s (k + 1), decide ((k + 1) % prod s ≠ 0))
  | [], k, _ => by simp [odoIncr, Nat.mod_one]
  | n :: s, k, h => by
    have ih := odoIncr_eq k h.2
    have hP := h.2.prod_pos
    have hn := h.1
    simp only [unravel_cons, odoIncr, ih, prod_cons]
    by_cases hc : (k + 1) % prod s = 0
    · have hq := succ_div_of_mod_eq hP hc
      have hz := mod_mul_eq_zero (n := n) (k := k + 1) hP
      rw [hq] at hz ⊢
      simp only [hc, true_and] at hz
      simp only [hc, ne_eq, not_true_eq_false, decide_false, Bool.false_eq_true, if_false]
      rcases mod_succ_cases (q := k / prod s) hn with ⟨ha, hb⟩ | ⟨ha, hb⟩
      · rw [hb] at hz ⊢
        have hz' : ¬ (k + 1) % (n * prod s) = 0 := by rw [hz]; omega
        rw [if_pos ha]
        simp only [hz', not_false_eq_true, decide_true]
      · rw [hb] at hz ⊢
        have hz' : (k + 1) % (n * prod s) = 0 := by rw [hz]
        rw [if_neg (by omega)]
        simp only [hz', not_true_eq_false, decide_false]
    · have hq := succ_div_of_mod_ne hP hc
      have hz := mod_mul_eq_zero (n := n) (k := k + 1) hP
      have hz' : ¬ (k + 1) % (n * prod s) = 0 := by rw [hz]; exact fun h => hc h.1
      simp only [hc, ne_eq, not_false_eq_true, decide_true, if_true, hq, hz']

theorem runPositions_eq {s : List Nat} (h : AllPos s) : ∀ (n k : Nat),
    runPositions s n (unravel s k) = (List.range' k n).map (unravel s)
  | 0, _ => rfl
  | n + 1, k => by
    rw [runPositions, odoIncr_eq k h, runPositions_eq h n (k + 1), List.range'_succ]
    rfl

theorem unravel_zero : ∀ (s : List Nat), unravel s 0 = List.replicate s.length 0
  | [] => rfl
  | n :: s => by
    rw [unravel_cons, unravel_zero s]
    simp [List.replicate_succ]

theorem runPositions_boxList (s : List Nat) :
    runPositions s (nRuns s) (List.replicate s.length 0) = boxList s := by
  rw [nRuns_eq]
  by_cases h : AllPos s
  · rw [← unravel_zero, runPositions_eq h, boxList_eq_map s h, List.range_eq_range']
  · rw [boxList_eq_nil h]
    rcases Nat.eq_zero_or_pos (prod s) with h0 | h0
    · rw [h0]; rfl
    · exact absurd (allPos_of_prod_pos h0) h

theorem boxList_concat : ∀ (s : List Nat) (n : Nat),
    boxList (s ++ [n]) = (boxList s).flatMap fun c => (List.range n).map fun k => c ++ [k]
  | [], n => by
    have := flatMap_singleton' (fun i : Nat => [i]) (List.range n)
    simpa [boxList] using this
  | m :: s, n => by
    rw [List.cons_append, boxList, boxList, boxList_concat s n]
    simp only [List.flatMap_assoc, List.map_flatMap, List.flatMap_map, List.map_map]
    rfl

theorem dot_concat : ∀ {a b : List Nat} (x y : Nat), a.length = b.length →
    dot (a ++ [x]) (b ++ [y]) = dot a b + x * y
  | [], [], x, y, _ => by simp
  | a :: as, b :: bs, x, y, h => by
    simp only [List.cons_append, dot_cons]
    rw [dot_concat x y (by simpa using h)]; omega

/-- buffer position of the element at coordinate `c` of a view -/
def View.addr (v : View) (c : List Nat) : Nat := v.base + dot c v.strides

theorem getLastD_dropLast {l : List Nat} (h : l ≠ []) : l = l.dropLast ++ [l.getLastD 0] := by
  have := List.dropLast_concat_getLast h
  rw [List.getLastD_eq_getLast?, List.getLast?_eq_some_getLast h]
  exact this.symm

theorem copyPlan_eq {src dst : View} (hs : src.strides.length = dst.shape.length)
    (hd : dst.strides.length = dst.shape.length) :
    copyPlan src dst = (boxList dst.shape).map fun c => (src.addr c, dst.addr c) := by
  unfold copyPlan
  by_cases h0 : dst.shape = []
  · rw [if_pos h0, h0]
    simp [boxList, View.addr]
  · rw [if_neg h0]
    have hl : 0 < dst.shape.length := List.length_pos_iff.2 h0
    have h1 : src.strides ≠ [] := List.length_pos_iff.1 (by omega)
    have h2 : dst.strides ≠ [] := List.length_pos_iff.1 (by omega)
    have e0 := getLastD_dropLast h0
    have e1 := getLastD_dropLast h1
    have e2 := getLastD_dropLast h2
    simp only [runPositions_boxList]
    generalize hn : dst.shape.getLastD 0 = n at *
    generalize hx : src.strides.getLastD 0 = x at *
    generalize hy : dst.strides.getLastD 0 = y at *
    conv => rhs; rw [e0, boxList_concat, List.map_flatMap]
    apply flatMap_congr'
    intro c hc
    rw [mem_boxList] at hc
    have hcl := hc.length_eq
    have hl1 : c.length = src.strides.dropLast.length := by
      rw [hcl, List.length_dropLast, List.length_dropLast]; omega
    have hl2 : c.length = dst.strides.dropLast.length := by
      rw [hcl, List.length_dropLast, List.length_dropLast]; omega
    have key : ∀ k, View.addr src (c ++ [k]) = src.base + (dot c src.strides.dropLast + k * x) ∧
        View.addr dst (c ++ [k]) = dst.base + (dot c dst.strides.dropLast + k * y) := by
      intro k
      unfold View.addr
      constructor
      · conv => lhs; rw [e1]
        rw [dot_concat _ _ hl1]
      · conv => lhs; rw [e2]
        rw [dot_concat _ _ hl2]
    rw [List.map_map]
    split
    · next h =>
      apply List.map_congr_left
      intro k _
      simp only [Function.comp, (key k).1, (key k).2, h.1, h.2, Nat.mul_one, Nat.add_assoc]
    · apply List.map_congr_left
      intro k _
      simp only [Function.comp, (key k).1, (key k).2]

theorem fillPlan_eq {dst : View} (hd : dst.strides.length = dst.shape.length) :
    fillPlan dst = (boxList dst.shape).map dst.addr := by
  have h := copyPlan_eq (src := dst) (dst := dst) hd hd
  have e : fillPlan dst = (copyPlan dst dst).map (·.2) := by
    unfold fillPlan copyPlan
    split
    · rfl
    · simp only [List.map_flatMap]
      apply flatMap_congr'
      intro c _
      split <;> simp_all [List.map_map, Function.comp_def]
  rw [e, h, List.map_map]
  rfl

/-! ## element writes -/

theorem applyPokes_ok {α : Type} : ∀ (ps : List (Nat × α)) (buf : List α),
    (∀ p ∈ ps, p.1 < buf.length) →
    ∃ buf', applyPokes ps buf = .ok buf' ∧ buf'.length = buf.length ∧
      (∀ a, (∀ p ∈ ps, p.1 ≠ a) → buf'[a]? = buf[a]?) ∧
      ((∀ p ∈ ps, ∀ q ∈ ps, p.1 = q.1 → p.2 = q.2) → ∀ p ∈ ps, buf'[p.1]? = some p.2)
  | [], buf, _ => ⟨buf, rfl, rfl, fun _ _ => rfl, fun _ p hp => by simp at hp⟩
  | (i, v) :: ps, buf, h => by
    have hi : i < buf.length := h (i, v) List.mem_cons_self
    obtain ⟨buf', h1, h2, h3, h4⟩ := applyPokes_ok ps (buf.set i v)
      (by intro p hp; rw [List.length_set]; exact h p (List.mem_cons_of_mem _ hp))
    refine ⟨buf', ?_, ?_, ?_, ?_⟩
    · rw [applyPokes, writeAt, if_pos hi]; exact h1
    · rw [h2, List.length_set]
    · intro a ha
      rw [h3 a fun p hp => ha p (List.mem_cons_of_mem _ hp)]
      have : i ≠ a := ha (i, v) List.mem_cons_self
      rw [List.getElem?_set_ne this]
    · intro hf p hp
      by_cases hex : ∃ q ∈ ps, q.1 = p.1
      · obtain ⟨q, hq, he⟩ := hex
        have := h4 (fun a ha b hb => hf a (List.mem_cons_of_mem _ ha) b (List.mem_cons_of_mem _ hb))
          q hq
        rw [← he, this, hf q (List.mem_cons_of_mem _ hq) p hp he]
      · have hnp : p ∉ ps := fun hm => hex ⟨p, hm, rfl⟩
        rcases List.mem_cons.1 hp with rfl | hp
        · rw [h3 i fun q hq he => hex ⟨q, hq, he⟩]
          simp [hi]
        · exact absurd hp hnp

theorem copyPokes_eq {α : Type} (src : List α) (f : Nat → α) : ∀ (pl : List (Nat × Nat)),
    (∀ p ∈ pl, src[p.1]? = some (f p.1)) → copyPokes src pl = .ok (pl.map fun p => (p.2, f p.1))
  | [], _ => rfl
  | (i, j) :: pl, h => by
    have h1 := h (i, j) List.mem_cons_self
    rw [copyPokes, readAt]
    simp only at h1
    rw [h1]
    simp only [Res.ok_bind]
    rw [copyPokes_eq src f pl fun p hp => h p (List.mem_cons_of_mem _ hp)]
    rfl

end Z5
