import Verif.Basic

/-!
# Coordinates, boxes and row-major numbering (mathematics used by the proofs)
-/

namespace Z5

/-- product of the entries -/
def prod : List Nat → Nat
  | [] => 1
  | n :: s => n * prod s

/-- `Σ a_d * b_d` -/
def dot : List Nat → List Nat → Nat
  | a :: as, b :: bs => a * b + dot as bs
  | _, _ => 0

/-- `c` is a coordinate of the box with extents `s`: same length and `c_d < s_d` for all `d`. -/
def InBox : List Nat → List Nat → Prop
  | [], [] => True
  | c :: cs, s :: ss => c < s ∧ InBox cs ss
  | _, _ => False

instance decInBox : (c s : List Nat) → Decidable (InBox c s)
  | [], [] => isTrue trivial
  | c :: cs, s :: ss =>
    match Nat.decLt c s, decInBox cs ss with
    | isTrue h, isTrue h' => isTrue ⟨h, h'⟩
    | isFalse h, _ => isFalse fun ⟨a, _⟩ => h a
    | _, isFalse h => isFalse fun ⟨_, a⟩ => h a
  | [], _ :: _ => isFalse id
  | _ :: _, [] => isFalse id

/-- all entries positive -/
def AllPos : List Nat → Prop
  | [] => True
  | n :: s => 0 < n ∧ AllPos s

instance decAllPos : (s : List Nat) → Decidable (AllPos s)
  | [] => isTrue trivial
  | n :: s =>
    match Nat.decLt 0 n, decAllPos s with
    | isTrue h, isTrue h' => isTrue ⟨h, h'⟩
    | isFalse h, _ => isFalse fun ⟨a, _⟩ => h a
    | _, isFalse h => isFalse fun ⟨_, a⟩ => h a

@[simp] theorem prod_nil : prod [] = 1 := rfl
@[simp] theorem prod_cons (n s) : prod (n :: s) = n * prod s := rfl
@[simp] theorem dot_nil_left (b) : dot [] b = 0 := by cases b <;> rfl
@[simp] theorem dot_nil_right (a) : dot a [] = 0 := by cases a <;> rfl
@[simp] theorem dot_cons (a as b bs) : dot (a :: as) (b :: bs) = a * b + dot as bs := rfl
@[simp] theorem inBox_nil : InBox [] [] = True := rfl
@[simp] theorem inBox_cons (c cs s ss) : InBox (c :: cs) (s :: ss) = (c < s ∧ InBox cs ss) := rfl
@[simp] theorem inBox_nil_cons (s ss) : InBox [] (s :: ss) = False := rfl
@[simp] theorem inBox_cons_nil (s ss) : InBox (s :: ss) [] = False := rfl
@[simp] theorem allPos_nil : AllPos [] = True := rfl
@[simp] theorem allPos_cons (n s) : AllPos (n :: s) = (0 < n ∧ AllPos s) := rfl

theorem InBox.length_eq : ∀ {c s : List Nat}, InBox c s → c.length = s.length
  | [], [], _ => rfl
  | _ :: cs, _ :: ss, h => by simp [InBox.length_eq (c := cs) (s := ss) h.2]

theorem InBox.allPos : ∀ {c s : List Nat}, InBox c s → AllPos s
  | [], [], _ => trivial
  | _ :: cs, _ :: ss, h => ⟨by have := h.1; omega, InBox.allPos (c := cs) h.2⟩

theorem AllPos.prod_pos : ∀ {s : List Nat}, AllPos s → 0 < prod s
  | [], _ => by simp
  | n :: s, h => Nat.mul_pos h.1 (AllPos.prod_pos h.2)

theorem allPos_of_prod_pos : ∀ {s : List Nat}, 0 < prod s → AllPos s
  | [], _ => trivial
  | n :: s, h => by
    rw [prod_cons] at h
    exact ⟨Nat.pos_of_mul_pos_right h, allPos_of_prod_pos (Nat.pos_of_mul_pos_left h)⟩

/-- all coordinates of the box, last axis fastest -/
def boxList : List Nat → List (List Nat)
  | [] => [[]]
  | n :: s => (List.range n).flatMap fun i => (boxList s).map (i :: ·)

theorem mem_boxList : ∀ {s c : List Nat}, c ∈ boxList s ↔ InBox c s
  | [], c => by cases c <;> simp [boxList]
  | n :: s, [] => by simp [boxList]
  | n :: s, x :: c => by
    have ih := mem_boxList (s := s) (c := c)
    simp only [boxList, List.mem_flatMap, List.mem_range, List.mem_map, inBox_cons]
    constructor
    · rintro ⟨i, hi, d, hd, he⟩
      injection he with h1 h2
      subst h1; subst h2
      exact ⟨hi, ih.1 hd⟩
    · rintro ⟨h1, h2⟩
      exact ⟨x, h1, c, ih.2 h2, rfl⟩

/-- row-major strides: entry `d` is the product of the extents after `d` -/
def strides : List Nat → List Nat
  | [] => []
  | _ :: s => prod s :: strides s

@[simp] theorem strides_nil : strides [] = [] := rfl
@[simp] theorem strides_cons (n s) : strides (n :: s) = prod s :: strides s := rfl
@[simp] theorem length_strides : ∀ s : List Nat, (strides s).length = s.length
  | [] => rfl
  | _ :: s => by simp [length_strides s]

/-- row-major number of a coordinate -/
def ravel (s c : List Nat) : Nat := dot c (strides s)

@[simp] theorem ravel_nil (c) : ravel [] c = 0 := by simp [ravel]
@[simp] theorem ravel_cons (n s x c) : ravel (n :: s) (x :: c) = x * prod s + ravel s c := rfl

theorem ravel_lt : ∀ {s c : List Nat}, InBox c s → ravel s c < prod s
  | [], [], _ => by simp
  | n :: s, x :: c, h => by
    have ih := ravel_lt h.2
    have hx : x + 1 ≤ n := h.1
    rw [ravel_cons, prod_cons]
    calc x * prod s + ravel s c < x * prod s + prod s := by omega
      _ = (x + 1) * prod s := by rw [Nat.add_mul, Nat.one_mul]
      _ ≤ n * prod s := Nat.mul_le_mul_right _ hx

/-- inverse of `ravel` (digits are taken modulo the extent) -/
def unravel : List Nat → Nat → List Nat
  | [], _ => []
  | n :: s, k => (k / prod s % n) :: unravel s k

@[simp] theorem unravel_nil (k) : unravel [] k = [] := rfl
@[simp] theorem unravel_cons (n s k) : unravel (n :: s) k = (k / prod s % n) :: unravel s k := rfl

@[simp] theorem length_unravel : ∀ (s : List Nat) (k), (unravel s k).length = s.length
  | [], _ => rfl
  | _ :: s, k => by simp [length_unravel s k]

theorem unravel_inBox : ∀ {s : List Nat} (k : Nat), AllPos s → InBox (unravel s k) s
  | [], _, _ => trivial
  | n :: s, k, h => ⟨Nat.mod_lt _ h.1, unravel_inBox k h.2⟩

theorem unravel_add_mul : ∀ {s : List Nat} (k m : Nat), AllPos s →
    unravel s (k + m * prod s) = unravel s k
  | [], _, _, _ => rfl
  | n :: s, k, m, h => by
    have hp := h.2.prod_pos
    rw [unravel_cons, unravel_cons, prod_cons]
    have e : k + m * (n * prod s) = k + (m * n) * prod s := by rw [Nat.mul_assoc]
    rw [e, unravel_add_mul k (m * n) h.2, Nat.add_mul_div_right _ _ hp, Nat.add_mul_mod_self_right]

theorem unravel_ravel : ∀ {s c : List Nat}, InBox c s → unravel s (ravel s c) = c
  | [], [], _ => rfl
  | n :: s, x :: c, h => by
    have hl := ravel_lt h.2
    have hp := h.2.allPos
    rw [ravel_cons, unravel_cons, Nat.add_comm, unravel_add_mul _ _ hp, unravel_ravel h.2,
      Nat.add_mul_div_right _ _ hp.prod_pos, Nat.div_eq_of_lt hl, Nat.zero_add,
      Nat.mod_eq_of_lt h.1]

theorem ravel_unravel : ∀ {s : List Nat} {k : Nat}, k < prod s → ravel s (unravel s k) = k
  | [], k, h => by simp at h; simp [h]
  | n :: s, k, h => by
    have hs : AllPos (n :: s) := allPos_of_prod_pos (by omega)
    have hp := hs.2.prod_pos
    rw [unravel_cons, ravel_cons]
    have hd : k / prod s < n := by
      rw [Nat.div_lt_iff_lt_mul hp]; exact h
    rw [Nat.mod_eq_of_lt hd]
    have e : k = k % prod s + (k / prod s) * prod s := by
      rw [Nat.mul_comm]; exact (Nat.mod_add_div k (prod s)).symm
    have ih := ravel_unravel (s := s) (Nat.mod_lt k hp)
    have : unravel s k = unravel s (k % prod s) := by
      conv => lhs; rw [e]
      rw [unravel_add_mul _ _ hs.2]
    rw [this, ih]; omega

theorem ravel_inj {s c d : List Nat} (hc : InBox c s) (hd : InBox d s)
    (h : ravel s c = ravel s d) : c = d := by
  rw [← unravel_ravel hc, h, unravel_ravel hd]

theorem boxList_eq_map : ∀ (s : List Nat), AllPos s →
    boxList s = (List.range (prod s)).map (unravel s)
  | [], _ => by decide
  | n :: s, h => by
    have ih := boxList_eq_map s h.2
    have hp := h.2.prod_pos
    rw [boxList, ih, prod_cons]
    clear ih
    -- induction on the first extent, with the modulus generalised
    suffices H : ∀ m, m ≤ n →
        (List.range m).flatMap (fun i => ((List.range (prod s)).map (unravel s)).map (i :: ·)) =
        (List.range (m * prod s)).map (unravel (n :: s)) from H n (Nat.le_refl _)
    intro m hm
    induction m with
    | zero => simp
    | succ m ihm =>
      rw [List.range_succ, List.flatMap_append, ihm (by omega), Nat.add_mul, Nat.one_mul,
        List.range_add, List.map_append]
      congr 1
      simp only [List.flatMap_cons, List.flatMap_nil, List.append_nil, List.map_map]
      apply List.map_congr_left
      intro k hk
      have hk := List.mem_range.1 hk
      simp only [Function.comp, unravel_cons]
      rw [Nat.add_comm (m * prod s) k, unravel_add_mul _ _ h.2, Nat.add_mul_div_right _ _ hp,
        Nat.div_eq_of_lt hk, Nat.zero_add, Nat.mod_eq_of_lt (by omega)]

theorem boxList_eq_nil : ∀ {s : List Nat}, ¬ AllPos s → boxList s = []
  | [], h => absurd trivial h
  | n :: s, h => by
    by_cases hs : AllPos s
    · have : n = 0 := by
        rcases Nat.eq_zero_or_pos n with h0 | h0
        · exact h0
        · exact absurd ⟨h0, hs⟩ h
      simp [boxList, this]
    · simp [boxList, boxList_eq_nil hs]

theorem length_boxList (s : List Nat) : (boxList s).length = prod s := by
  by_cases h : AllPos s
  · rw [boxList_eq_map s h]; simp
  · rw [boxList_eq_nil h]
    rcases Nat.eq_zero_or_pos (prod s) with h0 | h0
    · simp [h0]
    · exact absurd (allPos_of_prod_pos h0) h

theorem boxList_getElem? {s c : List Nat} (h : InBox c s) : (boxList s)[ravel s c]? = some c := by
  rw [boxList_eq_map s h.allPos]
  simp [List.getElem?_range (ravel_lt h), unravel_ravel h]

theorem nodup_boxList (s : List Nat) : (boxList s).Nodup := by
  by_cases h : AllPos s
  · rw [boxList_eq_map s h]
    rw [List.nodup_iff_pairwise_ne, List.pairwise_map]
    have hr : (List.range (prod s)).Pairwise (· < ·) := List.pairwise_lt_range
    refine List.Pairwise.imp_of_mem ?_ hr
    intro a b ha hb hab he
    have := congrArg (ravel s) he
    rw [ravel_unravel (List.mem_range.1 ha), ravel_unravel (List.mem_range.1 hb)] at this
    omega
  · simp [boxList_eq_nil h]

end Z5
