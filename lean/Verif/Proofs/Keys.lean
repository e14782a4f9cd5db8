import Verif.Model.Handle
import Verif.Lib.Pointwise

/-!
# Lemmas about chunk keys
-/

namespace Z5

theorem toStr_inj {m n : Nat} (h : toStr m = toStr n) : m = n := by
  have := congrArg (fun l => Nat.ofDigitChars 10 l 0) h
  simpa [toStr] using this

theorem toStr_ne_nil (n : Nat) : toStr n ≠ [] := Nat.toDigits_ne_nil

theorem isDigit_of_mem_toStr {n : Nat} {c : Char} (h : c ∈ toStr n) : c.isDigit = true :=
  Nat.isDigit_of_mem_toDigits (by decide) (by decide) h

/-- what `join` appends after the first index, and `getChunkKey` after the `c` -/
def tailStr (d : List Char) : List Nat → List Char
  | [] => []
  | i :: is => d ++ (toStr i ++ tailStr d is)

theorem joinLoop_eq (d : List Char) : ∀ (is : List Nat) (out : List Char), out ≠ [] →
    joinLoop d is out = out ++ tailStr d is
  | [], out, _ => by simp [joinLoop, tailStr]
  | i :: is, out, h => by
    rw [joinLoop, if_neg h, joinLoop_eq d is _ (by simp [toStr_ne_nil]), tailStr]
    simp

theorem join_cons (d : List Char) (i : Nat) (is : List Nat) :
    join (i :: is) d = toStr i ++ tailStr d is := by
  rw [join, joinLoop, joinLoop_eq _ _ _ (by simp [toStr_ne_nil])]
  simp

theorem v3KeyLoop_eq (d : List Char) : ∀ (is : List Nat) (name : List Char),
    v3KeyLoop d is name = name ++ tailStr d is
  | [], name => by simp [v3KeyLoop, tailStr]
  | i :: is, name => by rw [v3KeyLoop, v3KeyLoop_eq d is, tailStr]; simp

/-- the delimiter contains a character that is not a digit -/
def Separates (d : List Char) : Prop := ∃ c ∈ d, c.isDigit = false

instance (d : List Char) : Decidable (Separates d) :=
  inferInstanceAs (Decidable (∃ c ∈ d, c.isDigit = false))

theorem takeWhile_digits_append : ∀ {a : List Char} (X : List Char),
    (∀ c ∈ a, c.isDigit = true) → (a ++ X).takeWhile Char.isDigit = a ++ X.takeWhile Char.isDigit
  | [], _, _ => rfl
  | c :: a, X, h => by
    have h1 : c.isDigit = true := h c List.mem_cons_self
    have := takeWhile_digits_append (a := a) X fun x hx => h x (List.mem_cons_of_mem _ hx)
    rw [List.cons_append, List.takeWhile_cons, if_pos h1, this, List.cons_append]

theorem takeWhile_stops : ∀ {d : List Char} (X : List Char), Separates d →
    (d ++ X).takeWhile Char.isDigit = d.takeWhile Char.isDigit
  | [], _, h => by obtain ⟨_, h, _⟩ := h; simp at h
  | c :: d, X, h => by
    rw [List.cons_append, List.takeWhile_cons, List.takeWhile_cons]
    by_cases hc : c.isDigit = true
    · rw [if_pos hc, if_pos hc, takeWhile_stops X]
      obtain ⟨x, hx, hx'⟩ := h
      rcases List.mem_cons.1 hx with rfl | hx
      · rw [hc] at hx'; simp at hx'
      · exact ⟨x, hx, hx'⟩
    · rw [if_neg hc, if_neg hc]

theorem toStr_tail_inj {d : List Char} (hd : Separates d) : ∀ {i j : Nat} {is js : List Nat},
    is.length = js.length → toStr i ++ tailStr d is = toStr j ++ tailStr d js → i = j ∧ is = js
  | i, j, [], [], _, h => by
    simp only [tailStr, List.append_nil] at h
    exact ⟨toStr_inj h, rfl⟩
  | i, j, a :: is, b :: js, hl, h => by
    have h1 := congrArg (List.takeWhile Char.isDigit) h
    rw [takeWhile_digits_append _ fun c hc => isDigit_of_mem_toStr hc,
      takeWhile_digits_append _ fun c hc => isDigit_of_mem_toStr hc, tailStr, tailStr,
      takeWhile_stops _ hd, takeWhile_stops _ hd] at h1
    have h2 := toStr_inj (List.append_cancel_right h1)
    subst h2
    have h3 := List.append_cancel_left h
    rw [tailStr, tailStr] at h3
    have := toStr_tail_inj hd (by simpa using hl) (List.append_cancel_left h3)
    exact ⟨rfl, by rw [this.1, this.2]⟩

theorem tailStr_inj {d : List Char} (hd : Separates d) : ∀ {is js : List Nat},
    is.length = js.length → tailStr d is = tailStr d js → is = js
  | [], [], _, _ => rfl
  | a :: is, b :: js, hl, h => by
    rw [tailStr, tailStr] at h
    have := toStr_tail_inj hd (by simpa using hl) (List.append_cancel_left h)
    rw [this.1, this.2]

theorem join_inj {d : List Char} (hd : Separates d) : ∀ {is js : List Nat},
    is.length = js.length → join is d = join js d → is = js
  | [], [], _, _ => rfl
  | a :: is, b :: js, hl, h => by
    rw [join_cons, join_cons] at h
    have := toStr_tail_inj hd (by simpa using hl) h
    rw [this.1, this.2]

/-- the key configuration separates indices -/
def KeyCfg.Ok (k : KeyCfg) : Prop := k.isZarr = true → Separates k.delimiter

theorem getChunkKey_inj {k : KeyCfg} (h : k.Ok) {c d : List Nat} (hl : c.length = d.length)
    (he : getChunkKey k c = getChunkKey k d) : c = d := by
  unfold getChunkKey at he
  by_cases hz : k.isZarr = true
  · rw [if_pos hz, if_pos hz] at he
    split at he
    · rw [v3KeyLoop_eq, v3KeyLoop_eq] at he
      exact tailStr_inj (h hz) hl (List.append_cancel_left he)
    · exact join_inj (h hz) hl he
  · rw [if_neg hz, if_neg hz] at he
    have := join_inj (d := ['/']) (by decide) (by simpa using hl) he
    simpa using this

/-! ### Number of a character -/

theorem count_digit {c : Char} (hc : c.isDigit = false) (n : Nat) : (toStr n).count c = 0 := by
  rw [List.count_eq_zero]
  intro h
  rw [isDigit_of_mem_toStr h] at hc
  exact absurd hc (by simp)

theorem count_tailStr {c : Char} (hc : c.isDigit = false) (d : List Char) : ∀ (is : List Nat),
    (tailStr d is).count c = is.length * d.count c
  | [] => by simp [tailStr]
  | i :: is => by
    rw [tailStr, List.count_append, List.count_append, count_digit hc, count_tailStr hc d is,
      List.length_cons, Nat.succ_mul]
    omega

theorem count_key {c : Char} (hc : c.isDigit = false) (k : KeyCfg) {a b : List Nat}
    (hl : a.length = b.length) : (getChunkKey k a).count c = (getChunkKey k b).count c := by
  have hj : ∀ (d : List Char) (a b : List Nat), a.length = b.length →
      (join a d).count c = (join b d).count c := by
    intro d a b hl
    match a, b, hl with
    | [], [], _ => rfl
    | x :: a, y :: b, hl =>
      rw [join_cons, join_cons, List.count_append, List.count_append, count_digit hc, count_digit hc,
        count_tailStr hc, count_tailStr hc]
      have hl' : a.length = b.length := by simpa using hl
      rw [hl']
  unfold getChunkKey
  split
  · split
    · rw [v3KeyLoop_eq, v3KeyLoop_eq, List.count_append, List.count_append, count_tailStr hc,
        count_tailStr hc, hl]
    · exact hj _ _ _ hl
  · exact hj _ _ _ (by simpa using hl)

/-- first character of a key -/
theorem key_head (k : KeyCfg) {c : List Nat} (hne : c ≠ []) :
    ∃ x l, getChunkKey k c = x :: l ∧ (x = 'c' ∨ x.isDigit = true) := by
  have hj : ∀ (d : List Char) (c : List Nat), c ≠ [] →
      ∃ x l, join c d = x :: l ∧ (x = 'c' ∨ x.isDigit = true) := by
    intro d c hc
    match c, hc with
    | i :: is, _ =>
      rw [join_cons]
      cases h : toStr i with
      | nil => exact absurd h (toStr_ne_nil i)
      | cons x l =>
        refine ⟨x, l ++ tailStr d is, rfl, Or.inr ?_⟩
        exact isDigit_of_mem_toStr (n := i) (by rw [h]; exact List.mem_cons_self)
  unfold getChunkKey
  split
  · split
    · rw [v3KeyLoop_eq]
      exact ⟨'c', _, rfl, Or.inl rfl⟩
    · exact hj _ _ hne
  · exact hj _ _ (by simpa using hne)

end Z5
