import Verif.Proofs.Split

/-!
# C46: splitting and joining
-/

namespace Z5.Props
open Z5

/-- **C46.** Splitting any string at a non-empty delimiter ends, gives pieces none of which contains
the delimiter, and putting the delimiter between the pieces gives back the string. -/
theorem c46_split (s delim : List Char) (hd : delim ≠ []) :
    ∃ pieces, split s delim = some pieces ∧ delim.intercalate pieces = s ∧
      ∀ p ∈ pieces, ¬ delim <:+: p := by
  obtain ⟨ps, h1, _, h2, h3⟩ := splitLoop_spec hd (s.length + 1) s (by omega)
  exact ⟨ps, h1, h2, h3⟩

/-- **C46.** Splitting the string that `join` makes of a list of numbers gives back the decimal forms
of the numbers, when the delimiter starts with a character that is not a digit. -/
theorem c46_split_join (i : Nat) (is : List Nat) (c : Char) (d : List Char) (hc : c.isDigit = false) :
    split (join (i :: is) (c :: d)) (c :: d) = some ((i :: is).map (Nat.toDigits 10)) := by
  rw [join_cons, split]
  apply splitLoop_join hc
  have := length_tailStr (c :: d) is
  rw [List.length_append]; omega

/-- With an empty delimiter the splitting loop never ends (for any number of iterations). -/
theorem c46_empty_delimiter_counterexample (fuel : Nat) (s : List Char) :
    splitLoop [] fuel s = none := by
  induction fuel generalizing s with
  | zero => rfl
  | succ n ih =>
    have : findStr [] s = some 0 := by cases s <;> rfl
    rw [splitLoop, this]
    simp [ih]

example : split "a/b//c".toList "/".toList = some ["a".toList, "b".toList, [], "c".toList] := by decide
example : split (join [12, 0, 7] ".".toList) ".".toList = some ["12".toList, "0".toList, "7".toList] := by
  decide

end Z5.Props
