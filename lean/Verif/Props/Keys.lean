import Verif.Proofs.Keys
import Verif.Spec.Grid

/-!
# C25: storage keys
-/

namespace Z5.Props
open Z5 Z5.Spec

/-- names of the metadata files (filesystem/metadata.hxx:24-41, filesystem/attributes.hxx,
    filesystem/handle.hxx:34-48) -/
def metadataNames : List (List Char) :=
  [".zarray".toList, ".zgroup".toList, ".zattrs".toList, "zarr.json".toList, "attributes.json".toList]

/-- **C25.** Different chunks (positions of the chunk grid, or of the shard grid) of one dataset have
different keys, for every format, provided the delimiter of a zarr dataset contains a character
that is not a digit. -/
theorem c25_keys_distinct (k : KeyCfg) (hk : k.isZarr = true → Separates k.delimiter)
    {shape chunk c d : List Nat} (hc : InGrid shape chunk c) (hd : InGrid shape chunk d)
    (h : getChunkKey k c = getChunkKey k d) : c = d :=
  getChunkKey_inj hk ((All₃.length_eq hc).2.symm.trans (All₃.length_eq hd).2) h

/-- **C25.** No chunk key is the name of a metadata file. -/
theorem c25_key_not_metadata (k : KeyCfg) {shape chunk c : List Nat} (hne : shape ≠ [])
    (hc : InGrid shape chunk c) : getChunkKey k c ∉ metadataNames := by
  have hl := All₃.length_eq hc
  have hcn : c ≠ [] := by
    intro h; subst h
    apply hne
    apply List.eq_nil_of_length_eq_zero
    rw [hl.1, hl.2]; rfl
  obtain ⟨x, l, he, hx⟩ := key_head k hcn
  rw [he]
  intro hm
  have hx' : x = '.' ∨ x = 'z' ∨ x = 'a' := by
    simp only [metadataNames, List.mem_cons, List.not_mem_nil, or_false] at hm
    rcases hm with hm | hm | hm | hm | hm <;>
      (have := congrArg List.head? hm; simp at this; subst this; simp)
  rcases hx' with rfl | rfl | rfl <;> rcases hx with hx | hx <;> revert hx <;> decide

/-- **C25.** No chunk key is a directory on the path of another chunk key (so a file is never needed
as a directory), whatever the delimiter. -/
theorem c25_key_not_directory (k : KeyCfg) {shape chunk c d : List Nat} (hc : InGrid shape chunk c)
    (hd : InGrid shape chunk d) (rest : List Char) :
    getChunkKey k d ≠ getChunkKey k c ++ '/' :: rest := by
  intro h
  have h1 := count_key (c := '/') (by decide) k
    ((All₃.length_eq hc).2.symm.trans (All₃.length_eq hd).2)
  rw [h, List.count_append, List.count_cons_self] at h1
  omega

theorem join_eq_intercalate (d : List Char) (c : List Nat) :
    join c d = List.intercalate d (c.map (Nat.toDigits 10)) := by
  cases c with
  | nil => rfl
  | cons i is =>
    rw [join_cons]
    induction is generalizing i with
    | nil => simp [tailStr, toStr]
    | cons j js ih =>
      rw [List.map_cons, List.map_cons, List.intercalate_cons_cons, ← List.map_cons, ← ih]
      simp [tailStr, toStr]

/-- **C25.** The layout of the keys: the decimal coordinates, joined by `/` with the last axis first
in N5; joined by the delimiter in zarr v2 and in zarr v3 with the `v2` encoding; and, in zarr v3 with
the default encoding, each preceded by the delimiter after a leading `c`. -/
theorem c25_key_layout (k : KeyCfg) (c : List Nat) :
    getChunkKey k c =
      if k.isZarr = false then List.intercalate ['/'] (c.reverse.map (Nat.toDigits 10))
      else if k.zarrFormat = 3 ∧ k.encoding = "default".toList then
        'c' :: (c.map fun i => k.delimiter ++ Nat.toDigits 10 i).flatten
      else List.intercalate k.delimiter (c.map (Nat.toDigits 10)) := by
  unfold getChunkKey
  cases hz : k.isZarr
  · simp only [Bool.false_eq_true, if_false, if_true]
    exact join_eq_intercalate _ _
  · simp only [if_true, Bool.true_eq_false, if_false]
    split
    · rw [v3KeyLoop_eq]
      show 'c' :: tailStr _ _ = _
      congr 1
      generalize k.delimiter = d
      induction c with
      | nil => rfl
      | cons i is ih => simp [tailStr, toStr, ih]
    · exact join_eq_intercalate _ _

/-- A delimiter made of digits only makes keys of different chunks collide. -/
theorem c25_digit_delimiter_counterexample :
    getChunkKey ⟨true, ['0'], 2, "default".toList⟩ [1, 100] =
      getChunkKey ⟨true, ['0'], 2, "default".toList⟩ [101, 0] ∧
    InGrid [102, 101] [1, 1] [1, 100] ∧ InGrid [102, 101] [1, 1] [101, 0] := by decide

example : InGrid [7, 5] [3, 2] [2, 1] ∧ Separates ['.'] := by decide
example : getChunkKey ⟨true, ['.'], 2, "default".toList⟩ [2, 1] = "2.1".toList ∧
    getChunkKey ⟨true, ['/'], 3, "default".toList⟩ [2, 1] = "c/2/1".toList ∧
    getChunkKey ⟨false, ['.'], 2, "default".toList⟩ [2, 1] = "1/2".toList := by decide

end Z5.Props
