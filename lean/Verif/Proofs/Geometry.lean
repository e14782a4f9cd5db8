import Verif.Proofs.Grid
import Verif.Proofs.Handle

/-!
# Coordinates inside a chunk and inside a request
-/

namespace Z5
open Spec

theorem region_sub : ∀ {x b s : List Nat}, InRegion x b s →
    addV b (subV x b) = x ∧ InBox (subV x b) s
  | [], [], [], _ => ⟨rfl, trivial⟩
  | x :: xs, b :: bs, s :: ss, h => by
    have ih := region_sub (x := xs) (b := bs) (s := ss) h.2
    have h1 : b ≤ x ∧ x < b + s := h.1
    simp only [subV_cons, addV_cons, inBox_cons]
    exact ⟨by rw [ih.1]; congr 1; omega, by omega, ih.2⟩

theorem inRegion_add : ∀ {b s i : List Nat}, InBox i s → b.length = s.length →
    InRegion (addV b i) b s
  | [], [], [], _, _ => trivial
  | b :: bs, s :: ss, i :: is, h, hl => by
    have ih := inRegion_add (b := bs) h.2 (by simpa using hl)
    have h1 : i < s := h.1
    exact ⟨by show b ≤ b + i ∧ b + i < b + s; omega, ih⟩
  | [], _ :: _, _, _, hl => by simp at hl
  | _ :: _, [], _, _, hl => by simp at hl

theorem subV_addV : ∀ {b i : List Nat}, i.length = b.length → subV (addV b i) b = i
  | [], [], _ => rfl
  | b :: bs, i :: is, h => by
    simp only [addV_cons, subV_cons]
    rw [subV_addV (by simpa using h)]; congr 1; omega

theorem inBox_mono : ∀ {i a b : List Nat}, InBox i a → All₂ (· ≤ ·) a b → InBox i b
  | [], [], [], _, _ => trivial
  | i :: is, a :: as, b :: bs, h, hl => by
    have h1 : i < a := h.1
    have h2 : a ≤ b := hl.1
    exact ⟨by omega, inBox_mono h.2 hl.2⟩

/-- `o + e ≤ s` along every axis -/
def Inside (s o e : List Nat) : Prop := All₃ (fun s o e => o + e ≤ s) s o e

theorem Inside.inBox : ∀ {s o e i : List Nat}, Inside s o e → InBox i e → InBox (addV o i) s
  | [], [], [], [], _, _ => trivial
  | s :: ss, o :: os, e :: es, i :: is, h, hi => by
    have h1 : o + e ≤ s := h.1
    have h2 : i < e := hi.1
    exact ⟨by show o + i < s; omega, Inside.inBox h.2 hi.2⟩

theorem Inside.mono : ∀ {s t o e : List Nat}, Inside s o e → All₂ (· ≤ ·) s t → Inside t o e
  | [], [], [], [], _, _ => trivial
  | s :: ss, t :: ts, o :: os, e :: es, h, hl => by
    have h1 : o + e ≤ s := h.1
    have h2 : s ≤ t := hl.1
    exact ⟨by dsimp only; omega, Inside.mono h.2 hl.2⟩

theorem region_mono : ∀ {x b s t : List Nat}, InRegion x b s → All₂ (· ≤ ·) s t → InRegion x b t
  | [], [], [], [], _, _ => trivial
  | x :: xs, b :: bs, s :: ss, t :: ts, h, hl => by
    have h1 : b ≤ x ∧ x < b + s := h.1
    have h2 : s ≤ t := hl.1
    exact ⟨by dsimp only; omega, region_mono h.2 hl.2⟩

theorem region_inBox : ∀ {shape rb rs x : List Nat}, RegionOk shape rb rs → InRegion x rb rs →
    InBox x shape
  | [], [], [], [], _, _ => trivial
  | s :: ss, b :: bs, n :: ns, x :: xs, h, hx => by
    have h1 : 0 < n ∧ b + n ≤ s := h.1
    have h2 : b ≤ x ∧ x < b + n := hx.1
    exact ⟨by omega, region_inBox h.2 hx.2⟩

/-- an element of the array in the nominal box of a chunk is an element of the chunk -/
theorem inChunk_of_box : ∀ {shape chunk c x : List Nat}, InRegion x (mulV c chunk) chunk →
    c.length = chunk.length → InBox x shape → InChunk shape chunk c x
  | [], [], [], [], _, _, _ => trivial
  | s :: ss, b :: bs, c :: cs, x :: xs, h, hl, hx => by
    have h1 : c * b ≤ x ∧ x < c * b + b := h.1
    have h2 : x < s := hx.1
    refine ⟨?_, inChunk_of_box h.2 (by simpa using hl) hx.2⟩
    show c * b ≤ x ∧ x < (c + 1) * b ∧ x < s
    rw [Nat.succ_mul]
    omega
  | _, [], _ :: _, _, _, hl, _ => by simp at hl
  | _, _ :: _, [], _, _, hl, _ => by simp at hl
  | [], _ :: _, _ :: _, [], h, _, _ => h.elim
  | [], _ :: _, _ :: _, _ :: _, _, _, hx => hx.elim
  | _ :: _, [], [], [], _, _, hx => hx.elim
  | _ :: _, [], [], _ :: _, h, _, _ => h.elim

/-- the chunk that contains an element of its nominal box -/
theorem div_of_box : ∀ {chunk c x : List Nat}, AllPos chunk → InRegion x (mulV c chunk) chunk →
    c.length = chunk.length → divV x chunk = c
  | [], [], [], _, _, _ => rfl
  | b :: bs, c :: cs, x :: xs, hp, h, hl => by
    have h1 : c * b ≤ x ∧ x < c * b + b := h.1
    have h2 : 0 < b := hp.1
    rw [divV_cons, div_of_box hp.2 h.2 (by simpa using hl)]
    congr 1
    rw [div_eq_iff h2, Nat.succ_mul]
    omega
  | [], _ :: _, _, _, _, hl => by simp at hl
  | _ :: _, [], _, _, _, hl => by simp at hl

/-- everything the access paths need about an overlap -/
structure OverlapFacts (bb bsh rb rs : List Nat) (o : RoiOverlap) : Prop where
  inBlock : Inside bsh o.beginInBlock o.shapeInRoi
  inRoi : Inside rs o.beginInRoi o.shapeInRoi
  same : ∀ i, InBox i o.shapeInRoi →
    addV rb (addV o.beginInRoi i) = addV bb (addV o.beginInBlock i)
  elements : ∀ x, InRegion x bb bsh → InRegion x rb rs → ∃ i, InBox i o.shapeInRoi ∧
    x = addV rb (addV o.beginInRoi i) ∧ x = addV bb (addV o.beginInBlock i)
  complete : o.complete = true → (∀ x, InRegion x bb bsh → InRegion x rb rs) ∧
    o.beginInBlock = List.replicate bb.length 0 ∧ o.shapeInRoi = bsh
  lenRoi : rb.length = rs.length
  lenBlock : bb.length = bsh.length
  lenSame : bb.length = rb.length

theorem overlap_facts_aux : ∀ {bb bsh rb rs : List Nat}, Overlaps bb bsh rb rs →
    let o := roiOverlap bb bsh rb rs
    Inside bsh o.beginInBlock o.shapeInRoi ∧ Inside rs o.beginInRoi o.shapeInRoi ∧
    (∀ i, InBox i o.shapeInRoi → addV rb (addV o.beginInRoi i) = addV bb (addV o.beginInBlock i)) ∧
    (o.complete = true → o.beginInBlock = List.replicate bb.length 0 ∧ o.shapeInRoi = bsh)
  | [], [], [], [], _ => by
    refine ⟨trivial, trivial, ?_, ?_⟩
    · intro i _; simp [roiOverlap, addV]
    · intro _; simp [roiOverlap]
  | bb :: bbs, bsh :: bshs, rb :: rbs, rs :: rss, h => by
    obtain ⟨i1, i2, i3, i4⟩ := overlap_facts_aux h.2
    obtain ⟨a1, a2, a3, a4, a5, a6⟩ := h.1
    refine ⟨⟨by dsimp only; omega, i1⟩, ⟨by dsimp only; omega, i2⟩, ?_, ?_⟩
    · intro i hi
      match i, hi with
      | i :: is, hi =>
        simp only [roiOverlap, addV_cons]
        rw [i3 is hi.2]; congr 1; omega
    · intro hc
      simp only [roiOverlap, Bool.and_eq_true, decide_eq_true_eq] at hc
      obtain ⟨e1, e2⟩ := i4 hc.2
      simp only [roiOverlap, List.length_cons, List.replicate_succ, e1, e2]
      exact ⟨by congr 1; omega, by congr 1; omega⟩

theorem overlap_facts {bb bsh rb rs : List Nat} (h : Overlaps bb bsh rb rs) :
    OverlapFacts bb bsh rb rs (roiOverlap bb bsh rb rs) := by
  obtain ⟨i1, i2, i3, i4⟩ := overlap_facts_aux h
  have hl := All₄.length_eq h
  refine ⟨i1, i2, i3, ?_, ?_, by omega, by omega, by omega⟩
  · intro x h1 h2
    obtain ⟨i, hi, hs⟩ := (overlap_elements h x).1 ⟨h1, h2⟩
    exact ⟨i, hi, hs.1, hs.2⟩
  · intro hc
    exact ⟨(overlap_complete h).1 hc, i4 hc⟩

theorem dot_replicate_zero : ∀ (n : Nat) (s : List Nat), dot (List.replicate n 0) s = 0
  | 0, _ => by simp
  | n + 1, [] => by simp
  | n + 1, _ :: s => by simp [List.replicate_succ, dot_replicate_zero n s]

theorem dims_length {shape chunk c : List Nat} (h : InGrid shape chunk c) :
    c.length = chunk.length ∧ (mulV c chunk).length = chunk.length ∧ shape.length = chunk.length := by
  have := All₃.length_eq h
  refine ⟨by omega, ?_, by omega⟩
  simp [mulV]; omega

end Z5
