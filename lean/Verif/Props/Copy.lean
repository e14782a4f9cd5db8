import Verif.Proofs.View

/-!
# C06, C07: strided copies and fills

`View.addr v c` is `base + Σ c_d * stride_d`, the buffer position of element `c` of view `v`.
-/

namespace Z5.Props
open Z5

/-- the view has one stride per axis and all its elements lie inside a buffer of length `n` -/
def FitsIn (v : View) (n : Nat) : Prop :=
  v.strides.length = v.shape.length ∧ ∀ c, InBox c v.shape → v.base + dot c v.strides < n

/-- different elements of the view have different buffer positions -/
def NoAlias (v : View) : Prop :=
  ∀ c d, InBox c v.shape → InBox d v.shape →
    v.base + dot c v.strides = v.base + dot d v.strides → c = d

/-- **C06.** Copying between views of equal shape (any number of axes, any non-negative strides) that
fit their buffers succeeds without touching memory outside; afterwards every element of the
destination view equals the corresponding source element and every other position of the
destination buffer is unchanged. -/
theorem c06_strided_copy {α : Type} (src dst : List α) (sv dv : View) (hsh : sv.shape = dv.shape)
    (hs : FitsIn sv src.length) (hd : FitsIn dv dst.length) (hna : NoAlias dv) :
    ∃ dst', copyView src sv dst dv = .ok dst' ∧ dst'.length = dst.length ∧
      (∀ c, InBox c dv.shape → dst'[dv.base + dot c dv.strides]? = src[sv.base + dot c sv.strides]?) ∧
      (∀ a, (∀ c, InBox c dv.shape → dv.base + dot c dv.strides ≠ a) → dst'[a]? = dst[a]?) := by
  by_cases hemp : src = []
  · subst hemp
    have hno : ∀ c, ¬ InBox c dv.shape := fun c hc => by
      have := hs.2 c (hsh ▸ hc); simp at this
    have hnil : boxList dv.shape = [] := by
      rw [List.eq_nil_iff_forall_not_mem]; intro c hc; exact hno c (mem_boxList.1 hc)
    refine ⟨dst, ?_, rfl, fun c hc => absurd hc (hno c), fun _ _ => rfl⟩
    rw [copyView, copyPlan_eq (by rw [hs.1, hsh]) hd.1, hnil]; rfl
  · obtain ⟨a0, _⟩ := List.exists_mem_of_ne_nil src hemp
    let f : Nat → α := fun i => (src[i]?).getD a0
    have hf : ∀ i, i < src.length → src[i]? = some (f i) := fun i hi => by
      simp [f, hi]
    have hplan := copyPlan_eq (src := sv) (dst := dv) (by rw [hs.1, hsh]) hd.1
    have hpk := copyPokes_eq src f (copyPlan sv dv) (by
      intro p hp
      rw [hplan] at hp
      obtain ⟨c, hc, rfl⟩ := List.mem_map.1 hp
      exact hf _ (hs.2 c (hsh ▸ mem_boxList.1 hc)))
    rw [hplan, List.map_map] at hpk
    obtain ⟨dst', h1, h2, h3, h4⟩ := applyPokes_ok
      ((boxList dv.shape).map ((fun p => (p.2, f p.1)) ∘ fun c => (sv.addr c, dv.addr c))) dst (by
        intro p hp
        obtain ⟨c, hc, rfl⟩ := List.mem_map.1 hp
        exact hd.2 c (mem_boxList.1 hc))
    refine ⟨dst', ?_, h2, ?_, ?_⟩
    · rw [copyView, hplan, hpk]; exact h1
    · intro c hc
      rw [hf _ (hs.2 c (hsh ▸ hc))]
      refine h4 ?_ (dv.addr c, f (sv.addr c)) (List.mem_map.2 ⟨c, mem_boxList.2 hc, rfl⟩)
      intro p hp q hq he
      obtain ⟨c1, hc1, rfl⟩ := List.mem_map.1 hp
      obtain ⟨c2, hc2, rfl⟩ := List.mem_map.1 hq
      have := hna c1 c2 (mem_boxList.1 hc1) (mem_boxList.1 hc2) he
      subst this; rfl
    · intro a ha
      apply h3
      intro p hp
      obtain ⟨c, hc, rfl⟩ := List.mem_map.1 hp
      exact ha c (mem_boxList.1 hc)

/-- **C07.** Filling a view that fits its buffer (aliasing allowed) succeeds; afterwards every
element of the view equals the value and every other position of the buffer is unchanged. -/
theorem c07_fill {α : Type} (dst : List α) (dv : View) (val : α) (hd : FitsIn dv dst.length) :
    ∃ dst', fillView dst dv val = .ok dst' ∧ dst'.length = dst.length ∧
      (∀ c, InBox c dv.shape → dst'[dv.base + dot c dv.strides]? = some val) ∧
      (∀ a, (∀ c, InBox c dv.shape → dv.base + dot c dv.strides ≠ a) → dst'[a]? = dst[a]?) := by
  have hplan := fillPlan_eq hd.1
  obtain ⟨dst', h1, h2, h3, h4⟩ := applyPokes_ok ((fillPlan dv).map fun i => (i, val)) dst (by
    intro p hp
    rw [hplan] at hp
    simp only [List.map_map, List.mem_map] at hp
    obtain ⟨c, hc, rfl⟩ := hp
    exact hd.2 c (mem_boxList.1 hc))
  refine ⟨dst', h1, h2, ?_, ?_⟩
  · intro c hc
    refine h4 ?_ (dv.addr c, val) ?_
    · intro p hp q hq _
      obtain ⟨_, _, rfl⟩ := List.mem_map.1 hp
      obtain ⟨_, _, rfl⟩ := List.mem_map.1 hq
      rfl
    · rw [hplan, List.map_map]
      exact List.mem_map.2 ⟨c, mem_boxList.2 hc, rfl⟩
  · intro a ha
    apply h3
    intro p hp
    rw [hplan, List.map_map] at hp
    obtain ⟨c, hc, rfl⟩ := List.mem_map.1 hp
    exact ha c (mem_boxList.1 hc)

/-- A view created over a buffer of sufficient size, and any sub-view of it that lies inside, fits
and does not alias: the hypotheses of C06 and C07 hold for every view the library builds itself. -/
theorem c06_subview_ok {shape offset ext : List Nat} {n : Nat}
    (hlen : prod shape ≤ n) (h : All₃ (fun s o e => o + e ≤ s) shape offset ext) :
    FitsIn (subview (makeView shape) offset ext) n ∧
    NoAlias (subview (makeView shape) offset ext) := by
  have hl := All₃.length_eq h
  have hin : ∀ c, InBox c ext → InBox (addV offset c) shape ∧ c.length = offset.length := by
    intro c hc
    refine ⟨?_, by have := hc.length_eq; omega⟩
    clear hlen hl
    induction shape generalizing offset ext c with
    | nil =>
      match offset, ext, h with
      | [], [], _ => cases c <;> simp_all
    | cons s ss ih =>
      match offset, ext, c, h, hc with
      | o :: os, e :: es, c :: cs, h, hc =>
        have h1 : o + e ≤ s := h.1
        have h2 : c < e := hc.1
        exact ⟨by show o + c < s; omega, ih h.2 cs hc.2⟩
  have haddr : ∀ c, InBox c ext →
      (subview (makeView shape) offset ext).base + dot c (subview (makeView shape) offset ext).strides
        = ravel shape (addV offset c) := by
    intro c hc
    simp only [subview, makeView, cOrderStrides_eq, Nat.zero_add, ravel]
    rw [dot_addV (hin c hc).2.symm]
  refine ⟨⟨?_, ?_⟩, ?_⟩
  · simp [subview, makeView, cOrderStrides_eq]; omega
  · intro c hc
    rw [haddr c hc]
    exact Nat.lt_of_lt_of_le (ravel_lt (hin c hc).1) hlen
  · intro c d hc hd he
    rw [haddr c hc, haddr d hd] at he
    have := ravel_inj (hin c hc).1 (hin d hd).1 he
    have hk : ∀ (o c d : List Nat), c.length = o.length → d.length = o.length →
        addV o c = addV o d → c = d := by
      intro o
      induction o with
      | nil =>
        intro c d h1 h2 _
        rw [List.length_eq_zero_iff.1 h1, List.length_eq_zero_iff.1 h2]
      | cons o os ih =>
        intro c d h1 h2 h3
        match c, d, h1, h2 with
        | c :: cs, d :: ds, h1, h2 =>
          simp only [addV_cons, List.cons.injEq] at h3
          rw [ih cs ds (by simpa using h1) (by simpa using h2) h3.2]
          congr 1; omega
    exact hk offset c d (hin c hc).2 (hin d hd).2 this

example : copyView [1, 2, 3, 4, 5, 6] (subview (makeView [2, 3]) [0, 1] [2, 2])
    [0, 0, 0, 0, 0] { base := 1, shape := [2, 2], strides := [1, 2] } = .ok [0, 2, 5, 3, 6] := by
  decide
example : FitsIn { base := 1, shape := [2, 2], strides := [1, 2] } 5 ∧
    NoAlias { base := 1, shape := [2, 2], strides := [1, 2] } := by
  have hb : ∀ c, InBox c [2, 2] ↔ c ∈ boxList [2, 2] := fun c => mem_boxList.symm
  refine ⟨⟨rfl, fun c hc => ?_⟩, fun c d hc hd => ?_⟩
  · exact (by decide : ∀ c ∈ boxList [2, 2], 1 + dot c [1, 2] < 5) c ((hb c).1 hc)
  · exact (by decide : ∀ c ∈ boxList [2, 2], ∀ d ∈ boxList [2, 2],
      1 + dot c [1, 2] = 1 + dot d [1, 2] → c = d) c ((hb c).1 hc) d ((hb d).1 hd)

end Z5.Props
