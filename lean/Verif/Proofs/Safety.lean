import Verif.Proofs.Region
import Verif.Props.Header

/-!
# Reading arbitrary file contents
-/

namespace Z5
open Spec Prog

variable {E : Elem} {ds : Dataset E}

theorem decompress_safe {C : Codec} (hC : C.SafeFor E.size) (b : Bytes) (dest : List E.T) {n : Nat}
    (hl : dest.length = n) (hn : n * E.size < 2 ^ 64) :
    (∃ e, decompress E C b dest n = .throw e) ∨
    ∃ out, decompress E C b dest n = .ok out ∧ out.length = n := by
  unfold decompress
  cases C with
  | raw =>
    simp only [wmul_size hn, hl]
    by_cases h1 : b.length > n * E.size
    · left; exact ⟨_, by rw [if_pos h1]⟩
    · right; exact ⟨_, by rw [if_neg h1, if_neg h1], by rw [length_overlay]; exact hl⟩
  | lib c d =>
    obtain ⟨h3, h5⟩ := hC
    simp only [wmul_size hn, hl]
    cases hd : d b (n * E.size) with
    | ub => exact absurd hd (h5 _ _)
    | throw e => left; exact ⟨e, rfl⟩
    | ok out =>
      right
      have := h3 _ _ _ hd
      exact ⟨overlay E dest out, by rw [Res.ok_bind, if_neg (by omega)], by rw [length_overlay]; exact hl⟩

theorem length_revPrefix {n : Nat} {l : List E.T} (h : l.length = n) :
    ∃ l', revPrefix E n l = .ok l' ∧ l'.length = n := by
  refine ⟨(l.take n).map (revElem E) ++ l.drop n, by rw [revPrefix, if_neg (by omega)], ?_⟩
  simp; omega

/-- The task of a region read is memory safe whatever the chunk file contains: it throws, or it
delivers writes to positions of the output view only. -/
theorem readTask_safe (h : ds.WF) (hC : ds.codec.SafeFor E.size) {rb c : List Nat} {out : View}
    (hr : RegionOk ds.shape rb out.shape) (hc : Touches ds rb out.shape c)
    (hout : out.strides.length = out.shape.length) (scratch : List E.T) (v : Option Bytes) :
    (∃ e, (exec1 (ds.readTask out rb out.shape c scratch) v).1 = .throw e) ∨
    ∃ ps, (exec1 (ds.readTask out rb out.shape c scratch) v).1 = .ok ps ∧
      ∀ p ∈ ps, ∃ j, InBox j out.shape ∧ p.1 = out.addr j := by
  have hg := hc.inGrid
  cases v with
  | none =>
    right
    obtain ⟨o, ho, he⟩ := readTask_exec (ds := ds) h hr hc hout scratch (v := none)
      (A := fun _ => ds.fill) (fun _ _ => rfl)
    refine ⟨_, by rw [he], ?_⟩
    intro p hp
    obtain ⟨i, hi, rfl⟩ := List.mem_map.1 hp
    exact ⟨_, ho.inRoi.inBox (mem_boxList.1 hi), rfl⟩
  | some b =>
    obtain ⟨o, ho, hof⟩ := h.overlap hr hc
    have hlr := All₃.length_eq hof.inRoi
    have hraw : exec1 (ds.readRawChunk c) (some b) = (.ok b, some b) := by
      rw [Dataset.readRawChunk, h.handle_eq hg, bind_ok, exec1_bind_ok (exec1_read ..)]
      rfl
    have haddr : ∀ i, InBox i o.shapeInRoi →
        (subview out o.beginInRoi o.shapeInRoi).addr i = out.addr (addV o.beginInRoi i) := by
      intro i hi
      have := hi.length_eq
      simp only [View.addr, subview]
      rw [dot_addV (by omega)]; omega
    -- the final copy
    have hcopy : ∀ (st : List Nat) (buffer : List E.T),
        All₂ (· ≤ ·) (extV ds.shape ds.chunkShape c) st → buffer.length = prod st →
        ∃ ps, copyPokes buffer (copyPlan (subview
            { base := 0, shape := st, strides := cOrderStrides st }
            o.beginInBlock o.shapeInRoi) (subview out o.beginInRoi o.shapeInRoi)) = .ok ps ∧
          ∀ p ∈ ps, ∃ j, InBox j out.shape ∧ p.1 = out.addr j := by
      intro st buffer hst hlen
      have hin : Inside st o.beginInBlock o.shapeInRoi := hof.inBlock.mono hst
      have hls := All₃.length_eq hin
      have hsrc : ∀ i, InBox i o.shapeInRoi → (subview
          { base := 0, shape := st, strides := cOrderStrides st }
          o.beginInBlock o.shapeInRoi).addr i = ravel st (addV o.beginInBlock i) :=
        fun i hi => subview_addr hin hi
      rw [copyPlan_eq (by simp only [subview, cOrderStrides_eq, length_strides]; omega)
        (by simp only [subview]; omega)]
      rw [copyPokes_eq buffer (fun p => (buffer[p]?).getD ds.fill)]
      · refine ⟨_, rfl, ?_⟩
        intro p hp
        simp only [List.map_map, List.mem_map] at hp
        obtain ⟨i, hi, rfl⟩ := hp
        have hi' : InBox i o.shapeInRoi := mem_boxList.1 hi
        exact ⟨_, hof.inRoi.inBox hi', haddr i hi'⟩
      · intro p hp
        obtain ⟨i, hi, rfl⟩ := List.mem_map.1 hp
        have hi' : InBox i o.shapeInRoi := mem_boxList.1 hi
        simp only [hsrc i hi']
        have := ravel_lt (hin.inBox hi')
        rw [List.getElem?_eq_getElem (by omega)]
        rfl
    -- shape and size
    have e1 := accumulateMul_eq (prod_reverse_ext_lt h hg)
    have hext : prod (extV ds.shape ds.chunkShape c) * E.size < 2 ^ 64 :=
      Nat.lt_of_le_of_lt (Nat.mul_le_mul_right _ (h.ext_le hg)) h.bytes
    have hrefl : ∀ l : List Nat, All₂ (· ≤ ·) l l := by
      intro l
      induction l with
      | nil => trivial
      | cons a l ih => exact ⟨Nat.le_refl a, ih⟩
    have htail : ∀ (st : List Nat) (payload : Bytes), 
        All₂ (· ≤ ·) (extV ds.shape ds.chunkShape c) st → prod st * E.size < 2 ^ 64 →
        let p : Prog (List (Nat × E.T)) := (do
          let buffer ← .ret (decompress E ds.codec payload
            (if prod st ≠ scratch.length then resize E scratch (prod st) else scratch) (prod st))
          let buffer ← if !ds.isZarr && decide (E.size > 1) then .ret (revPrefix E (prod st) buffer)
            else .ret (.ok buffer)
          .ret (copyPokes buffer (copyPlan (subview
            { base := 0, shape := st, strides := cOrderStrides st }
            o.beginInBlock o.shapeInRoi) (subview out o.beginInRoi o.shapeInRoi))))
        (∃ e, (exec1 p (some b)).1 = .throw e) ∨ ∃ ps, (exec1 p (some b)).1 = .ok ps ∧
          ∀ p ∈ ps, ∃ j, InBox j out.shape ∧ p.1 = out.addr j := by
      intro st payload hst hb p
      rcases decompress_safe hC payload _ (length_resized (E := E) scratch (prod st)) hb with
        ⟨e, he⟩ | ⟨buf, he, hlen⟩
      · left
        refine ⟨e, ?_⟩
        simp only [p, he]
        rfl
      · right
        by_cases hsw : (!ds.isZarr && decide (E.size > 1)) = true
        · obtain ⟨buf', he', hlen'⟩ := length_revPrefix hlen
          obtain ⟨ps, hps, hpr⟩ := hcopy st buf' hst hlen'
          refine ⟨ps, ?_, hpr⟩
          simp only [p, he, bind_ok, if_pos hsw, he', hps]
          rfl
        · obtain ⟨ps, hps, hpr⟩ := hcopy st buf hst hlen
          refine ⟨ps, ?_, hpr⟩
          simp only [p, he, bind_ok, if_neg hsw, hps]
          rfl
    have hchoice : ∀ n : Nat, ∃ st, (if n ≠ accumulateMul (extV ds.shape ds.chunkShape c) then
        (ds.chunkSize, ds.chunkShape)
        else (accumulateMul (extV ds.shape ds.chunkShape c), extV ds.shape ds.chunkShape c)) =
        (prod st, st) ∧ All₂ (· ≤ ·) (extV ds.shape ds.chunkShape c) st ∧
        prod st * E.size < 2 ^ 64 := by
      intro n
      split
      · exact ⟨ds.chunkShape, by rw [h.chunkSize_eq], extV_le hg, h.bytes⟩
      · exact ⟨_, by rw [e1], hrefl _, hext⟩
    unfold Dataset.readTask
    rw [ho, bind_ok]
    simp only
    rw [exec1_bind_ok (chunkExists_exec h hg (some b))]
    simp only [Option.isSome_some, Bool.not_true, Bool.false_eq_true, if_false]
    rw [h.getChunkShape_eq hg, bind_ok, exec1_bind_ok hraw]
    by_cases hz : ds.isZarr = true
    · obtain ⟨st, hst, hle, hby⟩ := hchoice ds.chunkSize
      simp only [hz, Bool.not_true, Bool.false_eq_true, if_false, bind_ok, hst, Bool.false_and,
        List.drop_zero]
      have := htail st b hle hby
      simp only [hz, Bool.not_true, Bool.false_eq_true, if_false, Bool.false_and] at this
      exact this
    · have hz' : ds.isZarr = false := by simpa using hz
      rcases readN5Header_safe b with he | ⟨vl, n, hl, he, _⟩
      · left
        simp only [hz', Bool.not_false, if_true, he]
        exact ⟨_, rfl⟩
      · obtain ⟨st, hst, hle, hby⟩ := hchoice n
        simp only [hz', Bool.not_false, if_true, he, bind_ok, Bool.true_and]
        cases vl with
        | true => left; exact ⟨_, rfl⟩
        | false =>
          simp only [Bool.false_eq_true, if_false, hst]
          have := htail st (b.drop hl) hle hby
          simp only [hz', Bool.not_false, Bool.true_and] at this
          exact this

end Z5
