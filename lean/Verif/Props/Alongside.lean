import Verif.Proofs.AlongsideRun
import Verif.Props.Together
import Verif.Props.S3Together

/-!
# C90: reading while other calls write
-/

namespace Z5.Props
open Spec Prog

section
variable {Ty : ElemTypes} {C : Container} {L : Libs} {T : Tree Ty} {os : List (Path × DatasetObj)} {σ : Fs} {js : List (WriteJob Ty)}
  {p : Path} {o : DatasetObj} {x : ArrayItem Ty}

/-- **C90, reading.**  A region of an array is read while any other tasks, of this or other processes, change the file system.  If under
every schedule they leave the files with elements of the region alone, then under every schedule of all tasks the reading call gives the
elements that the region has in the tree, and the other tasks do what they do without it. -/
theorem c90_read (hL : L.Lawful) (h : History C L Ty T os σ) (ho : (p, o) ∈ os) (hx : T p = some (.array x)) :
    ∃ d A, o.typed L (Ty.cast x.dtype) = .ok d ∧ d.base.shape = x.shape ∧
      (∀ i, InBox i x.shape → SameOrFill (Ty.elem x.dtype).ceq x.fill (A i) (x.content i)) ∧
      ∀ (off : List Nat) (out : View) (outBuf : List (Ty.elem x.dtype).T) (scratch : Nat → List (Ty.elem x.dtype).T),
        RegionOk d.base.shape off out.shape → FitsIn out outBuf.length → NoAlias out →
        ∃ ts, d.readSubarray out off scratch = .ok ts ∧
          ∀ {β : Type} (es : List (FsProg β)), (∀ js k, d.Touched off out.shape k →
            (FsProg.interleave js (es, σ)).2 (chunkFile (C.root ++ p) k) = σ (chunkFile (C.root ++ p) k)) →
          ∀ is rs, FsProg.Finished (FsProg.both is (d.onFiles (C.root ++ p) ts, es, σ)).1 rs →
            Gives (E := Ty.elem x.dtype) A off out outBuf rs ∧
            ∃ js, (FsProg.both is (d.onFiles (C.root ++ p) ts, es, σ)).2 = FsProg.interleave js (es, σ) := by
  obtain ⟨d, A, h1, h2, h3, h4⟩ := c66_read hL h ho hx
  refine ⟨d, A, h1, h2, h4, fun off out outBuf scratch hr hfit hna => ?_⟩
  obtain ⟨ts, hts, hrun⟩ := h3 off out outBuf scratch hr hfit hna
  refine ⟨ts, hts, fun es hes is rs hf => ?_⟩
  obtain ⟨fk, hfk⟩ := ((Container.inv_of_history hL h).array _ _ hx).facts hL
  have hto := AnyDataset.read_touched (hfk o ho d h1).wf hr hts
  obtain ⟨e1, e2⟩ := both_reads is (σ₀ := σ) (σ := σ) (ts := d.onFiles (C.root ++ p) ts) (es := es) (p := C.root ++ p)
    (K := d.Touched off out.shape) (nested := d.base.key.nested) (by
      intro t ht
      obtain ⟨s, hs, rfl⟩ := List.mem_map.1 ht
      exact ⟨s, (hto s hs).1, (hto s hs).2, rfl⟩) (fun _ _ => rfl) hes
  rw [e1] at hf
  exact ⟨(hrun _ rs hf).2, _, e2⟩

/-- **C90, reading while other calls write.**  A region is read while calls write to the arrays of the container, to other arrays or at
least to other files: under every schedule the reading call gives the elements of before, and the writing calls have the effect that
they have without it (C88). -/
theorem c90_while_writing (hL : L.Lawful) (h : History C L Ty T os σ) (ho : (p, o) ∈ os) (hx : T p = some (.array x))
    (hr : ∀ j ∈ js, j.Ready L T os) (ha : js.Pairwise WriteJob.Apart) :
    ∃ d A, o.typed L (Ty.cast x.dtype) = .ok d ∧ d.base.shape = x.shape ∧
      (∀ i, InBox i x.shape → SameOrFill (Ty.elem x.dtype).ceq x.fill (A i) (x.content i)) ∧
      ∀ (off : List Nat) (out : View) (outBuf : List (Ty.elem x.dtype).T) (scratch : Nat → List (Ty.elem x.dtype).T),
        RegionOk d.base.shape off out.shape → FitsIn out outBuf.length → NoAlias out →
        (∀ j ∈ js, j.AwayFrom p off out.shape) →
        ∃ ts, d.readSubarray out off scratch = .ok ts ∧
          ∀ is rs ws, FsProg.Finished (FsProg.both is (d.onFiles (C.root ++ p) ts, js.flatMap (·.onFiles C), σ)).1 rs →
            FsProg.Finished (FsProg.both is (d.onFiles (C.root ++ p) ts, js.flatMap (·.onFiles C), σ)).2.1 ws →
            Gives (E := Ty.elem x.dtype) A off out outBuf rs ∧
            ((∀ r ∈ ws, r = .ok ()) → ∃ T',
              History C L Ty T' os (FsProg.both is (d.onFiles (C.root ++ p) ts, js.flatMap (·.onFiles C), σ)).2.2 ∧
              (∀ q, (∀ j ∈ js, j.path ≠ q) → T' q = T q) ∧
              ∀ j ∈ js, ∃ B, T' j.path = some (.array { j.item with content := B }) ∧
                (∀ y, InBox y j.item.shape → InRegion y j.write.off j.write.shape → B y = j.write.val (subV y j.write.off)) ∧
                ∀ y, (∀ k ∈ js, k.path = j.path → ¬ InRegion y k.write.off k.write.shape) → B y = j.item.content y) := by
  obtain ⟨d, A, h1, h2, h3, h4⟩ := c90_read hL h ho hx
  refine ⟨d, A, h1, h2, h3, fun off out outBuf scratch hreg hfit hna haw => ?_⟩
  obtain ⟨ts, hts, hrun⟩ := h4 off out outBuf scratch hreg hfit hna
  refine ⟨ts, hts, fun is rs ws hf hw => ?_⟩
  have hI := Container.inv_of_history hL h
  have hkeep : ∀ is k, d.Touched off out.shape k →
      (FsProg.interleave is (js.flatMap (·.onFiles C), σ)).2 (chunkFile (C.root ++ p) k) = σ (chunkFile (C.root ++ p) k) := by
    intro is k hk
    obtain ⟨l, rfl, hl⟩ := exists_readyAs hL hI hr
    rw [flatMap_onFiles hl]
    refine kept_of_apart (WriteJob.all_fits hL hI hl) (WriteJob.all_apart hL hI hl (pairwise_fst ha)) (fun g hg => ?_) is
    obtain ⟨e, he, hg⟩ := List.mem_flatMap.1 hg
    exact (hl e he).away hL hI ho hx h1 (haw _ (List.mem_map.2 ⟨e, he, rfl⟩)) hk g hg
  obtain ⟨g1, is', g2⟩ := hrun _ hkeep is rs hf
  refine ⟨g1, fun hok => ?_⟩
  rw [g2] at hw ⊢
  exact c88_together hL h hr ha hw hok

end

section
variable {Ty : ElemTypes} {C : S3Container} {L : Libs} {T : Tree Ty} {os : List (Path × S3DatasetObj)} {b : Bucket}
  {js : List (S3WriteJob Ty)} {p : Path} {o : S3DatasetObj} {x : ArrayItem Ty}

/-- **C90, reading on S3.**  As `c90_read`, with the objects of the bucket in place of files. -/
theorem c90_s3_read (hL : L.Lawful) (h : S3History C L Ty T os b) (ho : (p, o) ∈ os) (hx : T p = some (.array x)) :
    ∃ d A, o.typed L (Ty.cast x.dtype) = .ok d ∧ d.base.shape = x.shape ∧
      (∀ i, InBox i x.shape → SameOrFill (Ty.elem x.dtype).ceq x.fill (A i) (x.content i)) ∧
      ∀ (off : List Nat) (out : View) (outBuf : List (Ty.elem x.dtype).T) (scratch : Nat → List (Ty.elem x.dtype).T),
        RegionOk d.base.shape off out.shape → FitsIn out outBuf.length → NoAlias out →
        ∃ ts, d.readSubarray out off scratch = .ok ts ∧
          ∀ {β : Type} (es : List (Prog β)), (∀ js k, d.Touched off out.shape k →
            (interleaveObjects js (es, b)).2.get (chunkObject (C.key p) k) = b.get (chunkObject (C.key p) k)) →
          ∀ is rs, Finished (Prog.both is (ts.map (·.onObjects (C.key p)), es, b)).1 rs →
            Gives (E := Ty.elem x.dtype) A off out outBuf rs ∧
            ∃ js, (Prog.both is (ts.map (·.onObjects (C.key p)), es, b)).2 = interleaveObjects js (es, b) := by
  obtain ⟨d, A, h1, h2, h3, h4⟩ := c79_read hL h ho hx
  refine ⟨d, A, h1, h2, h4, fun off out outBuf scratch hr hfit hna => ?_⟩
  obtain ⟨ts, hts, hrun⟩ := h3 off out outBuf scratch hr hfit hna
  refine ⟨ts, hts, fun es hes is rs hf => ?_⟩
  have hI := S3Container.inv_of_history hL h
  obtain ⟨fk, hfk⟩ := (hI.array _ _ hx).facts hL (S3WriteJob.array_name hI hx)
  have hto := AnyDataset.read_touched (hfk o ho d h1).wf hr hts
  obtain ⟨e1, e2⟩ := both_readsS3 is (b₀ := b) (b := b) (ts := ts.map (·.onObjects (C.key p))) (es := es)
    (K := fun q => ∃ k, d.Touched off out.shape k ∧ q = chunkObject (C.key p) k) (by
      intro t ht
      obtain ⟨s, hs, rfl⟩ := List.mem_map.1 ht
      exact ⟨readOnly_onObjects (hto s hs).1, within_onObjects (hto s hs).2⟩) (fun _ _ => rfl) (by
      rintro js _ ⟨k, hk, rfl⟩
      exact hes js k hk)
  rw [e1, interleaveObjects_eq, finished_onObjects] at hf
  exact ⟨(hrun _ rs hf).2, _, e2⟩

/-- **C90, reading while other calls write, on S3.**  As `c90_while_writing`; the effect of the writing calls is that of C89. -/
theorem c90_s3_while_writing (hL : L.Lawful) (h : S3History C L Ty T os b) (ho : (p, o) ∈ os) (hx : T p = some (.array x))
    (hr : ∀ j ∈ js, j.Ready L T os) (ha : js.Pairwise S3WriteJob.Apart) :
    ∃ d A, o.typed L (Ty.cast x.dtype) = .ok d ∧ d.base.shape = x.shape ∧
      (∀ i, InBox i x.shape → SameOrFill (Ty.elem x.dtype).ceq x.fill (A i) (x.content i)) ∧
      ∀ (off : List Nat) (out : View) (outBuf : List (Ty.elem x.dtype).T) (scratch : Nat → List (Ty.elem x.dtype).T),
        RegionOk d.base.shape off out.shape → FitsIn out outBuf.length → NoAlias out →
        (∀ j ∈ js, j.AwayFrom p off out.shape) →
        ∃ ts, d.readSubarray out off scratch = .ok ts ∧
          ∀ is rs ws, Finished (Prog.both is (ts.map (·.onObjects (C.key p)), js.flatMap (·.onObjects C), b)).1 rs →
            Finished (Prog.both is (ts.map (·.onObjects (C.key p)), js.flatMap (·.onObjects C), b)).2.1 ws →
            Gives (E := Ty.elem x.dtype) A off out outBuf rs ∧
            ((∀ r ∈ ws, r = .ok ()) → ∃ T',
              S3History C L Ty T' os (Prog.both is (ts.map (·.onObjects (C.key p)), js.flatMap (·.onObjects C), b)).2.2 ∧
              (∀ q, (∀ j ∈ js, j.path ≠ q) → T' q = T q) ∧
              ∀ j ∈ js, ∃ B, T' j.path = some (.array { j.item with content := B }) ∧
                (∀ y, InBox y j.item.shape → InRegion y j.write.off j.write.shape → B y = j.write.val (subV y j.write.off)) ∧
                ∀ y, (∀ k ∈ js, k.path = j.path → ¬ InRegion y k.write.off k.write.shape) → B y = j.item.content y) := by
  obtain ⟨d, A, h1, h2, h3, h4⟩ := c90_s3_read hL h ho hx
  refine ⟨d, A, h1, h2, h3, fun off out outBuf scratch hreg hfit hna haw => ?_⟩
  obtain ⟨ts, hts, hrun⟩ := h4 off out outBuf scratch hreg hfit hna
  refine ⟨ts, hts, fun is rs ws hf hw => ?_⟩
  have hI := S3Container.inv_of_history hL h
  have hkeep : ∀ is k, d.Touched off out.shape k →
      (interleaveObjects is (js.flatMap (·.onObjects C), b)).2.get (chunkObject (C.key p) k) = b.get (chunkObject (C.key p) k) := by
    intro is k hk
    obtain ⟨l, rfl, hl⟩ := s3_exists_readyAs hL hI hr
    rw [flatMap_onObjects hl]
    have hok := S3WriteJob.all_ok hL hI hl (s3_pairwise_fst ha)
    refine kept_objects hok (fun g hg => ?_) is
    obtain ⟨e, he, hg⟩ := List.mem_flatMap.1 hg
    exact (hl e he).away hL hI ho hx h1 (haw _ (List.mem_map.2 ⟨e, he, rfl⟩)) hk g hg
  obtain ⟨g1, is', g2⟩ := hrun _ hkeep is rs hf
  refine ⟨g1, fun hok => ?_⟩
  rw [g2] at hw ⊢
  exact c89_together hL h hr ha hw hok

end
private theorem exOut_fits : FitsIn ⟨0, [2, 4], [4, 1]⟩ (List.replicate 8 (0 : Fin (256 ^ 1))).length :=
  ⟨rfl, fun i hi => by
    match i, hi with
    | [a, c], hi =>
      have h1 : a < 2 := hi.1
      have h2 : c < 4 := hi.2.1
      show 0 + (a * 4 + (c * 1 + 0)) < _
      simp only [List.length_replicate]
      omega⟩

private theorem exOut_noAlias : NoAlias ⟨0, [2, 4], [4, 1]⟩ := by
  intro i j hi hj e
  match i, j, hi, hj with
  | [a, c], [a', c'], hi, hj =>
    have h1 : c < 4 := hi.2.1
    have h2 : c' < 4 := hj.2.1
    have e : a * 4 + (c * 1 + 0) = a' * 4 + (c' * 1 + 0) := by simpa [dot] using e
    have : a = a' ∧ c = c' := by omega
    rw [this.1, this.2]

/-- The theorems apply: a container has two arrays, `a` and `g/d`, that are 3 everywhere; one call reads the rows 0 and 1 of `a` while one
writes 8 to the rows 2 and 3 of `a` and one writes 9 to the rows 1 to 3 of `g/d`.  Under every schedule that completes the reading call it
gives 3. -/
example : ∃ (T : Tree exTypes) (os : List (Path × DatasetObj)) (σ : Fs) (js : List (WriteJob exTypes)) (d : AnyDataset U8)
      (ts : List (Prog (List (Nat × U8.T)))),
    History exC exLibs exTypes T os σ ∧ js.length = 2 ∧ (∀ j ∈ js, j.Ready exLibs T os) ∧ js.Pairwise WriteJob.Apart ∧
    (∀ j ∈ js, j.AwayFrom ["a"] [0, 0] [2, 4]) ∧ d.readSubarray ⟨0, [2, 4], [4, 1]⟩ [0, 0] (fun _ => []) = .ok ts ∧
    ∀ is rs ws, FsProg.Finished (FsProg.both is ((d.onFiles (exC.root ++ ["a"]) ts), (js.flatMap (·.onFiles exC)), σ)).1 rs → FsProg.Finished (FsProg.both is ((d.onFiles (exC.root ++ ["a"]) ts), (js.flatMap (·.onFiles exC)), σ)).2.1 ws →
      ∃ out', Delivers (T := U8.T) (List.replicate 8 (0 : Fin (256 ^ 1))) rs out' ∧ out'[6]? = some (3 : Fin (256 ^ 1)) := by
  have hL := exLibs_lawful
  obtain ⟨σ0, h0⟩ := exC_start
  obtain ⟨o1, σ1, e1, m1, _, _, _, h1⟩ := (c66_create_array (hL _) h0 (g := []) (key := ["g", "d"]) ⟨_, rfl⟩
    (by decide) (by unfold PlainName; decide) (by
      intro q _ _ a e
      by_cases hq : q = []
      · subst hq; cases e
      · simp [hq] at e) exItem_asked .a).2.2 (by decide) rfl
  obtain ⟨o2, σ2, e2, m2, _, _, _, h2⟩ := (c66_create_array (hL _) h1 (g := []) (key := ["a"]) ⟨_, rfl⟩
    (by decide) (by unfold PlainName; decide) (by
      rintro q ⟨t, ht⟩ hne a e
      cases q with
      | nil => cases e
      | cons b q =>
        simp only [List.nil_append, List.cons_append, List.cons.injEq, List.append_eq_nil_iff] at ht
        obtain ⟨rfl, rfl, rfl⟩ := ht
        exact hne rfl) exItem_asked .a).2.2 (by decide) rfl
  obtain ⟨T, os, h2, hTa, hTd, hoa, hod⟩ : ∃ (T : Tree exTypes) (os : List (Path × DatasetObj)), History exC exLibs exTypes T os σ2 ∧
      T ["a"] = some (.array exItem) ∧ T ["g", "d"] = some (.array exItem) ∧ (["a"], o2) ∈ os ∧ (["g", "d"], o1) ∈ os :=
    ⟨_, _, h2, rfl, rfl, by simp, by simp⟩
  obtain ⟨d1, hd1, hs1, hw1⟩ := c66_write (hL _) h2 (p := ["g", "d"]) (o := o1) (x := exItem) (exLibs_total _ _ _) hod hTd
    (by rw [m1]; decide)
  obtain ⟨d2, hd2, hs2, hw2⟩ := c66_write (hL _) h2 (p := ["a"]) (o := o2) (x := exItem) (exLibs_total _ _ _) hoa hTa
    (by rw [m2]; decide)
  have hv2 : RegionOk exItem.shape [2, 0] [2, 4] := by decide
  have hv3 : RegionOk exItem.shape [1, 0] [3, 3] := by decide
  obtain ⟨t2, ht2, _⟩ := hw2 (.scalar [2, 0] [2, 4] (8 : Fin (256 ^ 1))) (fun _ => (8 : Fin (256 ^ 1)))
    ⟨by rw [hs2]; exact hv2, trivial⟩ (fun _ _ => rfl) fun _ => []
  obtain ⟨t3, ht3, _⟩ := hw1 (.scalar [1, 0] [3, 3] (9 : Fin (256 ^ 1))) (fun _ => (9 : Fin (256 ^ 1)))
    ⟨by rw [hs1]; exact hv3, trivial⟩ (fun _ _ => rfl) fun _ => []
  obtain ⟨js, hjs⟩ : ∃ js : List (WriteJob exTypes), js = [⟨["a"], o2, exItem, d2, ⟨[2, 0], [2, 4], fun _ => (8 : Fin (256 ^ 1))⟩, t2⟩,
      ⟨["g", "d"], o1, exItem, d1, ⟨[1, 0], [3, 3], fun _ => (9 : Fin (256 ^ 1))⟩, t3⟩] := ⟨_, rfl⟩
  have hready : ∀ j ∈ js, j.Ready exLibs T os := by
    intro j hj
    simp only [hjs, List.mem_cons, List.not_mem_nil, or_false] at hj
    rcases hj with rfl | rfl
    · exact ⟨hoa, hTa, by rw [m2]; decide, hd2, .region (.scalar [2, 0] [2, 4] _) _ _ _ ⟨by rw [hs2]; exact hv2, trivial⟩ (fun _ _ => rfl) ht2⟩
    · exact ⟨hod, hTd, by rw [m1]; decide, hd1, .region (.scalar [1, 0] [3, 3] _) _ _ _ ⟨by rw [hs1]; exact hv3, trivial⟩ (fun _ _ => rfl) ht3⟩
  have hdis : ∀ c x y, InRegion x [0, 0] [2, 4] → InRegion y [2, 0] [2, 4] → InChunk [5, 4] [2, 4] c x → ¬ InChunk [5, 4] [2, 4] c y := by
    intro c x y hx hy hc hc'
    match c, x, y, hx, hy, hc, hc' with
    | a :: _, x :: _, y :: _, hx, hy, hc, hc' =>
      have h1 : 0 ≤ x ∧ x < 0 + 2 := hx.1
      have h2 : 2 ≤ y ∧ y < 2 + 2 := hy.1
      have h3 : a * 2 ≤ x ∧ x < (a + 1) * 2 ∧ x < 5 := hc.1
      have h4 : a * 2 ≤ y ∧ y < (a + 1) * 2 ∧ y < 5 := hc'.1
      omega
  have hap : js.Pairwise WriteJob.Apart := by
    rw [hjs]
    refine .cons ?_ (.cons (fun _ h => by cases h) .nil)
    intro j hj
    simp only [List.mem_cons, List.not_mem_nil, or_false] at hj
    subst hj
    exact fun e => absurd e (by simp)
  have haw : ∀ j ∈ js, j.AwayFrom ["a"] [0, 0] [2, 4] := by
    intro j hj
    simp only [hjs, List.mem_cons, List.not_mem_nil, or_false] at hj
    rcases hj with rfl | rfl
    · exact fun _ => hdis
    · exact fun e => absurd e (by simp)
  obtain ⟨d, A, _, hs, hA, hread⟩ := c90_while_writing (hL _) h2 hoa hTa hready hap
  obtain ⟨ts, hts, hrun⟩ := hread [0, 0] ⟨0, [2, 4], [4, 1]⟩ (List.replicate 8 (0 : Fin (256 ^ 1))) (fun _ => [])
    (by rw [hs]; decide) exOut_fits exOut_noAlias haw
  refine ⟨T, os, σ2, js, d, ts, h2, by rw [hjs]; rfl, hready, hap, haw, hts, fun is rs ws hf hw => ?_⟩
  obtain ⟨⟨⟨out', ho⟩, hall⟩, _⟩ := hrun is rs ws hf hw
  refine ⟨out', ho, ((hall out' ho).2.1 [1, 2] (show InBox [1, 2] [2, 4] by decide)).trans (congrArg some ?_)⟩
  exact (sameOrFill_iff (fun (a b : Fin (256 ^ 1)) h => of_decide_eq_true (p := a = b) h)).1 (hA [1, 2] (show InBox [1, 2] [5, 4] by decide))

/-- The same on S3. -/
example : ∃ (T : Tree exTypes) (os : List (Path × S3DatasetObj)) (b : Bucket) (js : List (S3WriteJob exTypes)) (d : AnyDataset U8)
      (ts : List (Prog (List (Nat × U8.T)))),
    S3History exS3C exLibs exTypes T os b ∧ js.length = 2 ∧ (∀ j ∈ js, j.Ready exLibs T os) ∧ js.Pairwise S3WriteJob.Apart ∧
    (∀ j ∈ js, j.AwayFrom ["a"] [0, 0] [2, 4]) ∧ d.readSubarray ⟨0, [2, 4], [4, 1]⟩ [0, 0] (fun _ => []) = .ok ts ∧
    ∀ is rs ws, Finished (Prog.both is ((ts.map (·.onObjects (exS3C.key ["a"]))), (js.flatMap (·.onObjects exS3C)), b)).1 rs → Finished (Prog.both is ((ts.map (·.onObjects (exS3C.key ["a"]))), (js.flatMap (·.onObjects exS3C)), b)).2.1 ws →
      ∃ out', Delivers (T := U8.T) (List.replicate 8 (0 : Fin (256 ^ 1))) rs out' ∧ out'[6]? = some (3 : Fin (256 ^ 1)) := by
  have hL := exLibs_lawful
  have h0 := exS3Start_history
  have calm : ∀ {α : Type} {P : α → Bucket → Prop} {Q : Bucket → Prop} {x : S3M α} {n : Nat} {b : Bucket},
      (∀ es : List Event, (∀ e ∈ es, e.Reliable) →
        (∃ a es' b', es' <:+ es ∧ es.length ≤ n + es'.length ∧ x ⟨es, b⟩ = (some (.ok a), ⟨es', b'⟩) ∧ P a b') ∨
        (∃ es' b', x ⟨es, b⟩ = (some (.throw .runtimeError), ⟨es', b'⟩) ∧ Q b' ∧ ∃ e ∈ es, ∃ kind, e.error kind ≠ none) ∨
        (es.length < n ∧ ∃ b', x ⟨es, b⟩ = (none, ⟨[], b'⟩) ∧ Q b')) → ∃ a b', P a b' := by
    intro α P Q x n b h
    rcases h (List.replicate n {}) (exS3_calm n) with ⟨a, _, b', _, _, _, h⟩ | ⟨_, _, _, _, e, he, k, hk⟩ | ⟨h, _⟩
    · exact ⟨a, b', h⟩
    · rw [List.eq_of_mem_replicate he] at hk
      exact absurd rfl hk
    · simp at h
  obtain ⟨o1, σ1, m1, _, _, _, h1⟩ := calm ((c79_create_array (hL _) h0 (g := []) (key := ["g", "d"]) ⟨_, rfl⟩
    (by decide) (by unfold NodeName PlainName; decide) (by
      intro q _ _ a e
      by_cases hq : q = []
      · subst hq; cases e
      · simp [hq] at e) exS3Item_asked (by decide) .a).2.2 (by decide) rfl)
  obtain ⟨o2, σ2, m2, _, _, _, h2⟩ := calm ((c79_create_array (hL _) h1 (g := []) (key := ["a"]) ⟨_, rfl⟩
    (by decide) (by unfold NodeName PlainName; decide) (by
      rintro q ⟨t, ht⟩ hne a e
      cases q with
      | nil => cases e
      | cons b q =>
        simp only [List.nil_append, List.cons_append, List.cons.injEq, List.append_eq_nil_iff] at ht
        obtain ⟨rfl, rfl, rfl⟩ := ht
        exact hne rfl) exS3Item_asked (by decide) .a).2.2 (by decide) rfl)
  obtain ⟨T, os, h2, hTa, hTd, hoa, hod⟩ : ∃ (T : Tree exTypes) (os : List (Path × S3DatasetObj)), S3History exS3C exLibs exTypes T os σ2 ∧
      T ["a"] = some (.array exItem) ∧ T ["g", "d"] = some (.array exItem) ∧ (["a"], o2) ∈ os ∧ (["g", "d"], o1) ∈ os :=
    ⟨_, _, h2, rfl, rfl, by simp, by simp⟩
  obtain ⟨d1, hd1, hs1, hw1⟩ := c79_write (hL _) h2 (p := ["g", "d"]) (o := o1) (x := exItem) (exLibs_total _ _ _) hod hTd
    (by rw [m1]; decide)
  obtain ⟨d2, hd2, hs2, hw2⟩ := c79_write (hL _) h2 (p := ["a"]) (o := o2) (x := exItem) (exLibs_total _ _ _) hoa hTa
    (by rw [m2]; decide)
  have hv2 : RegionOk exItem.shape [2, 0] [2, 4] := by decide
  have hv3 : RegionOk exItem.shape [1, 0] [3, 3] := by decide
  obtain ⟨t2, ht2, _⟩ := hw2 (.scalar [2, 0] [2, 4] (8 : Fin (256 ^ 1))) (fun _ => (8 : Fin (256 ^ 1)))
    ⟨by rw [hs2]; exact hv2, trivial⟩ (fun _ _ => rfl) fun _ => []
  obtain ⟨t3, ht3, _⟩ := hw1 (.scalar [1, 0] [3, 3] (9 : Fin (256 ^ 1))) (fun _ => (9 : Fin (256 ^ 1)))
    ⟨by rw [hs1]; exact hv3, trivial⟩ (fun _ _ => rfl) fun _ => []
  obtain ⟨js, hjs⟩ : ∃ js : List (S3WriteJob exTypes), js = [⟨["a"], o2, exItem, d2, ⟨[2, 0], [2, 4], fun _ => (8 : Fin (256 ^ 1))⟩, t2⟩,
      ⟨["g", "d"], o1, exItem, d1, ⟨[1, 0], [3, 3], fun _ => (9 : Fin (256 ^ 1))⟩, t3⟩] := ⟨_, rfl⟩
  have hready : ∀ j ∈ js, j.Ready exLibs T os := by
    intro j hj
    simp only [hjs, List.mem_cons, List.not_mem_nil, or_false] at hj
    rcases hj with rfl | rfl
    · exact ⟨hoa, hTa, by rw [m2]; decide, hd2, .region (.scalar [2, 0] [2, 4] _) _ _ _ ⟨by rw [hs2]; exact hv2, trivial⟩ (fun _ _ => rfl) ht2⟩
    · exact ⟨hod, hTd, by rw [m1]; decide, hd1, .region (.scalar [1, 0] [3, 3] _) _ _ _ ⟨by rw [hs1]; exact hv3, trivial⟩ (fun _ _ => rfl) ht3⟩
  have hdis : ∀ c x y, InRegion x [0, 0] [2, 4] → InRegion y [2, 0] [2, 4] → InChunk [5, 4] [2, 4] c x → ¬ InChunk [5, 4] [2, 4] c y := by
    intro c x y hx hy hc hc'
    match c, x, y, hx, hy, hc, hc' with
    | a :: _, x :: _, y :: _, hx, hy, hc, hc' =>
      have h1 : 0 ≤ x ∧ x < 0 + 2 := hx.1
      have h2 : 2 ≤ y ∧ y < 2 + 2 := hy.1
      have h3 : a * 2 ≤ x ∧ x < (a + 1) * 2 ∧ x < 5 := hc.1
      have h4 : a * 2 ≤ y ∧ y < (a + 1) * 2 ∧ y < 5 := hc'.1
      omega
  have hap : js.Pairwise S3WriteJob.Apart := by
    rw [hjs]
    refine .cons ?_ (.cons (fun _ h => by cases h) .nil)
    intro j hj
    simp only [List.mem_cons, List.not_mem_nil, or_false] at hj
    subst hj
    exact fun e => absurd e (by simp)
  have haw : ∀ j ∈ js, j.AwayFrom ["a"] [0, 0] [2, 4] := by
    intro j hj
    simp only [hjs, List.mem_cons, List.not_mem_nil, or_false] at hj
    rcases hj with rfl | rfl
    · exact fun _ => hdis
    · exact fun e => absurd e (by simp)
  obtain ⟨d, A, _, hs, hA, hread⟩ := c90_s3_while_writing (hL _) h2 hoa hTa hready hap
  obtain ⟨ts, hts, hrun⟩ := hread [0, 0] ⟨0, [2, 4], [4, 1]⟩ (List.replicate 8 (0 : Fin (256 ^ 1))) (fun _ => [])
    (by rw [hs]; decide) exOut_fits exOut_noAlias haw
  refine ⟨T, os, σ2, js, d, ts, h2, by rw [hjs]; rfl, hready, hap, haw, hts, fun is rs ws hf hw => ?_⟩
  obtain ⟨⟨⟨out', ho⟩, hall⟩, _⟩ := hrun is rs ws hf hw
  refine ⟨out', ho, ((hall out' ho).2.1 [1, 2] (show InBox [1, 2] [2, 4] by decide)).trans (congrArg some ?_)⟩
  exact (sameOrFill_iff (fun (a b : Fin (256 ^ 1)) h => of_decide_eq_true (p := a = b) h)).1 (hA [1, 2] (show InBox [1, 2] [5, 4] by decide))

end Z5.Props
