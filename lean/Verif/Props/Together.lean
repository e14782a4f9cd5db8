import Verif.Proofs.TogetherRun
import Verif.Props.Container

/-!
# C88: writing calls at the same time
-/

namespace Z5.Props
open Spec Prog

variable {Ty : ElemTypes} {C : Container} {L : Libs} {T : Tree Ty} {os : List (Path × DatasetObj)} {σ : Fs} {js : List (WriteJob Ty)}

theorem exists_readyAs (hL : L.Lawful) (hI : C.Inv L T os σ) : ∀ {js : List (WriteJob Ty)}, (∀ j ∈ js, j.Ready L T os) →
    ∃ l : List (WriteJob Ty × List (Key × Prog Unit)), l.map Prod.fst = js ∧ ∀ e ∈ l, WriteJob.ReadyAs e L T os
  | [], _ => ⟨[], rfl, fun _ h => by cases h⟩
  | j :: js, h => by
    obtain ⟨l, h1, h2⟩ := exists_readyAs hL hI fun j hj => h j (List.mem_cons_of_mem _ hj)
    have hj := h j (List.mem_cons_self ..)
    obtain ⟨fk, hf⟩ := (hI.array _ _ hj.item).facts hL
    obtain ⟨ks, k1, k2, k3⟩ := hj.starts.jobs (hf _ hj.object _ hj.typed).wf
    refine ⟨(j, ks) :: l, by rw [List.map_cons, h1], fun e he => ?_⟩
    rcases List.mem_cons.1 he with rfl | he
    · exact ⟨hj.object, ⟨_, hj.item⟩, hj.mode, hj.typed, hj.starts, k1, k2, k3⟩
    · exact h2 e he

theorem flatMap_onFiles : ∀ {l : List (WriteJob Ty × List (Key × Prog Unit))}, (∀ e ∈ l, WriteJob.ReadyAs e L T os) →
    (l.map Prod.fst).flatMap (·.onFiles C) = (l.flatMap (WriteJob.fileJobs C)).map FileJob.task
  | [], _ => rfl
  | e :: l, h => by
    rw [List.map_cons, List.flatMap_cons, List.flatMap_cons, List.map_append, flatMap_onFiles fun e he => h e (List.mem_cons_of_mem _ he),
      WriteJob.onFiles_eq (h e (List.mem_cons_self ..))]

theorem pairwise_fst {l : List (WriteJob Ty × List (Key × Prog Unit))} (h : (l.map Prod.fst).Pairwise WriteJob.Apart) :
    l.Pairwise fun d e => d.1.Apart e.1 := by
  rw [List.pairwise_map] at h
  exact h

/-- **C88, one result.**  Calls that write to the arrays of a container at the same time, without a file in common: neither the
outcome of any task, an exception or not, nor the files and directories afterwards depend on the schedule. -/
theorem c88_deterministic (hL : L.Lawful) (h : History C L Ty T os σ) (hr : ∀ j ∈ js, j.Ready L T os)
    (ha : js.Pairwise WriteJob.Apart) {is is' : List Nat} {rs rs' : List (Res Unit)}
    (hf : FsProg.Finished (FsProg.interleave is (js.flatMap (·.onFiles C), σ)).1 rs)
    (hf' : FsProg.Finished (FsProg.interleave is' (js.flatMap (·.onFiles C), σ)).1 rs') :
    rs = rs' ∧
    (FsProg.interleave is (js.flatMap (·.onFiles C), σ)).2 = (FsProg.interleave is' (js.flatMap (·.onFiles C), σ)).2 := by
  have hI := Container.inv_of_history hL h
  obtain ⟨l, rfl, hl⟩ := exists_readyAs hL hI hr
  rw [flatMap_onFiles hl] at hf hf' ⊢
  have hp := pairwise_fst ha
  obtain ⟨e1, d1⟩ := done_of_finished hI.wf (WriteJob.all_fits hL hI hl) (WriteJob.all_apart hL hI hl hp) hf
  obtain ⟨e2, d2⟩ := done_of_finished hI.wf (WriteJob.all_fits hL hI hl) (WriteJob.all_apart hL hI hl hp) hf'
  exact ⟨e1.trans e2.symm, d1.unique d2⟩

/-- **C88, writing at the same time.**  Calls that write to the arrays of a container at the same time, without a file in common:
if no task fails, then under every schedule the container is one as after a history of calls, and its tree has the new elements of all
calls; all other elements, the attributes, and the other nodes are as before. -/
theorem c88_together (hL : L.Lawful) (h : History C L Ty T os σ) (hr : ∀ j ∈ js, j.Ready L T os)
    (ha : js.Pairwise WriteJob.Apart) {is : List Nat} {rs : List (Res Unit)}
    (hf : FsProg.Finished (FsProg.interleave is (js.flatMap (·.onFiles C), σ)).1 rs) (hok : ∀ r ∈ rs, r = .ok ()) :
    ∃ T', History C L Ty T' os (FsProg.interleave is (js.flatMap (·.onFiles C), σ)).2 ∧
      (∀ p, (∀ j ∈ js, j.path ≠ p) → T' p = T p) ∧
      ∀ j ∈ js, ∃ A, T' j.path = some (.array { j.item with content := A }) ∧
        (∀ y, InBox y j.item.shape → InRegion y j.write.off j.write.shape → A y = j.write.val (subV y j.write.off)) ∧
        ∀ y, (∀ k ∈ js, k.path = j.path → ¬ InRegion y k.write.off k.write.shape) → A y = j.item.content y := by
  have hI := Container.inv_of_history hL h
  obtain ⟨l, rfl, hl⟩ := exists_readyAs hL hI hr
  rw [flatMap_onFiles hl] at hf ⊢
  have hp := pairwise_fst ha
  obtain ⟨e1, d1⟩ := done_of_finished hI.wf (WriteJob.all_fits hL hI hl) (WriteJob.all_apart hL hI hl hp) hf
  obtain ⟨σ', T', k1, k2, k3, k4, k5⟩ := WriteJob.sequential hL h hl hp (fun f hf => hok _ (by
    rw [e1]
    exact List.mem_map.2 ⟨f, hf, rfl⟩))
  rw [d1.unique k1]
  refine ⟨T', k2, fun p hpp => k3 p fun e he => hpp _ (List.mem_map.2 ⟨e, he, rfl⟩), fun j hj => ?_⟩
  obtain ⟨e, he, rfl⟩ := List.mem_map.1 hj
  obtain ⟨A, g1, g2⟩ := k4 _ _ (hr _ hj).item
  exact ⟨A, g1, k5 e he A g1, fun y hy => g2 y fun e' he' => hy _ (List.mem_map.2 ⟨e', he', rfl⟩)⟩

/-- **C88, success.**  Regions that are written at the same time: no task fails, except that the size of a shard is limited. -/
theorem c88_succeeds (hL : L.Lawful) (h : History C L Ty T os σ) (hr : ∀ j ∈ js, j.Ready L T os)
    (ha : js.Pairwise WriteJob.Apart)
    (hT : ∀ j ∈ js, (L.codec (Ty.elem j.item.dtype).size j.obj.settings).TotalFor (prod j.item.chunks * (Ty.elem j.item.dtype).size))
    (hreg : ∀ j ∈ js, ∃ call scratch, call.Valid j.data.base ∧ j.data.start call scratch = .ok j.tasks)
    {is : List Nat} {rs : List (Res Unit)}
    (hf : FsProg.Finished (FsProg.interleave is (js.flatMap (·.onFiles C), σ)).1 rs) :
    ∀ r ∈ rs, r = .ok () ∨ (r = .throw .lengthError ∧ ∃ j ∈ js, j.item.shards ≠ none) := by
  have hI := Container.inv_of_history hL h
  obtain ⟨l, rfl, hl⟩ := exists_readyAs hL hI hr
  rw [flatMap_onFiles hl] at hf
  have hp := pairwise_fst ha
  obtain ⟨e1, _⟩ := done_of_finished hI.wf (WriteJob.all_fits hL hI hl) (WriteJob.all_apart hL hI hl hp) hf
  intro r hr'
  rw [e1] at hr'
  obtain ⟨f, hf, rfl⟩ := List.mem_map.1 hr'
  obtain ⟨e, he, hf⟩ := List.mem_flatMap.1 hf
  have hj : e.1 ∈ l.map Prod.fst := List.mem_map.2 ⟨e, he, rfl⟩
  have R := hr _ hj
  obtain ⟨call, scratch, hv, hts⟩ := hreg _ hj
  obtain ⟨d, h1, _, h2⟩ := c66_write hL h (hT _ hj) R.object R.item R.mode
  rw [R.typed] at h1
  have h1 := Res.ok.inj h1
  subst h1
  obtain ⟨val, hval⟩ : ∃ val : List Nat → (Ty.elem e.1.item.dtype).T, ∀ i, InBox i call.shape → call.value i = some (val i) := by
    have hs : ∀ i, InBox i call.shape → ∃ v, call.value i = some v := by
      intro i hi
      cases call with
      | scalar off shape v => exact ⟨v, rfl⟩
      | copy inBuf inView off =>
        have hfit : FitsIn inView inBuf.length := hv.2
        exact ⟨_, List.getElem?_eq_getElem (hfit.2 i hi)⟩
    exact ⟨fun i => if hi : InBox i call.shape then (hs i hi).choose else e.1.item.fill, fun i hi => by
      simp only [dif_pos hi]; exact (hs i hi).choose_spec⟩
  obtain ⟨ts, h3, h4⟩ := h2 call val hv hval scratch
  rw [hts] at h3
  cases h3
  obtain ⟨is', rs', hfin⟩ := FsProg.exists_finished (e.1.onFiles C, σ)
  obtain ⟨_, h5⟩ := h4 is' rs' hfin
  rw [WriteJob.onFiles_eq (hl e he)] at hfin
  obtain ⟨e2, _⟩ := done_of_finished hI.wf ((hl e he).fits hL hI) ((hl e he).self_apart hL hI) hfin
  rcases h5 _ (by rw [e2]; exact List.mem_map.2 ⟨f, hf, rfl⟩) with h6 | ⟨h6, h7⟩
  · exact .inl h6
  · exact .inr ⟨h6, _, hj, h7⟩

/-- The theorems apply: a container has two arrays, `a` and `g/d`; one call writes the rows 0 and 1 of `a`, one the rows 2 and 3 of
`a`, and one the rows 1 to 3 of `g/d`, all at the same time.  Under every schedule they succeed, and all is written. -/
example : ∃ (T : Tree exTypes) (os : List (Path × DatasetObj)) (σ : Fs) (js : List (WriteJob exTypes)),
    History exC exLibs exTypes T os σ ∧ js.length = 3 ∧ (∀ j ∈ js, j.Ready exLibs T os) ∧ js.Pairwise WriteJob.Apart ∧
    ∀ is rs, FsProg.Finished (FsProg.interleave is (js.flatMap (·.onFiles exC), σ)).1 rs → ∃ (T' : Tree exTypes) (A B : List Nat → U8.T),
      History exC exLibs exTypes T' os (FsProg.interleave is (js.flatMap (·.onFiles exC), σ)).2 ∧
      T' ["a"] = some (.array { exItem with content := A }) ∧ T' ["g", "d"] = some (.array { exItem with content := B }) ∧
      A [1, 2] = (7 : Fin (256 ^ 1)) ∧ A [3, 0] = (8 : Fin (256 ^ 1)) ∧ A [4, 0] = (3 : Fin (256 ^ 1)) ∧
      B [2, 1] = (9 : Fin (256 ^ 1)) ∧ B [0, 0] = (3 : Fin (256 ^ 1)) := by
  have hL := exLibs_lawful
  obtain ⟨σ0, h0⟩ := exC_start
  obtain ⟨o1, σ1, e1, m1, _, _, _, h1⟩ := (c66_create_array (hL _) h0 (g := []) (key := ["g", "d"]) ⟨_, rfl⟩
    (by decide) (by unfold PlainName; decide) (by
      intro q _ _ a e
      by_cases hq : q = []
      · subst hq; cases e
      · simp [hq] at e) exItem_asked .a).2.2 (by decide) rfl
  obtain ⟨o2, σ2, e2, m2, _, _, _, h2⟩ := (c66_create_array (hL _) h1 (g := []) (key := ["a"]) ⟨_, rfl⟩
    (by decide) (by unfold PlainName; decide) (by
      rintro q ⟨t, ht⟩ hne a e
      cases q with
      | nil => cases e
      | cons b q =>
        simp only [List.nil_append, List.cons_append, List.cons.injEq, List.append_eq_nil_iff] at ht
        obtain ⟨rfl, rfl, rfl⟩ := ht
        exact hne rfl) exItem_asked .a).2.2 (by decide) rfl
  obtain ⟨T, os, h2, hTa, hTd, hoa, hod⟩ : ∃ (T : Tree exTypes) (os : List (Path × DatasetObj)), History exC exLibs exTypes T os σ2 ∧
      T ["a"] = some (.array exItem) ∧ T ["g", "d"] = some (.array exItem) ∧ (["a"], o2) ∈ os ∧ (["g", "d"], o1) ∈ os :=
    ⟨_, _, h2, rfl, rfl, by simp, by simp⟩
  obtain ⟨d1, hd1, hs1, hw1⟩ := c66_write (hL _) h2 (p := ["g", "d"]) (o := o1) (x := exItem) (exLibs_total _ _ _) hod hTd
    (by rw [m1]; decide)
  obtain ⟨d2, hd2, hs2, hw2⟩ := c66_write (hL _) h2 (p := ["a"]) (o := o2) (x := exItem) (exLibs_total _ _ _) hoa hTa
    (by rw [m2]; decide)
  have hv1 : RegionOk exItem.shape [0, 0] [2, 4] := by decide
  have hv2 : RegionOk exItem.shape [2, 0] [2, 4] := by decide
  have hv3 : RegionOk exItem.shape [1, 0] [3, 3] := by decide
  obtain ⟨t1, ht1, _⟩ := hw2 (.scalar [0, 0] [2, 4] (7 : Fin (256 ^ 1))) (fun _ => (7 : Fin (256 ^ 1)))
    ⟨by rw [hs2]; exact hv1, trivial⟩ (fun _ _ => rfl) fun _ => []
  obtain ⟨t2, ht2, _⟩ := hw2 (.scalar [2, 0] [2, 4] (8 : Fin (256 ^ 1))) (fun _ => (8 : Fin (256 ^ 1)))
    ⟨by rw [hs2]; exact hv2, trivial⟩ (fun _ _ => rfl) fun _ => []
  obtain ⟨t3, ht3, _⟩ := hw1 (.scalar [1, 0] [3, 3] (9 : Fin (256 ^ 1))) (fun _ => (9 : Fin (256 ^ 1)))
    ⟨by rw [hs1]; exact hv3, trivial⟩ (fun _ _ => rfl) fun _ => []
  obtain ⟨js, hjs⟩ : ∃ js : List (WriteJob exTypes), js = [⟨["a"], o2, exItem, d2, ⟨[0, 0], [2, 4], fun _ => (7 : Fin (256 ^ 1))⟩, t1⟩,
      ⟨["a"], o2, exItem, d2, ⟨[2, 0], [2, 4], fun _ => (8 : Fin (256 ^ 1))⟩, t2⟩,
      ⟨["g", "d"], o1, exItem, d1, ⟨[1, 0], [3, 3], fun _ => (9 : Fin (256 ^ 1))⟩, t3⟩] := ⟨_, rfl⟩
  have hready : ∀ j ∈ js, j.Ready exLibs T os := by
    intro j hj
    simp only [hjs, List.mem_cons, List.not_mem_nil, or_false] at hj
    rcases hj with rfl | rfl | rfl
    · exact ⟨hoa, hTa, by rw [m2]; decide, hd2, .region (.scalar [0, 0] [2, 4] _) _ _ _ ⟨by rw [hs2]; exact hv1, trivial⟩ (fun _ _ => rfl) ht1⟩
    · exact ⟨hoa, hTa, by rw [m2]; decide, hd2, .region (.scalar [2, 0] [2, 4] _) _ _ _ ⟨by rw [hs2]; exact hv2, trivial⟩ (fun _ _ => rfl) ht2⟩
    · exact ⟨hod, hTd, by rw [m1]; decide, hd1, .region (.scalar [1, 0] [3, 3] _) _ _ _ ⟨by rw [hs1]; exact hv3, trivial⟩ (fun _ _ => rfl) ht3⟩
  have hdis : ∀ c x y, InRegion x [0, 0] [2, 4] → InRegion y [2, 0] [2, 4] → InChunk [5, 4] [2, 4] c x → ¬ InChunk [5, 4] [2, 4] c y := by
    intro c x y hx hy hc hc'
    match c, x, y, hx, hy, hc, hc' with
    | a :: _, x :: _, y :: _, hx, hy, hc, hc' =>
      have h1 : 0 ≤ x ∧ x < 0 + 2 := hx.1
      have h2 : 2 ≤ y ∧ y < 2 + 2 := hy.1
      have h3 : a * 2 ≤ x ∧ x < (a + 1) * 2 ∧ x < 5 := hc.1
      have h4 : a * 2 ≤ y ∧ y < (a + 1) * 2 ∧ y < 5 := hc'.1
      omega
  have hap : js.Pairwise WriteJob.Apart := by
    rw [hjs]
    refine .cons ?_ (.cons ?_ (.cons (fun _ h => by cases h) .nil))
    · intro j hj
      simp only [List.mem_cons, List.not_mem_nil, or_false] at hj
      rcases hj with rfl | rfl
      · exact fun _ => hdis
      · exact fun e => absurd e (by simp)
    · intro j hj
      simp only [List.mem_cons, List.not_mem_nil, or_false] at hj
      subst hj
      exact fun e => absurd e (by simp)
  refine ⟨T, os, σ2, js, h2, by rw [hjs]; rfl, hready, hap, fun is rs hf => ?_⟩
  have hsucc := c88_succeeds (hL _) h2 hready hap (fun j _ => exLibs_total _ _ _) (by
    intro j hj
    simp only [hjs, List.mem_cons, List.not_mem_nil, or_false] at hj
    rcases hj with rfl | rfl | rfl
    · exact ⟨_, _, ⟨by rw [hs2]; exact hv1, trivial⟩, ht1⟩
    · exact ⟨_, _, ⟨by rw [hs2]; exact hv2, trivial⟩, ht2⟩
    · exact ⟨_, _, ⟨by rw [hs1]; exact hv3, trivial⟩, ht3⟩) hf
  obtain ⟨T', k1, _, k2⟩ := c88_together (hL _) h2 hready hap hf (fun r hr => (hsucc r hr).resolve_right (by
    rintro ⟨_, j, hj, hne⟩
    simp only [hjs, List.mem_cons, List.not_mem_nil, or_false] at hj
    rcases hj with rfl | rfl | rfl <;> exact hne rfl))
  rw [hjs] at k2
  obtain ⟨A, a1, a2, a3⟩ := k2 _ (List.mem_cons_self ..)
  obtain ⟨A', a1', a2', _⟩ := k2 _ (List.mem_cons_of_mem _ (List.mem_cons_self ..))
  obtain ⟨B, b1, b2, b3⟩ := k2 _ (List.mem_cons_of_mem _ (List.mem_cons_of_mem _ (List.mem_cons_self ..)))
  have eA : A' = A := by
    have := a1'.symm.trans a1
    injection this with this; injection this with this
    exact eq_of_heq (ArrayItem.mk.inj this).2.2.2.2.2.1
  subst eA
  refine ⟨T', A', B, k1, a1, b1, a2 [1, 2] (show InBox [1, 2] [5, 4] by decide) (show InRegion [1, 2] [0, 0] [2, 4] by decide),
    a2' [3, 0] (show InBox [3, 0] [5, 4] by decide) (show InRegion [3, 0] [2, 0] [2, 4] by decide), a3 [4, 0] ?_,
    b2 [2, 1] (show InBox [2, 1] [5, 4] by decide) (show InRegion [2, 1] [1, 0] [3, 3] by decide), b3 [0, 0] ?_⟩
  · intro j hj
    simp only [List.mem_cons, List.not_mem_nil, or_false] at hj
    rcases hj with rfl | rfl | rfl
    · exact fun _ => show ¬ InRegion [4, 0] [0, 0] [2, 4] by decide
    · exact fun _ => show ¬ InRegion [4, 0] [2, 0] [2, 4] by decide
    · exact fun e => absurd e (by simp)
  · intro j hj
    simp only [List.mem_cons, List.not_mem_nil, or_false] at hj
    rcases hj with rfl | rfl | rfl
    · exact fun e => absurd e (by simp)
    · exact fun e => absurd e (by simp)
    · exact fun _ => show ¬ InRegion [0, 0] [1, 0] [3, 3] by decide

end Z5.Props
