import Verif.Proofs.S3CrashRun
import Verif.Props.S3Together
import Verif.Props.S3ForeignContainer

/-!
# C91: writing calls on a container on S3 that are interrupted
-/

namespace Z5.Props
open Spec Prog

variable {Ty : ElemTypes} {C : S3Container} {L : Libs} {T : Tree Ty} {os : List (Path × S3DatasetObj)} {b : Bucket}
  {js : List (S3WriteJob Ty)}

theorem s3_oneStep_all (hL : L.Lawful) (hI : C.Inv L T os b) {l : List (S3WriteJob Ty × List (Key × Prog Unit))}
    (hl : ∀ e ∈ l, S3WriteJob.ReadyAs e L T os) : ∀ f ∈ l.flatMap (S3WriteJob.objJobs C), OneStep f.2 := by
  intro f hf
  obtain ⟨e, he, hf⟩ := List.mem_flatMap.1 hf
  exact S3WriteJob.oneStep hL hI (hl e he) f hf

/-- **C91, objects.**  Calls that write to the arrays of a container on S3 at the same time are interrupted, after any number of requests: every
object of the bucket is as before the calls, or as the completed calls leave it; the documents of the nodes are as before. -/
theorem c91_objects (hL : L.Lawful) (h : S3History C L Ty T os b) (hr : ∀ j ∈ js, j.Ready L T os) (ha : js.Pairwise S3WriteJob.Apart)
    {is : List Nat} {rs : List (Res Unit)} (hf : Finished (interleaveObjects is (js.flatMap (·.onObjects C), b)).1 rs)
    (crash : List Nat) :
    (interleaveObjects crash (js.flatMap (·.onObjects C), b)).2.WF ∧
    (∀ k, (interleaveObjects crash (js.flatMap (·.onObjects C), b)).2.get k = b.get k ∨
      (interleaveObjects crash (js.flatMap (·.onObjects C), b)).2.get k =
        (interleaveObjects is (js.flatMap (·.onObjects C), b)).2.get k) ∧
    ∀ p n, T p ≠ none → n ∈ documentFiles →
      (interleaveObjects crash (js.flatMap (·.onObjects C), b)).2.get (docKey (C.key p) n) = b.get (docKey (C.key p) n) := by
  have hI := S3Container.inv_of_history hL h
  obtain ⟨l, rfl, hl⟩ := s3_exists_readyAs hL hI hr
  rw [flatMap_onObjects hl] at hf ⊢
  have hk := S3WriteJob.all_ok hL hI hl (s3_pairwise_fst ha)
  obtain ⟨_, d1⟩ := doneS3_of_finished hk hf
  obtain ⟨g1, g2, g3⟩ := stopped_objects hk (s3_oneStep_all hL hI hl) hI.wf crash
  refine ⟨g1, fun k => ?_, fun p n hp hn => g3 _ fun f hf => ?_⟩
  · by_cases hq : ∃ j ∈ l.flatMap (S3WriteJob.objJobs C), k = j.1
    · obtain ⟨j, hj, rfl⟩ := hq
      rw [d1.objects j hj]
      exact g2 j hj
    · exact .inl (g3 k fun j hj e => hq ⟨j, hj, e⟩)
  · obtain ⟨e, he, hf⟩ := List.mem_flatMap.1 hf
    refine S3WriteJob.docs_apart hI (hl e he) hf hp ?_
    simp only [documentFiles, List.mem_cons, List.not_mem_nil, or_false] at hn
    unfold MetaName
    rcases hn with h | h | h | h | h <;> simp [h]

/-- **C91, a container.**  Calls that write to the arrays of a container on S3 at the same time (`js`; they would succeed, `is`, and lead to the
tree `T₁`) are interrupted after any number of requests, and the process ends (`crash`).  Then, whatever texts stand for the documents,
the bucket has a container of the format, and its life can go on: it has all groups, arrays and attributes, and every chunk (or shard) of an
array has the old elements or the new ones. -/
theorem c91_crash (hL : L.Lawful) (hC : C.Ok) (h : S3History C L Ty T os b) (hr : ∀ j ∈ js, j.Ready L T os)
    (ha : js.Pairwise S3WriteJob.Apart) {is : List Nat} {rs : List (Res Unit)}
    (hf : Finished (interleaveObjects is (js.flatMap (·.onObjects C), b)).1 rs) (hok : ∀ r ∈ rs, r = .ok ()) :
    ∃ T₁, S3History C L Ty T₁ os (interleaveObjects is (js.flatMap (·.onObjects C), b)).2 ∧
      (∀ p, (∀ j ∈ js, j.path ≠ p) → T₁ p = T p) ∧
      (∀ j ∈ js, ∃ A, T₁ j.path = some (.array { j.item with content := A }) ∧
        (∀ y, InBox y j.item.shape → InRegion y j.write.off j.write.shape → A y = j.write.val (subV y j.write.off)) ∧
        ∀ y, (∀ k ∈ js, k.path = j.path → ¬ InRegion y k.write.off k.write.shape) → A y = j.item.content y) ∧
      ∀ (crash : List Nat) (R : RawBucket), R.Stores (interleaveObjects crash (js.flatMap (·.onObjects C), b)).2 →
        (R.Pairwise fun p q => keyLt p.1 q.1 = true) →
        ∃ T', T.Between T₁ T' ∧ R.HoldsContainer C L T' ∧ S3History C L Ty T' [] R.view := by
  have hI := S3Container.inv_of_history hL h
  obtain ⟨T₁, k1, k2, k3⟩ := c89_together hL h hr ha hf hok
  refine ⟨T₁, k1, k2, k3, fun crash R hR hO => ?_⟩
  obtain ⟨_, g2, g3⟩ := c91_objects hL h hr ha hf crash
  obtain ⟨_, _, g3'⟩ := c91_objects hL h hr ha hf is
  have hdoc : ∀ n, MetaName n → n ∈ documentFiles := by
    intro n hn
    unfold documentFiles
    rcases hn with h | h | h | h | h <;> simp [h]
  have harr : ∀ p x, T p = some (.array x) → ∃ B, T₁ p = some (.array { x with content := B }) := by
    intro p x hx
    by_cases hj : ∃ j ∈ js, j.path = p
    · obtain ⟨j, hj, rfl⟩ := hj
      rw [(hr j hj).item] at hx
      cases hx
      obtain ⟨A, hA, _⟩ := k3 j hj
      exact ⟨A, hA⟩
    · exact ⟨x.content, by rw [k2 p fun j hj' e => hj ⟨j, hj', e⟩]; exact hx⟩
  obtain ⟨T', t1, t2⟩ := hI.between hL hC (S3Container.inv_of_history hL k1) (fun p hp => k2 p fun j hj e => hp j.item (e ▸ (hr j hj).item))
    harr (fun p n hp hn => g3' p n hp (hdoc n hn)) (fun p n hp hn => g3 p n hp (hdoc n hn)) g2 hR hO
  exact ⟨T', t1, t2, .found t2 hC⟩

/-! ### Example -/

theorem exS3Found_stores : exS3Found.Stores exS3Found.view := by
  have key : ∀ k, exS3Found.content k ≠ none → (∃ j, RawBucket.IsDocument k ∧ exS3Found.HasText k j) ∨
      (¬ RawBucket.IsDocument k) := by
    intro k hk
    have hm := exS3Found_keys hk
    simp only [List.mem_cons, List.not_mem_nil, or_false] at hm
    have g : JsonText.Plain (.obj [("zarr_format", .int 2)]) := ⟨by decide, ⟨by decide, by decide⟩, trivial⟩
    have hplain : JsonText.Plain exS3FoundDoc :=
      ⟨by decide, ⟨⟨by decide, by decide⟩, trivial⟩, trivial, trivial, ⟨by decide, by decide⟩, trivial, trivial,
        ⟨⟨by decide, by decide⟩, trivial⟩, ⟨by decide, by decide⟩, trivial⟩
    rcases hm with rfl | rfl | rfl | rfl | rfl | rfl
    · exact .inl ⟨_, by decide, exS3Found_text (j := .obj [("by", .str "zarr-python")]) ⟨by decide, trivial, trivial⟩ rfl⟩
    · exact .inl ⟨_, by decide, exS3Found_text g rfl⟩
    · exact .inl ⟨_, by decide, exS3Found_text g rfl⟩
    · exact .inl ⟨_, by decide, exS3Found_text hplain rfl⟩
    · exact .inl ⟨_, by decide, exS3Found_text (j := .obj [("unit", .str "nm")]) ⟨by decide, trivial, trivial⟩ rfl⟩
    · exact .inr (by decide)
  intro k
  cases hk : exS3Found.content k with
  | none =>
    have hv : exS3Found.view.get k = none := by rw [RawBucket.view_get, hk]; rfl
    rw [hv]
  | some bytes =>
    rcases key k (by rw [hk]; exact fun e => by cases e) with ⟨j, h1, h2⟩ | h
    · rw [h2.view h1]
      exact ⟨h1, h2⟩
    · have hv : exS3Found.view.get k = some (.file bytes) := by rw [RawBucket.view_get, hk, Option.map_some, RawBucket.object_file h]
      rw [hv]

/-- The container of another program of C86: `d[:] = 9` is interrupted.  There are bytes that the bucket may have then, and whatever they
are, they are a container of zarr with the array `g/d`; each of its two chunks has the old elements (5, 6 and 0) or the new ones. -/
example : ∃ (os : List (Path × S3DatasetObj)) (j : S3WriteJob exTypes), j.Ready exLibs exS3FoundTree os ∧
    j.write = ⟨[0], [3], fun _ => (9 : Fin (256 ^ 1))⟩ ∧
    ∀ crash : List Nat, (∃ R : RawBucket, R.Stores (interleaveObjects crash (j.onObjects exS3FoundC, exS3Found.view)).2 ∧
        R.Pairwise fun p q => keyLt p.1 q.1 = true) ∧
      ∀ R : RawBucket, R.Stores (interleaveObjects crash (j.onObjects exS3FoundC, exS3Found.view)).2 →
        (R.Pairwise fun p q => keyLt p.1 q.1 = true) →
        ∃ (T' : Tree exTypes) (A : List Nat → U8.T), R.HoldsContainer exS3FoundC exLibs T' ∧
          T' ["g", "d"] = some (.array { exFoundItem with content := A }) ∧
          ((A [0] = (5 : Fin (256 ^ 1)) ∧ A [1] = (6 : Fin (256 ^ 1))) ∨ (A [0] = (9 : Fin (256 ^ 1)) ∧ A [1] = (9 : Fin (256 ^ 1)))) ∧
          (A [2] = (0 : Fin (256 ^ 1)) ∨ A [2] = (9 : Fin (256 ^ 1))) := by
  have hL := exLibs_lawful
  have hC : exS3FoundC.Ok := .inl rfl
  have h0 : S3History exS3FoundC exLibs exTypes exS3FoundTree [] exS3Found.view := .found exS3Found_holds hC
  have hstores := exS3Found_stores
  have hc : exS3FoundTree.Clear ([] ++ ["g", "d"]) := (S3Container.found_inv exS3Found_holds hC).clear_of_some (fun e => by cases e)
  have hx : exS3FoundTree ([] ++ ["g", "d"]) = some (.array exFoundItem) := rfl
  have hg := c79_getitem (hL _) h0 (g := []) (p := ["g", "d"]) ⟨_, rfl⟩ exS3Found_spells hc .a
  rw [hx] at hg
  obtain ⟨o, _, hm, _, _, _, h1⟩ := hg
  generalize exS3Found.view = b at *
  obtain ⟨os, hos⟩ : ∃ os, os = [([] ++ ["g", "d"], o)] := ⟨_, rfl⟩
  rw [← hos] at h1
  have hmem : (["g", "d"], o) ∈ os := by rw [hos]; exact List.mem_cons_self ..
  obtain ⟨d, hd, hs, hw⟩ := c79_write (hL _) h1 (p := ["g", "d"]) (o := o) (x := exFoundItem) (exLibs_total _ _ _) hmem hx
    (by rw [hm]; decide)
  have hv : RegionOk exFoundItem.shape [0] [3] := by decide
  obtain ⟨ts, hts, _⟩ := hw (.scalar [0] [3] (9 : Fin (256 ^ 1))) (fun _ => (9 : Fin (256 ^ 1)))
    ⟨by rw [hs]; exact hv, trivial⟩ (fun _ _ => rfl) fun _ => []
  have hready : ∀ j ∈ [(⟨["g", "d"], o, exFoundItem, d, ⟨[0], [3], fun _ => (9 : Fin (256 ^ 1))⟩, ts⟩ : S3WriteJob exTypes)],
      j.Ready exLibs exS3FoundTree os := by
    intro j hj
    rw [List.mem_singleton] at hj
    subst hj
    exact ⟨hmem, hx, by rw [hm]; decide, hd, .region (.scalar [0] [3] _) _ _ _ ⟨by rw [hs]; exact hv, trivial⟩ (fun _ _ => rfl) hts⟩
  refine ⟨os, ⟨["g", "d"], o, exFoundItem, d, ⟨[0], [3], fun _ => (9 : Fin (256 ^ 1))⟩, ts⟩, hready _ (List.mem_cons_self ..), rfl, fun crash => ?_⟩
  have hap : [(⟨["g", "d"], o, exFoundItem, d, ⟨[0], [3], fun _ => (9 : Fin (256 ^ 1))⟩, ts⟩ : S3WriteJob exTypes)].Pairwise
    S3WriteJob.Apart := List.pairwise_singleton ..
  obtain ⟨is, rs, hfin⟩ := exists_finishedS3 (exS3FoundC.key ["g", "d"]) ts b
  have hmap := interleaveObjects_eq (exS3FoundC.key ["g", "d"]) is ts b
  have hf : Finished (interleaveObjects is
      ([(⟨["g", "d"], o, exFoundItem, d, ⟨[0], [3], fun _ => (9 : Fin (256 ^ 1))⟩, ts⟩ : S3WriteJob exTypes)].flatMap
        (·.onObjects exS3FoundC), b)).1 rs := by
    rw [List.flatMap_singleton]
    show Finished (interleaveObjects is (ts.map (·.onObjects (exS3FoundC.key ["g", "d"])), b)).1 rs
    rw [hmap]
    exact finished_onObjects.2 hfin
  have hsucc := c89_succeeds (hL _) h1 hready hap (fun j _ => exLibs_total _ _ _) (by
    intro j hj
    rw [List.mem_singleton] at hj
    subst hj
    exact ⟨_, _, ⟨by rw [hs]; exact hv, trivial⟩, hts⟩) hf
  have hok : ∀ r ∈ rs, r = .ok () := fun r hr => (hsucc r hr).resolve_right (by
    rintro ⟨_, j, hj, hne⟩
    rw [List.mem_singleton] at hj
    subst hj
    exact hne rfl)
  obtain ⟨T₁, _, _, k3, k4⟩ := c91_crash (hL _) hC h1 hready hap hf hok
  obtain ⟨w, _, _⟩ := c91_objects (hL _) h1 hready hap hf crash
  have hcr := k4 crash
  rw [List.flatMap_singleton] at hcr w
  refine ⟨RawBucket.Stores.exists_ hstores w fun k j => interleaveObjects_docs _ _ _, fun R hR hO => ?_⟩
  obtain ⟨T', t1, t2, _⟩ := hcr R hR hO
  obtain ⟨B', b1, b2, _⟩ := k3 _ (List.mem_cons_self ..)
  have t1 := t1 ["g", "d"]
  rw [show exS3FoundTree ["g", "d"] = some (.array exFoundItem) from rfl] at t1
  obtain ⟨B, A, a1, a2, a3⟩ := t1
  have eB : B' = B := by
    have := b1.symm.trans a1
    injection this with this; injection this with this
    exact eq_of_heq (ArrayItem.mk.inj this).2.2.2.2.2.1
  subst eB
  have ex : ∀ (a b : Fin (256 ^ 1)), U8.ceq a b = true → a = b := fun a b h => of_decide_eq_true (p := a = b) h
  have hB : ∀ i, i < 3 → B' [i] = (9 : Fin (256 ^ 1)) := fun i hi => b2 [i] ⟨hi, trivial⟩ ⟨⟨Nat.zero_le _, by simpa using hi⟩, trivial⟩
  refine ⟨T', A, t2, a2, ?_, ?_⟩
  · rcases a3 [0] with h | h
    · exact .inl ⟨(sameOrFill_iff ex).1 (h [0] (by decide)), (sameOrFill_iff ex).1 (h [1] (by decide))⟩
    · exact .inr ⟨((sameOrFill_iff ex).1 (h [0] (by decide))).trans (hB 0 (by decide)),
        ((sameOrFill_iff ex).1 (h [1] (by decide))).trans (hB 1 (by decide))⟩
  · rcases a3 [1] with h | h
    · exact .inl ((sameOrFill_iff ex).1 (h [2] (by decide)))
    · exact .inr (((sameOrFill_iff ex).1 (h [2] (by decide))).trans (hB 2 (by decide)))

end Z5.Props
