import Verif.Proofs.Again
import Verif.Props.S3Crash
import Verif.Props.Interrupted

/-!
# C93: interrupted writing calls that are made again
-/

namespace Z5.Props
open Spec Prog

variable {Ty : ElemTypes} {L : Libs} {T : Tree Ty}

section S3
variable {C : S3Container} {os : List (Path × S3DatasetObj)} {b : Bucket} {js : List (S3WriteJob Ty)}

/-- a call on S3 as one on files -/
def asWriteJob (j : S3WriteJob Ty) : WriteJob Ty := ⟨j.path, j.obj.obj, j.item, j.data, j.write, j.tasks⟩

theorem asWriteJob_again {j' j : S3WriteJob Ty} (h : j'.Again j) : (asWriteJob j').Again (asWriteJob j) := by
  obtain ⟨o, A, d, ts, rfl⟩ := h
  exact ⟨_, A, d, ts, rfl⟩

theorem again_apart {f : S3WriteJob Ty → S3WriteJob Ty} {js : List (S3WriteJob Ty)} (hf : ∀ j ∈ js, (f j).Again j)
    (ha : js.Pairwise S3WriteJob.Apart) : (js.map f).Pairwise S3WriteJob.Apart := by
  rw [List.pairwise_map]
  refine ha.imp_of_mem fun {i j} hi hj h => ?_
  obtain ⟨o, A, d, ts, ei⟩ := hf i hi
  obtain ⟨o', A', d', ts', ej⟩ := hf j hj
  rw [ei, ej]
  exact h

/-- **C93, on S3.**  Calls that write to the arrays of a container on S3 (`js`; they would succeed and lead to the tree `T₁`) are interrupted.
After that, and after any number of further attempts which are interrupted as well, the bucket has a container whose tree is between the old
one and `T₁`.  If a process opens the arrays of it and makes the same calls again, and they succeed, the container has the nodes, the
attributes and the elements of `T₁`. -/
theorem c93_s3 (hL : L.Lawful) (hC : C.Ok) (h : S3History C L Ty T os b) (hr : ∀ j ∈ js, j.Ready L T os)
    (ha : js.Pairwise S3WriteJob.Apart) {is : List Nat} {rs : List (Res Unit)}
    (hf : Finished (interleaveObjects is (js.flatMap (·.onObjects C), b)).1 rs) (hok : ∀ r ∈ rs, r = .ok ()) :
    ∃ T₁, S3History C L Ty T₁ os (interleaveObjects is (js.flatMap (·.onObjects C), b)).2 ∧
      (∀ p, (∀ j ∈ js, j.path ≠ p) → T₁ p = T p) ∧
      (∀ j ∈ js, ∃ A, T₁ j.path = some (.array { j.item with content := A }) ∧
        (∀ y, InBox y j.item.shape → InRegion y j.write.off j.write.shape → A y = j.write.val (subV y j.write.off)) ∧
        ∀ y, (∀ k ∈ js, k.path = j.path → ¬ InRegion y k.write.off k.write.shape) → A y = j.item.content y) ∧
      -- the first attempt is interrupted
      (∀ (crash : List Nat) (R : RawBucket), R.Stores (interleaveObjects crash (js.flatMap (·.onObjects C), b)).2 →
        (R.Pairwise fun p q => keyLt p.1 q.1 = true) →
        ∃ T', T.Between T₁ T' ∧ R.HoldsContainer C L T' ∧ S3History C L Ty T' [] R.view) ∧
      -- the next one
      ∀ (T' : Tree Ty) (os' : List (Path × S3DatasetObj)) (b' : Bucket), T.Between T₁ T' → S3History C L Ty T' os' b' →
        ∀ f : S3WriteJob Ty → S3WriteJob Ty, (∀ j ∈ js, (f j).Again j ∧ (f j).Ready L T' os') →
        ∀ (is' : List Nat) (rs' : List (Res Unit)),
          Finished (interleaveObjects is' ((js.map f).flatMap (·.onObjects C), b')).1 rs' → (∀ r ∈ rs', r = .ok ()) →
          (∃ T'', T₁.Same T'' ∧ S3History C L Ty T'' os' (interleaveObjects is' ((js.map f).flatMap (·.onObjects C), b')).2) ∧
          -- is interrupted too
          ∀ (crash : List Nat) (R : RawBucket), R.Stores (interleaveObjects crash ((js.map f).flatMap (·.onObjects C), b')).2 →
            (R.Pairwise fun p q => keyLt p.1 q.1 = true) →
            ∃ T'', T.Between T₁ T'' ∧ R.HoldsContainer C L T'' ∧ S3History C L Ty T'' [] R.view := by
  have hI := S3Container.inv_of_history hL h
  obtain ⟨T₁, k1, k2, k3, k4⟩ := c91_crash hL hC h hr ha hf hok
  refine ⟨T₁, k1, k2, k3, k4, fun T' os' b' hbt h' f hfj is' rs' hf' hok' => ?_⟩
  obtain ⟨T₁', m1, m2, m3, m4⟩ := c91_crash hL hC h' (js := js.map f) (fun j hj => by
    obtain ⟨k, hk, rfl⟩ := List.mem_map.1 hj
    exact (hfj k hk).2) (again_apart (fun j hj => (hfj j hj).1) ha) hf' hok'
  have hsame : T₁.Same T₁' := by
    refine Tree.Salvaged.again (js := js) (u := asWriteJob) (f := asWriteJob ∘ f) (fun p x hx y hy => ?_)
      (fun j hj => (hr j hj).item) (fun j hj => asWriteJob_again (hfj j hj).1) (fun j hj => (hfj j hj).2.item) k2 k3
      (fun p hp => m2 p fun j hj => ?_) (fun j hj => ?_) hbt.salvaged (fun _ _ _ _ hm => hm.elim)
    · obtain ⟨a, A, _, g⟩ := (hI.array p x hx).holds hL (S3WriteJob.array_name hI hx)
      exact g.is.exists_part hy
    · obtain ⟨k, hk, rfl⟩ := List.mem_map.1 hj
      exact hp k hk
    · obtain ⟨A, e1, e2, e3⟩ := m3 _ (List.mem_map.2 ⟨j, hj, rfl⟩)
      refine ⟨A, e1, e2, fun y hy => e3 y fun k hk => ?_⟩
      obtain ⟨i, hi, rfl⟩ := List.mem_map.1 hk
      exact hy i hi
  refine ⟨⟨T₁', hsame, m1⟩, fun crash R hR hO => ?_⟩
  obtain ⟨T'', t1, t2, t3⟩ := m4 crash R hR hO
  exact ⟨T'', hbt.step hsame t1, t2, t3⟩

end S3

section Files
variable {C : Container} {os : List (Path × DatasetObj)} {σ : Fs} {js : List (WriteJob Ty)}

theorem again_apart_files {f : WriteJob Ty → WriteJob Ty} {js : List (WriteJob Ty)} (hf : ∀ j ∈ js, (f j).Again j)
    (ha : js.Pairwise WriteJob.Apart) : (js.map f).Pairwise WriteJob.Apart := by
  rw [List.pairwise_map]
  refine ha.imp_of_mem fun {i j} hi hj h => ?_
  obtain ⟨o, A, d, ts, ei⟩ := hf i hi
  obtain ⟨o', A', d', ts', ej⟩ := hf j hj
  rw [ei, ej]
  exact h

theorem writesTo_again {f : WriteJob Ty → WriteJob Ty} {js : List (WriteJob Ty)} (hf : ∀ j ∈ js, (f j).Again j) {p : Path} {c : List Nat}
    (h : WritesTo (js.map f) p c) : WritesTo js p c := by
  obtain ⟨k, hk, h⟩ := h
  obtain ⟨j, hj, rfl⟩ := List.mem_map.1 hk
  obtain ⟨o, A, d, ts, e⟩ := hf j hj
  rw [e] at h
  exact ⟨j, hj, h⟩

/-- **C93, how to clean up.**  After an interruption at any step it is enough to remove all files of chunks (or shards) to which the calls
write: then each path is as before the calls, or as after them, or such a file, which is not there. -/
theorem c93_clear (hL : L.Lawful) (h : History C L Ty T os σ) (hr : ∀ j ∈ js, j.Ready L T os) (ha : js.Pairwise WriteJob.Apart)
    {is : List Nat} {rs : List (Res Unit)} (hf : FsProg.Finished (FsProg.interleave is (js.flatMap (·.onFiles C), σ)).1 rs)
    (crash : List Nat) (σ'' : Fs)
    (hrm : ∀ q, (∃ p c, WritesTo js p c ∧ C.ChunkFile T σ p c q) → σ'' q = none)
    (hkeep : ∀ q, (¬ ∃ p c, WritesTo js p c ∧ C.ChunkFile T σ p c q) →
      σ'' q = (FsProg.interleave crash (js.flatMap (·.onFiles C), σ)).2 q) :
    C.Cleared T js σ (FsProg.interleave is (js.flatMap (·.onFiles C), σ)).2
      (FsProg.interleave crash (js.flatMap (·.onFiles C), σ)).2 σ'' := by
  obtain ⟨_, g, _⟩ := c92_files hL h hr ha hf crash
  refine ⟨fun q => ?_, fun q => ?_⟩
  · by_cases hq : ∃ p c, WritesTo js p c ∧ C.ChunkFile T σ p c q
    · exact .inr ⟨hrm q hq, hq⟩
    · exact .inl (hkeep q hq)
  · by_cases hq : ∃ p c, WritesTo js p c ∧ C.ChunkFile T σ p c q
    · exact .inr (.inr (hrm q hq))
    · rw [hkeep q hq]
      rcases g q with e | e | ⟨_, j, hj, c, y, h1, h2, h3⟩
      · exact .inl e
      · exact .inr (.inl e)
      · exact absurd ⟨_, c, ⟨j, hj, rfl, y, h1, h2⟩, h3⟩ hq

/-- what is missing after the clean-up -/
theorem c93_salvaged (hL : L.Lawful) (hC : C.Ok) (h : History C L Ty T os σ) (hr : ∀ j ∈ js, j.Ready L T os)
    (ha : js.Pairwise WriteJob.Apart) {is : List Nat} {rs : List (Res Unit)}
    (hf : FsProg.Finished (FsProg.interleave is (js.flatMap (·.onFiles C), σ)).1 rs) (hok : ∀ r ∈ rs, r = .ok ()) :
    ∃ T₁, History C L Ty T₁ os (FsProg.interleave is (js.flatMap (·.onFiles C), σ)).2 ∧
      (∀ p, (∀ j ∈ js, j.path ≠ p) → T₁ p = T p) ∧
      (∀ j ∈ js, ∃ A, T₁ j.path = some (.array { j.item with content := A }) ∧
        (∀ y, InBox y j.item.shape → InRegion y j.write.off j.write.shape → A y = j.write.val (subV y j.write.off)) ∧
        ∀ y, (∀ k ∈ js, k.path = j.path → ¬ InRegion y k.write.off k.write.shape) → A y = j.item.content y) ∧
      ∀ (crash : List Nat) (σ'' : Fs), C.Cleared T js σ (FsProg.interleave is (js.flatMap (·.onFiles C), σ)).2
          (FsProg.interleave crash (js.flatMap (·.onFiles C), σ)).2 σ'' →
        ∀ R : RawFs, R.Stores σ'' → ∃ T', T.Salvaged (WritesTo js) T₁ T' ∧ R.HoldsContainer C L T' ∧ History C L Ty T' [] R.view := by
  have hI := Container.inv_of_history hL h
  obtain ⟨T₁, k1, k2, k3, k4⟩ := c92_crash hL hC h hr ha hf hok
  refine ⟨T₁, k1, k2, k3, fun crash σ'' hcl R hR => ?_⟩
  obtain ⟨_, g, _⟩ := c92_files hL h hr ha hf crash
  obtain ⟨T', t1, t2, t3⟩ := k4 crash σ'' ⟨fun q => (hcl.kept q).imp id fun ⟨e, p, c, _, hc⟩ => ⟨e, p, c, hc⟩, hcl.whole⟩ R hR
  refine ⟨T', t1.mono fun p c ⟨q, hq, e, e0, e1⟩ => ?_, t2, t3⟩
  rcases hcl.kept q with e' | ⟨_, p', c', hw, hc'⟩
  · rcases g q with g | g | ⟨_, j, hj, c', y, h1, h2, h3⟩
    · rw [e'] at e
      exact absurd (g.symm.trans e) e0
    · rw [e'] at e
      exact absurd (g.symm.trans e) e1
    · exact hq.unique hL hI hr h3 ⟨j, hj, rfl, y, h1, h2⟩
  · exact hq.unique hL hI hr hc' hw

/-- **C93, on files.**  Calls that write whole chunks (or shards) of the arrays of a container on files (`js`; they would succeed and lead to
the tree `T₁`) are interrupted, and the files of the chunks to which they write are removed, at least those that are neither old nor complete.
After that, and after any number of further attempts which are interrupted and cleaned up as well, the files are a container, in which only
chunks to which the calls write may be missing.  If a process opens the arrays of it and makes the same calls again, and they succeed, the
container has the nodes, the attributes and the elements of `T₁`. -/
theorem c93_files (hL : L.Lawful) (hC : C.Ok) (h : History C L Ty T os σ) (hr : ∀ j ∈ js, j.Ready L T os)
    (ha : js.Pairwise WriteJob.Apart) (hw : ∀ j ∈ js, j.Whole) {is : List Nat} {rs : List (Res Unit)}
    (hf : FsProg.Finished (FsProg.interleave is (js.flatMap (·.onFiles C), σ)).1 rs) (hok : ∀ r ∈ rs, r = .ok ()) :
    ∃ T₁, History C L Ty T₁ os (FsProg.interleave is (js.flatMap (·.onFiles C), σ)).2 ∧
      (∀ p, (∀ j ∈ js, j.path ≠ p) → T₁ p = T p) ∧
      (∀ j ∈ js, ∃ A, T₁ j.path = some (.array { j.item with content := A }) ∧
        (∀ y, InBox y j.item.shape → InRegion y j.write.off j.write.shape → A y = j.write.val (subV y j.write.off)) ∧
        ∀ y, (∀ k ∈ js, k.path = j.path → ¬ InRegion y k.write.off k.write.shape) → A y = j.item.content y) ∧
      -- the first attempt is interrupted
      (∀ (crash : List Nat) (σ'' : Fs), C.Cleared T js σ (FsProg.interleave is (js.flatMap (·.onFiles C), σ)).2
          (FsProg.interleave crash (js.flatMap (·.onFiles C), σ)).2 σ'' →
        ∀ R : RawFs, R.Stores σ'' → ∃ T', T.Salvaged (WritesTo js) T₁ T' ∧ R.HoldsContainer C L T' ∧ History C L Ty T' [] R.view) ∧
      -- the next one
      ∀ (T' : Tree Ty) (os' : List (Path × DatasetObj)) (σ' : Fs), T.Salvaged (WritesTo js) T₁ T' → History C L Ty T' os' σ' →
        ∀ f : WriteJob Ty → WriteJob Ty, (∀ j ∈ js, (f j).Again j ∧ (f j).Ready L T' os') →
        ∀ (is' : List Nat) (rs' : List (Res Unit)),
          FsProg.Finished (FsProg.interleave is' ((js.map f).flatMap (·.onFiles C), σ')).1 rs' → (∀ r ∈ rs', r = .ok ()) →
          (∃ T'', T₁.Same T'' ∧ History C L Ty T'' os' (FsProg.interleave is' ((js.map f).flatMap (·.onFiles C), σ')).2) ∧
          -- is interrupted too
          ∀ (crash : List Nat) (σ'' : Fs), C.Cleared T' (js.map f) σ' (FsProg.interleave is' ((js.map f).flatMap (·.onFiles C), σ')).2
              (FsProg.interleave crash ((js.map f).flatMap (·.onFiles C), σ')).2 σ'' →
            ∀ R : RawFs, R.Stores σ'' → ∃ T'', T.Salvaged (WritesTo js) T₁ T'' ∧ R.HoldsContainer C L T'' ∧ History C L Ty T'' [] R.view := by
  have hI := Container.inv_of_history hL h
  obtain ⟨T₁, k1, k2, k3, k4⟩ := c93_salvaged hL hC h hr ha hf hok
  refine ⟨T₁, k1, k2, k3, k4, fun T' os' σ' hbt h' f hfj is' rs' hf' hok' => ?_⟩
  obtain ⟨T₁', m1, m2, m3, m4⟩ := c93_salvaged hL hC h' (js := js.map f) (fun j hj => by
    obtain ⟨k, hk, rfl⟩ := List.mem_map.1 hj
    exact (hfj k hk).2) (again_apart_files (fun j hj => (hfj j hj).1) ha) hf' hok'
  have hsame : T₁.Same T₁' := by
    refine Tree.Salvaged.again (js := js) (u := id) (f := f) (fun p x hx y hy => ?_)
      (fun j hj => (hr j hj).item) (fun j hj => (hfj j hj).1) (fun j hj => (hfj j hj).2.item) k2 k3
      (fun p hp => m2 p fun j hj => ?_) (fun j hj => ?_) hbt (fun p x c y hm hx hy => ?_)
    · obtain ⟨a, A, _, g, _⟩ := (hI.array p x hx).holds hL
      exact g.is.exists_part hy
    · obtain ⟨k, hk, rfl⟩ := List.mem_map.1 hj
      exact hp k hk
    · obtain ⟨A, e1, e2, e3⟩ := m3 _ (List.mem_map.2 ⟨j, hj, rfl⟩)
      refine ⟨A, e1, e2, fun y hy => e3 y fun k hk => ?_⟩
      obtain ⟨i, hi, rfl⟩ := List.mem_map.1 hk
      exact hy i hi
    · obtain ⟨j, hj, rfl, z, z1, z2⟩ := hm
      rw [(hr j hj).item] at hx
      cases hx
      exact ⟨j, hj, rfl, hw j hj c z y z1 z2 hy⟩
  refine ⟨⟨T₁', hsame, m1⟩, fun crash σ'' hcl R hR => ?_⟩
  obtain ⟨T'', t1, t2, t3⟩ := m4 crash σ'' hcl R hR
  exact ⟨T'', hbt.step hsame (t1.mono fun p c => writesTo_again fun j hj => (hfj j hj).1), t2, t3⟩

end Files

/-! ### Example -/

/-- `d[:] = 9` for the array `g/d`, from opening it on -/
theorem exFound_job {T : Tree exTypes} {σ : Fs} (h : History exFoundC exLibs exTypes T [] σ) {A : List Nat → U8.T}
    (hx : T ["g", "d"] = some (.array { exFoundItem with content := A })) :
    ∃ (o : DatasetObj) (d : AnyDataset U8) (ts : List (Prog Unit)) (j : WriteJob exTypes),
      j = ⟨["g", "d"], o, { exFoundItem with content := A }, d, ⟨[0], [3], fun _ => (9 : Fin (256 ^ 1))⟩, ts⟩ ∧
      History exFoundC exLibs exTypes T [(["g", "d"], o)] σ ∧ j.Ready exLibs T [(["g", "d"], o)] ∧
      ∃ is rs, FsProg.Finished (FsProg.interleave is ([j].flatMap (·.onFiles exFoundC), σ)).1 rs ∧ ∀ r ∈ rs, r = .ok () := by
  have hL := exLibs_lawful
  have hI := Container.inv_of_history (hL _) h
  have hroot : T.IsGroup [] := by
    obtain ⟨A, hA, _⟩ := hI.top
    exact ⟨A, hA⟩
  have hc : T.Clear ([] ++ ["g", "d"]) := hI.clear_of_some (by rw [show [] ++ ["g", "d"] = ["g", "d"] from rfl, hx]; exact fun e => by cases e)
  have hg := c66_getitem (hL _) h hroot ⟨false, ["g", "d"]⟩ hc .a
  rw [show T ([] ++ (⟨false, ["g", "d"]⟩ : PyName).parts) = some (.array { exFoundItem with content := A }) from hx] at hg
  obtain ⟨o, _, hm, _, _, _, h1⟩ := hg
  replace h1 : History exFoundC exLibs exTypes T [(["g", "d"], o)] σ := h1
  have hmem : (["g", "d"], o) ∈ [((["g", "d"] : Path), o)] := List.mem_cons_self ..
  obtain ⟨d, hd, hs, hw⟩ := c66_write (hL _) h1 (p := ["g", "d"]) (o := o) (x := { exFoundItem with content := A }) (exLibs_total _ _ _) hmem hx
    (by rw [hm]; decide)
  have hv : RegionOk exFoundItem.shape [0] [3] := by decide
  obtain ⟨ts, hts, _⟩ := hw (.scalar [0] [3] (9 : Fin (256 ^ 1))) (fun _ => (9 : Fin (256 ^ 1)))
    ⟨by rw [hs]; exact hv, trivial⟩ (fun _ _ => rfl) fun _ => []
  obtain ⟨j, hj⟩ : ∃ j : WriteJob exTypes,
    j = ⟨["g", "d"], o, { exFoundItem with content := A }, d, ⟨[0], [3], fun _ => (9 : Fin (256 ^ 1))⟩, ts⟩ := ⟨_, rfl⟩
  have hready : j.Ready exLibs T [(["g", "d"], o)] := by
    subst hj
    exact ⟨hmem, hx, by rw [hm]; decide, hd, .region (.scalar [0] [3] _) _ _ _ ⟨by rw [hs]; exact hv, trivial⟩ (fun _ _ => rfl) hts⟩
  obtain ⟨is, rs, hf⟩ := FsProg.exists_finished ([j].flatMap (·.onFiles exFoundC), σ)
  have hsucc := c88_succeeds (hL _) h1 (js := [j]) (fun i hi => by rw [List.mem_singleton] at hi; subst hi; exact hready)
    (List.pairwise_singleton ..) (fun j _ => exLibs_total _ _ _) (by
    intro i hi
    rw [List.mem_singleton] at hi
    subst hi
    subst hj
    exact ⟨_, _, ⟨by rw [hs]; exact hv, trivial⟩, hts⟩) hf
  refine ⟨o, d, ts, j, hj, h1, hready, is, rs, hf, fun r hr => (hsucc r hr).resolve_right ?_⟩
  rintro ⟨_, i, hi, hne⟩
  rw [List.mem_singleton] at hi
  subst hi
  subst hj
  exact hne rfl

/-- The container of another program of C85: `d[:] = 9` is interrupted at any step, and the files of its chunks are removed.  Then one can
open it and make the call again, and it has the elements 9. -/
example : ∃ (os : List (Path × DatasetObj)) (j : WriteJob exTypes), j.Ready exLibs exFoundTree os ∧ j.Whole ∧
    ∀ (crash : List Nat) (σ'' : Fs),
      (∀ q, (∃ p c, WritesTo [j] p c ∧ exFoundC.ChunkFile exFoundTree exFound.view p c q) → σ'' q = none) →
      (∀ q, (¬ ∃ p c, WritesTo [j] p c ∧ exFoundC.ChunkFile exFoundTree exFound.view p c q) →
        σ'' q = (FsProg.interleave crash ([j].flatMap (·.onFiles exFoundC), exFound.view)).2 q) →
      ∀ R : RawFs, R.Stores σ'' →
        ∃ (T' : Tree exTypes) (os' : List (Path × DatasetObj)) (j' : WriteJob exTypes), History exFoundC exLibs exTypes T' os' R.view ∧
          j'.Again j ∧ j'.Ready exLibs T' os' ∧
          ∃ is rs T'', FsProg.Finished (FsProg.interleave is ([j'].flatMap (·.onFiles exFoundC), R.view)).1 rs ∧
            History exFoundC exLibs exTypes T'' os' (FsProg.interleave is ([j'].flatMap (·.onFiles exFoundC), R.view)).2 ∧
            ∃ A : List Nat → U8.T, T'' ["g", "d"] = some (.array { exFoundItem with content := A }) ∧
              ∀ i, i < 3 → A [i] = (9 : Fin (256 ^ 1)) := by
  have hL := exLibs_lawful
  have hC : exFoundC.Ok := fun e => by cases e
  have h0 : History exFoundC exLibs exTypes exFoundTree [] exFound.view := .found exFound_holds hC
  obtain ⟨o, d, ts, j, hj, h1, hready, is, rs, hf, hok⟩ := exFound_job h0 (A := exFoundItem.content) rfl
  have hready' : ∀ i ∈ [j], i.Ready exLibs exFoundTree [(["g", "d"], o)] := fun i hi => by
    rw [List.mem_singleton] at hi; subst hi; exact hready
  have hwhole : j.Whole := by
    subst hj
    intro c x y _ _ hy
    have hb : InBox y [3] := inBox_of_inChunk hy
    match y, hb with
    | [i], hb => exact ⟨⟨Nat.zero_le _, by simpa using hb.1⟩, trivial⟩
  refine ⟨_, j, hready, hwhole, fun crash σ'' c1 c2 R hR => ?_⟩
  have hap : [j].Pairwise WriteJob.Apart := List.pairwise_singleton ..
  have hcl := c93_clear (hL _) h1 hready' hap hf crash σ'' c1 c2
  obtain ⟨T₁, _, _, k3, k4, k5⟩ := c93_files (hL _) hC h1 hready' hap
    (fun i hi => by rw [List.mem_singleton] at hi; subst hi; exact hwhole) hf hok
  obtain ⟨T', t1, _, t3⟩ := k4 crash σ'' hcl R hR
  have t := t1 ["g", "d"]
  rw [show exFoundTree ["g", "d"] = some (.array exFoundItem) from rfl] at t
  obtain ⟨_, A, _, a2, _⟩ := t
  obtain ⟨o', d', ts', j', hj', h1', hready1, is', rs', hf', hok'⟩ := exFound_job t3 a2
  have hag : j'.Again j := by
    subst hj
    exact ⟨o', A, d', ts', hj'⟩
  obtain ⟨⟨T'', s1, s2⟩, _⟩ := k5 T' _ R.view t1 h1' (fun _ => j')
    (fun i hi => by rw [List.mem_singleton] at hi; subst hi; exact ⟨hag, hready1⟩) is' rs' hf' hok'
  refine ⟨T', _, j', h1', hag, hready1, is', rs', T'', hf', s2, ?_⟩
  obtain ⟨B, b1, b2, _⟩ := k3 j (List.mem_cons_self ..)
  subst hj
  have s := s1 ["g", "d"]
  rw [show T₁ ["g", "d"] = _ from b1] at s
  obtain ⟨A'', e1, e2⟩ := s
  have ex : ∀ (a b : Fin (256 ^ 1)), U8.ceq a b = true → a = b := fun a b h => of_decide_eq_true (p := a = b) h
  refine ⟨A'', e1, fun i hi => ?_⟩
  exact ((sameOrFill_iff ex).1 (e2 [i] ⟨hi, trivial⟩)).trans (b2 [i] ⟨hi, trivial⟩ ⟨⟨Nat.zero_le _, by simpa using hi⟩, trivial⟩)

/-- the same on S3 -/
theorem exS3Found_job {T : Tree exTypes} {b : Bucket} (h : S3History exS3FoundC exLibs exTypes T [] b) {A : List Nat → U8.T}
    (hx : T ["g", "d"] = some (.array { exFoundItem with content := A })) :
    ∃ (o : S3DatasetObj) (d : AnyDataset U8) (ts : List (Prog Unit)) (j : S3WriteJob exTypes),
      j = ⟨["g", "d"], o, { exFoundItem with content := A }, d, ⟨[0], [3], fun _ => (9 : Fin (256 ^ 1))⟩, ts⟩ ∧
      S3History exS3FoundC exLibs exTypes T [(["g", "d"], o)] b ∧ j.Ready exLibs T [(["g", "d"], o)] ∧
      ∃ is rs, Finished (interleaveObjects is ([j].flatMap (·.onObjects exS3FoundC), b)).1 rs ∧ ∀ r ∈ rs, r = .ok () := by
  have hL := exLibs_lawful
  have hI := S3Container.inv_of_history (hL _) h
  have hroot : T.IsGroup [] := by
    obtain ⟨A, hA⟩ := hI.top
    exact ⟨A, hA⟩
  have hc : T.Clear ([] ++ ["g", "d"]) := hI.clear_of_some (by rw [show [] ++ ["g", "d"] = ["g", "d"] from rfl, hx]; exact fun e => by cases e)
  have hg := c79_getitem (hL _) h (g := []) (p := ["g", "d"]) hroot exS3Found_spells hc .a
  rw [show T ([] ++ ["g", "d"]) = some (.array { exFoundItem with content := A }) from hx] at hg
  obtain ⟨o, _, hm, _, _, _, h1⟩ := hg
  replace h1 : S3History exS3FoundC exLibs exTypes T [(["g", "d"], o)] b := h1
  have hmem : (["g", "d"], o) ∈ [((["g", "d"] : Path), o)] := List.mem_cons_self ..
  obtain ⟨d, hd, hs, hw⟩ := c79_write (hL _) h1 (p := ["g", "d"]) (o := o) (x := { exFoundItem with content := A }) (exLibs_total _ _ _) hmem hx
    (by rw [hm]; decide)
  have hv : RegionOk exFoundItem.shape [0] [3] := by decide
  obtain ⟨ts, hts, _⟩ := hw (.scalar [0] [3] (9 : Fin (256 ^ 1))) (fun _ => (9 : Fin (256 ^ 1)))
    ⟨by rw [hs]; exact hv, trivial⟩ (fun _ _ => rfl) fun _ => []
  obtain ⟨j, hj⟩ : ∃ j : S3WriteJob exTypes,
    j = ⟨["g", "d"], o, { exFoundItem with content := A }, d, ⟨[0], [3], fun _ => (9 : Fin (256 ^ 1))⟩, ts⟩ := ⟨_, rfl⟩
  have hready : j.Ready exLibs T [(["g", "d"], o)] := by
    subst hj
    exact ⟨hmem, hx, by rw [hm]; decide, hd, .region (.scalar [0] [3] _) _ _ _ ⟨by rw [hs]; exact hv, trivial⟩ (fun _ _ => rfl) hts⟩
  obtain ⟨is, rs, hfin⟩ := exists_finishedS3 (exS3FoundC.key ["g", "d"]) ts b
  have hmap := interleaveObjects_eq (exS3FoundC.key ["g", "d"]) is ts b
  have hf : Finished (interleaveObjects is ([j].flatMap (·.onObjects exS3FoundC), b)).1 rs := by
    rw [List.flatMap_singleton, hj]
    show Finished (interleaveObjects is (ts.map (·.onObjects (exS3FoundC.key ["g", "d"])), b)).1 rs
    rw [hmap]
    exact finished_onObjects.2 hfin
  have hsucc := c89_succeeds (hL _) h1 (js := [j]) (fun i hi => by rw [List.mem_singleton] at hi; subst hi; exact hready)
    (List.pairwise_singleton ..) (fun j _ => exLibs_total _ _ _) (by
    intro i hi
    rw [List.mem_singleton] at hi
    subst hi
    subst hj
    exact ⟨_, _, ⟨by rw [hs]; exact hv, trivial⟩, hts⟩) hf
  refine ⟨o, d, ts, j, hj, h1, hready, is, rs, hf, fun r hr => (hsucc r hr).resolve_right ?_⟩
  rintro ⟨_, i, hi, hne⟩
  rw [List.mem_singleton] at hi
  subst hi
  subst hj
  exact hne rfl

/-- The container of another program of C86: `d[:] = 9` is interrupted after any number of requests.  Then one can open it and make the call
again, and it has the elements 9. -/
example : ∃ (os : List (Path × S3DatasetObj)) (j : S3WriteJob exTypes), j.Ready exLibs exS3FoundTree os ∧
    ∀ (crash : List Nat) (R : RawBucket), R.Stores (interleaveObjects crash ([j].flatMap (·.onObjects exS3FoundC), exS3Found.view)).2 →
      (R.Pairwise fun p q => keyLt p.1 q.1 = true) →
        ∃ (T' : Tree exTypes) (os' : List (Path × S3DatasetObj)) (j' : S3WriteJob exTypes), S3History exS3FoundC exLibs exTypes T' os' R.view ∧
          j'.Again j ∧ j'.Ready exLibs T' os' ∧
          ∃ is rs T'', Finished (interleaveObjects is ([j'].flatMap (·.onObjects exS3FoundC), R.view)).1 rs ∧
            S3History exS3FoundC exLibs exTypes T'' os' (interleaveObjects is ([j'].flatMap (·.onObjects exS3FoundC), R.view)).2 ∧
            ∃ A : List Nat → U8.T, T'' ["g", "d"] = some (.array { exFoundItem with content := A }) ∧
              ∀ i, i < 3 → A [i] = (9 : Fin (256 ^ 1)) := by
  have hL := exLibs_lawful
  have hC : exS3FoundC.Ok := .inl rfl
  have h0 : S3History exS3FoundC exLibs exTypes exS3FoundTree [] exS3Found.view := .found exS3Found_holds hC
  obtain ⟨o, d, ts, j, hj, h1, hready, is, rs, hf, hok⟩ := exS3Found_job h0 (A := exFoundItem.content) rfl
  have hready' : ∀ i ∈ [j], i.Ready exLibs exS3FoundTree [(["g", "d"], o)] := fun i hi => by
    rw [List.mem_singleton] at hi; subst hi; exact hready
  refine ⟨_, j, hready, fun crash R hR hO => ?_⟩
  have hap : [j].Pairwise S3WriteJob.Apart := List.pairwise_singleton ..
  obtain ⟨T₁, _, _, k3, k4, k5⟩ := c93_s3 (hL _) hC h1 hready' hap hf hok
  obtain ⟨T', t1, _, t3⟩ := k4 crash R hR hO
  have t := t1 ["g", "d"]
  rw [show exS3FoundTree ["g", "d"] = some (.array exFoundItem) from rfl] at t
  obtain ⟨_, A, _, a2, _⟩ := t
  obtain ⟨o', d', ts', j', hj', h1', hready1, is', rs', hf', hok'⟩ := exS3Found_job t3 a2
  have hag : j'.Again j := by
    subst hj
    exact ⟨o', A, d', ts', hj'⟩
  obtain ⟨⟨T'', s1, s2⟩, _⟩ := k5 T' _ R.view t1 h1' (fun _ => j')
    (fun i hi => by rw [List.mem_singleton] at hi; subst hi; exact ⟨hag, hready1⟩) is' rs' hf' hok'
  refine ⟨T', _, j', h1', hag, hready1, is', rs', T'', hf', s2, ?_⟩
  obtain ⟨B, b1, b2, _⟩ := k3 j (List.mem_cons_self ..)
  subst hj
  have s := s1 ["g", "d"]
  rw [show T₁ ["g", "d"] = _ from b1] at s
  obtain ⟨A'', e1, e2⟩ := s
  have ex : ∀ (a b : Fin (256 ^ 1)), U8.ceq a b = true → a = b := fun a b h => of_decide_eq_true (p := a = b) h
  refine ⟨A'', e1, fun i hi => ?_⟩
  exact ((sameOrFill_iff ex).1 (e2 [i] ⟨hi, trivial⟩)).trans (b2 [i] ⟨hi, trivial⟩ ⟨⟨Nat.zero_le _, by simpa using hi⟩, trivial⟩)

end Z5.Props
