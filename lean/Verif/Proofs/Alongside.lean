import Verif.Model.Alongside
import Verif.Proofs.Opened
import Verif.Proofs.S3Together

/-!
# Tasks that read files that the others leave alone (for C90)
-/

namespace Z5
open Spec Prog

variable {α β : Type}

/-- the steps of the first list -/
def lefts : List (Nat ⊕ Nat) → List Nat
  | [] => []
  | .inl i :: is => i :: lefts is
  | .inr _ :: is => lefts is

/-- the steps of the second list -/
def rights : List (Nat ⊕ Nat) → List Nat
  | [] => []
  | .inl _ :: is => rights is
  | .inr i :: is => i :: rights is

/-! ### Files -/

/-- a task that reads sees only its files -/
theorem step_reads_congr {p : Path} {nested : Bool} {K : Key → Prop} {ts : List (FsProg α)} {σ₁ σ₂ : Fs}
    (h : ∀ t ∈ ts, ∃ s : Prog α, ReadOnly s ∧ s.Within K ∧ t = s.onFiles p nested)
    (he : ∀ k, K k → σ₁ (chunkFile p k) = σ₂ (chunkFile p k)) (i : Nat) :
    (FsProg.step i (ts, σ₁)).1 = (FsProg.step i (ts, σ₂)).1 ∧
    ∀ t ∈ (FsProg.step i (ts, σ₁)).1, ∃ s : Prog α, ReadOnly s ∧ s.Within K ∧ t = s.onFiles p nested := by
  unfold FsProg.step
  simp only
  split
  · next f cont hi =>
    obtain ⟨s, hs, hw, e⟩ := h _ (List.mem_of_getElem? hi)
    cases s with
    | ret r => cases e
    | act k g c' =>
      unfold Prog.onFiles at e
      dsimp only at e
      rw [if_neg (by rw [hs.1]; decide)] at e
      cases e
      have hk := he k hw.1
      refine ⟨by simp only [hk], fun t ht => ?_⟩
      rcases List.mem_or_eq_of_mem_set ht with ht | rfl
      · exact h t ht
      · by_cases hf : isForeign (σ₁ (chunkFile p k)) = true
        · exact ⟨.ret _, trivial, trivial, if_pos hf⟩
        · exact ⟨_, hs.2 _, hw.2 _, if_neg hf⟩
  · exact ⟨rfl, h⟩

theorem both_reads {p : Path} {nested : Bool} {K : Key → Prop} : ∀ (is : List (Nat ⊕ Nat)) {ts : List (FsProg α)}
    {es : List (FsProg β)} {σ₀ σ : Fs}, (∀ t ∈ ts, ∃ s : Prog α, ReadOnly s ∧ s.Within K ∧ t = s.onFiles p nested) →
    (∀ k, K k → σ (chunkFile p k) = σ₀ (chunkFile p k)) →
    (∀ js k, K k → (FsProg.interleave js (es, σ)).2 (chunkFile p k) = σ (chunkFile p k)) →
    (FsProg.both is (ts, es, σ)).1 = (FsProg.interleave (lefts is) (ts, σ₀)).1 ∧
    (FsProg.both is (ts, es, σ)).2 = FsProg.interleave (rights is) (es, σ)
  | [], _, _, _, _, _, _, _ => ⟨rfl, rfl⟩
  | .inl i :: is, ts, es, σ₀, σ, hr, he, ho => by
    have h0 : ∀ t ∈ ts, ∃ s : Prog α, ReadOnly s ∧ t = s.onFiles p nested := fun t ht =>
      (hr t ht).imp fun s h => ⟨h.1, h.2.2⟩
    have h1 := (step_readOnly_files (c := (ts, σ)) h0 i).1
    have h2 := (step_readOnly_files (c := (ts, σ₀)) h0 i).1
    obtain ⟨h3, h4⟩ := step_reads_congr hr he i
    have e1 : FsProg.stepBoth (.inl i) (ts, es, σ) = ((FsProg.step i (ts, σ)).1, es, σ) := by
      show (_, _, _) = _
      rw [h1]
    have e2 : FsProg.step i (ts, σ₀) = ((FsProg.step i (ts, σ)).1, σ₀) := by
      rw [h3]
      exact Prod.ext rfl h2
    rw [FsProg.both, e1, lefts, rights, FsProg.interleave, e2]
    exact both_reads is h4 he ho
  | .inr i :: is, ts, es, σ₀, σ, hr, he, ho => by
    have e1 : FsProg.stepBoth (.inr i) (ts, es, σ) = (ts, FsProg.step i (es, σ)) := rfl
    rw [FsProg.both, e1, lefts, rights, FsProg.interleave]
    have h1 : ∀ k, K k → (FsProg.step i (es, σ)).2 (chunkFile p k) = σ (chunkFile p k) := ho [i]
    have h2 : ∀ js k, K k → (FsProg.interleave js (FsProg.step i (es, σ))).2 (chunkFile p k) = σ (chunkFile p k) := fun js => ho (i :: js)
    generalize FsProg.step i (es, σ) = c at h1 h2 ⊢
    exact both_reads is hr (fun k hk => (h1 k hk).trans (he k hk)) fun js k hk => (h2 js k hk).trans (h1 k hk).symm

/-! ### Buckets -/

theorem step_reads_congrS3 {K : Key → Prop} {ts : List (Prog α)} {b₁ b₂ : Bucket} (h : ∀ t ∈ ts, ReadOnly t ∧ t.Within K)
    (he : ∀ k, K k → b₁.get k = b₂.get k) (i : Nat) :
    (stepObjects i (ts, b₁)).1 = (stepObjects i (ts, b₂)).1 ∧ (stepObjects i (ts, b₁)).2 = b₁ ∧
    ∀ t ∈ (stepObjects i (ts, b₁)).1, ReadOnly t ∧ t.Within K := by
  unfold stepObjects
  simp only
  split
  · next k f c hi =>
    obtain ⟨hs, hw⟩ := h _ (List.mem_of_getElem? hi)
    have hk : b₁.content k = b₂.content k := by
      rw [content_bytesOf, content_bytesOf, he k hw.1]
    refine ⟨by simp only [hk], if_pos (hs.1 _), fun t ht => ?_⟩
    rcases List.mem_or_eq_of_mem_set ht with ht | rfl
    · exact h t ht
    · exact ⟨hs.2 _, hw.2 _⟩
  · exact ⟨rfl, rfl, h⟩

theorem both_readsS3 {K : Key → Prop} : ∀ (is : List (Nat ⊕ Nat)) {ts : List (Prog α)} {es : List (Prog β)} {b₀ b : Bucket},
    (∀ t ∈ ts, ReadOnly t ∧ t.Within K) → (∀ k, K k → b.get k = b₀.get k) →
    (∀ js k, K k → (interleaveObjects js (es, b)).2.get k = b.get k) →
    (Prog.both is (ts, es, b)).1 = (interleaveObjects (lefts is) (ts, b₀)).1 ∧
    (Prog.both is (ts, es, b)).2 = interleaveObjects (rights is) (es, b)
  | [], _, _, _, _, _, _, _ => ⟨rfl, rfl⟩
  | .inl i :: is, ts, es, b₀, b, hr, he, ho => by
    obtain ⟨h1, h2, h3⟩ := step_reads_congrS3 hr he i
    obtain ⟨_, h4, _⟩ := step_reads_congrS3 (b₁ := b₀) (b₂ := b₀) hr (fun _ _ => rfl) i
    have e1 : Prog.stepBoth (.inl i) (ts, es, b) = ((stepObjects i (ts, b)).1, es, b) := by
      show (_, _, _) = _
      rw [h2]
    have e2 : stepObjects i (ts, b₀) = ((stepObjects i (ts, b)).1, b₀) := by
      rw [h1]
      exact Prod.ext rfl h4
    rw [Prog.both, e1, lefts, rights, interleaveObjects, e2]
    exact both_readsS3 is h3 he ho
  | .inr i :: is, ts, es, b₀, b, hr, he, ho => by
    have e1 : Prog.stepBoth (.inr i) (ts, es, b) = (ts, stepObjects i (es, b)) := rfl
    rw [Prog.both, e1, lefts, rights, interleaveObjects]
    have h1 : ∀ k, K k → (stepObjects i (es, b)).2.get k = b.get k := ho [i]
    have h2 : ∀ js k, K k → (interleaveObjects js (stepObjects i (es, b))).2.get k = b.get k := fun js => ho (i :: js)
    generalize stepObjects i (es, b) = c at h1 h2 ⊢
    exact both_readsS3 is hr (fun k hk => (h1 k hk).trans (he k hk)) fun js k hk => (h2 js k hk).trans (h1 k hk).symm

theorem readOnly_onObjects {name : Key} : ∀ {t : Prog α}, ReadOnly t → ReadOnly (t.onObjects name)
  | .ret _, _ => trivial
  | .act _ _ _, h => ⟨h.1, fun v => readOnly_onObjects (h.2 v)⟩

theorem within_onObjects {name : Key} {K : Key → Prop} : ∀ {t : Prog α}, t.Within K →
    (t.onObjects name).Within fun q => ∃ k, K k ∧ q = chunkObject name k
  | .ret _, _ => trivial
  | .act k _ _, h => ⟨⟨k, h.1, rfl⟩, fun v => within_onObjects (h.2 v)⟩

/-- under every schedule, tasks leave the other objects alone -/
theorem kept_objects {js : List (Key × Prog α)} (h : JobsOk js) {b : Bucket} {q : Key} (hq : ∀ j ∈ js, q ≠ j.1) (is : List Nat) :
    (interleaveObjects is (js.map Prod.snd, b)).2.get q = b.get q := by
  obtain ⟨_, _, _, k4⟩ := interleave_alone (ks := js.map Prod.fst) h.nodup is (ts := js.map Prod.snd) (b := b) (by
    intro i k t hk ht
    rw [List.getElem?_map] at hk ht
    obtain ⟨j, hj, rfl⟩ := Option.map_eq_some_iff.1 hk
    rw [hj] at ht
    cases ht
    exact h.touches j (List.mem_of_getElem? hj)) (by simp)
  refine k4 q fun hm => ?_
  obtain ⟨j, hj, e⟩ := List.mem_map.1 hm
  exact hq j hj e.symm

/-! ### The tasks of a reading call -/

namespace AnyDataset

variable {E : Elem} {d : AnyDataset E}

/-- a reading call reads only files with elements of its region -/
theorem read_touched (h : d.WF) {out : View} {off : List Nat} (hr : RegionOk d.base.shape off out.shape)
    {scratch : Nat → List E.T} {ts : List (Prog (List (Nat × E.T)))} (hts : d.readSubarray out off scratch = .ok ts) :
    ∀ s ∈ ts, ReadOnly s ∧ s.Within (d.Touched off out.shape) := by
  intro s hs
  refine ⟨(read_within h hr hts s hs).2, ?_⟩
  cases d with
  | plain ds =>
    change ds.readSubarray out off scratch = .ok ts at hts
    rw [Dataset.readSubarray, h.requestChunks_ok hr, Res.ok_bind] at hts
    cases hts
    obtain ⟨i, hi, rfl⟩ := List.getElem_of_mem hs
    rw [List.getElem_mapIdx]
    obtain ⟨x, h1, h2⟩ := (h.mem_overlap hr).1 (List.getElem_mem (by simpa using hi))
    exact within_of_touches (κ := ds.chunkKey _) ⟨_, x, h1, h2, rfl⟩ (touches_readTask ..)
  | sharded sd =>
    change sd.readSubarray out off scratch = .ok ts at hts
    rw [ShardedDataset.readSubarray, h.base.requestChunks_ok hr, Res.ok_bind, h.cps_ok, Res.ok_bind,
      (h.groups_ok hr).1] at hts
    cases hts
    obtain ⟨i, hi, rfl⟩ := List.getElem_of_mem hs
    rw [List.getElem_mapIdx]
    obtain ⟨x, h1, h2⟩ := (h.mem_group_ids hr).1 (List.mem_map.2 ⟨_, List.getElem_mem (by simpa using hi), rfl⟩)
    exact within_of_touches (κ := sd.skey _) ⟨_, x, h1, h2, rfl⟩ (ShardedDataset.touches_readShardTask ..)

end AnyDataset
end Z5
