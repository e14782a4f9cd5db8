import Verif.Proofs.Task
import Verif.Props.Keys
import Verif.Spec.Calls

/-!
# A dataset represents an array; calls under arbitrary schedules
-/

namespace Z5
open Spec Prog

variable {E : Elem} {ds : Dataset E}

/-! ### Requests -/

theorem requestLoop_ok : ∀ {shape off size : List Nat}, RegionOk shape off size →
    (∀ s ∈ shape, s < 2 ^ 64) → requestLoop shape off size = .ok ()
  | [], [], [], _, _ => rfl
  | s :: ss, o :: os, n :: ns, h, hs => by
    have h1 : 0 < n ∧ o + n ≤ s := h.1
    have h2 := hs s (by simp)
    rw [requestLoop, if_neg (by rw [wadd_eq (by omega)]; omega), if_neg (by omega)]
    exact requestLoop_ok h.2 fun x hx => hs x (by simp [hx])

theorem requestLoop_iff : ∀ {shape off size : List Nat}, off.length = shape.length →
    size.length = shape.length → All₂ (fun o n => o + n < 2 ^ 64) off size →
    (requestLoop shape off size = .ok () ∧ RegionOk shape off size) ∨
    (requestLoop shape off size = .throw .runtimeError ∧ ¬ RegionOk shape off size)
  | [], [], [], _, _, _ => Or.inl ⟨rfl, trivial⟩
  | s :: ss, o :: os, n :: ns, h1, h2, h => by
    have h3 : o + n < 2 ^ 64 := h.1
    have ih := requestLoop_iff (shape := ss) (off := os) (size := ns) (by simpa using h1)
      (by simpa using h2) h.2
    rw [requestLoop, wadd_eq h3]
    by_cases c1 : o + n > s
    · right
      rw [if_pos c1]
      exact ⟨rfl, fun hr => by have : 0 < n ∧ o + n ≤ s := hr.1; omega⟩
    · rw [if_neg c1]
      by_cases c2 : n = 0
      · right
        rw [if_pos c2]
        exact ⟨rfl, fun hr => by have : 0 < n ∧ o + n ≤ s := hr.1; omega⟩
      · rw [if_neg c2]
        rcases ih with ⟨i1, i2⟩ | ⟨i1, i2⟩
        · exact Or.inl ⟨i1, by dsimp only; omega, i2⟩
        · exact Or.inr ⟨i1, fun hr => i2 hr.2⟩
  | [], _ :: _, _, h1, _, _ => by simp at h1
  | [], [], _ :: _, _, h2, _ => by simp at h2
  | _ :: _, [], _, h1, _, _ => by simp at h1
  | _ :: _, _ :: _, [], _, h2, _ => by simp at h2

theorem Dataset.WF.requestChunks_ok (h : ds.WF) {off size : List Nat}
    (hr : RegionOk ds.shape off size) :
    ds.requestChunks off size = .ok (overlapList ds.chunkShape off size) := by
  have hl := All₃.length_eq hr
  rw [Dataset.requestChunks, Dataset.checkRequestShape,
    if_neg (not_or.2 ⟨by omega, by omega⟩),
    requestLoop_ok hr fun s hs => by have := h.small s hs; omega]
  rw [Res.ok_bind, h.chunking_eq, getBlocksOverlappingRoi_eq h.dims hr]

theorem Dataset.WF.mem_overlap (h : ds.WF) {off size c : List Nat}
    (hr : RegionOk ds.shape off size) :
    c ∈ overlapList ds.chunkShape off size ↔ Touches ds off size c :=
  mem_overlapList h.dims hr

/-! ### Tasks of one call are isolated -/

theorem Dataset.WF.key_inj (h : ds.WF) {c d : List Nat} (hc : InGrid ds.shape ds.chunkShape c)
    (hd : InGrid ds.shape ds.chunkShape d) (he : ds.chunkKey c = ds.chunkKey d) : c = d :=
  Props.c25_keys_distinct ds.key h.keyOk hc hd he

theorem isolated_tasks {α : Type} (h : ds.WF) {cs : List (List Nat)} (hn : cs.Nodup)
    (hg : ∀ c ∈ cs, InGrid ds.shape ds.chunkShape c) (f : Nat → List Nat → Prog α)
    (hf : ∀ i c, TouchesOnly (ds.chunkKey c) (f i c)) :
    Isolated (fun i => ds.chunkKey (cs.getD i [])) (cs.mapIdx f) := by
  refine ⟨?_, ?_⟩
  · intro i p hp
    rw [List.getElem?_mapIdx] at hp
    cases hc : cs[i]? with
    | none => rw [hc] at hp; simp at hp
    | some c =>
      rw [hc] at hp
      simp only [Option.map_some, Option.some.injEq] at hp
      subst hp
      simp only [List.getD_eq_getElem?_getD, hc, Option.getD_some]
      exact hf i c
  · intro i j hi hj he
    simp only [List.length_mapIdx] at hi hj
    simp only [List.getD_eq_getElem?_getD, List.getElem?_eq_getElem hi, List.getElem?_eq_getElem hj,
      Option.getD_some] at he
    have := h.key_inj (hg _ (List.getElem_mem hi)) (hg _ (List.getElem_mem hj)) he
    exact (List.getElem_inj hn).1 this

/-- Outcome of a finished call: every task has done what it does alone to its chunk. -/
theorem finished_tasks {α : Type} (h : ds.WF) {cs : List (List Nat)} (hn : cs.Nodup)
    (hg : ∀ c ∈ cs, InGrid ds.shape ds.chunkShape c) (f : Nat → List Nat → Prog α)
    (hf : ∀ i c, TouchesOnly (ds.chunkKey c) (f i c)) {σ : Store} {is : List Nat}
    {rs : List (Res α)} (hfin : Finished (interleave is (cs.mapIdx f, σ)).1 rs) :
    rs.length = cs.length ∧
    (∀ k, (∀ c ∈ cs, ds.chunkKey c ≠ k) → (interleave is (cs.mapIdx f, σ)).2 k = σ k) ∧
    (∀ i c, cs[i]? = some c → rs[i]? = some (exec1 (f i c) (σ (ds.chunkKey c))).1 ∧
      (interleave is (cs.mapIdx f, σ)).2 (ds.chunkKey c) =
        (exec1 (f i c) (σ (ds.chunkKey c))).2) := by
  obtain ⟨h1, h2, h3⟩ := finished_isolated (isolated_tasks h hn hg f hf) is hfin
  rw [List.length_mapIdx] at h1 h2
  refine ⟨h1, ?_, ?_⟩
  · intro k hk
    apply h2
    intro j hj
    simp only [List.getD_eq_getElem?_getD, List.getElem?_eq_getElem hj, Option.getD_some]
    exact hk _ (List.getElem_mem hj)
  · intro i c hc
    have := h3 i (f i c) (by rw [List.getElem?_mapIdx, hc]; rfl)
    simpa only [List.getD_eq_getElem?_getD, hc, Option.getD_some] using this

/-! ### The array a store represents -/

/-- the stored bytes of the chunks represent the array `A` -/
def HoldsB (ds : Dataset E) (β : List Nat → Option Bytes) (A : List Nat → E.T) : Prop :=
  ∀ c, InGrid ds.shape ds.chunkShape c → BlobOk ds c (β c) A

/-- the stored bytes of the chunks represent `S`, up to elided fill values -/
def RefinesB (ds : Dataset E) (β : List Nat → Option Bytes) (S : List Nat → E.T) : Prop :=
  ∃ A, HoldsB ds β A ∧ ∀ c x, InGrid ds.shape ds.chunkShape c → InStored ds c x →
    SameOrFill E.ceq ds.fill (A x) (S x)

/-- the files of the dataset represent the array `A` -/
def Holds (ds : Dataset E) (σ : Store) (A : List Nat → E.T) : Prop :=
  ∀ c, InGrid ds.shape ds.chunkShape c → BlobOk ds c (σ (ds.chunkKey c)) A

/-- the files of the dataset represent `S`, up to elided fill values -/
def Refines (ds : Dataset E) (σ : Store) (S : List Nat → E.T) : Prop :=
  ∃ A, Holds ds σ A ∧ ∀ c x, InGrid ds.shape ds.chunkShape c → InStored ds c x →
    SameOrFill E.ceq ds.fill (A x) (S x)

theorem Repr.congr {c : List Nat} {old : Option (List E.T)} {A B : List Nat → E.T}
    (h : Repr ds c old A) (he : ∀ x, InStored ds c x → A x = B x) : Repr ds c old B := by
  cases old with
  | none => exact fun x hx => (he x hx) ▸ h x hx
  | some content => exact ⟨h.1, fun x hx => (he x hx) ▸ h.2 x hx⟩

theorem BlobOk.congr {c : List Nat} {v : Option Bytes} {A B : List Nat → E.T}
    (h : BlobOk ds c v A) (he : ∀ x, InStored ds c x → A x = B x) : BlobOk ds c v B := by
  cases v with
  | none => exact Repr.congr (old := none) h he
  | some b =>
    obtain ⟨content, h1, h2⟩ := h
    exact ⟨content, h1, h2.congr he⟩

theorem Written.congr {c : List Nat} {v : Option Bytes} {A B : List Nat → E.T}
    (h : Written ds c v A) (he : ∀ x, InStored ds c x → A x = B x) : Written ds c v B := by
  cases v with
  | none => exact fun x hx => he x hx ▸ h x hx
  | some b =>
    obtain ⟨content, h1, h2, h3⟩ := h
    exact ⟨content, h1, h2.congr he, h3⟩

/-- New bytes, new array: on every chunk in `good` the bytes were either left alone or rewritten. -/
theorem refinesOnB_of_chunks (h : ds.WF) {β β' : List Nat → Option Bytes} {S B : List Nat → E.T} {A : List Nat → E.T}
    (good : List Nat → Prop)
    (hA : ∀ c, InGrid ds.shape ds.chunkShape c → good c →
      Written ds c (β' c) B ∨ BlobOk ds c (β c) A)
    (hB : ∀ c x, InGrid ds.shape ds.chunkShape c → good c → InStored ds c x →
      SameOrFill E.ceq ds.fill (B x) (S x))
    (hc : ∀ c, InGrid ds.shape ds.chunkShape c → good c →
      Written ds c (β' c) B ∨
      (β' c = β c ∧ ∀ x, InStored ds c x → B x = A x)) :
    ∃ A', (∀ c, InGrid ds.shape ds.chunkShape c → good c → BlobOk ds c (β' c) A') ∧
      ∀ c x, InGrid ds.shape ds.chunkShape c → good c → InStored ds c x →
        SameOrFill E.ceq ds.fill (A' x) (S x) := by
  refine ⟨fun x => if β' (divV x ds.chunkShape) = none then ds.fill else B x, ?_, ?_⟩
  · intro c hg hgood
    have hdiv : ∀ x, InStored ds c x → divV x ds.chunkShape = c := fun x hx => hx.div h hg
    cases hv : β' c with
    | none =>
      intro x hx
      dsimp only
      rw [hdiv x hx, if_pos hv]
    | some b =>
      have hb : BlobOk ds c (some b) B := by
        rcases hc c hg hgood with hw | ⟨he, hx⟩
        · rw [hv] at hw; exact hw.blob
        · rw [← hv]
          rcases hA c hg hgood with hw | h1
          · rw [hv] at hw ⊢; exact hw.blob
          · rw [he]; exact h1.congr fun x h' => (hx x h').symm
      refine hb.congr fun x hx => ?_
      rw [hdiv x hx, if_neg (by rw [hv]; simp)]
  · intro c x hg hgood hx
    dsimp only
    rw [hx.div h hg]
    split
    · next hn =>
      have hwr : Written ds c (β' c) B →
          SameOrFill E.ceq ds.fill ds.fill (S x) := by
        intro hw
        rw [hn] at hw
        have : SameOrFill E.ceq ds.fill ds.fill (B x) := Or.inr ⟨hw x hx, rfl⟩
        exact this.trans (hB c x hg hgood hx)
      rcases hc c hg hgood with hw | ⟨he, hx'⟩
      · exact hwr hw
      · rcases hA c hg hgood with hw | h1
        · exact hwr hw
        · rw [← he, hn] at h1
          have : A x = ds.fill := h1 x hx
          have h2 := hB c x hg hgood hx
          rw [hx' x hx, this] at h2
          exact h2
    · exact hB c x hg hgood hx

/-- New store, new array: on every chunk in `good` the store was either left alone or rewritten. -/
theorem refinesOn_of_chunks (h : ds.WF) {σ σ' : Store} {S B : List Nat → E.T} {A : List Nat → E.T}
    (good : List Nat → Prop)
    (hA : ∀ c, InGrid ds.shape ds.chunkShape c → good c →
      Written ds c (σ' (ds.chunkKey c)) B ∨ BlobOk ds c (σ (ds.chunkKey c)) A)
    (hB : ∀ c x, InGrid ds.shape ds.chunkShape c → good c → InStored ds c x →
      SameOrFill E.ceq ds.fill (B x) (S x))
    (hc : ∀ c, InGrid ds.shape ds.chunkShape c → good c →
      Written ds c (σ' (ds.chunkKey c)) B ∨
      (σ' (ds.chunkKey c) = σ (ds.chunkKey c) ∧ ∀ x, InStored ds c x → B x = A x)) :
    ∃ A', (∀ c, InGrid ds.shape ds.chunkShape c → good c → BlobOk ds c (σ' (ds.chunkKey c)) A') ∧
      ∀ c x, InGrid ds.shape ds.chunkShape c → good c → InStored ds c x →
        SameOrFill E.ceq ds.fill (A' x) (S x) :=
  refinesOnB_of_chunks h (β := fun c => σ (ds.chunkKey c)) (β' := fun c => σ' (ds.chunkKey c)) good
    hA hB hc

/-- A region write, chunk by chunk: every chunk was either rewritten or left alone.  Elements outside the
    region keep their value, and if all touched chunks were rewritten, elements inside have the new
    one. -/
theorem refinesB_frame (h : ds.WF) {β β' : List Nat → Option Bytes} {S : List Nat → E.T}
    {off size : List Nat} {val : List Nat → E.T} {A : List Nat → E.T} (hA : HoldsB ds β A)
    (hAS : ∀ c x, InGrid ds.shape ds.chunkShape c → InStored ds c x →
      SameOrFill E.ceq ds.fill (A x) (S x))
    (hc : ∀ c, InGrid ds.shape ds.chunkShape c →
      Written ds c (β' c) (override A off size val) ∨ β' c = β c) :
    ∃ S', RefinesB ds β' S' ∧
      ∀ x, S' x = S x ∨ (InRegion x off size ∧ S' x = val (subV x off)) := by
  let P : List Nat → Prop := fun c => Written ds c (β' c) (override A off size val)
  have hdec : ∀ c, Decidable (P c) := fun c => Classical.propDecidable _
  let mix : (List Nat → E.T) → List Nat → E.T := fun F x =>
    if P (divV x ds.chunkShape) then override F off size val x else F x
  have hmixP : ∀ F c x, InGrid ds.shape ds.chunkShape c → InStored ds c x → P c →
      mix F x = override F off size val x := by
    intro F c x hc hx hP
    show (if P (divV x ds.chunkShape) then _ else _) = _
    rw [hx.div h hc, if_pos hP]
  have hmixN : ∀ F c x, InGrid ds.shape ds.chunkShape c → InStored ds c x → ¬ P c →
      mix F x = F x := by
    intro F c x hc hx hP
    show (if P (divV x ds.chunkShape) then _ else _) = _
    rw [hx.div h hc, if_neg hP]
  have hsof : ∀ c x, InGrid ds.shape ds.chunkShape c → InStored ds c x →
      SameOrFill E.ceq ds.fill (mix A x) (mix S x) := by
    intro c x hc hx
    by_cases hP : P c
    · rw [hmixP A c x hc hx hP, hmixP S c x hc hx hP]
      unfold override
      split
      · exact Or.inl rfl
      · exact hAS c x hc hx
    · rw [hmixN A c x hc hx hP, hmixN S c x hc hx hP]
      exact hAS c x hc hx
  have hchunk : ∀ c, InGrid ds.shape ds.chunkShape c → Written ds c (β' c) (mix A) ∨
      (β' c = β c ∧ ∀ x, InStored ds c x → mix A x = A x) := by
    intro c hg
    by_cases hP : P c
    · left
      have hP' : Written ds c (β' c) (override A off size val) := hP
      cases hv : β' c with
      | none =>
        rw [hv] at hP'
        intro x hx
        rw [hmixP A c x hg hx hP]
        exact hP' x hx
      | some b =>
        rw [hv] at hP'
        exact Written.congr (v := some b) hP' fun x hx => (hmixP A c x hg hx hP).symm
    · right
      refine ⟨?_, fun x hx => hmixN A c x hg hx hP⟩
      rcases hc c hg with h1 | h1
      · exact absurd h1 hP
      · exact h1
  obtain ⟨A', h1, h2⟩ := refinesOnB_of_chunks h (fun _ => True) (fun c hg _ => Or.inr (hA c hg))
    (fun c x hg _ hx => hsof c x hg hx) (fun c hg _ => hchunk c hg)
  refine ⟨mix S, ⟨A', fun c hg => h1 c hg trivial, fun c x hg hx => h2 c x hg trivial hx⟩, ?_⟩
  intro x
  show (if P (divV x ds.chunkShape) then override S off size val x else S x) = S x ∨ _ ∧
    (if P (divV x ds.chunkShape) then override S off size val x else S x) = _
  split
  · unfold override
    split
    · next hx => exact Or.inr ⟨hx, rfl⟩
    · exact Or.inl rfl
  · exact Or.inl rfl

/-- New store, new array: on every chunk the store was either left alone or rewritten. -/
theorem refines_of_chunks (h : ds.WF) {σ σ' : Store} {S B : List Nat → E.T} {A : List Nat → E.T}
    (hA : Holds ds σ A)
    (hB : ∀ c x, InGrid ds.shape ds.chunkShape c → InStored ds c x →
      SameOrFill E.ceq ds.fill (B x) (S x))
    (hc : ∀ c, InGrid ds.shape ds.chunkShape c →
      Written ds c (σ' (ds.chunkKey c)) B ∨
      (σ' (ds.chunkKey c) = σ (ds.chunkKey c) ∧ ∀ x, InStored ds c x → B x = A x)) :
    Refines ds σ' S := by
  obtain ⟨A', h1, h2⟩ := refinesOn_of_chunks h (fun _ => True) (fun c hg _ => Or.inr (hA c hg))
    (fun c x hg _ hx => hB c x hg hx) (fun c hg _ => hc c hg)
  exact ⟨A', fun c hg => h1 c hg trivial, fun c x hg hx => h2 c x hg trivial hx⟩

theorem sameOrFill_override {S A : List Nat → E.T} {off size : List Nat} {val : List Nat → E.T}
    (hS : ∀ c x, InGrid ds.shape ds.chunkShape c → InStored ds c x →
      SameOrFill E.ceq ds.fill (A x) (S x)) :
    ∀ c x, InGrid ds.shape ds.chunkShape c → InStored ds c x →
      SameOrFill E.ceq ds.fill (override A off size val x) (override S off size val x) := by
  intro c x hc hx
  unfold override
  split
  · exact Or.inl rfl
  · exact hS c x hc hx

/-- elements of an untouched chunk are not in the region -/
theorem not_in_region {off size c x : List Nat} (hr : RegionOk ds.shape off size)
    (hc : InGrid ds.shape ds.chunkShape c) (hx : InStored ds c x) (hn : ¬ Touches ds off size c) :
    ¬ InRegion x off size :=
  fun hreg => hn ⟨x, hreg, hx.inChunk hc (region_inBox hr hreg)⟩

/-- **A region write, under any schedule.** -/
theorem writeRegion_refines (h : ds.WF) (hw : ds.canWrite = true) {off size : List Nat}
    (hr : RegionOk ds.shape off size) {fr : FillRequest E} {val : List Nat → E.T}
    (hfr : FillSpec fr size val) {σ : Store} {S : List Nat → E.T} (hσ : Refines ds σ S)
    {scratch : Nat → List E.T} {ts : List (Prog Unit)}
    (hts : ds.writeRegion fr off size scratch = .ok ts) {is : List Nat} {rs : List (Res Unit)}
    (hfin : Finished (interleave is (ts, σ)).1 rs) :
    (∀ r ∈ rs, r ≠ .ub) ∧
    (∀ k, (∀ c, Touches ds off size c → ds.chunkKey c ≠ k) → (interleave is (ts, σ)).2 k = σ k) ∧
    ((∀ r ∈ rs, r = .ok ()) →
      Refines ds (interleave is (ts, σ)).2 (override S off size val)) := by
  obtain ⟨A, hA, hAS⟩ := hσ
  unfold Dataset.writeRegion at hts
  rw [h.requestChunks_ok hr] at hts
  simp only [Res.ok_bind, Res.pure_eq, Res.ok.injEq] at hts
  subst hts
  have hmem := fun c => h.mem_overlap (c := c) hr
  obtain ⟨h1, h2, h3⟩ := finished_tasks h (nodup_overlapList h.dims hr)
    (fun c hc => ((hmem c).1 hc).inGrid)
    (fun i c => ds.writeTask fr off size c (scratch i)) (fun i c => touches_writeTask ..) hfin
  refine ⟨?_, ?_, ?_⟩
  · intro r hr'
    obtain ⟨i, hi, rfl⟩ := List.getElem_of_mem hr'
    have hi' : i < (overlapList ds.chunkShape off size).length := by omega
    have hc := List.getElem_mem hi'
    have ht := (hmem _).1 hc
    obtain ⟨h4, _⟩ := h3 i _ (List.getElem?_eq_getElem hi')
    rw [List.getElem?_eq_getElem hi, Option.some.injEq] at h4
    rw [h4]
    rcases writeTask_exec h hw hr ht hfr (scratch i) (hA _ ht.inGrid) with ⟨e, he⟩ | ⟨v', he, _⟩
    · rw [he]; simp
    · rw [he]; simp
  · intro k hk
    exact h2 k fun c hc => hk c ((hmem c).1 hc)
  · intro hall
    refine refines_of_chunks h hA (sameOrFill_override hAS (off := off) (size := size) (val := val)) ?_
    intro c hc
    by_cases ht : Touches ds off size c
    · left
      have hm := (hmem c).2 ht
      obtain ⟨i, hi, hic⟩ := List.getElem_of_mem hm
      obtain ⟨h4, h5⟩ := h3 i c (by rw [List.getElem?_eq_getElem hi, hic])
      have h6 := hall _ (List.mem_of_getElem? h4)
      rcases writeTask_exec h hw hr ht hfr (scratch i) (hA _ ht.inGrid) with ⟨e, he⟩ | ⟨v', he, hwr⟩
      · rw [he] at h6; simp at h6
      · rw [h5, he]; exact hwr
    · right
      refine ⟨h2 _ ?_, ?_⟩
      · intro d hd he
        have hd' := (hmem d).1 hd
        exact ht (h.key_inj hd'.inGrid hc he ▸ hd')
      · intro x hx
        unfold override
        rw [if_neg (not_in_region hr hc hx ht)]

theorem override_in {T : Type} {A : List Nat → T} {off size x : List Nat} {val : List Nat → T}
    (h : InRegion x off size) : override A off size val x = val (subV x off) := if_pos h

/-- **Writing one chunk.** -/
theorem writeChunk_refines (h : ds.WF) (hw : ds.canWrite = true) {c : List Nat}
    (hg : InGrid ds.shape ds.chunkShape c) {data : List E.T} {val : List Nat → E.T}
    (hl : data.length = prod (ds.stored c))
    (hval : ∀ i, InBox i (ds.stored c) → data[ravel (ds.stored c) i]? = some (val i))
    {σ σ' : Store} {S : List Nat → E.T} (hσ : Refines ds σ S)
    (hrun : run (ds.writeChunk c data) σ = (.ok (), σ')) :
    Refines ds σ' (override S (mulV c ds.chunkShape) (ds.stored c) val) := by
  obtain ⟨A, hA, hAS⟩ := hσ
  have hrun' := run_of_touches (touches_writeChunk ds c data false 0) σ
  rw [hrun] at hrun'
  have hr : Repr ds c (some data) (override A (mulV c ds.chunkShape) (ds.stored c) val) := by
    refine ⟨hl, fun x hx => ?_⟩
    rw [override_in hx]
    exact hval _ (region_sub hx).2
  refine refines_of_chunks h hA (sameOrFill_override hAS) ?_
  intro d hd
  by_cases he : d = c
  · subst he
    left
    rcases writeChunk_written h hw hd hr (σ (ds.chunkKey d)) with ⟨e, he⟩ | ⟨v', he, hwr⟩
    · rw [he] at hrun'; simp at hrun'
    · rw [he] at hrun'
      simp only [Prod.mk.injEq, true_and] at hrun'
      rw [hrun', upd_same]
      exact hwr
  · right
    simp only [Prod.mk.injEq] at hrun'
    refine ⟨?_, ?_⟩
    · rw [hrun'.2, upd_other]
      exact fun hk => he (h.key_inj hd hg hk)
    · intro x hx
      unfold override
      rw [if_neg]
      intro hx'
      have hx'' : InStored ds c x := hx'
      exact he ((hx.div h hd).symm.trans (hx''.div h hg))

/-- **Removing one chunk.** -/
theorem removeChunk_refines (h : ds.WF) (hw : ds.canWrite = true) {c : List Nat}
    (hg : InGrid ds.shape ds.chunkShape c)
    {σ σ' : Store} {S : List Nat → E.T} (hσ : Refines ds σ S)
    (hrun : run (ds.removeChunk c) σ = (.ok (), σ')) :
    Refines ds σ' (override S (mulV c ds.chunkShape) (ds.stored c) fun _ => ds.fill) := by
  obtain ⟨A, hA, hAS⟩ := hσ
  have hσ' : σ' = σ.upd (ds.chunkKey c) none := by
    rw [Dataset.removeChunk, h.handle_eq hg, bind_ok, hw] at hrun
    simp only [Bool.not_true, Bool.false_eq_true, if_false] at hrun
    have := congrArg Prod.snd hrun
    exact this.symm
  have hnot : ∀ d x, InGrid ds.shape ds.chunkShape d → InStored ds d x → d ≠ c →
      ¬ InRegion x (mulV c ds.chunkShape) (ds.stored c) := by
    intro d x hd hx he hx'
    have hx'' : InStored ds c x := hx'
    exact he ((hx.div h hd).symm.trans (hx''.div h hg))
  refine ⟨override A (mulV c ds.chunkShape) (ds.stored c) fun _ => ds.fill, ?_,
    sameOrFill_override hAS⟩
  intro d hd
  by_cases he : d = c
  · subst he
    rw [hσ', upd_same]
    intro x hx
    rw [override_in hx]
  · rw [hσ', upd_other _ _ fun hk => he (h.key_inj hd hg hk)]
    refine (hA d hd).congr fun x hx => ?_
    unfold override
    rw [if_neg (hnot d x hd hx he)]

/-! ### Reading -/

theorem ravel_view_inj {v : View} (h : Props.NoAlias v) {i j : List Nat} (hi : InBox i v.shape)
    (hj : InBox j v.shape) (he : v.addr i = v.addr j) : i = j := h i j hi hj he

/-- Memory writes that are correct and cover the output view give the right output, in any order. -/
theorem delivers_of_pokes {off : List Nat} {out : View} {outBuf : List E.T}
    (hfit : Props.FitsIn out outBuf.length) (hna : Props.NoAlias out) {A : List Nat → E.T}
    {ps : List (List (Nat × E.T))}
    (hpoke : ∀ p ∈ ps.flatten, ∃ j, InBox j out.shape ∧ p = (out.addr j, A (addV off j)))
    (hcov : ∀ j, InBox j out.shape → (out.addr j, A (addV off j)) ∈ ps.flatten) :
    (∃ out', Delivers outBuf (ps.map Res.ok) out') ∧
    ∀ out', Delivers outBuf (ps.map Res.ok) out' → out'.length = outBuf.length ∧
      (∀ i, InBox i out.shape → out'[out.base + dot i out.strides]? = some (A (addV off i))) ∧
      (∀ a, (∀ i, InBox i out.shape → out.base + dot i out.strides ≠ a) →
        out'[a]? = outBuf[a]?) := by
  have hbound : ∀ order : List (Nat × E.T), order.Perm ps.flatten →
      ∀ p ∈ order, p.1 < outBuf.length := by
    intro order ho p hp
    obtain ⟨j, hj, rfl⟩ := hpoke p (ho.mem_iff.1 hp)
    exact hfit.2 j hj
  refine ⟨?_, ?_⟩
  · obtain ⟨out', ho, _⟩ := applyPokes_ok ps.flatten outBuf (hbound _ (List.Perm.refl _))
    exact ⟨out', ps, ps.flatten, rfl, List.Perm.refl _, ho⟩
  · rintro out' ⟨ps', order, hmap, hperm, hap⟩
    have : ps' = ps := by
      have hinj : Function.Injective (Res.ok : List (Nat × E.T) → Res _) := fun a b h => by
        injection h
      exact ((List.map_inj_right hinj).1 hmap).symm
    subst this
    obtain ⟨out'', ho, hl, hother, hset⟩ := applyPokes_ok order outBuf (hbound order hperm)
    rw [hap, Res.ok.injEq] at ho
    subst ho
    refine ⟨hl, ?_, ?_⟩
    · intro i hi
      have := hset ?_ _ (hperm.mem_iff.2 (hcov i hi))
      · exact this
      · intro p hp q hq he
        obtain ⟨j, hj, rfl⟩ := hpoke p (hperm.mem_iff.1 hp)
        obtain ⟨j', hj', rfl⟩ := hpoke q (hperm.mem_iff.1 hq)
        rw [ravel_view_inj hna hj hj' he]
    · intro a ha
      apply hother
      intro p hp
      obtain ⟨j, hj, rfl⟩ := hpoke p (hperm.mem_iff.1 hp)
      exact ha j hj

/-- **A region read, under any schedule and any order of the memory writes.** -/
theorem readSubarray_exec (h : ds.WF) {off : List Nat} {out : View}
    (hr : RegionOk ds.shape off out.shape) {outBuf : List E.T}
    (hfit : Props.FitsIn out outBuf.length) (hna : Props.NoAlias out)
    {σ : Store} {A : List Nat → E.T}
    (hA : ∀ c, Touches ds off out.shape c → BlobOk ds c (σ (ds.chunkKey c)) A)
    (scratch : Nat → List E.T) :
    ∃ ts, ds.readSubarray out off scratch = .ok ts ∧
      ∀ is rs, Finished (interleave is (ts, σ)).1 rs →
        (interleave is (ts, σ)).2 = σ ∧ (∃ out', Delivers outBuf rs out') ∧
        ∀ out', Delivers outBuf rs out' → out'.length = outBuf.length ∧
          (∀ i, InBox i out.shape → out'[out.base + dot i out.strides]? = some (A (addV off i))) ∧
          (∀ a, (∀ i, InBox i out.shape → out.base + dot i out.strides ≠ a) →
            out'[a]? = outBuf[a]?) := by
  have hmem := fun c => h.mem_overlap (c := c) hr
  refine ⟨_, by rw [Dataset.readSubarray, h.requestChunks_ok hr]; rfl, ?_⟩
  intro is rs hfin
  obtain ⟨h1, h2, h3⟩ := finished_tasks h (nodup_overlapList h.dims hr)
    (fun c hc => ((hmem c).1 hc).inGrid)
    (fun i c => ds.readTask out off out.shape c (scratch i)) (fun i c => touches_readTask ..) hfin
  have hlen : off.length = out.shape.length := (All₃.length_eq hr).2
  refine ⟨?_, ?_⟩
  · funext k
    by_cases hk : ∃ c ∈ overlapList ds.chunkShape off out.shape, ds.chunkKey c = k
    · obtain ⟨c, hc, rfl⟩ := hk
      obtain ⟨i, hi, hic⟩ := List.getElem_of_mem hc
      obtain ⟨_, h5⟩ := h3 i c (by rw [List.getElem?_eq_getElem hi, hic])
      rw [h5, exec1_readOnly (readOnly_readTask ..)]
    · exact h2 k fun c hc he => hk ⟨c, hc, he⟩
  -- every result is a list of correct writes
  have hres : ∀ i (hi : i < rs.length), ∃ o : RoiOverlap, ∃ c, 
      (overlapList ds.chunkShape off out.shape)[i]? = some c ∧
      OverlapFacts (mulV c ds.chunkShape) (extV ds.shape ds.chunkShape c) off out.shape o ∧
      rs[i] = .ok ((boxList o.shapeInRoi).map fun i => (out.addr (addV o.beginInRoi i),
          A (addV off (addV o.beginInRoi i)))) := by
    intro i hi
    have hi' : i < (overlapList ds.chunkShape off out.shape).length := by omega
    have ht := (hmem _).1 (List.getElem_mem hi')
    obtain ⟨h4, _⟩ := h3 i _ (List.getElem?_eq_getElem hi')
    obtain ⟨o, ho, he⟩ := readTask_exec h hr ht hfit.1 (scratch i) (hA _ ht)
    rw [List.getElem?_eq_getElem hi, Option.some.injEq, he] at h4
    exact ⟨o, _, List.getElem?_eq_getElem hi', ho, h4⟩
  have hps : ∃ ps : List (List (Nat × E.T)), rs = ps.map Res.ok := by
    have : ∀ l : List (Res (List (Nat × E.T))), (∀ r ∈ l, ∃ p, r = .ok p) →
        ∃ ps : List (List (Nat × E.T)), l = ps.map Res.ok := by
      intro l
      induction l with
      | nil => exact fun _ => ⟨[], rfl⟩
      | cons r l ih =>
        intro hl
        obtain ⟨p, rfl⟩ := hl r (by simp)
        obtain ⟨ps, rfl⟩ := ih fun r hr => hl r (by simp [hr])
        exact ⟨p :: ps, rfl⟩
    apply this
    intro r hr'
    obtain ⟨i, hi, rfl⟩ := List.getElem_of_mem hr'
    obtain ⟨o, c, _, _, he⟩ := hres i hi
    exact ⟨_, he⟩
  obtain ⟨ps, rfl⟩ := hps
  -- every write is a correct write, every element is written
  have hpoke : ∀ p ∈ ps.flatten, ∃ j, InBox j out.shape ∧ p = (out.addr j, A (addV off j)) := by
    intro p hp
    obtain ⟨l, hl, hpl⟩ := List.mem_flatten.1 hp
    obtain ⟨i, hi, rfl⟩ := List.getElem_of_mem hl
    obtain ⟨o, c, _, ho, he⟩ := hres i (by simpa using hi)
    simp only [List.getElem_map, Res.ok.injEq] at he
    rw [he] at hpl
    obtain ⟨j, hj, rfl⟩ := List.mem_map.1 hpl
    exact ⟨_, ho.inRoi.inBox (mem_boxList.1 hj), rfl⟩
  have hcov : ∀ j, InBox j out.shape → (out.addr j, A (addV off j)) ∈ ps.flatten := by
    intro j hj
    have hreg : InRegion (addV off j) off out.shape := inRegion_add hj hlen
    have hbox := region_inBox hr hreg
    have hch := (inChunk_iff_div (c := divV (addV off j) ds.chunkShape) h.dims.axes).2 ⟨hbox, rfl⟩
    have ht : Touches ds off out.shape (divV (addV off j) ds.chunkShape) := ⟨_, hreg, hch⟩
    obtain ⟨i, hi, hic⟩ := List.getElem_of_mem ((hmem _).2 ht)
    have hi' : i < (ps.map Res.ok).length := by omega
    obtain ⟨o, c, hc, ho, he⟩ := hres i hi'
    rw [List.getElem?_eq_getElem hi, hic, Option.some.injEq] at hc
    subst hc
    obtain ⟨q, hq, e1, _⟩ := ho.elements _ ((inChunk_iff_region ht.inGrid).1 hch) hreg
    have hqb := ho.inRoi.inBox hq
    have : j = addV o.beginInRoi q := addV_left_inj (by rw [hj.length_eq, hlen])
      (by rw [hqb.length_eq, hlen]) e1
    simp only [List.getElem_map, Res.ok.injEq] at he
    refine List.mem_flatten.2 ⟨ps[i]'(by simpa using hi'), List.getElem_mem _, ?_⟩
    rw [he, this]
    exact List.mem_map.2 ⟨q, mem_boxList.2 hq, rfl⟩
  exact delivers_of_pokes hfit hna hpoke hcov

/-! ### Histories -/

theorem replay_append {T : Type} : ∀ (A : List Nat → T) (ws vs : List (Write T)),
    replay A (ws ++ vs) = replay (replay A ws) vs
  | _, [], _ => rfl
  | A, w :: ws, vs => replay_append _ ws vs

theorem performs_chunk_inGrid (h : ds.WF) (hw : ds.canWrite = true) {c : List Nat} {data : List E.T} {σ σ' : Store}
    (hrun : run (ds.writeChunk c data) σ = (.ok (), σ')) : InGrid ds.shape ds.chunkShape c := by
  by_cases hc : ds.chunking.checkBlockCoordinate c = true
  · exact (h.checkBlock c).1 hc
  · exfalso
    rw [Dataset.writeChunk, hw, if_neg (by decide)] at hrun
    cases hh : ds.handle c with
    | ok b =>
      rw [hh, bind_ok, Dataset.checkChunk, if_pos (by simpa using hc)] at hrun
      simp [run] at hrun
    | throw e => rw [hh] at hrun; simp [run] at hrun
    | ub => rw [hh] at hrun; simp [run] at hrun

theorem performs_refines (h : ds.WF) {w : Write E.T} {σ σ' : Store}
    (hp : Performs ds w σ σ') (hw : ds.canWrite = true) {S : List Nat → E.T} (hσ : Refines ds σ S) :
    Refines ds σ' (override S w.off w.shape w.val) := by
  cases hp with
  | subarray inBuf inView off val scratch ts is hr hf hval hts hc =>
    obtain ⟨rs, hfin, hall, rfl⟩ := hc
    exact (writeRegion_refines h hw hr (copyRequest_spec inBuf inView val hf hval) hσ hts hfin).2.2 hall
  | scalar off shape v scratch ts is hr hts hc =>
    obtain ⟨rs, hfin, hall, rfl⟩ := hc
    exact (writeRegion_refines h hw hr (scalarRequest_spec v shape) hσ hts hfin).2.2 hall
  | chunk c data val hl hval hrun =>
    exact writeChunk_refines h hw (performs_chunk_inGrid h hw hrun) hl hval hσ hrun
  | remove c hg hrun => exact removeChunk_refines h hw hg hσ hrun

theorem reaches_refines (h : ds.WF) (hw : ds.canWrite = true) {ws : List (Write E.T)} {σ : Store}
    (hr : Reaches ds ws σ) : Refines ds σ (replay (fun _ => ds.fill) ws) := by
  induction hr with
  | empty he =>
    refine ⟨fun _ => ds.fill, ?_, fun _ _ _ _ => Or.inl rfl⟩
    intro c hc
    rw [he c hc]
    exact fun _ _ => rfl
  | step _ hp ih =>
    rw [replay_append]
    exact performs_refines h hp hw ih

/-! ### Chunks without an element other than the fill value are not stored -/

/-- every stored chunk has an element other than the fill value -/
def Sparse (ds : Dataset E) (β : List Nat → Option Bytes) : Prop :=
  ∀ c b, InGrid ds.shape ds.chunkShape c → β c = some b →
    ∃ content, Decodes ds c b content ∧ ∃ e ∈ content, E.ceq e ds.fill = false

theorem Sparse.step {β β' : List Nat → Option Bytes} (hs : Sparse ds β)
    (hc : ∀ c, InGrid ds.shape ds.chunkShape c → β' c = β c ∨ β' c = none ∨ ∃ A, Written ds c (β' c) A) :
    Sparse ds β' := by
  intro c b hg hb
  rcases hc c hg with h1 | h1 | ⟨A, h1⟩
  · exact hs c b hg (h1 ▸ hb)
  · rw [h1] at hb; cases hb
  · rw [hb] at h1
    obtain ⟨content, h2, _, h3⟩ := h1
    exact ⟨content, h2, h3⟩

theorem writeRegion_chunks (h : ds.WF) (hw : ds.canWrite = true) {off size : List Nat}
    (hr : RegionOk ds.shape off size) {fr : FillRequest E} {val : List Nat → E.T}
    (hfr : FillSpec fr size val) {σ : Store} {A : List Nat → E.T} (hA : Holds ds σ A)
    {scratch : Nat → List E.T} {ts : List (Prog Unit)}
    (hts : ds.writeRegion fr off size scratch = .ok ts) {is : List Nat} {rs : List (Res Unit)}
    (hfin : Finished (interleave is (ts, σ)).1 rs) {c : List Nat} (hc : InGrid ds.shape ds.chunkShape c) :
    (interleave is (ts, σ)).2 (ds.chunkKey c) = σ (ds.chunkKey c) ∨
    Written ds c ((interleave is (ts, σ)).2 (ds.chunkKey c)) (override A off size val) := by
  unfold Dataset.writeRegion at hts
  rw [h.requestChunks_ok hr] at hts
  simp only [Res.ok_bind, Res.pure_eq, Res.ok.injEq] at hts
  subst hts
  have hmem := fun c => h.mem_overlap (c := c) hr
  obtain ⟨h1, h2, h3⟩ := finished_tasks h (nodup_overlapList h.dims hr)
    (fun c hc => ((hmem c).1 hc).inGrid)
    (fun i c => ds.writeTask fr off size c (scratch i)) (fun i c => touches_writeTask ..) hfin
  by_cases ht : Touches ds off size c
  · obtain ⟨i, hi, hic⟩ := List.getElem_of_mem ((hmem c).2 ht)
    obtain ⟨_, h5⟩ := h3 i c (by rw [List.getElem?_eq_getElem hi, hic])
    rcases writeTask_exec h hw hr ht hfr (scratch i) (hA _ ht.inGrid) with ⟨e, he⟩ | ⟨v', he, hwr⟩
    · left; rw [h5, he]
    · right; rw [h5, he]; exact hwr
  · left
    refine h2 _ fun d hd he => ?_
    have hd' := (hmem d).1 hd
    exact ht (h.key_inj hd'.inGrid hc he ▸ hd')

/-- Every call leaves a chunk alone, removes it or rewrites it. -/
theorem performs_chunks (h : ds.WF) {w : Write E.T} {σ σ' : Store}
    (hp : Performs ds w σ σ') (hw : ds.canWrite = true) {A : List Nat → E.T} (hA : Holds ds σ A) {c : List Nat}
    (hc : InGrid ds.shape ds.chunkShape c) :
    σ' (ds.chunkKey c) = σ (ds.chunkKey c) ∨ σ' (ds.chunkKey c) = none ∨ ∃ B, Written ds c (σ' (ds.chunkKey c)) B := by
  cases hp with
  | subarray inBuf inView off val scratch ts is hr hf hval hts hcm =>
    obtain ⟨rs, hfin, hall, rfl⟩ := hcm
    rcases writeRegion_chunks h hw hr (copyRequest_spec inBuf inView val hf hval) hA hts hfin hc with h1 | h1
    · exact Or.inl h1
    · exact Or.inr (Or.inr ⟨_, h1⟩)
  | scalar off shape v scratch ts is hr hts hcm =>
    obtain ⟨rs, hfin, hall, rfl⟩ := hcm
    rcases writeRegion_chunks h hw hr (scalarRequest_spec v shape) hA hts hfin hc with h1 | h1
    · exact Or.inl h1
    · exact Or.inr (Or.inr ⟨_, h1⟩)
  | chunk d data val hl hval hrun =>
    have hg := performs_chunk_inGrid h hw hrun
    have hrun' := run_of_touches (touches_writeChunk ds d data false 0) σ
    rw [hrun] at hrun'
    have hr : Repr ds d (some data) (override A (mulV d ds.chunkShape) (ds.stored d) val) := by
      refine ⟨hl, fun x hx => ?_⟩
      rw [override_in hx]
      exact hval _ (region_sub hx).2
    rcases writeChunk_written h hw hg hr (σ (ds.chunkKey d)) with ⟨e, he⟩ | ⟨v', he, hwr⟩
    · rw [he] at hrun'; simp at hrun'
    · rw [he] at hrun'
      simp only [Prod.mk.injEq, true_and] at hrun'
      rw [hrun']
      by_cases hd : c = d
      · subst hd
        right; right
        rw [upd_same]
        exact ⟨_, hwr⟩
      · left
        exact upd_other _ _ fun hk => hd (h.key_inj hc hg hk)
  | remove d hg hrun =>
    have hσ' : σ' = σ.upd (ds.chunkKey d) none := by
      rw [Dataset.removeChunk, h.handle_eq hg, bind_ok, hw] at hrun
      simp only [Bool.not_true, Bool.false_eq_true, if_false] at hrun
      have := congrArg Prod.snd hrun
      exact this.symm
    rw [hσ']
    by_cases hd : c = d
    · subst hd
      right; left
      exact upd_same ..
    · left
      exact upd_other _ _ fun hk => hd (h.key_inj hc hg hk)

theorem reaches_sparse (h : ds.WF) (hw : ds.canWrite = true) {ws : List (Write E.T)} {σ : Store}
    (hr : Reaches ds ws σ) : Sparse ds fun c => σ (ds.chunkKey c) := by
  induction hr with
  | empty he =>
    intro c b hc hb
    cases (he c hc).symm.trans hb
  | step hr hp ih =>
    obtain ⟨A, hA, _⟩ := reaches_refines h hw hr
    exact ih.step fun c hc => performs_chunks h hp hw hA hc

end Z5
