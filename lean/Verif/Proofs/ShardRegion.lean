import Verif.Proofs.ShardTask

/-!
# Region calls on sharded datasets
-/

namespace Z5
open Spec Prog

variable {E : Elem} {sd : ShardedDataset E} {c d : List Nat}

namespace ShardedDataset

/-! ### Grouping of chunks by shard -/

theorem insertGroup_spec (s c : List Nat) : ∀ gs : List (List Nat × List (List Nat)),
    (gs.map Prod.fst).Nodup →
    ((insertGroup s c gs).map Prod.fst).Nodup ∧
    (∀ t ∈ (insertGroup s c gs).map Prod.fst, t = s ∨ t ∈ gs.map Prod.fst) ∧
    (∀ g ∈ insertGroup s c gs, g ∈ gs ∨
      (g.1 = s ∧ (g.2 = [c] ∨ ∃ cs, (s, cs) ∈ gs ∧ g.2 = cs ++ [c]))) ∧
    (∀ g ∈ gs, ∃ g' ∈ insertGroup s c gs, ∀ d ∈ g.2, d ∈ g'.2) ∧
    ∃ g ∈ insertGroup s c gs, c ∈ g.2
  | [], _ => by simp [insertGroup]
  | (t, cs) :: gs, hn => by
    rw [List.map_cons, List.nodup_cons] at hn
    obtain ⟨h1, h2, h3, h4, h5⟩ := insertGroup_spec s c gs hn.2
    unfold insertGroup
    by_cases he : t = s
    · subst he
      rw [if_pos rfl]
      refine ⟨?_, ?_, ?_, ?_, ?_⟩
      · rw [List.map_cons, List.nodup_cons]; exact hn
      · intro u hu; right; exact hu
      · intro g hg
        rcases List.mem_cons.1 hg with rfl | hg
        · exact Or.inr ⟨rfl, Or.inr ⟨cs, by simp, rfl⟩⟩
        · exact Or.inl (by simp [hg])
      · intro g hg
        rcases List.mem_cons.1 hg with rfl | hg
        · exact ⟨_, List.mem_cons_self .., fun d hd => by simp [show d ∈ cs from hd]⟩
        · exact ⟨g, by simp [hg], fun d hd => hd⟩
      · exact ⟨_, List.mem_cons_self .., by simp⟩
    · rw [if_neg he]
      refine ⟨?_, ?_, ?_, ?_, ?_⟩
      · rw [List.map_cons, List.nodup_cons]
        refine ⟨fun hm => ?_, h1⟩
        rcases h2 _ hm with h | h
        · exact he h
        · exact hn.1 h
      · intro u hu
        rw [List.map_cons] at hu
        rcases List.mem_cons.1 hu with rfl | hu
        · right; simp
        · rcases h2 u hu with h | h
          · exact Or.inl h
          · right; rw [List.map_cons]; exact List.mem_cons_of_mem _ h
      · intro g hg
        rcases List.mem_cons.1 hg with rfl | hg
        · exact Or.inl (by simp)
        · rcases h3 g hg with h | ⟨ha, hb | ⟨cs', hc, hd⟩⟩
          · exact Or.inl (by simp [h])
          · exact Or.inr ⟨ha, Or.inl hb⟩
          · exact Or.inr ⟨ha, Or.inr ⟨cs', by simp [hc], hd⟩⟩
      · intro g hg
        rcases List.mem_cons.1 hg with rfl | hg
        · exact ⟨_, List.mem_cons_self .., fun d hd => hd⟩
        · obtain ⟨g', hg', hd⟩ := h4 g hg
          exact ⟨g', by simp [hg'], hd⟩
      · obtain ⟨g, hg, hc⟩ := h5
        exact ⟨g, by simp [hg], hc⟩

/-- `gs` groups the chunks `cs` by shard -/
structure Groups (sd : ShardedDataset E) (cs : List (List Nat))
    (gs : List (List Nat × List (List Nat))) : Prop where
  ids : (gs.map Prod.fst).Nodup
  nodup : ∀ g ∈ gs, g.2.Nodup
  mem : ∀ g ∈ gs, ∀ c ∈ g.2, c ∈ cs ∧ sd.shardOf c = g.1
  nonempty : ∀ g ∈ gs, g.2 ≠ []
  cover : ∀ c ∈ cs, ∃ g ∈ gs, c ∈ g.2

theorem groupChunks_ok (h : sd.WF) : ∀ (cs done : List (List Nat))
    (gs : List (List Nat × List (List Nat))), Groups sd done gs → (done ++ cs).Nodup →
    (∀ c ∈ cs, InGrid sd.shape sd.chunkShape c) →
    ∃ gs', groupChunks sd.cps cs gs = .ok gs' ∧ Groups sd (done ++ cs) gs'
  | [], done, gs, hg, _, _ => ⟨gs, rfl, by rw [List.append_nil]; exact hg⟩
  | c :: cs, done, gs, hg, hn, hc => by
    obtain ⟨h1, h2, h3, h4, h5⟩ := insertGroup_spec (sd.shardOf c) c gs hg.ids
    have hfresh : ∀ g ∈ gs, c ∉ g.2 := by
      intro g hgm hcm
      have := (hg.mem g hgm c hcm).1
      rw [List.nodup_append] at hn
      exact hn.2.2 c this c (by simp) rfl
    have key : Groups sd (done ++ [c]) (insertGroup (sd.shardOf c) c gs) := by
      refine ⟨h1, ?_, ?_, ?_, ?_⟩
      · intro g hgm
        rcases h3 g hgm with h6 | ⟨_, h6 | ⟨cs', h6, h7⟩⟩
        · exact hg.nodup g h6
        · rw [h6]; simp
        · rw [h7, List.nodup_append]
          refine ⟨hg.nodup _ h6, by simp, ?_⟩
          intro a ha b hb hab
          rw [List.mem_singleton] at hb
          subst hab; subst hb
          exact hfresh _ h6 ha
      · intro g hgm d hd
        rcases h3 g hgm with h6 | ⟨h8, h6 | ⟨cs', h6, h7⟩⟩
        · obtain ⟨ha, hb⟩ := hg.mem g h6 d hd
          exact ⟨by simp [ha], hb⟩
        · rw [h6, List.mem_singleton] at hd
          subst hd; exact ⟨by simp, h8.symm⟩
        · rw [h7, List.mem_append, List.mem_singleton] at hd
          rcases hd with hd | rfl
          · obtain ⟨ha, hb⟩ := hg.mem _ h6 d hd
            exact ⟨by simp [ha], by rw [h8]; exact hb⟩
          · exact ⟨by simp, h8.symm⟩
      · intro g hgm
        rcases h3 g hgm with h6 | ⟨h8, h6 | ⟨cs', h6, h7⟩⟩
        · exact hg.nonempty g h6
        · rw [h6]; simp
        · rw [h7]; simp
      · intro d hd
        rcases List.mem_append.1 hd with hd | hd
        · obtain ⟨g, hgm, hdm⟩ := hg.cover d hd
          obtain ⟨g', hgm', hsub⟩ := h4 g hgm
          exact ⟨g', hgm', hsub d hdm⟩
        · rw [List.mem_singleton] at hd; subst hd; exact h5
    obtain ⟨gs', h6, h7⟩ := groupChunks_ok h cs (done ++ [c]) _ key
      (by rw [List.append_assoc]; exact hn) fun d hd => hc d (by simp [hd])
    refine ⟨gs', ?_, by rw [List.append_assoc] at h7; exact h7⟩
    rw [groupChunks, h.shardId_ok (hc c (by simp)), Res.ok_bind]
    exact h6

/-- the shards of a region, each with its chunks in the region -/
def groups (sd : ShardedDataset E) (off size : List Nat) : List (List Nat × List (List Nat)) :=
  match groupChunks sd.cps (overlapList sd.chunkShape off size) [] with
  | .ok gs => gs
  | _ => []

variable {off size : List Nat}

theorem WF.groups_ok (h : sd.WF) (hr : RegionOk sd.shape off size) :
    groupChunks sd.cps (overlapList sd.chunkShape off size) [] = .ok (sd.groups off size) ∧
      Groups sd (overlapList sd.chunkShape off size) (sd.groups off size) := by
  obtain ⟨gs, h1, h2⟩ := groupChunks_ok h (overlapList sd.chunkShape off size) [] []
    ⟨by simp, by simp, by simp, by simp, by simp⟩
    (by rw [List.nil_append]; exact nodup_overlapList h.base.dims hr)
    (fun c hc => ((h.base.mem_overlap hr).1 hc).inGrid)
  rw [List.nil_append] at h2
  unfold groups
  rw [h1]
  exact ⟨rfl, h2⟩

theorem WF.group_touches (h : sd.WF) (hr : RegionOk sd.shape off size)
    {g : List Nat × List (List Nat)} (hg : g ∈ sd.groups off size) :
    ∀ c ∈ g.2, Touches sd.toDataset off size c ∧ sd.shardOf c = g.1 := by
  intro c hc
  obtain ⟨h1, h2⟩ := (h.groups_ok hr).2.mem g hg c hc
  exact ⟨(h.base.mem_overlap hr).1 h1, h2⟩

theorem WF.group_inGrid (h : sd.WF) (hr : RegionOk sd.shape off size)
    {g : List Nat × List (List Nat)} (hg : g ∈ sd.groups off size) :
    InGrid sd.shape sd.shardShape g.1 := by
  have hne := (h.groups_ok hr).2.nonempty g hg
  obtain ⟨c, hc⟩ := List.exists_mem_of_ne_nil _ hne
  obtain ⟨ht, hs⟩ := h.group_touches hr hg c hc
  rw [← hs]
  exact h.shard_inGrid ht.inGrid

theorem WF.exists_group (h : sd.WF) (hr : RegionOk sd.shape off size)
    (hc : Touches sd.toDataset off size c) :
    ∃ g ∈ sd.groups off size, c ∈ g.2 ∧ sd.shardOf c = g.1 := by
  obtain ⟨g, hg, hm⟩ := (h.groups_ok hr).2.cover c ((h.base.mem_overlap hr).2 hc)
  exact ⟨g, hg, hm, ((h.groups_ok hr).2.mem g hg c hm).2⟩

/-- the chunks of a group are exactly those of the shard that the region touches -/
theorem WF.mem_group (h : sd.WF) (hr : RegionOk sd.shape off size)
    {g : List Nat × List (List Nat)} (hg : g ∈ sd.groups off size) (hs : sd.shardOf c = g.1) :
    c ∈ g.2 ↔ Touches sd.toDataset off size c := by
  refine ⟨fun hc => (h.group_touches hr hg c hc).1, fun hc => ?_⟩
  obtain ⟨g', hg', hm, hs'⟩ := h.exists_group hr hc
  have hn := (h.groups_ok hr).2.ids
  obtain ⟨i, hi, rfl⟩ := List.getElem_of_mem hg
  obtain ⟨j, hj, rfl⟩ := List.getElem_of_mem hg'
  have : i = j := by
    refine (List.getElem_inj (xs := (sd.groups off size).map Prod.fst) (h₀ := by simpa using hi)
      (h₁ := by simpa using hj) hn).1 ?_
    rw [List.getElem_map, List.getElem_map, ← hs, ← hs']
  subst this
  exact hm

/-! ### The tasks of a region write -/

/-- the tasks of a region write, with the file each of them works on -/
def jobs (sd : ShardedDataset E) (fr : FillRequest E) (off size : List Nat)
    (scratch : Nat → List E.T) : List (Key × Prog Unit) :=
  (sd.groups off size).mapIdx fun i g =>
    (sd.skey g.1, sd.writeShardTask fr off size g.1 g.2 (scratch i))

theorem mem_jobs {fr : FillRequest E} {scratch : Nat → List E.T} {j : Key × Prog Unit}
    (hj : j ∈ sd.jobs fr off size scratch) : ∃ g ∈ sd.groups off size, ∃ i,
      j = (sd.skey g.1, sd.writeShardTask fr off size g.1 g.2 (scratch i)) := by
  obtain ⟨i, hi, rfl⟩ := List.getElem_of_mem hj
  simp only [jobs, List.length_mapIdx] at hi
  exact ⟨_, List.getElem_mem hi, i, by simp [jobs]⟩

theorem exists_job {fr : FillRequest E} (scratch : Nat → List E.T) {g : List Nat × List (List Nat)}
    (hg : g ∈ sd.groups off size) :
    ∃ i, (sd.skey g.1, sd.writeShardTask fr off size g.1 g.2 (scratch i)) ∈
      sd.jobs fr off size scratch := by
  obtain ⟨i, hi, rfl⟩ := List.getElem_of_mem hg
  refine ⟨i, List.mem_iff_getElem.2 ⟨i, by simpa [jobs] using hi, by simp [jobs]⟩⟩

theorem map_fst_jobs (fr : FillRequest E) (scratch : Nat → List E.T) :
    (sd.jobs fr off size scratch).map Prod.fst =
      ((sd.groups off size).map Prod.fst).map sd.skey := by
  unfold jobs
  rw [map_mapIdx', List.map_map]
  apply List.ext_getElem
  · simp
  · intro i h1 h2; simp

theorem jobsOk (h : sd.WF) (hr : RegionOk sd.shape off size) (fr : FillRequest E)
    (scratch : Nat → List E.T) : JobsOk (sd.jobs fr off size scratch) := by
  refine ⟨?_, ?_⟩
  · intro j hj
    obtain ⟨g, _, i, rfl⟩ := mem_jobs hj
    exact touches_writeShardTask ..
  · rw [map_fst_jobs]
    refine nodup_map_of_inj (h.groups_ok hr).2.ids ?_
    intro a ha b hb he
    obtain ⟨g, hg, rfl⟩ := List.mem_map.1 ha
    obtain ⟨g', hg', rfl⟩ := List.mem_map.1 hb
    exact h.skey_inj (h.group_inGrid hr hg) (h.group_inGrid hr hg') he

theorem writeRegion_jobs (h : sd.WF) (hw : sd.canWrite = true) (hr : RegionOk sd.shape off size)
    (fr : FillRequest E) (scratch : Nat → List E.T) :
    sd.writeRegion fr off size scratch = .ok ((sd.jobs fr off size scratch).map Prod.snd) := by
  unfold writeRegion
  rw [h.base.requestChunks_ok hr, Res.ok_bind, hw, if_neg (by decide), h.cps_ok, Res.ok_bind,
    (h.groups_ok hr).1, Res.ok_bind, jobs, map_mapIdx']
  rfl

/-! ### The effect of a region write -/

theorem blobAt_eq {σ : Store} {bs : List Bytes} (hs : ShardOk sd (σ (sd.skey (sd.shardOf c))) bs) :
    sd.blobAt σ c = bs[sd.slotOf c]?.bind present := by
  unfold blobAt
  rw [hs.eq]

/-- What a write task makes of its shard. -/
theorem job_effect (h : sd.WF) (hw : sd.canWrite = true) (hr : RegionOk sd.shape off size)
    {fr : FillRequest E} {val : List Nat → E.T} (hfr : FillSpec fr size val)
    {g : List Nat × List (List Nat)} (hg : g ∈ sd.groups off size) (scratch : List E.T)
    {v : Option Bytes} {bs : List Bytes} (hv : ShardOk sd v bs) {A : List Nat → E.T}
    (hA : ∀ c, InGrid sd.shape sd.chunkShape c → sd.shardOf c = g.1 →
      BlobOk sd.toDataset c (bs[sd.slotOf c]?.bind present) A) :
    (exec1 (sd.writeShardTask fr off size g.1 g.2 scratch) v).1 ≠ .ub ∧
    ∃ bs', ShardOk sd (exec1 (sd.writeShardTask fr off size g.1 g.2 scratch) v).2 bs' ∧
      ((exec1 (sd.writeShardTask fr off size g.1 g.2 scratch) v).1 ≠ .ok () → bs' = bs) ∧
      (∀ c, InGrid sd.shape sd.chunkShape c → sd.shardOf c = g.1 →
        ¬ Touches sd.toDataset off size c → bs'[sd.slotOf c]? = bs[sd.slotOf c]?) ∧
      (TidyShard sd g.1 v → TidyShard sd g.1 (exec1 (sd.writeShardTask fr off size g.1 g.2 scratch) v).2) ∧
      ((exec1 (sd.writeShardTask fr off size g.1 g.2 scratch) v).1 = .ok () →
        ∀ c, sd.shardOf c = g.1 → Touches sd.toDataset off size c →
          Written sd.toDataset c (bs'[sd.slotOf c]?.bind present) (override A off size val)) := by
  have ht := h.group_touches hr hg
  rcases writeShardTask_exec h hw hr hfr (h.group_inGrid hr hg) scratch
    ((h.groups_ok hr).2.nodup g hg) ht hv (A := A)
    (fun c hc => hA c (ht c hc).1.inGrid (ht c hc).2) with ⟨e, he⟩ | ⟨v', bs', he, h1, hne', h2, h3⟩
  · rw [he]
    exact ⟨by simp, bs, hv, fun _ => rfl, fun _ _ _ _ => rfl, id, fun hh => by simp at hh⟩
  · rw [he]
    refine ⟨by simp, bs', h1, fun hh => absurd rfl hh, ?_, ?_, ?_⟩
    · intro c hc hs hn
      refine h3 _ fun d hd he => hn ?_
      obtain ⟨htd, hsd⟩ := ht d hd
      have := h.slot_inj htd.inGrid hc (by rw [hsd, hs]) he
      subst this
      exact htd
    · intro htidy b bs'' hb hbs''
      cases hbs''.unique h1
      refine ⟨?_, hne' (by simp only at hb; rw [hb]; simp)⟩
      have hedge := htidy.edge hv
      intro i x hx hne
      by_cases hi : ∃ c ∈ g.2, sd.slotOf c = i
      · obtain ⟨c, hc, he⟩ := hi
        exact ⟨c, (ht c hc).1.inGrid, (ht c hc).2, he⟩
      · refine hedge i x ?_ hne
        rw [← h3 i fun c hc he => hi ⟨c, hc, he⟩]
        exact hx
    · intro _ c hs hc
      exact h2 c ((h.mem_group hr hg hs).2 hc)

theorem SRefines.blobs {σ : Store} {A : List Nat → E.T}
    (hA : HoldsB sd.toDataset (sd.blobAt σ) A) {s : List Nat} {bs : List Bytes}
    (hs : ShardOk sd (σ (sd.skey s)) bs) :
    ∀ c, InGrid sd.shape sd.chunkShape c → sd.shardOf c = s →
      BlobOk sd.toDataset c (bs[sd.slotOf c]?.bind present) A := by
  intro c hc he
  subst he
  rw [← blobAt_eq hs]
  exact hA c hc

/-- A region write, whatever the schedule: no undefined behaviour, files stay valid, chunks outside the
    region keep their bytes, chunks in the region are either rewritten or keep theirs. -/
theorem writeRegion_effect (h : sd.WF) (hw : sd.canWrite = true) (hr : RegionOk sd.shape off size)
    {fr : FillRequest E} {val : List Nat → E.T} (hfr : FillSpec fr size val) {σ : Store}
    {A : List Nat → E.T} (hval : sd.Valid σ) (hA : HoldsB sd.toDataset (sd.blobAt σ) A)
    (scratch : Nat → List E.T) :
    (∀ j ∈ sd.jobs fr off size scratch, (exec1 j.2 (σ j.1)).1 ≠ .ub) ∧
    sd.Valid (finalOf (sd.jobs fr off size scratch) σ) ∧
    (sd.Tidy σ → sd.Tidy (finalOf (sd.jobs fr off size scratch) σ)) ∧
    (∀ c, InGrid sd.shape sd.chunkShape c →
      sd.blobAt (finalOf (sd.jobs fr off size scratch) σ) c = sd.blobAt σ c ∨
      (Touches sd.toDataset off size c ∧ Written sd.toDataset c
        (sd.blobAt (finalOf (sd.jobs fr off size scratch) σ) c) (override A off size val))) ∧
    ((∀ j ∈ sd.jobs fr off size scratch, (exec1 j.2 (σ j.1)).1 = .ok ()) →
      ∀ c, Touches sd.toDataset off size c → Written sd.toDataset c
        (sd.blobAt (finalOf (sd.jobs fr off size scratch) σ) c) (override A off size val)) := by
  have hjobs := jobsOk h hr fr scratch
  -- shards without a task
  have hother : ∀ s, InGrid sd.shape sd.shardShape s → (∀ g ∈ sd.groups off size, g.1 ≠ s) →
      finalOf (sd.jobs fr off size scratch) σ (sd.skey s) = σ (sd.skey s) := by
    intro s hs hn
    refine finalOf_not_mem (fun j hj he => ?_) σ
    obtain ⟨g, hg, i, rfl⟩ := mem_jobs hj
    exact hn g hg (h.skey_inj (h.group_inGrid hr hg) hs he)
  -- shards with a task
  have hmine : ∀ g ∈ sd.groups off size, ∃ j ∈ sd.jobs fr off size scratch, ∃ bs bs',
      ShardOk sd (σ (sd.skey g.1)) bs ∧
      ShardOk sd (finalOf (sd.jobs fr off size scratch) σ (sd.skey g.1)) bs' ∧
      (TidyShard sd g.1 (σ (sd.skey g.1)) →
        TidyShard sd g.1 (finalOf (sd.jobs fr off size scratch) σ (sd.skey g.1))) ∧
      (exec1 j.2 (σ j.1)).1 ≠ .ub ∧ ((exec1 j.2 (σ j.1)).1 ≠ .ok () → bs' = bs) ∧
      (∀ c, InGrid sd.shape sd.chunkShape c → sd.shardOf c = g.1 →
        ¬ Touches sd.toDataset off size c → bs'[sd.slotOf c]? = bs[sd.slotOf c]?) ∧
      ((exec1 j.2 (σ j.1)).1 = .ok () → ∀ c, sd.shardOf c = g.1 → Touches sd.toDataset off size c →
        Written sd.toDataset c (bs'[sd.slotOf c]?.bind present) (override A off size val)) := by
    intro g hg
    obtain ⟨i, hj⟩ := exists_job (fr := fr) scratch hg
    obtain ⟨bs, hbs⟩ := hval _ (h.group_inGrid hr hg)
    obtain ⟨h1, bs', h2, h3, h4, h4', h5⟩ := job_effect h hw hr hfr hg (scratch i) hbs
      (SRefines.blobs hA hbs)
    refine ⟨_, hj, bs, bs', hbs, ?_, ?_, h1, h3, h4, h5⟩
    · rw [finalOf_mem hjobs hj σ]
      exact h2
    · rw [finalOf_mem hjobs hj σ]
      exact h4'
  refine ⟨?_, ?_, ?_, ?_, ?_⟩
  · intro j hj
    obtain ⟨g, hg, i, rfl⟩ := mem_jobs hj
    obtain ⟨bs, hbs⟩ := hval _ (h.group_inGrid hr hg)
    exact (job_effect h hw hr hfr hg (scratch i) hbs (SRefines.blobs hA hbs)).1
  · intro s hs
    by_cases hg : ∃ g ∈ sd.groups off size, g.1 = s
    · obtain ⟨g, hg, rfl⟩ := hg
      obtain ⟨_, _, _, bs', _, h2, _⟩ := hmine g hg
      exact ⟨bs', h2⟩
    · rw [hother s hs fun g hgm he => hg ⟨g, hgm, he⟩]
      exact hval s hs
  · intro htidy s hs
    by_cases hg : ∃ g ∈ sd.groups off size, g.1 = s
    · obtain ⟨g, hg, rfl⟩ := hg
      obtain ⟨_, _, _, bs', _, _, h3, _⟩ := hmine g hg
      exact h3 (htidy _ hs)
    · rw [hother s hs fun g hgm he => hg ⟨g, hgm, he⟩]
      exact htidy s hs
  · intro c hc
    by_cases hg : ∃ g ∈ sd.groups off size, g.1 = sd.shardOf c
    · obtain ⟨g, hg, hs⟩ := hg
      obtain ⟨j, hj, bs, bs', h1, h2, _, h3, h4, h5, h6⟩ := hmine g hg
      rw [hs] at h1 h2
      rw [blobAt_eq h1, blobAt_eq h2]
      by_cases ht : Touches sd.toDataset off size c
      · by_cases hok : (exec1 j.2 (σ j.1)).1 = .ok ()
        · exact Or.inr ⟨ht, h6 hok c hs.symm ht⟩
        · rw [h4 hok]; exact Or.inl rfl
      · rw [h5 c hc hs.symm ht]; exact Or.inl rfl
    · left
      unfold blobAt
      rw [hother _ (h.shard_inGrid hc) fun g hgm he => hg ⟨g, hgm, he⟩]
  · intro hall c ht
    obtain ⟨g, hg, hm, hs⟩ := h.exists_group hr ht
    obtain ⟨j, hj, bs, bs', h1, h2, _, h3, h4, h5, h6⟩ := hmine g hg
    rw [← hs] at h2
    rw [blobAt_eq h2]
    exact h6 (hall j hj) c hs ht

theorem refinesB_of_chunks {ds : Dataset E} (h : ds.WF) {β β' : List Nat → Option Bytes}
    {S B A : List Nat → E.T} (hA : HoldsB ds β A)
    (hB : ∀ c x, InGrid ds.shape ds.chunkShape c → InStored ds c x →
      SameOrFill E.ceq ds.fill (B x) (S x))
    (hc : ∀ c, InGrid ds.shape ds.chunkShape c → Written ds c (β' c) B ∨
      (β' c = β c ∧ ∀ x, InStored ds c x → B x = A x)) : RefinesB ds β' S := by
  obtain ⟨A', h1, h2⟩ := refinesOnB_of_chunks h (S := S) (fun _ => True)
    (fun c hg _ => Or.inr (hA c hg)) (fun c x hg _ => hB c x hg) (fun c hg _ => hc c hg)
  exact ⟨A', fun c hg => h1 c hg trivial, fun c x hg => h2 c x hg trivial⟩

theorem writeRegion_refines (h : sd.WF) (hw : sd.canWrite = true) (hr : RegionOk sd.shape off size)
    {fr : FillRequest E} {val : List Nat → E.T} (hfr : FillSpec fr size val) {σ : Store}
    {S : List Nat → E.T} (hσ : sd.SRefines σ S) {scratch : Nat → List E.T} {ts : List (Prog Unit)}
    (hts : sd.writeRegion fr off size scratch = .ok ts) {is : List Nat} {rs : List (Res Unit)}
    (hfin : Finished (interleave is (ts, σ)).1 rs) :
    (∀ r ∈ rs, r ≠ .ub) ∧
    (∃ S', sd.SRefines (interleave is (ts, σ)).2 S' ∧
      ∀ x, S' x = S x ∨ (InRegion x off size ∧ S' x = val (subV x off))) ∧
    ((∀ r ∈ rs, r = .ok ()) →
      sd.SRefines (interleave is (ts, σ)).2 (override S off size val)) := by
  rw [writeRegion_jobs h hw hr] at hts
  have hts := Res.ok.inj hts
  subst hts
  obtain ⟨h1, h2⟩ := finished_jobs (jobsOk h hr fr scratch) hfin
  rw [h1, h2]
  obtain ⟨hval, A, hA, hAS⟩ := hσ
  obtain ⟨e1, e2, _, e3, e4⟩ := writeRegion_effect h hw hr hfr hval hA scratch
  refine ⟨?_, ?_, ?_⟩
  · intro r hr'
    obtain ⟨j, hj, rfl⟩ := List.mem_map.1 hr'
    exact e1 j hj
  · obtain ⟨S', h5, h6⟩ := refinesB_frame h.base (off := off) (size := size) (val := val) hA hAS
      (β' := sd.blobAt (finalOf (sd.jobs fr off size scratch) σ)) fun c hc => by
        rcases e3 c hc with h3 | h3
        · exact Or.inr h3
        · exact Or.inl h3.2
    exact ⟨S', ⟨e2, h5⟩, h6⟩
  · intro hall
    refine ⟨e2, refinesB_of_chunks h.base hA
      (sameOrFill_override hAS (off := off) (size := size) (val := val)) fun c hc => ?_⟩
    by_cases ht : Touches sd.toDataset off size c
    · left
      exact e4 (fun j hj => hall _ (List.mem_map.2 ⟨j, hj, rfl⟩)) c ht
    · right
      refine ⟨?_, fun x hx => ?_⟩
      · rcases e3 c hc with h3 | h3
        · exact h3
        · exact absurd h3.1 ht
      · unfold override
        rw [if_neg (not_in_region hr hc hx ht)]

/-! ### Single chunks -/

theorem touches_writeInnerBlob (h : sd.WF) (hc : InGrid sd.shape sd.chunkShape c)
    (blob : Option Bytes) : TouchesOnly (sd.skey (sd.shardOf c)) (sd.writeInnerBlob c blob) := by
  unfold writeInnerBlob
  rw [h.shardId_ok hc, bind_ok, h.shardSlot_ok hc, bind_ok]
  refine TouchesOnly.bind (touches_readShardBlobs _) fun bs => ?_
  split
  · trivial
  · exact touches_writeShardBlobs _ _

theorem writeInnerBlob_exec (h : sd.WF) (hw : sd.canWrite = true)
    (hc : InGrid sd.shape sd.chunkShape c) (blob : Option Bytes) {v : Option Bytes}
    {bs : List Bytes} (hv : ShardOk sd v bs) :
    (∃ e, exec1 (sd.writeInnerBlob c blob) v = (.throw e, v)) ∨
    ∃ v', exec1 (sd.writeInnerBlob c blob) v = (.ok (), v') ∧
      ShardOk sd v' (bs.set (sd.slotOf c) (blob.getD [])) ∧
      (v' ≠ none → ∃ x ∈ bs.set (sd.slotOf c) (blob.getD []), x ≠ []) := by
  have hlt := h.slot_lt hc
  have hl := hv.length
  unfold writeInnerBlob
  rw [h.shardId_ok hc, bind_ok, h.shardSlot_ok hc, bind_ok,
    exec1_bind_ok (readShardBlobs_exec h (h.shard_inGrid hc) hv), if_neg (by omega)]
  exact writeShardBlobs_exec h hw (h.shard_inGrid hc) (by rw [List.length_set]; exact hl) v

/-- Replacing the slot of one chunk. -/
theorem writeInnerBlob_effect (h : sd.WF) (hw : sd.canWrite = true)
    (hc : InGrid sd.shape sd.chunkShape c) (blob : Option Bytes) {σ : Store} (hval : sd.Valid σ) :
    (∃ e, run (sd.writeInnerBlob c blob) σ = (.throw e, σ)) ∨
    ∃ σ', run (sd.writeInnerBlob c blob) σ = (.ok (), σ') ∧ (sd.Valid σ' ∧ (sd.Tidy σ → sd.Tidy σ')) ∧
      sd.blobAt σ' c = present (blob.getD []) ∧
      (∀ d, InGrid sd.shape sd.chunkShape d → d ≠ c → sd.blobAt σ' d = sd.blobAt σ d) ∧
      ∀ k, k ≠ sd.skey (sd.shardOf c) → σ' k = σ k := by
  have hs := h.shard_inGrid hc
  obtain ⟨bs, hbs⟩ := hval _ hs
  have hlt := h.slot_lt hc
  have hl := hbs.length
  rw [run_of_touches (touches_writeInnerBlob h hc blob)]
  rcases writeInnerBlob_exec h hw hc blob hbs with ⟨e, he⟩ | ⟨v', he, hv', hne'⟩
  · left; exact ⟨e, by rw [he, upd_self]⟩
  · right
    rw [he]
    have hmine : ShardOk sd (σ.upd (sd.skey (sd.shardOf c)) v' (sd.skey (sd.shardOf c)))
        (bs.set (sd.slotOf c) (blob.getD [])) := by rw [upd_same]; exact hv'
    refine ⟨_, rfl, ⟨?_, ?_⟩, ?_, ?_, fun k hk => upd_other σ v' hk⟩
    · intro s hs'
      by_cases he : s = sd.shardOf c
      · subst he
        exact ⟨_, hmine⟩
      · rw [upd_other σ v' fun hk => he (h.skey_inj hs' hs hk)]
        exact hval s hs'
    · intro htidy s hs'
      by_cases he : s = sd.shardOf c
      · subst he
        intro b bs' hb hbs'
        cases hbs'.unique hmine
        rw [upd_same] at hb
        have hb : v' = some b := hb
        refine ⟨?_, hne' (by rw [hb]; simp)⟩
        have hedge := (htidy _ hs).edge hbs
        intro i x hx hne
        by_cases hi : sd.slotOf c = i
        · exact ⟨c, hc, rfl, hi⟩
        · rw [List.getElem?_set_ne hi] at hx
          exact hedge i x hx hne
      · rw [upd_other σ v' fun hk => he (h.skey_inj hs' hs hk)]
        exact htidy s hs'
    · rw [blobAt_eq hmine, List.getElem?_set_self (by omega)]
      rfl
    · intro d hd hne
      by_cases he : sd.shardOf d = sd.shardOf c
      · rw [blobAt_eq (by rw [he]; exact hmine), blobAt_eq (by rw [he]; exact hbs),
          List.getElem?_set_ne fun hsl => hne (h.slot_inj hd hc he hsl.symm)]
      · unfold blobAt
        rw [upd_other σ v' fun hk => he (h.skey_inj (h.shard_inGrid hd) hs hk)]

theorem not_in_chunk (h : sd.WF) (hc : InGrid sd.shape sd.chunkShape c)
    (hd : InGrid sd.shape sd.chunkShape d) (hne : d ≠ c) {x : List Nat}
    (hx : InStored sd.toDataset d x) : ¬ InRegion x (mulV c sd.chunkShape) (sd.stored c) := by
  intro hx'
  have hx' : InStored sd.toDataset c x := hx'
  exact hne (by rw [← hx.div h.base hd, ← hx'.div h.base hc])

theorem stored_eq (h : sd.WF) (c : List Nat) : sd.stored c = sd.chunkShape := by
  rw [Dataset.stored, if_pos h.isZarr]

theorem writeChunk_unfold (h : sd.WF) (hw : sd.canWrite = true)
    (hc : InGrid sd.shape sd.chunkShape c) (data : List E.T) :
    sd.writeChunk c data = (.ret (sd.makeChunkBlob c data) >>= sd.writeInnerBlob c) := by
  unfold writeChunk
  rw [hw, if_neg (by decide), h.base.handle_eq hc, bind_ok]
  have : sd.checkChunk c false = .ok () := by
    unfold checkChunk
    rw [(h.base.checkBlock c).2 hc]
    rfl
  rw [this, bind_ok]

theorem writeChunk_refines (h : sd.WF) (hw : sd.canWrite = true)
    (hc : InGrid sd.shape sd.chunkShape c) {data : List E.T} {val : List Nat → E.T}
    (hl : data.length = prod sd.chunkShape)
    (hval : ∀ i, InBox i sd.chunkShape → data[ravel sd.chunkShape i]? = some (val i))
    {σ σ' : Store} {S : List Nat → E.T} (hσ : sd.SRefines σ S)
    (hrun : run (sd.writeChunk c data) σ = (.ok (), σ')) :
    sd.SRefines σ' (override S (mulV c sd.chunkShape) sd.chunkShape val) := by
  obtain ⟨hv, A, hA, hAS⟩ := hσ
  have hst := stored_eq h c
  have hrep : Repr sd.toDataset c (some data)
      (override A (mulV c sd.chunkShape) sd.chunkShape val) := by
    refine ⟨by rw [hst]; exact hl, fun x hx => ?_⟩
    unfold InStored at hx
    rw [hst] at hx ⊢
    rw [override_in hx, hval _ (region_sub hx).2]
  rw [writeChunk_unfold h hw hc] at hrun
  rcases makeChunkBlob_cases h hc hrep with ⟨e, he⟩ | ⟨b, hb, hwr⟩
  · rw [he] at hrun; simp [run] at hrun
  rw [hb, bind_ok] at hrun
  rcases writeInnerBlob_effect h hw hc b hv with ⟨e, he⟩ | ⟨τ, he, h1, h2, h3, _⟩
  · rw [he] at hrun; simp at hrun
  · rw [he, Prod.mk.injEq] at hrun
    obtain ⟨_, rfl⟩ := hrun
    refine ⟨h1.1, refinesB_of_chunks h.base hA
      (sameOrFill_override hAS (off := mulV c sd.chunkShape) (size := sd.chunkShape) (val := val))
      fun d hd => ?_⟩
    by_cases hdc : d = c
    · subst hdc; left; rw [h2]; exact hwr
    · right
      refine ⟨h3 d hd hdc, fun x hx => ?_⟩
      have := not_in_chunk h hc hd hdc hx
      rw [hst] at this
      unfold override
      rw [if_neg this]

theorem removeChunk_refines (h : sd.WF) (hw : sd.canWrite = true)
    (hc : InGrid sd.shape sd.chunkShape c) {σ σ' : Store} {S : List Nat → E.T}
    (hσ : sd.SRefines σ S) (hrun : run (sd.removeChunk c) σ = (.ok (), σ')) :
    sd.SRefines σ' (override S (mulV c sd.chunkShape) sd.chunkShape fun _ => sd.fill) := by
  obtain ⟨hv, A, hA, hAS⟩ := hσ
  have hst := stored_eq h c
  rcases writeInnerBlob_effect h hw hc none hv with ⟨e, he⟩ | ⟨τ, he, h1, h2, h3, _⟩
  · rw [removeChunk, he] at hrun; simp at hrun
  · rw [removeChunk, he, Prod.mk.injEq] at hrun
    obtain ⟨_, rfl⟩ := hrun
    -- the new content is exactly the overridden array, not only up to comparison with the fill value
    refine ⟨h1.1, override A (mulV c sd.chunkShape) sd.chunkShape (fun _ => sd.fill), fun d hd => ?_,
      sameOrFill_override hAS⟩
    by_cases hdc : d = c
    · subst hdc
      rw [h2]
      intro x hx
      unfold InStored at hx
      rw [hst] at hx
      exact override_in hx
    · rw [h3 d hd hdc]
      refine (hA d hd).congr fun x hx => ?_
      have := not_in_chunk h hc hd hdc hx
      rw [hst] at this
      unfold override
      rw [if_neg this]

/-! ### Reading -/

/-- what `readShardRaw` returns for a shard with slots `bs` -/
def RawOk (bs : List Bytes) : Option (Bytes × List (Nat × Nat)) → Prop
  | none => ∀ b ∈ bs, b = []
  | some (b, tab) => ∀ (i : Nat) (x : Bytes), bs[i]? = some x → ∃ o n, tab[i]? = some (o, n) ∧
      ((x = [] ∧ n = 0) ∨ (x ≠ [] ∧ n ≠ 0 ∧ slice b o n = .ok x))

theorem readShardRaw_exec (h : sd.WF) {s : List Nat} (hs : InGrid sd.shape sd.shardShape s)
    {v : Option Bytes} {bs : List Bytes} (hv : ShardOk sd v bs) :
    ∃ raw, exec1 (sd.readShardRaw s) v = (.ok raw, v) ∧ RawOk bs raw := by
  unfold readShardRaw
  rcases readShard_exec h hs hv with ⟨_, h2, h3⟩ | ⟨b, es, _, h3, h4, h5, h6⟩
  · refine ⟨none, by rw [exec1_bind_ok h3]; rfl, fun b hb => ?_⟩
    rw [h2] at hb
    exact (List.mem_replicate.1 hb).2
  · refine ⟨_, by rw [exec1_bind_ok h3]; rfl, ?_⟩
    rw [extract_total b es h6] at h4
    have h4 := Res.ok.inj h4
    intro i x hx
    rw [← h4, List.getElem?_map] at hx
    cases he : es[i]? with
    | none => rw [he] at hx; simp at hx
    | some e =>
      rw [he, Option.map_some, Option.some.injEq] at hx
      have h7 : e.empty = decide (x = []) := by
        have := congrArg (fun l => l[i]?) h5
        simp only [List.getElem?_map, he, Option.map_some] at this
        rw [← h4, List.getElem?_map, he, Option.map_some, Option.map_some, hx] at this
        exact Option.some.inj this
      have hm := h6 e (List.mem_of_getElem? he)
      by_cases hem : e.empty = true
      · refine ⟨0, 0, by rw [List.getElem?_map, he, Option.map_some, if_pos hem], Or.inl ⟨?_, rfl⟩⟩
        rw [hem] at h7
        exact of_decide_eq_true h7.symm
      · refine ⟨e.offset, e.nbytes, by rw [List.getElem?_map, he, Option.map_some, if_neg hem], Or.inr ?_⟩
        have hne : x ≠ [] := by
          intro hx'
          rw [hx'] at h7
          exact hem (by rw [h7]; rfl)
        rw [if_neg hem] at hx
        refine ⟨hne, fun hz => hne ?_, ?_⟩
        · rw [← hx, hz, List.take_zero]
        · rcases hm with hm | hm
          · exact absurd hm hem
          · unfold slice
            rw [if_pos hm, hx]

theorem read_expected {ds : Dataset E} {c : List Nat} {out : View} {A : List Nat → E.T}
    (hg : InGrid ds.shape ds.chunkShape c)
    (hlen : off.length = out.shape.length) {o : RoiOverlap}
    (hof : OverlapFacts (mulV c ds.chunkShape) (extV ds.shape ds.chunkShape c) off out.shape o) :
    (∀ p ∈ (boxList o.shapeInRoi).map (fun i => (out.addr (addV o.beginInRoi i),
        A (addV off (addV o.beginInRoi i)))),
      ∃ j, InBox j out.shape ∧ p = (out.addr j, A (addV off j))) ∧
    ∀ j, InBox j out.shape → InChunk ds.shape ds.chunkShape c (addV off j) →
      (out.addr j, A (addV off j)) ∈ (boxList o.shapeInRoi).map (fun i =>
        (out.addr (addV o.beginInRoi i), A (addV off (addV o.beginInRoi i)))) := by
  refine ⟨?_, ?_⟩
  · intro p hp
    obtain ⟨j, hj, rfl⟩ := List.mem_map.1 hp
    exact ⟨_, hof.inRoi.inBox (mem_boxList.1 hj), rfl⟩
  · intro j hj hch
    have hreg : InRegion (addV off j) off out.shape := inRegion_add hj hlen
    obtain ⟨q, hq, e1, _⟩ := hof.elements _ ((inChunk_iff_region hg).1 hch) hreg
    have hqb := hof.inRoi.inBox hq
    have : j = addV o.beginInRoi q := addV_left_inj (by rw [hj.length_eq, hlen])
      (by rw [hqb.length_eq, hlen]) e1
    rw [this]
    exact List.mem_map.2 ⟨q, mem_boxList.2 hq, rfl⟩

theorem readSlots_exec (h : sd.WF) {out : View} (hr : RegionOk sd.shape off out.shape)
    (hout : out.strides.length = out.shape.length) {A : List Nat → E.T} {bs : List Bytes}
    (hl : bs.length = sd.nSlots) {raw : Option (Bytes × List (Nat × Nat))} (hraw : RawOk bs raw) :
    ∀ (cs : List (List Nat)) (scratch : List E.T),
      (∀ c ∈ cs, Touches sd.toDataset off out.shape c) →
      (∀ c ∈ cs, BlobOk sd.toDataset c (bs[sd.slotOf c]?.bind present) A) →
      ∃ ps, sd.readSlots out off out.shape raw cs scratch = .ok ps ∧
        (∀ p ∈ ps, ∃ j, InBox j out.shape ∧ p = (out.addr j, A (addV off j))) ∧
        ∀ c ∈ cs, ∀ j, InBox j out.shape → InChunk sd.shape sd.chunkShape c (addV off j) →
          (out.addr j, A (addV off j)) ∈ ps
  | [], _, _, _ => ⟨[], rfl, by simp, by simp⟩
  | c :: cs, scratch, ht, hA => by
    have htc := ht c (by simp)
    have hg := htc.inGrid
    have hlt := h.slot_lt hg
    obtain ⟨o, ho, hof⟩ := h.base.overlap hr htc
    obtain ⟨hx1, hx2⟩ := read_expected (A := A) hg (All₃.length_eq hr).2 hof
    have ih := fun s => readSlots_exec h hr hout hl hraw cs s (fun d hd => ht d (by simp [hd]))
      (fun d hd => hA d (by simp [hd]))
    -- the rest is appended
    have happ : ∀ ps', (∀ p ∈ ps', ∃ j, InBox j out.shape ∧ p = (out.addr j, A (addV off j))) →
        (∀ c ∈ cs, ∀ j, InBox j out.shape → InChunk sd.shape sd.chunkShape c (addV off j) →
          (out.addr j, A (addV off j)) ∈ ps') →
        (∀ p ∈ (boxList o.shapeInRoi).map (fun i => (out.addr (addV o.beginInRoi i),
            A (addV off (addV o.beginInRoi i)))) ++ ps',
          ∃ j, InBox j out.shape ∧ p = (out.addr j, A (addV off j))) ∧
        ∀ d ∈ c :: cs, ∀ j, InBox j out.shape → InChunk sd.shape sd.chunkShape d (addV off j) →
          (out.addr j, A (addV off j)) ∈ (boxList o.shapeInRoi).map (fun i =>
            (out.addr (addV o.beginInRoi i), A (addV off (addV o.beginInRoi i)))) ++ ps' := by
      intro ps' h1 h2
      refine ⟨fun p hp => ?_, fun d hd j hj hch => ?_⟩
      · rcases List.mem_append.1 hp with hp | hp
        · exact hx1 p hp
        · exact h1 p hp
      · rcases List.mem_cons.1 hd with rfl | hd
        · exact List.mem_append_left _ (hx2 j hj hch)
        · exact List.mem_append_right _ (h2 d hd j hj hch)
    have hblob := hA c (by simp)
    have hsl : bs[sd.slotOf c]? = some (bs[sd.slotOf c]'(by omega)) :=
      List.getElem?_eq_getElem (by omega)
    rw [hsl] at hblob
    generalize hx : bs[sd.slotOf c]'(by omega) = x at hsl hblob
    rw [readSlots, h.shardSlot_ok hg, Res.ok_bind, ho, Res.ok_bind]
    cases raw with
    | none =>
      have hxe : x = [] := hraw x (List.mem_of_getElem? hsl)
      subst hxe
      obtain ⟨ps, e1, e2, e3⟩ := ih scratch
      refine ⟨_, ?_, happ ps e2 e3⟩
      simp only [e1, Res.ok_bind, read_fill hg hout hof (A := A) hblob]
      rfl
    | some bt =>
      obtain ⟨b, tab⟩ := bt
      obtain ⟨ofs, n, htab, hcase⟩ := hraw _ _ hsl
      simp only [htab]
      rcases hcase with ⟨rfl, rfl⟩ | ⟨hne, hn, hslice⟩
      · obtain ⟨ps, e1, e2, e3⟩ := ih scratch
        refine ⟨_, ?_, happ ps e2 e3⟩
        simp only [if_true, e1, Res.ok_bind, read_fill hg hout hof (A := A) hblob]
        rfl
      · have hblob : BlobOk sd.toDataset c (if x = [] then none else some x) A := hblob
        rw [if_neg hne] at hblob
        obtain ⟨content, hd, hrep⟩ := hblob
        have hst := stored_eq h c
        have hsz : sd.chunkSize = prod (sd.stored c) := by rw [hst]; exact h.base.chunkSize_eq
        have hbuf : (if scratch.length ≠ sd.chunkSize then resize E scratch sd.chunkSize
            else scratch).length = prod (sd.stored c) := by
          rw [← hsz]
          by_cases he : scratch.length = sd.chunkSize
          · rw [if_neg (by simpa using he)]; exact he
          · have := length_resized (E := E) scratch sd.chunkSize
            rw [if_pos fun hh => he hh.symm] at this
            rw [if_pos he]; exact this
        have hcopy := read_copy hg hout hof hrep
        obtain ⟨ps, e1, e2, e3⟩ := ih content
        refine ⟨_, ?_, happ ps e2 e3⟩
        rw [if_neg hn]
        have hdec := hd.zarr h.isZarr _ hbuf
        rw [← hsz] at hdec
        rw [hst] at hcopy
        simp only [hslice, Res.ok_bind, hdec, hcopy, e1]
        rfl

theorem readOnly_readShardRaw (s : List Nat) : ReadOnly (sd.readShardRaw s) := by
  unfold readShardRaw readShard
  rcases shardKey_cases sd s with hk | hk <;> rw [hk]
  · exact trivial
  · rw [bind_ok]
    read_only

theorem touches_readShardRaw (s : List Nat) : TouchesOnly (sd.skey s) (sd.readShardRaw s) := by
  unfold readShardRaw readShard
  rcases shardKey_cases sd s with hk | hk <;> rw [hk]
  · exact trivial
  · rw [bind_ok]
    touches

theorem readOnly_readShardTask (out : View) (off size s : List Nat) (cs : List (List Nat))
    (scratch : List E.T) : ReadOnly (sd.readShardTask out off size s cs scratch) :=
  ReadOnly.bind (readOnly_readShardRaw s) fun _ => ReadOnly.ret _

theorem touches_readShardTask (out : View) (off size s : List Nat) (cs : List (List Nat))
    (scratch : List E.T) : TouchesOnly (sd.skey s) (sd.readShardTask out off size s cs scratch) :=
  TouchesOnly.bind (touches_readShardRaw s) fun _ => TouchesOnly.ret _

/-- Reading a region.  Only the shards of the region have to be valid. -/
theorem readSubarray_exec (h : sd.WF) {out : View} (hr : RegionOk sd.shape off out.shape)
    {outBuf : List E.T} (hfit : Props.FitsIn out outBuf.length) (hna : Props.NoAlias out)
    {σ : Store} {A : List Nat → E.T}
    (hval : ∀ c, Touches sd.toDataset off out.shape c →
      ∃ bs, ShardOk sd (σ (sd.skey (sd.shardOf c))) bs)
    (hA : ∀ c, Touches sd.toDataset off out.shape c → BlobOk sd.toDataset c (sd.blobAt σ c) A)
    (scratch : Nat → List E.T) :
    ∃ ts, sd.readSubarray out off scratch = .ok ts ∧
      ∀ is rs, Finished (interleave is (ts, σ)).1 rs →
        (interleave is (ts, σ)).2 = σ ∧ (∃ out', Delivers outBuf rs out') ∧
        ∀ out', Delivers outBuf rs out' → out'.length = outBuf.length ∧
          (∀ i, InBox i out.shape → out'[out.base + dot i out.strides]? = some (A (addV off i))) ∧
          (∀ a, (∀ i, InBox i out.shape → out.base + dot i out.strides ≠ a) →
            out'[a]? = outBuf[a]?) := by
  refine ⟨_, by
    rw [readSubarray, h.base.requestChunks_ok hr, Res.ok_bind, h.cps_ok, Res.ok_bind,
      (h.groups_ok hr).1]; rfl, ?_⟩
  intro is rs hfin
  obtain ⟨h1, h2⟩ := finished_readOnly (by
    intro p hp
    obtain ⟨i, hi, rfl⟩ := List.getElem_of_mem hp
    simp only [List.getElem_mapIdx]
    exact readOnly_readShardTask ..) hfin
  refine ⟨h1, ?_⟩
  have hlen : off.length = out.shape.length := (All₃.length_eq hr).2
  -- the result of each task
  have hres : ∀ g ∈ sd.groups off out.shape, ∀ s : List E.T, ∃ ps,
      (run (sd.readShardTask out off out.shape g.1 g.2 s) σ).1 = .ok ps ∧
      (∀ p ∈ ps, ∃ j, InBox j out.shape ∧ p = (out.addr j, A (addV off j))) ∧
      ∀ c ∈ g.2, ∀ j, InBox j out.shape → InChunk sd.shape sd.chunkShape c (addV off j) →
        (out.addr j, A (addV off j)) ∈ ps := by
    intro g hg s
    have ht := h.group_touches hr hg
    obtain ⟨c, hc⟩ := List.exists_mem_of_ne_nil _ ((h.groups_ok hr).2.nonempty g hg)
    obtain ⟨bs, hbs⟩ := hval c (ht c hc).1
    rw [(ht c hc).2] at hbs
    obtain ⟨raw, e1, e2⟩ := readShardRaw_exec h (h.group_inGrid hr hg) hbs
    obtain ⟨ps, e3, e4, e5⟩ := readSlots_exec h hr hfit.1 hbs.length e2 g.2 s
      (fun c hc => (ht c hc).1) (A := A) (fun c hc => by
        rw [← blobAt_eq (by rw [(ht c hc).2]; exact hbs)]
        exact hA c (ht c hc).1)
    refine ⟨ps, ?_, e4, e5⟩
    rw [run_of_touches (touches_readShardTask ..), readShardTask, exec1_bind_ok e1, e3]
    rfl
  have hps : ∃ ps : List (List (Nat × E.T)), rs = ps.map Res.ok := by
    have : ∀ l : List (Res (List (Nat × E.T))), (∀ r ∈ l, ∃ p, r = .ok p) →
        ∃ ps : List (List (Nat × E.T)), l = ps.map Res.ok := by
      intro l
      induction l with
      | nil => exact fun _ => ⟨[], rfl⟩
      | cons r l ih =>
        intro hl
        obtain ⟨p, rfl⟩ := hl r (by simp)
        obtain ⟨ps, rfl⟩ := ih fun r hr => hl r (by simp [hr])
        exact ⟨p :: ps, rfl⟩
    apply this
    intro r hr'
    rw [h2, map_mapIdx'] at hr'
    obtain ⟨i, hi, rfl⟩ := List.getElem_of_mem hr'
    simp only [List.length_mapIdx] at hi
    rw [List.getElem_mapIdx]
    obtain ⟨ps, e, _⟩ := hres _ (List.getElem_mem hi) (scratch i)
    exact ⟨ps, e⟩
  obtain ⟨ps, rfl⟩ := hps
  rw [map_mapIdx'] at h2
  have hidx : ∀ i (hi : i < (sd.groups off out.shape).length), ∃ hp : i < ps.length,
      Res.ok ps[i] = (run (sd.readShardTask out off out.shape ((sd.groups off out.shape)[i]).1
        ((sd.groups off out.shape)[i]).2 (scratch i)) σ).1 := by
    intro i hi
    have hl := congrArg List.length h2
    simp only [List.length_map, List.length_mapIdx] at hl
    refine ⟨by omega, ?_⟩
    have := congrArg (fun l => l[i]?) h2
    simpa [hi, show i < ps.length by omega] using this
  have hlp : ps.length = (sd.groups off out.shape).length := by
    have hl := congrArg List.length h2
    simpa using hl
  refine delivers_of_pokes hfit hna ?_ ?_
  · intro p hp
    obtain ⟨l, hl, hpl⟩ := List.mem_flatten.1 hp
    obtain ⟨i, hi, rfl⟩ := List.getElem_of_mem hl
    obtain ⟨_, e⟩ := hidx i (by omega)
    obtain ⟨ps', e1, e2, _⟩ := hres _ (List.getElem_mem (show i < (sd.groups off out.shape).length by
      omega)) (scratch i)
    rw [e1] at e
    exact e2 p (Res.ok.inj e ▸ hpl)
  · intro j hj
    have hreg : InRegion (addV off j) off out.shape := inRegion_add hj hlen
    have hbox := region_inBox hr hreg
    have hch := (inChunk_iff_div (c := divV (addV off j) sd.chunkShape) h.base.dims.axes).2 ⟨hbox, rfl⟩
    have ht : Touches sd.toDataset off out.shape (divV (addV off j) sd.chunkShape) := ⟨_, hreg, hch⟩
    obtain ⟨g, hg, hm, _⟩ := h.exists_group hr ht
    obtain ⟨i, hi, rfl⟩ := List.getElem_of_mem hg
    obtain ⟨hp, e⟩ := hidx i hi
    obtain ⟨ps', e1, _, e3⟩ := hres _ hg (scratch i)
    rw [e1] at e
    refine List.mem_flatten.2 ⟨ps[i], List.getElem_mem _, ?_⟩
    rw [Res.ok.inj e]
    exact e3 _ hm j hj hch

/-! ### Histories -/

theorem srefines_empty (h : sd.WF) {σ : Store}
    (hσ : ∀ s, InGrid sd.shape sd.shardShape s → σ (getChunkKey sd.key s) = none) :
    sd.SRefines σ fun _ => sd.fill := by
  have hs : ∀ s, InGrid sd.shape sd.shardShape s →
      ShardOk sd (σ (sd.skey s)) (List.replicate sd.nSlots []) := by
    intro s hs
    rw [show σ (sd.skey s) = none from hσ s hs]
    exact rfl
  refine ⟨fun s hg => ⟨_, hs s hg⟩, fun _ => sd.fill, fun c hc => ?_, fun _ _ _ _ => Or.inl rfl⟩
  rw [blobAt_eq (hs _ (h.shard_inGrid hc)), List.getElem?_replicate, if_pos (h.slot_lt hc)]
  intro x _
  rfl

theorem startSharded_eq (call : RegionCall E) (scratch : Nat → List E.T) :
    call.startSharded sd scratch = sd.writeRegion call.request call.off call.shape scratch := by
  cases call <;> rfl

theorem request_spec {ds : Dataset E} {call : RegionCall E} (hv : call.Valid ds) {val : List Nat → E.T}
    (hval : ∀ i, InBox i call.shape → call.value i = some (val i)) :
    FillSpec call.request call.shape val := by
  cases call with
  | copy inBuf inView off => exact copyRequest_spec inBuf inView val hv.2 hval
  | scalar off shape v =>
    intro buf st bib bir sir h1 h2 h3
    obtain ⟨buf', e1, e2, e3, e4⟩ := scalarRequest_spec v shape buf st bib bir sir h1 h2 h3
    refine ⟨buf', e1, e2, fun i hi => ?_, e4⟩
    rw [e3 i hi]
    exact hval _ (h3.inBox hi)

theorem performs_chunk_inGrid (h : sd.WF) (hw : sd.canWrite = true) {data : List E.T} {σ σ' : Store}
    (hrun : run (sd.writeChunk c data) σ = (.ok (), σ')) : InGrid sd.shape sd.chunkShape c := by
  by_cases hc : sd.chunking.checkBlockCoordinate c = true
  · exact (h.base.checkBlock c).1 hc
  · exfalso
    rw [writeChunk, hw, if_neg (by decide)] at hrun
    cases hh : sd.handle c with
    | ok b =>
      rw [hh, bind_ok, checkChunk, if_pos (by simpa using hc)] at hrun
      simp [run] at hrun
    | throw e => rw [hh] at hrun; simp [run] at hrun
    | ub => rw [hh] at hrun; simp [run] at hrun

theorem performs_refines (h : sd.WF) {w : Write E.T} {σ σ' : Store}
    (hp : ShardedPerforms sd w σ σ') (hw : sd.canWrite = true) {S : List Nat → E.T}
    (hσ : sd.SRefines σ S) : sd.SRefines σ' (override S w.off w.shape w.val) := by
  cases hp with
  | region call val scratch ts is hv hval hst hcomp =>
    obtain ⟨rs, hfin, hall, rfl⟩ := hcomp
    rw [startSharded_eq] at hst
    exact (writeRegion_refines h hw hv.1 (request_spec hv hval) hσ hst hfin).2.2 hall
  | chunk c data val hl hval hrun =>
    exact writeChunk_refines h hw (performs_chunk_inGrid h hw hrun) hl hval hσ hrun
  | remove c hc hrun => exact removeChunk_refines h hw hc hσ hrun

theorem reaches_refines (h : sd.WF) (hw : sd.canWrite = true) {ws : List (Write E.T)} {σ : Store}
    (hr : ShardedReaches sd ws σ) : sd.SRefines σ (replay (fun _ => sd.fill) ws) := by
  induction hr with
  | empty he => exact srefines_empty h he
  | step _ hp ih =>
    rw [replay_append]
    exact performs_refines h hp hw ih

/-! ### Chunks without an element other than the fill value are not stored -/

/-- Every call leaves a chunk alone, removes it or rewrites it. -/
theorem performs_chunks (h : sd.WF) {w : Write E.T} {σ σ' : Store}
    (hp : ShardedPerforms sd w σ σ') (hw : sd.canWrite = true) {A : List Nat → E.T} (hv : sd.Valid σ)
    (hA : HoldsB sd.toDataset (sd.blobAt σ) A) {d : List Nat} (hd : InGrid sd.shape sd.chunkShape d) :
    sd.blobAt σ' d = sd.blobAt σ d ∨ sd.blobAt σ' d = none ∨ ∃ B, Written sd.toDataset d (sd.blobAt σ' d) B := by
  cases hp with
  | region call val scratch ts is hcv hval hst hcomp =>
    obtain ⟨rs, hfin, hall, rfl⟩ := hcomp
    rw [startSharded_eq, writeRegion_jobs h hw hcv.1] at hst
    have hst := Res.ok.inj hst
    subst hst
    rw [(finished_jobs (jobsOk h hcv.1 _ scratch) hfin).1]
    rcases (writeRegion_effect h hw hcv.1 (request_spec hcv hval) hv hA scratch).2.2.2.1 d hd with h1 | ⟨_, h1⟩
    · exact Or.inl h1
    · exact Or.inr (Or.inr ⟨_, h1⟩)
  | chunk c data val hl hval hrun =>
    have hc := performs_chunk_inGrid h hw hrun
    have hst := stored_eq h c
    have hrep : Repr sd.toDataset c (some data)
        (override A (mulV c sd.chunkShape) sd.chunkShape val) := by
      refine ⟨by rw [hst]; exact hl, fun x hx => ?_⟩
      unfold InStored at hx
      rw [hst] at hx ⊢
      rw [override_in hx, hval _ (region_sub hx).2]
    rw [writeChunk_unfold h hw hc] at hrun
    rcases makeChunkBlob_cases h hc hrep with ⟨e, he⟩ | ⟨b, hb, hwr⟩
    · rw [he] at hrun; simp [run] at hrun
    rw [hb, bind_ok] at hrun
    rcases writeInnerBlob_effect h hw hc b hv with ⟨e, he⟩ | ⟨τ, he, h1, h2, h3, _⟩
    · rw [he] at hrun; simp at hrun
    · rw [he, Prod.mk.injEq] at hrun
      obtain ⟨_, rfl⟩ := hrun
      by_cases hdc : d = c
      · subst hdc
        right; right
        rw [h2]
        exact ⟨_, hwr⟩
      · exact Or.inl (h3 d hd hdc)
  | remove c hc hrun =>
    rcases writeInnerBlob_effect h hw hc none hv with ⟨e, he⟩ | ⟨τ, he, h1, h2, h3, _⟩
    · rw [removeChunk, he] at hrun; simp at hrun
    · rw [removeChunk, he, Prod.mk.injEq] at hrun
      obtain ⟨_, rfl⟩ := hrun
      by_cases hdc : d = c
      · subst hdc
        right; left
        rw [h2]
        rfl
      · exact Or.inl (h3 d hd hdc)

theorem reaches_sparse (h : sd.WF) (hw : sd.canWrite = true) {ws : List (Write E.T)} {σ : Store}
    (hr : ShardedReaches sd ws σ) : Sparse sd.toDataset (sd.blobAt σ) := by
  induction hr with
  | empty he =>
    intro c b hc hb
    have hs : ShardOk sd none (List.replicate sd.nSlots []) := rfl
    unfold blobAt at hb
    unfold skey at hb
    rw [he _ (h.shard_inGrid hc), hs.eq, List.getElem?_replicate, if_pos (h.slot_lt hc)] at hb
    cases hb
  | step hr hp ih =>
    obtain ⟨hv, A, hA, _⟩ := reaches_refines h hw hr
    exact ih.step fun c hc => performs_chunks h hp hw hv hA hc

theorem performs_tidy (h : sd.WF) {w : Write E.T} {σ σ' : Store}
    (hp : ShardedPerforms sd w σ σ') (hw : sd.canWrite = true) {A : List Nat → E.T} (hv : sd.Valid σ)
    (hA : HoldsB sd.toDataset (sd.blobAt σ) A) (ht : sd.Tidy σ) : sd.Tidy σ' := by
  cases hp with
  | region call val scratch ts is hcv hval hst hcomp =>
    obtain ⟨rs, hfin, hall, rfl⟩ := hcomp
    rw [startSharded_eq, writeRegion_jobs h hw hcv.1] at hst
    have hst := Res.ok.inj hst
    subst hst
    rw [(finished_jobs (jobsOk h hcv.1 _ scratch) hfin).1]
    exact (writeRegion_effect h hw hcv.1 (request_spec hcv hval) hv hA scratch).2.2.1 ht
  | chunk c data val hl hval hrun =>
    have hc := performs_chunk_inGrid h hw hrun
    rw [writeChunk_unfold h hw hc] at hrun
    cases hb : sd.makeChunkBlob c data with
    | throw e => rw [hb] at hrun; simp [run] at hrun
    | ub => rw [hb] at hrun; simp [run] at hrun
    | ok b =>
      rw [hb, bind_ok] at hrun
      rcases writeInnerBlob_effect h hw hc b hv with ⟨e, he⟩ | ⟨τ, he, h1, _⟩
      · rw [he] at hrun; simp at hrun
      · rw [he, Prod.mk.injEq] at hrun
        obtain ⟨_, rfl⟩ := hrun
        exact h1.2 ht
  | remove c hc hrun =>
    rcases writeInnerBlob_effect h hw hc none hv with ⟨e, he⟩ | ⟨τ, he, h1, _⟩
    · rw [removeChunk, he] at hrun; simp at hrun
    · rw [removeChunk, he, Prod.mk.injEq] at hrun
      obtain ⟨_, rfl⟩ := hrun
      exact h1.2 ht

theorem reaches_tidy (h : sd.WF) (hw : sd.canWrite = true) {ws : List (Write E.T)} {σ : Store}
    (hr : ShardedReaches sd ws σ) : sd.Tidy σ := by
  induction hr with
  | empty he =>
    intro s hs b bs hb _
    unfold skey at hb
    rw [he s hs] at hb
    cases hb
  | step hr hp ih =>
    obtain ⟨hv, A, hA, _⟩ := reaches_refines h hw hr
    exact performs_tidy h hp hw hv hA ih

/-! ### Compressors that never fail -/

theorem updateSlots_total (h : sd.WF) (hC : sd.codec.TotalFor (prod sd.chunkShape * E.size)) {off size : List Nat} (hr : RegionOk sd.shape off size)
    {fr : FillRequest E} {val : List Nat → E.T} (hfr : FillSpec fr size val) {s : List Nat}
    {A : List Nat → E.T} (w : Option Bytes) :
    ∀ (cs : List (List Nat)) (scratch : List E.T) (bs : List Bytes), cs.Nodup →
      (∀ c ∈ cs, Touches sd.toDataset off size c ∧ sd.shardOf c = s) → bs.length = sd.nSlots →
      (∀ c ∈ cs, BlobOk sd.toDataset c (bs[sd.slotOf c]?.bind present) A) →
      ∀ e, (exec1 (sd.updateSlots fr off size cs scratch bs) w).1 ≠ .throw e
  | [], _, bs, _, _, hl, _, e => fun hh => by cases hh
  | c :: cs, scratch, bs, hn, ht, hl, hv, e => by
    obtain ⟨htc, hsc⟩ := ht c (by simp)
    have hg := htc.inGrid
    have hlt := h.slot_lt hg
    obtain ⟨buf, hrep, hb⟩ := slot_update h hr htc hfr scratch hl (hv c (by simp)) w
    rw [updateSlots_cons, h.shardSlot_ok hg, bind_ok, exec1_bind_ok hb]
    rcases makeChunkBlob_cases h hg hrep with ⟨e, he⟩ | ⟨b, hb, hwr⟩
    · exfalso
      unfold makeChunkBlob at he
      rw [h.base.handle_eq hg, Res.ok_bind] at he
      exact dataToBuffer_total (ds := sd.toDataset) h.base hC hg _ hrep.1 _ he
    rw [hb, bind_ok, if_neg (by omega)]
    have hother : ∀ d ∈ cs, sd.slotOf d ≠ sd.slotOf c := by
      intro d hd he
      obtain ⟨htd, hsd⟩ := ht d (by simp [hd])
      have := h.slot_inj htd.inGrid hg (by rw [hsd, hsc]) he
      subst this
      exact (List.nodup_cons.1 hn).1 hd
    exact updateSlots_total h hC hr hfr w cs buf (bs.set (sd.slotOf c) (b.getD []))
      (s := s) (A := A) (List.nodup_cons.1 hn).2 (fun d hd => ht d (by simp [hd]))
      (by rw [List.length_set]; exact hl) (fun d hd => by
        rw [List.getElem?_set_ne (hother d hd).symm]
        exact hv d (by simp [hd])) e

theorem writeShardBlobs_total (h : sd.WF) (hw : sd.canWrite = true) {s : List Nat}
    (hs : InGrid sd.shape sd.shardShape s) {bs : List Bytes} (v : Option Bytes) :
    (exec1 (sd.writeShardBlobs s bs) v).1 = .ok () ∨ (exec1 (sd.writeShardBlobs s bs) v).1 = .throw .lengthError := by
  unfold writeShardBlobs
  rw [hw, if_neg (by decide), h.shardKey_ok hs, bind_ok]
  by_cases he : allSlotsEmpty bs = true
  · rw [if_pos he]
    left
    rw [exec1_erase]
  · rw [if_neg he, buildShard_eq]
    split
    · left
      rw [bind_ok, exec1_write]
    · right; rfl

theorem writeShardTask_total (h : sd.WF) (hw : sd.canWrite = true) (hC : sd.codec.TotalFor (prod sd.chunkShape * E.size)) {off size : List Nat}
    (hr : RegionOk sd.shape off size) {fr : FillRequest E} {val : List Nat → E.T}
    (hfr : FillSpec fr size val) {s : List Nat} (hs : InGrid sd.shape sd.shardShape s)
    {cs : List (List Nat)} (scratch : List E.T) (hn : cs.Nodup)
    (ht : ∀ c ∈ cs, Touches sd.toDataset off size c ∧ sd.shardOf c = s) {v : Option Bytes}
    {bs : List Bytes} (hv : ShardOk sd v bs) {A : List Nat → E.T}
    (hA : ∀ c ∈ cs, BlobOk sd.toDataset c (bs[sd.slotOf c]?.bind present) A) :
    (exec1 (sd.writeShardTask fr off size s cs scratch) v).1 = .ok () ∨
      (exec1 (sd.writeShardTask fr off size s cs scratch) v).1 = .throw .lengthError := by
  unfold writeShardTask
  rw [exec1_bind_ok (readShardBlobs_exec h hs hv)]
  rcases updateSlots_exec h hr hfr v cs scratch bs hn ht hv.length hA with
    ⟨e, he⟩ | ⟨bs', h1, h2, h3, h4⟩
  · exact absurd (by rw [he]) (updateSlots_total h hC hr hfr v cs scratch bs hn ht hv.length hA e)
  · rw [exec1_bind_ok h1]
    exact writeShardBlobs_total h hw hs v

/-- With a compressor that never fails, every schedule that finishes a region write completes it, unless a shard would have
    2^63 bytes. -/
theorem writeRegion_total (h : sd.WF) (hw : sd.canWrite = true) (hC : sd.codec.TotalFor (prod sd.chunkShape * E.size))
    {off size : List Nat} (hr : RegionOk sd.shape off size) {fr : FillRequest E}
    {val : List Nat → E.T} (hfr : FillSpec fr size val) {σ : Store} {S : List Nat → E.T}
    (hσ : sd.SRefines σ S) {scratch : Nat → List E.T} {is : List Nat} {rs : List (Res Unit)}
    (hfin : Finished (interleave is ((sd.jobs fr off size scratch).map Prod.snd, σ)).1 rs) :
    ∀ r ∈ rs, r = .ok () ∨ r = .throw .lengthError := by
  obtain ⟨hval, A, hA, _⟩ := hσ
  rw [(finished_jobs (jobsOk h hr fr scratch) hfin).2]
  intro r hr'
  obtain ⟨j, hj, rfl⟩ := List.mem_map.1 hr'
  obtain ⟨g, hg, i, rfl⟩ := mem_jobs hj
  have ht := h.group_touches hr hg
  obtain ⟨bs, hbs⟩ := hval _ (h.group_inGrid hr hg)
  exact writeShardTask_total h hw hC hr hfr (h.group_inGrid hr hg) (scratch i) ((h.groups_ok hr).2.nodup g hg) ht hbs
    (fun c hc => SRefines.blobs hA hbs c (ht c hc).1.inGrid (ht c hc).2)

end ShardedDataset
end Z5
