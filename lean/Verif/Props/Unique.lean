import Verif.Props.Functions
import Verif.Props.ChunkApi

/-!
# C36: `unique` and `uniqueWithCounts`
-/

namespace Z5.Props
open Z5 Spec Prog Pool

variable {E : Elem} {ds : Dataset E} {sd : ShardedDataset E} {lt : E.T → E.T → Bool} {P : E.T → Prop}

/-! ### the loop and the merge, for any calls that read -/

theorem perm_results {T : Type} {cs : List (List Nat)} {content : List Nat → Option (List T)}
    {res : List (Nat × Nat × Option (List T))} (hp : (res.map fun t => t.2.2).Perm (cs.map content)) :
    (res.filterMap fun t => t.2.2).Perm (cs.filterMap content) := by
  have := hp.filterMap id
  rw [List.filterMap_map, List.filterMap_map] at this
  exact this

theorem unique_general {cs : List (List Nat)} {f : List Nat → Prog (Option (List E.T))}
    {content : List Nat → Option (List E.T)} {n : Nat} {σ σ' : Store} {r : Res Unit} {log : List (Nat × Nat)}
    {res : List (Nat × Nat × Option (List E.T))} (ho : OrderedOn E lt P)
    (hro : ∀ c ∈ cs, ReadOnly (f c)) (hg : ∀ c ∈ cs, (run (f c) σ).1 = .ok (content c))
    (hP : ∀ c ∈ cs, ∀ data, content c = some data → ∀ a ∈ data, P a) {uniques : List E.T} (hu : SetOk lt P uniques)
    (hf : ForeachRes (cs.map f) n σ r σ' log res) :
    r = .ok () ∧ σ' = σ ∧ ∃ s, uniqueOf lt (max 1 n) uniques res = .ok s ∧ SetOk lt P s ∧
      (∀ a ∈ s, a ∈ uniques ∨ ∃ c ∈ cs, ∃ data, content c = some data ∧ a ∈ data) ∧
      ∀ v, P v → (Occurs E s v ↔ Occurs E uniques v ∨ ∃ c ∈ cs, ∃ data, content c = some data ∧ Occurs E data v) := by
  obtain ⟨h1, h2, h3, h4⟩ := foreachRes_readOnly hro hg hf
  have hm : ∀ l, l ∈ res.filterMap (fun t => t.2.2) ↔ ∃ c ∈ cs, content c = some l := fun l => by
    rw [(perm_results h4).mem_iff, List.mem_filterMap]
  obtain ⟨s, e, hs, hmem, hocc⟩ := uniqueOf_spec ho (Nat.le_max_left 1 n) hu h3 (fun l hl => by
    obtain ⟨c, hc, hcl⟩ := (hm l).1 hl
    exact hP c hc l hcl)
  refine ⟨h1, h2, s, e, hs, fun a ha => ?_, fun v hv => ?_⟩
  · refine (hmem a ha).imp id ?_
    rintro ⟨l, hl, hal⟩
    obtain ⟨c, hc, hcl⟩ := (hm l).1 hl
    exact ⟨c, hc, l, hcl, hal⟩
  · rw [hocc v hv]
    refine or_congr Iff.rfl ⟨?_, ?_⟩
    · rintro ⟨l, hl, hal⟩
      obtain ⟨c, hc, hcl⟩ := (hm l).1 hl
      exact ⟨c, hc, l, hcl, hal⟩
    · rintro ⟨c, hc, l, hcl, hal⟩
      exact ⟨l, (hm l).2 ⟨c, hc, hcl⟩, hal⟩

theorem sum_filterMap_content (cs : List (List Nat)) (content : List Nat → Option (List E.T)) (v : E.T) :
    ((cs.filterMap content).map fun l => occurrences E l v).sum = occurrencesIn cs content v := by
  unfold occurrencesIn
  induction cs with
  | nil => rfl
  | cons c cs ih =>
    rw [List.map_cons, List.sum_cons, ← ih]
    cases hc : content c with
    | none => rw [List.filterMap_cons, hc]; simp
    | some l => rw [List.filterMap_cons, hc]; simp

theorem uniqueCounts_general {cs : List (List Nat)} {f : List Nat → Prog (Option (List E.T))}
    {content : List Nat → Option (List E.T)} {n : Nat} {σ σ' : Store} {r : Res Unit} {log : List (Nat × Nat)}
    {res : List (Nat × Nat × Option (List E.T))} (ho : OrderedOn E lt P)
    (hro : ∀ c ∈ cs, ReadOnly (f c)) (hg : ∀ c ∈ cs, (run (f c) σ).1 = .ok (content c))
    (hP : ∀ c ∈ cs, ∀ data, content c = some data → ∀ a ∈ data, P a) {uniques : List (E.T × Nat)}
    (hu : MapOk lt P uniques) (hf : ForeachRes (cs.map f) n σ r σ' log res) :
    r = .ok () ∧ σ' = σ ∧ ∃ m, uniqueCountsOf lt (max 1 n) uniques res = .ok m ∧ MapOk lt P m ∧
      (∀ e ∈ m, e.1 ∈ uniques.map Prod.fst ∨ ∃ c ∈ cs, ∃ data, content c = some data ∧ e.1 ∈ data) ∧
      (∀ v, P v → (Occurs E (m.map Prod.fst) v ↔ Occurs E (uniques.map Prod.fst) v ∨
        ∃ c ∈ cs, ∃ data, content c = some data ∧ Occurs E data v)) ∧
      ∀ e ∈ m, e.2 = (mapCount E uniques e.1 + occurrencesIn cs content e.1) % 2 ^ 64 := by
  obtain ⟨h1, h2, h3, h4⟩ := foreachRes_readOnly hro hg hf
  have hp := perm_results h4
  have hm : ∀ l, l ∈ res.filterMap (fun t => t.2.2) ↔ ∃ c ∈ cs, content c = some l := fun l => by
    rw [hp.mem_iff, List.mem_filterMap]
  obtain ⟨m, e, hs, hmem, hocc, hcnt⟩ := uniqueCountsOf_spec ho (Nat.le_max_left 1 n) hu h3 (fun l hl => by
    obtain ⟨c, hc, hcl⟩ := (hm l).1 hl
    exact hP c hc l hcl)
  refine ⟨h1, h2, m, e, hs, fun a ha => ?_, fun v hv => ?_, fun a ha => ?_⟩
  · refine (hmem a ha).imp id ?_
    rintro ⟨l, hl, hal⟩
    obtain ⟨c, hc, hcl⟩ := (hm l).1 hl
    exact ⟨c, hc, l, hcl, hal⟩
  · rw [hocc v hv]
    refine or_congr Iff.rfl ⟨?_, ?_⟩
    · rintro ⟨l, hl, hal⟩
      obtain ⟨c, hc, hcl⟩ := (hm l).1 hl
      exact ⟨c, hc, l, hcl, hal⟩
    · rintro ⟨c, hc, l, hcl, hal⟩
      exact ⟨l, (hm l).2 ⟨c, hc, hcl⟩, hal⟩
  · have := hcnt a.1 (hs.good a ha)
    rw [hs.count_eq ho a ha, Nat.mod_eq_of_lt (hs.small a ha), (hp.map _).sum_nat, sum_filterMap_content] at this
    exact this

/-! ### C36 for datasets without shards -/

theorem unique_calls (h : ds.WF) (hfit : prod (blocksPerDimension ds.shape ds.chunkShape) < 2 ^ 64) :
    ds.uniqueCalls = (gridList ds).map ds.storedElements := eachChunk_eq h hfit _

/-- **C36**, `unique`.  For every store whose chunks are missing or readable (`content` says which, and with what
elements), every set of values to start with, every number of threads and every schedule: the call succeeds, changes
nothing in the store and returns a sorted set without repetition, all of whose members were there or are elements of
stored chunks, and that has a member equal (`==`) to each of those.  (`<` must order the elements: no NaN.) -/
theorem c36_unique (h : ds.WF) (hfit : prod (blocksPerDimension ds.shape ds.chunkShape) < 2 ^ 64)
    (ho : OrderedOn E lt P) {σ : Store} {content : List Nat → Option (List E.T)} (hcon : ContentIs ds σ content)
    (hP : ∀ a, Present ds.shape ds.chunkShape content a → P a) {uniques : List E.T} (hu : ∀ a ∈ uniques, P a)
    (hsorted : uniques.Pairwise fun a b => lt a b = true) {n : Nat} {r : Res Unit} {σ' : Store}
    {log : List (Nat × Nat)} {res : List (Nat × Nat × Option (List E.T))}
    (hf : ForeachRes ds.uniqueCalls n σ r σ' log res) :
    r = .ok () ∧ σ' = σ ∧ ∃ s, uniqueOf lt (max 1 n) uniques res = .ok s ∧
      s.Pairwise (fun a b => lt a b = true) ∧
      (∀ a ∈ s, a ∈ uniques ∨ Present ds.shape ds.chunkShape content a) ∧
      ∀ a, a ∈ uniques ∨ Present ds.shape ds.chunkShape content a → ∃ b ∈ s, E.ceq b a = true := by
  rw [unique_calls h hfit] at hf
  obtain ⟨h1, h2, s, e, hs, hmem, hocc⟩ := unique_general ho (fun c _ => readOnly_elements ds c)
    (fun c hc => by rw [run_elements h hcon ((mem_gridList h).1 hc)])
    (fun c hc data hd a ha => hP a ⟨c, data, (mem_gridList h).1 hc, hd, ha⟩) ⟨hu, hsorted⟩ hf
  refine ⟨h1, h2, s, e, hs.sorted, fun a ha => (hmem a ha).imp id ?_, fun a ha => ?_⟩
  · rintro ⟨c, hc, data, hd, had⟩
    exact ⟨c, data, (mem_gridList h).1 hc, hd, had⟩
  · have hPa : P a := ha.elim (hu a) (hP a)
    refine (hocc a hPa).2 (ha.imp (fun ha => ⟨a, ha, ho.refl a hPa⟩) ?_)
    rintro ⟨c, data, hc, hd, had⟩
    exact ⟨c, (mem_gridList h).2 hc, data, hd, a, had, ho.refl a hPa⟩

/-- **C36**, `unique`, for types where equal (`==`) values are the same (all but floating point): the result is
exactly the set of values that were there or occur in stored chunks, and it is the same for every number of threads
and every schedule. -/
theorem c36_unique_exact (h : ds.WF) (hfit : prod (blocksPerDimension ds.shape ds.chunkShape) < 2 ^ 64)
    (ho : OrderedOn E lt fun _ => True) (hE : E.Faithful) {σ : Store} {content : List Nat → Option (List E.T)}
    (hcon : ContentIs ds σ content) {uniques : List E.T} (hsorted : uniques.Pairwise fun a b => lt a b = true) :
    ∃ s, s.Pairwise (fun a b => lt a b = true) ∧
      (∀ a, a ∈ s ↔ a ∈ uniques ∨ Present ds.shape ds.chunkShape content a) ∧
      ∀ n r σ' log res, ForeachRes ds.uniqueCalls n σ r σ' log res →
        r = .ok () ∧ σ' = σ ∧ uniqueOf lt (max 1 n) uniques res = .ok s := by
  have key : ∀ {n r σ' log res}, ForeachRes ds.uniqueCalls n σ r σ' log res →
      r = .ok () ∧ σ' = σ ∧ ∃ s, uniqueOf lt (max 1 n) uniques res = .ok s ∧
        s.Pairwise (fun a b => lt a b = true) ∧ ∀ a, a ∈ s ↔ a ∈ uniques ∨ Present ds.shape ds.chunkShape content a := by
    intro n r σ' log res hf
    obtain ⟨h1, h2, s, e, hs, hmem, hocc⟩ := c36_unique h hfit ho hcon (fun _ _ => trivial) (fun _ _ => trivial)
      hsorted hf
    refine ⟨h1, h2, s, e, hs, fun a => ⟨hmem a, fun ha => ?_⟩⟩
    obtain ⟨b, hb, hba⟩ := hocc a ha
    rw [← (hE b a).1 hba]
    exact hb
  have hseq : ForeachRes ds.uniqueCalls 1 σ _ _ _ _ := .seq (Nat.le_refl 1) rfl
  obtain ⟨_, _, s, _, hs, hmem⟩ := key hseq
  refine ⟨s, hs, hmem, fun n r σ' log res hf => ?_⟩
  obtain ⟨h1, h2, s', e, hs', hmem'⟩ := key hf
  refine ⟨h1, h2, ?_⟩
  have hnd : ∀ {l : List E.T}, l.Pairwise (fun a b => lt a b = true) → l.Nodup := fun hl =>
    hl.imp fun {a b} hab he => by rw [he, ho.irrefl trivial] at hab; cases hab
  have hperm : s'.Perm s := (List.perm_ext_iff_of_nodup (hnd hs') (hnd hs)).2 fun a => (hmem' a).trans (hmem a).symm
  rw [e, hperm.eq_of_pairwise (fun a b _ _ hab hba => by
    have := ho.trans a b a trivial trivial trivial hab hba
    rw [ho.irrefl trivial] at this; cases this) hs' hs]

/-- **C36**, `uniqueWithCounts`.  As for `unique`; and the count of each entry is the count that was there plus the
number of its occurrences in the stored chunks (modulo 2^64, the range of `size_t`).  `cs` is any list of the chunks
of the dataset, each once. -/
theorem c36_unique_with_counts (h : ds.WF) (hfit : prod (blocksPerDimension ds.shape ds.chunkShape) < 2 ^ 64)
    (ho : OrderedOn E lt P) {σ : Store} {content : List Nat → Option (List E.T)} (hcon : ContentIs ds σ content)
    (hP : ∀ a, Present ds.shape ds.chunkShape content a → P a) {uniques : List (E.T × Nat)}
    (hu : ∀ e ∈ uniques, P e.1 ∧ e.2 < 2 ^ 64) (hsorted : uniques.Pairwise fun a b => lt a.1 b.1 = true)
    {cs : List (List Nat)} (hnd : cs.Nodup) (hcs : ∀ c, c ∈ cs ↔ InGrid ds.shape ds.chunkShape c)
    {n : Nat} {r : Res Unit} {σ' : Store} {log : List (Nat × Nat)} {res : List (Nat × Nat × Option (List E.T))}
    (hf : ForeachRes ds.uniqueCalls n σ r σ' log res) :
    r = .ok () ∧ σ' = σ ∧ ∃ m, uniqueCountsOf lt (max 1 n) uniques res = .ok m ∧
      m.Pairwise (fun a b => lt a.1 b.1 = true) ∧
      (∀ e ∈ m, e.1 ∈ uniques.map Prod.fst ∨ Present ds.shape ds.chunkShape content e.1) ∧
      (∀ a, a ∈ uniques.map Prod.fst ∨ Present ds.shape ds.chunkShape content a → ∃ e ∈ m, E.ceq e.1 a = true) ∧
      ∀ e ∈ m, e.2 = (mapCount E uniques e.1 + occurrencesIn cs content e.1) % 2 ^ 64 := by
  rw [unique_calls h hfit] at hf
  obtain ⟨h1, h2, m, e, hs, hmem, hocc, hcnt⟩ := uniqueCounts_general ho (fun c _ => readOnly_elements ds c)
    (fun c hc => by rw [run_elements h hcon ((mem_gridList h).1 hc)])
    (fun c hc data hd a ha => hP a ⟨c, data, (mem_gridList h).1 hc, hd, ha⟩)
    ⟨fun e he => (hu e he).1, hsorted, fun e he => (hu e he).2⟩ hf
  refine ⟨h1, h2, m, e, hs.sorted, fun a ha => (hmem a ha).imp id ?_, fun a ha => ?_, fun e he => ?_⟩
  · rintro ⟨c, hc, data, hd, had⟩
    exact ⟨c, data, (mem_gridList h).1 hc, hd, had⟩
  · have hPa : P a := ha.elim (fun ha => by
      obtain ⟨e, he, rfl⟩ := List.mem_map.1 ha
      exact (hu e he).1) (hP a)
    obtain ⟨z, hz, hza⟩ := (hocc a hPa).2 (ha.imp (fun ha => ⟨a, ha, ho.refl a hPa⟩) (by
      rintro ⟨c, data, hc, hd, had⟩
      exact ⟨c, (mem_gridList h).2 hc, data, hd, a, had, ho.refl a hPa⟩))
    obtain ⟨e, he, rfl⟩ := List.mem_map.1 hz
    exact ⟨e, he, hza⟩
  · rw [hcnt e he]
    have hperm : cs.Perm (gridList ds) := (List.perm_ext_iff_of_nodup hnd (nodup_boxList _)).2 fun c =>
      (hcs c).trans (mem_gridList h).symm
    have : occurrencesIn cs content e.1 = occurrencesIn (gridList ds) content e.1 := (hperm.map _).sum_nat
    rw [this]

/-- **C36**, `uniqueWithCounts`, for types where equal values are the same: the result is the same for every number of
threads and every schedule. -/
theorem c36_counts_schedule_independent (h : ds.WF)
    (hfit : prod (blocksPerDimension ds.shape ds.chunkShape) < 2 ^ 64)
    (ho : OrderedOn E lt fun _ => True) (hE : E.Faithful) {σ : Store} {content : List Nat → Option (List E.T)}
    (hcon : ContentIs ds σ content) {uniques : List (E.T × Nat)} (hu : ∀ e ∈ uniques, e.2 < 2 ^ 64)
    (hsorted : uniques.Pairwise fun a b => lt a.1 b.1 = true) :
    ∃ m, ∀ n r σ' log res, ForeachRes ds.uniqueCalls n σ r σ' log res →
      r = .ok () ∧ σ' = σ ∧ uniqueCountsOf lt (max 1 n) uniques res = .ok m := by
  have hgrid : ∀ c, c ∈ gridList ds ↔ InGrid ds.shape ds.chunkShape c := fun c => mem_gridList h
  have key := fun {n r σ' log res} (hf : ForeachRes ds.uniqueCalls n σ r σ' log res) =>
    c36_unique_with_counts h hfit ho hcon (fun _ _ => trivial) (fun e he => ⟨trivial, hu e he⟩) hsorted
      (nodup_boxList _) hgrid hf
  have hseq : ForeachRes ds.uniqueCalls 1 σ _ _ _ _ := .seq (Nat.le_refl 1) rfl
  obtain ⟨_, _, m, _, hs, hmem, hocc, hcnt⟩ := key hseq
  refine ⟨m, fun n r σ' log res hf => ?_⟩
  obtain ⟨h1, h2, m', e, hs', hmem', hocc', hcnt'⟩ := key hf
  refine ⟨h1, h2, ?_⟩
  have hfst : ∀ {l : List (E.T × Nat)}, l.Pairwise (fun a b => lt a.1 b.1 = true) →
      (l.map Prod.fst).Pairwise fun a b => lt a b = true := fun hl => List.pairwise_map.2 hl
  have hnd : ∀ {l : List E.T}, l.Pairwise (fun a b => lt a b = true) → l.Nodup := fun hl =>
    hl.imp fun {a b} hab he => by rw [he, ho.irrefl trivial] at hab; cases hab
  have hiff : ∀ {l : List (E.T × Nat)},
      (∀ e ∈ l, e.1 ∈ uniques.map Prod.fst ∨ Present ds.shape ds.chunkShape content e.1) →
      (∀ a, a ∈ uniques.map Prod.fst ∨ Present ds.shape ds.chunkShape content a → ∃ e ∈ l, E.ceq e.1 a = true) →
      ∀ a, a ∈ l.map Prod.fst ↔ a ∈ uniques.map Prod.fst ∨ Present ds.shape ds.chunkShape content a := by
    intro l k1 k2 a
    refine ⟨fun ha => ?_, fun ha => ?_⟩
    · obtain ⟨e, he, rfl⟩ := List.mem_map.1 ha
      exact k1 e he
    · obtain ⟨e, he, hea⟩ := k2 a ha
      rw [← (hE _ _).1 hea]
      exact List.mem_map_of_mem he
  have hperm : (m'.map Prod.fst).Perm (m.map Prod.fst) :=
    (List.perm_ext_iff_of_nodup (hnd (hfst hs')) (hnd (hfst hs))).2 fun a =>
      (hiff hmem' hocc' a).trans (hiff hmem hocc a).symm
  have heq := hperm.eq_of_pairwise (fun a b _ _ hab hba => by
    have := ho.trans a b a trivial trivial trivial hab hba
    rw [ho.irrefl trivial] at this; cases this) (hfst hs') (hfst hs)
  have back : ∀ {l : List (E.T × Nat)}, (∀ e ∈ l, e.2 =
      (mapCount E uniques e.1 + occurrencesIn (gridList ds) content e.1) % 2 ^ 64) → l = (l.map Prod.fst).map fun a =>
      (a, (mapCount E uniques a + occurrencesIn (gridList ds) content a) % 2 ^ 64) := by
    intro l hl
    rw [List.map_map]
    refine (List.map_id l).symm.trans (List.map_congr_left fun e he => ?_)
    show e = (e.1, _)
    rw [← hl e he]
  rw [e, back hcnt', heq, ← back hcnt]

/-! ### what the counts mean for the array -/

theorem length_mulV_ext : ∀ {shape chunk c : List Nat}, InGrid shape chunk c →
    (mulV c chunk).length = (extV shape chunk c).length
  | [], [], [], _ => rfl
  | s :: ss, b :: bs, c :: cs, h => by
    have := length_mulV_ext (shape := ss) (chunk := bs) (c := cs) h.2
    show (mulV cs bs).length + 1 = (extV ss bs cs).length + 1
    rw [this]

/-- the elements of a chunk file that represents an array -/
theorem repr_eq {c : List Nat} (hl : (mulV c ds.chunkShape).length = (ds.stored c).length) {data : List E.T}
    {A : List Nat → E.T} (hr : Repr ds c (some data) A) :
    data = (boxList (ds.stored c)).map fun i => A (addV (mulV c ds.chunkShape) i) := by
  refine List.ext_getElem? fun k => ?_
  by_cases hk : k < prod (ds.stored c)
  · have hi : InBox (unravel (ds.stored c) k) (ds.stored c) := unravel_inBox k (allPos_of_prod_pos (by omega))
    have h1 := hr.2 _ (inRegion_add hi hl)
    rw [subV_addV (by rw [length_unravel, hl]), ravel_unravel hk] at h1
    rw [h1, List.getElem?_map]
    have h2 := boxList_getElem? hi
    rw [ravel_unravel hk] at h2
    rw [h2]
    rfl
  · rw [List.getElem?_eq_none (by rw [hr.1]; omega), List.getElem?_eq_none (by
      rw [List.length_map, length_boxList]; omega)]

/-- the array elements, chunk by chunk -/
theorem perm_chunks (h : ds.WF) : ((gridList ds).flatMap fun c =>
    (boxList (extV ds.shape ds.chunkShape c)).map (addV (mulV c ds.chunkShape))).Perm (boxList ds.shape) := by
  have hmem : ∀ {c x}, InGrid ds.shape ds.chunkShape c →
      (x ∈ (boxList (extV ds.shape ds.chunkShape c)).map (addV (mulV c ds.chunkShape)) ↔
        InChunk ds.shape ds.chunkShape c x) := by
    intro c x hc
    rw [inChunk_iff_region hc, List.mem_map]
    have hl := length_mulV_ext hc
    constructor
    · rintro ⟨i, hi, rfl⟩
      exact inRegion_add (mem_boxList.1 hi) hl
    · intro hx
      exact ⟨_, mem_boxList.2 (region_sub hx).2, (region_sub hx).1⟩
  refine (List.perm_ext_iff_of_nodup ?_ (nodup_boxList _)).2 fun x => ?_
  · rw [List.Nodup, List.pairwise_flatMap]
    refine ⟨fun c hc => ?_, ?_⟩
    · have hc := (mem_gridList h).1 hc
      refine nodup_map_of_inj (nodup_boxList _) fun a ha b hb hab => ?_
      have hl := length_mulV_ext hc
      exact addV_left_inj (by rw [(mem_boxList.1 ha).length_eq, hl]) (by rw [(mem_boxList.1 hb).length_eq, hl]) hab
    · refine List.Pairwise.imp_of_mem ?_ (nodup_boxList (blocksPerDimension ds.shape ds.chunkShape))
      intro c d hc hd hcd x hx y hy hxy
      subst hxy
      exact hcd (ShardedDataset.inChunk_unique ((hmem ((mem_gridList h).1 hc)).1 hx) ((hmem ((mem_gridList h).1 hd)).1 hy))
  · rw [List.mem_flatMap, mem_boxList]
    constructor
    · rintro ⟨c, hc, hx⟩
      exact ((inChunk_iff_div h.dims.axes).1 ((hmem ((mem_gridList h).1 hc)).1 hx)).1
    · intro hx
      have hch := (inChunk_iff_div h.dims.axes (c := divV x ds.chunkShape)).2 ⟨hx, rfl⟩
      have hc := inGrid_of_inChunk hch
      exact ⟨_, (mem_gridList h).2 hc, (hmem hc).2 hch⟩

/-- chunk files hold nothing but array elements: N5, or zarr with a shape that is a multiple of the chunk shape -/
def NoPadding (ds : Dataset E) : Prop :=
  ds.isZarr = false ∨ All₂ (fun s b => b ∣ s) ds.shape ds.chunkShape

theorem ext_of_dvd : ∀ {shape chunk c : List Nat}, All₂ (fun s b => b ∣ s) shape chunk → InGrid shape chunk c →
    extV shape chunk c = chunk
  | [], [], [], _, _ => rfl
  | s :: ss, b :: bs, c :: cs, h, hc => by
    obtain ⟨k, hk⟩ : b ∣ s := h.1
    have hc1 : c * b < s := hc.1
    show (min ((c + 1) * b) s - c * b) :: extV ss bs cs = b :: bs
    rw [ext_of_dvd h.2 hc.2]
    congr 1
    have h1 : c < k := by
      rcases Nat.lt_or_ge c k with h | h
      · exact h
      · have := Nat.mul_le_mul_left b h
        rw [Nat.mul_comm b c] at this
        omega
    have h2 := Nat.mul_le_mul_left b (Nat.succ_le_of_lt h1)
    rw [Nat.mul_comm b (c + 1)] at h2
    rw [Nat.succ_mul] at h2 ⊢
    omega

theorem NoPadding.stored (hp : NoPadding ds) {c : List Nat} (hc : InGrid ds.shape ds.chunkShape c) :
    ds.stored c = extV ds.shape ds.chunkShape c := by
  unfold Dataset.stored
  split
  · rename_i hz
    rcases hp with hp | hp
    · rw [hp] at hz; cases hz
    · exact (ext_of_dvd hp hc).symm
  · rfl

/-- the occurrences in the stored chunks of a value other than the fill value are those in the array -/
theorem occurrences_array (h : ds.WF) (hp : NoPadding ds) {content : List Nat → Option (List E.T)}
    {A : List Nat → E.T} (hrep : ∀ c, InGrid ds.shape ds.chunkShape c → Repr ds c (content c) A) {v : E.T}
    (hv : E.ceq ds.fill v = false) :
    occurrencesIn (gridList ds) content v = (boxList ds.shape).countP fun x => E.ceq (A x) v := by
  rw [← (perm_chunks h).countP_eq, List.countP_flatMap]
  unfold occurrencesIn
  congr 1
  refine List.map_congr_left fun c hc => ?_
  have hc := (mem_gridList h).1 hc
  have hr := hrep c hc
  have hl : (mulV c ds.chunkShape).length = (ds.stored c).length := by
    rw [hp.stored hc]; exact length_mulV_ext hc
  cases hcc : content c with
  | none =>
    rw [hcc] at hr
    refine Eq.symm (List.countP_eq_zero.2 fun x hx => ?_)
    obtain ⟨i, hi, rfl⟩ := List.mem_map.1 hx
    have : A (addV (mulV c ds.chunkShape) i) = ds.fill := hr _ (inRegion_add (by
      rw [hp.stored hc]; exact mem_boxList.1 hi) hl)
    rw [this, hv]
    simp
  | some data =>
    rw [hcc] at hr
    have := repr_eq hl hr
    show occurrences E data v = _
    rw [this, hp.stored hc, occurrences, List.countP_map]
    simp only [Function.comp_apply, List.countP_map]
    rfl

/-- **C36** in terms of the array.  If chunk files hold no padding (N5, or zarr with a shape that is a multiple of the
chunk shape), then after any history of writes, for every number of threads and every schedule, `uniqueWithCounts` into
an empty map returns values of the array only; it returns every value of the array other than the fill value; and
for these the count is the number of array elements with this value. -/
theorem c36_counts_are_array_counts (h : ds.WF) (hw : ds.canWrite = true) (hp : NoPadding ds)
    (hfit : prod (blocksPerDimension ds.shape ds.chunkShape) < 2 ^ 64) (ho : OrderedOn E lt fun _ => True)
    {ws : List (Write E.T)} {σ : Store} (hreach : Reaches ds ws σ) :
    ∃ A, ReadsAs ds σ A ∧
      (∀ x, InBox x ds.shape → SameOrFill E.ceq ds.fill (A x) (replay (fun _ => ds.fill) ws x)) ∧
      ∀ n r σ' log res, ForeachRes ds.uniqueCalls n σ r σ' log res →
        r = .ok () ∧ σ' = σ ∧ ∃ m, uniqueCountsOf lt (max 1 n) [] res = .ok m ∧
          m.Pairwise (fun a b => lt a.1 b.1 = true) ∧
          (∀ e ∈ m, ∃ x, InBox x ds.shape ∧ A x = e.1) ∧
          (∀ x, InBox x ds.shape → E.ceq (A x) ds.fill = false → ∃ e ∈ m, E.ceq e.1 (A x) = true) ∧
          ∀ e ∈ m, E.ceq ds.fill e.1 = false →
            e.2 = ((boxList ds.shape).countP fun x => E.ceq (A x) e.1) % 2 ^ 64 := by
  obtain ⟨A, hA, hAS⟩ := reaches_refines h hw hreach
  have hrepr : Represents ds σ A := fun c hc => hA c hc
  obtain ⟨content, hcon, hrep⟩ := represents_content h hrepr
  refine ⟨A, represents_readsAs h hrepr, fun x hx => ?_, fun n r σ' log res hf => ?_⟩
  · have hch := (inChunk_iff_div h.dims.axes (c := divV x ds.chunkShape)).2 ⟨hx, rfl⟩
    have hc := inGrid_of_inChunk hch
    refine hAS _ x hc ?_
    show InRegion _ _ _
    rw [hp.stored hc]
    exact (inChunk_iff_region hc).1 hch
  · obtain ⟨h1, h2, m, e, hs, hmem, hocc, hcnt⟩ := c36_unique_with_counts h hfit ho hcon (fun _ _ => trivial)
      (uniques := []) (fun e he => by cases he) .nil (cs := gridList ds) (nodup_boxList _) (fun c => mem_gridList h) hf
    refine ⟨h1, h2, m, e, hs, fun e he => ?_, fun x hx hne => ?_, fun e he hne => ?_⟩
    · rcases hmem e he with hn | ⟨c, data, hc, hd, hed⟩
      · cases hn
      · have hr := (hrep c hc).1
        rw [hd] at hr
        have hl : (mulV c ds.chunkShape).length = (ds.stored c).length := by
          rw [hp.stored hc]; exact length_mulV_ext hc
        rw [repr_eq hl hr] at hed
        obtain ⟨i, hi, hie⟩ := List.mem_map.1 hed
        refine ⟨_, ?_, hie⟩
        have := inRegion_add (mem_boxList.1 hi) hl
        rw [hp.stored hc] at this
        exact ((inChunk_iff_div h.dims.axes).1 ((inChunk_iff_region hc).2 this)).1
    · refine hocc _ (.inr ?_)
      have hch := (inChunk_iff_div h.dims.axes (c := divV x ds.chunkShape)).2 ⟨hx, rfl⟩
      have hc := inGrid_of_inChunk hch
      have hst : InStored ds (divV x ds.chunkShape) x := by
        show InRegion _ _ _
        rw [hp.stored hc]
        exact (inChunk_iff_region hc).1 hch
      have hr := (hrep _ hc).1
      cases hcc : content (divV x ds.chunkShape) with
      | none =>
        rw [hcc] at hr
        rw [hr x hst, ho.refl _ trivial] at hne
        cases hne
      | some data =>
        rw [hcc] at hr
        exact ⟨_, data, hc, hcc, repr_mem hr hst⟩
    · rw [hcnt e he, occurrences_array h hp (fun c hc => (hrep c hc).1) hne]
      show (0 + _) % _ = _
      rw [Nat.zero_add]

/-! ### Examples and counterexamples -/

/-- the tasks of `writeScalar` of the value 7 to all of `exLine` -/
def exFullTasks : List (Prog Unit) :=
  match exLine.writeScalar [0] [3] (7 : Fin (256 ^ 1)) (fun _ => []) with
  | .ok ts => ts
  | _ => []

def exFullStore : Store := (interleave exSchedule (exFullTasks, fun _ => none)).2

theorem exFull_reaches : Reaches exLine [⟨[0], [3], fun _ => (7 : Fin (256 ^ 1))⟩] exFullStore := by
  refine Reaches.step (ws := []) (.empty (σ := fun _ => none) fun _ _ => rfl) ?_
  refine Performs.scalar (ds := exLine) [0] [3] (7 : Fin (256 ^ 1)) (fun _ => []) exFullTasks exSchedule (by decide) rfl
    ⟨[.ok (), .ok ()], ?_, by simp, rfl⟩
  unfold Finished
  decide +kernel

theorem foreach_one {α : Type} {ts : List (Prog α)} {σ : Store}
    (h : (seqLoop ts (List.range ts.length) σ).1 = .ok ()) :
    ForeachRes ts 1 σ (.ok ()) (seqLoop ts (List.range ts.length) σ).2.1 (seqLoop ts (List.range ts.length) σ).2.2.1
      (seqLoop ts (List.range ts.length) σ).2.2.2 :=
  .seq (Nat.le_refl 1) (Prod.ext h rfl)

instance : DecidableEq U8.T := inferInstanceAs (DecidableEq (Fin (256 ^ 1)))

/-- **C36**: for zarr, the padding of the chunks at the edge of the array counts.  Here all elements of the array are
7, and `unique` and `uniqueWithCounts` also report a 0. -/
theorem c36_padding_counterexample : ∃ (σ σ' : Store) (log : List (Nat × Nat))
    (res : List (Nat × Nat × Option (List U8.T))),
    ReadsAs exLine σ (fun _ => (7 : Fin (256 ^ 1))) ∧ ForeachRes exLine.uniqueCalls 1 σ (.ok ()) σ' log res ∧
    uniqueOf uintLt 1 [] res = .ok [(0 : Fin (256 ^ 1)), (7 : Fin (256 ^ 1))] ∧
    uniqueCountsOf uintLt 1 [] res = .ok [((0 : Fin (256 ^ 1)), 1), ((7 : Fin (256 ^ 1)), 3)] := by
  refine ⟨exFullStore,
    (seqLoop exLine.uniqueCalls (List.range exLine.uniqueCalls.length) exFullStore).2.1,
    (seqLoop exLine.uniqueCalls (List.range exLine.uniqueCalls.length) exFullStore).2.2.1,
    (seqLoop exLine.uniqueCalls (List.range exLine.uniqueCalls.length) exFullStore).2.2.2, ?_,
    foreach_one ?_, ?_, ?_⟩
  · refine readsAs_congr (c08_read_after_write_zarr_exact exLine_wf rfl rfl u8_faithful exFull_reaches) fun x hx => ?_
    match x, hx with
    | [i], hx =>
      have hi : i < 3 := hx.1
      match i, hi with
      | 0, _ => rfl
      | 1, _ => rfl
      | 2, _ => rfl
  · decide +kernel
  · decide +kernel
  · decide +kernel

/-- one byte as sign and magnitude: 128 is a negative zero, equal to 0 -/
def S8 : Elem := { U8 with ceq := fun a b => decide (Fin.val a % 128 = 0 ∧ Fin.val b % 128 = 0) || U8.ceq a b }

instance : DecidableEq S8.T := inferInstanceAs (DecidableEq (Fin (256 ^ 1)))

/-- `<` of sign and magnitude -/
def signLt (a b : S8.T) : Bool :=
  let v (x : S8.T) : Int := if Fin.val x < 128 then Fin.val x else 128 - Fin.val x
  decide (v a < v b)

/-- **C36**: where different values are equal (floating point: the two zeros), which of them `unique` returns depends on
which thread gets which chunk. -/
theorem c36_zeros_counterexample : ∃ res res' : List (Nat × Nat × Option (List S8.T)),
    res.map (fun t => t.2) = res'.map (fun t => t.2) ∧
    uniqueOf signLt 2 [] res = .ok [(0 : Fin (256 ^ 1))] ∧ uniqueOf signLt 2 [] res' = .ok [(128 : Fin (256 ^ 1))] :=
  ⟨[(0, 0, some [(0 : Fin (256 ^ 1))]), (1, 1, some [(128 : Fin (256 ^ 1))])],
    [(1, 0, some [(0 : Fin (256 ^ 1))]), (0, 1, some [(128 : Fin (256 ^ 1))])], rfl, by decide +kernel, by decide +kernel⟩

/-- The hypotheses of C36 hold: an N5 dataset (partial chunks at two edges) after two overlapping writes. -/
example : ∃ σ A, Reaches (exDataset false)
    [⟨[1, 0], [3, 3], fun _ => (4 : Fin (256 ^ 2))⟩, ⟨[2, 1], [1, 2], fun _ => (9 : Fin (256 ^ 2))⟩] σ ∧
    ReadsAs (exDataset false) σ A ∧
    ∃ r σ' log res m, ForeachRes (exDataset false).uniqueCalls 1 σ r σ' log res ∧
      uniqueCountsOf uintLt 1 [] res = .ok m ∧ ∀ e ∈ m, e.1 ≠ (7 : Fin (256 ^ 2)) →
        e.2 = ((boxList [5, 3]).countP fun x => U16.ceq (A x) e.1) % 2 ^ 64 := by
  obtain ⟨σ, hreach⟩ := exDataset_reaches false
  obtain ⟨A, hA, _, hall⟩ := c36_counts_are_array_counts (exDataset_wf false) rfl (.inl rfl) (by decide +kernel)
    (uint_ordered 2 (by decide)) hreach
  have hseq : ForeachRes (exDataset false).uniqueCalls 1 σ _ _ _ _ := .seq (Nat.le_refl 1) rfl
  obtain ⟨_, _, m, e, _, _, _, hc⟩ := hall _ _ _ _ _ hseq
  refine ⟨σ, A, hreach, hA, _, _, _, _, m, hseq, e, fun e he hne => hc e he ?_⟩
  exact (Bool.eq_false_iff).2 fun ht => hne ((u16_faithful _ _).1 ht).symm

end Z5.Props
