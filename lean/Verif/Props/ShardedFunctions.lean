import Verif.Props.Unique
import Verif.Props.ShardedConc

/-!
# C35, C36 for sharded datasets; `removeDataset`
-/

namespace Z5.Props
open Z5 Spec Prog Pool ShardedDataset

variable {E : Elem} {ds : Dataset E} {sd : ShardedDataset E} {lt : E.T → E.T → Bool} {P : E.T → Prop}

/-! ### `removeDataset` -/

theorem touches_removeTask (ds : Dataset E) (c : List Nat) :
    TouchesOnly (ds.chunkKey c) (removeTask (ds.chunkExists c) (ds.removeChunk c)) := by
  unfold removeTask
  refine TouchesOnly.bind (touches_chunkExists ds c) fun b => ?_
  split
  · exact TouchesOnly.ret _
  · exact touches_removeChunk ds c

theorem exec_removeTask (h : ds.WF) (hw : ds.canWrite = true) {c : List Nat} (hc : InGrid ds.shape ds.chunkShape c)
    (v : Option Bytes) : exec1 (removeTask (ds.chunkExists c) (ds.removeChunk c)) v = (.ok (), none) := by
  unfold removeTask
  rw [exec1_bind_ok (chunkExists_exec h hc v)]
  cases v with
  | none => rfl
  | some b => exact exec_removeChunk h hw hc _

/-- **C51.** `removeDataset` on any store, even a damaged one, with any number of threads and any schedule: the call
succeeds, afterwards no chunk of the dataset is stored, and no file but those of its chunks has changed. -/
theorem c51_remove_dataset (h : ds.WF) (hw : ds.canWrite = true)
    (hfit : prod (blocksPerDimension ds.shape ds.chunkShape) < 2 ^ 64) (σ : Store) :
    ∃ ts, ds.removeDataset = .ok ts ∧ ∀ n r σ' log, Foreach ts n σ r σ' log → r = .ok () ∧
      (∀ c, InGrid ds.shape ds.chunkShape c → σ' (ds.chunkKey c) = none) ∧
      ∀ k, (∀ c, InGrid ds.shape ds.chunkShape c → ds.chunkKey c ≠ k) → σ' k = σ k := by
  unfold Dataset.removeDataset
  rw [if_neg (by simp [hw]), eachChunk_eq h hfit]
  refine ⟨_, rfl, fun n r σ' log hf => ?_⟩
  have hj := grid_jobs h (fun c => removeTask (ds.chunkExists c) (ds.removeChunk c)) fun c => touches_removeTask ds c
  obtain ⟨hr, hs⟩ := foreach_jobs hj (n := n) (σ := σ) (σ' := σ') (r := r) (log := log) (fun j hjm => by
    obtain ⟨c, hc, rfl⟩ := List.mem_map.1 hjm
    exact ⟨(), by rw [exec_removeTask h hw ((mem_gridList h).1 hc)]⟩) (by rw [List.map_map]; exact hf)
  refine ⟨hr, fun c hc => ?_, fun k hk => ?_⟩
  · have := finalOf_mem hj (j := (ds.chunkKey c, _)) (List.mem_map.2 ⟨c, (mem_gridList h).2 hc, rfl⟩) σ
    rw [← hs] at this
    simp only at this
    rw [this, exec_removeTask h hw hc]
  · rw [hs]
    refine finalOf_not_mem (fun j hjm => ?_) σ
    obtain ⟨c, hc, rfl⟩ := List.mem_map.1 hjm
    exact hk c ((mem_gridList h).1 hc)

/-! ### the elements of the chunks of a sharded dataset -/

/-- the calls about a chunk see only the bytes of the chunk in its shard -/
theorem run_readChunk_congr (h : sd.WF) {σ τ : Store} (hσ : sd.Valid σ) (hτ : sd.Valid τ) {c : List Nat}
    (hc : InGrid sd.shape sd.chunkShape c) (he : sd.blobAt τ c = sd.blobAt σ c) {dest : List E.T}
    {r : Res (Bool × List E.T)} (hr : run (sd.readChunk c dest) σ = (r, σ)) : run (sd.readChunk c dest) τ = (r, τ) := by
  have h1 := (run_readRawChunk h hσ hc).1
  have h2 := (run_readRawChunk h hτ hc).1
  unfold ShardedDataset.readChunk at hr ⊢
  rw [run_bind_ok h1] at hr
  rw [run_bind_ok h2, he]
  generalize hd : decompress E sd.codec ((sd.blobAt σ c).getD []) dest sd.chunkSize = d at hr ⊢
  cases d with
  | ok o => cases hr; rfl
  | throw e => cases hr; rfl
  | ub => cases hr; rfl

theorem run_checkVarlen_store {c : List Nat} {σ τ : Store} {v : Bool × Nat}
    (hr : run (sd.checkVarlenChunk c) σ = (.ok v, σ)) : run (sd.checkVarlenChunk c) τ = (.ok v, τ) := by
  unfold ShardedDataset.checkVarlenChunk at hr ⊢
  cases hh : sd.handle c with
  | ok x => rw [hh] at hr; cases hr; rfl
  | throw e => rw [hh] at hr; cases hr
  | ub => rw [hh] at hr; cases hr

theorem run_elements_sharded (h : sd.WF) {σ τ : Store} (hσ : sd.Valid σ) (hτ : sd.Valid τ)
    {content : List Nat → Option (List E.T)} (hcon : ShardContentIs sd σ content)
    {c : List Nat} (hc : InGrid sd.shape sd.chunkShape c) (he : sd.blobAt τ c = sd.blobAt σ c) :
    run (sd.storedElements c) τ = (.ok (content c), τ) := by
  have h0 := hcon c hc
  have hex : ∀ {b}, run (sd.chunkExists c) σ = (.ok b, σ) → run (sd.chunkExists c) τ = (.ok b, τ) := by
    intro b hb
    rw [(run_readRawChunk h hσ hc).2] at hb
    rw [(run_readRawChunk h hτ hc).2, he, (Prod.mk.inj hb).1]
  cases ho : content c with
  | none =>
    rw [ho] at h0
    exact run_storedElements_none (hex h0)
  | some data =>
    rw [ho] at h0
    obtain ⟨h1, v, n, h2, h3, h4⟩ := h0
    have hhold : HoldsElements (sd.chunkExists c) (sd.checkVarlenChunk c) (sd.readChunk c) (prod sd.chunkShape) τ data :=
      ⟨hex h1, v, n, run_checkVarlen_store h2, h3, fun buf hb => run_readChunk_congr h hσ hτ hc he (h4 buf hb)⟩
    refine run_storedElements hhold (fun extra hx => run_shardReadChunk_append extra hx)
      (fun _ => h.base.chunkSize_eq.symm) (fun hz => ?_)
    rw [h.isZarr] at hz
    cases hz

theorem readOnly_elements_sharded (sd : ShardedDataset E) (c : List Nat) : ReadOnly (sd.storedElements c) := by
  refine readOnly_storedElements (readOnly_shardChunkExists sd c) ?_ fun _ => readOnly_shardReadChunk sd c _
  unfold ShardedDataset.checkVarlenChunk
  refine ReadOnly.bind (ReadOnly.ret _) fun _ => ReadOnly.ret _

/-- the same without any assumption on the store, for the store itself -/
theorem run_elements_sharded_self (h : sd.WF) {σ : Store} {content : List Nat → Option (List E.T)}
    (hcon : ShardContentIs sd σ content) {c : List Nat} (hc : InGrid sd.shape sd.chunkShape c) :
    run (sd.storedElements c) σ = (.ok (content c), σ) := by
  have h0 := hcon c hc
  cases ho : content c with
  | none =>
    rw [ho] at h0
    exact run_storedElements_none h0
  | some data =>
    rw [ho] at h0
    refine run_storedElements h0 (fun extra hx => run_shardReadChunk_append extra hx)
      (fun _ => h.base.chunkSize_eq.symm) (fun hz => ?_)
    rw [h.isZarr] at hz
    cases hz

theorem stored_of_decodes_sharded (h : sd.WF) {σ : Store} (hval : sd.Valid σ) {c : List Nat}
    (hc : InGrid sd.shape sd.chunkShape c) {b : Bytes} (hb : sd.blobAt σ c = some b) {data : List E.T}
    (hd : Decodes sd.toDataset c b data) : ShardStoredAs sd σ c data := by
  have hl : data.length = prod sd.chunkShape := by rw [hd.length, stored_eq h]
  refine ⟨by rw [(run_readRawChunk h hval hc).2, hb]; rfl, false, accumulateMul (extV sd.shape sd.chunkShape c), ?_, hl,
    fun buf hbuf => run_readChunk h hval hc hb hd buf (hbuf.trans hl)⟩
  unfold ShardedDataset.checkVarlenChunk
  rw [h.base.handle_eq hc]
  rfl

/-- After any history of writes, every chunk of a sharded dataset is missing or readable. -/
theorem reaches_content_sharded (h : sd.WF) (hw : sd.canWrite = true) {ws : List (Write E.T)} {σ : Store}
    (hreach : ShardedReaches sd ws σ) : ∃ content, ShardContentIs sd σ content := by
  obtain ⟨hval, A, hA, _⟩ := ShardedDataset.reaches_refines h hw hreach
  have key : ∀ c, ∃ o : Option (List E.T), InGrid sd.shape sd.chunkShape c →
      match o with
        | none => run (sd.chunkExists c) σ = (.ok false, σ)
        | some data => ShardStoredAs sd σ c data := by
    intro c
    by_cases hc : InGrid sd.shape sd.chunkShape c
    · have hb := hA c hc
      cases hq : sd.blobAt σ c with
      | none => exact ⟨none, fun _ => by rw [(run_readRawChunk h hval hc).2, hq]; rfl⟩
      | some b =>
        rw [hq] at hb
        obtain ⟨data, hd, _⟩ := hb
        exact ⟨some data, fun _ => stored_of_decodes_sharded h hval hc hq hd⟩
    · exact ⟨none, fun hc' => absurd hc' hc⟩
  exact ⟨fun c => (key c).choose, fun c hc => (key c).choose_spec hc⟩

/-! ### C36, sharded -/

theorem shard_unique_calls (h : sd.WF) (hfit : prod (blocksPerDimension sd.shape sd.chunkShape) < 2 ^ 64) :
    sd.uniqueCalls = (gridList sd.toDataset).map sd.storedElements := eachChunk_eq h.base hfit _

/-- **C36, sharded**, `unique`: as `c36_unique`. -/
theorem c36_sharded_unique (h : sd.WF) (hfit : prod (blocksPerDimension sd.shape sd.chunkShape) < 2 ^ 64)
    (ho : OrderedOn E lt P) {σ : Store} {content : List Nat → Option (List E.T)} (hcon : ShardContentIs sd σ content)
    (hP : ∀ a, Present sd.shape sd.chunkShape content a → P a) {uniques : List E.T} (hu : ∀ a ∈ uniques, P a)
    (hsorted : uniques.Pairwise fun a b => lt a b = true) {n : Nat} {r : Res Unit} {σ' : Store}
    {log : List (Nat × Nat)} {res : List (Nat × Nat × Option (List E.T))}
    (hf : ForeachRes sd.uniqueCalls n σ r σ' log res) :
    r = .ok () ∧ σ' = σ ∧ ∃ s, uniqueOf lt (max 1 n) uniques res = .ok s ∧
      s.Pairwise (fun a b => lt a b = true) ∧
      (∀ a ∈ s, a ∈ uniques ∨ Present sd.shape sd.chunkShape content a) ∧
      ∀ a, a ∈ uniques ∨ Present sd.shape sd.chunkShape content a → ∃ b ∈ s, E.ceq b a = true := by
  have hg := fun {c} => mem_gridList h.base (c := c)
  rw [shard_unique_calls h hfit] at hf
  obtain ⟨h1, h2, s, e, hs, hmem, hocc⟩ := unique_general ho (fun c _ => readOnly_elements_sharded sd c)
    (fun c hc => by rw [run_elements_sharded_self h hcon (hg.1 hc)])
    (fun c hc data hd a ha => hP a ⟨c, data, hg.1 hc, hd, ha⟩) ⟨hu, hsorted⟩ hf
  refine ⟨h1, h2, s, e, hs.sorted, fun a ha => (hmem a ha).imp id ?_, fun a ha => ?_⟩
  · rintro ⟨c, hc, data, hd, had⟩
    exact ⟨c, data, hg.1 hc, hd, had⟩
  · have hPa : P a := ha.elim (hu a) (hP a)
    refine (hocc a hPa).2 (ha.imp (fun ha => ⟨a, ha, ho.refl a hPa⟩) ?_)
    rintro ⟨c, data, hc, hd, had⟩
    exact ⟨c, hg.2 hc, data, hd, a, had, ho.refl a hPa⟩

/-- two sorted lists with the same members -/
theorem sorted_ext (ho : OrderedOn E lt fun _ => True) {s t : List E.T} (hs : s.Pairwise fun a b => lt a b = true)
    (ht : t.Pairwise fun a b => lt a b = true) (hmem : ∀ a, a ∈ s ↔ a ∈ t) : s = t := by
  have hnd : ∀ {l : List E.T}, l.Pairwise (fun a b => lt a b = true) → l.Nodup := fun hl =>
    hl.imp fun {a b} hab he => by rw [he, ho.irrefl trivial] at hab; cases hab
  exact ((List.perm_ext_iff_of_nodup (hnd hs) (hnd ht)).2 hmem).eq_of_pairwise (fun a b _ _ hab hba => by
    have := ho.trans a b a trivial trivial trivial hab hba
    rw [ho.irrefl trivial] at this; cases this) hs ht

/-- **C36, sharded**, `unique`, for types where equal values are the same: as `c36_unique_exact`. -/
theorem c36_sharded_unique_exact (h : sd.WF) (hfit : prod (blocksPerDimension sd.shape sd.chunkShape) < 2 ^ 64)
    (ho : OrderedOn E lt fun _ => True) (hE : E.Faithful) {σ : Store} {content : List Nat → Option (List E.T)}
    (hcon : ShardContentIs sd σ content) {uniques : List E.T} (hsorted : uniques.Pairwise fun a b => lt a b = true) :
    ∃ s, s.Pairwise (fun a b => lt a b = true) ∧
      (∀ a, a ∈ s ↔ a ∈ uniques ∨ Present sd.shape sd.chunkShape content a) ∧
      ∀ n r σ' log res, ForeachRes sd.uniqueCalls n σ r σ' log res →
        r = .ok () ∧ σ' = σ ∧ uniqueOf lt (max 1 n) uniques res = .ok s := by
  have key : ∀ {n r σ' log res}, ForeachRes sd.uniqueCalls n σ r σ' log res →
      r = .ok () ∧ σ' = σ ∧ ∃ s, uniqueOf lt (max 1 n) uniques res = .ok s ∧
        s.Pairwise (fun a b => lt a b = true) ∧ ∀ a, a ∈ s ↔ a ∈ uniques ∨ Present sd.shape sd.chunkShape content a := by
    intro n r σ' log res hf
    obtain ⟨h1, h2, s, e, hs, hmem, hocc⟩ := c36_sharded_unique h hfit ho hcon (fun _ _ => trivial) (fun _ _ => trivial)
      hsorted hf
    refine ⟨h1, h2, s, e, hs, fun a => ⟨hmem a, fun ha => ?_⟩⟩
    obtain ⟨b, hb, hba⟩ := hocc a ha
    rw [← (hE b a).1 hba]
    exact hb
  have hseq : ForeachRes sd.uniqueCalls 1 σ _ _ _ _ := .seq (Nat.le_refl 1) rfl
  obtain ⟨_, _, s, _, hs, hmem⟩ := key hseq
  refine ⟨s, hs, hmem, fun n r σ' log res hf => ?_⟩
  obtain ⟨h1, h2, s', e, hs', hmem'⟩ := key hf
  exact ⟨h1, h2, by rw [e, sorted_ext ho hs' hs fun a => (hmem' a).trans (hmem a).symm]⟩

/-- **C36, sharded**, `uniqueWithCounts`: as `c36_unique_with_counts`. -/
theorem c36_sharded_unique_with_counts (h : sd.WF)
    (hfit : prod (blocksPerDimension sd.shape sd.chunkShape) < 2 ^ 64)
    (ho : OrderedOn E lt P) {σ : Store} {content : List Nat → Option (List E.T)} (hcon : ShardContentIs sd σ content)
    (hP : ∀ a, Present sd.shape sd.chunkShape content a → P a) {uniques : List (E.T × Nat)}
    (hu : ∀ e ∈ uniques, P e.1 ∧ e.2 < 2 ^ 64) (hsorted : uniques.Pairwise fun a b => lt a.1 b.1 = true)
    {cs : List (List Nat)} (hnd : cs.Nodup) (hcs : ∀ c, c ∈ cs ↔ InGrid sd.shape sd.chunkShape c)
    {n : Nat} {r : Res Unit} {σ' : Store} {log : List (Nat × Nat)} {res : List (Nat × Nat × Option (List E.T))}
    (hf : ForeachRes sd.uniqueCalls n σ r σ' log res) :
    r = .ok () ∧ σ' = σ ∧ ∃ m, uniqueCountsOf lt (max 1 n) uniques res = .ok m ∧
      m.Pairwise (fun a b => lt a.1 b.1 = true) ∧
      (∀ e ∈ m, e.1 ∈ uniques.map Prod.fst ∨ Present sd.shape sd.chunkShape content e.1) ∧
      (∀ a, a ∈ uniques.map Prod.fst ∨ Present sd.shape sd.chunkShape content a → ∃ e ∈ m, E.ceq e.1 a = true) ∧
      ∀ e ∈ m, e.2 = (mapCount E uniques e.1 + occurrencesIn cs content e.1) % 2 ^ 64 := by
  have hg := fun {c} => mem_gridList h.base (c := c)
  rw [shard_unique_calls h hfit] at hf
  obtain ⟨h1, h2, m, e, hs, hmem, hocc, hcnt⟩ := uniqueCounts_general ho (fun c _ => readOnly_elements_sharded sd c)
    (fun c hc => by rw [run_elements_sharded_self h hcon (hg.1 hc)])
    (fun c hc data hd a ha => hP a ⟨c, data, hg.1 hc, hd, ha⟩)
    ⟨fun e he => (hu e he).1, hsorted, fun e he => (hu e he).2⟩ hf
  refine ⟨h1, h2, m, e, hs.sorted, fun a ha => (hmem a ha).imp id ?_, fun a ha => ?_, fun e he => ?_⟩
  · rintro ⟨c, hc, data, hd, had⟩
    exact ⟨c, data, hg.1 hc, hd, had⟩
  · have hPa : P a := ha.elim (fun ha => by
      obtain ⟨e, he, rfl⟩ := List.mem_map.1 ha
      exact (hu e he).1) (hP a)
    obtain ⟨z, hz, hza⟩ := (hocc a hPa).2 (ha.imp (fun ha => ⟨a, ha, ho.refl a hPa⟩) (by
      rintro ⟨c, data, hc, hd, had⟩
      exact ⟨c, hg.2 hc, data, hd, a, had, ho.refl a hPa⟩))
    obtain ⟨e, he, rfl⟩ := List.mem_map.1 hz
    exact ⟨e, he, hza⟩
  · rw [hcnt e he]
    have hperm : cs.Perm (gridList sd.toDataset) := (List.perm_ext_iff_of_nodup hnd (nodup_boxList _)).2 fun c =>
      (hcs c).trans hg.symm
    have : occurrencesIn cs content e.1 = occurrencesIn (gridList sd.toDataset) content e.1 := (hperm.map _).sum_nat
    rw [this]

/-! ### C35, sharded -/

theorem run_ret_ok {α β : Type} (a : α) (g : α → Prog β) (σ : Store) :
    run ((Prog.ret (.ok a) : Prog α) >>= g) σ = run (g a) σ := rfl

/-- one call of the loop -/
theorem run_trivialTask_sharded (h : sd.WF) (hw : sd.canWrite = true) (ho : OrderedOn E lt P) {value : Option E.T}
    (hv : ∀ v, value = some v → P v) {σ τ : Store} (hσ : sd.Valid σ) (hτ : sd.Valid τ)
    {content : List Nat → Option (List E.T)} (hcon : ShardContentIs sd σ content) {c : List Nat}
    (hc : InGrid sd.shape sd.chunkShape c) (he : sd.blobAt τ c = sd.blobAt σ c)
    (hP : ∀ data, content c = some data → ∀ a ∈ data, P a) :
    (∃ e, run (trivialTask lt value (sd.storedElements c) (sd.removeChunk c)) τ = (.throw e, τ)) ∨
    ∃ τ', run (trivialTask lt value (sd.storedElements c) (sd.removeChunk c)) τ = (.ok (), τ') ∧ sd.Valid τ' ∧
      (Trivial E value (content c) → sd.blobAt τ' c = none) ∧
      (¬ Trivial E value (content c) → sd.blobAt τ' c = sd.blobAt σ c) ∧
      (∀ d, InGrid sd.shape sd.chunkShape d → d ≠ c → sd.blobAt τ' d = sd.blobAt τ d) ∧
      ∀ k, (∀ s, InGrid sd.shape sd.shardShape s → getChunkKey sd.key s ≠ k) → τ' k = τ k := by
  unfold trivialTask
  rw [run_bind_ok (run_elements_sharded h hσ hτ hcon hc he)]
  cases hcc : content c with
  | none =>
    exact .inr ⟨τ, rfl, hτ, fun ⟨_, h, _⟩ => (by cases h), fun _ => he, fun _ _ _ => rfl, fun _ _ => rfl⟩
  | some data =>
    obtain ⟨b, hb, hiff⟩ := trivialElements_spec ho hv (hP data hcc)
    simp only
    rw [hb, run_ret_ok]
    cases b with
    | true =>
      rw [if_pos rfl]
      rcases writeInnerBlob_effect h hw hc none hτ with ⟨e, hthrow⟩ | ⟨τ', hok, k1, k2, k3, k4⟩
      · exact .inl ⟨e, hthrow⟩
      · refine .inr ⟨τ', hok, k1.1, fun _ => k2, fun hn => ?_, k3, fun k hk => k4 k fun hkey => ?_⟩
        · exact absurd ⟨data, rfl, hiff.1 rfl⟩ hn
        · exact hk _ (h.shard_inGrid hc) hkey.symm
    | false =>
      rw [if_neg (by simp)]
      refine .inr ⟨τ, rfl, hτ, fun ⟨d, hd, ht⟩ => ?_, fun _ => he, fun _ _ _ => rfl, fun _ _ => rfl⟩
      cases hd
      exact absurd (hiff.2 ht) (by simp)

/-- the loop on one thread -/
theorem seqLoop_trivial (h : sd.WF) (hw : sd.canWrite = true) (ho : OrderedOn E lt P) {value : Option E.T}
    (hv : ∀ v, value = some v → P v) {σ : Store} (hσ : sd.Valid σ)
    {content : List Nat → Option (List E.T)} (hcon : ShardContentIs sd σ content)
    (hP : ∀ a, Present sd.shape sd.chunkShape content a → P a) {f : List Nat → Prog Unit}
    (hfd : f = fun c => trivialTask lt value (sd.storedElements c) (sd.removeChunk c))
    {all : List (List Nat)} (hall : ∀ c ∈ all, InGrid sd.shape sd.chunkShape c) (hnd : all.Nodup) :
    ∀ (m k : Nat), k + m = all.length → ∀ {τ : Store}, sd.Valid τ →
      (∀ (i : Nat) c, i < k → all[i]? = some c → (Trivial E value (content c) → sd.blobAt τ c = none) ∧
        (¬ Trivial E value (content c) → sd.blobAt τ c = sd.blobAt σ c)) →
      (∀ (i : Nat) c, k ≤ i → all[i]? = some c → sd.blobAt τ c = sd.blobAt σ c) →
      (∀ key, (∀ s, InGrid sd.shape sd.shardShape s → getChunkKey sd.key s ≠ key) → τ key = σ key) →
      ∀ {r τ' log res}, seqLoop (all.map f) (List.range' k m) τ = (r, τ', log, res) →
        r ≠ .ub ∧ sd.Valid τ' ∧
        (∀ key, (∀ s, InGrid sd.shape sd.shardShape s → getChunkKey sd.key s ≠ key) → τ' key = σ key) ∧
        (∀ c ∈ all, (¬ Trivial E value (content c) → sd.blobAt τ' c = sd.blobAt σ c) ∧
          (Trivial E value (content c) → sd.blobAt τ' c = none ∨ r ≠ .ok () ∧ sd.blobAt τ' c = sd.blobAt σ c))
  | 0, k, hk, τ, hτ, h1, h2, h3, r, τ', log, res, he => by
    cases he
    refine ⟨by simp, hτ, h3, fun c hc => ?_⟩
    obtain ⟨i, hi, rfl⟩ := List.mem_iff_getElem.1 hc
    have := h1 i _ (by omega) (List.getElem?_eq_getElem hi)
    exact ⟨this.2, fun ht => .inl (this.1 ht)⟩
  | m + 1, k, hk, τ, hτ, h1, h2, h3, r, τ', log, res, he => by
    have hlt : k < all.length := by omega
    have hget : all[k]? = some all[k] := List.getElem?_eq_getElem hlt
    have hc := hall _ (List.getElem_mem hlt)
    rw [List.range'_succ] at he
    unfold seqLoop at he
    rw [List.getElem?_map, hget] at he
    simp only [Option.map_some] at he
    have hb := h2 k _ (Nat.le_refl k) hget
    rcases run_trivialTask_sharded h hw ho hv hσ hτ hcon hc hb
      (fun data hd a ha => hP a ⟨_, data, hc, hd, ha⟩) with ⟨e, hr⟩ | ⟨τ1, hr, k1, k2, k3, k4, k5⟩
    · rw [hfd] at he
      simp only at he
      rw [hr] at he
      cases he
      refine ⟨by simp, hτ, h3, fun c hcm => ?_⟩
      obtain ⟨i, hi, rfl⟩ := List.mem_iff_getElem.1 hcm
      by_cases hik : i < k
      · have := h1 i _ hik (List.getElem?_eq_getElem hi)
        exact ⟨this.2, fun ht => .inl (this.1 ht)⟩
      · have := h2 i _ (by omega) (List.getElem?_eq_getElem hi)
        exact ⟨fun _ => this, fun _ => .inr ⟨by simp, this⟩⟩
    · have he' : ∃ log' res', seqLoop (all.map f) (List.range' (k + 1) m) τ1 = (r, τ', log', res') := by
        rw [hfd] at he ⊢
        simp only at he
        rw [hr] at he
        simp only [Prod.mk.injEq] at he
        exact ⟨_, _, Prod.ext he.1 (Prod.ext he.2.1 rfl)⟩
      obtain ⟨log', res', he'⟩ := he'
      have hne : ∀ (i : Nat) c, i ≠ k → all[i]? = some c → c ≠ all[k] := by
        intro i c hi hic hcc
        subst hcc
        obtain ⟨hil, hie⟩ := List.getElem?_eq_some_iff.1 hic
        exact hi ((List.getElem?_inj hil hnd).1 (hic.trans hget.symm))
      refine seqLoop_trivial h hw ho hv hσ hcon hP hfd hall hnd m (k + 1) (by omega) k1 ?_ ?_ ?_ he'
      · intro i c hi hic
        by_cases hik : i = k
        · subst hik
          rw [hget] at hic
          cases hic
          exact ⟨k2, k3⟩
        · have hcg := hall c (List.mem_of_getElem? hic)
          rw [k4 c hcg (hne i c hik hic)]
          exact h1 i c (by omega) hic
      · intro i c hi hic
        have hcg := hall c (List.mem_of_getElem? hic)
        rw [k4 c hcg (hne i c (by omega) hic)]
        exact h2 i c (by omega) hic
      · intro key hkey
        rw [k5 key hkey, h3 key hkey]

/-- **C35, sharded**, on one thread.  After any history of writes, for every value or none: the call does not run into
undefined behaviour and changes no file but those of the shards; chunks that are not trivial keep their stored bytes,
whatever happens; if the call succeeds, exactly the trivial chunks are gone.  (With two threads the call
can fail: `c35_sharded_race_counterexample`.) -/
theorem c35_sharded_one_thread (h : sd.WF) (hw : sd.canWrite = true)
    (hfit : prod (blocksPerDimension sd.shape sd.chunkShape) < 2 ^ 64) (ho : OrderedOn E lt P) {value : Option E.T}
    (hv : ∀ v, value = some v → P v) {ws : List (Write E.T)} {σ : Store} (hreach : ShardedReaches sd ws σ)
    {content : List Nat → Option (List E.T)} (hcon : ShardContentIs sd σ content)
    (hP : ∀ a, Present sd.shape sd.chunkShape content a → P a) :
    ∃ ts, sd.removeTrivialChunks lt value = .ok ts ∧
      ∀ n r σ' log, n ≤ 1 → Foreach ts n σ r σ' log → r ≠ .ub ∧
        (∀ k, (∀ s, InGrid sd.shape sd.shardShape s → getChunkKey sd.key s ≠ k) → σ' k = σ k) ∧
        (∀ c, InGrid sd.shape sd.chunkShape c →
          (¬ (∃ data, content c = some data ∧ OneValue E value data) →
            ∃ b e, run (sd.readRawChunk c) σ = (.ok b, σ) ∧ run (sd.readRawChunk c) σ' = (.ok b, σ') ∧
              run (sd.chunkExists c) σ = (.ok e, σ) ∧ run (sd.chunkExists c) σ' = (.ok e, σ')) ∧
          (r = .ok () → (∃ data, content c = some data ∧ OneValue E value data) →
            run (sd.chunkExists c) σ' = (.ok false, σ'))) := by
  obtain ⟨hval, _⟩ := ShardedDataset.reaches_refines h hw hreach
  have hg := fun {c} => mem_gridList h.base (c := c)
  unfold ShardedDataset.removeTrivialChunks
  rw [if_neg (by simp [hw]), eachChunk_eq h.base hfit]
  refine ⟨_, rfl, fun n r σ' log hn hf => ?_⟩
  obtain ⟨res, hf⟩ := hf
  have hseq : seqLoop ((gridList sd.toDataset).map fun c =>
      trivialTask lt value (sd.storedElements c) (sd.removeChunk c))
      (List.range' 0 (gridList sd.toDataset).length) σ = (r, σ', log, res) := by
    cases hf with
    | seq _ hs => rw [← List.range_eq_range', ← hs, List.length_map]
    | pool h1 => omega
  obtain ⟨h1, h2, h3, h4⟩ := seqLoop_trivial h hw ho hv hval hcon hP rfl (fun c hc => hg.1 hc) (nodup_boxList _)
    (gridList sd.toDataset).length 0 (by omega) hval (fun i c hi => by omega) (fun _ _ _ _ => rfl) (fun _ _ => rfl) hseq
  refine ⟨h1, h3, fun c hc => ⟨fun ht => ?_, fun hr ht => ?_⟩⟩
  · have hb := (h4 c (hg.2 hc)).1 ht
    refine ⟨_, _, (run_readRawChunk h hval hc).1, ?_, (run_readRawChunk h hval hc).2, ?_⟩
    · rw [(run_readRawChunk h h2 hc).1, hb]
    · rw [(run_readRawChunk h h2 hc).2, hb]
  · rcases (h4 c (hg.2 hc)).2 ht with hb | ⟨hne, _⟩
    · rw [(run_readRawChunk h h2 hc).2, hb]; rfl
    · exact absurd hr hne

/-- **C35, sharded**: read-only datasets are left alone. -/
theorem c35_sharded_read_only (hw : sd.canWrite = false) (value : Option E.T) :
    sd.removeTrivialChunks lt value = .throw .invalidArgument ∧ sd.removeDataset = .throw .invalidArgument := by
  simp [ShardedDataset.removeTrivialChunks, ShardedDataset.removeDataset, hw]

/-- the calls of `removeTrivialChunks` on `exSharded` -/
def exRaceCalls : List (Prog Unit) :=
  exSharded.eachChunk fun c => trivialTask uintLt none (exSharded.storedElements c) (exSharded.removeChunk c)

/-- two threads: the second thread gets chunk 1 and starts to rewrite the shard; then the first thread looks at
chunk 0 -/
def exRaceEvents : List Event :=
  List.replicate 8 (.client 0) ++ [.worker 0, .worker 1] ++ List.replicate 8 (.worker 1) ++
    List.replicate 3 (.worker 0) ++ (List.replicate 60 [Event.worker 1, .worker 0, .client 0, .client 0]).flatten

/-- **C35, sharded**: with two threads the call can fail, on a store written by this library.  One thread removes chunk 1
and is writing the shard, the other one reads chunk 0 of the same shard, which takes no lock, and finds a truncated
file. -/
theorem c35_sharded_race_counterexample : ∃ (σ σ' : Store) (ts : List (Prog Unit)) (log : List (Nat × Nat)),
    ShardedReaches exSharded [⟨[1], [4], fun _ => (9 : Fin (256 ^ 1))⟩] σ ∧
    exSharded.removeTrivialChunks uintLt none = .ok ts ∧ Foreach ts 2 σ (.throw .runtimeError) σ' log ∧
    ∃ σ'' log'', Foreach ts 1 σ (.ok ()) σ'' log'' := by
  have hfirst : (steps exRaceCalls exRaceEvents (start 2 (foreachCmds 1 exRaceCalls.length) exShardedStore)).first =
      .throw .runtimeError := by decide +kernel
  have hdone : (steps exRaceCalls exRaceEvents (start 2 (foreachCmds 1 exRaceCalls.length) exShardedStore)).client =
      .done := by decide +kernel
  have hpool : ForeachRes exRaceCalls 2 exShardedStore _ _ _ _ :=
    .pool (by decide) (Nat.le_refl 1) rfl hdone
  rw [hfirst] at hpool
  exact ⟨exShardedStore, _, exRaceCalls, _, exSharded_reaches, rfl, ⟨_, hpool⟩, _, _, _,
    foreach_one (by decide +kernel)⟩

/-- The hypotheses of C35 and C36 hold of `exSharded` and `exShardedStore`. -/
example : ∃ content, ShardContentIs exSharded exShardedStore content ∧
    prod (blocksPerDimension exSharded.shape exSharded.chunkShape) < 2 ^ 64 ∧
    ∃ r σ' log res s, ForeachRes exSharded.uniqueCalls 1 exShardedStore r σ' log res ∧
      uniqueOf uintLt 1 [] res = .ok s ∧ ∀ a, a ∈ s ↔ Present exSharded.shape exSharded.chunkShape content a := by
  obtain ⟨content, hcon⟩ := reaches_content_sharded exSharded_wf rfl exSharded_reaches
  have hfit : prod (blocksPerDimension exSharded.shape exSharded.chunkShape) < 2 ^ 64 := by decide +kernel
  obtain ⟨s, _, hmem, hall⟩ := c36_sharded_unique_exact exSharded_wf hfit (uint_ordered 1 (by decide)) u8_faithful hcon
    (uniques := []) .nil
  obtain ⟨_, _, _, _, hseq⟩ := c37_terminates exSharded.uniqueCalls 1 exShardedStore
  exact ⟨content, hcon, hfit, _, _, _, _, s, hseq, (hall _ _ _ _ _ hseq).2.2, fun a => (hmem a).trans (by simp)⟩

example : ∃ (ts : List (Prog Unit)) (σ' : Store) (log : List (Nat × Nat)), exLine.removeDataset = .ok ts ∧
    Foreach ts 1 exLineStore (.ok ()) σ' log ∧
    exLineStore (exLine.chunkKey [0]) ≠ none ∧ σ' (exLine.chunkKey [0]) = none := by
  obtain ⟨ts, hts, hall⟩ := c51_remove_dataset exLine_wf rfl (by decide +kernel) exLineStore
  obtain ⟨r, σ', log, hf⟩ := c37_terminates ts 1 exLineStore
  obtain ⟨hr, h1, _⟩ := hall 1 r σ' log hf
  exact ⟨ts, σ', log, hts, by rw [← hr]; exact hf, by decide +kernel, h1 [0] (by decide)⟩

end Z5.Props
