import Verif.Proofs.Functions
import Verif.Props.ForEach
import Verif.Props.ReadWrite
import Verif.Props.Sharded

/-!
# C35 and C36: `removeTrivialChunks`, `removeDataset`, `unique` and `uniqueWithCounts`
-/

namespace Z5.Props
open Z5 Spec Prog Pool

variable {E : Elem} {ds : Dataset E} {lt : E.T → E.T → Bool} {P : E.T → Prop}

/-! ### one chunk -/

theorem run_checkVarlen_false (h : ds.WF) {c : List Nat} (hc : InGrid ds.shape ds.chunkShape c)
    (hz : ds.isZarr = false) {σ : Store} {n : Nat} (hr : run (ds.checkVarlenChunk c) σ = (.ok (false, n), σ)) :
    n = prod (ds.stored c) := by
  have hst : ds.stored c = extV ds.shape ds.chunkShape c := by rw [Dataset.stored, if_neg (by simp [hz])]
  rw [hst]
  have e := accumulateMul_eq (prod_reverse_ext_lt h hc)
  rw [run_of_touches (touches_checkVarlenChunk ds c)] at hr
  have h1 : (exec1 (ds.checkVarlenChunk c) (σ (ds.chunkKey c))).1 = .ok (false, n) := (Prod.mk.inj hr).1
  unfold Dataset.checkVarlenChunk at h1
  rw [h.handle_eq hc, bind_ok] at h1
  by_cases hf : ds.backend = .s3
  · rw [if_pos (.inl hf)] at h1
    have h1 : (Res.ok (false, accumulateMul (extV ds.shape ds.chunkShape c)) : Res (Bool × Nat)) = .ok (false, n) := h1
    cases h1
    exact e
  rw [if_neg (by simp [hz, hf]), exec1_bind_ok (exec1_exists _ _)] at h1
  cases hv : σ (ds.chunkKey c) with
  | none =>
    rw [hv] at h1
    have h1 : (Res.ok (false, accumulateMul (extV ds.shape ds.chunkShape c)) : Res (Bool × Nat)) = .ok (false, n) := h1
    cases h1
    exact e
  | some b =>
    rw [hv] at h1
    simp only [Option.isSome_some, Bool.not_true, Bool.false_eq_true, if_false] at h1
    rw [exec1_bind_ok (exec1_peek _ _)] at h1
    simp only at h1
    cases hb : readVarlenFromHeader b with
    | throw _ => rw [hb] at h1; cases h1
    | ub => rw [hb] at h1; cases h1
    | ok o =>
      rw [hb] at h1
      cases o with
      | some m => cases h1
      | none =>
        have h1 : (Res.ok (false, accumulateMul (extV ds.shape ds.chunkShape c)) : Res (Bool × Nat)) =
          .ok (false, n) := h1
        cases h1
        exact e

theorem run_elements (h : ds.WF) {σ : Store} {content : List Nat → Option (List E.T)} (hcon : ContentIs ds σ content)
    {c : List Nat} (hc : InGrid ds.shape ds.chunkShape c) :
    run (ds.storedElements c) σ = (.ok (content c), σ) := by
  have := hcon c hc
  cases ho : content c with
  | none =>
    rw [ho] at this
    exact run_storedElements_none this
  | some data =>
    rw [ho] at this
    exact run_storedElements this (fun extra hx => run_readChunk_append extra hx)
      (fun hz => by rw [Dataset.stored, if_pos hz, h.chunkSize_eq])
      (fun hz n hn => run_checkVarlen_false h hc hz hn)

theorem readOnly_elements (ds : Dataset E) (c : List Nat) : ReadOnly (ds.storedElements c) :=
  readOnly_storedElements (readOnly_chunkExists ds c) (readOnly_checkVarlenChunk ds c) fun _ => readOnly_readChunk ds c _

theorem exec_elements (h : ds.WF) {σ : Store} {content : List Nat → Option (List E.T)} (hcon : ContentIs ds σ content)
    {c : List Nat} (hc : InGrid ds.shape ds.chunkShape c) :
    exec1 (ds.storedElements c) (σ (ds.chunkKey c)) = (.ok (content c), σ (ds.chunkKey c)) := by
  have := run_elements h hcon hc
  rw [run_of_touches (touches_storedElements ds c)] at this
  exact Prod.ext (Prod.mk.inj this).1 (exec1_readOnly (readOnly_elements ds c) _)

theorem exec_removeChunk (h : ds.WF) (hw : ds.canWrite = true) {c : List Nat}
    (hc : InGrid ds.shape ds.chunkShape c) (v : Option Bytes) : exec1 (ds.removeChunk c) v = (.ok (), none) := by
  unfold Dataset.removeChunk
  rw [h.handle_eq hc, bind_ok, if_neg (by simp [hw])]
  rfl

theorem touches_removeChunk (ds : Dataset E) (c : List Nat) : TouchesOnly (ds.chunkKey c) (ds.removeChunk c) := by
  unfold Dataset.removeChunk
  refine TouchesOnly.bind (TouchesOnly.ret _) fun _ => ?_
  split
  · exact TouchesOnly.ret _
  · exact touches_update _ _

theorem touches_trivialTask (ds : Dataset E) (c : List Nat) (value : Option E.T) :
    TouchesOnly (ds.chunkKey c) (trivialTask lt value (ds.storedElements c) (ds.removeChunk c)) := by
  unfold trivialTask
  refine TouchesOnly.bind (touches_storedElements ds c) fun o => ?_
  split
  · exact TouchesOnly.ret _
  · refine TouchesOnly.bind (TouchesOnly.ret _) fun b => ?_
    split
    · exact touches_removeChunk ds c
    · exact TouchesOnly.ret _

/-- all elements of the chunk are one value -/
def Trivial (E : Elem) (value : Option E.T) (o : Option (List E.T)) : Prop :=
  ∃ data, o = some data ∧ OneValue E value data

theorem exec_trivialTask (h : ds.WF) (hw : ds.canWrite = true) (ho : OrderedOn E lt P) {value : Option E.T}
    (hv : ∀ v, value = some v → P v) {σ : Store} {content : List Nat → Option (List E.T)}
    (hcon : ContentIs ds σ content) {c : List Nat} (hc : InGrid ds.shape ds.chunkShape c)
    (hP : ∀ data, content c = some data → ∀ a ∈ data, P a) :
    ∃ w, exec1 (trivialTask lt value (ds.storedElements c) (ds.removeChunk c)) (σ (ds.chunkKey c)) = (.ok (), w) ∧
      (Trivial E value (content c) → w = none) ∧ (¬ Trivial E value (content c) → w = σ (ds.chunkKey c)) := by
  unfold trivialTask
  rw [exec1_bind_ok (exec_elements h hcon hc)]
  cases hcc : content c with
  | none => exact ⟨_, rfl, fun ⟨_, h, _⟩ => (by cases h), fun _ => rfl⟩
  | some data =>
    obtain ⟨b, hb, hiff⟩ := trivialElements_spec ho hv (hP data hcc)
    simp only
    rw [hb, bind_ok]
    cases b with
    | true =>
      refine ⟨none, exec_removeChunk h hw hc _, fun _ => rfl, fun hn => ?_⟩
      exact absurd ⟨data, rfl, hiff.1 rfl⟩ hn
    | false =>
      refine ⟨_, rfl, fun ⟨d, hd, ht⟩ => ?_, fun _ => rfl⟩
      cases hd
      exact absurd (hiff.2 ht) (by simp)

/-! ### C35 -/

theorem grid_jobs (h : ds.WF) {α : Type} (f : List Nat → Prog α) (hf : ∀ c, TouchesOnly (ds.chunkKey c) (f c)) :
    JobsOk ((gridList ds).map fun c => (ds.chunkKey c, f c)) := by
  refine ⟨fun j hj => ?_, ?_⟩
  · obtain ⟨c, _, rfl⟩ := List.mem_map.1 hj
    exact hf c
  · rw [List.map_map, List.Nodup, List.pairwise_map]
    refine List.Pairwise.imp_of_mem ?_ (nodup_boxList (blocksPerDimension ds.shape ds.chunkShape))
    intro a b ha hb hne he
    exact hne (h.key_inj ((mem_gridList h).1 ha) ((mem_gridList h).1 hb) he)

/-- **C35.** For every dataset open for writing, every store whose chunks are missing or readable (`content` says
which, and with what elements), every value or none, every number of threads and every schedule: the call succeeds,
deletes the chunks whose elements are all one value (equal to the given one, if one is given), and changes nothing
else in the store.  (`<` must order the elements that occur: no NaN.) -/
theorem c35_removes_exactly (h : ds.WF) (hw : ds.canWrite = true)
    (hfit : prod (blocksPerDimension ds.shape ds.chunkShape) < 2 ^ 64) (ho : OrderedOn E lt P) {value : Option E.T}
    (hv : ∀ v, value = some v → P v) {σ : Store} {content : List Nat → Option (List E.T)}
    (hcon : ContentIs ds σ content) (hP : ∀ a, Present ds.shape ds.chunkShape content a → P a) :
    ∃ ts, ds.removeTrivialChunks lt value = .ok ts ∧
      ∀ n r σ' log, Foreach ts n σ r σ' log → r = .ok () ∧
        (∀ c, InGrid ds.shape ds.chunkShape c →
          ((∃ data, content c = some data ∧ OneValue E value data) → σ' (ds.chunkKey c) = none) ∧
          (¬ (∃ data, content c = some data ∧ OneValue E value data) → σ' (ds.chunkKey c) = σ (ds.chunkKey c))) ∧
        ∀ k, (∀ c, InGrid ds.shape ds.chunkShape c → ds.chunkKey c ≠ k) → σ' k = σ k := by
  unfold Dataset.removeTrivialChunks
  rw [if_neg (by simp [hw]), eachChunk_eq h hfit]
  refine ⟨_, rfl, fun n r σ' log hf => ?_⟩
  have hj := grid_jobs h (fun c => trivialTask lt value (ds.storedElements c) (ds.removeChunk c))
    fun c => touches_trivialTask ds c value
  have hex := fun c (hc : InGrid ds.shape ds.chunkShape c) => exec_trivialTask h hw ho hv hcon hc
    fun data hd a ha => hP a ⟨c, data, hc, hd, ha⟩
  obtain ⟨hr, hs⟩ := foreach_jobs hj (n := n) (σ := σ) (σ' := σ') (r := r) (log := log) (fun j hjm => by
    obtain ⟨c, hc, rfl⟩ := List.mem_map.1 hjm
    obtain ⟨w, hw, _⟩ := hex c ((mem_gridList h).1 hc)
    exact ⟨(), by rw [hw]⟩) (by rw [List.map_map]; exact hf)
  refine ⟨hr, fun c hc => ?_, fun k hk => ?_⟩
  · obtain ⟨w, hw, h1, h2⟩ := hex c hc
    have := finalOf_mem hj (j := (ds.chunkKey c, _)) (List.mem_map.2 ⟨c, (mem_gridList h).2 hc, rfl⟩) σ
    rw [← hs] at this
    simp only at this
    rw [hw] at this
    exact ⟨fun ht => this.trans (h1 ht), fun ht => this.trans (h2 ht)⟩
  · rw [hs]
    refine finalOf_not_mem (fun j hjm => ?_) σ
    obtain ⟨c, hc, rfl⟩ := List.mem_map.1 hjm
    exact hk c ((mem_gridList h).1 hc)

/-- **C35**: read-only datasets are left alone. -/
theorem c35_read_only (hw : ds.canWrite = false) (value : Option E.T) :
    ds.removeTrivialChunks lt value = .throw .invalidArgument ∧ ds.removeDataset = .throw .invalidArgument := by
  simp [Dataset.removeTrivialChunks, Dataset.removeDataset, hw]

/-- The store represents the array `A` (and the padding of zarr edge chunks): the file of each chunk is missing and
`A` is the fill value there, or it is a valid file of the format holding the values of `A`.  Unlike the stores written by this
library, it may hold chunks of only fill values. -/
def Represents (ds : Dataset E) (σ : Store) (A : List Nat → E.T) : Prop :=
  ∀ c, InGrid ds.shape ds.chunkShape c → BlobOk ds c (σ (ds.chunkKey c)) A

theorem represents_readsAs (h : ds.WF) {σ : Store} {A : List Nat → E.T} (hA : Represents ds σ A) : ReadsAs ds σ A :=
  fun _ _ _ scratch hr hfit hna => readSubarray_exec h hr hfit hna (fun c hc => hA c hc.inGrid) scratch

theorem run_of_exec {α : Type} {κ : Key} {p : Prog α} (ht : TouchesOnly κ p) {σ : Store} {r : Res α}
    (he : exec1 p (σ κ) = (r, σ κ)) : run p σ = (r, σ) := by
  rw [run_of_touches ht, he, upd_self]

theorem storedAs_of_decodes (h : ds.WF) {σ : Store} {c : List Nat} (hc : InGrid ds.shape ds.chunkShape c) {b : Bytes}
    (hb : σ (ds.chunkKey c) = some b) {data : List E.T} (hd : Decodes ds c b data) : StoredAs ds σ c data := by
  refine ⟨run_of_exec (touches_chunkExists ds c) (by rw [chunkExists_exec h hc, hb]; rfl), false,
    accumulateMul (extV ds.shape ds.chunkShape c), run_of_exec (touches_checkVarlenChunk ds c) ?_, hd.length, ?_⟩
  · rw [hb]
    unfold Dataset.checkVarlenChunk
    rw [h.handle_eq hc, bind_ok]
    by_cases hf : ds.backend = .s3
    · rw [if_pos (.inl hf)]; rfl
    by_cases hz : ds.isZarr = true
    · rw [if_pos (.inr hz)]; rfl
    · rw [if_neg (by simp [hz, hf]), exec1_bind_ok (exec1_exists _ _)]
      simp only [Option.isSome_some, Bool.not_true, Bool.false_eq_true, if_false]
      rw [exec1_bind_ok (exec1_peek _ _)]
      simp only
      rw [hd.mode (by simpa using hz)]
      rfl
  · intro buf hl
    exact run_of_exec (touches_readChunk ds c buf)
      (by rw [hb]; exact readChunk_exec h hc hd buf (by rw [hl]; exact hd.length))

/-- the elements of the chunks of a store that represents an array -/
theorem represents_content (h : ds.WF) {σ : Store} {A : List Nat → E.T} (hA : Represents ds σ A) :
    ∃ content, ContentIs ds σ content ∧ ∀ c, InGrid ds.shape ds.chunkShape c →
      Repr ds c (content c) A ∧ (content c = none ↔ σ (ds.chunkKey c) = none) := by
  have key : ∀ c, ∃ o : Option (List E.T), InGrid ds.shape ds.chunkShape c →
      (match o with
        | none => run (ds.chunkExists c) σ = (.ok false, σ)
        | some data => StoredAs ds σ c data) ∧
      Repr ds c o A ∧ (o = none ↔ σ (ds.chunkKey c) = none) := by
    intro c
    by_cases hc : InGrid ds.shape ds.chunkShape c
    · have := hA c hc
      cases hb : σ (ds.chunkKey c) with
      | none =>
        rw [hb] at this
        exact ⟨none, fun _ => ⟨run_of_exec (touches_chunkExists ds c) (by rw [chunkExists_exec h hc, hb]; rfl), this,
          by simp⟩⟩
      | some b =>
        rw [hb] at this
        obtain ⟨data, hd, hr⟩ := this
        exact ⟨some data, fun _ => ⟨storedAs_of_decodes h hc hb hd, hr, by simp⟩⟩
    · exact ⟨none, fun hc' => absurd hc' hc⟩
  exact ⟨fun c => (key c).choose, fun c hc => ((key c).choose_spec hc).1, fun c hc => ((key c).choose_spec hc).2⟩

/-- **C35**, reads: with `value` = the fill value, removing the trivial chunks does not change what any read returns,
for every valid store, number of threads and schedule. -/
theorem c35_fill_keeps_reads (h : ds.WF) (hw : ds.canWrite = true)
    (hfit : prod (blocksPerDimension ds.shape ds.chunkShape) < 2 ^ 64) (ho : OrderedOn E lt fun _ => True)
    (hE : E.Faithful) {σ : Store} {A : List Nat → E.T} (hA : Represents ds σ A) :
    ReadsAs ds σ A ∧ ∃ ts, ds.removeTrivialChunks lt (some ds.fill) = .ok ts ∧
      ∀ n r σ' log, Foreach ts n σ r σ' log → r = .ok () ∧ ReadsAs ds σ' A := by
  refine ⟨represents_readsAs h hA, ?_⟩
  obtain ⟨content, hcon, hrep⟩ := represents_content h hA
  obtain ⟨ts, hts, hall⟩ := c35_removes_exactly h hw hfit ho (value := some ds.fill) (fun _ _ => trivial) hcon
    fun _ _ => trivial
  refine ⟨ts, hts, fun n r σ' log hf => ?_⟩
  obtain ⟨hr, h1, _⟩ := hall n r σ' log hf
  refine ⟨hr, represents_readsAs h fun c hc => ?_⟩
  obtain ⟨h2, h3⟩ := h1 c hc
  by_cases ht : ∃ data, content c = some data ∧ OneValue E (some ds.fill) data
  · rw [h2 ht]
    obtain ⟨data, hd, _, _, hone⟩ := ht
    have := (hrep c hc).1
    rw [hd] at this
    exact fun x hx => (hE _ _).1 (hone ds.fill rfl _ (repr_mem this hx))
  · rw [h3 ht]
    exact hA c hc

/-- **C35**: on the stores that this library writes, there is nothing to remove for the fill value. -/
theorem c35_fill_nothing_to_remove (h : ds.WF) (hw : ds.canWrite = true)
    (hfit : prod (blocksPerDimension ds.shape ds.chunkShape) < 2 ^ 64) (ho : OrderedOn E lt fun _ => True)
    {ws : List (Write E.T)} {σ : Store} (hreach : Reaches ds ws σ) :
    ∃ ts, ds.removeTrivialChunks lt (some ds.fill) = .ok ts ∧
      ∀ n r σ' log, Foreach ts n σ r σ' log → r = .ok () ∧ σ' = σ := by
  obtain ⟨A, hA, _⟩ := reaches_refines h hw hreach
  obtain ⟨content, hcon, hrep⟩ := represents_content h fun c hc => hA c hc
  obtain ⟨ts, hts, hall⟩ := c35_removes_exactly h hw hfit ho (value := some ds.fill) (fun _ _ => trivial) hcon
    fun _ _ => trivial
  refine ⟨ts, hts, fun n r σ' log hf => ?_⟩
  obtain ⟨hr, h1, h2⟩ := hall n r σ' log hf
  refine ⟨hr, funext fun k => ?_⟩
  by_cases hk : ∃ c, InGrid ds.shape ds.chunkShape c ∧ ds.chunkKey c = k
  · obtain ⟨c, hc, rfl⟩ := hk
    refine (h1 c hc).2 ?_
    rintro ⟨data, hd, _, _, hone⟩
    have hb := hA c hc
    cases hv : σ (ds.chunkKey c) with
    | none => rw [((hrep c hc).2.2 hv)] at hd; cases hd
    | some b =>
      rw [hv] at hb
      obtain ⟨data', hdec, e, he, hne⟩ := reaches_sparse h hw hreach c b hc hv
      have s1 := run_elements h hcon hc
      have s2 := run_storedElements (storedAs_of_decodes h hc hv hdec) (fun extra hx => run_readChunk_append extra hx)
        (chunkSize := ds.chunkSize) (isZarr := ds.isZarr)
        (fun hz => by rw [Dataset.stored, if_pos hz, h.chunkSize_eq])
        (fun hz n hn => run_checkVarlen_false h hc hz hn)
      have e2 : (Res.ok (content c) : Res (Option (List E.T))) = .ok (some data') :=
        (Prod.mk.inj (s1.symm.trans s2)).1
      rw [hd] at e2
      cases e2
      rw [hone ds.fill rfl e he] at hne
      cases hne
  · exact h2 k fun c hc he => hk ⟨c, hc, he⟩

theorem readsAs_unique {σ : Store} {A B : List Nat → E.T} (hA : ReadsAs ds σ A) (hB : ReadsAs ds σ B) {x : List Nat}
    (hx : InBox x ds.shape) : A x = B x := by
  have hones : ∀ {x s : List Nat}, InBox x s → RegionOk s x (x.map fun _ => 1) ∧ InBox (x.map fun _ => 0) (x.map fun _ => 1) ∧
      addV x (x.map fun _ => 0) = x ∧ dot (x.map fun _ => 0) (x.map fun _ => 1) = 0 := by
    intro x
    induction x with
    | nil => intro s h; cases s <;> simp_all [InBox, RegionOk, addV]
    | cons a x ih =>
      intro s h
      match s, h with
      | b :: s, h =>
        obtain ⟨h1, h2⟩ := h
        obtain ⟨i1, i2, i3, i4⟩ := ih h2
        have h1 : a < b := h1
        refine ⟨⟨by show 0 < 1 ∧ a + 1 ≤ b; omega, i1⟩, ⟨by show 0 < 1; omega, i2⟩, ?_, ?_⟩
        · show (a + 0) :: addV x _ = _
          rw [i3]; rfl
        · show 0 * 1 + dot _ _ = 0
          rw [i4]
  obtain ⟨k1, k2, k3, k4⟩ := hones hx
  have hzero : ∀ {x i : List Nat}, InBox i (x.map fun _ => 1) → i = x.map fun _ => 0 := by
    intro x
    induction x with
    | nil => intro i h; cases i <;> simp_all
    | cons a x ih =>
      intro i h
      match i, h with
      | j :: i, h =>
        obtain ⟨h1, h2⟩ := h
        have h1 : j < 1 := h1
        rw [ih h2, List.map_cons, show j = 0 by omega]
  have hfit : FitsIn ⟨0, x.map fun _ => 1, x.map fun _ => 1⟩ ([ds.fill] : List E.T).length := by
    refine ⟨rfl, fun c hc => ?_⟩
    rw [hzero hc]
    show 0 + dot _ _ < 1
    rw [k4]; decide
  have hna : NoAlias ⟨0, x.map fun _ => 1, x.map fun _ => 1⟩ := by
    intro c d hc hd _
    rw [hzero hc, hzero hd]
  obtain ⟨ts, hts, hA⟩ := hA x ⟨0, x.map fun _ => 1, x.map fun _ => 1⟩ [ds.fill] (fun _ => []) k1 hfit hna
  obtain ⟨ts', hts', hB⟩ := hB x ⟨0, x.map fun _ => 1, x.map fun _ => 1⟩ [ds.fill] (fun _ => []) k1 hfit hna
  rw [hts] at hts'
  cases hts'
  obtain ⟨is, rs, hfin⟩ := exists_finished (ts, σ)
  obtain ⟨_, ⟨o, ho⟩, a3⟩ := hA is rs hfin
  have a1 := (a3 o ho).2.1 _ k2
  have b1 := ((hB is rs hfin).2.2 o ho).2.1 _ k2
  rw [a1, k3] at b1
  exact Option.some.inj b1

/-! ### Examples and counterexamples -/

/-- `<` of the unsigned types -/
def uintLt {k : Nat} {hk : 0 < k} (a b : (Elem.uint k hk).T) : Bool := decide (Fin.val a < Fin.val b)

theorem uint_ordered (k : Nat) (hk : 0 < k) : OrderedOn (Elem.uint k hk) uintLt fun _ => True := by
  have hceq : ∀ a b : (Elem.uint k hk).T, (Elem.uint k hk).ceq a b = true ↔ a = b := fun a b =>
    @decide_eq_true_iff (a = b) (instDecidableEqFin (256 ^ k) a b)
  refine ⟨fun a b c _ _ _ h1 h2 => ?_, fun a b _ _ => ?_, fun a _ => (hceq a a).2 rfl, fun a b c _ _ _ h1 h2 => ?_⟩
  · simp only [uintLt, decide_eq_true_eq] at *
    omega
  · rw [hceq]
    simp only [uintLt, decide_eq_false_iff_not]
    constructor
    · rintro rfl; exact ⟨Nat.lt_irrefl _, Nat.lt_irrefl _⟩
    · intro ⟨h1, h2⟩; exact Fin.ext (by omega)
  · rw [hceq] at *
    rw [h1, h2]

/-- shape [3], chunks [2], zarr, fill value 0 -/
def exLine : Dataset U8 :=
  { shape := [3], chunkShape := [2], chunkSize := 2, chunking := mkBlocking [3] [2],
    key := ⟨true, ['.'], 2, "default".toList⟩, codec := .raw, fill := (0 : Fin (256 ^ 1)), canWrite := true, backend := .files }

theorem exLine_wf : exLine.WF where
  made := rfl
  dims := ⟨by simp [exLine], by simp [exLine]⟩
  small := by intro s hs; simp [exLine] at hs; subst hs; decide
  bytes := by decide
  codec := trivial
  keyOk := by intro _; exact ⟨'.', by decide, by decide⟩
  n5 := by intro h; cases h

/-- `exLine` after `writeChunk` of the value 5 to all of chunk 0 -/
def exLineStore : Store := (run (exLine.writeChunk [0] [(5 : Fin (256 ^ 1)), (5 : Fin (256 ^ 1))]) fun _ => none).2

theorem exLine_reaches : Reaches exLine [⟨[0], [2], fun _ => (5 : Fin (256 ^ 1))⟩] exLineStore := by
  refine Reaches.step (ws := []) (.empty (σ := fun _ => none) fun _ _ => rfl) ?_
  refine Performs.chunk (ds := exLine) [0] [(5 : Fin (256 ^ 1)), (5 : Fin (256 ^ 1))] (fun _ => (5 : Fin (256 ^ 1))) rfl ?_ rfl
  intro i hi
  match i, hi with
  | [j], hi =>
    have hj : j < 2 := hi.1
    match j, hj with
    | 0, _ => rfl
    | 1, _ => rfl

/-- the calls of `removeTrivialChunks` on `exLine`, for any constant chunk -/
def exLineCalls : List (Prog Unit) :=
  exLine.eachChunk fun c => trivialTask uintLt none (exLine.storedElements c) (exLine.removeChunk c)

/-- **C35**: without a value, constant chunks are removed whatever their value is, and reads change: here 5 becomes 0. -/
theorem c35_no_value_changes_reads_counterexample : ∃ (ts : List (Prog Unit)) (σ' : Store) (log : List (Nat × Nat)),
    exLine.removeTrivialChunks uintLt none = .ok ts ∧ Foreach ts 1 exLineStore (.ok ()) σ' log ∧
    ∃ A, ReadsAs exLine exLineStore A ∧ A [0] = (5 : Fin (256 ^ 1)) ∧
      ∃ B, ReadsAs exLine σ' B ∧ B [0] = (0 : Fin (256 ^ 1)) := by
  refine ⟨exLineCalls, (seqLoop exLineCalls (List.range exLineCalls.length) exLineStore).2.1,
    (seqLoop exLineCalls (List.range exLineCalls.length) exLineStore).2.2.1, rfl,
    ⟨_, .seq (res := (seqLoop exLineCalls (List.range exLineCalls.length) exLineStore).2.2.2) (Nat.le_refl 1) ?_⟩,
    replay (fun _ => exLine.fill) [⟨[0], [2], fun _ => (5 : Fin (256 ^ 1))⟩],
    c08_read_after_write_zarr_exact exLine_wf rfl rfl u8_faithful exLine_reaches, rfl,
    fun _ => (0 : Fin (256 ^ 1)), represents_readsAs exLine_wf fun c hc => ?_, rfl⟩
  · refine Prod.ext ?_ rfl
    decide +kernel
  · have hnone : ∀ c, c ∈ [[0], [1]] →
        (seqLoop exLineCalls (List.range exLineCalls.length) exLineStore).2.1 (exLine.chunkKey c) = none := by
      decide +kernel
    have hmem : c ∈ gridList exLine := (mem_gridList exLine_wf).2 hc
    rw [hnone c (by
      have : gridList exLine = [[0], [1]] := by decide +kernel
      rw [this] at hmem; exact hmem)]
    exact fun x _ => rfl

example : ¬ ∀ A, ReadsAs exLine exLineStore A → ReadsAs exLine (fun _ => none) A := by
  intro h
  have h1 := h _ (c08_read_after_write_zarr_exact exLine_wf rfl rfl u8_faithful exLine_reaches)
  have h2 : ReadsAs exLine (fun _ => none) fun _ => (0 : Fin (256 ^ 1)) :=
    represents_readsAs exLine_wf fun c hc => fun x _ => rfl
  have : (5 : Fin (256 ^ 1)) = 0 := readsAs_unique h1 h2 (x := [0]) (by decide)
  exact absurd this (by decide)

/-- **C35**: floating point data with a NaN.  The element 255 compares like a NaN here; `std::set` is then used with
an order that is none, which is undefined behaviour. -/
theorem c35_nan_counterexample : ∃ (lt : U8.T → U8.T → Bool) (data : List U8.T),
    trivialElements (E := U8) lt none data = .ub :=
  ⟨fun a b => decide (Fin.val a < Fin.val b ∧ Fin.val a ≠ 255 ∧ Fin.val b ≠ 255),
    [(1 : Fin (256 ^ 1)), (255 : Fin (256 ^ 1)), (2 : Fin (256 ^ 1))], by decide +kernel⟩

/-- The hypotheses of C35 hold of `exLine` and its store. -/
example : ∃ content, ContentIs exLine exLineStore content ∧
    prod (blocksPerDimension exLine.shape exLine.chunkShape) < 2 ^ 64 ∧ OrderedOn U8 uintLt (fun _ => True) ∧
    Represents exLine exLineStore (replay (fun _ => exLine.fill) [⟨[0], [2], fun _ => (5 : Fin (256 ^ 1))⟩]) := by
  obtain ⟨A, hA, hAS⟩ := reaches_refines exLine_wf rfl exLine_reaches
  have hrep : Represents exLine exLineStore A := fun c hc => hA c hc
  obtain ⟨content, hcon, _⟩ := represents_content exLine_wf hrep
  refine ⟨content, hcon, by decide +kernel, uint_ordered 1 (by decide), fun c hc => ?_⟩
  exact BlobOk.congr (hA c hc) fun x hx => faithful_eq u8_faithful (hAS c x hc hx)

end Z5.Props
