import Verif.Proofs.Refine
import Verif.Proofs.Jobs

/-!
# Region calls: scratch independence, partial failure, crash points, arbitrary file contents
-/

namespace Z5
open Spec Prog

variable {E : Elem} {ds : Dataset E}

/-! ### The written buffer is determined -/

theorem Repr.unique {c : List Nat} (hc : InGrid ds.shape ds.chunkShape c) {a b : List E.T}
    {A : List Nat → E.T} (ha : Repr ds c (some a) A) (hb : Repr ds c (some b) A) : a = b := by
  apply List.ext_getElem?
  intro p
  by_cases hp : p < prod (ds.stored c)
  · have hpos : AllPos (ds.stored c) := allPos_of_prod_pos (by omega)
    have hi := unravel_inBox p hpos
    have hl : (mulV c ds.chunkShape).length = (ds.stored c).length := by
      have := All₂.length_eq (stored_le_chunk (ds := ds) hc)
      have := dims_length hc
      omega
    have hx : InStored ds c (addV (mulV c ds.chunkShape) (unravel (ds.stored c) p)) :=
      inRegion_add hi hl
    have h1 := ha.2 _ hx
    have h2 := hb.2 _ hx
    rw [subV_addV (by rw [hi.length_eq, hl]), ravel_unravel hp] at h1 h2
    rw [h1, h2]
  · rw [List.getElem?_eq_none (by have := ha.1; omega), List.getElem?_eq_none (by have := hb.1; omega)]

theorem writeTask_buf (h : ds.WF) {rb rs c : List Nat}
    (hr : RegionOk ds.shape rb rs) (hc : Touches ds rb rs c) {fr : FillRequest E}
    {val : List Nat → E.T} (hfr : FillSpec fr rs val) (scratch : List E.T) {v : Option Bytes}
    {A : List Nat → E.T} (hv : BlobOk ds c v A) :
    ∃ buf, Repr ds c (some buf) (override A rb rs val) ∧
      exec1 (ds.writeTask fr rb rs c scratch) v = exec1 (ds.writeChunk c buf) v := by
  obtain ⟨old, hold, hrE⟩ := readExisting_exec h hc.inGrid hv
  obtain ⟨buf, hb, hrep⟩ := prepareBuffer_exec h hr hc hfr scratch hold hrE
  exact ⟨buf, hrep, by rw [Dataset.writeTask, exec1_bind_ok hb]⟩

theorem writeTask_scratch (h : ds.WF) {rb rs c : List Nat}
    (hr : RegionOk ds.shape rb rs) (hc : Touches ds rb rs c) {fr : FillRequest E}
    {val : List Nat → E.T} (hfr : FillSpec fr rs val) (s1 s2 : List E.T) {v : Option Bytes}
    {A : List Nat → E.T} (hv : BlobOk ds c v A) :
    exec1 (ds.writeTask fr rb rs c s1) v = exec1 (ds.writeTask fr rb rs c s2) v := by
  obtain ⟨b1, h1, e1⟩ := writeTask_buf h hr hc hfr s1 hv
  obtain ⟨b2, h2, e2⟩ := writeTask_buf h hr hc hfr s2 hv
  rw [e1, e2, h1.unique hc.inGrid h2]

/-! ### The tasks of a region write, as jobs -/

theorem map_mapIdx' {α β γ : Type} (g : β → γ) (f : Nat → α → β) (l : List α) :
    (l.mapIdx f).map g = l.mapIdx fun i a => g (f i a) := by
  apply List.ext_getElem?
  intro i
  simp only [List.getElem?_mapIdx, List.getElem?_map, Option.map_map]
  rfl


def Dataset.jobs (ds : Dataset E) (fr : FillRequest E) (rb rs : List Nat)
    (scratch : Nat → List E.T) : List (Key × Prog Unit) :=
  (overlapList ds.chunkShape rb rs).mapIdx fun i c =>
    (ds.chunkKey c, ds.writeTask fr rb rs c (scratch i))

theorem mem_jobs {fr : FillRequest E} {rb rs : List Nat} {scratch : Nat → List E.T}
    {j : Key × Prog Unit} (hj : j ∈ ds.jobs fr rb rs scratch) :
    ∃ c ∈ overlapList ds.chunkShape rb rs, ∃ i,
      j = (ds.chunkKey c, ds.writeTask fr rb rs c (scratch i)) := by
  unfold Dataset.jobs at hj
  rw [List.mem_mapIdx] at hj
  obtain ⟨i, hi, rfl⟩ := hj
  exact ⟨_, List.getElem_mem hi, i, rfl⟩

theorem map_fst_jobs (fr : FillRequest E) (rb rs : List Nat) (scratch : Nat → List E.T) :
    (ds.jobs fr rb rs scratch).map Prod.fst = (overlapList ds.chunkShape rb rs).map ds.chunkKey := by
  unfold Dataset.jobs
  rw [map_mapIdx']
  apply List.ext_getElem?
  intro i
  simp only [List.getElem?_mapIdx, List.getElem?_map]

theorem map_snd_jobs (fr : FillRequest E) (rb rs : List Nat) (scratch : Nat → List E.T) :
    (ds.jobs fr rb rs scratch).map Prod.snd =
      (overlapList ds.chunkShape rb rs).mapIdx fun i c => ds.writeTask fr rb rs c (scratch i) := by
  unfold Dataset.jobs
  rw [map_mapIdx']

theorem jobsOk (h : ds.WF) {rb rs : List Nat} (hr : RegionOk ds.shape rb rs) (fr : FillRequest E)
    (scratch : Nat → List E.T) : JobsOk (ds.jobs fr rb rs scratch) := by
  refine ⟨?_, ?_⟩
  · intro j hj
    obtain ⟨c, _, i, rfl⟩ := mem_jobs hj
    exact touches_writeTask ..
  · rw [map_fst_jobs]
    exact nodup_map_of_inj (nodup_overlapList h.dims hr) fun a ha b hb he =>
      h.key_inj ((h.mem_overlap hr).1 ha).inGrid ((h.mem_overlap hr).1 hb).inGrid he

theorem writeRegion_jobs (h : ds.WF) {rb rs : List Nat} (hr : RegionOk ds.shape rb rs)
    (fr : FillRequest E) (scratch : Nat → List E.T) :
    ds.writeRegion fr rb rs scratch = .ok ((ds.jobs fr rb rs scratch).map Prod.snd) := by
  rw [map_snd_jobs, Dataset.writeRegion, h.requestChunks_ok hr]
  rfl

theorem exists_job (h : ds.WF) {rb rs : List Nat} (hr : RegionOk ds.shape rb rs)
    (fr : FillRequest E) (scratch : Nat → List E.T) {c : List Nat} (hc : Touches ds rb rs c) :
    ∃ i, (ds.chunkKey c, ds.writeTask fr rb rs c (scratch i)) ∈ ds.jobs fr rb rs scratch := by
  obtain ⟨i, hi, he⟩ := List.getElem_of_mem ((h.mem_overlap hr).2 hc)
  refine ⟨i, ?_⟩
  unfold Dataset.jobs
  rw [List.mem_mapIdx]
  exact ⟨i, hi, by rw [he]⟩

/-- Scratch contents do not matter. -/
theorem finalOf_scratch (h : ds.WF) {rb rs : List Nat} (hr : RegionOk ds.shape rb rs)
    {fr : FillRequest E} {val : List Nat → E.T} (hfr : FillSpec fr rs val)
    {σ : Store} {A : List Nat → E.T} (hA : Holds ds σ A) (s1 s2 : Nat → List E.T) :
    finalOf (ds.jobs fr rb rs s1) σ = finalOf (ds.jobs fr rb rs s2) σ ∧
    (ds.jobs fr rb rs s1).map (fun j => (exec1 j.2 (σ j.1)).1) =
      (ds.jobs fr rb rs s2).map (fun j => (exec1 j.2 (σ j.1)).1) := by
  have hex : ∀ c ∈ overlapList ds.chunkShape rb rs, ∀ t1 t2 : List E.T,
      exec1 (ds.writeTask fr rb rs c t1) (σ (ds.chunkKey c)) =
      exec1 (ds.writeTask fr rb rs c t2) (σ (ds.chunkKey c)) := by
    intro c hc t1 t2
    have ht := (h.mem_overlap hr).1 hc
    exact writeTask_scratch h hr ht hfr t1 t2 (hA c ht.inGrid)
  refine ⟨?_, ?_⟩
  · funext k
    by_cases hk : ∃ c ∈ overlapList ds.chunkShape rb rs, ds.chunkKey c = k
    · obtain ⟨c, hc, rfl⟩ := hk
      have ht := (h.mem_overlap hr).1 hc
      obtain ⟨i1, h1⟩ := exists_job h hr fr s1 ht
      obtain ⟨i2, h2⟩ := exists_job h hr fr s2 ht
      rw [finalOf_mem (jobsOk h hr fr s1) h1, finalOf_mem (jobsOk h hr fr s2) h2]
      simp only
      rw [hex c hc (s1 i1) (s2 i2)]
    · rw [finalOf_not_mem, finalOf_not_mem]
      · intro j hj he
        obtain ⟨c, hc, i, rfl⟩ := mem_jobs hj
        exact hk ⟨c, hc, he⟩
      · intro j hj he
        obtain ⟨c, hc, i, rfl⟩ := mem_jobs hj
        exact hk ⟨c, hc, he⟩
  · unfold Dataset.jobs
    rw [map_mapIdx', map_mapIdx']
    apply List.ext_getElem?
    intro i
    simp only [List.getElem?_mapIdx]
    cases hc : (overlapList ds.chunkShape rb rs)[i]? with
    | none => rfl
    | some c =>
      simp only [Option.map_some]
      rw [hex c (List.mem_of_getElem? hc) (s1 i) (s2 i)]

/-! ### Compressors that never fail -/

theorem compress_total {C : Codec} {N : Nat} (hC : C.TotalFor N) {data : List E.T} {n : Nat}
    (hl : data.length = n) (hN : n * E.size ≤ N) (hpos : 0 < n) (e : Err) : compress E C data n ≠ .throw e := by
  unfold compress
  rw [if_neg (by omega), List.take_of_length_le (by omega)]
  cases C with
  | raw => simp
  | lib c d =>
    have hlen : (encodeList E data).length = n * E.size := by rw [length_encodeList, hl]
    have hmul := Nat.mul_pos hpos E.size_pos
    obtain ⟨y, hy⟩ := hC (encodeList E data) (fun h => by rw [h, List.length_nil] at hlen; omega) (by omega)
    simp only [hy]
    simp

theorem dataToBuffer_total (h : ds.WF) (hC : ds.codec.TotalFor (prod ds.chunkShape * E.size)) {c : List Nat}
    (hc : InGrid ds.shape ds.chunkShape c) (data : List E.T) (hl : data.length = prod (ds.stored c)) (e : Err) :
    dataToBuffer E ds.codec ⟨ds.isZarr, ds.chunkShape, extV ds.shape ds.chunkShape c⟩ data ds.fill false 0 ≠ .throw e := by
  have hsz : (if ds.isZarr then accumulateMul ds.chunkShape
      else accumulateMul (extV ds.shape ds.chunkShape c)) = prod (ds.stored c) := by
    unfold Dataset.stored
    split
    · exact accumulateMul_eq h.prod_lt
    · exact accumulateMul_eq (prod_reverse_ext_lt h hc)
  have hb : ∀ {α β : Type} (r : Res α) (f : α → β) (e : Err), (∀ e, r ≠ .throw e) →
      (r >>= fun a => pure (f a)) ≠ .throw e := by
    intro α β r f e h1
    cases r with
    | ok a => simp
    | throw e' => exact absurd rfl (h1 e')
    | ub => simp
  unfold dataToBuffer
  simp only [Bool.false_and, Bool.false_eq_true, if_false, Bool.not_false, if_true, hsz]
  rw [if_neg (by omega)]
  split
  · simp
  · split
    · exact hb _ _ _ fun e => compress_total hC hl (h.stored_bytes_le hc) (h.stored_pos hc) e
    · refine hb _ _ _ fun e => ?_
      rw [dataToN5Format_eq _ _ _ _ _ hl]
      exact hb _ _ _ fun e => compress_total hC (by simpa using hl) (h.stored_bytes_le hc) (h.stored_pos hc) e

theorem writeChunk_total (h : ds.WF) (hw : ds.canWrite = true) (hC : ds.codec.TotalFor (prod ds.chunkShape * E.size)) {c : List Nat}
    (hc : InGrid ds.shape ds.chunkShape c) (data : List E.T) (hl : data.length = prod (ds.stored c))
    (v : Option Bytes) (e : Err) : (exec1 (ds.writeChunk c data) v).1 ≠ .throw e := by
  unfold Dataset.writeChunk
  rw [hw, if_neg (by decide), h.handle_eq hc, bind_ok, h.checkChunk_ok hc, bind_ok]
  cases hd : dataToBuffer E ds.codec ⟨ds.isZarr, ds.chunkShape, extV ds.shape ds.chunkShape c⟩ data
      ds.fill false 0 with
  | ok o =>
    rw [bind_ok]
    cases o with
    | none => simp
    | some b => simp
  | throw e => exact absurd hd (dataToBuffer_total h hC hc data hl _)
  | ub => rw [bind_ub]; simp

theorem writeTask_total (h : ds.WF) (hw : ds.canWrite = true) (hC : ds.codec.TotalFor (prod ds.chunkShape * E.size))
    {rb rs c : List Nat} (hr : RegionOk ds.shape rb rs) (hc : Touches ds rb rs c)
    {fr : FillRequest E} {val : List Nat → E.T} (hfr : FillSpec fr rs val) (scratch : List E.T)
    {v : Option Bytes} {A : List Nat → E.T} (hv : BlobOk ds c v A) :
    (exec1 (ds.writeTask fr rb rs c scratch) v).1 = .ok () := by
  obtain ⟨buf, hrep, he⟩ := writeTask_buf h hr hc hfr scratch hv
  rcases writeTask_exec h hw hr hc hfr scratch hv with ⟨e, he'⟩ | ⟨v', he', _⟩
  · have := writeChunk_total h hw hC hc.inGrid buf hrep.1 v e
    rw [← he, he'] at this
    exact absurd rfl this
  · rw [he']

/-- With a compressor that never fails, every schedule that finishes a region write completes it. -/
theorem writeRegion_total (h : ds.WF) (hw : ds.canWrite = true) (hC : ds.codec.TotalFor (prod ds.chunkShape * E.size))
    {off size : List Nat} (hr : RegionOk ds.shape off size) {fr : FillRequest E}
    {val : List Nat → E.T} (hfr : FillSpec fr size val) {σ : Store} {S : List Nat → E.T}
    (hσ : Refines ds σ S) {scratch : Nat → List E.T} {is : List Nat} {rs : List (Res Unit)}
    (hfin : Finished (interleave is ((ds.jobs fr off size scratch).map Prod.snd, σ)).1 rs) :
    ∀ r ∈ rs, r = .ok () := by
  obtain ⟨A, hA, _⟩ := hσ
  rw [(finished_jobs (jobsOk h hr fr scratch) hfin).2]
  intro r hr'
  obtain ⟨j, hj, rfl⟩ := List.mem_map.1 hr'
  obtain ⟨c, hc, i, rfl⟩ := mem_jobs hj
  have ht := (h.mem_overlap hr).1 hc
  exact writeTask_total h hw hC hr ht hfr (scratch i) (hA c ht.inGrid)

/-! ### Partial failure -/

/-- Even if some tasks fail, elements outside the region keep their values. -/
theorem writeRegion_frame (h : ds.WF) (hw : ds.canWrite = true) {off size : List Nat}
    (hr : RegionOk ds.shape off size) {fr : FillRequest E} {val : List Nat → E.T}
    (hfr : FillSpec fr size val) {σ : Store} {S : List Nat → E.T} (hσ : Refines ds σ S)
    {scratch : Nat → List E.T} {ts : List (Prog Unit)}
    (hts : ds.writeRegion fr off size scratch = .ok ts) {is : List Nat} {rs : List (Res Unit)}
    (hfin : Finished (interleave is (ts, σ)).1 rs) :
    ∃ S', Refines ds (interleave is (ts, σ)).2 S' ∧
      ∀ x, S' x = S x ∨ (InRegion x off size ∧ S' x = val (subV x off)) := by
  obtain ⟨A, hA, hAS⟩ := hσ
  rw [writeRegion_jobs h hr] at hts
  obtain rfl := Res.ok.inj hts
  have hjo := jobsOk h hr fr scratch
  obtain ⟨hfinal, _⟩ := finished_jobs hjo hfin
  rw [hfinal]
  let P : List Nat → Prop := fun c =>
    Written ds c (finalOf (ds.jobs fr off size scratch) σ (ds.chunkKey c)) (override A off size val)
  have hdec : ∀ c, Decidable (P c) := fun c => Classical.propDecidable _
  let mix : (List Nat → E.T) → List Nat → E.T := fun F x =>
    if P (divV x ds.chunkShape) then override F off size val x else F x
  have hmixP : ∀ F c x, InGrid ds.shape ds.chunkShape c → InStored ds c x → P c →
      mix F x = override F off size val x := by
    intro F c x hc hx hP
    show (if P (divV x ds.chunkShape) then _ else _) = _
    rw [hx.div h hc, if_pos hP]
  have hmixN : ∀ F c x, InGrid ds.shape ds.chunkShape c → InStored ds c x → ¬ P c →
      mix F x = F x := by
    intro F c x hc hx hP
    show (if P (divV x ds.chunkShape) then _ else _) = _
    rw [hx.div h hc, if_neg hP]
  refine ⟨mix S, refines_of_chunks h (B := mix A) hA ?_ ?_, ?_⟩
  · intro c x hc hx
    by_cases hP : P c
    · rw [hmixP A c x hc hx hP, hmixP S c x hc hx hP]
      exact sameOrFill_override hAS c x hc hx
    · rw [hmixN A c x hc hx hP, hmixN S c x hc hx hP]
      exact hAS c x hc hx
  · intro c hc
    by_cases hP : P c
    · left
      have hP' : Written ds c (finalOf (ds.jobs fr off size scratch) σ (ds.chunkKey c))
        (override A off size val) := hP
      cases hv : finalOf (ds.jobs fr off size scratch) σ (ds.chunkKey c) with
      | none =>
        rw [hv] at hP'
        intro x hx
        rw [hmixP A c x hc hx hP]
        exact hP' x hx
      | some b =>
        rw [hv] at hP'
        exact Written.congr (v := some b) hP' fun x hx => (hmixP A c x hc hx hP).symm
    · right
      refine ⟨?_, fun x hx => hmixN A c x hc hx hP⟩
      by_cases ht : Touches ds off size c
      · obtain ⟨i, hj⟩ := exists_job h hr fr scratch ht
        rw [finalOf_mem hjo hj]
        rcases writeTask_exec h hw hr ht hfr (scratch i) (hA _ ht.inGrid) with ⟨e, he⟩ | ⟨v', he, hwr⟩
        · rw [he]
        · exfalso
          apply hP
          show Written ds c (finalOf (ds.jobs fr off size scratch) σ (ds.chunkKey c)) _
          rw [finalOf_mem hjo hj, he]
          exact hwr
      · apply finalOf_not_mem
        intro j hj he
        obtain ⟨d, hd, i, rfl⟩ := mem_jobs hj
        have hd' := (h.mem_overlap hr).1 hd
        exact ht (h.key_inj hd'.inGrid hc he ▸ hd')
  · intro x
    show (if P (divV x ds.chunkShape) then override S off size val x else S x) = S x ∨ _ ∧
      (if P (divV x ds.chunkShape) then override S off size val x else S x) = _
    split
    · unfold override
      split
      · next hx => exact Or.inr ⟨hx, rfl⟩
      · exact Or.inl rfl
    · exact Or.inl rfl

/-! ### Crash points -/

theorem states_writeBytes (k : Key) : ∀ (b pre : Bytes) (w : Option Bytes),
    w ∈ states (writeBytes k pre.length b) (some pre) → ∃ n ≤ b.length, w = some (pre ++ b.take n)
  | [], pre, w, h => by
    have : w = some pre := by simpa [writeBytes, states] using h
    exact ⟨0, Nat.le_refl _, by simpa using this⟩
  | x :: b, pre, w, h => by
    rw [writeBytes] at h
    have h' : w = some pre ∨ w ∈ states (writeBytes k (pre.length + 1) b) (pokeByte pre.length x (some pre)) := by
      simpa [update, states] using h
    rcases h' with rfl | h'
    · exact ⟨0, Nat.zero_le _, by simp⟩
    · have hp : pokeByte pre.length x (some pre) = some (pre ++ [x]) := by
        simp [pokeByte]
      rw [hp] at h'
      have := states_writeBytes k b (pre ++ [x]) w (by simpa using h')
      obtain ⟨n, hn, rfl⟩ := this
      exact ⟨n + 1, by simpa using hn, by simp⟩

/-- `w` is what a file, or object, with old content `v` can contain while it is being replaced by `final` -/
def Torn (s : Backend) (v final w : Option Bytes) : Prop :=
  w = v ∨ w = final ∨ (s = .files ∧ ∃ b n, n ≤ b.length ∧ final = some b ∧ w = some (b.take n))

theorem Torn.prefix {s : Backend} {v final w : Option Bytes} (h : Torn s v final w) :
    w = v ∨ (w = none ∧ final = none) ∨ ∃ b n, n ≤ b.length ∧ final = some b ∧ w = some (b.take n) := by
  rcases h with h | h | ⟨_, h⟩
  · exact Or.inl h
  · cases final with
    | none => exact Or.inr (Or.inl ⟨h, rfl⟩)
    | some b => exact Or.inr (Or.inr ⟨b, b.length, Nat.le_refl _, rfl, by rw [List.take_length]; exact h⟩)
  · exact Or.inr (Or.inr h)

theorem states_write (s : Backend) (k : Key) (b : Bytes) (v w : Option Bytes)
    (h : w ∈ states (storeWrite s k b) v) : Torn s v (some b) w := by
  cases s with
  | s3 =>
    have h' : w = v ∨ w = some b := by simpa [storeWrite, update, states] using h
    exact h'.elim Or.inl fun h' => Or.inr (Or.inl h')
  | files =>
    have h' : w = v ∨ w ∈ states (writeBytes k 0 b) (some []) := by
      simpa [storeWrite, update, states] using h
    rcases h' with h' | h'
    · exact Or.inl h'
    · obtain ⟨n, hn, rfl⟩ := states_writeBytes k b [] w h'
      exact Or.inr (Or.inr ⟨rfl, b, n, hn, rfl, by simp⟩)

theorem states_erase (s : Backend) (k : Key) (v w : Option Bytes)
    (h : w ∈ states (storeErase s k) v) : Torn s v none w := by
  have h' : w = v ∨ w = none := by
    cases s with
    | s3 => simpa [storeErase, update, states] using h
    | files =>
      cases v with
      | none => left; simpa [storeErase, storeExists, peek, states] using h
      | some b => simpa [storeErase, storeExists, peek, update, states] using h
  exact h'.elim Or.inl fun h' => Or.inr (Or.inl h')

/-- the possible contents of a chunk file while (and after) `writeChunk` is executed -/
theorem states_writeChunk (ds : Dataset E) (c : List Nat) (data : List E.T) (vl : Bool) (n : Nat)
    {v w : Option Bytes} (hs : w ∈ states (ds.writeChunk c data vl n) v) :
    Torn ds.backend v (exec1 (ds.writeChunk c data vl n) v).2 w := by
  have hret : ∀ {r : Res Unit}, w ∈ states (.ret r) v → Torn ds.backend v (exec1 (.ret r : Prog Unit) v).2 w := by
    intro r h
    left
    simpa [states] using h
  unfold Dataset.writeChunk at hs ⊢
  split at hs
  · next hw => rw [if_pos hw]; exact hret hs
  · next hw =>
    rw [if_neg hw]
    cases h1 : ds.handle c with
    | throw e => rw [h1] at hs; exact hret hs
    | ub => rw [h1] at hs; exact hret hs
    | ok hnd =>
      rw [h1, bind_ok] at hs
      rw [bind_ok]
      cases h2 : ds.checkChunk c vl with
      | throw e => rw [h2] at hs; exact hret hs
      | ub => rw [h2] at hs; exact hret hs
      | ok _ =>
        rw [h2, bind_ok] at hs
        rw [bind_ok]
        cases h3 : dataToBuffer E ds.codec hnd data ds.fill vl n with
        | throw e => rw [h3] at hs; exact hret hs
        | ub => rw [h3] at hs; exact hret hs
        | ok o =>
          rw [h3, bind_ok] at hs
          rw [bind_ok]
          cases o with
          | none =>
            simp only [exec1_erase] at hs ⊢
            exact states_erase _ _ _ _ hs
          | some b =>
            simp only [exec1_write] at hs ⊢
            exact states_write _ _ _ _ _ hs

theorem readOnly_readExisting (ds : Dataset E) (c : List Nat) (buf : List E.T) :
    ReadOnly (ds.readExisting c buf) := by
  have h1 := readOnly_readChunk ds c
  unfold Dataset.readExisting Dataset.chunkExists
  repeat' first
    | exact ReadOnly.ret _ | exact readOnly_exists _ | exact h1 _
    | refine ReadOnly.bind ?_ (fun _ => ?_) | split | dsimp only | exact trivial

theorem readOnly_prepareBuffer (ds : Dataset E) (fr : FillRequest E) (rb rs c : List Nat)
    (scratch : List E.T) (rE : List E.T → Prog (Option (List E.T))) (hrE : ∀ b, ReadOnly (rE b)) :
    ReadOnly (ds.prepareBuffer fr rb rs c scratch rE) := by
  unfold Dataset.prepareBuffer
  repeat' first
    | exact ReadOnly.ret _ | exact hrE _
    | refine ReadOnly.bind ?_ (fun _ => ?_) | split | dsimp only | exact trivial

theorem states_writeTask (ds : Dataset E) (fr : FillRequest E) (rb rs c : List Nat)
    (scratch : List E.T) {v w : Option Bytes}
    (hs : w ∈ states (ds.writeTask fr rb rs c scratch) v) :
    Torn ds.backend v (exec1 (ds.writeTask fr rb rs c scratch) v).2 w := by
  have hro := readOnly_prepareBuffer ds fr rb rs c scratch _ (readOnly_readExisting ds c)
  have hv := exec1_readOnly hro v
  rw [Dataset.writeTask] at hs ⊢
  rcases mem_states_bind _ _ _ _ hs with hs | ⟨a, ha, hs⟩
  · left
    exact states_readOnly hro _ _ hs
  · rw [hv] at hs
    rw [exec1_bind_ok (Prod.ext ha hv)]
    exact states_writeChunk _ _ _ _ _ hs

/-! ### Calls -/

/-- the values a call writes -/
def RegionCall.val (fill : E.T) (call : RegionCall E) (i : List Nat) : E.T := (call.value i).getD fill

def RegionCall.request : RegionCall E → FillRequest E
  | .copy inBuf inView _ => copyRequest inBuf inView
  | .scalar _ _ v => scalarRequest v

theorem RegionCall.start_eq (call : RegionCall E) (scratch : Nat → List E.T) :
    call.start ds scratch = ds.writeRegion (request call) call.off call.shape scratch := by
  cases call <;> rfl

theorem RegionCall.value_some {call : RegionCall E} (hv : call.Valid ds) {i : List Nat}
    (hi : InBox i call.shape) : call.value i = some (val ds.fill call i) := by
  cases call with
  | copy inBuf inView off =>
    show inBuf[_]? = some ((inBuf[_]?).getD _)
    rw [List.getElem?_eq_getElem (hv.2.2 i hi)]
    rfl
  | scalar off shape v => rfl

theorem RegionCall.spec {call : RegionCall E} (hv : call.Valid ds) :
    FillSpec (request call) call.shape (val ds.fill call) := by
  cases call with
  | copy inBuf inView off =>
    exact copyRequest_spec inBuf inView _ hv.2 fun i hi => RegionCall.value_some hv hi
  | scalar off shape v => exact scalarRequest_spec v shape

end Z5
