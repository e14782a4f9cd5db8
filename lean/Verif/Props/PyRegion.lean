import Verif.Spec.PyRegion
import Verif.Props.Index
import Verif.Props.ReadWrite
import Verif.Props.Sharded
import Verif.Props.Example

/-!
# C72: regions in Python
-/

namespace Z5.Props
open Z5 Spec Prog

variable {E : Elem}

/-! ## Corners -/

theorem toSizes64_nat : ∀ (x : List Nat), (∀ n ∈ x, n < 2 ^ 64) → toSizes64 (pyInts x) = .ok x
  | [], _ => rfl
  | n :: x, h => by
    have hn := h n (List.mem_cons_self ..)
    show (toSizes64 (pyInts x) >>= fun bs => if (n : Int) < 0 ∨ 2 ^ 64 ≤ (n : Int) then Res.throw .typeError else pure ((n : Int).toNat :: bs)) = _
    rw [toSizes64_nat x fun m hm => h m (List.mem_cons_of_mem _ hm)]
    show (if (n : Int) < 0 ∨ 2 ^ 64 ≤ (n : Int) then _ else _) = _
    rw [if_neg (by omega)]
    rfl

theorem toSizes64_ok : ∀ {s : List (Option Int)} {b : List Nat}, toSizes64 s = .ok b → s = pyInts b ∧ ∀ n ∈ b, n < 2 ^ 64
  | [], b, h => by cases h; exact ⟨rfl, by simp⟩
  | none :: s, b, h => by cases h
  | some a :: s, b, h => by
    unfold toSizes64 at h
    obtain ⟨bs, h1, h2⟩ := Res.bind_eq_ok.1 h
    split at h2
    · cases h2
    · rename_i hn
      cases h2
      obtain ⟨e1, e2⟩ := toSizes64_ok h1
      refine ⟨?_, ?_⟩
      · rw [e1]
        show some a :: pyInts bs = some ((a.toNat : Nat) : Int) :: pyInts bs
        congr 2
        omega
      · intro n hm
        rcases List.mem_cons.1 hm with rfl | hm
        · omega
        · exact e2 n hm

theorem toSizes64_ne_ub : ∀ (s : List (Option Int)), toSizes64 s ≠ .ub
  | [] => by simp [toSizes64]
  | none :: s => by simp [toSizes64]
  | some a :: s => by
    intro h
    unfold toSizes64 at h
    cases e : toSizes64 s with
    | ub => exact toSizes64_ne_ub s e
    | throw => rw [e] at h; cases h
    | ok bs =>
      rw [e] at h
      change (if a < 0 ∨ 2 ^ 64 ≤ a then Res.throw .typeError else pure (a.toNat :: bs)) = _ at h
      split at h <;> cases h

theorem npShape_ne_ub : ∀ (s : List Int), npShape s ≠ .ub
  | [] => by simp [npShape]
  | a :: s => by
    intro h
    unfold npShape at h
    cases e : npShape s with
    | ub => exact npShape_ne_ub s e
    | throw => rw [e] at h; cases h
    | ok bs =>
      rw [e] at h
      change (if a < 0 then Res.throw .invalidArgument else pure (a.toNat :: bs)) = _ at h
      split at h <;> cases h

theorem pyExtents_ne_ub : ∀ (s t : List (Option Int)), pyExtents s t ≠ .ub
  | [], _ => by simp [pyExtents]
  | _ :: _, [] => by simp [pyExtents]
  | none :: _, _ :: _ => by simp [pyExtents]
  | some _ :: _, none :: _ => by simp [pyExtents]
  | some a :: s, some b :: t => by
    intro h
    unfold pyExtents at h
    cases e : pyExtents s t with
    | ub => exact pyExtents_ne_ub s t e
    | throw => rw [e] at h; cases h
    | ok bs => rw [e] at h; cases h

theorem npShape_ok : ∀ {s : List Int} {out : List Nat}, npShape s = .ok out → s = out.map Int.ofNat
  | [], out, h => by cases h; rfl
  | n :: s, out, h => by
    unfold npShape at h
    obtain ⟨ns, h1, h2⟩ := Res.bind_eq_ok.1 h
    split at h2
    · cases h2
    · cases h2
      rw [npShape_ok h1, List.map_cons]
      congr 1
      show n = ((n.toNat : Nat) : Int)
      omega

theorem extents_corners : ∀ (off shape : List Nat), off.length = shape.length →
    pyExtents (pyInts off) (pyInts (addV off shape)) = .ok (shape.map Int.ofNat)
  | [], [], _ => rfl
  | [], _ :: _, h => by cases h
  | _ :: _, [], h => by cases h
  | o :: off, n :: shape, h => by
    show (pyExtents (pyInts off) (pyInts (addV off shape)) >>= fun ns => pure ((((o + n : Nat) : Int) - (o : Int)) :: ns)) = _
    rw [extents_corners off shape (by simpa using h)]
    show Res.ok ((((o + n : Nat) : Int) - (o : Int)) :: shape.map Int.ofNat) = _
    rw [show (((o + n : Nat) : Int) - (o : Int)) = Int.ofNat n by simp only [Int.ofNat_eq_natCast]; omega]
    rfl

theorem corners_of_extents : ∀ {start stop : List (Option Int)} {b out : List Nat}, start.length = stop.length →
    pyExtents start stop = .ok (out.map Int.ofNat) → start = pyInts b → Corners start stop b out
  | [], [], b, out, _, h, hb => by
    cases b with
    | cons => cases hb
    | nil =>
      cases out with
      | cons => cases h
      | nil => exact ⟨rfl, rfl, rfl⟩
  | [], _ :: _, _, _, h, _, _ => by cases h
  | _ :: _, [], _, _, h, _, _ => by cases h
  | none :: _, _ :: _, b, _, _, _, hb => by cases b <;> cases hb
  | some _ :: _, none :: _, _, _, _, h, _ => by cases h
  | some x :: start, some y :: stop, b, out, hl, h, hb => by
    cases b with
    | nil => cases hb
    | cons b0 b =>
      have hx : x = (b0 : Int) := Option.some.inj (List.cons.inj hb).1
      have hs : start = pyInts b := (List.cons.inj hb).2
      unfold pyExtents at h
      obtain ⟨ns, h1, h2⟩ := Res.bind_eq_ok.1 h
      cases out with
      | nil => cases h2
      | cons n out =>
        have h2 : (y - x) :: ns = Int.ofNat n :: out.map Int.ofNat := Res.ok.inj h2
        obtain ⟨h3, h4⟩ := List.cons.inj h2
        rw [h4] at h1
        obtain ⟨g1, g2, g3⟩ := corners_of_extents (by simpa using hl) h1 hs
        refine ⟨by simp [g1], hb, ?_⟩
        rw [g3]
        show some y :: pyInts (addV b out) = some (((b0 + n : Nat) : Int)) :: pyInts (addV b out)
        congr 2
        have h3 : y - x = (n : Int) := h3
        omega

theorem offsetOf_eq {b : List Nat} {n : Nat} (h : b.length = n) : offsetOf b n = .ok b := by
  unfold offsetOf
  rw [if_neg (by omega), List.take_of_length_le (by omega)]

theorem read_corners {α : Type} (read : View → List Nat → Res (List α)) {start stop : List (Option Int)} {off shape : List Nat}
    (hc : Corners start stop off shape) (hb : ∀ n ∈ off, n < 2 ^ 64) :
    pyReadSubarray read start stop = (read (makeView shape) off >>= fun ts => pure (shape, ts)) := by
  obtain ⟨h1, rfl, rfl⟩ := hc
  unfold pyReadSubarray
  rw [extents_corners off shape h1]
  show (npShape (shape.map Int.ofNat) >>= _) = _
  rw [npShape_nat]
  show (toSizes64 (pyInts off) >>= _) = _
  rw [toSizes64_nat off hb]
  show (offsetOf off shape.length >>= _) = _
  rw [offsetOf_eq h1]
  rfl

/-- Either `start` and `stop` are corners, or the call fails before it looks at the dataset. -/
theorem read_corners_or {α : Type} (read : View → List Nat → Res (List α)) {start stop : List (Option Int)}
    (hl : start.length = stop.length) :
    (∃ off shape, Corners start stop off shape ∧ (∀ n ∈ off, n < 2 ^ 64)) ∨ ∃ e, pyReadSubarray read start stop = .throw e := by
  unfold pyReadSubarray
  cases h1 : pyExtents start stop with
  | ub => exact absurd h1 (pyExtents_ne_ub _ _)
  | throw e => exact .inr ⟨e, rfl⟩
  | ok ext =>
    cases h2 : npShape ext with
    | ub => exact absurd h2 (npShape_ne_ub _)
    | throw e => exact .inr ⟨e, by show (npShape ext >>= _) = _; rw [h2]; rfl⟩
    | ok out =>
      cases h3 : toSizes64 start with
      | ub => exact absurd h3 (toSizes64_ne_ub _)
      | throw e => exact .inr ⟨e, by show (npShape ext >>= _) = _; rw [h2]; rfl⟩
      | ok b =>
        left
        obtain ⟨g1, g2⟩ := toSizes64_ok h3
        refine ⟨b, out, corners_of_extents hl ?_ g1, g2⟩
        rw [h1, npShape_ok h2]

theorem region_lt : ∀ {shape off size : List Nat}, (∀ s ∈ shape, s < 2 ^ 31) → RegionOk shape off size →
    ∀ n ∈ off, n < 2 ^ 64
  | _ :: _, _ :: _, _ :: _, hs, hr, n, hn => by
    rcases List.mem_cons.1 hn with rfl | hn
    · have := hs _ (List.mem_cons_self ..)
      have := hr.1
      omega
    · exact region_lt (fun s hm => hs s (List.mem_cons_of_mem _ hm)) hr.2 n hn
  | [], [], [], _, _, n, hn => by cases hn

/-- what the readers of both kinds of datasets do with a region -/
theorem reads_region {read : View → List Nat → Res (List (Prog (List (Nat × E.T))))} {shape : List Nat} {σ : Store}
    {A : List Nat → E.T} (hs : ∀ s ∈ shape, s < 2 ^ 31)
    (hA : ∀ (off : List Nat) (out : View) (outBuf : List E.T), RegionOk shape off out.shape → FitsIn out outBuf.length →
      NoAlias out → ∃ ts, read out off = .ok ts ∧ ∀ is rs, Finished (interleave is (ts, σ)).1 rs →
        (interleave is (ts, σ)).2 = σ ∧ (∃ out', Delivers outBuf rs out') ∧
        ∀ out', Delivers outBuf rs out' → out'.length = outBuf.length ∧
          (∀ i, InBox i out.shape → out'[out.base + dot i out.strides]? = some (A (addV off i))) ∧
          (∀ a, (∀ i, InBox i out.shape → out.base + dot i out.strides ≠ a) → out'[a]? = outBuf[a]?))
    {start stop : List (Option Int)} {off size : List Nat} (hc : Corners start stop off size) (hr : RegionOk shape off size) :
    ∃ ts, pyReadSubarray read start stop = .ok (size, ts) ∧
      ∀ junk : List E.T, junk.length = prod size → ∀ is rs, Finished (interleave is (ts, σ)).1 rs →
        (interleave is (ts, σ)).2 = σ ∧ (∃ out, Delivers junk rs out) ∧
        ∀ out, Delivers junk rs out → out.length = prod size ∧
          ∀ i, InBox i size → out[ravel size i]? = some (A (addV off i)) := by
  rw [read_corners read hc (region_lt hs hr)]
  obtain ⟨ts, h3, _⟩ := hA off (makeView size) (List.replicate (prod size) (A [])) hr (makeView_fits _ (by simp)) (makeView_noAlias _)
  rw [h3]
  refine ⟨ts, rfl, fun junk hj is rs hf => ?_⟩
  obtain ⟨ts', h3', h4⟩ := hA off (makeView size) junk hr (makeView_fits _ (by omega)) (makeView_noAlias _)
  rw [h3] at h3'
  cases h3'
  obtain ⟨h5, h6, h7⟩ := h4 is rs hf
  refine ⟨h5, h6, fun out ho => ?_⟩
  obtain ⟨h8, h9, _⟩ := h7 out ho
  refine ⟨h8.trans hj, fun i hi => ?_⟩
  rw [← h9 i hi]
  congr 1
  show ravel size i = 0 + dot i (cOrderStrides size)
  rw [cOrderStrides_eq, Nat.zero_add]
  rfl

/-! ## Reading -/

/-- C72: `read_subarray(start, stop)` of a region inside of the dataset returns an array of the shape of the region with the
elements of the dataset, whatever was in the memory for the array, under every schedule of the threads; nothing is changed in
the store. -/
theorem c72_read {ds : Dataset E} (h : ds.WF) {σ : Store} {A : List Nat → E.T} (hA : ReadsAs ds σ A)
    {start stop : List (Option Int)} {off size : List Nat} (hc : Corners start stop off size) (hr : RegionOk ds.shape off size)
    (scratch : Nat → List E.T) :
    ∃ ts, pyReadSubarray (fun out off => ds.readSubarray out off scratch) start stop = .ok (size, ts) ∧
      ∀ junk : List E.T, junk.length = prod size → ∀ is rs, Finished (interleave is (ts, σ)).1 rs →
        (interleave is (ts, σ)).2 = σ ∧ (∃ out, Delivers junk rs out) ∧
        ∀ out, Delivers junk rs out → out.length = prod size ∧
          ∀ i, InBox i size → out[ravel size i]? = some (A (addV off i)) :=
  reads_region h.small (fun off out buf h1 h2 h3 => hA off out buf scratch h1 h2 h3) hc hr

/-- C72 for sharded datasets -/
theorem c72_read_sharded {sd : ShardedDataset E} (h : sd.WF) {σ : Store} {A : List Nat → E.T} (hA : ShardedReadsAs sd σ A)
    {start stop : List (Option Int)} {off size : List Nat} (hc : Corners start stop off size) (hr : RegionOk sd.shape off size)
    (scratch : Nat → List E.T) :
    ∃ ts, pyReadSubarray (fun out off => sd.readSubarray out off scratch) start stop = .ok (size, ts) ∧
      ∀ junk : List E.T, junk.length = prod size → ∀ is rs, Finished (interleave is (ts, σ)).1 rs →
        (interleave is (ts, σ)).2 = σ ∧ (∃ out, Delivers junk rs out) ∧
        ∀ out, Delivers junk rs out → out.length = prod size ∧
          ∀ i, InBox i size → out[ravel size i]? = some (A (addV off i)) :=
  reads_region h.base.small (fun off out buf h1 h2 h3 => hA off out buf scratch h1 h2 h3) hc hr

theorem fits_nowrap : ∀ {off size : List Nat}, off.length = size.length → Fits63 (pyInts (addV off size)) →
    All₂ (fun o n => o + n < 2 ^ 64) off size
  | [], [], _, _ => trivial
  | [], _ :: _, h, _ => by cases h
  | _ :: _, [], h, _ => by cases h
  | o :: off, n :: size, h, hf => by
    refine ⟨?_, fits_nowrap (by simpa using h) fun x hx => hf x (List.mem_cons_of_mem _ hx)⟩
    have := (hf ((o + n : Nat) : Int) (List.mem_cons_self ..)).2
    omega

/-- C72: with coordinates that fit in 64 bits (with sign), `read_subarray` accepts exactly the regions that are inside of the
dataset and not empty.  Everything else, also negative coordinates and `None`, is an exception. -/
theorem c72_read_iff {ds : Dataset E} (h : ds.WF) {start stop : List (Option Int)} (hl : start.length = stop.length)
    (hstop : Fits63 stop) (scratch : Nat → List E.T) :
    ((∃ r, pyReadSubarray (fun out off => ds.readSubarray out off scratch) start stop = .ok r) ↔
      ∃ off size, Corners start stop off size ∧ RegionOk ds.shape off size) ∧
    ((¬ ∃ off size, Corners start stop off size ∧ RegionOk ds.shape off size) →
      ∃ e, pyReadSubarray (fun out off => ds.readSubarray out off scratch) start stop = .throw e) := by
  have hno : (¬ ∃ off size, Corners start stop off size ∧ RegionOk ds.shape off size) →
      ∃ e, pyReadSubarray (fun out off => ds.readSubarray out off scratch) start stop = .throw e := by
    intro hn
    rcases read_corners_or (fun out off => ds.readSubarray out off scratch) hl with ⟨off, size, hc, hb⟩ | he
    · rw [read_corners _ hc hb]
      have hnr : ¬ RegionOk ds.shape off size := fun hr => hn ⟨off, size, hc, hr⟩
      have hw := fits_nowrap hc.1 (by rw [← hc.2.2]; exact hstop)
      have hthrow : ds.readSubarray (makeView size) off scratch = .throw .runtimeError := by
        by_cases hd : off.length = ds.shape.length
        · exact ((c05_accepted_iff h off [] (makeView size) ds.fill scratch hd (by rw [← hd]; exact hc.1.symm) hw).2.2.2 hnr).1
        · exact (c05_wrong_dimension off [] (makeView size) ds.fill scratch (.inl hd)).1
      rw [hthrow]
      exact ⟨_, rfl⟩
    · exact he
  refine ⟨⟨fun ⟨r, hr⟩ => ?_, fun ⟨off, size, hc, hr⟩ => ?_⟩, hno⟩
  · refine Classical.byContradiction fun hn => ?_
    obtain ⟨e, he⟩ := hno hn
    rw [he] at hr
    cases hr
  · rw [read_corners _ hc (region_lt h.small hr)]
    have hw := fits_nowrap hc.1 (by rw [← hc.2.2]; exact hstop)
    obtain ⟨l1, l2⟩ := hr.length_eq
    obtain ⟨ts, hts⟩ := (c05_accepted_iff h off [] (makeView size) ds.fill scratch (by omega) (by show size.length = _; omega) hw).1.2 hr
    rw [hts]
    exact ⟨_, rfl⟩

/-- C72 for sharded datasets -/
theorem c72_read_rejects_sharded {sd : ShardedDataset E} (h : sd.WF) {start stop : List (Option Int)}
    (hl : start.length = stop.length) (hstop : Fits63 stop) (scratch : Nat → List E.T)
    (hn : ¬ ∃ off size, Corners start stop off size ∧ RegionOk sd.shape off size) :
    ∃ e, pyReadSubarray (fun out off => sd.readSubarray out off scratch) start stop = .throw e := by
  rcases read_corners_or (fun out off => sd.readSubarray out off scratch) hl with ⟨off, size, hc, hb⟩ | he
  · rw [read_corners _ hc hb]
    have hnr : ¬ RegionOk sd.shape off size := fun hr => hn ⟨off, size, hc, hr⟩
    have hw := fits_nowrap hc.1 (by rw [← hc.2.2]; exact hstop)
    have hthrow : sd.toDataset.readSubarray (makeView size) off scratch = .throw .runtimeError := by
      by_cases hd : off.length = sd.shape.length
      · exact ((c05_accepted_iff h.base off [] (makeView size) sd.fill scratch hd (by rw [← hd]; exact hc.1.symm) hw).2.2.2 hnr).1
      · exact (c05_wrong_dimension off [] (makeView size) sd.fill scratch (.inl hd)).1
    have hreq : sd.toDataset.requestChunks off size = .throw .runtimeError := by
      unfold Dataset.readSubarray at hthrow
      cases e : sd.toDataset.requestChunks off size with
      | ok cs => rw [show (makeView size).shape = size from rfl, e] at hthrow; cases hthrow
      | ub => rw [show (makeView size).shape = size from rfl, e] at hthrow; cases hthrow
      | throw e' => rw [show (makeView size).shape = size from rfl, e] at hthrow; cases hthrow; rfl
    unfold ShardedDataset.readSubarray
    rw [show (makeView size).shape = size from rfl, hreq]
    exact ⟨_, rfl⟩
  · exact he

/-! ## Writing -/

theorem write_start {α β : Type} (write : List β → View → List Nat → Res (List α)) {off : List Nat} (hb : ∀ n ∈ off, n < 2 ^ 64)
    (a : NpArray β) (hl : off.length = a.shape.length) :
    pyWriteSubarray write (pyInts off) (.array a) = write a.data (makeView a.shape) off := by
  unfold pyWriteSubarray
  dsimp only
  rw [toSizes64_nat off hb]
  show (offsetOf off a.shape.length >>= _) = _
  rw [offsetOf_eq hl]
  rfl

theorem write_ok {α β : Type} {write : List β → View → List Nat → Res (List α)} {start : List (Option Int)}
    {data : RegionArg β} {ts : List α} (h : pyWriteSubarray write start data = .ok ts) :
    ∃ a b, data = .array a ∧ start = pyInts b ∧ (∀ n ∈ b, n < 2 ^ 64) ∧ a.shape.length ≤ b.length ∧
      write a.data (makeView a.shape) (b.take a.shape.length) = .ok ts := by
  unfold pyWriteSubarray at h
  cases data with
  | notAccepted => cases h
  | otherType shape =>
    dsimp only at h
    obtain ⟨b, _, h2⟩ := Res.bind_eq_ok.1 h
    obtain ⟨_, _, h3⟩ := Res.bind_eq_ok.1 h2
    cases h3
  | array a =>
    dsimp only at h
    obtain ⟨b, h1, h2⟩ := Res.bind_eq_ok.1 h
    obtain ⟨o, h3, h4⟩ := Res.bind_eq_ok.1 h2
    unfold offsetOf at h3
    split at h3
    · cases h3
    · cases h3
      obtain ⟨e1, e2⟩ := toSizes64_ok h1
      exact ⟨a, b, rfl, e1, e2, by omega, h4⟩

/-- C72: with coordinates that fit in 64 bits (with sign) and as many coordinates as the array has axes, `write_subarray` accepts
exactly the arrays of the element type that are inside of the dataset and not empty.  For everything else it raises before
anything is written (there are no tasks). -/
theorem c72_write_iff {ds : Dataset E} (h : ds.WF) {start : List (Option Int)} (hstart : Fits63 start) (data : RegionArg E.T)
    (hl : ∀ a, data = .array a → start.length = a.shape.length) (hs : ∀ a, data = .array a → ∀ n ∈ a.shape, n < 2 ^ 63)
    (scratch : Nat → List E.T) :
    (∃ ts, pyWriteSubarray (fun buf view off => ds.writeSubarray buf view off scratch) start data = .ok ts) ↔
      ∃ a off, data = .array a ∧ start = pyInts off ∧ RegionOk ds.shape off a.shape := by
  have hnw : ∀ {off size : List Nat}, off.length = size.length → Fits63 (pyInts off) → (∀ n ∈ size, n < 2 ^ 63) →
      All₂ (fun o n => o + n < 2 ^ 64) off size := by
    intro off
    induction off with
    | nil => intro size hl _ _; cases size with | nil => trivial | cons => cases hl
    | cons o off ih =>
      intro size hl hf hs
      cases size with
      | nil => cases hl
      | cons n size =>
        refine ⟨?_, ih (by simpa using hl) (fun x hx => hf x (List.mem_cons_of_mem _ hx)) fun m hm => hs m (List.mem_cons_of_mem _ hm)⟩
        have h1 := (hf (o : Int) (List.mem_cons_self ..)).2
        have h2 := hs n (List.mem_cons_self ..)
        omega
  constructor
  · rintro ⟨ts, hts⟩
    obtain ⟨a, b, rfl, rfl, hb, hle, hw⟩ := write_ok hts
    have hlen : b.length = a.shape.length := by have := hl a rfl; rwa [pyInts, List.length_map] at this
    rw [List.take_of_length_le (by omega)] at hw
    refine ⟨a, b, rfl, rfl, ?_⟩
    have hnw := hnw hlen hstart (hs a rfl)
    by_cases hd : b.length = ds.shape.length
    · exact (c05_accepted_iff h b a.data (makeView a.shape) ds.fill scratch hd (by rw [← hd]; exact hlen.symm) hnw).2.1.1 ⟨ts, hw⟩
    · rw [(c05_wrong_dimension b a.data (makeView a.shape) ds.fill scratch (.inl hd)).2.1] at hw
      cases hw
  · rintro ⟨a, off, rfl, rfl, hr⟩
    obtain ⟨l1, l2⟩ := hr.length_eq
    have hlen : off.length = a.shape.length := by omega
    rw [write_start _ (region_lt h.small hr) a hlen]
    exact (c05_accepted_iff h off a.data (makeView a.shape) ds.fill scratch (by omega) (by show a.shape.length = _; omega)
      (hnw hlen hstart (hs a rfl))).2.1.2 hr

theorem view_elements {T : Type} (a : NpArray T) {val : List Nat → T} (hval : ∀ i, InBox i a.shape → a.data[ravel a.shape i]? = some (val i)) :
    ∀ i, InBox i (makeView a.shape).shape →
      a.data[(makeView a.shape).base + dot i (makeView a.shape).strides]? = some (val i) := by
  intro i hi
  rw [← hval i hi]
  congr 1
  show 0 + dot i (cOrderStrides a.shape) = _
  rw [cOrderStrides_eq, Nat.zero_add]
  rfl

/-- C72: when `write_subarray(start, data)` has completed, exactly the region at `start` of the shape of `data` was written, with
the elements of `data`. -/
theorem c72_write {ds : Dataset E} (h : ds.WF) {ws : List (Write E.T)} {σ : Store} (hreach : Reaches ds ws σ)
    {off : List Nat} {a : NpArray E.T} (ha : a.data.length = prod a.shape) (hr : RegionOk ds.shape off a.shape)
    (scratch : Nat → List E.T) {ts : List (Prog Unit)}
    (hts : pyWriteSubarray (fun buf view off => ds.writeSubarray buf view off scratch) (pyInts off) (.array a) = .ok ts)
    {is : List Nat} {σ' : Store} (hc : Completes ts is σ σ') {val : List Nat → E.T}
    (hval : ∀ i, InBox i a.shape → a.data[ravel a.shape i]? = some (val i)) :
    Reaches ds (ws ++ [⟨off, a.shape, val⟩]) σ' := by
  obtain ⟨l1, l2⟩ := hr.length_eq
  rw [write_start _ (region_lt h.small hr) a (by omega)] at hts
  exact hreach.step (.subarray a.data (makeView a.shape) off val scratch ts is hr (makeView_fits _ (by omega))
    (view_elements a hval) hts hc)

/-- C72 for sharded datasets -/
theorem c72_write_sharded {sd : ShardedDataset E} (h : sd.WF) {ws : List (Write E.T)} {σ : Store} (hreach : ShardedReaches sd ws σ)
    {off : List Nat} {a : NpArray E.T} (ha : a.data.length = prod a.shape) (hr : RegionOk sd.shape off a.shape)
    (scratch : Nat → List E.T) {ts : List (Prog Unit)}
    (hts : pyWriteSubarray (fun buf view off => sd.writeRegion (copyRequest buf view) off view.shape scratch) (pyInts off) (.array a)
      = .ok ts)
    {is : List Nat} {σ' : Store} (hc : Completes ts is σ σ') {val : List Nat → E.T}
    (hval : ∀ i, InBox i a.shape → a.data[ravel a.shape i]? = some (val i)) :
    ShardedReaches sd (ws ++ [⟨off, a.shape, val⟩]) σ' := by
  obtain ⟨l1, l2⟩ := hr.length_eq
  rw [write_start _ (region_lt h.base.small hr) a (by omega)] at hts
  exact hreach.step (.region (.copy a.data (makeView a.shape) off) val scratch ts is ⟨hr, makeView_fits _ (by omega)⟩
    (view_elements a hval) hts hc)

theorem written_region {T : Type} {A : List Nat → T} {ws : List (Write T)} {off : List Nat} {a : NpArray T} {val : List Nat → T}
    (hval : ∀ i, InBox i a.shape → a.data[ravel a.shape i]? = some (val i)) (hl : off.length = a.shape.length) (i : List Nat)
    (hi : InBox i a.shape) :
    some (replay A (ws ++ [⟨off, a.shape, val⟩]) (addV off i)) = a.data[ravel a.shape i]? := by
  rw [replay_append, hval i hi]
  show some (override (replay A ws) off a.shape val (addV off i)) = _
  rw [override_in (inRegion_add hi hl), subV_addV (by rw [hi.length_eq]; omega)]

theorem same_elements {T : Type} {s : List Nat} {xs ys : List T} (hx : xs.length = prod s) (hy : ys.length = prod s)
    (h : ∀ i, InBox i s → xs[ravel s i]? = ys[ravel s i]?) : xs = ys := by
  refine List.ext_getElem? fun p => ?_
  by_cases hp : p < prod s
  · have := h _ (unravel_inBox p (allPos_of_prod_pos (by omega)))
    rwa [ravel_unravel hp] at this
  · rw [List.getElem?_eq_none (by omega), List.getElem?_eq_none (by omega)]

/-- C72: what `write_subarray(start, data)` wrote is what `read_subarray(start, start + data.shape)` returns, after any history of
writes, under every schedule of the threads of both calls (element types whose `==` is equality). -/
theorem c72_roundtrip {ds : Dataset E} (h : ds.WF) (hw : ds.canWrite = true) (hE : E.Faithful) {ws : List (Write E.T)} {σ : Store}
    (hreach : Reaches ds ws σ) {off : List Nat} {a : NpArray E.T} (ha : a.data.length = prod a.shape)
    (hr : RegionOk ds.shape off a.shape) (scratch : Nat → List E.T) {ts : List (Prog Unit)}
    (hts : pyWriteSubarray (fun buf view off => ds.writeSubarray buf view off scratch) (pyInts off) (.array a) = .ok ts)
    {is : List Nat} {σ' : Store} (hc : Completes ts is σ σ') :
    ∃ rts, pyReadSubarray (fun out off => ds.readSubarray out off scratch) (pyInts off) (pyInts (addV off a.shape)) = .ok (a.shape, rts) ∧
      ∀ junk : List E.T, junk.length = prod a.shape → ∀ is rs, Finished (interleave is (rts, σ')).1 rs →
        (interleave is (rts, σ')).2 = σ' ∧ (∃ out, Delivers junk rs out) ∧ ∀ out, Delivers junk rs out → out = a.data := by
  obtain ⟨l1, l2⟩ := hr.length_eq
  have hl : off.length = a.shape.length := by omega
  obtain ⟨val, hval⟩ := array_values ha ds.fill
  have hreach' := c72_write h hreach ha hr scratch hts hc hval
  have hA : ReadsAs ds σ' (replay (fun _ => ds.fill) (ws ++ [⟨off, a.shape, val⟩])) := by
    by_cases hz : ds.isZarr = true
    · exact c08_read_after_write_zarr_exact h hz hw hE hreach'
    · exact c09_read_after_write_n5_exact h (by simpa using hz) hw hE hreach'
  obtain ⟨rts, h1, h2⟩ := c72_read h hA ⟨hl, rfl, rfl⟩ hr scratch
  refine ⟨rts, h1, fun junk hj is rs hf => ?_⟩
  obtain ⟨h3, h4, h5⟩ := h2 junk hj is rs hf
  refine ⟨h3, h4, fun out ho => ?_⟩
  obtain ⟨h6, h7⟩ := h5 out ho
  exact same_elements h6 ha fun i hi => by rw [h7 i hi, written_region hval hl i hi]

/-- C72 for sharded datasets -/
theorem c72_roundtrip_sharded {sd : ShardedDataset E} (h : sd.WF) (hw : sd.canWrite = true) (hE : E.Faithful)
    {ws : List (Write E.T)} {σ : Store} (hreach : ShardedReaches sd ws σ) {off : List Nat} {a : NpArray E.T}
    (ha : a.data.length = prod a.shape) (hr : RegionOk sd.shape off a.shape) (scratch : Nat → List E.T) {ts : List (Prog Unit)}
    (hts : pyWriteSubarray (fun buf view off => sd.writeRegion (copyRequest buf view) off view.shape scratch) (pyInts off) (.array a)
      = .ok ts)
    {is : List Nat} {σ' : Store} (hc : Completes ts is σ σ') :
    ∃ rts, pyReadSubarray (fun out off => sd.readSubarray out off scratch) (pyInts off) (pyInts (addV off a.shape)) = .ok (a.shape, rts) ∧
      ∀ junk : List E.T, junk.length = prod a.shape → ∀ is rs, Finished (interleave is (rts, σ')).1 rs →
        (interleave is (rts, σ')).2 = σ' ∧ (∃ out, Delivers junk rs out) ∧ ∀ out, Delivers junk rs out → out = a.data := by
  obtain ⟨l1, l2⟩ := hr.length_eq
  have hl : off.length = a.shape.length := by omega
  obtain ⟨val, hval⟩ := array_values ha sd.fill
  have hreach' := c72_write_sharded h hreach ha hr scratch hts hc hval
  have hA := c10_read_after_write_sharded_exact h hw hE hreach'
  obtain ⟨rts, h1, h2⟩ := c72_read_sharded h hA ⟨hl, rfl, rfl⟩ hr scratch
  refine ⟨rts, h1, fun junk hj is rs hf => ?_⟩
  obtain ⟨h3, h4, h5⟩ := h2 junk hj is rs hf
  refine ⟨h3, h4, fun out ho => ?_⟩
  obtain ⟨h6, h7⟩ := h5 out ho
  exact same_elements h6 ha fun i hi => by rw [h7 i hi, written_region hval hl i hi]

/-! ## `read_direct` and `write_direct` -/

theorem whole_selects : ∀ (shape : List Nat), Selects (wholeSlices shape) (shape.map fun _ => 0) shape
  | [] => ⟨⟨rfl, rfl, rfl⟩, fun _ h => by cases h⟩
  | n :: shape => by
    obtain ⟨⟨h1, h2, h3⟩, h4⟩ := whole_selects shape
    refine ⟨⟨by simp, ?_, ?_⟩, ?_⟩
    · show some 0 :: (wholeSlices shape).map (·.start) = some 0 :: pyInts (shape.map fun _ => 0)
      rw [h2]
    · show some (n : Int) :: (wholeSlices shape).map (·.stop) = some ((0 + n : Nat) : Int) :: pyInts (addV (shape.map fun _ => 0) shape)
      rw [h3, Nat.zero_add]
    · intro s hs
      rcases List.mem_cons.1 hs with rfl | hs
      · exact .inl rfl
      · exact h4 s hs

theorem selectsOr {sel : Option (List PySlice)} {shape off size : List Nat} (h : SelectsOr sel shape off size) :
    Selects (sel.getD (wholeSlices shape)) off size := by
  cases sel with
  | some s => exact h
  | none =>
    obtain ⟨rfl, rfl⟩ := h
    have := whole_selects size
    rwa [List.map_const'] at this

/-- C72: `read_direct(dest, source_sel, dest_sel)` with slices of step one that select regions of the same shape in the dataset
and in `dest`: the elements of the region of the dataset are in the region of `dest` afterwards, the others are as before.
Without `source_sel` the region is the whole dataset. -/
theorem c72_read_direct {ds : Dataset E} (h : ds.WF) {σ : Store} {A : List Nat → E.T} (hA : ReadsAs ds σ A)
    {sel : Option (List PySlice)} {off size : List Nat} (hsel : SelectsOr sel ds.shape off size)
    (hr : RegionOk ds.shape off size) (scratch : Nat → List E.T) :
    ∃ ts, pyReadDirect (fun out off => ds.readSubarray out off scratch) ds.shape sel = .ok (size, ts) ∧
      ∀ junk : List E.T, junk.length = prod size → ∀ is rs, Finished (interleave is (ts, σ)).1 rs →
        (interleave is (ts, σ)).2 = σ ∧ (∃ out, Delivers junk rs out) ∧
        ∀ out, Delivers junk rs out → ∀ (dest dest' : NpArray E.T) (doff : List Nat), NpAssigns dest doff ⟨size, out⟩ dest' →
          (∀ i, InBox i size → dest'.data[ravel dest.shape (addV doff i)]? = some (A (addV off i))) ∧
          ∀ x, InBox x dest.shape → ¬ InRegion x doff size → dest'.data[ravel dest.shape x]? = dest.data[ravel dest.shape x]? := by
  have hsel := selectsOr hsel
  obtain ⟨ts, h1, h2⟩ := c72_read h hA hsel.1 hr scratch
  refine ⟨ts, h1, fun junk hj is rs hf => ?_⟩
  obtain ⟨h3, h4, h5⟩ := h2 junk hj is rs hf
  exact ⟨h3, h4, fun out ho dest dest' doff hn => ⟨fun i hi => (hn.inside i hi).trans ((h5 out ho).2 i hi), hn.outside⟩⟩

/-- C72: `write_direct(source, source_sel, dest_sel)` with slices of step one that select regions of the same shape in `source`
and in the dataset: when it has completed, exactly the region of the dataset was written, with the elements of the region of
`source`.  Without `dest_sel` the region is the whole dataset. -/
theorem c72_write_direct {ds : Dataset E} (h : ds.WF) {ws : List (Write E.T)} {σ : Store} (hreach : Reaches ds ws σ)
    {source sub : NpArray E.T} {soff size : List Nat} (hsub : NpPicks source soff size sub)
    {sel : Option (List PySlice)} {off : List Nat} (hsel : SelectsOr sel ds.shape off size)
    (hr : RegionOk ds.shape off size) (scratch : Nat → List E.T) {ts : List (Prog Unit)}
    (hts : pyWriteDirect (fun buf view off => ds.writeSubarray buf view off scratch) ds.shape (.array sub) sel = .ok ts)
    {is : List Nat} {σ' : Store} (hc : Completes ts is σ σ') :
    ∃ val, (∀ i, InBox i size → source.data[ravel source.shape (addV soff i)]? = some (val i)) ∧
      Reaches ds (ws ++ [⟨off, size, val⟩]) σ' := by
  have hsel := selectsOr hsel
  obtain ⟨rfl, hlen, hel⟩ := hsub
  obtain ⟨val, hval⟩ := array_values hlen ds.fill
  refine ⟨val, fun i hi => by rw [← hel i hi, hval i hi], ?_⟩
  unfold pyWriteDirect at hts
  dsimp only at hts
  rw [hsel.1.2.1] at hts
  exact c72_write h hreach hlen hr scratch hts hc hval

/-- the hypotheses of both without a selection and with one -/
example : SelectsOr none [5, 4] [0, 0] [5, 4] ∧ SelectsOr (some [⟨some 1, some 4, none⟩, ⟨some 0, some 3, some 1⟩]) [5, 4] [1, 0] [3, 3] :=
  ⟨⟨rfl, rfl⟩, ⟨rfl, rfl, rfl⟩, by decide⟩

/-! ## What does not hold -/

/-- C72, the start of `write_subarray` may have too few coordinates: then the library reads past the end of a vector. -/
theorem c72_short_start_counterexample {α : Type} (write : List U8.T → View → List Nat → Res (List α)) :
    pyWriteSubarray write [some 0] (.array ⟨[1, 1], [(1 : Fin (256 ^ 1))]⟩) = .ub := rfl

/-- C72, additional coordinates are ignored: `read_subarray([0, 7], [2])` reads two elements of a dataset with one axis. -/
theorem c72_long_start_counterexample {α : Type} (read : View → List Nat → Res (List α)) :
    pyReadSubarray read [some 0, some 7] [some 2] = pyReadSubarray read [some 0] [some 2] := rfl

/-- four elements in chunks of two -/
def exFour : Dataset U16 :=
  { shape := [4], chunkShape := [2], chunkSize := 2, chunking := mkBlocking [4] [2],
    key := ⟨true, ['.'], 2, []⟩, codec := .raw, fill := (0 : Fin (256 ^ 2)), canWrite := true, backend := .files }

/-- C72, beyond 64 bits: `read_subarray([2**64 - 1], [2**64 + 1])` of a dataset with four elements is accepted, since the sum
that is checked wraps around: a chunk that the dataset doesn't have is requested. -/
theorem c72_wrap_counterexample :
    (∃ ts, pyReadSubarray (fun out off => exFour.readSubarray out off fun _ => []) [some (2 ^ 64 - 1)] [some (2 ^ 64 + 1)] =
      .ok ([2], ts)) ∧
    exFour.requestChunks [2 ^ 64 - 1] [2] = .ok [[2 ^ 63 - 1]] := by
  have h : exFour.requestChunks [2 ^ 64 - 1] [2] = .ok [[2 ^ 63 - 1]] := by decide +kernel
  refine ⟨?_, h⟩
  have e : pyReadSubarray (fun out off => exFour.readSubarray out off fun _ => []) [some (2 ^ 64 - 1)] [some (2 ^ 64 + 1)] =
      Res.bind (exFour.readSubarray (makeView [2]) [2 ^ 64 - 1] fun _ => []) fun ts => .ok ([2], ts) := rfl
  have e2 : exFour.readSubarray (makeView [2]) [2 ^ 64 - 1] (fun _ => []) =
      Res.bind (exFour.requestChunks [2 ^ 64 - 1] [2]) fun cs =>
        .ok (cs.mapIdx fun i c => exFour.readTask (makeView [2]) [2 ^ 64 - 1] [2] c ((fun _ => []) i)) := rfl
  rw [e, e2, h]
  exact ⟨_, rfl⟩

/-- C72, steps are ignored by `read_direct`: with `source_sel = (slice(0, 4, 2),)` all four elements are read. -/
theorem c72_step_ignored_counterexample {α : Type} (read : View → List Nat → Res (List α)) (shape : List Nat) :
    pyReadDirect read shape (some [⟨some 0, some 4, some 2⟩]) = pyReadSubarray read [some 0] [some 4] := rfl

/-- C72, open slices, which h5py accepts, are a `TypeError` in `read_direct`: `source_sel = (slice(None),)`. -/
theorem c72_open_slice_counterexample {α : Type} (read : View → List Nat → Res (List α)) (shape : List Nat) :
    pyReadDirect read shape (some [⟨none, none, none⟩]) = .throw .typeError := rfl

/-! ## Examples -/

/-- the data of the example: 3 rows of 2 -/
def exRegionArray : NpArray U16.T :=
  ⟨[3, 2], [(1 : Fin (256 ^ 2)), (2 : Fin (256 ^ 2)), (3 : Fin (256 ^ 2)), (4 : Fin (256 ^ 2)), (5 : Fin (256 ^ 2)), (6 : Fin (256 ^ 2))]⟩

/-- a region that overlaps six chunks is written and read again, on S3 -/
example : ∃ σ' rts, pyReadSubarray (fun out off => (exDataset true .s3).readSubarray out off fun _ => []) [some 1, some 1]
    [some 4, some 3] = .ok ([3, 2], rts) ∧
    ∀ junk : List U16.T, junk.length = 6 → ∀ is rs, Finished (interleave is (rts, σ')).1 rs → ∀ out, Delivers junk rs out →
      out = exRegionArray.data := by
  have h := exDataset_wf true .s3
  have hr : RegionOk (exDataset true .s3).shape [1, 1] exRegionArray.shape := by decide
  have h0 : Reaches (exDataset true .s3) [] (fun _ => none) := .empty fun _ _ => rfl
  obtain ⟨ts, hts⟩ := (c72_write_iff h (start := pyInts [1, 1]) (by intro x hx; simp [pyInts] at hx; omega)
    (.array exRegionArray) (by intro a e; cases e; rfl) (by intro a e; cases e; decide) fun _ => []).2 ⟨_, [1, 1], rfl, rfl, hr⟩
  have hts' := hts
  rw [write_start _ (region_lt h.small hr) _ rfl] at hts'
  obtain ⟨is, rs, hfin⟩ := exists_finished (ts, fun _ => none)
  obtain ⟨ts2, h1, h2⟩ := c08_write_succeeds h rfl h0 exRegionArray.data (makeView exRegionArray.shape) [1, 1] (fun _ => []) hr
    (makeView_fits _ (by decide))
  rw [hts'] at h1
  cases h1
  have hc : Completes ts is (fun _ => none) (interleave is (ts, fun _ => none)).2 := ⟨rs, hfin, (h2 is rs hfin).2 trivial, rfl⟩
  obtain ⟨rts, h3, h4⟩ := c72_roundtrip h rfl u16_faithful h0 rfl hr (fun _ => []) hts hc
  exact ⟨_, rts, h3, fun junk hj is rs hf => (h4 junk hj is rs hf).2.2⟩

/-- regions of sharded datasets -/
example : ∃ ts, pyReadSubarray (fun out off => exSharded.readSubarray out off fun _ => []) [some 1] [some 4] = .ok ([3], ts) := by
  obtain ⟨ts, h, _⟩ := c72_read_sharded exSharded_wf (c10_read_after_write_sharded_exact exSharded_wf rfl u8_faithful exSharded_reaches)
    (off := [1]) (size := [3]) ⟨rfl, rfl, rfl⟩ (by decide) fun _ => []
  exact ⟨ts, h⟩

/-- negative coordinates are refused -/
example : ∃ e, pyReadSubarray (fun out off => (exDataset true).readSubarray out off fun _ => []) [some (-2), some 0]
    [some 0, some 3] = .throw e := by
  refine (c72_read_iff (exDataset_wf true) (start := [some (-2), some 0]) (stop := [some 0, some 3]) rfl ?_ fun _ => []).2 ?_
  · intro x hx
    simp only [List.mem_cons, Option.some.injEq, List.not_mem_nil, or_false] at hx
    omega
  rintro ⟨off, size, ⟨_, h, _⟩, _⟩
  cases off with
  | nil => cases h
  | cons o off =>
    have : (-2 : Int) = (o : Int) := Option.some.inj (List.cons.inj h).1
    omega

/-- the contracts of numpy are met: a row of a source with three rows of two is assigned to a row of a destination -/
example : NpPicks exRegionArray [1, 0] [1, 2] ⟨[1, 2], [(3 : Fin (256 ^ 2)), (4 : Fin (256 ^ 2))]⟩ := by
  refine ⟨rfl, rfl, fun i hi => ?_⟩
  match i, hi with
  | [0, 0], _ => rfl
  | [0, 1], _ => rfl
  | [a, b], hi =>
    have h1 := hi.1
    have h2 := hi.2.1
    match a, b, h1, h2 with
    | 0, 0, _, _ => rfl
    | 0, 1, _, _ => rfl

example : Selects [⟨some 1, some 4, none⟩, ⟨some 0, some 3, some 1⟩] [1, 0] [3, 3] :=
  ⟨⟨rfl, rfl, rfl⟩, by simp⟩

end Z5.Props
