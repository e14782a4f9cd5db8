import Verif.Spec.PySession
import Verif.Props.Container
import Verif.Props.Rectify

/-!
# C74: the arrays of a container are arrays of numpy

For every history of a container as in C66, of any number of objects in any number of processes.
-/

namespace Z5.Props

open Z5 Spec Prog

variable {E : Elem}
variable {Ty : ElemTypes} {C : Container} {L : Libs} {T : Tree Ty} {os : List (Path × DatasetObj)} {σ : Fs}

theorem prod_region : ∀ ss : List AxisSel, prod (regionShape ss) = prod (resultShape ss)
  | [] => rfl
  | .point _ :: ss => by simp [regionShape, resultShape, prod_region ss]
  | .range _ :: ss => by simp [regionShape, resultShape, prod_region ss]

theorem fsInterleave_none {α : Type} (is : List Nat) (σ : Fs) :
    FsProg.interleave is (([] : List (FsProg α)), σ) = ([], σ) := by
  induction is with
  | nil => rfl
  | cons i is ih => simpa [FsProg.interleave, FsProg.step] using ih

theorem fsFinished_none {α : Type} {rs : List (Res α)} (h : FsProg.Finished ([] : List (FsProg α)) rs) : rs = [] := by
  unfold FsProg.Finished at h
  cases rs with
  | nil => rfl
  | cons r rs => cases h

/-- `ds[index]` of a dataset in a directory -/
theorem getItem_files {d : AnyDataset E} {p : Path} {A : List Nat → E.T} (hA : d.ReadsAs p σ A) {index : List PyItem}
    {ss : List AxisSel} (h : npSelect index d.base.shape = some ss) (ht : TameIndex index d.base.shape)
    (scratch : Nat → List E.T) :
    ∃ r, pyGetItem (fun out off => d.readSubarray out off scratch) d.base.shape index = .ok r ∧ r.result = resultShape ss ∧
      ∀ (junk : List E.T), junk.length = prod r.out →
        ∀ is rs, FsProg.Finished (FsProg.interleave is (d.onFiles p r.tasks, σ)).1 rs →
          (FsProg.interleave is (d.onFiles p r.tasks, σ)).2 = σ ∧ (∃ out, Delivers junk rs out) ∧
          ∀ out, Delivers junk rs out → out.length = prod r.result ∧
            ∀ j x, Picks ss j x → out[ravel r.result j]? = some (A x) := by
  obtain ⟨_, _, h2, rs0, hr⟩ := indexToRoi_ok h ht
  rw [getItem_ok h ht]
  by_cases h0 : 0 ∈ regionShape ss
  · rw [if_pos h0]
    refine ⟨_, rfl, rfl, fun junk hj is rs hf => ?_⟩
    have hn : d.onFiles p ([] : List (Prog (List (Nat × E.T)))) = [] := rfl
    dsimp only at hj hf ⊢
    rw [hn, fsInterleave_none] at hf ⊢
    cases fsFinished_none hf
    refine ⟨rfl, ⟨junk, [], [], rfl, .nil, rfl⟩, ?_⟩
    rintro out ⟨ps, order, h3, h4, h5⟩
    have hps : ps = [] := by
      cases ps with
      | nil => rfl
      | cons p ps => cases h3
    subst hps
    cases h4.eq_nil
    cases h5
    exact ⟨hj.trans (prod_region ss), fun j x hp => absurd hp (no_picks hr h0 j x)⟩
  · rw [if_neg h0]
    obtain ⟨ts, h3, h4⟩ := hA (regionStart ss) (makeView (regionShape ss))
      (List.replicate (prod (regionShape ss)) (A [])) scratch (h2 h0).2 (makeView_fits _ (by simp)) (makeView_noAlias _)
    rw [h3]
    refine ⟨_, rfl, rfl, fun junk hj is rs hf => ?_⟩
    dsimp only at hj hf ⊢
    obtain ⟨ts', h3', h4⟩ := hA (regionStart ss) (makeView (regionShape ss)) junk scratch (h2 h0).2
      (makeView_fits _ (by omega)) (makeView_noAlias _)
    rw [h3] at h3'
    cases h3'
    obtain ⟨h5, h6, h7⟩ := h4 is rs hf
    refine ⟨h5, h6, fun out ho => ?_⟩
    obtain ⟨h8, h9, _⟩ := h7 out ho
    refine ⟨h8.trans (hj.trans (prod_region ss)), fun j x hp => ?_⟩
    obtain ⟨i, hi, hx, hrv, _⟩ := hr.picks hp
    have := h9 i hi
    rw [hx, ← this, ← hrv]
    congr 1
    show ravel (regionShape ss) i = 0 + dot i (cOrderStrides (regionShape ss))
    rw [cOrderStrides_eq, Nat.zero_add]
    rfl

/-- **C74, reading.**  At every point in the life of a container, `ds[index]` of every open object of an array gives what the same
index of numpy gives for the current elements of the array: it has this shape, and each of its elements is the one that is picked,
for every schedule of the threads.  Nothing changes on disk.  (`SameOrFill`: an element that compares equal to the fill value may come
back as the fill value, which makes a difference for `-0.0` only.) -/
theorem c74_getitem (hL : L.Lawful) (h : History C L Ty T os σ) {p : Path} {o : DatasetObj} {x : ArrayItem Ty}
    (ho : (p, o) ∈ os) (hx : T p = some (.array x)) {index : List PyItem} {ss : List AxisSel}
    (hs : npSelect index x.shape = some ss) (ht : TameIndex index x.shape) (scratch : Nat → List (Ty.elem x.dtype).T) :
    ∃ d r, o.typed L (Ty.cast x.dtype) = .ok d ∧ d.base.shape = x.shape ∧
      pyGetItem (fun out off => d.readSubarray out off scratch) d.base.shape index = .ok r ∧ r.result = resultShape ss ∧
      ∀ (junk : List (Ty.elem x.dtype).T), junk.length = prod r.out →
        ∀ is rs, FsProg.Finished (FsProg.interleave is (d.onFiles (C.root ++ p) r.tasks, σ)).1 rs →
          (FsProg.interleave is (d.onFiles (C.root ++ p) r.tasks, σ)).2 = σ ∧ (∃ out, Delivers junk rs out) ∧
          ∀ out, Delivers junk rs out → out.length = prod r.result ∧
            ∀ j i, Picks ss j i → ∃ v, out[ravel r.result j]? = some v ∧
              SameOrFill (Ty.elem x.dtype).ceq x.fill v (x.content i) := by
  obtain ⟨d, A, h1, h2, h3, h4⟩ := c66_read hL h ho hx
  obtain ⟨_, _, hb, rs0, hr⟩ := indexToRoi_ok hs ht
  obtain ⟨r, h5, h6, h7⟩ := getItem_files h3 (by rw [h2]; exact hs) (by rw [h2]; exact ht) scratch
  refine ⟨d, r, h1, h2, h5, h6, fun junk hj is rs hf => ?_⟩
  obtain ⟨h8, h9, h10⟩ := h7 junk hj is rs hf
  refine ⟨h8, h9, fun out hout => ?_⟩
  obtain ⟨h11, h12⟩ := h10 out hout
  refine ⟨h11, fun j i hp => ⟨_, h12 j i hp, h4 i ?_⟩⟩
  have h0 : 0 ∉ regionShape ss := fun h0 => no_picks hr h0 j i hp
  exact region_inBox (hb h0).2 (hr.inRegion hp)

theorem put_same {p : Path} {y : Item Ty} (h : T p = some y) : T.put p y = T := by
  funext q
  unfold Tree.put
  split
  · next e => rw [e, h]
  · rfl

theorem rectify_cases {α : Type} (item : NpArray α) (req : List Nat) :
    (rectifyShape item req = .throw .invalidArgument ∧ item.shape ≠ req) ∨ ∃ r, rectifyShape item req = .ok r := by
  unfold rectifyShape
  split
  · exact .inr ⟨_, rfl⟩
  · next hne =>
    dsimp only
    split
    · exact .inl ⟨rfl, hne⟩
    · split
      · split
        · exact .inr ⟨_, rfl⟩
        · exact .inl ⟨rfl, hne⟩
      · exact .inl ⟨rfl, hne⟩

/-- What `__setitem__` with an array does -/
theorem setArray_run {α β : Type} (write : List β → View → List Nat → Res (List α)) {shape : List Nat}
    {index : List PyItem} {ss : List AxisSel} (h : npSelect index shape = some ss) (ht : TameIndex index shape)
    (item : NpArray β) :
    (∃ rs, RangesOf rs ss shape) ∧
    ((0 ∈ regionShape ss ∧ pySetArray write shape index item = .ok []) ∨
     (0 ∉ regionShape ss ∧ item.shape ≠ regionShape ss ∧ pySetArray write shape index item = .throw .invalidArgument) ∨
     (prod item.shape = prod (regionShape ss) ∧ RegionOk shape (regionStart ss) (regionShape ss) ∧
       pySetArray write shape index item = write item.data (makeView (regionShape ss)) (regionStart ss))) := by
  obtain ⟨begins, h1, h2, hr⟩ := indexToRoi_ok h ht
  refine ⟨hr, ?_⟩
  have e : pySetArray write shape index item = (if (0 : Int) ∈ (regionShape ss).map Int.ofNat then pure [] else do
      let s ← npShape ((regionShape ss).map Int.ofNat)
      let arr ← rectifyShape item s
      let b ← toSizes begins
      write arr.data (makeView arr.shape) b) := by
    unfold pySetArray
    rw [h1]
    rfl
  by_cases h0 : 0 ∈ regionShape ss
  · rw [if_pos (zero_mem_map.2 h0)] at e
    exact .inl ⟨h0, e⟩
  · rw [if_neg (fun h => h0 (zero_mem_map.1 h)), npShape_nat] at e
    have e : pySetArray write shape index item = (do
        let arr ← rectifyShape item (regionShape ss)
        let b ← toSizes begins
        write arr.data (makeView arr.shape) b) := e
    rcases rectify_cases item (regionShape ss) with ⟨hrec, hne⟩ | ⟨r, hrec⟩
    · rw [hrec] at e
      exact .inr (.inl ⟨h0, hne, e⟩)
    · obtain ⟨h3, h4, h5⟩ := rectify_ok hrec
      rw [hrec, (h2 h0).1] at e
      have e : pySetArray write shape index item = write r.data (makeView r.shape) (regionStart ss) := e
      rw [h3, h4] at e
      exact .inr (.inr ⟨h5, (h2 h0).2, e⟩)

/-- What `__setitem__` with a number does -/
theorem setScalar_run {α β : Type} (write : List Nat → List Nat → β → Res (List α)) {shape : List Nat}
    {index : List PyItem} {ss : List AxisSel} (h : npSelect index shape = some ss) (ht : TameIndex index shape) (v : β) :
    (∃ rs, RangesOf rs ss shape) ∧
    ((0 ∈ regionShape ss ∧ pySetScalar write shape index v = .ok []) ∨
     (RegionOk shape (regionStart ss) (regionShape ss) ∧
       pySetScalar write shape index v = write (regionStart ss) (regionShape ss) v)) := by
  obtain ⟨begins, h1, h2, hr⟩ := indexToRoi_ok h ht
  refine ⟨hr, ?_⟩
  have e : pySetScalar write shape index v = (if (0 : Int) ∈ (regionShape ss).map Int.ofNat then pure [] else do
      let b ← toSizes begins
      let s ← toSizes (((regionShape ss).map Int.ofNat).map some)
      write b s v) := by
    unfold pySetScalar
    rw [h1]
    rfl
  by_cases h0 : 0 ∈ regionShape ss
  · rw [if_pos (zero_mem_map.2 h0)] at e
    exact .inl ⟨h0, e⟩
  · rw [if_neg (fun h => h0 (zero_mem_map.1 h)), (h2 h0).1, toSizes_nat] at e
    exact .inr ⟨(h2 h0).2, e⟩

/-- **C74, assigning an array.**  At every point in the life of a container, through every open object of an array that is not
read-only: `ds[index] = item`, where `item` has the shape of the selection up to axes of length one, is a step in the life of the
container after which the array is what numpy's assignment makes of it (or a `ValueError` before anything is done, which is excluded
if `item` has the shape of the region).  Tasks may fail only if the array is sharded. -/
theorem c74_set_array (hL : L.Lawful) (h : History C L Ty T os σ) {p : Path} {o : DatasetObj} {x : ArrayItem Ty}
    (hT : (L.codec (Ty.elem x.dtype).size o.settings).TotalFor (prod x.chunks * (Ty.elem x.dtype).size))
    (ho : (p, o) ∈ os) (hx : T p = some (.array x)) (hm : o.handle.mode ≠ .r)
    {index : List PyItem} {ss : List AxisSel} (hs : npSelect index x.shape = some ss) (ht : TameIndex index x.shape)
    {item : NpArray (Ty.elem x.dtype).T} (hi : item.data.length = prod item.shape)
    (hsh : squeezed item.shape = squeezed (resultShape ss)) (scratch : Nat → List (Ty.elem x.dtype).T) :
    ∃ d, o.typed L (Ty.cast x.dtype) = .ok d ∧ d.base.shape = x.shape ∧
      ((pySetArray (fun buf view off => d.writeSubarray buf view off scratch) d.base.shape index item =
          .throw .invalidArgument ∧ item.shape ≠ regionShape ss) ∨
        ∃ ts, pySetArray (fun buf view off => d.writeSubarray buf view off scratch) d.base.shape index item = .ok ts ∧
          ∀ is rs, FsProg.Finished (FsProg.interleave is (d.onFiles (C.root ++ p) ts, σ)).1 rs →
            ((∀ r ∈ rs, r = .ok ()) → ∃ A', Assigns ss item x.content A' ∧
              History C L Ty (T.put p (.array { x with content := A' })) os
                (FsProg.interleave is (d.onFiles (C.root ++ p) ts, σ)).2) ∧
            ∀ r ∈ rs, r = .ok () ∨ (r = .throw .lengthError ∧ x.shards ≠ none)) := by
  obtain ⟨d, h1, h2, h3⟩ := c66_write hL h hT ho hx hm
  refine ⟨d, h1, h2, ?_⟩
  rw [h2]
  obtain ⟨⟨rs0, hr⟩, hrun⟩ := setArray_run (fun buf view off => d.writeSubarray buf view off scratch) hs ht item
  rcases hrun with ⟨h0, e⟩ | ⟨_, hne, e⟩ | ⟨hp, hreg, e⟩
  · refine .inr ⟨[], e, fun is rs hf => ?_⟩
    have hn : d.onFiles (C.root ++ p) ([] : List (Prog Unit)) = [] := rfl
    rw [hn, fsInterleave_none] at hf ⊢
    cases fsFinished_none hf
    refine ⟨fun _ => ⟨x.content, fun y => ⟨fun j _ hp => absurd hp (no_picks hr h0 j y), fun _ => rfl⟩, ?_⟩,
      fun _ h => by cases h⟩
    rw [put_same hx]
    exact h
  · exact .inl ⟨e, hne⟩
  · obtain ⟨val, hval⟩ := array_values (s := regionShape ss) (hi.trans hp) x.fill
    have hv : (RegionCall.copy item.data (makeView (regionShape ss)) (regionStart ss)).Valid d.base :=
      ⟨by rw [h2]; exact hreg, makeView_fits _ (by rw [hi, hp]; exact Nat.le_refl _)⟩
    obtain ⟨ts, h4, h5⟩ := h3 _ val hv (by
      intro i hin
      show item.data[0 + dot i (cOrderStrides (regionShape ss))]? = _
      rw [cOrderStrides_eq, Nat.zero_add]
      exact hval i hin) scratch
    refine .inr ⟨ts, e.trans h4, fun is rs hf => ?_⟩
    obtain ⟨h6, h7⟩ := h5 is rs hf
    refine ⟨fun hok => ⟨_, fun y => ?_, h6 hok⟩, h7⟩
    have ha := array_replay hr hval x.content y
    refine ⟨fun j q hp hq hjq => ?_, ha.2⟩
    exact (by rw [← ravel_squeezed hq, ← ravel_squeezed (picks_inBox hp), hsh, hjq] :
      item.data[ravel item.shape q]? = item.data[ravel (resultShape ss) j]?).trans (ha.1 j hp)

/-- **C74, assigning a number** (already of the type of the array: C70 says which number that is).  As `c74_set_array`. -/
theorem c74_set_number (hL : L.Lawful) (h : History C L Ty T os σ) {p : Path} {o : DatasetObj} {x : ArrayItem Ty}
    (hT : (L.codec (Ty.elem x.dtype).size o.settings).TotalFor (prod x.chunks * (Ty.elem x.dtype).size))
    (ho : (p, o) ∈ os) (hx : T p = some (.array x)) (hm : o.handle.mode ≠ .r)
    {index : List PyItem} {ss : List AxisSel} (hs : npSelect index x.shape = some ss) (ht : TameIndex index x.shape)
    (v : (Ty.elem x.dtype).T) (scratch : Nat → List (Ty.elem x.dtype).T) :
    ∃ d ts, o.typed L (Ty.cast x.dtype) = .ok d ∧ d.base.shape = x.shape ∧
      pySetScalar (fun off shape v => d.writeScalar off shape v scratch) d.base.shape index v = .ok ts ∧
      ∀ is rs, FsProg.Finished (FsProg.interleave is (d.onFiles (C.root ++ p) ts, σ)).1 rs →
        ((∀ r ∈ rs, r = .ok ()) → ∃ A', Fills ss v x.content A' ∧
          History C L Ty (T.put p (.array { x with content := A' })) os
            (FsProg.interleave is (d.onFiles (C.root ++ p) ts, σ)).2) ∧
        ∀ r ∈ rs, r = .ok () ∨ (r = .throw .lengthError ∧ x.shards ≠ none) := by
  obtain ⟨d, h1, h2, h3⟩ := c66_write hL h hT ho hx hm
  obtain ⟨⟨rs0, hr⟩, hrun⟩ := setScalar_run (fun off shape v => d.writeScalar off shape v scratch) hs ht v
  rcases hrun with ⟨h0, e⟩ | ⟨hreg, e⟩
  · refine ⟨d, [], h1, h2, by rw [h2]; exact e, fun is rs hf => ?_⟩
    have hn : d.onFiles (C.root ++ p) ([] : List (Prog Unit)) = [] := rfl
    rw [hn, fsInterleave_none] at hf ⊢
    cases fsFinished_none hf
    refine ⟨fun _ => ⟨x.content, fun y => ⟨fun ⟨j, hp⟩ => absurd hp (no_picks hr h0 j y), fun _ => rfl⟩, ?_⟩,
      fun _ h => by cases h⟩
    rw [put_same hx]
    exact h
  · have hv : (RegionCall.scalar (regionStart ss) (regionShape ss) v).Valid d.base := ⟨by rw [h2]; exact hreg, trivial⟩
    obtain ⟨ts, h4, h5⟩ := h3 _ (fun _ => v) hv (fun _ _ => rfl) scratch
    refine ⟨d, ts, h1, h2, by rw [h2]; exact e.trans h4, fun is rs hf => ?_⟩
    obtain ⟨h6, h7⟩ := h5 is rs hf
    exact ⟨fun hok => ⟨_, fun y => scalar_replay hr v x.content y, h6 hok⟩, h7⟩

/-! ### Read-only objects -/

/-- no outcome of the program is a success -/
def NeverOk {α : Type} : Prog α → Prop
  | .ret r => ∀ a, r ≠ .ok a
  | .act _ _ c => ∀ v, NeverOk (c v)

theorem neverOk_bind {α β : Type} {g : α → Prog β} (hg : ∀ a, NeverOk (g a)) : ∀ p : Prog α, NeverOk (p >>= g)
  | .ret (.ok a) => hg a
  | .ret (.throw _) => fun _ h => by cases h
  | .ret .ub => fun _ h => by cases h
  | .act _ _ c => fun v => neverOk_bind hg (c v)

theorem neverOk_throw {α : Type} (e : Err) : NeverOk (Prog.throw e : Prog α) := fun _ h => by cases h

theorem step_neverOk {α : Type} {p : Path} {nested : Bool} {c : List (FsProg α) × Fs}
    (h : ∀ t ∈ c.1, ∃ s : Prog α, ReadOnly s ∧ NeverOk s ∧ t = s.onFiles p nested) (i : Nat) :
    ∀ t ∈ (FsProg.step i c).1, ∃ s : Prog α, ReadOnly s ∧ NeverOk s ∧ t = s.onFiles p nested := by
  unfold FsProg.step
  split
  · next f cont hi =>
    obtain ⟨s, hs, hn, he⟩ := h _ (List.mem_of_getElem? hi)
    cases s with
    | ret r => cases he
    | act k g c' =>
      unfold Prog.onFiles at he
      dsimp only at he
      rw [if_neg (by rw [hs.1]; decide)] at he
      cases he
      intro t ht
      rcases List.mem_or_eq_of_mem_set ht with ht | rfl
      · exact h t ht
      · by_cases hf : isForeign (c.2 (chunkFile p k)) = true
        · exact ⟨.ret _, trivial, (fun _ e => by cases e), if_pos hf⟩
        · exact ⟨_, hs.2 _, hn _, if_neg hf⟩
  · exact h

theorem interleave_neverOk {α : Type} {p : Path} {nested : Bool} : ∀ (is : List Nat) {c : List (FsProg α) × Fs},
    (∀ t ∈ c.1, ∃ s : Prog α, ReadOnly s ∧ NeverOk s ∧ t = s.onFiles p nested) →
    ∀ t ∈ (FsProg.interleave is c).1, ∃ s : Prog α, ReadOnly s ∧ NeverOk s ∧ t = s.onFiles p nested
  | [], _, h => h
  | i :: is, _, h => interleave_neverOk is (step_neverOk h i)

theorem start_read_only {d : AnyDataset E} (hw : d.base.canWrite = false) {call : RegionCall E} {scratch : Nat → List E.T}
    {ts : List (Prog Unit)} (hts : d.start call scratch = .ok ts) : ∀ t ∈ ts, ReadOnly t ∧ NeverOk t := by
  cases d with
  | sharded sd =>
    have hw : sd.canWrite = false := hw
    cases call with
    | copy inBuf inView off => exact absurd hts ((c31_readonly_sharded hw (fun _ => none)).2.2 _ _ _ _ _)
    | scalar off shape v => exact absurd hts ((c31_readonly_sharded hw (fun _ => none)).2.2 _ _ _ _ _)
  | plain ds =>
    have hw : ds.canWrite = false := hw
    have hts : call.start ds scratch = .ok ts := by cases call <;> exact hts
    rw [RegionCall.start_eq, Dataset.writeRegion] at hts
    cases hc : ds.requestChunks call.off call.shape with
    | throw e => rw [hc] at hts; simp at hts
    | ub => rw [hc] at hts; simp at hts
    | ok cs =>
      rw [hc, Res.ok_bind] at hts
      cases hts
      intro t ht
      obtain ⟨i, hi, rfl⟩ := List.getElem_of_mem ht
      rw [List.getElem_mapIdx]
      have h1 := readOnly_prepareBuffer ds (RegionCall.request call) call.off call.shape
      rw [Dataset.writeTask]
      refine ⟨ReadOnly.bind (h1 _ _ _ (readOnly_readExisting ds _)) fun a => ?_, neverOk_bind (fun a => ?_) _⟩
      · rw [writeChunk_readonly_handle hw]; trivial
      · rw [writeChunk_readonly_handle hw]; exact neverOk_throw _

theorem typed_read_only {o : DatasetObj} {elem : FillVal → E.T} {d : AnyDataset E} (hm : o.handle.mode = .r)
    (hd : o.typed L elem = .ok d) : d.base.canWrite = false := by
  unfold DatasetObj.typed at hd
  simp only at hd
  split at hd
  · obtain ⟨sd, h1, h2⟩ := Res.bind_eq_ok.1 hd
    have h2 := Res.ok.inj h2
    subst h2
    unfold ShardedDataset.make Dataset.make at h1
    obtain ⟨d, h3, h4⟩ := Res.bind_eq_ok.1 h1
    obtain ⟨c, h5, h6⟩ := Res.bind_eq_ok.1 h4
    obtain ⟨B, h7, h8⟩ := Res.bind_eq_ok.1 h3
    have h6 := Res.ok.inj h6
    have h8 := Res.ok.inj h8
    subst h6 h8
    show o.handle.mode.canWrite = false
    rw [hm]; rfl
  · obtain ⟨ds, h1, h2⟩ := Res.bind_eq_ok.1 hd
    have h2 := Res.ok.inj h2
    subst h2
    unfold Dataset.make at h1
    obtain ⟨B, h3, h4⟩ := Res.bind_eq_ok.1 h1
    have h4 := Res.ok.inj h4
    subst h4
    show o.handle.mode.canWrite = false
    rw [hm]; rfl

theorem setArray_tasks {α β : Type} {write : List β → View → List Nat → Res (List α)} {shape : List Nat}
    {index : List PyItem} {item : NpArray β} {ts : List α} (h : pySetArray write shape index item = .ok ts) :
    ts = [] ∨ ∃ buf view off, write buf view off = .ok ts := by
  unfold pySetArray at h
  obtain ⟨⟨b, s, _⟩, _, h⟩ := Res.bind_eq_ok.1 h
  dsimp only at h
  split at h
  · cases h; exact .inl rfl
  · obtain ⟨_, _, h⟩ := Res.bind_eq_ok.1 h
    obtain ⟨_, _, h⟩ := Res.bind_eq_ok.1 h
    obtain ⟨_, _, h⟩ := Res.bind_eq_ok.1 h
    exact .inr ⟨_, _, _, h⟩

theorem setScalar_tasks {α β : Type} {write : List Nat → List Nat → β → Res (List α)} {shape : List Nat}
    {index : List PyItem} {v : β} {ts : List α} (h : pySetScalar write shape index v = .ok ts) :
    ts = [] ∨ ∃ off s, write off s v = .ok ts := by
  unfold pySetScalar at h
  obtain ⟨⟨b, s, _⟩, _, h⟩ := Res.bind_eq_ok.1 h
  dsimp only at h
  split at h
  · cases h; exact .inl rfl
  · obtain ⟨_, _, h⟩ := Res.bind_eq_ok.1 h
    obtain ⟨_, _, h⟩ := Res.bind_eq_ok.1 h
    exact .inr ⟨_, _, h⟩

/-- **C74, read-only objects.**  No assignment through an object that was opened in mode `r`, of anything to any index, changes
anything on disk, at any point of any schedule, and none of its tasks succeeds. -/
theorem c74_read_only {o : DatasetObj} {elem : FillVal → E.T} {d : AnyDataset E} (hm : o.handle.mode = .r)
    (hd : o.typed L elem = .ok d) (index : List PyItem) (scratch : Nat → List E.T) {ts : List (Prog Unit)}
    (hts : (∃ item : NpArray E.T,
        pySetArray (fun buf view off => d.writeSubarray buf view off scratch) d.base.shape index item = .ok ts) ∨
      ∃ v, pySetScalar (fun off shape v => d.writeScalar off shape v scratch) d.base.shape index v = .ok ts)
    (p : Path) (σ : Fs) (is : List Nat) :
    (FsProg.interleave is (d.onFiles p ts, σ)).2 = σ ∧
    ∀ rs, FsProg.Finished (FsProg.interleave is (d.onFiles p ts, σ)).1 rs → ∀ r ∈ rs, r ≠ .ok () := by
  have hw := typed_read_only hm hd
  have hall : ∀ t ∈ ts, ReadOnly t ∧ NeverOk t := by
    rcases hts with ⟨item, hts⟩ | ⟨v, hts⟩
    · rcases setArray_tasks hts with rfl | ⟨buf, view, off, h⟩
      · exact fun _ h => by cases h
      · exact start_read_only hw (call := .copy buf view off) h
    · rcases setScalar_tasks hts with rfl | ⟨off, s, h⟩
      · exact fun _ h => by cases h
      · exact start_read_only hw (call := .scalar off s v) h
  have h1 : ∀ t ∈ d.onFiles p ts, ∃ s : Prog Unit, ReadOnly s ∧ NeverOk s ∧ t = s.onFiles p d.base.key.nested := by
    intro t ht
    obtain ⟨s, hs, rfl⟩ := List.mem_map.1 ht
    exact ⟨s, (hall s hs).1, (hall s hs).2, rfl⟩
  refine ⟨interleave_readOnly_files (p := p) (nested := d.base.key.nested) is (c := (d.onFiles p ts, σ)) fun t ht => ?_,
    fun rs hf r hr e => ?_⟩
  · obtain ⟨s, h2, _, h3⟩ := h1 t ht
    exact ⟨s, h2, h3⟩
  · have hmem : FsProg.ret r ∈ (FsProg.interleave is (d.onFiles p ts, σ)).1 := by
      unfold FsProg.Finished at hf
      have : some r ∈ List.map FsProg.outcome (FsProg.interleave is (d.onFiles p ts, σ)).1 := by
        rw [hf]; exact List.mem_map.2 ⟨r, hr, rfl⟩
      obtain ⟨t, ht, he⟩ := List.mem_map.1 this
      cases t with
      | ret r' => cases he; exact ht
      | act _ _ => cases he
    obtain ⟨s, h4, h2, h3⟩ := interleave_neverOk is (c := (d.onFiles p ts, σ)) h1 (.ret r) hmem
    cases s with
    | ret r' => cases h3; exact h2 _ e
    | act k f c =>
      unfold Prog.onFiles at h3
      dsimp only at h3
      rw [if_neg (by rw [h4.1]; decide)] at h3
      cases h3

/-- a read-only object and an assignment to two chunks -/
example (v : U8.T) : ∃ (o : DatasetObj) (ts : List (Prog Unit)), o.handle.mode = .r ∧
    o.typed exLibs exElem = .ok (.plain { exDsTyped with canWrite := false }) ∧
    pySetScalar (fun off shape v => (AnyDataset.plain { exDsTyped with canWrite := false }).writeScalar off shape v fun _ => [])
      [5, 4] [.int 1] v = .ok ts ∧ ts.length = 2 :=
  ⟨{ exDs with handle := { exDs.handle with mode := .r } }, _, rfl, rfl, rfl, rfl⟩

/-! ### `create_dataset(data=...)` -/

/-- what `[:]` selects -/
def wholeSel (shape : List Nat) : List AxisSel := shape.map fun n => .range (List.range n)

theorem npExpand_whole {n : Nat} :
    npExpand [.slice none none none] (n + 1) = some (List.replicate (n + 1) (.slice none none none)) := by
  unfold npExpand
  rw [if_neg (by simp)]
  simp [List.replicate_succ]

theorem npSelect_whole {shape : List Nat} (h : shape ≠ []) :
    npSelect [.slice none none none] shape = some (wholeSel shape) := by
  cases shape with
  | nil => exact absurd rfl h
  | cons n ns =>
    unfold npSelect
    rw [List.length_cons, npExpand_whole]
    exact npAxes_full (n :: ns)

theorem tame_whole (shape : List Nat) : TameIndex [.slice none none none] shape := by
  intro items h q hq
  cases shape with
  | nil => simp at hq
  | cons n ns =>
    rw [List.length_cons, npExpand_whole] at h
    cases h
    rw [(List.mem_replicate.1 (List.of_mem_zip hq).1).2]
    exact fun _ h => by cases h

theorem resultShape_whole : ∀ shape : List Nat, resultShape (wholeSel shape) = shape
  | [] => rfl
  | n :: ns => by
    show (List.range n).length :: resultShape (wholeSel ns) = _
    rw [List.length_range, resultShape_whole ns]

theorem regionShape_whole : ∀ shape : List Nat, regionShape (wholeSel shape) = shape
  | [] => rfl
  | n :: ns => by
    show (List.range n).length :: regionShape (wholeSel ns) = _
    rw [List.length_range, regionShape_whole ns]

theorem picks_whole : ∀ {shape i : List Nat}, InBox i shape → Picks (wholeSel shape) i i
  | [], [], _ => .nil
  | [], _ :: _, h => by cases h
  | _ :: _, [], h => by cases h
  | n :: ns, x :: i, h => .range (by simp [h.1]) (picks_whole h.2)

theorem put_add (T : Tree Ty) (p : Path) (y z : Item Ty) : (T.add p y).put p z = T.add p z := by
  funext q
  unfold Tree.put Tree.add
  split <;> rfl

/-- **C74, `create_dataset(data=...)`.**  The array that is created has the elements of `data` once the tasks that write them
have finished, for every schedule of them; the array and the groups that lead to it are all that changes in the tree. -/
theorem c74_create_with_data (hL : L.Lawful) (h : History C L Ty T os σ) {g key : Path} {a : PyCreateArgs} {x : ArrayItem Ty}
    (hg : T.IsGroup g) (hk : key ≠ []) (hn : ∀ n ∈ key, PlainName n) (hc : T.Clear (g ++ key)) (hx : a.Asks C.layout x)
    {m : FileMode} (hm : m ≠ .r) (hfree : T (g ++ key) = none)
    {data : List (Ty.elem x.dtype).T} (hd : data.length = prod x.shape) :
    ∃ o σ', (C.group g m).createDatasetFull ⟨false, key⟩ a σ = (.ok o, σ') ∧ o.handle.mode = m ∧
      ((L.codec (Ty.elem x.dtype).size o.settings).TotalFor (prod x.chunks * (Ty.elem x.dtype).size) →
        ∀ scratch, ∃ d ts, o.typed L (Ty.cast x.dtype) = .ok d ∧ d.base.shape = x.shape ∧
          pySetArray (fun buf view off => d.writeSubarray buf view off scratch) d.base.shape [.slice none none none]
            ⟨x.shape, data⟩ = .ok ts ∧
          ∀ is rs, FsProg.Finished (FsProg.interleave is (d.onFiles (C.root ++ (g ++ key)) ts, σ')).1 rs →
            ((∀ r ∈ rs, r = .ok ()) → ∃ A, (∀ i, InBox i x.shape → data[ravel x.shape i]? = some (A i)) ∧
              History C L Ty (T.add (g ++ key) (.array { x with content := A })) ((g ++ key, o) :: os)
                (FsProg.interleave is (d.onFiles (C.root ++ (g ++ key)) ts, σ')).2) ∧
            ∀ r ∈ rs, r = .ok () ∨ (r = .throw .lengthError ∧ x.shards ≠ none)) := by
  obtain ⟨o, σ', h1, h2, _, _, _, h3⟩ := (c66_create_array hL h hg hk hn hc hx m).2.2 hm hfree
  refine ⟨o, σ', h1, h2, fun hT scratch => ?_⟩
  have hx' : (T.add (g ++ key) (.array x)) (g ++ key) = some (.array x) := if_pos rfl
  obtain ⟨d, h4, h5, h6⟩ := c74_set_array hL h3 (p := g ++ key) (o := o) (x := x) hT (List.mem_cons_self ..) hx'
    (by rw [h2]; exact hm) (npSelect_whole hx.axes.1) (tame_whole _) (item := ⟨x.shape, data⟩) hd
    (by rw [resultShape_whole]) scratch
  rcases h6 with ⟨_, hne⟩ | ⟨ts, h7, h8⟩
  · exact absurd (regionShape_whole x.shape).symm hne
  · refine ⟨d, ts, h4, h5, h7, fun is rs hf => ?_⟩
    obtain ⟨h9, h10⟩ := h8 is rs hf
    refine ⟨fun hok => ?_, h10⟩
    obtain ⟨A, h11, h12⟩ := h9 hok
    refine ⟨A, fun i hi => ?_, ?_⟩
    · exact (h11 i).1 i i (picks_whole hi) hi (by rw [resultShape_whole])
    · rw [put_add] at h12
      exact h12

/-- **C74, `ds[:]`.**  It gives all elements of the array, in C order: for types whose values can be told apart by `==` (all
integers) it is the list of the current elements.  With `c74_create_with_data`: it is the data that the array was created with. -/
theorem c74_read_all (hL : L.Lawful) (h : History C L Ty T os σ) {p : Path} {o : DatasetObj} {x : ArrayItem Ty}
    (ho : (p, o) ∈ os) (hx : T p = some (.array x)) (hsh : x.shape ≠ [])
    (hex : ∀ a b, (Ty.elem x.dtype).ceq a b = true → a = b) {data : List (Ty.elem x.dtype).T}
    (hd : data.length = prod x.shape) (hdata : ∀ i, InBox i x.shape → data[ravel x.shape i]? = some (x.content i))
    (scratch : Nat → List (Ty.elem x.dtype).T) :
    ∃ d r, o.typed L (Ty.cast x.dtype) = .ok d ∧
      pyGetItem (fun out off => d.readSubarray out off scratch) d.base.shape [.slice none none none] = .ok r ∧
      r.result = x.shape ∧
      ∀ (junk : List (Ty.elem x.dtype).T), junk.length = prod r.out →
        ∀ is rs, FsProg.Finished (FsProg.interleave is (d.onFiles (C.root ++ p) r.tasks, σ)).1 rs →
          (FsProg.interleave is (d.onFiles (C.root ++ p) r.tasks, σ)).2 = σ ∧ (∃ out, Delivers junk rs out) ∧
          ∀ out, Delivers junk rs out → out = data := by
  obtain ⟨d, r, h1, h2, h3, h4, h5⟩ := c74_getitem hL h ho hx (npSelect_whole hsh) (tame_whole _) scratch
  rw [resultShape_whole] at h4
  refine ⟨d, r, h1, h3, h4, fun junk hj is rs hf => ?_⟩
  obtain ⟨h6, h7, h8⟩ := h5 junk hj is rs hf
  refine ⟨h6, h7, fun out hout => ?_⟩
  obtain ⟨h9, h10⟩ := h8 out hout
  rw [h4] at h9 h10
  apply List.ext_getElem?
  intro k
  by_cases hkk : k < prod x.shape
  · have hb : InBox (unravel x.shape k) x.shape := unravel_inBox k (allPos_of_prod_pos (by omega))
    obtain ⟨v, h11, h12⟩ := h10 _ _ (picks_whole hb)
    have h13 := hdata _ hb
    rw [ravel_unravel hkk] at h11 h13
    rw [h11, h13, (sameOrFill_iff hex).1 h12]
  · rw [List.getElem?_eq_none (by omega), List.getElem?_eq_none (by omega)]

theorem exU8_exact : ∀ a b : U8.T, U8.ceq a b = true → a = b := fun a b =>
  (@decide_eq_true_iff (a = b) (instDecidableEqFin (256 ^ 1) a b)).1

/-- The theorems apply: an array is created with `data`, a column of it is assigned, the objects are closed, it is opened again for
reading, and `[:]` gives data and column. -/
example (data : List U8.T) (hd : data.length = 20) (v : U8.T) : ∃ (o : DatasetObj) (T : Tree exTypes) (σ : Fs)
    (x : ArrayItem exTypes) (d : AnyDataset (exTypes.elem x.dtype)) (r : PyRead _) (A : List Nat → U8.T),
    History exC exLibs exTypes T [(["g", "d"], o)] σ ∧ o.handle.mode = .r ∧ T ["g", "d"] = some (.array x) ∧
    x = { exItem with content := A } ∧ (∀ i, InBox i [5, 4] → i[1]? ≠ some 2 → data[ravel [5, 4] i]? = some (A i)) ∧
    (∀ n, A [n, 2] = v ∨ 5 ≤ n) ∧
    o.typed exLibs (exTypes.cast x.dtype) = .ok d ∧
    pyGetItem (fun out off => d.readSubarray out off fun _ => []) d.base.shape [.slice none none none] = .ok r ∧
    r.result = [5, 4] ∧
    ∃ is rs out, FsProg.Finished (FsProg.interleave is (d.onFiles ["c.zarr", "g", "d"] r.tasks, σ)).1 rs ∧
      Delivers (List.replicate (prod r.out) x.fill) rs out ∧ out.length = 20 ∧
      ∀ i, InBox i [5, 4] → out[ravel [5, 4] i]? = some (x.content i) := by
  obtain ⟨σ0, h0⟩ := exC_start
  have hclear : ∀ (T : Tree exTypes) (p : Path), T.IsGroup [] → (∀ q ≠ [], T q = none) → T.Clear p := by
    rintro T p ⟨A, hA⟩ hT q _ _ a e
    by_cases hq : q = []
    · rw [hq, hA] at e; cases e
    · rw [hT q hq] at e; cases e
  obtain ⟨o1, σ1, _, m1, h1⟩ := c74_create_with_data (exLibs_lawful _) h0 (g := []) (key := ["g", "d"]) ⟨_, rfl⟩
    (by decide) (by unfold PlainName; decide) (hclear _ _ ⟨_, rfl⟩ fun q hq => if_neg hq) exItem_asked (m := .a) (by decide) rfl
    (data := data) hd
  obtain ⟨d, ts, _, _, _, h2⟩ := h1 (exLibs_total _ _ _) fun _ => []
  obtain ⟨is, rs, hfin⟩ := FsProg.exists_finished (d.onFiles (exC.root ++ ["g", "d"]) ts, σ1)
  obtain ⟨h3, hok⟩ := h2 is rs hfin
  obtain ⟨A, hA, h4⟩ := h3 fun r hr => (hok r hr).elim id fun ⟨_, e⟩ => absurd rfl e
  obtain ⟨d2, ts2, _, _, _, h5⟩ := c74_set_number (exLibs_lawful _) h4 (p := ["g", "d"]) (o := o1) (x := { exItem with content := A })
    (exLibs_total _ _ _) (List.mem_singleton.2 rfl) rfl (by rw [m1]; decide) (index := [.ellipsis, .int 2])
    (ss := [.range [0, 1, 2, 3, 4], .point 2]) (show npSelect [.ellipsis, .int 2] [5, 4] = _ by decide) (by
      intro items hi
      have : npExpand [.ellipsis, .int 2] [5, 4].length = some [.slice none none none, .int 2] := by decide
      rw [show ({ exItem with content := A } : ArrayItem exTypes).shape.length = [5, 4].length from rfl, this] at hi
      cases hi
      intro q hq
      have hq : q ∈ [((.slice none none none : PyItem), 5), (.int 2, 4)] := hq
      rcases List.mem_cons.1 hq with rfl | hq
      · exact fun _ e => by cases e
      · rw [List.mem_singleton.1 hq]; exact (by decide : (2 : Int) ≠ -((4 : Nat) : Int))) v fun _ => []
  obtain ⟨is2, rs2, hfin2⟩ := FsProg.exists_finished (d2.onFiles (exC.root ++ ["g", "d"]) ts2,
    (FsProg.interleave is (d.onFiles (exC.root ++ ["g", "d"]) ts, σ1)).2)
  obtain ⟨h6, hok2⟩ := h5 is2 rs2 hfin2
  obtain ⟨B, hB, h7⟩ := h6 fun r hr => (hok2 r hr).elim id fun ⟨_, e⟩ => absurd rfl e
  have h8 := h7.closed (os' := []) fun _ h => by cases h
  obtain ⟨o, _, m9, _, _, _, h9⟩ := c66_getitem (exLibs_lawful _) h8 (g := []) ⟨_, rfl⟩ ⟨false, ["g", "d"]⟩
    ((Container.inv_of_history (exLibs_lawful _) h8).clear_of_some (by intro e; cases e)) .r
  obtain ⟨d', r, r1, r2, r3, r4⟩ := c74_read_all (exLibs_lawful _) h9 (p := ["g", "d"]) (o := o)
    (x := { exItem with content := B }) (List.mem_singleton.2 rfl) rfl (show [5, 4] ≠ [] by decide) exU8_exact
    (data := (List.range 20).map fun k => B (unravel [5, 4] k)) (by
      rw [List.length_map, List.length_range]; rfl) (by
      intro i hi
      have hi : InBox i [5, 4] := hi
      have hl : ravel [5, 4] i < 20 := ravel_lt hi
      show ((List.range 20).map fun k => B (unravel [5, 4] k))[ravel [5, 4] i]? = some (B i)
      rw [List.getElem?_map, List.getElem?_range hl, Option.map_some, unravel_ravel hi]) fun _ => []
  refine ⟨o, _, _, { exItem with content := B }, d', r, B, h9, m9, rfl, rfl, fun i hi hne => ?_, fun n => ?_, r1, r2, r3, ?_⟩
  · rw [(hB i).2 (by
      rintro ⟨j, hp⟩
      cases hp with
      | range _ hp => cases hp with
        | point hp => cases hp; exact hne rfl)]
    exact hA i hi
  · by_cases hn : n < 5
    · refine .inl ((hB [n, 2]).1 ⟨[n], .range (k := n) (i := n) ?_ (.point .nil)⟩)
      have : ∀ n, n < 5 → [0, 1, 2, 3, 4][n]? = some n := by decide
      exact this n hn
    · exact .inr (by omega)
  · obtain ⟨is3, rs3, hfin3⟩ := FsProg.exists_finished (d'.onFiles (exC.root ++ ["g", "d"]) r.tasks, _)
    obtain ⟨_, ⟨out, ho⟩, hall⟩ := r4 (List.replicate (prod r.out) (exElem (.int 3))) List.length_replicate is3 rs3 hfin3
    refine ⟨is3, rs3, out, hfin3, ho, ?_, fun i hi => ?_⟩
    · rw [hall out ho, List.length_map, List.length_range]
    · have hl : ravel [5, 4] i < 20 := ravel_lt hi
      rw [hall out ho, List.getElem?_map, List.getElem?_range hl, Option.map_some, unravel_ravel hi]

end Z5.Props
