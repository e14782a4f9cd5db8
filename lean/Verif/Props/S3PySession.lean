import Verif.Props.PySession
import Verif.Props.S3Container

/-!
# C87: the arrays of a container on S3 are arrays of numpy

As C74, for every history of a container on S3 as in C79 (and C86).
-/

namespace Z5.Props

open Z5 Spec Prog

variable {E : Elem}
variable {Ty : ElemTypes} {C : S3Container} {L : Libs} {T : Tree Ty} {os : List (Path × S3DatasetObj)} {b : Bucket}

theorem s3Interleave_none {α : Type} {name : Key} (is : List Nat) (b : Bucket) :
    Prog.interleaveS3 name is (([] : List (Prog α)), b) = ([], b) := by
  induction is with
  | nil => rfl
  | cons i is ih => simpa [Prog.interleaveS3, Prog.stepS3] using ih

theorem s3Finished_none {α : Type} {rs : List (Res α)} (h : Prog.Finished ([] : List (Prog α)) rs) : rs = [] := by
  unfold Prog.Finished at h
  cases rs with
  | nil => rfl
  | cons r rs => cases h

/-- `ds[index]` of a dataset on S3 -/
theorem getItem_s3 {d : AnyDataset E} {name : Key} {A : List Nat → E.T} (hA : d.ReadsAsS3 name b A) {index : List PyItem}
    {ss : List AxisSel} (h : npSelect index d.base.shape = some ss) (ht : TameIndex index d.base.shape)
    (scratch : Nat → List E.T) :
    ∃ r, pyGetItem (fun out off => d.readSubarray out off scratch) d.base.shape index = .ok r ∧ r.result = resultShape ss ∧
      ∀ (junk : List E.T), junk.length = prod r.out →
        ∀ is rs, Prog.Finished (Prog.interleaveS3 name is (r.tasks, b)).1 rs →
          (Prog.interleaveS3 name is (r.tasks, b)).2 = b ∧ (∃ out, Delivers junk rs out) ∧
          ∀ out, Delivers junk rs out → out.length = prod r.result ∧
            ∀ j x, Picks ss j x → out[ravel r.result j]? = some (A x) := by
  obtain ⟨_, _, h2, rs0, hr⟩ := indexToRoi_ok h ht
  rw [getItem_ok h ht]
  by_cases h0 : 0 ∈ regionShape ss
  · rw [if_pos h0]
    refine ⟨_, rfl, rfl, fun junk hj is rs hf => ?_⟩
    dsimp only at hj hf ⊢
    rw [s3Interleave_none] at hf ⊢
    cases s3Finished_none hf
    refine ⟨rfl, ⟨junk, [], [], rfl, .nil, rfl⟩, ?_⟩
    rintro out ⟨ps, order, h3, h4, h5⟩
    have hps : ps = [] := by
      cases ps with
      | nil => rfl
      | cons p ps => cases h3
    subst hps
    cases h4.eq_nil
    cases h5
    exact ⟨hj.trans (prod_region ss), fun j x hp => absurd hp (no_picks hr h0 j x)⟩
  · rw [if_neg h0]
    obtain ⟨ts, h3, h4⟩ := hA (regionStart ss) (makeView (regionShape ss))
      (List.replicate (prod (regionShape ss)) (A [])) scratch (h2 h0).2 (makeView_fits _ (by simp)) (makeView_noAlias _)
    rw [h3]
    refine ⟨_, rfl, rfl, fun junk hj is rs hf => ?_⟩
    dsimp only at hj hf ⊢
    obtain ⟨ts', h3', h4⟩ := hA (regionStart ss) (makeView (regionShape ss)) junk scratch (h2 h0).2
      (makeView_fits _ (by omega)) (makeView_noAlias _)
    rw [h3] at h3'
    cases h3'
    obtain ⟨h5, h6, h7⟩ := h4 is rs hf
    refine ⟨h5, h6, fun out ho => ?_⟩
    obtain ⟨h8, h9, _⟩ := h7 out ho
    refine ⟨h8.trans (hj.trans (prod_region ss)), fun j x hp => ?_⟩
    obtain ⟨i, hi, hx, hrv, _⟩ := hr.picks hp
    have := h9 i hi
    rw [hx, ← this, ← hrv]
    congr 1
    show ravel (regionShape ss) i = 0 + dot i (cOrderStrides (regionShape ss))
    rw [cOrderStrides_eq, Nat.zero_add]
    rfl

/-- **C87, reading.**  At every point in the life of a container, `ds[index]` of every open object of an array gives what the same
index of numpy gives for the current elements of the array: it has this shape, and each of its elements is the one that is picked,
for every schedule of the threads.  Nothing changes in the bucket.  (`SameOrFill`: an element that compares equal to the fill value may come
back as the fill value, which makes a difference for `-0.0` only.) -/
theorem c87_getitem (hL : L.Lawful) (h : S3History C L Ty T os b) {p : Path} {o : S3DatasetObj} {x : ArrayItem Ty}
    (ho : (p, o) ∈ os) (hx : T p = some (.array x)) {index : List PyItem} {ss : List AxisSel}
    (hs : npSelect index x.shape = some ss) (ht : TameIndex index x.shape) (scratch : Nat → List (Ty.elem x.dtype).T) :
    ∃ d r, o.typed L (Ty.cast x.dtype) = .ok d ∧ d.base.shape = x.shape ∧
      pyGetItem (fun out off => d.readSubarray out off scratch) d.base.shape index = .ok r ∧ r.result = resultShape ss ∧
      ∀ (junk : List (Ty.elem x.dtype).T), junk.length = prod r.out →
        ∀ is rs, Prog.Finished (Prog.interleaveS3 (C.key p) is (r.tasks, b)).1 rs →
          (Prog.interleaveS3 (C.key p) is (r.tasks, b)).2 = b ∧ (∃ out, Delivers junk rs out) ∧
          ∀ out, Delivers junk rs out → out.length = prod r.result ∧
            ∀ j i, Picks ss j i → ∃ v, out[ravel r.result j]? = some v ∧
              SameOrFill (Ty.elem x.dtype).ceq x.fill v (x.content i) := by
  obtain ⟨d, A, h1, h2, h3, h4⟩ := c79_read hL h ho hx
  obtain ⟨_, _, hb, rs0, hr⟩ := indexToRoi_ok hs ht
  obtain ⟨r, h5, h6, h7⟩ := getItem_s3 h3 (by rw [h2]; exact hs) (by rw [h2]; exact ht) scratch
  refine ⟨d, r, h1, h2, h5, h6, fun junk hj is rs hf => ?_⟩
  obtain ⟨h8, h9, h10⟩ := h7 junk hj is rs hf
  refine ⟨h8, h9, fun out hout => ?_⟩
  obtain ⟨h11, h12⟩ := h10 out hout
  refine ⟨h11, fun j i hp => ⟨_, h12 j i hp, h4 i ?_⟩⟩
  have h0 : 0 ∉ regionShape ss := fun h0 => no_picks hr h0 j i hp
  exact region_inBox (hb h0).2 (hr.inRegion hp)

/-- **C87, assigning an array.**  At every point in the life of a container, through every open object of an array that is not
read-only: `ds[index] = item`, where `item` has the shape of the selection up to axes of length one, is a step in the life of the
container after which the array is what numpy's assignment makes of it (or a `ValueError` before anything is done, which is excluded
if `item` has the shape of the region).  Tasks may fail only if the array is sharded. -/
theorem c87_set_array (hL : L.Lawful) (h : S3History C L Ty T os b) {p : Path} {o : S3DatasetObj} {x : ArrayItem Ty}
    (hT : (L.codec (Ty.elem x.dtype).size o.obj.settings).TotalFor (prod x.chunks * (Ty.elem x.dtype).size))
    (ho : (p, o) ∈ os) (hx : T p = some (.array x)) (hm : o.obj.handle.mode ≠ .r)
    {index : List PyItem} {ss : List AxisSel} (hs : npSelect index x.shape = some ss) (ht : TameIndex index x.shape)
    {item : NpArray (Ty.elem x.dtype).T} (hi : item.data.length = prod item.shape)
    (hsh : squeezed item.shape = squeezed (resultShape ss)) (scratch : Nat → List (Ty.elem x.dtype).T) :
    ∃ d, o.typed L (Ty.cast x.dtype) = .ok d ∧ d.base.shape = x.shape ∧
      ((pySetArray (fun buf view off => d.writeSubarray buf view off scratch) d.base.shape index item =
          .throw .invalidArgument ∧ item.shape ≠ regionShape ss) ∨
        ∃ ts, pySetArray (fun buf view off => d.writeSubarray buf view off scratch) d.base.shape index item = .ok ts ∧
          ∀ is rs, Prog.Finished (Prog.interleaveS3 (C.key p) is (ts, b)).1 rs →
            ((∀ r ∈ rs, r = .ok ()) → ∃ A', Assigns ss item x.content A' ∧
              S3History C L Ty (T.put p (.array { x with content := A' })) os
                (Prog.interleaveS3 (C.key p) is (ts, b)).2) ∧
            ∀ r ∈ rs, r = .ok () ∨ (r = .throw .lengthError ∧ x.shards ≠ none)) := by
  obtain ⟨d, h1, h2, h3⟩ := c79_write hL h hT ho hx hm
  refine ⟨d, h1, h2, ?_⟩
  rw [h2]
  obtain ⟨⟨rs0, hr⟩, hrun⟩ := setArray_run (fun buf view off => d.writeSubarray buf view off scratch) hs ht item
  rcases hrun with ⟨h0, e⟩ | ⟨_, hne, e⟩ | ⟨hp, hreg, e⟩
  · refine .inr ⟨[], e, fun is rs hf => ?_⟩
    rw [s3Interleave_none] at hf ⊢
    cases s3Finished_none hf
    refine ⟨fun _ => ⟨x.content, fun y => ⟨fun j _ hp => absurd hp (no_picks hr h0 j y), fun _ => rfl⟩, ?_⟩,
      fun _ h => by cases h⟩
    rw [put_same hx]
    exact h
  · exact .inl ⟨e, hne⟩
  · obtain ⟨val, hval⟩ := array_values (s := regionShape ss) (hi.trans hp) x.fill
    have hv : (RegionCall.copy item.data (makeView (regionShape ss)) (regionStart ss)).Valid d.base :=
      ⟨by rw [h2]; exact hreg, makeView_fits _ (by rw [hi, hp]; exact Nat.le_refl _)⟩
    obtain ⟨ts, h4, h5⟩ := h3 _ val hv (by
      intro i hin
      show item.data[0 + dot i (cOrderStrides (regionShape ss))]? = _
      rw [cOrderStrides_eq, Nat.zero_add]
      exact hval i hin) scratch
    refine .inr ⟨ts, e.trans h4, fun is rs hf => ?_⟩
    obtain ⟨h6, h7⟩ := h5 is rs hf
    refine ⟨fun hok => ⟨_, fun y => ?_, h6 hok⟩, h7⟩
    have ha := array_replay hr hval x.content y
    refine ⟨fun j q hp hq hjq => ?_, ha.2⟩
    exact (by rw [← ravel_squeezed hq, ← ravel_squeezed (picks_inBox hp), hsh, hjq] :
      item.data[ravel item.shape q]? = item.data[ravel (resultShape ss) j]?).trans (ha.1 j hp)

/-- **C87, assigning a number** (already of the type of the array: C70 says which number that is).  As `c87_set_array`. -/
theorem c87_set_number (hL : L.Lawful) (h : S3History C L Ty T os b) {p : Path} {o : S3DatasetObj} {x : ArrayItem Ty}
    (hT : (L.codec (Ty.elem x.dtype).size o.obj.settings).TotalFor (prod x.chunks * (Ty.elem x.dtype).size))
    (ho : (p, o) ∈ os) (hx : T p = some (.array x)) (hm : o.obj.handle.mode ≠ .r)
    {index : List PyItem} {ss : List AxisSel} (hs : npSelect index x.shape = some ss) (ht : TameIndex index x.shape)
    (v : (Ty.elem x.dtype).T) (scratch : Nat → List (Ty.elem x.dtype).T) :
    ∃ d ts, o.typed L (Ty.cast x.dtype) = .ok d ∧ d.base.shape = x.shape ∧
      pySetScalar (fun off shape v => d.writeScalar off shape v scratch) d.base.shape index v = .ok ts ∧
      ∀ is rs, Prog.Finished (Prog.interleaveS3 (C.key p) is (ts, b)).1 rs →
        ((∀ r ∈ rs, r = .ok ()) → ∃ A', Fills ss v x.content A' ∧
          S3History C L Ty (T.put p (.array { x with content := A' })) os
            (Prog.interleaveS3 (C.key p) is (ts, b)).2) ∧
        ∀ r ∈ rs, r = .ok () ∨ (r = .throw .lengthError ∧ x.shards ≠ none) := by
  obtain ⟨d, h1, h2, h3⟩ := c79_write hL h hT ho hx hm
  obtain ⟨⟨rs0, hr⟩, hrun⟩ := setScalar_run (fun off shape v => d.writeScalar off shape v scratch) hs ht v
  rcases hrun with ⟨h0, e⟩ | ⟨hreg, e⟩
  · refine ⟨d, [], h1, h2, by rw [h2]; exact e, fun is rs hf => ?_⟩
    rw [s3Interleave_none] at hf ⊢
    cases s3Finished_none hf
    refine ⟨fun _ => ⟨x.content, fun y => ⟨fun ⟨j, hp⟩ => absurd hp (no_picks hr h0 j y), fun _ => rfl⟩, ?_⟩,
      fun _ h => by cases h⟩
    rw [put_same hx]
    exact h
  · have hv : (RegionCall.scalar (regionStart ss) (regionShape ss) v).Valid d.base := ⟨by rw [h2]; exact hreg, trivial⟩
    obtain ⟨ts, h4, h5⟩ := h3 _ (fun _ => v) hv (fun _ _ => rfl) scratch
    refine ⟨d, ts, h1, h2, by rw [h2]; exact e.trans h4, fun is rs hf => ?_⟩
    obtain ⟨h6, h7⟩ := h5 is rs hf
    exact ⟨fun hok => ⟨_, fun y => scalar_replay hr v x.content y, h6 hok⟩, h7⟩

/-! ### `ds[:]` -/

/-- **C87, `ds[:]`.**  It gives all elements of the array, in C order: for types whose values can be told apart by `==` (all
integers) it is the list of the current elements.  With `c87_create_with_data`: it is the data that the array was created with. -/
theorem c87_read_all (hL : L.Lawful) (h : S3History C L Ty T os b) {p : Path} {o : S3DatasetObj} {x : ArrayItem Ty}
    (ho : (p, o) ∈ os) (hx : T p = some (.array x)) (hsh : x.shape ≠ [])
    (hex : ∀ a b, (Ty.elem x.dtype).ceq a b = true → a = b) {data : List (Ty.elem x.dtype).T}
    (hd : data.length = prod x.shape) (hdata : ∀ i, InBox i x.shape → data[ravel x.shape i]? = some (x.content i))
    (scratch : Nat → List (Ty.elem x.dtype).T) :
    ∃ d r, o.typed L (Ty.cast x.dtype) = .ok d ∧
      pyGetItem (fun out off => d.readSubarray out off scratch) d.base.shape [.slice none none none] = .ok r ∧
      r.result = x.shape ∧
      ∀ (junk : List (Ty.elem x.dtype).T), junk.length = prod r.out →
        ∀ is rs, Prog.Finished (Prog.interleaveS3 (C.key p) is (r.tasks, b)).1 rs →
          (Prog.interleaveS3 (C.key p) is (r.tasks, b)).2 = b ∧ (∃ out, Delivers junk rs out) ∧
          ∀ out, Delivers junk rs out → out = data := by
  obtain ⟨d, r, h1, h2, h3, h4, h5⟩ := c87_getitem hL h ho hx (npSelect_whole hsh) (tame_whole _) scratch
  rw [resultShape_whole] at h4
  refine ⟨d, r, h1, h3, h4, fun junk hj is rs hf => ?_⟩
  obtain ⟨h6, h7, h8⟩ := h5 junk hj is rs hf
  refine ⟨h6, h7, fun out hout => ?_⟩
  obtain ⟨h9, h10⟩ := h8 out hout
  rw [h4] at h9 h10
  apply List.ext_getElem?
  intro k
  by_cases hkk : k < prod x.shape
  · have hb : InBox (unravel x.shape k) x.shape := unravel_inBox k (allPos_of_prod_pos (by omega))
    obtain ⟨v, h11, h12⟩ := h10 _ _ (picks_whole hb)
    have h13 := hdata _ hb
    rw [ravel_unravel hkk] at h11 h13
    rw [h11, h13, (sameOrFill_iff hex).1 h12]
  · rw [List.getElem?_eq_none (by omega), List.getElem?_eq_none (by omega)]

/-! ### `create_dataset(data=...)` -/

/-- **C87, `create_dataset(data=...)`.**  The array that is created has the elements of `data` once the tasks that write them
have finished, for every schedule of them; the array and the groups that lead to it are all that changes in the tree. -/
theorem c87_create_with_data (hL : L.Lawful) (h : S3History C L Ty T os b) {g key : Path} {a : PyCreateArgs} {x : ArrayItem Ty}
    (hg : T.IsGroup g) (hk : key ≠ []) (hn : ∀ n ∈ key, NodeName n) (hc : T.Clear (g ++ key)) (hx : a.Asks C.layout x)
    (hcx : x.dtype.isComplex = false) {m : FileMode} (hm : m ≠ .r) (hfree : T (g ++ key) = none)
    {data : List (Ty.elem x.dtype).T} (hd : data.length = prod x.shape) :
    ((C.group g m).createDataset key.text a).Ends (9 * key.length + 6) b
      (fun o b' => o.obj.handle.mode = m ∧
        ((L.codec (Ty.elem x.dtype).size o.obj.settings).TotalFor (prod x.chunks * (Ty.elem x.dtype).size) →
          ∀ scratch, ∃ d ts, o.typed L (Ty.cast x.dtype) = .ok d ∧ d.base.shape = x.shape ∧
            pySetArray (fun buf view off => d.writeSubarray buf view off scratch) d.base.shape [.slice none none none]
              ⟨x.shape, data⟩ = .ok ts ∧
            ∀ is rs, Prog.Finished (Prog.interleaveS3 (C.key (g ++ key)) is (ts, b')).1 rs →
              ((∀ r ∈ rs, r = .ok ()) → ∃ A, (∀ i, InBox i x.shape → data[ravel x.shape i]? = some (A i)) ∧
                S3History C L Ty (T.add (g ++ key) (.array { x with content := A })) ((g ++ key, o) :: os)
                  (Prog.interleaveS3 (C.key (g ++ key)) is (ts, b')).2) ∧
              ∀ r ∈ rs, r = .ok () ∨ (r = .throw .lengthError ∧ x.shards ≠ none)))
      (fun b' => ∃ T', S3History C L Ty T' os b' ∧ ∀ q, T' q = T q ∨ T' q = T.add (g ++ key) (.array x) q) := by
  refine ((c79_create_array hL h hg hk hn hc hx hcx m).2.2 hm hfree).mono (Nat.le_refl _) ?_ fun _ h => h
  rintro o b' ⟨h2, _, _, _, h3⟩
  refine ⟨h2, fun hT scratch => ?_⟩
  have hx' : (T.add (g ++ key) (.array x)) (g ++ key) = some (.array x) := if_pos rfl
  obtain ⟨d, h4, h5, h6⟩ := c87_set_array hL h3 (p := g ++ key) (o := o) (x := x) hT (List.mem_cons_self ..) hx'
    (by rw [h2]; exact hm) (npSelect_whole hx.axes.1) (tame_whole _) (item := ⟨x.shape, data⟩) hd
    (by rw [resultShape_whole]) scratch
  rcases h6 with ⟨_, hne⟩ | ⟨ts, h7, h8⟩
  · exact absurd (regionShape_whole x.shape).symm hne
  · refine ⟨d, ts, h4, h5, h7, fun is rs hf => ?_⟩
    obtain ⟨h9, h10⟩ := h8 is rs hf
    refine ⟨fun hok => ?_, h10⟩
    obtain ⟨A, h11, h12⟩ := h9 hok
    refine ⟨A, fun i hi => ?_, ?_⟩
    · exact (h11 i).1 i i (picks_whole hi) hi (by rw [resultShape_whole])
    · rw [put_add] at h12
      exact h12

/-! ### Read-only objects -/

theorem neverOk_step {α : Type} {c : List (Prog α) × Store} (h : ∀ t ∈ c.1, NeverOk t) (i : Nat) :
    ∀ t ∈ (Prog.step i c).1, NeverOk t := by
  unfold Prog.step
  split
  · next k f cont hi =>
    intro t ht
    rcases List.mem_or_eq_of_mem_set ht with ht | rfl
    · exact h t ht
    · exact h _ (List.mem_of_getElem? hi) _
  · exact h

theorem neverOk_interleave {α : Type} : ∀ (is : List Nat) {c : List (Prog α) × Store}, (∀ t ∈ c.1, NeverOk t) →
    ∀ t ∈ (Prog.interleave is c).1, NeverOk t
  | [], _, h => h
  | i :: is, _, h => neverOk_interleave is (neverOk_step h i)

theorem s3_typed_read_only {o : DatasetObj} {elem : FillVal → E.T} {d : AnyDataset E} (hm : o.handle.mode = .r)
    (hd : o.typed L elem .s3 = .ok d) : d.base.canWrite = false := by
  unfold DatasetObj.typed at hd
  simp only at hd
  split at hd
  · obtain ⟨sd, h1, h2⟩ := Res.bind_eq_ok.1 hd
    have h2 := Res.ok.inj h2
    subst h2
    unfold ShardedDataset.make Dataset.make at h1
    obtain ⟨d, h3, h4⟩ := Res.bind_eq_ok.1 h1
    obtain ⟨c, h5, h6⟩ := Res.bind_eq_ok.1 h4
    obtain ⟨B, h7, h8⟩ := Res.bind_eq_ok.1 h3
    have h6 := Res.ok.inj h6
    have h8 := Res.ok.inj h8
    subst h6 h8
    show o.handle.mode.canWrite = false
    rw [hm]; rfl
  · obtain ⟨ds, h1, h2⟩ := Res.bind_eq_ok.1 hd
    have h2 := Res.ok.inj h2
    subst h2
    unfold Dataset.make at h1
    obtain ⟨B, h3, h4⟩ := Res.bind_eq_ok.1 h1
    have h4 := Res.ok.inj h4
    subst h4
    show o.handle.mode.canWrite = false
    rw [hm]; rfl

/-- **C87, read-only objects.**  No assignment through an object that was opened in mode `r`, of anything to any index, changes
anything in the bucket, at any point of any schedule, and none of its tasks succeeds. -/
theorem c87_read_only {o : S3DatasetObj} {elem : FillVal → E.T} {d : AnyDataset E} (hm : o.obj.handle.mode = .r)
    (hd : o.typed L elem = .ok d) (index : List PyItem) (scratch : Nat → List E.T) {ts : List (Prog Unit)}
    (hts : (∃ item : NpArray E.T,
        pySetArray (fun buf view off => d.writeSubarray buf view off scratch) d.base.shape index item = .ok ts) ∨
      ∃ v, pySetScalar (fun off shape v => d.writeScalar off shape v scratch) d.base.shape index v = .ok ts)
    (name : Key) (b : Bucket) (is : List Nat) :
    (Prog.interleaveS3 name is (ts, b)).2 = b ∧
    ∀ rs, Prog.Finished (Prog.interleaveS3 name is (ts, b)).1 rs → ∀ r ∈ rs, r ≠ .ok () := by
  have hw := s3_typed_read_only hm hd
  have hall : ∀ t ∈ ts, ReadOnly t ∧ NeverOk t := by
    rcases hts with ⟨item, hts⟩ | ⟨v, hts⟩
    · rcases setArray_tasks hts with rfl | ⟨buf, view, off, h⟩
      · exact fun _ h => by cases h
      · exact start_read_only hw (call := .copy buf view off) h
    · rcases setScalar_tasks hts with rfl | ⟨off, s, h⟩
      · exact fun _ h => by cases h
      · exact start_read_only hw (call := .scalar off s v) h
  refine ⟨interleaveS3_readOnly is (c := (ts, b)) fun s hs => (hall s hs).1, fun rs hf r hr e => ?_⟩
  rw [(interleaveS3_eq name is ts b).1] at hf
  have hmem : Prog.ret r ∈ (Prog.interleave is (ts, b.chunks name)).1 := by
    unfold Prog.Finished at hf
    have : some r ∈ List.map Prog.outcome (Prog.interleave is (ts, b.chunks name)).1 := by
      rw [hf]; exact List.mem_map.2 ⟨r, hr, rfl⟩
    obtain ⟨t, ht, he⟩ := List.mem_map.1 this
    cases t with
    | ret r' => cases he; exact ht
    | act _ _ _ => cases he
  exact neverOk_interleave is (c := (ts, b.chunks name)) (fun t ht => (hall t ht).2) _ hmem () e

/-- a read-only object and an assignment to two chunks -/
example (v : U8.T) : ∃ (o : S3DatasetObj) (d : AnyDataset U8) (ts : List (Prog Unit)), o.obj.handle.mode = .r ∧
    o.typed exLibs exElem = .ok d ∧
    pySetScalar (fun off shape v => d.writeScalar off shape v fun _ => []) [5, 4] [.int 1] v = .ok ts ∧ ts.length = 2 :=
  ⟨⟨"c/g/d".toList, { exDs with handle := { exDs.handle with mode := .r } }⟩, _, _, rfl, rfl, rfl, rfl⟩

/-- The theorems apply: an array is created with `data`, a column of it is assigned, the objects are closed, it is opened again for
reading, and `[:]` gives data and column. -/
example (data : List U8.T) (hd : data.length = 20) (v : U8.T) : ∃ (o : S3DatasetObj) (T : Tree exTypes) (b : Bucket)
    (x : ArrayItem exTypes) (d : AnyDataset (exTypes.elem x.dtype)) (r : PyRead _) (A : List Nat → U8.T),
    S3History exS3C exLibs exTypes T [(["g", "d"], o)] b ∧ o.obj.handle.mode = .r ∧ T ["g", "d"] = some (.array x) ∧
    x = { exItem with content := A } ∧ (∀ i, InBox i [5, 4] → i[1]? ≠ some 2 → data[ravel [5, 4] i]? = some (A i)) ∧
    (∀ n, A [n, 2] = v ∨ 5 ≤ n) ∧
    o.typed exLibs (exTypes.cast x.dtype) = .ok d ∧
    pyGetItem (fun out off => d.readSubarray out off fun _ => []) d.base.shape [.slice none none none] = .ok r ∧
    r.result = [5, 4] ∧
    ∃ is rs out, Prog.Finished (Prog.interleaveS3 "c/g/d".toList is (r.tasks, b)).1 rs ∧
      Delivers (List.replicate (prod r.out) x.fill) rs out ∧ out.length = 20 ∧
      ∀ i, InBox i [5, 4] → out[ravel [5, 4] i]? = some (x.content i) := by
  have h0 := exS3Start_history
  have hgd : ∀ n ∈ ["g", "d"], NodeName n := by unfold NodeName PlainName; decide
  have hclear : ∀ (T : Tree exTypes) (p : Path), T.IsGroup [] → (∀ q ≠ [], T q = none) → T.Clear p := by
    rintro T p ⟨A, hA⟩ hT q _ _ a e
    by_cases hq : q = []
    · rw [hq, hA] at e; cases e
    · rw [hT q hq] at e; cases e
  have c1 := c87_create_with_data (exLibs_lawful _) h0 (g := []) (key := ["g", "d"]) ⟨_, rfl⟩
    (by decide) hgd (hclear _ _ ⟨_, rfl⟩ fun q hq => if_neg hq) exS3Item_asked (by decide) (m := .a) (by decide) rfl
    (data := data) hd
  obtain ⟨o1, b1, m1, h1⟩ : ∃ o1 b1, _ := by
    rcases c1 (List.replicate 24 {}) (exS3_calm 24) with ⟨o1, es', b1, _, _, _, h⟩ | ⟨_, _, _, _, e, he, k, hk⟩ | ⟨h, _⟩
    · exact ⟨o1, b1, h⟩
    · rw [List.eq_of_mem_replicate he] at hk
      exact absurd rfl hk
    · simp at h
  obtain ⟨d, ts, _, _, _, h2⟩ := h1 (exLibs_total _ _ _) fun _ => []
  obtain ⟨is, rs, hfin⟩ := Prog.exists_finished (ts, b1.chunks (exS3C.key ["g", "d"]))
  rw [← (interleaveS3_eq _ is ts b1).1] at hfin
  obtain ⟨h3, hok⟩ := h2 is rs hfin
  obtain ⟨A, hA, h4⟩ := h3 fun r hr => (hok r hr).elim id fun ⟨_, e⟩ => absurd rfl e
  generalize (Prog.interleaveS3 (exS3C.key ([] ++ ["g", "d"])) is (ts, b1)).2 = b2 at h4
  obtain ⟨d2, ts2, _, _, _, h5⟩ := c87_set_number (exLibs_lawful _) h4 (p := ["g", "d"]) (o := o1) (x := { exItem with content := A })
    (exLibs_total _ _ _) (List.mem_singleton.2 rfl) rfl (by rw [m1]; decide) (index := [.ellipsis, .int 2])
    (ss := [.range [0, 1, 2, 3, 4], .point 2]) (show npSelect [.ellipsis, .int 2] [5, 4] = _ by decide) (by
      intro items hi
      have : npExpand [.ellipsis, .int 2] [5, 4].length = some [.slice none none none, .int 2] := by decide
      rw [show ({ exItem with content := A } : ArrayItem exTypes).shape.length = [5, 4].length from rfl, this] at hi
      cases hi
      intro q hq
      have hq : q ∈ [((.slice none none none : PyItem), 5), (.int 2, 4)] := hq
      rcases List.mem_cons.1 hq with rfl | hq
      · exact fun _ e => by cases e
      · rw [List.mem_singleton.1 hq]; exact (by decide : (2 : Int) ≠ -((4 : Nat) : Int))) v fun _ => []
  obtain ⟨is2, rs2, hfin2⟩ := Prog.exists_finished (ts2, b2.chunks (exS3C.key ["g", "d"]))
  rw [← (interleaveS3_eq _ is2 ts2 b2).1] at hfin2
  obtain ⟨h6, hok2⟩ := h5 is2 rs2 hfin2
  obtain ⟨B, hB, h7⟩ := h6 fun r hr => (hok2 r hr).elim id fun ⟨_, e⟩ => absurd rfl e
  generalize (Prog.interleaveS3 (exS3C.key ["g", "d"]) is2 (ts2, b2)).2 = b3 at h7
  have h8 := h7.closed (os' := []) fun _ h => by cases h
  obtain ⟨o, _, m9, _, _, _, h9⟩ := c79_getitem (exLibs_lawful _) h8 (g := []) (p := ["g", "d"]) (n := "g/d".toList) ⟨_, rfl⟩
    ⟨by decide, hgd, 0, by decide +kernel⟩
    ((S3Container.inv_of_history (exLibs_lawful _) h8).clear_of_some (by intro e; cases e)) .r
  obtain ⟨d', r, r1, r2, r3, r4⟩ := c87_read_all (exLibs_lawful _) h9 (p := ["g", "d"]) (o := o)
    (x := { exItem with content := B }) (List.mem_singleton.2 rfl) rfl (show [5, 4] ≠ [] by decide) exU8_exact
    (data := (List.range 20).map fun k => B (unravel [5, 4] k)) (by
      rw [List.length_map, List.length_range]; rfl) (by
      intro i hi
      have hi : InBox i [5, 4] := hi
      have hl : ravel [5, 4] i < 20 := ravel_lt hi
      show ((List.range 20).map fun k => B (unravel [5, 4] k))[ravel [5, 4] i]? = some (B i)
      rw [List.getElem?_map, List.getElem?_range hl, Option.map_some, unravel_ravel hi]) fun _ => []
  refine ⟨o, _, _, { exItem with content := B }, d', r, B, h9, m9, rfl, rfl, fun i hi hne => ?_, fun n => ?_, r1, r2, r3, ?_⟩
  · rw [(hB i).2 (by
      rintro ⟨j, hp⟩
      cases hp with
      | range _ hp => cases hp with
        | point hp => cases hp; exact hne rfl)]
    exact hA i hi
  · by_cases hn : n < 5
    · refine .inl ((hB [n, 2]).1 ⟨[n], .range (k := n) (i := n) ?_ (.point .nil)⟩)
      have : ∀ n, n < 5 → [0, 1, 2, 3, 4][n]? = some n := by decide
      exact this n hn
    · exact .inr (by omega)
  · obtain ⟨is3, rs3, hfin3⟩ := Prog.exists_finished (r.tasks, b3.chunks (exS3C.key ["g", "d"]))
    rw [← (interleaveS3_eq _ is3 r.tasks b3).1] at hfin3
    obtain ⟨_, ⟨out, ho⟩, hall⟩ := r4 (List.replicate (prod r.out) (exElem (.int 3))) List.length_replicate is3 rs3 hfin3
    refine ⟨is3, rs3, out, hfin3, ho, ?_, fun i hi => ?_⟩
    · rw [hall out ho, List.length_map, List.length_range]
    · have hl : ravel [5, 4] i < 20 := ravel_lt hi
      rw [hall out ho, List.getElem?_map, List.getElem?_range hl, Option.map_some, unravel_ravel hi]

end Z5.Props
