import Verif.Proofs.Decode
import Verif.Proofs.Geometry
import Verif.Proofs.Prog
import Verif.Spec.History
import Verif.Props.Copy
import Verif.Model.Access

/-!
# What one chunk task does to the chunk's file
-/

namespace Z5
open Spec Prog

variable {E : Elem}


/-- `x` is one of the elements stored in the file of chunk `c`: for zarr these are all elements of the
    nominal box of the chunk, including positions outside the array (padding) -/
def InStored (ds : Dataset E) (c x : List Nat) : Prop :=
  InRegion x (mulV c ds.chunkShape) (ds.stored c)

/-- the decoded chunk buffer (or its absence) represents `A` on chunk `c` -/
def Repr (ds : Dataset E) (c : List Nat) (old : Option (List E.T)) (A : List Nat → E.T) : Prop :=
  match old with
  | none => ∀ x, InStored ds c x → A x = ds.fill
  | some content => content.length = prod (ds.stored c) ∧
      ∀ x, InStored ds c x →
        content[ravel (ds.stored c) (subV x (mulV c ds.chunkShape))]? = some (A x)

/-- the stored bytes (or their absence) of chunk `c` represent `A` on the chunk -/
def BlobOk (ds : Dataset E) (c : List Nat) (v : Option Bytes) (A : List Nat → E.T) : Prop :=
  match v with
  | none => Repr ds c none A
  | some b => ∃ content, Decodes ds c b content ∧ Repr ds c (some content) A

/-- what a `fillRequest` must do: set the addressed part of the chunk buffer to the values of the
    request and nothing else -/
def FillSpec (fr : FillRequest E) (rs : List Nat) (val : List Nat → E.T) : Prop :=
  ∀ (buf : List E.T) (st bib bir sir : List Nat), prod st ≤ buf.length → Inside st bib sir →
    Inside rs bir sir →
    ∃ buf', fr buf (subview (makeView st) bib sir) bir sir = .ok buf' ∧ buf'.length = buf.length ∧
      (∀ i, InBox i sir → buf'[ravel st (addV bib i)]? = some (val (addV bir i))) ∧
      ∀ p, (∀ i, InBox i sir → ravel st (addV bib i) ≠ p) → buf'[p]? = buf[p]?

theorem subview_addr {st bib sir i : List Nat} (h : Inside st bib sir) (hi : InBox i sir) :
    (subview (makeView st) bib sir).base + dot i (subview (makeView st) bib sir).strides =
      ravel st (addV bib i) := by
  have hl := All₃.length_eq h
  have hil := hi.length_eq
  simp only [subview, makeView, cOrderStrides_eq, Nat.zero_add, ravel]
  rw [dot_addV (by omega)]

theorem copyRequest_spec (inBuf : List E.T) (inView : View) (val : List Nat → E.T)
    (hf : Props.FitsIn inView inBuf.length)
    (hval : ∀ i, InBox i inView.shape → inBuf[inView.base + dot i inView.strides]? = some (val i)) :
    FillSpec (copyRequest inBuf inView) inView.shape val := by
  intro buf st bib bir sir hlen hin hir
  obtain ⟨hd, hna⟩ := Props.c06_subview_ok hlen hin
  have hl := All₃.length_eq hir
  have haddr : ∀ i, InBox i sir → (subview inView bir sir).base + dot i (subview inView bir sir).strides
      = inView.base + dot (addV bir i) inView.strides := by
    intro i hi
    have hil := hi.length_eq
    simp only [subview]
    rw [dot_addV (by omega)]; omega
  have hs : Props.FitsIn (subview inView bir sir) inBuf.length := by
    refine ⟨?_, ?_⟩
    · have h1 := hf.1
      show inView.strides.length = sir.length
      omega
    · intro i hi
      have hi' : InBox i sir := hi
      rw [haddr i hi']
      exact hf.2 _ (hir.inBox hi')
  obtain ⟨buf', h1, h2, h3, h4⟩ := Props.c06_strided_copy inBuf buf (subview inView bir sir)
    (subview (makeView st) bib sir) rfl hs hd hna
  refine ⟨buf', h1, h2, ?_, ?_⟩
  · intro i hi
    have := h3 i hi
    rw [subview_addr hin hi, haddr i hi, hval _ (hir.inBox hi)] at this
    exact this
  · intro p hp
    apply h4
    intro i hi
    rw [subview_addr hin hi]
    exact hp i hi

theorem scalarRequest_spec (v : E.T) (rs : List Nat) :
    FillSpec (scalarRequest v : FillRequest E) rs (fun _ => v) := by
  intro buf st bib bir sir hlen hin hir
  obtain ⟨hd, _⟩ := Props.c06_subview_ok hlen hin
  obtain ⟨buf', h1, h2, h3, h4⟩ := Props.c07_fill buf (subview (makeView st) bib sir) v hd
  refine ⟨buf', h1, h2, ?_, ?_⟩
  · intro i hi
    have := h3 i hi
    rwa [subview_addr hin hi] at this
  · intro p hp
    apply h4
    intro i hi
    rw [subview_addr hin hi]
    exact hp i hi

/-- request `rb`, `rs` touches chunk `c` -/
def Touches (ds : Dataset E) (rb rs c : List Nat) : Prop :=
  ∃ x, InRegion x rb rs ∧ InChunk ds.shape ds.chunkShape c x

variable {ds : Dataset E}

theorem Touches.inGrid {rb rs c : List Nat} (h : Touches ds rb rs c) :
    InGrid ds.shape ds.chunkShape c := by
  obtain ⟨x, _, hx⟩ := h
  exact inGrid_of_inChunk hx

theorem Dataset.WF.overlap (h : ds.WF) {rb rs c : List Nat} (hr : RegionOk ds.shape rb rs)
    (hc : Touches ds rb rs c) :
    ∃ o, ds.chunking.getCoordinatesInRoi c rb rs = .ok o ∧
      OverlapFacts (mulV c ds.chunkShape) (extV ds.shape ds.chunkShape c) rb rs o := by
  refine ⟨_, ?_, overlap_facts (chunk_overlaps h.small hr hc)⟩
  rw [h.chunking_eq]
  exact getCoordinatesInRoi_eq h.dims h.small hr hc

theorem Dataset.WF.getChunkShape_eq (h : ds.WF) {c : List Nat} (hc : InGrid ds.shape ds.chunkShape c) :
    ds.getChunkShape c = .ok (extV ds.shape ds.chunkShape c) := by
  rw [Dataset.getChunkShape, h.handle_eq hc]; rfl

theorem ext_le_stored {c : List Nat} (hc : InGrid ds.shape ds.chunkShape c) :
    All₂ (· ≤ ·) (extV ds.shape ds.chunkShape c) (ds.stored c) := by
  unfold Dataset.stored
  split
  · exact extV_le hc
  · have : ∀ l : List Nat, All₂ (· ≤ ·) l l := by
      intro l
      induction l with
      | nil => trivial
      | cons a l ih => exact ⟨Nat.le_refl a, ih⟩
    exact this _

theorem InStored.of_inChunk {c x : List Nat} (hx : InChunk ds.shape ds.chunkShape c x) :
    InStored ds c x :=
  region_mono ((inChunk_iff_region (inGrid_of_inChunk hx)).1 hx) (ext_le_stored (inGrid_of_inChunk hx))

theorem stored_le_chunk {c : List Nat} (hc : InGrid ds.shape ds.chunkShape c) :
    All₂ (· ≤ ·) (ds.stored c) ds.chunkShape := by
  unfold Dataset.stored
  split
  · have : ∀ l : List Nat, All₂ (· ≤ ·) l l := by
      intro l
      induction l with
      | nil => trivial
      | cons a l ih => exact ⟨Nat.le_refl a, ih⟩
    exact this _
  · exact extV_le hc

theorem InStored.inChunk {c x : List Nat} (hc : InGrid ds.shape ds.chunkShape c)
    (hx : InStored ds c x) (hb : InBox x ds.shape) : InChunk ds.shape ds.chunkShape c x :=
  inChunk_of_box (region_mono hx (stored_le_chunk hc)) (dims_length hc).1 hb

theorem InStored.div (h : ds.WF) {c x : List Nat} (hc : InGrid ds.shape ds.chunkShape c)
    (hx : InStored ds c x) : divV x ds.chunkShape = c :=
  div_of_box (allPos_of_axes h.dims.axes) (region_mono hx (stored_le_chunk hc)) (dims_length hc).1

/-- The shape and size chosen by the access code: the stored shape. -/
theorem Dataset.WF.shape_choice (h : ds.WF) {c : List Nat} (hc : InGrid ds.shape ds.chunkShape c)
    {α : Type} (a b : α) :
    (if accumulateMul (extV ds.shape ds.chunkShape c) ≠ ds.chunkSize ∧ ds.isZarr = true
      then (a, ds.chunkShape, ds.chunkSize)
      else (b, extV ds.shape ds.chunkShape c, accumulateMul (extV ds.shape ds.chunkShape c))) =
    (if accumulateMul (extV ds.shape ds.chunkShape c) ≠ ds.chunkSize ∧ ds.isZarr = true then a else b,
      ds.stored c, prod (ds.stored c)) := by
  have e1 := accumulateMul_eq (prod_reverse_ext_lt h hc)
  rw [e1, h.chunkSize_eq]
  unfold Dataset.stored
  by_cases hz : ds.isZarr = true
  · simp only [hz, if_true, and_true]
    by_cases he : prod (extV ds.shape ds.chunkShape c) = prod ds.chunkShape
    · rw [if_neg (by simpa using he), if_neg (by simpa using he),
        eq_of_prod_eq (extV_le hc) (extV_pos h.dims.axes hc) he]
    · rw [if_pos he, if_pos he]
  · rw [if_neg (fun hh => hz hh.2), if_neg (fun hh => hz hh.2), if_neg hz]

theorem size_choice_complete (h : ds.WF) {c : List Nat} (hc : InGrid ds.shape ds.chunkShape c)
    {b : Bool}
    (hcomp : (if accumulateMul (extV ds.shape ds.chunkShape c) ≠ ds.chunkSize ∧ ds.isZarr = true
      then false else b) = true) :
    b = true ∧ ds.stored c = extV ds.shape ds.chunkShape c := by
  have e1 := accumulateMul_eq (prod_reverse_ext_lt h hc)
  rw [e1, h.chunkSize_eq] at hcomp
  unfold Dataset.stored
  by_cases hz : ds.isZarr = true
  · simp only [hz, and_true] at hcomp
    by_cases he : prod (extV ds.shape ds.chunkShape c) = prod ds.chunkShape
    · rw [if_neg (by simpa using he)] at hcomp
      rw [if_pos hz]
      exact ⟨hcomp, (eq_of_prod_eq (extV_le hc) (extV_pos h.dims.axes hc) he).symm⟩
    · rw [if_pos he] at hcomp; simp at hcomp
  · rw [if_neg (fun hh => hz hh.2)] at hcomp
    rw [if_neg hz]
    exact ⟨hcomp, rfl⟩

theorem length_resized (scratch : List E.T) (n : Nat) :
    (if n ≠ scratch.length then resize E scratch n else scratch).length = n := by
  split
  · exact length_resize ..
  · next h => simpa using (Eq.symm (by simpa using h : n = scratch.length))

/-- Filling a buffer that represents `A` (or has arbitrary content if the request covers the chunk). -/
theorem fill_repr (h : ds.WF) {rb rs c : List Nat} (hr : RegionOk ds.shape rb rs)
    (hc : Touches ds rb rs c) {fr : FillRequest E} {val : List Nat → E.T} (hfr : FillSpec fr rs val)
    {o : RoiOverlap}
    (ho : OverlapFacts (mulV c ds.chunkShape) (extV ds.shape ds.chunkShape c) rb rs o)
    {A : List Nat → E.T} {buf : List E.T} (hl : buf.length = prod (ds.stored c))
    (hA : ∀ x, InStored ds c x → ¬ InRegion x rb rs →
      buf[ravel (ds.stored c) (subV x (mulV c ds.chunkShape))]? = some (A x)) :
    ∃ buf', fr buf (subview (makeView (ds.stored c)) o.beginInBlock o.shapeInRoi) o.beginInRoi
        o.shapeInRoi = .ok buf' ∧ Repr ds c (some buf') (override A rb rs val) := by
  have hg := hc.inGrid
  have hin : Inside (ds.stored c) o.beginInBlock o.shapeInRoi := ho.inBlock.mono (ext_le_stored hg)
  obtain ⟨buf', h1, h2, h3, h4⟩ := hfr buf (ds.stored c) o.beginInBlock o.beginInRoi o.shapeInRoi
    (by omega) hin ho.inRoi
  refine ⟨buf', h1, by omega, ?_⟩
  intro x hx
  have hxs := region_sub hx
  unfold override
  by_cases hreg : InRegion x rb rs
  · rw [if_pos hreg]
    have hxr := (inChunk_iff_region hg).1 (hx.inChunk hg (region_inBox hr hreg))
    obtain ⟨i, hi, e1, e2⟩ := ho.elements x hxr hreg
    have hb1 := ho.inRoi.inBox hi
    have hb2 := ho.inBlock.inBox hi
    have hlr := hb1.length_eq
    have hlb := hb2.length_eq
    have := h3 i hi
    rw [show subV x (mulV c ds.chunkShape) = addV o.beginInBlock i by
        rw [e2]; exact subV_addV (by rw [hlb, ho.lenBlock]),
      show subV x rb = addV o.beginInRoi i by
        rw [e1]; exact subV_addV (by rw [hlr, ho.lenRoi])]
    exact this
  · rw [if_neg hreg, ← hA x hx hreg]
    apply h4
    intro i hi he
    have hb2 := ho.inBlock.inBox hi
    have := ravel_inj (hin.inBox hi) hxs.2 he
    apply hreg
    rw [← hxs.1, ← this, ← ho.same i hi]
    exact inRegion_add (ho.inRoi.inBox hi) ho.lenRoi

/-- `prepareChunkWriteBuffer`. -/
theorem prepareBuffer_exec (h : ds.WF) {rb rs c : List Nat} (hr : RegionOk ds.shape rb rs)
    (hc : Touches ds rb rs c) {fr : FillRequest E} {val : List Nat → E.T} (hfr : FillSpec fr rs val)
    (scratch : List E.T) {rE : List E.T → Prog (Option (List E.T))} {w : Option Bytes}
    {old : Option (List E.T)} {A : List Nat → E.T} (hold : Repr ds c old A)
    (hrE : ∀ buf : List E.T, buf.length = prod (ds.stored c) → exec1 (rE buf) w = (.ok old, w)) :
    ∃ buf, exec1 (ds.prepareBuffer fr rb rs c scratch rE) w = (.ok buf, w) ∧
      Repr ds c (some buf) (override A rb rs val) := by
  have hg := hc.inGrid
  obtain ⟨o, ho, hof⟩ := h.overlap hr hc
  unfold Dataset.prepareBuffer
  rw [ho, bind_ok, h.getChunkShape_eq hg, bind_ok]
  simp only [h.shape_choice hg]
  by_cases hcomp : (if accumulateMul (extV ds.shape ds.chunkShape c) ≠ ds.chunkSize ∧ ds.isZarr = true
      then false else o.complete) = true
  · obtain ⟨hco, hst⟩ := size_choice_complete h hg hcomp
    rw [if_pos hcomp]
    obtain ⟨hall, hz, hsh⟩ := hof.complete hco
    obtain ⟨buf', hb, hrep⟩ := fill_repr h hr hc hfr hof (A := A)
      (length_resized scratch (prod (ds.stored c))) (fun x hx hn =>
        absurd (hall x (by rw [← hst]; exact hx)) hn)
    have hv : subview (makeView (ds.stored c)) o.beginInBlock o.shapeInRoi = makeView (ds.stored c) := by
      rw [hz, hsh, hst]
      simp [subview, makeView, dot_replicate_zero]
    rw [hv] at hb
    exact ⟨buf', by rw [hb]; rfl, hrep⟩
  · rw [if_neg hcomp]
    have hlen := length_resized (E := E) scratch (prod (ds.stored c))
    generalize hbuf0 : (if prod (ds.stored c) ≠ scratch.length then resize E scratch (prod (ds.stored c))
      else scratch) = buf0 at hlen
    cases old with
    | none =>
      have hold' : ∀ x, InStored ds c x → A x = ds.fill := hold
      obtain ⟨buf', hb, hrep⟩ := fill_repr h hr hc hfr hof (A := A)
        (buf := List.replicate buf0.length ds.fill) (by simpa using hlen) (by
          intro x hx _
          have := ravel_lt (region_sub hx).2
          rw [hold' x hx, List.getElem?_replicate, if_pos (by omega)])
      refine ⟨buf', ?_, hrep⟩
      rw [exec1_bind, exec1_bind, hrE buf0 hlen]
      show contRes _ (exec1 (.ret (.ok (List.replicate buf0.length ds.fill))) w) = _
      show exec1 (.ret (fr _ _ _ _)) w = _
      rw [hb]; rfl
    | some content =>
      have hold' := hold
      obtain ⟨buf', hb, hrep⟩ := fill_repr h hr hc hfr hof (A := A) (buf := content) hold'.1
        (fun x hx _ => hold'.2 x hx)
      refine ⟨buf', ?_, hrep⟩
      rw [exec1_bind, exec1_bind, hrE buf0 hlen]
      show exec1 (.ret (fr _ _ _ _)) w = _
      rw [hb]; rfl

theorem chunkExists_exec (h : ds.WF) {c : List Nat} (hc : InGrid ds.shape ds.chunkShape c)
    (v : Option Bytes) : exec1 (ds.chunkExists c) v = (.ok v.isSome, v) := by
  rw [Dataset.chunkExists, h.handle_eq hc, bind_ok, exec1_exists]

theorem readChunk_exec (h : ds.WF) {c : List Nat} (hc : InGrid ds.shape ds.chunkShape c)
    {b : Bytes} {content : List E.T} (hd : Decodes ds c b content) (dest : List E.T)
    (hl : dest.length = prod (ds.stored c)) :
    exec1 (ds.readChunk c dest) (some b) = (.ok (false, content), some b) := by
  rw [Dataset.readChunk, h.handle_eq hc, bind_ok, h.checkChunk_ok hc, bind_ok,
    exec1_bind_ok (exec1_read ..)]
  show exec1 (.ret (bufferToData E ds.codec _ b dest)) (some b) = _
  rw [decodes_bufferToData h hd _ dest hl]; rfl

theorem readExisting_exec (h : ds.WF) {c : List Nat} (hc : InGrid ds.shape ds.chunkShape c)
    {v : Option Bytes} {A : List Nat → E.T} (hv : BlobOk ds c v A) :
    ∃ old, Repr ds c old A ∧ ∀ buf : List E.T, buf.length = prod (ds.stored c) →
      exec1 (ds.readExisting c buf) v = (.ok old, v) := by
  cases v with
  | none =>
    refine ⟨none, hv, ?_⟩
    intro buf _
    rw [Dataset.readExisting, exec1_bind_ok (chunkExists_exec h hc none)]
    rfl
  | some b =>
    obtain ⟨content, hd, hrep⟩ := hv
    refine ⟨some content, hrep, ?_⟩
    intro buf hl
    rw [Dataset.readExisting, exec1_bind_ok (chunkExists_exec h hc (some b))]
    simp only [Option.isSome_some, Bool.not_true, Bool.false_eq_true, if_false]
    rw [exec1_bind_ok (readChunk_exec h hc hd buf hl)]
    rfl

/-- Outcome of writing the full chunk buffer `data` (which represents `A`). -/
theorem writeChunk_exec (h : ds.WF) (hw : ds.canWrite = true) {c : List Nat}
    (hc : InGrid ds.shape ds.chunkShape c) (data : List E.T) (hl : data.length = prod (ds.stored c))
    (v : Option Bytes) :
    (exec1 (ds.writeChunk c data) v = (.ok (), none) ∧ ∀ e ∈ data, E.ceq e ds.fill = true) ∨
    ((∃ e ∈ data, E.ceq e ds.fill = false) ∧
      ((∃ e, exec1 (ds.writeChunk c data) v = (.throw e, v)) ∨
        ∃ b, exec1 (ds.writeChunk c data) v = (.ok (), some b) ∧ b ≠ [] ∧ Decodes ds c b data)) := by
  have heq : ∀ r, dataToBuffer E ds.codec ⟨ds.isZarr, ds.chunkShape, extV ds.shape ds.chunkShape c⟩ data
      ds.fill false 0 = r → ds.writeChunk c data = (do
        match ← .ret r with
        | none => storeErase ds.backend (ds.chunkKey c)
        | some b => storeWrite ds.backend (ds.chunkKey c) b) := by
    intro r hr
    unfold Dataset.writeChunk
    rw [hw, if_neg (by decide), h.handle_eq hc, bind_ok, h.checkChunk_ok hc, bind_ok, hr]
    rfl
  rcases dataToBuffer_cases h hc data hl with ⟨h1, h2⟩ | ⟨h2, ⟨e, he⟩ | ⟨b, hb, hne, hd⟩⟩
  · left
    refine ⟨?_, h2⟩
    rw [heq _ h1]
    exact exec1_erase _ _ v
  · right
    refine ⟨h2, Or.inl ⟨e, ?_⟩⟩
    rw [heq _ he]; rfl
  · right
    refine ⟨h2, Or.inr ⟨b, ?_, hne, hd⟩⟩
    rw [heq _ hb]
    exact exec1_write _ _ b v

/-- what a completed write of a chunk leaves: the new content, or nothing if it is all fill value -/
def Written (ds : Dataset E) (c : List Nat) (v : Option Bytes) (A : List Nat → E.T) : Prop :=
  match v with
  | none => ∀ x, InStored ds c x → E.ceq (A x) ds.fill = true
  | some b => ∃ content, Decodes ds c b content ∧ Repr ds c (some content) A ∧
      ∃ e ∈ content, E.ceq e ds.fill = false

theorem Written.blob {c : List Nat} {b : Bytes} {A : List Nat → E.T} (hw : Written ds c (some b) A) :
    BlobOk ds c (some b) A := by
  obtain ⟨content, h1, h2, _⟩ := hw
  exact ⟨content, h1, h2⟩

theorem repr_mem {c : List Nat} {data : List E.T}
    {A : List Nat → E.T} (hr : Repr ds c (some data) A) {x : List Nat}
    (hx : InStored ds c x) : A x ∈ data := by
  exact List.mem_of_getElem? (hr.2 x hx)

theorem writeChunk_written (h : ds.WF) (hw : ds.canWrite = true) {c : List Nat}
    (hc : InGrid ds.shape ds.chunkShape c) {data : List E.T} {A : List Nat → E.T}
    (hr : Repr ds c (some data) A) (v : Option Bytes) :
    (∃ e, exec1 (ds.writeChunk c data) v = (.throw e, v)) ∨
    ∃ v', exec1 (ds.writeChunk c data) v = (.ok (), v') ∧ Written ds c v' A := by
  rcases writeChunk_exec h hw hc data hr.1 v with ⟨h1, h2⟩ | ⟨h2, ⟨e, he⟩ | ⟨b, hb, _, hd⟩⟩
  · right
    exact ⟨none, h1, fun x hx => h2 _ (repr_mem hr hx)⟩
  · left; exact ⟨e, he⟩
  · right
    exact ⟨some b, hb, data, hd, hr, h2⟩

/-- The task of a region write on one chunk. -/
theorem writeTask_exec (h : ds.WF) (hw : ds.canWrite = true) {rb rs c : List Nat}
    (hr : RegionOk ds.shape rb rs) (hc : Touches ds rb rs c) {fr : FillRequest E}
    {val : List Nat → E.T} (hfr : FillSpec fr rs val) (scratch : List E.T) {v : Option Bytes}
    {A : List Nat → E.T} (hv : BlobOk ds c v A) :
    (∃ e, exec1 (ds.writeTask fr rb rs c scratch) v = (.throw e, v)) ∨
    ∃ v', exec1 (ds.writeTask fr rb rs c scratch) v = (.ok (), v') ∧
      Written ds c v' (override A rb rs val) := by
  obtain ⟨old, hold, hrE⟩ := readExisting_exec h hc.inGrid hv
  obtain ⟨buf, hb, hrep⟩ := prepareBuffer_exec h hr hc hfr scratch hold hrE
  rw [Dataset.writeTask, exec1_bind_ok hb]
  exact writeChunk_written h hw hc.inGrid hrep v

theorem read_addr {rb c : List Nat} {out : View} (hout : out.strides.length = out.shape.length)
    {o : RoiOverlap}
    (hof : OverlapFacts (mulV c ds.chunkShape) (extV ds.shape ds.chunkShape c) rb out.shape o)
    {i : List Nat} (hi : InBox i o.shapeInRoi) :
    (subview out o.beginInRoi o.shapeInRoi).addr i = out.addr (addV o.beginInRoi i) := by
  have hlr := All₃.length_eq hof.inRoi
  have := hi.length_eq
  simp only [View.addr, subview]
  rw [dot_addV (by omega)]; omega

theorem read_inStored {rb c : List Nat} {out : View} (hg : InGrid ds.shape ds.chunkShape c)
    {o : RoiOverlap}
    (hof : OverlapFacts (mulV c ds.chunkShape) (extV ds.shape ds.chunkShape c) rb out.shape o)
    {i : List Nat} (hi : InBox i o.shapeInRoi) :
    InStored ds c (addV rb (addV o.beginInRoi i)) ∧
    subV (addV rb (addV o.beginInRoi i)) (mulV c ds.chunkShape) = addV o.beginInBlock i := by
  have hb := hof.inBlock.inBox hi
  rw [hof.same i hi]
  refine ⟨?_, ?_⟩
  · apply InStored.of_inChunk
    rw [inChunk_iff_region hg]
    exact inRegion_add hb hof.lenBlock
  · exact subV_addV (by rw [hb.length_eq, hof.lenBlock])

/-- a missing chunk is delivered as the fill value -/
theorem read_fill {rb c : List Nat} {out : View} (hg : InGrid ds.shape ds.chunkShape c)
    (hout : out.strides.length = out.shape.length) {o : RoiOverlap}
    (hof : OverlapFacts (mulV c ds.chunkShape) (extV ds.shape ds.chunkShape c) rb out.shape o)
    {A : List Nat → E.T} (hv : Repr ds c none A) :
    (fillPlan (subview out o.beginInRoi o.shapeInRoi)).map (fun i => (i, ds.fill)) =
      (boxList o.shapeInRoi).map fun i => (out.addr (addV o.beginInRoi i),
        A (addV rb (addV o.beginInRoi i))) := by
  have hlr := All₃.length_eq hof.inRoi
  rw [fillPlan_eq (by simp only [subview]; omega), List.map_map]
  apply List.map_congr_left
  intro i hi
  have hi' : InBox i o.shapeInRoi := mem_boxList.1 hi
  simp only [Function.comp, read_addr hout hof hi']
  have hv' : ∀ x, InStored ds c x → A x = ds.fill := hv
  rw [hv' _ (read_inStored hg hof hi').1]

/-- a decoded chunk is delivered -/
theorem read_copy {rb c : List Nat} {out : View} (hg : InGrid ds.shape ds.chunkShape c)
    (hout : out.strides.length = out.shape.length) {o : RoiOverlap}
    (hof : OverlapFacts (mulV c ds.chunkShape) (extV ds.shape ds.chunkShape c) rb out.shape o)
    {A : List Nat → E.T} {content : List E.T} (hrep : Repr ds c (some content) A) :
    copyPokes content (copyPlan (subview
        { base := 0, shape := ds.stored c, strides := cOrderStrides (ds.stored c) }
        o.beginInBlock o.shapeInRoi) (subview out o.beginInRoi o.shapeInRoi)) =
      .ok ((boxList o.shapeInRoi).map fun i => (out.addr (addV o.beginInRoi i),
        A (addV rb (addV o.beginInRoi i)))) := by
  have hlr := All₃.length_eq hof.inRoi
  have hlb := All₃.length_eq hof.inBlock
  have hin : Inside (ds.stored c) o.beginInBlock o.shapeInRoi :=
    hof.inBlock.mono (ext_le_stored hg)
  have hls := All₃.length_eq hin
  rw [copyPlan_eq (by simp only [subview, cOrderStrides_eq, length_strides]; omega)
    (by simp only [subview]; omega)]
  have hsrc : ∀ i, InBox i o.shapeInRoi → (subview
      { base := 0, shape := ds.stored c, strides := cOrderStrides (ds.stored c) }
      o.beginInBlock o.shapeInRoi).addr i = ravel (ds.stored c) (addV o.beginInBlock i) :=
    fun i hi => subview_addr hin hi
  rw [copyPokes_eq content (fun p => (content[p]?).getD ds.fill), List.map_map]
  · congr 1
    apply List.map_congr_left
    intro i hi
    have hi' : InBox i o.shapeInRoi := mem_boxList.1 hi
    simp only [Function.comp, read_addr hout hof hi', hsrc i hi']
    have := hrep.2 _ (read_inStored hg hof hi').1
    rw [(read_inStored hg hof hi').2] at this
    rw [this]; rfl
  · intro p hp
    obtain ⟨i, hi, rfl⟩ := List.mem_map.1 hp
    have hi' : InBox i o.shapeInRoi := mem_boxList.1 hi
    simp only [hsrc i hi']
    have := hrep.2 _ (read_inStored hg hof hi').1
    rw [(read_inStored hg hof hi').2] at this
    rw [this]; rfl

/-- The task of a region read on one chunk. -/
theorem readTask_exec (h : ds.WF) {rb c : List Nat} {out : View}
    (hr : RegionOk ds.shape rb out.shape) (hc : Touches ds rb out.shape c)
    (hout : out.strides.length = out.shape.length) (scratch : List E.T) {v : Option Bytes}
    {A : List Nat → E.T} (hv : BlobOk ds c v A) :
    ∃ o, OverlapFacts (mulV c ds.chunkShape) (extV ds.shape ds.chunkShape c) rb out.shape o ∧
      exec1 (ds.readTask out rb out.shape c scratch) v =
        (.ok ((boxList o.shapeInRoi).map fun i => (out.addr (addV o.beginInRoi i),
          A (addV rb (addV o.beginInRoi i)))), v) := by
  have hg := hc.inGrid
  obtain ⟨o, ho, hof⟩ := h.overlap hr hc
  refine ⟨o, hof, ?_⟩
  unfold Dataset.readTask
  rw [ho, bind_ok]
  simp only
  cases v with
  | none =>
    rw [exec1_bind_ok (chunkExists_exec h hg none)]
    simp only [Option.isSome_none, Bool.not_false, if_true, pure_def]
    show (Res.ok _, none) = _
    rw [read_fill hg hout hof hv]
  | some b =>
    obtain ⟨content, hd, hrep⟩ := hv
    rw [exec1_bind_ok (chunkExists_exec h hg (some b))]
    simp only [Option.isSome_some, Bool.not_true, Bool.false_eq_true, if_false]
    rw [h.getChunkShape_eq hg, bind_ok]
    have hraw : exec1 (ds.readRawChunk c) (some b) = (.ok b, some b) := by
      rw [Dataset.readRawChunk, h.handle_eq hg, bind_ok, exec1_bind_ok (exec1_read ..)]
      rfl
    rw [exec1_bind_ok hraw]
    have e1 := accumulateMul_eq (prod_reverse_ext_lt h hg)
    have hsc := h.shape_choice hg () ()
    have hlen := length_resized (E := E) scratch (prod (ds.stored c))
    have hcopy := read_copy hg hout hof hrep
    by_cases hz : ds.isZarr = true
    · have hst : ds.stored c = ds.chunkShape := by rw [Dataset.stored, if_pos hz]
      have hch : (if ds.chunkSize ≠ accumulateMul (extV ds.shape ds.chunkShape c) then
          (ds.chunkSize, ds.chunkShape)
          else (accumulateMul (extV ds.shape ds.chunkShape c), extV ds.shape ds.chunkShape c)) =
          (prod (ds.stored c), ds.stored c) := by
        rw [hst, e1, h.chunkSize_eq]
        by_cases he : prod (extV ds.shape ds.chunkShape c) = prod ds.chunkShape
        · rw [if_neg (by simpa using he.symm), he,
            eq_of_prod_eq (extV_le hg) (extV_pos h.dims.axes hg) he]
        · rw [if_pos (fun hh => he hh.symm)]
      simp only [hz, Bool.not_true, Bool.false_eq_true, if_false, bind_ok, hch, Bool.false_and,
        List.drop_zero]
      rw [hd.zarr hz _ hlen, bind_ok]
      rw [hcopy]; rfl
    · have hz' : ds.isZarr = false := by simpa using hz
      obtain ⟨hl, hh, hdec⟩ := hd.n5 hz'
      have hst : ds.stored c = extV ds.shape ds.chunkShape c := by rw [Dataset.stored, if_neg hz]
      simp only [hz', Bool.not_false, if_true, hh, bind_ok, Bool.false_eq_true, if_false, Bool.true_and]
      have hch : (if prod (ds.stored c) ≠ accumulateMul (extV ds.shape ds.chunkShape c) then
          (ds.chunkSize, ds.chunkShape)
          else (accumulateMul (extV ds.shape ds.chunkShape c), extV ds.shape ds.chunkShape c)) =
          (prod (ds.stored c), ds.stored c) := by
        rw [e1, ← hst, if_neg (by simp)]
      simp only [hch]
      rw [hdec _ hlen, bind_ok]
      simp only [decide_eq_true_eq]
      by_cases hE : E.size > 1
      · rw [if_pos hE, revPrefix_full _ _ hd.length]
        simp only [bind_ok]
        rw [hcopy]; rfl
      · rw [if_neg hE, map_revElem_one hE]
        rw [hcopy]; rfl

/-! ### Tasks touch only their own chunk file -/

/-- structural proof that a program touches only one file -/
macro "touches" : tactic => `(tactic| repeat' first
  | exact TouchesOnly.ret _ | exact touches_exists _ | exact touches_read _ _ | exact touches_write _ _ _
  | exact touches_erase _ _ | assumption | refine TouchesOnly.bind ?_ (fun _ => ?_) | split | dsimp only
  | exact trivial)

/-- structural proof that a program changes no file -/
macro "read_only" : tactic => `(tactic| repeat' first
  | exact ReadOnly.ret _ | exact readOnly_exists _ | exact readOnly_read _ _
  | assumption | refine ReadOnly.bind ?_ (fun _ => ?_) | split | dsimp only | exact trivial)

theorem touches_readTask (ds : Dataset E) (out : View) (rb rs c : List Nat) (scratch : List E.T) :
    TouchesOnly (ds.chunkKey c) (ds.readTask out rb rs c scratch) := by
  unfold Dataset.readTask Dataset.chunkExists Dataset.readRawChunk
  touches

theorem readOnly_readTask (ds : Dataset E) (out : View) (rb rs c : List Nat) (scratch : List E.T) :
    ReadOnly (ds.readTask out rb rs c scratch) := by
  unfold Dataset.readTask Dataset.chunkExists Dataset.readRawChunk
  read_only

theorem touches_readChunk (ds : Dataset E) (c : List Nat) (dest : List E.T) :
    TouchesOnly (ds.chunkKey c) (ds.readChunk c dest) := by
  unfold Dataset.readChunk
  touches

theorem readOnly_readChunk (ds : Dataset E) (c : List Nat) (dest : List E.T) :
    ReadOnly (ds.readChunk c dest) := by
  unfold Dataset.readChunk
  read_only

theorem touches_chunkExists (ds : Dataset E) (c : List Nat) :
    TouchesOnly (ds.chunkKey c) (ds.chunkExists c) := by
  unfold Dataset.chunkExists
  touches

theorem touches_writeChunk (ds : Dataset E) (c : List Nat) (data : List E.T) (v : Bool) (n : Nat) :
    TouchesOnly (ds.chunkKey c) (ds.writeChunk c data v n) := by
  unfold Dataset.writeChunk
  touches

theorem touches_writeTask (ds : Dataset E) (fr : FillRequest E) (rb rs c : List Nat)
    (scratch : List E.T) : TouchesOnly (ds.chunkKey c) (ds.writeTask fr rb rs c scratch) := by
  have h1 := touches_readChunk ds c
  have h2 := touches_chunkExists ds c
  have h3 := touches_writeChunk ds c
  unfold Dataset.writeTask Dataset.prepareBuffer Dataset.readExisting
  repeat' first
    | exact TouchesOnly.ret _ | exact h1 _ | exact h2 | exact h3 _ _ _
    | refine TouchesOnly.bind ?_ (fun _ => ?_) | split | dsimp only | exact trivial

end Z5
