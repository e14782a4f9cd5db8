import Verif.Proofs.S3Foreign
import Verif.Props.ForeignUse
import Verif.Props.S3Container

/-!
# C84: buckets of other programs

`RawBucket` is a bucket whose objects have bytes.  `R.HoldsArray name La a E C fill A` (`Spec/S3Foreign`) says, in the terms of the
formats, that the objects below `name` are an array of zarr v2, zarr v3 (also with shards) or N5.  This is C83 for S3.
-/

namespace Z5.Props
open Spec

variable {E : Elem} {name : Key} {R : RawBucket} {La : Layout} {a : ArrayDesc} {L : Libs} {elem : FillVal → E.T} {x : Dbl} {v : FillVal}
  {A : List Nat → E.T} {root : S3Handle} {key : Key} {b b' b₀ : Bucket} {os : List S3DatasetObj} {ws : List (Write E.T)}

theorem open_s3 (hL : L.Lawful) (h : b.HoldsArray name La a E (L.codec E.size a.compression) (elem v) A)
    (hs : a.Supported La E.size) (hx : a.fill = some x) (hv : a.dtype.castFill x = .ok v) (hc : a.dtype.isComplex = false)
    (hn : joinKey root.name key = name) (hz : La.isZarr = true → b.IsZarr root.name) :
    ∃ o d, (root.openDataset key).Does 10 b (.ok o) b ∧ o.StandsFor d L elem a name root.mode ∧ d.ReadsAsS3 name b A := by
  obtain ⟨o, d, h1, h2, g⟩ := h.open (elem := elem) hL hs hx hv hc hn hz
  exact ⟨o, d, h1, h2 ▸ g.stands, AnyDataset.Files.readsAsS3 g.stands.wf ((g.files _ _).2 h.elements)⟩

/-- **C84, reading.** Every array of real numbers that the objects hold can be opened, from any group above it (of zarr, if the array is
zarr) and in every mode; the object has the data type, shape, chunks and shards that the document says, and every region reads as the
elements of the array. -/
theorem c84_open (hL : L.Lawful) (h : R.HoldsArray name La a E (L.codec E.size a.compression) (elem v) A)
    (hs : a.Supported La E.size) (hx : a.fill = some x) (hv : a.dtype.castFill x = .ok v) (hc : a.dtype.isComplex = false)
    (hn : joinKey root.name key = name) (hz : La.isZarr = true → R.view.IsZarr root.name) :
    ∃ o d, (root.openDataset key).Does 10 R.view (.ok o) R.view ∧ o.StandsFor d L elem a name root.mode ∧ d.ReadsAsS3 name R.view A :=
  open_s3 hL (h.view hs) hs hx hv hc hn hz

/-- **C84, complex numbers.** Arrays of complex numbers are refused on S3; nothing is changed. -/
theorem c84_complex {C : Codec} {fill : E.T} (h : R.HoldsArray name La a E C fill A)
    (hs : a.Supported La E.size) (hc : a.dtype.isComplex = true) (hn : joinKey root.name key = name) :
    (root.openDataset key).Does 10 R.view (.throw .runtimeError) R.view := by
  classical
  have h := h.view hs
  generalize R.view = b at h
  obtain ⟨⟨j, hj, hd⟩, ho⟩ := h.documents
  obtain ⟨m, r1, r2, r4, r5⟩ := s3Document_read hs.fits hj hd ho
  subst hn
  unfold S3Handle.openDataset
  refine (root_isZarr root b).bind (m := 6) ?_
  have tail : ∀ cfg : ChunkConfig, ((root.dataset key cfg.delimiter cfg.zarrFormat cfg.encoding).openDataset).Does 4 b
      (.throw .runtimeError) b := by
    intro cfg
    unfold S3DatasetHandle.openDataset
    have he := exist_does ⟨joinKey root.name key, root.mode⟩ b
    rw [decide_eq_true (metadata_exists r1)] at he
    refine he.bind (m := 3) ?_
    have hmd := readS3Metadata_does (joinKey root.name key) b
    rw [r1] at hmd
    refine hmd.bind (m := 0) ?_
    have e : makeS3Dataset (root.dataset key cfg.delimiter cfg.zarrFormat cfg.encoding) m = .throw .runtimeError := by
      unfold makeS3Dataset
      rw [r4.dtype, hc]
      rfl
    rw [e]
    exact .lift _ _
  by_cases hzz : b.IsZarr root.name
  · rw [decide_eq_true hzz]
    have := readS3ChunkConfig_does (joinKey root.name key) b
    rw [r5] at this
    exact this.bind (m := 4) (tail _)
  · rw [decide_eq_false hzz]
    exact ((S3M.Does.pure ChunkConfig.initial b).bind (m := 4) (tail _)).mono (by omega)

/-- `isSubGroup` of a node of N5 -/
theorem isSubGroup_s3N5 {h : S3Handle} {j : Json} (hz : ¬ b.IsZarr h.name)
    (hj : b.get (joinKey h.name (key ++ '/' :: "attributes.json".toList)) = some (.doc j)) {r : Bool}
    (hr : hasAllN5DatasetAttributes j = .ok r) : (h.isSubGroup key).Does 6 b (.ok !r) b := by
  classical
  unfold S3Handle.isSubGroup
  have h1 := root_isZarr h b
  rw [decide_eq_false hz] at h1
  refine h1.bind (m := 2) ?_
  have h2 := getObject_does (joinKey h.name (key ++ '/' :: "attributes.json".toList)) b
  rw [hj] at h2
  refine S3M.Does.bind (n := 1) (m := 1) h2 ?_
  show ((do return !(← S3M.lift (hasAllN5DatasetAttributes j))) : S3M Bool).Does 1 b _ b
  rw [hr]
  exact ((S3M.Does.lift (.ok r) b).bind (m := 0) (.pure (!r) b)).mono (by omega)

/-- an array of N5 has four of the five attributes -/
theorem n5_says_count {j : Json} (hsay : Layout.n5.Says j a) (hno : j.find "compression" = none ∨ j.find "compressionType" = none) :
    (n5DatasetKeys.filter fun k => (j.find k).isSome).length = 4 := by
  have f1 : (j.find "dimensions").isSome = true ∧ (j.find "blockSize").isSome = true ∧ (j.find "dataType").isSome = true := by
    rcases hsay with hh | hh
    · obtain ⟨s, _, hs⟩ := hh.dtype
      rw [show j.find "dimensions" = _ from hh.shape, show j.find "blockSize" = _ from hh.chunks, show j.find "dataType" = _ from hs]
      exact ⟨rfl, rfl, rfl⟩
    · obtain ⟨s, _, hs⟩ := hh.dtype
      rw [show j.find "dimensions" = _ from hh.shape, show j.find "blockSize" = _ from hh.chunks, show j.find "dataType" = _ from hs]
      exact ⟨rfl, rfl, rfl⟩
  have f2 : ((j.find "compressionType").isSome = false ∧ (j.find "compression").isSome = true) ∨
      ((j.find "compressionType").isSome = true ∧ (j.find "compression").isSome = false) := by
    rcases hsay with hh | hh
    · obtain ⟨c, hc, _⟩ := hh.compression
      rcases hno with e | e
      · rw [hc] at e; cases e
      · left; rw [hc, e]; exact ⟨rfl, rfl⟩
    · obtain ⟨t, ht, _⟩ := hh.compression
      right
      rw [show j.find "compressionType" = _ from ht, hh.noCompression]
      exact ⟨rfl, rfl⟩
  unfold n5DatasetKeys
  rcases f2 with ⟨e1, e2⟩ | ⟨e1, e2⟩ <;>
    simp only [List.filter_cons, List.filter_nil, f1.1, f1.2.1, f1.2.2, e1, e2, if_true, Bool.false_eq_true, if_false] <;> rfl

/-- **C84, Python.** `f[name]` is the array. -/
theorem c84_getitem {g : S3PyGroup} {n : Key} (hL : L.Lawful)
    (h : R.HoldsArray name La a E (L.codec E.size a.compression) (elem v) A)
    (hs : a.Supported La E.size) (hx : a.fill = some x) (hv : a.dtype.castFill x = .ok v) (hc : a.dtype.isComplex = false)
    (hk : pyLstrip n ≠ []) (hn : joinKey g.handle.name (pyLstrip n) = name) (hz : R.view.IsZarr g.handle.name ↔ La.isZarr = true)
    (hng : R.NoGroup name La) :
    ∃ o d, (g.item n).Does 18 R.view (.ok (.inr o)) R.view ∧ o.StandsFor d L elem a name g.handle.mode ∧ d.ReadsAsS3 name R.view A := by
  classical
  obtain ⟨o, d, h1, h2, h3⟩ := c84_open hL h hs hx hv hc hn hz.2
  refine ⟨o, d, ?_, h2, h3⟩
  obtain ⟨j, hj, hsay⟩ := h.document
  have hjv := hj.view (RawBucket.isDocument_named (ArrayDesc.datasetFile_mem La))
  have hname : ∀ m : String, joinKey g.handle.name (pyLstrip n ++ '/' :: m.toList) = name ++ '/' :: m.toList := by
    intro m
    rw [← joinKey_join hk, hn]
    exact docKey_named h.named m
  have hsub : (g.handle.isSubGroup (pyLstrip n)).Does 6 R.view (.ok false) R.view := by
    cases La with
    | v2 =>
      have h0 : R.view.get (name ++ '/' :: "zarr.json".toList) = none := by
        rw [RawBucket.view_get, h.others "zarr.json" (by simp) (by decide)]; rfl
      have h1 : R.view.get (name ++ '/' :: ".zgroup".toList) = none := by
        rw [RawBucket.view_get, show R.content _ = none from hng]; rfl
      have := isSubGroup_v2 (h := g.handle) (key := pyLstrip n) (b := R.view) (hz.2 rfl) (by rw [hname]; exact h0)
      rw [hname, h1] at this
      exact this
    | v3 =>
      have hnode := ZarrV3.Describes.node hsay
      refine S3Container.isSubGroup_v3 (t := "array") (hz.2 rfl) hk ?_
      rw [hn, docKey_named h.named, Bucket.docAt, show R.view.get (name ++ '/' :: "zarr.json".toList) = _ from hjv]
      exact hnode
    | n5 =>
      have hobj : j.IsObject := by
        obtain ⟨bom, t, _, ⟨_, w, _, _, hw, _⟩, _⟩ := hj
        have hpl := JsonText.plain_of_denotes rfl hw
        have hf : (j.find "dimensions").isSome = true := by
          rcases hsay with hh | hh
          · rw [show j.find "dimensions" = _ from hh.shape]; rfl
          · rw [show j.find "dimensions" = _ from hh.shape]; rfl
        cases j with
        | obj l => exact ⟨l, rfl, hpl.1⟩
        | _ => cases hf
      have hcount := n5_says_count hsay (hng j hj)
      have := isSubGroup_s3N5 (b := R.view) (h := g.handle) (key := pyLstrip n) (j := j) (r := true)
        (fun e => by have := hz.1 e; cases this) (by rw [hname]; exact hjv) (by rw [hasAll_count hobj, hcount]; rfl)
      exact this
  have hhas : (g.handle.has (pyLstrip n)).Does 2 R.view (.ok true) R.view := by
    have := has_does g.handle (pyLstrip n) R.view
    rwa [decide_eq_true] at this
    refine .inr ⟨name ++ '/' :: La.datasetFile.toList, mem_keys.2 (by rw [hjv]; rfl), ?_⟩
    rw [hn]
    exact ⟨La.datasetFile.toList, by simp⟩
  unfold S3PyGroup.item S3PyGroup.getItem
  refine hhas.bind (m := 16) ?_
  simp only [Bool.not_true, Bool.false_eq_true, if_false]
  refine hsub.bind (m := 10) ?_
  rw [if_neg (by decide)]
  exact h1.bind_lift (r := .ok _) rfl

/-- **C84, writing.** Any sequence of successful calls on the array leaves an array of the same format and description, whose elements are
the previous ones with the writes applied (up to negative zeros next to the fill value zero, C06); no document is touched. -/
theorem c84_update (hL : L.Lawful) (h : b.HoldsArray name La a E (L.codec E.size a.compression) (elem v) A)
    (hs : a.Supported La E.size) (hx : a.fill = some x) (hv : a.dtype.castFill x = .ok v) (hc : a.dtype.isComplex = false)
    (hn : joinKey root.name key = name) (hz : La.isZarr = true → b.IsZarr root.name) (hm : root.mode.canWrite = true)
    {es : List Event} (hes : ∀ e ∈ es, e.Reliable) {o : S3DatasetObj} {w : World} {d : AnyDataset E}
    (ho : root.openDataset key ⟨es, b⟩ = (some (.ok o), w)) (ht : o.typed L elem = .ok d) (hd : d.DoesS3 name ws b b') :
    ∃ A', b'.HoldsArray name La a E (L.codec E.size a.compression) (elem v) A' ∧
      (∀ y, InBox y a.shape → SameOrFill E.ceq (elem v) (A' y) (replay A ws y)) ∧
      d.ReadsAsS3 name b' A' ∧ ∀ n, MetaName n → b'.get (docKey name n) = b.get (docKey name n) := by
  obtain ⟨o', d', h1, h2, g⟩ := h.open (elem := elem) hL hs hx hv hc hn hz
  obtain ⟨e1, _⟩ := h1.ok hes ho
  cases e1
  have e := g.stands.typed
  rw [ht] at e
  cases e
  have hwr : d.base.canWrite = true := g.stands.base.2.2.trans (h2 ▸ hm)
  have hfiles := g.files
  rw [← g.codec, ← g.fill] at h hfiles ⊢
  obtain ⟨A', i1, i2⟩ := h.does g.stands.wf hwr g.stands.base.1 hfiles hd
  exact ⟨A', i1, i2, AnyDataset.Files.readsAsS3 g.stands.wf ((hfiles _ _).2 i1.elements), (hd.effect g.stands.wf hwr).1⟩

/-- **C84, writing succeeds.** Every valid region write to the array succeeds, under every schedule, unless a compressor fails or a
shard exceeds its size. -/
theorem c84_write_succeeds (hL : L.Lawful) (hT : (L.codec E.size a.compression).TotalFor (prod a.chunks * E.size))
    (h : b.HoldsArray name La a E (L.codec E.size a.compression) (elem v) A)
    (hs : a.Supported La E.size) (hx : a.fill = some x) (hv : a.dtype.castFill x = .ok v) (hc : a.dtype.isComplex = false)
    (hn : joinKey root.name key = name) (hz : La.isZarr = true → b.IsZarr root.name) (hm : root.mode.canWrite = true)
    {es : List Event} (hes : ∀ e ∈ es, e.Reliable) {o : S3DatasetObj} {w : World} {d : AnyDataset E}
    (ho : root.openDataset key ⟨es, b⟩ = (some (.ok o), w)) (ht : o.typed L elem = .ok d)
    {call : RegionCall E} (hcall : call.Valid d.base) (scratch : Nat → List E.T) :
    ∃ ts, d.start call scratch = .ok ts ∧
      ∀ is rs, Prog.Finished (Prog.interleaveS3 name is (ts, b)).1 rs →
        ∀ r ∈ rs, r = .ok () ∨ (r = .throw .lengthError ∧ a.shards ≠ []) := by
  obtain ⟨o', d', h1, h2, g⟩ := h.open (elem := elem) hL hs hx hv hc hn hz
  obtain ⟨e1, _⟩ := h1.ok hes ho
  cases e1
  have e := g.stands.typed
  rw [ht] at e
  cases e
  obtain ⟨S, hS, _⟩ := AnyDataset.Files.inStore g.stands.wf ((g.files _ _).2 h.elements)
  obtain ⟨ts, t1, t2⟩ := AnyDataset.InStore.write_succeeds g.stands.wf (g.stands.base.2.2.trans (h2 ▸ hm))
    (by rw [g.codec, g.stands.base.2.1]; exact hT) hS hcall scratch
  refine ⟨ts, t1, fun is rs hf r hr => ?_⟩
  rcases t2 is rs hf r hr with e | ⟨e, sd, hsd⟩
  · exact .inl e
  · exact .inr ⟨e, g.shards sd hsd⟩

/-- **C84, creating.** What was written to an array that the library made is an array of the format, with the data type, shape, chunks
and shards that were asked for, and the elements that were written. -/
theorem c84_created {args : CreateArgs} {o : S3DatasetObj} {w : World} {es : List Event} {d : AnyDataset E}
    (hes : ∀ e ∈ es, e.Reliable) (h : root.createDataset key args ⟨es, b⟩ = (some (.ok o), w)) (hdesc : o.obj.Describable)
    (hL : L.LawfulFor (prod d.base.chunkShape * E.size))
    (ht : o.typed L elem = .ok d) (hwf : d.WF) (hname : joinKey root.name key ≠ [])
    (hw : d.DoesS3 (joinKey root.name key) ws w.bucket b') :
    ∃ a x A, b'.HoldsArray (joinKey root.name key) o.obj.layout a E (L.codec E.size a.compression) (elem o.obj.fill) A ∧
      a.shape = args.shape ∧ a.chunks = args.chunkShape ∧ a.shards = args.shardShape ∧
      assocGet Datatype.n5ToDtype args.dtype = some a.dtype ∧
      a.fill = some x ∧ a.dtype.castFill x = .ok o.obj.fill ∧ a.dtype.isComplex = false ∧
      ∀ y, InBox y a.shape → SameOrFill E.ceq (elem o.obj.fill) (A y) (replay (fun _ => elem o.obj.fill) ws y) :=
  s3Created_holds hes h hdesc hL ht hwf hname hw

/-- **C84, bytes.** The bytes in the objects, whatever texts stand for the documents, are an array of the format. -/
theorem c84_bytes {C : Codec} {fill : E.T} (h : b.HoldsArray name La a E C fill A) (hs : a.Supported La E.size)
    (hR : R.Stores b) : R.HoldsArray name La a E C fill A where
  named := h.named
  document := by
    obtain ⟨j, h1, h2⟩ := h.document
    have := hR (name ++ '/' :: La.datasetFile.toList)
    rw [h1] at this
    exact ⟨j, this.2, h2⟩
  others n hn hne := by
    have := hR (name ++ '/' :: n.toList)
    rw [h.others n hn hne] at this
    exact this
  elements := by
    obtain ⟨j, _, h2⟩ := h.document
    refine h.elements.congr (fun k hk => ?_) hs fun e => h2.v3_of_shards e
    have h1 := hR (name ++ '/' :: k)
    unfold Bucket.chunks chunkObject
    revert h1
    cases b.get (name ++ '/' :: k) with
    | none => intro h1; rw [h1]
    | some y => cases y with
      | doc j => intro h1; exact absurd h1.1 (RawBucket.file_not_document hs.axes.1 hk)
      | file b => intro h1; rw [h1]

/-- **C84, bytes.** In particular the texts that the library writes (and Python's `json.dumps`) will do for documents. -/
theorem c84_text {dg : JsonText.Digits} (hd : dg.Lawful) {j : Json} (hj : JsonText.Plain j) {st : JsonText.Style}
    (hst : st = JsonText.compact ∨ st = JsonText.pretty ∨ st = JsonText.dumps) {k : Key}
    (hk : R.content k = some (Utf8.encode (JsonText.text st dg j))) : R.HasText k j :=
  ⟨[], _, .inl rfl, c82_written hd hj hst, hk⟩

/-- **C84, sessions.** If the bucket holds an array whose attributes are JSON objects, then whatever is done with it through objects
that are opened for it, in any modes and any number of sessions, it is an array of the same format and description, with what all
objects together wrote; and through every object that is open, every region reads as these elements. -/
theorem c84_sessions (hL : L.Lawful) (h : b₀.HoldsArray name La a E (L.codec E.size a.compression) (elem v) A)
    (hs : a.Supported La E.size) (hx : a.fill = some x) (hv : a.dtype.castFill x = .ok v) (hc : a.dtype.isComplex = false)
    (hn : b₀.Node name La) (hu : S3Uses L elem name La b₀ os ws b) :
    ∃ A', b.HoldsArray name La a E (L.codec E.size a.compression) (elem v) A' ∧
      (∀ y, InBox y a.shape → SameOrFill E.ceq (elem v) (A' y) (replay A ws y)) ∧
      ∀ o ∈ os, ∃ d, o.StandsFor d L elem a name o.obj.handle.mode ∧ d.ReadsAsS3 name b A' := by
  obtain ⟨⟨A', i1, i2⟩, _, i4⟩ := hu.effect hL hs hx hv hc h hn
  refine ⟨A', i1, i2, fun o ho => ?_⟩
  obtain ⟨d, g⟩ := i4 o ho
  exact ⟨d, g.stands, AnyDataset.Files.readsAsS3 g.stands.wf ((g.files _ _).2 i1.elements)⟩

/-- **C84, attributes.** A valid change of the attributes through an open object that is not read-only throws, without effect, exactly if
it names one of the entries that say what an N5 array is.  Otherwise the attributes become the new ones, and nothing else changes. -/
theorem c84_attributes (hL : L.Lawful) (h : b₀.HoldsArray name La a E (L.codec E.size a.compression) (elem v) A)
    (hs : a.Supported La E.size) (hx : a.fill = some x) (hv : a.dtype.castFill x = .ok v) (hc : a.dtype.isComplex = false)
    (hn : b₀.Node name La) (hu : S3Uses L elem name La b₀ os ws b) {o : S3DatasetObj} (ho : o ∈ os)
    (hw : o.obj.handle.mode.canWrite = true) {op : AttrOp} (hop : op.Valid) :
    let locked := if La = .n5 then ["dimensions", "blockSize", "dataType", "compressionType", "compression"] else []
    let change := (S3Target.dataset ⟨o.name, o.obj.handle⟩).change op
    (op.names locked = true → change.Does 11 b (.throw .runtimeError) b) ∧
    (op.names locked = false → ∃ b', change.Does 11 b (.ok ()) b' ∧
      b.OnlyAttributes b' name La (op.apply (b.attributes name La))) := by
  obtain ⟨⟨A', i1, i2⟩, i3, i4⟩ := hu.effect hL hs hx hv hc h hn
  obtain ⟨d, g⟩ := i4 o ho
  have hr := g.refers i1 i3
  dsimp only
  rw [g.stands.name]
  obtain ⟨c1, c2⟩ := c56_change (t := .dataset ⟨name, o.obj.handle⟩) hw hr hop
  have hl : (S3Target.dataset ⟨name, o.obj.handle⟩).locked La =
      if La = .n5 then ["dimensions", "blockSize", "dataType", "compressionType", "compression"] else [] := by
    cases La <;> rfl
  rw [hl] at c1 c2
  refine ⟨c1, fun e => ?_⟩
  obtain ⟨b', k1, k2, _⟩ := c2 e
  exact ⟨b', k1, k2⟩

/-! ### Examples -/

/-- A bucket with an N5 array `f/d` of three elements in two blocks; the second block is not there. -/
def exS3Foreign (more : List (String × Json)) : RawBucket :=
  [("f/d/0".toList, [0, 0, 0, 1, 0, 0, 0, 2, 5, 6]),
    ("f/d/attributes.json".toList, Utf8.encode (JsonText.text JsonText.dumps exactDigits (exForeignDoc more)))]

theorem exS3Foreign_text {more : List (String × Json)} (h : JsonText.Plain (exForeignDoc more)) :
    (exS3Foreign more).HasText "f/d/attributes.json".toList (exForeignDoc more) :=
  c84_text exactDigits_lawful h (.inr (.inr rfl)) rfl

theorem exS3Foreign_holds {more : List (String × Json)} (h : JsonText.Plain (exForeignDoc more)) :
    (exS3Foreign more).HoldsArray "f/d".toList .n5 exForeignDesc U8 (exLibs.codec U8.size .raw) (exElem (.int 0)) exForeignElems where
  named := by decide
  document := ⟨_, exS3Foreign_text h, .inl ⟨⟨"uint8", rfl, rfl⟩, rfl, rfl, ⟨_, rfl, .raw rfl⟩, rfl, rfl⟩⟩
  others n hn hne := by
    simp only [List.mem_cons, List.not_mem_nil, or_false] at hn
    rcases hn with rfl | rfl | rfl
    · rfl
    · rfl
    · exact absurd rfl hne
  elements := by
    intro g hg
    rcases exForeign_grid hg with rfl | rfl <;> dsimp only
    · rw [show (exS3Foreign more).content ("f/d".toList ++ '/' :: n5Name [0]) = some [0, 0, 0, 1, 0, 0, 0, 2, 5, 6] by
        rw [show "f/d".toList ++ '/' :: n5Name [0] = "f/d/0".toList by decide +kernel]; rfl]
      exact ⟨[5, 6], by decide +kernel, show [5, 6] = _ by decide +kernel⟩
    · rw [show (exS3Foreign more).content ("f/d".toList ++ '/' :: n5Name [1]) = none by
        rw [show "f/d".toList ++ '/' :: n5Name [1] = "f/d/1".toList by decide +kernel]; rfl]
      intro i hi
      cases i with
      | nil => cases hi
      | cons i is =>
        obtain ⟨h1, h2⟩ := hi
        cases is with
        | cons _ _ => cases h2
        | nil =>
          have : i = 0 := by
            have : i < 1 := h1
            omega
          subst this
          rfl

theorem exS3Foreign_notZarr (more : List (String × Json)) : ¬ (exS3Foreign more).view.IsZarr "f".toList := by
  rintro ⟨m, hm, h⟩
  have hk : (exS3Foreign more).view.keys = ["f/d/0".toList, "f/d/attributes.json".toList] := rfl
  unfold Bucket.HasNode at h
  rw [hk] at h
  revert m
  decide +kernel

/-- The theorems apply: the array is read. -/
example : ∃ o d, ((S3Handle.mk "f".toList .r).openDataset "d".toList).Does 10 (exS3Foreign []).view (.ok o) (exS3Foreign []).view ∧
    o.StandsFor d exLibs exElem exForeignDesc "f/d".toList .r ∧ d.ReadsAsS3 "f/d".toList (exS3Foreign []).view exForeignElems :=
  c84_open (exLibs_lawful _) (exS3Foreign_holds exForeign_plain) exForeign_supported rfl (by decide +kernel) rfl (by decide) nofun

/-- In Python, with other attributes next to the ones of the format -/
example : ∃ o d, ((S3PyGroup.mk ⟨"f".toList, .a⟩ 2).item "/d".toList).Does 18 (exS3Foreign [("unit", .str "nm")]).view
      (.ok (.inr o)) (exS3Foreign [("unit", .str "nm")]).view ∧
    o.StandsFor d exLibs exElem exForeignDesc "f/d".toList .a ∧
    d.ReadsAsS3 "f/d".toList (exS3Foreign [("unit", .str "nm")]).view exForeignElems :=
  c84_getitem (exLibs_lawful _) (exS3Foreign_holds exForeign_plain_unit) exForeign_supported rfl (by decide +kernel) rfl (by decide)
    (by decide) ⟨fun h => absurd h (exS3Foreign_notZarr _), nofun⟩ (by
      intro j hj
      have h1 := hj.view (RawBucket.isDocument_named (name := "f/d".toList) (n := "attributes.json") (by decide))
      have h2 := (exS3Foreign_text exForeign_plain_unit).view
        (RawBucket.isDocument_named (name := "f/d".toList) (n := "attributes.json") (by decide))
      have h3 : some (S3Obj.doc j) = _ := h1.symm.trans h2
      cases h3
      exact .inr rfl)

theorem exists_performsS3_scalar {d : AnyDataset E} {off shape : List Nat} {v : E.T}
    (hc : (RegionCall.scalar off shape v).Valid d.base) {ts : List (Prog Unit)} (h1 : d.start (.scalar off shape v) (fun _ => []) = .ok ts)
    (h2 : ∀ is rs, Prog.Finished (Prog.interleaveS3 name is (ts, b)).1 rs → ∀ r ∈ rs, r = .ok ()) :
    ∃ b', d.PerformsS3 name ⟨off, shape, fun _ => v⟩ b b' := by
  obtain ⟨is, rs, hfin⟩ := Prog.exists_finished (ts, b.chunks name)
  rw [← (interleaveS3_eq _ is ts b).1] at hfin
  exact ⟨_, .region (.scalar off shape v) (fun _ => v) (fun _ => []) ts is hc (fun _ _ => rfl) h1 ⟨rs, hfin, h2 is rs hfin, rfl⟩⟩

/-- An N5 array is opened for writing, the element of the missing block is written, and an attribute is set; all objects are destroyed
and the array is opened in mode `r`. -/
theorem exS3Uses (h : b₀.HoldsArray "f/d".toList .n5 exForeignDesc U8 (exLibs.codec U8.size .raw) (exElem (.int 0)) exForeignElems)
    (hn : b₀.Node "f/d".toList .n5) :
    ∃ o b, S3Uses exLibs exElem "f/d".toList .n5 b₀ [o] [⟨[2], [1], fun _ => (9 : Fin (256 ^ 1))⟩] b ∧ o.obj.handle.mode = .r ∧
    b.attributes "f/d".toList .n5 "unit" = some (.str "nm") ∧
    ∃ d A, o.StandsFor d exLibs exElem exForeignDesc "f/d".toList .r ∧ d.ReadsAsS3 "f/d".toList b A ∧
      A [1] = (6 : Fin (256 ^ 1)) ∧ A [2] = (9 : Fin (256 ^ 1)) ∧
      ∀ R : RawBucket, R.Stores b → R.HoldsArray "f/d".toList .n5 exForeignDesc U8 (exLibs.codec U8.size .raw) (exElem (.int 0)) A := by
  have hx : exForeignDesc.fill = some .zero := rfl
  have hv : exForeignDesc.dtype.castFill .zero = .ok (.int 0) := by decide +kernel
  have hc : exForeignDesc.dtype.isComplex = false := rfl
  obtain ⟨o, d, ho, hst, -⟩ := open_s3 (E := U8) (L := exLibs) (elem := exElem) (root := ⟨"f".toList, .a⟩) (key := "d".toList)
    (exLibs_lawful _) h exForeign_supported hx hv hc (by decide) nofun
  obtain ⟨w, hw, hwb⟩ := does_calm ho
  have u1 : S3Uses exLibs exElem "f/d".toList .n5 b₀ [o] [] w.bucket :=
    .opened .start (exS3_calm _) (root := ⟨"f".toList, .a⟩) (key := "d".toList) (by decide) nofun hw
  rw [hwb] at u1
  have hmode : o.obj.handle.mode.canWrite = true := by rw [hst.mode]; rfl
  have hcall : (RegionCall.scalar (E := U8) [2] [1] (9 : Fin (256 ^ 1))).Valid d.base := ⟨by rw [hst.base.1]; decide, trivial⟩
  obtain ⟨ts, h1, h2⟩ := c84_write_succeeds (E := U8) (L := exLibs) (a := exForeignDesc) (La := .n5) (elem := exElem) (v := .int 0)
    (x := .zero) (root := ⟨"f".toList, .a⟩) (key := "d".toList) (exLibs_lawful _) (exLibs_total _ _ _) h exForeign_supported hx hv hc
    (by decide) nofun rfl (exS3_calm _) hw hst.typed hcall fun _ => []
  obtain ⟨b1, hp⟩ := exists_performsS3_scalar hcall h1 fun is rs hfin r hr' => (h2 is rs hfin r hr').elim id fun ⟨_, e⟩ => absurd rfl e
  have u2 := u1.wrote (List.mem_singleton.2 rfl) hmode hst.typed (by rw [hst.name]; exact hp)
  obtain ⟨b2, c1, c2⟩ := (c84_attributes (exLibs_lawful _) h exForeign_supported hx hv hc hn u2 (List.mem_singleton.2 rfl) hmode
    (op := .write (.obj [("unit", .str "nm")])) ⟨_, rfl, by decide⟩).2 (by decide)
  obtain ⟨w2, hw2, hwb2⟩ := does_calm c1
  have u3 := S3Uses.closed (os' := []) (u2.annotated (exS3_calm 11) (List.mem_singleton.2 rfl) (op := .write (.obj [("unit", .str "nm")]))
    ⟨_, rfl, by decide⟩) (fun _ h => by cases h)
  rw [hw2, hwb2] at u3
  have u3 : S3Uses exLibs exElem "f/d".toList .n5 b₀ [] [⟨[2], [1], fun _ => (9 : Fin (256 ^ 1))⟩] b2 := u3
  obtain ⟨A', i1, i2, -⟩ := c84_sessions (exLibs_lawful _) h exForeign_supported hx hv hc hn u3
  obtain ⟨o2, d2, ho2, hst2, -⟩ := open_s3 (E := U8) (L := exLibs) (elem := exElem) (root := ⟨"f".toList, .r⟩) (key := "d".toList)
    (exLibs_lawful _) i1 exForeign_supported hx hv hc (by decide) nofun
  obtain ⟨w3, hw3, hwb3⟩ := does_calm ho2
  have u4 : S3Uses exLibs exElem "f/d".toList .n5 b₀ [o2] [⟨[2], [1], fun _ => (9 : Fin (256 ^ 1))⟩] w3.bucket :=
    .opened u3 (exS3_calm _) (root := ⟨"f".toList, .r⟩) (key := "d".toList) (by decide) nofun hw3
  rw [hwb3] at u4
  refine ⟨o2, b2, u4, hst2.mode, ?_, ?_⟩
  · rw [c2.attributes]
    rfl
  · obtain ⟨A3, j1, j2, j3⟩ := c84_sessions (exLibs_lawful _) h exForeign_supported hx hv hc hn u4
    obtain ⟨d3, k1, k2⟩ := j3 o2 (List.mem_singleton.2 rfl)
    rw [hst2.mode] at k1
    refine ⟨d3, A3, k1, k2, ?_, ?_, fun R hR => c84_bytes j1 exForeign_supported hR⟩
    · rcases j2 [1] (by decide) with e | ⟨e, _⟩
      · exact e
      · exact absurd e (by decide +kernel)
    · rcases j2 [2] (by decide) with e | ⟨e, _⟩
      · exact e
      · exact absurd e (by decide +kernel)

/-- for the array above -/
example : ∃ o b, S3Uses exLibs exElem "f/d".toList .n5 (exS3Foreign []).view [o] [⟨[2], [1], fun _ => (9 : Fin (256 ^ 1))⟩] b ∧
    o.obj.handle.mode = .r ∧ b.attributes "f/d".toList .n5 "unit" = some (.str "nm") ∧
    ∃ d A, o.StandsFor d exLibs exElem exForeignDesc "f/d".toList .r ∧ d.ReadsAsS3 "f/d".toList b A ∧
      A [1] = (6 : Fin (256 ^ 1)) ∧ A [2] = (9 : Fin (256 ^ 1)) ∧
      ∀ R : RawBucket, R.Stores b → R.HoldsArray "f/d".toList .n5 exForeignDesc U8 (exLibs.codec U8.size .raw) (exElem (.int 0)) A := by
  have hdoc : (exS3Foreign []).view.get (docKey "f/d".toList "attributes.json") = some (.doc (exForeignDoc [])) :=
    (exS3Foreign_text exForeign_plain).view (RawBucket.isDocument_named (name := "f/d".toList) (n := "attributes.json") (by decide))
  refine exS3Uses ((exS3Foreign_holds exForeign_plain).view exForeign_supported) ⟨.inr ⟨exForeignDoc [], ?_, _, rfl, by decide⟩, nofun, nofun⟩
  unfold Bucket.docAt
  rw [show (exS3Foreign []).view.get (docKey "f/d".toList Layout.n5.file) = _ from hdoc]

/-- A dataset is created on S3, and a value is written: `c84_created`. -/
example : ∃ (a : ArrayDesc) (A : List Nat → U8.T) (b : Bucket),
    b.HoldsArray "f/d".toList .v2 a U8 (exLibs.codec U8.size a.compression) (exElem exS3Ds.obj.fill) A ∧ a.shape = [5, 4] ∧
    A [2, 1] = (9 : Fin (256 ^ 1)) := by
  have h0 : exS3Root.createDataset "d".toList exArgs ⟨List.replicate 7 {}, exS3Zarr⟩ = (some (.ok exS3Ds), exS3Created) :=
    S3M.run_eq (by decide +kernel)
  obtain ⟨d, hty, hall⟩ := c78_write_succeeds (exLibs_lawful _) exS3Ds_describable exS3Ds_typed_eq exS3Typed_wf exS3_session
    (exLibs_total _ _ _) (List.mem_singleton.2 rfl) rfl
  rw [exS3Ds_typed_eq] at hty
  cases hty
  generalize exS3Created = w at h0 hall
  have hc : (RegionCall.scalar (E := U8) [2, 1] [1, 2] (9 : Fin (256 ^ 1))).Valid (AnyDataset.plain exS3Typed).base :=
    ⟨show RegionOk [5, 4] [2, 1] [1, 2] by decide, trivial⟩
  obtain ⟨ts, h1, h2⟩ := hall _ hc fun _ => []
  obtain ⟨b', hp⟩ := exists_performsS3_scalar hc h1 fun is rs hfin r hr' => (h2 is rs hfin r hr').elim id fun ⟨_, sd, e⟩ => nomatch e
  obtain ⟨a, x, A, i1, i2, _, _, _, _, _, _, i3⟩ := c84_created (root := exS3Root) (key := "d".toList) (exS3_calm 7) h0 exS3Ds_describable
    (exLibs_lawful _) exS3Ds_typed_eq exS3Typed_wf (by decide) (.step .nil hp)
  refine ⟨a, A, _, i1, i2, ?_⟩
  have i4 := i3 [2, 1] (by rw [i2]; decide)
  rcases i4 with e | ⟨e, _⟩
  · exact e
  · exact absurd e (by decide +kernel)

/-- An array of complex numbers; no chunk has been written. -/
def exComplexDoc : Json := .obj [("chunks", .arr [.int 2]), ("compressor", .null), ("dtype", .str "<c8"), ("fill_value", .int 0),
  ("filters", .null), ("order", .str "C"), ("shape", .arr [.int 2]), ("zarr_format", .int 2)]

/-- It is not opened: `c84_complex`. -/
example : ((S3Handle.mk "f".toList .a).openDataset "d".toList).Does 10
    (RawBucket.view [("f/d/.zarray".toList, Utf8.encode (JsonText.text JsonText.dumps exactDigits exComplexDoc))]) (.throw .runtimeError)
    (RawBucket.view [("f/d/.zarray".toList, Utf8.encode (JsonText.text JsonText.dumps exactDigits exComplexDoc))]) := by
  have hplain : JsonText.Plain exComplexDoc :=
    ⟨by decide, ⟨⟨by decide, by decide⟩, trivial⟩, trivial, trivial, ⟨by decide, by decide⟩, trivial, trivial,
      ⟨⟨by decide, by decide⟩, trivial⟩, ⟨by decide, by decide⟩, trivial⟩
  refine c84_complex (E := Elem.uint 8 (by decide)) (C := Codec.raw) (La := .v2) (name := "f/d".toList) (fill := (0 : Fin (256 ^ 8)))
    (a := ⟨.complex64, [2], [2], [], .raw, some (.ofInt 0), ".", "default"⟩) (A := fun _ => (0 : Fin (256 ^ 8)))
    ⟨by decide, ⟨_, c84_text exactDigits_lawful hplain (.inr (.inr rfl)) rfl, ⟨rfl, rfl, rfl, rfl, rfl, .inl rfl, ⟨_, rfl, .raw⟩,
      .inl (.int 0), .inr ⟨rfl, rfl⟩, rfl, rfl⟩⟩, ?_, ?_⟩ ⟨by decide, by decide, by decide, by decide, fun h => absurd rfl h, by decide⟩ rfl (by decide)
  · intro n hn hne
    simp only [List.mem_cons, List.not_mem_nil, or_false] at hn
    rcases hn with rfl | rfl | rfl
    · exact absurd rfl hne
    · rfl
    · rfl
  · refine ⟨_, fun _ _ => rfl, fun c hc => ?_⟩
    have : c = [0] := by
      cases c with
      | nil => cases hc
      | cons i is =>
        obtain ⟨h1, h2⟩ := hc
        cases is with
        | cons _ _ => cases h2
        | nil =>
          have : i * 2 < 2 := h1
          have : i = 0 := by omega
          rw [this]
    subst this
    dsimp only
    rw [show RawBucket.content [("f/d/.zarray".toList, Utf8.encode (JsonText.text JsonText.dumps exactDigits exComplexDoc))]
      ("f/d".toList ++ '/' :: ArrayDesc.fileName ⟨.complex64, [2], [2], [], .raw, some (.ofInt 0), ".", "default"⟩ .v2 [0]) = none by decide +kernel]
    exact fun _ _ => rfl

/-! ### Where the library does not read an array -/

/-- A bucket that is an N5 array: the document is `attributes.json`, the block is `0`. -/
def exS3Root0 : RawBucket :=
  [("0".toList, [0, 0, 0, 1, 0, 0, 0, 2, 5, 6]),
    ("attributes.json".toList, Utf8.encode (JsonText.text JsonText.dumps exactDigits (exForeignDoc [])))]

/-- **C84, negation**: an array may be the bucket itself, with its document in `attributes.json` and its blocks in `0`, `1` … .
`openDataset` finds the document, but the blocks are looked for in `/0`, `/1` … , and every element reads as the fill value. -/
theorem c84_root_counterexample : ∃ (R : RawBucket) (j : Json) (a : ArrayDesc) (A : List Nat → U8.T),
    R.HasText "attributes.json".toList j ∧ N5.Describes j a ∧ a.Supported .n5 U8.size ∧
    (∀ n ∈ [".zarray", "zarr.json"], R.content n.toList = none) ∧
    a.IsStored .n5 U8 (exLibs.codec U8.size a.compression) (exElem (.int 0)) R.content A ∧ A [0] = (5 : Fin (256 ^ 1)) ∧
    ∃ o d, ((S3Handle.mk [] .r).openDataset []).Does 10 R.view (.ok o) R.view ∧ o.StandsFor d exLibs exElem a [] .r ∧
      d.ReadsAsS3 [] R.view fun _ => (0 : Fin (256 ^ 1)) := by
  have ht : exS3Root0.HasText "attributes.json".toList (exForeignDoc []) :=
    c84_text exactDigits_lawful exForeign_plain (.inr (.inr rfl)) rfl
  have hd : N5.Describes (exForeignDoc []) exForeignDesc := ⟨⟨"uint8", rfl, rfl⟩, rfl, rfl, ⟨_, rfl, .raw rfl⟩, rfl, rfl⟩
  refine ⟨exS3Root0, exForeignDoc [], exForeignDesc, exForeignElems, ht, hd, exForeign_supported, by decide +kernel, ?_, rfl, ?_⟩
  · intro g hg
    rcases exForeign_grid hg with rfl | rfl <;> dsimp only
    · rw [show exS3Root0.content (n5Name [0]) = some [0, 0, 0, 1, 0, 0, 0, 2, 5, 6] by
        rw [show n5Name [0] = "0".toList by decide +kernel]; rfl]
      exact ⟨[5, 6], by decide +kernel, show [5, 6] = _ by decide +kernel⟩
    · rw [show exS3Root0.content (n5Name [1]) = none by
        rw [show n5Name [1] = "1".toList by decide +kernel]; rfl]
      intro i hi
      cases i with
      | nil => cases hi
      | cons i is =>
        obtain ⟨h1, h2⟩ := hi
        cases is with
        | cons _ _ => cases h2
        | nil =>
          have : i = 0 := by
            have : i < 1 := h1
            omega
          subst this
          rfl
  · have hj : exS3Root0.view.get (docKey [] Layout.n5.datasetFile) = some (.doc (exForeignDoc [])) :=
      ht.view ⟨"attributes.json", by decide, .inl rfl⟩
    have ho : ∀ n ∈ [".zarray", "zarr.json", "attributes.json"], n ≠ Layout.n5.datasetFile → exS3Root0.view.get (docKey [] n) = none := by
      intro n hn hne
      simp only [List.mem_cons, List.not_mem_nil, or_false] at hn
      rcases hn with rfl | rfl | rfl
      · rfl
      · rfl
      · exact absurd rfl hne
    have hk : ∀ k, exS3Root0.view.chunks [] k = none := by
      intro k
      have : exS3Root0.view.get ('/' :: k) = none := by
        rw [RawBucket.view_get]
        rfl
      unfold Bucket.chunks
      rw [show chunkObject [] k = '/' :: k from rfl, this]
    generalize exS3Root0.view = b at hj ho hk
    obtain ⟨o, d, h1, h2, g⟩ := s3Array_open (E := U8) (L := exLibs) (elem := exElem) (v := .int 0) (x := .zero)
      (root := ⟨[], .r⟩) (key := []) hj (.inl hd) ho (exLibs_lawful _) exForeign_supported rfl (by decide +kernel) rfl rfl nofun
    have hst := g.stands
    rw [show o.obj.handle.mode = .r from h2] at hst
    refine ⟨o, d, h1, hst, AnyDataset.Files.readsAsS3 hst.wf ((g.files _ _).2 ?_)⟩
    intro g hg
    dsimp only
    rw [hk]
    intro i hi
    rfl

end Z5.Props
