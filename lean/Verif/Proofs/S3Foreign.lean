import Verif.Proofs.ForeignUse
import Verif.Proofs.S3Persist
import Verif.Spec.S3Foreign

/-!
# Buckets of other programs (C84)
-/

namespace Z5
open Spec Props

variable {E : Elem} {name : Key} {La : Layout} {a : ArrayDesc}

/-! ### Dataset objects and stores -/

namespace AnyDataset

variable {d : AnyDataset E}

theorem Files.inStore (h : d.WF) {τ : Store} {A : List Nat → E.T} (hA : d.Files τ A) :
    ∃ S, d.InStore τ S ∧ ∀ x, InBox x d.base.shape → S x = A x := by
  cases d with
  | plain ds =>
    unfold Files at hA
    dsimp only at hA
    cases hz : ds.isZarr with
    | true =>
      rw [hz, if_pos rfl] at hA
      obtain ⟨P, hP, hB⟩ := holds_of_zarrFiles h hz hA
      exact ⟨P, ⟨P, hB, fun _ _ _ _ => Or.inl rfl⟩, hP⟩
    | false =>
      rw [hz, if_neg (by decide)] at hA
      exact ⟨A, ⟨A, (n5_iff_holds h hz).1 hA, fun _ _ _ _ => Or.inl rfl⟩, fun _ _ => rfl⟩
  | sharded sd =>
    obtain ⟨hv, P, hP, hB⟩ := holds_of_sharded h ((shardFiles_iff h).1 hA)
    exact ⟨P, ⟨hv, P, hB, fun _ _ _ _ => Or.inl rfl⟩, hP⟩

theorem InStore.files (h : d.WF) {τ : Store} {S : List Nat → E.T} (hS : d.InStore τ S) :
    ∃ A, d.Files τ A ∧ ∀ x, InBox x d.base.shape → SameOrFill E.ceq d.base.fill (A x) (S x) := by
  cases d with
  | plain ds =>
    obtain ⟨A, h1, h2⟩ := hS
    refine ⟨A, ?_, fun x hx => ?_⟩
    · unfold Files
      dsimp only
      cases hz : ds.isZarr with
      | true => rw [if_pos rfl]; exact zarrFiles_of_holds h hz h1
      | false => rw [if_neg (by decide)]; exact (n5_iff_holds h hz).2 h1
    · have hch := (inChunk_iff_div (c := divV x ds.chunkShape) h.dims.axes).2 ⟨hx, rfl⟩
      exact h2 _ x (inGrid_of_inChunk hch) (.of_inChunk hch)
  | sharded sd =>
    obtain ⟨hv, A, h1, h2⟩ := hS
    exact ⟨A, (shardFiles_iff h).2 (sharded_of_holds h hv h1), refinesB_inBox h h2⟩

theorem Files.readsAsS3 (h : d.WF) {b : Bucket} {A : List Nat → E.T} (hA : d.Files (b.chunks name) A) : d.ReadsAsS3 name b A := by
  intro off out outBuf scratch hr hfit hna
  have hts : ∃ ts, d.readSubarray out off scratch = .ok ts ∧
      ∀ is rs, Prog.Finished (Prog.interleave is (ts, b.chunks name)).1 rs →
        (Prog.interleave is (ts, b.chunks name)).2 = b.chunks name ∧ (∃ out', Delivers outBuf rs out') ∧
        ∀ out', Delivers outBuf rs out' → out'.length = outBuf.length ∧
          (∀ i, InBox i out.shape → out'[out.base + dot i out.strides]? = some (A (addV off i))) ∧
          (∀ a, (∀ i, InBox i out.shape → out.base + dot i out.strides ≠ a) →
            out'[a]? = outBuf[a]?) := by
    cases d with
    | plain ds =>
      unfold Files at hA
      dsimp only at hA
      cases hz : ds.isZarr with
      | true =>
        rw [hz, if_pos rfl] at hA
        exact c81_read_zarr h hz hA off out outBuf scratch hr hfit hna
      | false =>
        rw [hz, if_neg (by decide)] at hA
        exact c81_read_n5 h hz hA off out outBuf scratch hr hfit hna
    | sharded sd => exact c81_read_sharded h hA off out outBuf scratch hr hfit hna
  obtain ⟨ts, hts, hread⟩ := hts
  refine ⟨ts, hts, fun is rs hfin => ?_⟩
  rw [(interleaveS3_eq name is ts b).1] at hfin
  exact ⟨interleaveS3_readOnly is fun s hs => (read_within h hr hts s hs).2, (hread is rs hfin).2⟩

end AnyDataset

/-! ### Opening -/

theorem docKey_named (h : name ≠ []) (n : String) : docKey name n = name ++ '/' :: n.toList := by
  unfold docKey joinKey
  rw [if_neg]
  simpa using h

/-- The document is read. -/
theorem s3Document_read {b : Bucket} {j : Json} (hf : a.Fits)
    (hj : b.get (docKey name La.datasetFile) = some (.doc j)) (hd : La.Says j a)
    (ho : ∀ n ∈ [".zarray", "zarr.json", "attributes.json"], n ≠ La.datasetFile → b.get (docKey name n) = none) :
    ∃ m, b.metadata name = .ok m ∧ m.isZarr = La.isZarr ∧ m.Holds a ∧ b.chunkConfig name = .ok (a.config La) := by
  unfold Bucket.metadata Bucket.chunkConfig
  cases La with
  | v2 =>
    have h1 := ho "zarr.json" (by simp) (by decide)
    have hj : b.get (docKey name ".zarray") = some (.doc j) := hj
    obtain ⟨m, e1, e2, e3, e4⟩ := c59_v2_read hd hf
    refine ⟨m, ?_, e2, e4, ?_⟩
    · simp [h1, hj, e1]
    · have := c59_v2_keys hd
      simp [h1, hj, this, ArrayDesc.config]
  | v3 =>
    have hj : b.get (docKey name "zarr.json") = some (.doc j) := hj
    obtain ⟨m, e1, e2, e3, e4⟩ := c59_v3_read hd hf
    refine ⟨m, ?_, e2, e4, ?_⟩
    · simp [hj, e1]
    · have := c59_v3_keys hd none
      simp [hj, this, ArrayDesc.config]
  | n5 =>
    have h1 := ho ".zarray" (by simp) (by decide)
    have h2 := ho "zarr.json" (by simp) (by decide)
    have hj : b.get (docKey name "attributes.json") = some (.doc j) := hj
    have : ∃ m, Meta.fromJson j false = .ok m ∧ m.isZarr = false ∧ m.Holds a := by
      rcases hd with hd | hd
      · exact c59_n5_read hd hf
      · exact c59_n5_read_old hd hf
    obtain ⟨m, e1, e2, e4⟩ := this
    refine ⟨m, ?_, e2, e4, ?_⟩
    · simp [h1, h2, hj, e1]
    · simp only [h1, h2]
      rfl

variable {L : Libs} {elem : FillVal → E.T} {x : Dbl} {v : FillVal} {A : List Nat → E.T} {b b' : Bucket}

/-- What an object has to do with the array, with what the proofs need -/
structure S3ArrayObj (L : Libs) (elem : FillVal → E.T) (name : Key) (La : Layout) (a : ArrayDesc) (v : FillVal) (o : S3DatasetObj)
    (d : AnyDataset E) : Prop where
  stands : o.StandsFor d L elem a name o.obj.handle.mode
  cache : o.obj.handle.cache = some La.isZarr
  fill : d.base.fill = elem v
  codec : d.base.codec = L.codec E.size a.compression
  key : d.IsKey = a.IsFile La
  files : ∀ S A, d.Files S A ↔ a.IsStored La E (L.codec E.size a.compression) (elem v) S A
  shards : ∀ sd, d = .sharded sd → a.shards ≠ []
  names : getChunkKey d.base.key = a.fileName La
  part : d.fileShape = a.part

/-- Opening what the document says -/
theorem s3Array_open {j : Json} (hj : b.get (docKey name La.datasetFile) = some (.doc j)) (hd : La.Says j a)
    (ho : ∀ n ∈ [".zarray", "zarr.json", "attributes.json"], n ≠ La.datasetFile → b.get (docKey name n) = none) (hL : L.Lawful)
    (hs : a.Supported La E.size) (hx : a.fill = some x) (hv : a.dtype.castFill x = .ok v) (hc : a.dtype.isComplex = false)
    {root : S3Handle} {key : Key} (hn : joinKey root.name key = name) (hz : La.isZarr = true → b.IsZarr root.name) :
    ∃ o d, (root.openDataset key).Does 10 b (.ok o) b ∧ o.obj.handle.mode = root.mode ∧ S3ArrayObj L elem name La a v o d := by
  obtain ⟨m, r1, r2, r4, r5⟩ := s3Document_read hs.fits hj hd ho
  obtain ⟨o, d, ho, hi, _, hmode, hcache, t1, t2, t3, t4, t5, t6, t7, t8, t9, t10, t11⟩ := object_made (elem := elem)
    (hd0 := ⟨[], root.mode, (a.config La).delimiter, (a.config La).zarrFormat, (a.config La).encoding, none⟩) hL hd hs hx hv r2 r4
    ⟨rfl, rfl, rfl⟩ .s3
  refine ⟨⟨name, o⟩, d, s3OpenDataset_does hn r1 r5 ?_ ho (by rw [r4.dtype]; exact hc), hmode,
    ⟨t1, rfl, rfl, by rw [hi]; exact r4.dtype, by rw [hi]; exact r4.shape, by rw [hi]; exact r4.chunks, by rw [hi]; exact r4.shards, t2,
      t4, t5, t8.trans (by rw [hmode])⟩, hcache, t6, t7, t9, t10, t11.1, t11.2.1, t11.2.2⟩
  intro hb
  cases La with
  | v2 => exact absurd (hz rfl) hb
  | v3 => exact absurd (hz rfl) hb
  | n5 => rfl

theorem Bucket.HoldsArray.documents {C : Codec} {fill : E.T} (h : b.HoldsArray name La a E C fill A) :
    (∃ j, b.get (docKey name La.datasetFile) = some (.doc j) ∧ La.Says j a) ∧
    ∀ n ∈ [".zarray", "zarr.json", "attributes.json"], n ≠ La.datasetFile → b.get (docKey name n) = none := by
  simp only [docKey_named h.named]
  exact ⟨h.document, h.others⟩

/-- Opening an array -/
theorem Bucket.HoldsArray.open {C : Codec} {fill : E.T} (h : b.HoldsArray name La a E C fill A) (hL : L.Lawful)
    (hs : a.Supported La E.size) (hx : a.fill = some x) (hv : a.dtype.castFill x = .ok v) (hc : a.dtype.isComplex = false)
    {root : S3Handle} {key : Key} (hn : joinKey root.name key = name) (hz : La.isZarr = true → b.IsZarr root.name) :
    ∃ o d, (root.openDataset key).Does 10 b (.ok o) b ∧ o.obj.handle.mode = root.mode ∧ S3ArrayObj L elem name La a v o d := by
  obtain ⟨⟨j, hj, hd⟩, ho⟩ := h.documents
  exact s3Array_open hj hd ho hL hs hx hv hc hn hz

/-! ### Bytes in objects -/

namespace RawBucket

variable {R : RawBucket}

theorem view_get (k : Key) : R.view.get k = (R.content k).map (object k) := by
  unfold view Bucket.get content
  induction R with
  | nil => rfl
  | cons p R ih =>
    simp only [List.map_cons, List.find?_cons]
    cases e : p.1 == k with
    | true =>
      simp only [Option.map_some]
      rw [eq_of_beq e]
    | false => exact ih

theorem object_file {k : Key} {bytes : Bytes} (h : ¬ IsDocument k) : object k bytes = .file bytes := by
  unfold object
  rw [if_neg h]

theorem HasText.view {k : Key} {j : Json} (h : R.HasText k j) (hk : IsDocument k) : R.view.get k = some (.doc j) := by
  obtain ⟨bom, t, hb, ht, hc⟩ := h
  rw [view_get, hc]
  rw [Option.map_some, object, if_pos hk, (c82_file hb ht).2]

theorem isDocument_named {n : String} (h : n ∈ documentFiles) : IsDocument (name ++ '/' :: n.toList) :=
  ⟨n, h, .inr ⟨name, rfl⟩⟩

/-- an object with elements is none of the documents -/
theorem file_not_document (hs : a.shape ≠ []) {k : Key} (hk : a.IsFile La k) : ¬ IsDocument (name ++ '/' :: k) := by
  rintro ⟨n, hn, e⟩
  obtain ⟨c, hc, rfl⟩ := hk
  have : c ≠ [] := by
    rintro rfl
    cases e : a.shape with
    | nil => exact hs e
    | cons x l =>
      rw [e] at hc
      cases e' : a.part with
      | nil => rw [e'] at hc; exact hc
      | cons y m => rw [e'] at hc; exact hc
  obtain ⟨l, x, h1, h2⟩ := a.fileName_last La this
  have hne : n.toList ≠ [] := by
    simp only [documentFiles, List.mem_cons, List.not_mem_nil, or_false] at hn
    rcases hn with rfl | rfl | rfl | rfl | rfl <;> simp
  have hl : n.toList.getLast? = some x := by
    have e1 : (name ++ '/' :: a.fileName La c).getLast? = some x := by
      rw [h1, show name ++ '/' :: (l ++ [x]) = (name ++ '/' :: l) ++ [x] by simp, List.getLast?_concat]
    rcases e with e | ⟨t, e⟩
    · rw [← e]; exact e1
    · rw [← e, List.getLast?_append, List.getLast?_cons] at e1
      cases e2 : n.toList.getLast? with
      | none => exact absurd (List.getLast?_eq_none_iff.1 e2) hne
      | some y => rw [e2] at e1; exact e1
  rw [documentFiles_last hn hl] at h2
  cases h2

end RawBucket

/-- What is in the bytes is what the library sees. -/
theorem RawBucket.HoldsArray.view {R : RawBucket} {C : Codec} {fill : E.T} (h : R.HoldsArray name La a E C fill A)
    (hs : a.Supported La E.size) : R.view.HoldsArray name La a E C fill A where
  named := h.named
  document := by
    obtain ⟨j, h1, h2⟩ := h.document
    exact ⟨j, h1.view (isDocument_named (ArrayDesc.datasetFile_mem La)), h2⟩
  others n hn hne := by rw [view_get, h.others n hn hne]; rfl
  elements := by
    obtain ⟨j, _, h2⟩ := h.document
    refine h.elements.congr (fun k hk => ?_) hs fun e => h2.v3_of_shards e
    unfold Bucket.chunks chunkObject
    rw [view_get]
    cases R.content (name ++ '/' :: k) with
    | none => rfl
    | some bytes => simp only [Option.map_some]; rw [object_file (file_not_document hs.axes.1 hk)]

/-! ### Writing -/

theorem AnyDataset.DoesS3.effect {d : AnyDataset E} (h : d.WF) (hw : d.base.canWrite = true) {ws : List (Write E.T)}
    (hp : d.DoesS3 name ws b b') :
    (∀ n, MetaName n → b'.get (docKey name n) = b.get (docKey name n)) ∧
      ∀ S, d.InStore (b.chunks name) S → d.InStore (b'.chunks name) (replay S ws) := by
  induction hp with
  | nil => exact ⟨fun _ _ => rfl, fun S hS => hS⟩
  | step _ hp ih =>
    obtain ⟨i1, i2⟩ := ih
    obtain ⟨j1, j2⟩ := hp.effect h hw
    refine ⟨fun n hn => (j1 _ fun k hk => chunk_ne_doc hk hn).trans (i1 n hn), fun S hS => ?_⟩
    rw [replay_append]
    exact j2 _ (i2 S hS)

/-- If the documents stay, what they say stays. -/
theorem Bucket.HoldsArray.docs {C : Codec} {fill : E.T} {A' : List Nat → E.T} (h : b.HoldsArray name La a E C fill A)
    (hd : ∀ n, MetaName n → b'.get (docKey name n) = b.get (docKey name n)) (he : a.IsStored La E C fill (b'.chunks name) A') :
    b'.HoldsArray name La a E C fill A' := by
  simp only [docKey_named h.named] at hd
  refine ⟨h.named, ?_, fun n hn hne => ?_, he⟩
  · rw [hd _ (datasetFile_meta La)]; exact h.document
  · rw [hd _ (other_meta hn)]; exact h.others n hn hne

/-- Writing keeps an array an array. -/
theorem Bucket.HoldsArray.does {d : AnyDataset E} {ws : List (Write E.T)}
    (h : b.HoldsArray name La a E d.base.codec d.base.fill A) (hwf : d.WF) (hw : d.base.canWrite = true)
    (hs : d.base.shape = a.shape)
    (hfiles : ∀ S A, d.Files S A ↔ a.IsStored La E d.base.codec d.base.fill S A) (hp : d.DoesS3 name ws b b') :
    ∃ A', b'.HoldsArray name La a E d.base.codec d.base.fill A' ∧
      ∀ x, InBox x a.shape → SameOrFill E.ceq d.base.fill (A' x) (replay A ws x) := by
  obtain ⟨e2, e3⟩ := hp.effect hwf hw
  obtain ⟨S, hS, hSA⟩ := AnyDataset.Files.inStore hwf ((hfiles _ _).2 h.elements)
  obtain ⟨A', f1, f2⟩ := AnyDataset.InStore.files hwf (e3 S hS)
  refine ⟨A', h.docs e2 ((hfiles _ _).1 f1), fun x hx => ?_⟩
  rw [← hs] at hx
  rw [← replay_congr ws (hSA x hx)]
  exact f2 x hx

/-- What was written to a new array is there in the format. -/
theorem s3Created_holds {root : S3Handle} {key : Key} {args : CreateArgs} {o : S3DatasetObj} {w : World} {es : List Event}
    {d : AnyDataset E} {ws : List (Write E.T)} (hes : ∀ e ∈ es, e.Reliable)
    (h : root.createDataset key args ⟨es, b⟩ = (some (.ok o), w)) (hdesc : o.obj.Describable)
    (hL : L.LawfulFor (prod d.base.chunkShape * E.size))
    (ht : o.typed L elem = .ok d) (hwf : d.WF) (hname : joinKey root.name key ≠ [])
    (hw : d.DoesS3 (joinKey root.name key) ws w.bucket b') :
    ∃ a x A, b'.HoldsArray (joinKey root.name key) o.obj.layout a E (L.codec E.size a.compression) (elem o.obj.fill) A ∧
      a.shape = args.shape ∧ a.chunks = args.chunkShape ∧ a.shards = args.shardShape ∧
      assocGet Datatype.n5ToDtype args.dtype = some a.dtype ∧
      a.fill = some x ∧ a.dtype.castFill x = .ok o.obj.fill ∧ a.dtype.isComplex = false ∧
      ∀ y, InBox y a.shape → SameOrFill E.ceq (elem o.obj.fill) (A y) (replay (fun _ => elem o.obj.fill) ws y) := by
  obtain ⟨m', cfg, _, _, _, hcar⟩ := created_s3Carries hes h hdesc hwf
  obtain ⟨z, j, hz, hr, hm, hc, hmk, hn, hh, hj, hnn⟩ := createDataset_returned hes h
  obtain ⟨_, _, e3, e4, e5, _, _, _, e9, _⟩ := createMeta_ok hm
  obtain ⟨f1, f2, f3, f4, f5, f6⟩ := typed_fields ht
  have hwrite : d.base.canWrite = true := by
    rw [f3, hh]
    show root.mode.canWrite = true
    revert hr
    cases root.mode <;> first | (intro h; exact absurd rfl h) | (intro _; rfl)
  have hkey : o.obj.keyCfg = ⟨z, args.delimiter.toList, args.zarrFormat.toNat, args.encoding.toList⟩ := by
    unfold DatasetObj.keyCfg
    rw [hh]
    rfl
  obtain ⟨a, x, hsays, a1, a2, a3, a4, a5, a6, hal, q1, q2, _⟩ := created_object hm hmk hkey hj hdesc hL ht
  obtain ⟨u2, u3⟩ := hw.effect hwf hwrite
  obtain ⟨A, v1, v2⟩ := AnyDataset.InStore.files (AnyDataset.variant_wf hal hwf)
    ((AnyDataset.variant_inStore (w := d.base.canWrite) hal).2 (u3 _ hcar.holds))
  rw [AnyDataset.variant_base] at v2
  have hfile := datasetFile_eq o.obj
  have hff : elem o.obj.fill = d.base.fill := f2.symm
  rw [hff] at q2 ⊢
  refine ⟨a, x, A, ⟨hname, ⟨j, ?_, hsays⟩, fun n hn' hne => ?_, (q2 _ _).1 v1⟩, a2.trans e3, a3.trans e4, a4.trans e5, a1 ▸ e9, a5, a6,
    a1 ▸ hc, fun y hy => ?_⟩
  · rw [← docKey_named hname, u2 _ (datasetFile_meta _), hnn.get_doc, ← hfile, if_pos rfl]
  · rw [← docKey_named hname, u2 n (other_meta hn'), hnn.get_doc, if_neg (by rw [hfile]; exact hne)]
  · refine v2 y ?_
    show InBox y d.base.shape
    rw [f4, ← a2]
    exact hy

/-! ### Sessions -/

/-- What happens elsewhere does not matter. -/
theorem Bucket.HoldsArray.elsewhere {C : Codec} {fill : E.T} (h : b.HoldsArray name La a E C fill A)
    (he : ∀ k, dirPrefix name <+: k → b'.get k = b.get k) : b'.HoldsArray name La a E C fill A := by
  refine h.docs (fun n _ => he _ (dirPrefix_docKey name n)) ?_
  have : b'.chunks name = b.chunks name := by
    funext k
    unfold Bucket.chunks
    rw [he _ (dirPrefix_chunk name k)]
  rw [this]
  exact h.elements

theorem S3ArrayObj.refers {C : Codec} {fill : E.T} {o : S3DatasetObj} {d : AnyDataset E} (g : S3ArrayObj L elem name La a v o d)
    (h : b.HoldsArray name La a E C fill A) (hn : b.Node name La) : (S3Target.dataset ⟨name, o.obj.handle⟩).Refers b La := by
  refine ⟨hn, fun e => ?_, fun z e => ?_, fun _ _ e => ?_⟩
  · have e : o.obj.handle.cache = none := e
    rw [g.cache] at e
    cases e
  · have e : o.obj.handle.cache = some z := e
    rw [g.cache] at e
    cases e
    rfl
  · subst e
    obtain ⟨j, hj, _⟩ := h.document
    rw [← docKey_named h.named] at hj
    show b.get (docKey name "attributes.json") ≠ none
    rw [show b.get (docKey name "attributes.json") = _ from hj]
    nofun

theorem get_of_docAt {k : Key} {j : Json} {n : String} (h : b.docAt k = some j) (hn : j.find n ≠ none) : b.get k = some (.doc j) := by
  unfold Bucket.docAt at h
  split at h
  · next e => cases h; exact e
  · cases h; exact absurd rfl hn
  · cases h

/-- Changing the attributes keeps an array an array. -/
theorem Bucket.HoldsArray.onlyAttributes {C : Codec} {fill : E.T} {d : AnyDataset E} {B : AttrMap} (h : b.HoldsArray name La a E C fill A)
    (hs : a.Supported La E.size) (hkey : d.IsKey = a.IsFile La)
    (ho : b.OnlyAttributes b' name La B) (hB : La = .n5 → ∀ k ∈ n5DatasetKeys, B k = b.attributes name .n5 k) :
    b'.HoldsArray name La a E C fill A := by
  obtain ⟨j, hj, hsay⟩ := h.document
  have hob : ∀ n, n ≠ La.file → b'.get (docKey name n) = b.get (docKey name n) := fun n hne => ho.objects _ fun e => hne (docKey_inj e)
  have hoth := h.others
  simp only [← docKey_named h.named] at hj hoth
  refine ⟨h.named, ?_, fun n hn hne => ?_, ?_⟩
  · simp only [← docKey_named h.named]
    cases La with
    | v2 => exact ⟨j, (hob ".zarray" (by decide)).trans hj, hsay⟩
    | v3 =>
      have hj : b.docAt (docKey name "zarr.json") = some j := by
        unfold Bucket.docAt
        rw [show b.get (docKey name "zarr.json") = some (.doc j) from hj]
      obtain ⟨j', hj', _⟩ := ho.node.v3 rfl
      have he : ∀ k, k ≠ "attributes" → j'.find k = j.find k := fun k hk => by
        have := ho.rest rfl k hk
        rw [hj', hj] at this
        exact this
      refine ⟨j', get_of_docAt (n := "zarr_format") hj' ?_, hsay.congr fun k _ hne => he k hne⟩
      rw [he _ (by decide), show j.find "zarr_format" = _ from ZarrV3.Describes.format hsay]
      nofun
    | n5 =>
      have hj : b.docAt (docKey name "attributes.json") = some j := by
        unfold Bucket.docAt
        rw [show b.get (docKey name "attributes.json") = some (.doc j) from hj]
      have hne : b'.get (docKey name "attributes.json") ≠ none := ho.kept fun e => by
        unfold Bucket.docAt at hj
        rw [show b.get (docKey name "attributes.json") = none from e] at hj
        cases hj
      obtain ⟨j', hj', _⟩ := ho.node.doc.resolve_left hne
      have hj' : b'.docAt (docKey name "attributes.json") = some j' := hj'
      have he : ∀ k ∈ n5DatasetKeys, j'.find k = j.find k := fun k hk => by
        have h1 : b'.attributes name .n5 k = _ := congrFun ho.attributes k
        rw [hB rfl k hk] at h1
        unfold Bucket.attributes at h1
        dsimp only [Layout.file] at h1
        rw [hj', hj] at h1
        exact h1
      refine ⟨j', get_of_docAt (n := "dimensions") hj' ?_, hsay.congr fun k hk _ => he k (hk rfl)⟩
      rw [he _ (by decide)]
      rcases hsay with hh | hh
      · rw [show j.find "dimensions" = _ from hh.shape]; nofun
      · rw [show j.find "dimensions" = _ from hh.shape]; nofun
  · rw [← docKey_named h.named]
    by_cases e : n = La.file
    · subst e
      cases La with
      | v2 => simp [Layout.file] at hn
      | v3 => exact absurd rfl hne
      | n5 => exact absurd rfl hne
    · rw [hob n e]
      exact hoth n hn hne
  · have hf : MetaName La.file := by cases La <;> simp [MetaName, Layout.file]
    refine h.elements.congr (fun k hk => ?_) hs fun e => hsay.v3_of_shards e
    unfold Bucket.chunks
    rw [ho.objects _ (chunk_ne_doc (d := d) (by rw [hkey]; exact hk) hf).symm]

theorem Bucket.HoldsArray.annotated {C : Codec} {fill : E.T} {d : AnyDataset E} {o : S3DatasetObj} (h : b.HoldsArray name La a E C fill A)
    (hs : a.Supported La E.size) (g : S3ArrayObj L elem name La a v o d) (hn : b.Node name La) {op : AttrOp} (hv : op.Valid)
    {es : List Event} (hes : ∀ e ∈ es, e.Reliable) :
    ((S3Target.dataset ⟨o.name, o.obj.handle⟩).change op ⟨es, b⟩).2.bucket.HoldsArray name La a E C fill A ∧
    ((S3Target.dataset ⟨o.name, o.obj.handle⟩).change op ⟨es, b⟩).2.bucket.Node name La := by
  rw [g.stands.name]
  cases hw : o.obj.handle.mode.canWrite with
  | false =>
    have := c56_readonly (t := .dataset ⟨name, o.obj.handle⟩) (op := op) hw ⟨es, b⟩
    rw [this]
    exact ⟨h, hn⟩
  | true =>
    obtain ⟨eff, _, ho, _⟩ := S3Target.change_step (t := .dataset ⟨name, o.obj.handle⟩) hw (g.refers h hn) hv hes
    refine ⟨h.onlyAttributes hs g.key ho fun e k hk => ?_, ho.node⟩
    split
    · next hc =>
      have hnm : op.names ((S3Target.dataset ⟨name, o.obj.handle⟩).locked La) = false := by
        cases hx : op.names ((S3Target.dataset ⟨name, o.obj.handle⟩).locked La) with
        | false => rfl
        | true => rw [hx] at hc; simp at hc
      rw [AttrOp.apply_of_not_names (h := hnm) (by rw [e]; exact hk), e]
      rfl
    · rw [e]
      rfl

variable {b₀ : Bucket} {os : List S3DatasetObj} {ws : List (Write E.T)}

theorem S3Uses.effect (hL : L.Lawful) (hs : a.Supported La E.size) (hx : a.fill = some x) (hv : a.dtype.castFill x = .ok v)
    (hc : a.dtype.isComplex = false)
    (h : b₀.HoldsArray name La a E (L.codec E.size a.compression) (elem v) A) (hn : b₀.Node name La)
    (hu : S3Uses L elem name La b₀ os ws b) :
    (∃ A', b.HoldsArray name La a E (L.codec E.size a.compression) (elem v) A' ∧
      ∀ y, InBox y a.shape → SameOrFill E.ceq (elem v) (A' y) (replay A ws y)) ∧
    b.Node name La ∧ ∀ o ∈ os, ∃ d, S3ArrayObj L elem name La a v o d := by
  induction hu with
  | start => exact ⟨⟨A, h, fun _ _ => .inl rfl⟩, hn, fun o ho => by cases ho⟩
  | opened _ hes hp hz ho ih =>
    obtain ⟨⟨A', i1, i2⟩, i3, i4⟩ := ih
    obtain ⟨o', d', h1, h2, h3⟩ := i1.open hL hs hx hv hc hp hz
    obtain ⟨e1, e2⟩ := h1.ok hes ho
    rw [e2]
    cases e1
    refine ⟨⟨A', i1, i2⟩, i3, fun o ho => ?_⟩
    rcases List.mem_cons.1 ho with rfl | ho
    · exact ⟨d', h3⟩
    · exact i4 o ho
  | closed _ hsub ih =>
    obtain ⟨i1, i3, i4⟩ := ih
    exact ⟨i1, i3, fun o ho => i4 o (hsub o ho)⟩
  | @wrote os ws σ σ' o d w _ ho hw ht hp ih =>
    obtain ⟨⟨A', i1, i2⟩, i3, i4⟩ := ih
    obtain ⟨d', g⟩ := i4 o ho
    have e := g.stands.typed
    rw [ht] at e
    cases e
    have hwr : d.base.canWrite = true := g.stands.base.2.2.trans hw
    have hfiles := g.files
    rw [g.stands.name] at hp
    rw [← g.codec, ← g.fill] at i1 hfiles ⊢
    obtain ⟨A'', k1, k2⟩ := i1.does g.stands.wf hwr g.stands.base.1 hfiles (.step .nil hp)
    refine ⟨⟨A'', k1, fun y hy => ?_⟩, ?_, i4⟩
    · rw [replay_append]
      refine (k2 y hy).trans (sameOrFill_replay [w] ?_)
      rw [g.fill]
      exact i2 y hy
    · exact i3.congr ((AnyDataset.DoesS3.step .nil hp).effect g.stands.wf hwr).1
  | annotated _ hes ho hv ih =>
    obtain ⟨⟨A', i1, i2⟩, i3, i4⟩ := ih
    obtain ⟨d', g⟩ := i4 _ ho
    obtain ⟨k1, k2⟩ := i1.annotated hs g i3 hv hes
    exact ⟨⟨A', k1, i2⟩, k2, i4⟩
  | elsewhere _ he ih =>
    obtain ⟨⟨A', i1, i2⟩, i3, i4⟩ := ih
    exact ⟨⟨A', i1.elsewhere he, i2⟩, i3.congr fun n _ => he _ (dirPrefix_docKey name n), i4⟩

end Z5
