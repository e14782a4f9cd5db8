import Verif.Proofs.S3Persist
import Verif.Props.Persist

/-!
# C78: data on S3 outlive the objects they were written with

The same as C64 for containers on S3: a dataset is created, opened by other handles and processes, written through all of
them, annotated, while other things happen in the bucket.  What is read is always what was written.
-/

namespace Z5.Props
open Z5 Spec

variable {E : Elem} {L : Libs} {elem : FillVal → E.T} {name : Key} {o₀ : S3DatasetObj} {d₀ : AnyDataset E}
  {os : List S3DatasetObj} {ws : List (Write E.T)} {b : Bucket}

/-- **C78, reading.** Through every open object every region reads as what all objects together wrote, and as the fill value
of the creation where nothing was written. -/
theorem c78_read (hL : L.LawfulFor (prod d₀.base.chunkShape * E.size)) (hdesc : o₀.obj.Describable)
    (hd : o₀.typed L elem = .ok d₀) (hwf : d₀.WF) (h : S3Sessions L elem name o₀ os ws b) {o : S3DatasetObj} (ho : o ∈ os) :
    o.name = name ∧ ∃ d A, o.typed L elem = .ok d ∧ d.base.shape = o₀.obj.info.shape ∧ d.ReadsAsS3 name b A ∧
      ∀ x, InBox x o₀.obj.info.shape →
        SameOrFill E.ceq (elem o₀.obj.fill) (A x) (replay (fun _ => elem o₀.obj.fill) ws x) := by
  obtain ⟨m, cfg, h1, _, h2, h3⟩ := h.carries hL hdesc hd hwf
  obtain ⟨hn, hs⟩ := h3 o ho
  obtain ⟨t1, t2, t3, t4⟩ := hs.typed h1.self h1.shard hL hd
  have hS := (AnyDataset.variant_inStore (w := o.obj.handle.mode.canWrite) t2).2 h2.holds
  obtain ⟨A, hA, hx⟩ := AnyDataset.InStore.readsAs (AnyDataset.variant_wf t2 hwf) hS
  rw [AnyDataset.variant_base] at hx
  have hx : ∀ x, InBox x d₀.base.shape → SameOrFill E.ceq d₀.base.fill (A x) (replay (fun _ => d₀.base.fill) ws x) := hx
  rw [t3, t4] at hx
  refine ⟨hn, _, A, t1, ?_, hA, hx⟩
  rw [AnyDataset.variant_base]
  exact t3

/-- **C78, opening again.** At any time the dataset can be opened, from any group above it and in any mode; it has the shape,
the chunks and the fill value with which it was created and reads as what was written. -/
theorem c78_reopen (hL : L.LawfulFor (prod d₀.base.chunkShape * E.size)) (hdesc : o₀.obj.Describable)
    (hd : o₀.typed L elem = .ok d₀) (hwf : d₀.WF) (h : S3Sessions L elem name o₀ os ws b) {root : S3Handle} {key : Key}
    (hp : joinKey root.name key = name) (hz : o₀.obj.info.isZarr = true → b.IsZarr root.name) :
    ∃ o, (root.openDataset key).Does 10 b (.ok o) b ∧ o.name = name ∧ o.obj.handle.mode = root.mode ∧
      o.obj.info.shape = o₀.obj.info.shape ∧ o.obj.info.chunkShape = o₀.obj.info.chunkShape ∧
      o.obj.info.dtype = o₀.obj.info.dtype ∧ o.obj.fill = o₀.obj.fill ∧
      ∃ d A, o.typed L elem = .ok d ∧ d.ReadsAsS3 name b A ∧
        ∀ x, InBox x o₀.obj.info.shape →
          SameOrFill E.ceq (elem o₀.obj.fill) (A x) (replay (fun _ => elem o₀.obj.fill) ws x) := by
  obtain ⟨m, cfg, h1, hx, h2, _⟩ := h.carries hL hdesc hd hwf
  obtain ⟨o, h4, h5, h6⟩ := h2.open h1 hx hp hz
  have hgo : ∃ es w, (∀ e ∈ es, Event.Reliable e) ∧
      root.openDataset key ⟨es, b⟩ = (some (.ok (⟨name, o⟩ : S3DatasetObj)), w) := by
    rcases h4 _ (exS3_calm 10) with ⟨es', -, -, e⟩ | ⟨es', b', -, -, -, e, he, k, hk⟩ | ⟨h, -⟩
    · exact ⟨_, _, exS3_calm 10, e⟩
    · rw [List.eq_of_mem_replicate he] at hk
      exact absurd rfl hk
    · simp at h
  obtain ⟨es, w, hes, hopen⟩ := hgo
  have hb : w.bucket = b := (h4.ok hes hopen).2
  obtain ⟨_, d, A, g1, _, g3, g4⟩ := c78_read hL hdesc hd hwf (.opened h hes hp hz hopen) (List.mem_cons_self ..)
  rw [hb] at g3
  exact ⟨_, h4, rfl, h6, h5.shape, h5.chunkShape, h5.dtype, h5.fill, d, A, g1, g3, g4⟩

/-- **C78, writing.** Every region write through an open object that is not read-only succeeds under every schedule (if the
compressors never fail; a shard may exceed 2^63 bytes), so that it can be the next step of the sessions. -/
theorem c78_write_succeeds (hL : L.LawfulFor (prod d₀.base.chunkShape * E.size)) (hdesc : o₀.obj.Describable)
    (hd : o₀.typed L elem = .ok d₀) (hwf : d₀.WF) (h : S3Sessions L elem name o₀ os ws b) {o : S3DatasetObj}
    (hT : (L.codec E.size o.obj.settings).TotalFor (prod d₀.base.chunkShape * E.size)) (ho : o ∈ os)
    (hw : o.obj.handle.mode.canWrite = true) :
    ∃ d, o.typed L elem = .ok d ∧ ∀ (call : RegionCall E), call.Valid d.base → ∀ scratch : Nat → List E.T,
      ∃ ts, d.start call scratch = .ok ts ∧
        ∀ is rs, Prog.Finished (Prog.interleaveS3 name is (ts, b)).1 rs →
          ∀ r ∈ rs, r = .ok () ∨ (r = .throw .lengthError ∧ ∃ sd, d = .sharded sd) := by
  obtain ⟨m, cfg, h1, _, h2, h3⟩ := h.carries hL hdesc hd hwf
  obtain ⟨_, hs⟩ := h3 o ho
  obtain ⟨t1, t2, t3, t4⟩ := hs.typed h1.self h1.shard hL hd
  have hS := (AnyDataset.variant_inStore (w := o.obj.handle.mode.canWrite) t2).2 h2.holds
  exact ⟨_, t1, fun call hv scratch => AnyDataset.InStore.write_succeeds (AnyDataset.variant_wf t2 hwf)
    (by rw [AnyDataset.variant_base]; exact hw) (by rw [AnyDataset.variant_base]; exact hT) hS hv scratch⟩

/-- **C78, other objects.** A write changes nothing outside the dataset, and no document of the dataset. -/
theorem c78_write_frame (hL : L.LawfulFor (prod d₀.base.chunkShape * E.size)) (hdesc : o₀.obj.Describable)
    (hd : o₀.typed L elem = .ok d₀) (hwf : d₀.WF) (h : S3Sessions L elem name o₀ os ws b) {o : S3DatasetObj} (ho : o ∈ os)
    (hw : o.obj.handle.mode.canWrite = true) {d : AnyDataset E} (hty : o.typed L elem = .ok d) {w : Write E.T}
    {b' : Bucket} (hp : d.PerformsS3 name w b b') :
    (∀ q, ¬ dirPrefix name <+: q → b'.get q = b.get q) ∧
    ∀ n ∈ [".zarray", "zarr.json", "attributes.json", ".zattrs", ".zgroup"],
      b'.get (docKey name n) = b.get (docKey name n) := by
  obtain ⟨m, cfg, h1, _, h2, h3⟩ := h.carries hL hdesc hd hwf
  obtain ⟨_, hs⟩ := h3 o ho
  obtain ⟨t1, t2, t3, t4⟩ := hs.typed h1.self h1.shard hL hd
  have hty := Res.ok.inj (t1.symm.trans hty)
  subst hty
  obtain ⟨p1, _⟩ := hp.effect (AnyDataset.variant_wf t2 hwf) (by rw [AnyDataset.variant_base]; exact hw)
  refine ⟨fun q hq => p1 q fun k _ e => hq (by rw [e]; exact dirPrefix_chunk name k), fun n hn => ?_⟩
  exact p1 _ fun k hk => chunk_ne_doc hk (by simpa [MetaName] using hn)

/-! ### A session -/

theorem exS3Ds_describable : exS3Ds.obj.Describable := ⟨exDs_typed, fun _ => .inl rfl, .inl rfl⟩

def exS3Typed : Dataset U8 := { exDsTyped with backend := .s3 }

theorem exS3Ds_typed_eq : exS3Ds.typed exLibs exElem = .ok (.plain exS3Typed) := rfl

theorem exS3Typed_wf : exS3Typed.WF := { exDsTyped_wf with made := rfl }

/-- A value can be written to any region through any open object. -/
theorem exists_s3Session_write {os : List S3DatasetObj} {ws : List (Write U8.T)} {b : Bucket}
    (h : S3Sessions exLibs exElem "f/d".toList exS3Ds os ws b) {o : S3DatasetObj} (ho : o ∈ os)
    (hw : o.obj.handle.mode.canWrite = true) {off shape : List Nat} (hr : RegionOk [5, 4] off shape) (v : U8.T) :
    ∃ b', S3Sessions exLibs exElem "f/d".toList exS3Ds os (ws ++ [⟨off, shape, fun _ => v⟩]) b' ∧
      ∀ q, ¬ dirPrefix "f/d".toList <+: q → b'.get q = b.get q := by
  obtain ⟨d, hty, hall⟩ := c78_write_succeeds (exLibs_lawful _) exS3Ds_describable exS3Ds_typed_eq exS3Typed_wf
    h (exLibs_total _ _ _) ho hw
  obtain ⟨hn, d', _, hty', hshape, _⟩ := c78_read (exLibs_lawful _) exS3Ds_describable exS3Ds_typed_eq exS3Typed_wf h ho
  rw [hty] at hty'
  cases hty'
  have hv : (RegionCall.scalar (E := U8) off shape v).Valid d.base := ⟨by rw [hshape]; exact hr, trivial⟩
  obtain ⟨ts, hts, hok⟩ := hall (.scalar off shape v) hv fun _ => []
  obtain ⟨is, rs, hfin⟩ := Prog.exists_finished (ts, b.chunks "f/d".toList)
  rw [← (interleaveS3_eq _ is ts b).1] at hfin
  have hpl : ∀ sd, d ≠ .sharded sd := by
    intro sd e
    obtain ⟨m, cfg, h1, _, _, h3⟩ := h.carries (exLibs_lawful _) exS3Ds_describable exS3Ds_typed_eq exS3Typed_wf
    obtain ⟨t1, _⟩ := (h3 o ho).2.typed h1.self h1.shard (exLibs_lawful _) (elem := exElem) exS3Ds_typed_eq
    have := t1.symm.trans hty
    rw [e] at this
    cases this
  have hp : d.PerformsS3 "f/d".toList ⟨off, shape, fun _ => v⟩ b (Prog.interleaveS3 "f/d".toList is (ts, b)).2 :=
    .region (.scalar off shape v) (fun _ => v) (fun _ => []) ts is hv (fun _ _ => rfl) hts
      ⟨rs, hfin, fun r hr' => (hok is rs hfin r hr').elim id fun ⟨_, sd, e⟩ => absurd e (hpl sd), rfl⟩
  exact ⟨_, .wrote h ho hw hty (by rw [hn]; exact hp), (c78_write_frame (exLibs_lawful _) exS3Ds_describable
    exS3Ds_typed_eq exS3Typed_wf h ho hw hty hp).1⟩

theorem does_calm {α : Type} {x : S3M α} {n : Nat} {b b' : Bucket} {a : α} (h : x.Does n b (.ok a) b') :
    ∃ w, x ⟨List.replicate n {}, b⟩ = (some (.ok a), w) ∧ w.bucket = b' := by
  rcases h _ (exS3_calm n) with ⟨es', -, -, e⟩ | ⟨es', b', -, -, -, e, he, k, hk⟩ | ⟨h, -⟩
  · exact ⟨_, e, rfl⟩
  · rw [List.eq_of_mem_replicate he] at hk
    exact absurd rfl hk
  · simp at h

def exS3Created : World := (exS3Root.createDataset "d".toList exArgs ⟨List.replicate 7 {}, exS3Zarr⟩).2

theorem exS3_session : S3Sessions exLibs exElem "f/d".toList exS3Ds [exS3Ds] [] exS3Created.bucket :=
  .created (root := exS3Root) (key := "d".toList) (exS3_calm 7) (by decide +kernel)
    (S3M.run_eq (by decide +kernel) : exS3Root.createDataset "d".toList exArgs ⟨List.replicate 7 {}, exS3Zarr⟩
      = (some (.ok exS3Ds), exS3Created))

/-- The theorems apply: a compressed zarr dataset is created, gets an attribute, is written, and all objects are destroyed.
It is opened in mode `r+` and written again, and then opened in mode `r`. -/
example : ∃ o b, S3Sessions exLibs exElem "f/d".toList exS3Ds [o]
      [⟨[1, 0], [3, 3], fun _ => (4 : Fin (256 ^ 1))⟩, ⟨[2, 1], [1, 2], fun _ => (9 : Fin (256 ^ 1))⟩] b ∧
    o.obj.handle.mode = .r ∧ o.obj.info.shape = [5, 4] ∧
    ∃ d A, o.typed exLibs exElem = .ok d ∧ d.ReadsAsS3 "f/d".toList b A ∧ A [2, 1] = (9 : Fin (256 ^ 1)) ∧
      A [1, 1] = (4 : Fin (256 ^ 1)) ∧ A [0, 0] = (0 : Fin (256 ^ 1)) := by
  have h1 := S3Sessions.annotated (op := .write (.obj [("unit", .str "nm")])) exS3_session (exS3_calm 7)
    (List.mem_singleton.2 rfl) ⟨_, rfl, by decide⟩
  have hz1 : ((((S3Target.dataset ⟨exS3Ds.name, exS3Ds.obj.handle⟩).change (.write (.obj [("unit", .str "nm")]))
    ⟨List.replicate 7 {}, exS3Created.bucket⟩).2.bucket).get (docKey "f".toList ".zgroup")).isSome = true := by decide +kernel
  obtain ⟨b2, h2, e2⟩ := exists_s3Session_write h1 (List.mem_singleton.2 rfl) rfl (off := [1, 0]) (shape := [3, 3])
    (by decide) (4 : Fin (256 ^ 1))
  have h3 := h2.closed (os' := []) (fun _ h => by cases h)
  have hroot : ∀ {b' : Bucket}, (b'.get (docKey "f".toList ".zgroup")).isSome = true → b'.IsZarr "f".toList :=
    fun h => ⟨".zgroup", by decide, .inl (mem_keys.2 h)⟩
  have hz2 : (b2.get (docKey "f".toList ".zgroup")).isSome = true := by rw [e2 _ (by decide +kernel)]; exact hz1
  obtain ⟨o, ho, _, hm, _⟩ := c78_reopen (exLibs_lawful _) exS3Ds_describable exS3Ds_typed_eq exS3Typed_wf h3
    (root := ⟨"f".toList, .rp⟩) (key := "d".toList) (by decide +kernel) fun _ => hroot hz2
  obtain ⟨w4, ho4, hb4⟩ := does_calm ho
  have h4 := S3Sessions.opened (root := ⟨"f".toList, .rp⟩) h3 (exS3_calm _) (by decide +kernel) (fun _ => hroot hz2) ho4
  rw [hb4] at h4
  obtain ⟨b5, h5, e5⟩ := exists_s3Session_write h4 (List.mem_singleton.2 rfl) (by rw [hm]; rfl) (off := [2, 1])
    (shape := [1, 2]) (by decide) (9 : Fin (256 ^ 1))
  have hz5 : (b5.get (docKey "f".toList ".zgroup")).isSome = true := by rw [e5 _ (by decide +kernel)]; exact hz2
  have h6 := h5.closed (os' := []) (fun _ h => by cases h)
  obtain ⟨o', ho', _, hm', hsh, _, _, _, d, A, hd, hA, hx⟩ := c78_reopen (exLibs_lawful _) exS3Ds_describable
    exS3Ds_typed_eq exS3Typed_wf h6 (root := ⟨"f".toList, .r⟩) (key := "d".toList) (by decide +kernel) fun _ => hroot hz5
  obtain ⟨w7, ho7, hb7⟩ := does_calm ho'
  have h7 := S3Sessions.opened (root := ⟨"f".toList, .r⟩) h6 (exS3_calm _) (by decide +kernel) (fun _ => hroot hz5) ho7
  rw [hb7] at h7
  have hex : ∀ (a b : U8.T), SameOrFill U8.ceq (exElem exS3Ds.obj.fill) a b → a = b := by
    rintro a b (h | ⟨h1, h2⟩)
    · exact h
    · have hf : ∀ a b : U8.T, U8.ceq a b = true → a = b := fun a b =>
        (@decide_eq_true_iff (a = b) (instDecidableEqFin (256 ^ 1) a b)).1
      exact h2.trans (hf _ _ h1).symm
  refine ⟨o', b5, h7, hm', hsh, d, A, hd, hA, ?_, ?_, ?_⟩
  · rw [hex _ _ (hx [2, 1] (by decide))]; rfl
  · rw [hex _ _ (hx [1, 1] (by decide))]; rfl
  · rw [hex _ _ (hx [0, 0] (by decide))]; rfl

/-- **C78, counterexample.** The condition on the group from which a dataset is opened is needed: `createDataset` with the key
`raw/d` stores nothing for the group `raw`.  Opened from `raw`, which succeeds, the dataset has other names for all chunks
than those it was created with. -/
theorem c78_intermediate_group_counterexample : ∃ (o₀ o : S3DatasetObj) (b : Bucket),
    S3Sessions exLibs exElem "f/raw/d".toList o₀ [o₀] [] b ∧
    ((⟨"f/raw".toList, .a⟩ : S3Handle).openDataset "d".toList ⟨List.replicate 10 {}, b⟩).1 = some (.ok o) ∧
    o.name = o₀.name ∧ o.obj.info.isZarr = true ∧ o.obj.info.shape = o₀.obj.info.shape ∧
    getChunkKey o₀.obj.keyCfg [0, 0] = "0/0".toList ∧ getChunkKey o.obj.keyCfg [0, 0] = "0.0".toList :=
  ⟨⟨"f/raw/d".toList, exS3Ds.obj⟩,
    ⟨"f/raw/d".toList, { exS3Ds.obj with handle := { exS3Ds.obj.handle with delimiter := "." } }⟩, _,
    .created (root := exS3Root) (key := "raw/d".toList) (exS3_calm 7) (by decide +kernel)
      (S3M.run_eq (by decide +kernel) : exS3Root.createDataset "raw/d".toList exArgs ⟨List.replicate 7 {}, exS3Zarr⟩
        = (some (.ok ⟨"f/raw/d".toList, exS3Ds.obj⟩), _)),
    by decide +kernel, rfl, rfl, rfl, by decide +kernel, by decide +kernel⟩

end Z5.Props
