import Verif.Proofs.Attributes
import Verif.Model.Factory

/-!
# C29, C30: user attributes
-/

namespace Z5

theorem group_isZarr (g : GroupHandle) (σ : Fs) : g.isZarr σ
    = (if (σ g.path).isSome then
        .ok ((σ (g.path ++ [".zgroup"])).isSome || (σ (g.path ++ ["zarr.json"])).isSome)
      else .throw .runtimeError, σ) := by
  cases h : (σ g.path).isSome <;>
    simp [GroupHandle.isZarr, FsM.bind_run, FsM.exist_run, h, FsM.lift_run, FsM.pure_run]

theorem dataset_isZarr (d : DatasetHandle) (σ : Fs) : d.isZarr σ
    = (match d.cache with
      | some b => .ok b
      | none => if (σ d.path).isSome then
          .ok ((σ (d.path ++ [".zarray"])).isSome || (σ (d.path ++ ["zarr.json"])).isSome)
        else .throw .runtimeError, σ) := by
  cases hc : d.cache with
  | some b => simp [DatasetHandle.isZarr, hc, FsM.pure_run]
  | none =>
    cases h : (σ d.path).isSome <;>
      simp [DatasetHandle.isZarr, hc, FsM.bind_run, FsM.exist_run, h, FsM.lift_run, FsM.pure_run]

/-- Changing attributes changes no file that tells zarr from N5. -/
theorem Fs.OnlyAttributes.exists_same {σ σ' : Fs} {p : Path} {L : Layout} {A : AttrMap}
    (h : σ.OnlyAttributes σ' p L A) (hn : σ.Node p L) :
    (σ' p).isSome = (σ p).isSome ∧
    (∀ n, n ≠ L.file → σ' (p ++ [n]) = σ (p ++ [n])) ∧
    (σ' (p ++ ["zarr.json"])).isSome = (σ (p ++ ["zarr.json"])).isSome := by
  refine ⟨by rw [h.files _ append_ne_self.symm], fun n hne => h.files _ (by simpa using hne), ?_⟩
  by_cases hL : L = .v3
  · obtain ⟨j, e, _⟩ := hn.v3 hL
    obtain ⟨j', e', _⟩ := h.node.v3 hL
    rw [e, e']
    rfl
  · rw [h.files]
    cases L <;> first | exact absurd rfl hL | simp [Layout.file]

theorem Target.Refers.after {t : Target} {σ σ' : Fs} {L : Layout} {A : AttrMap} (h : t.Refers σ L)
    (hc : σ.OnlyAttributes σ' t.path L A) : t.Refers σ' L where
  node := hc.node
  zarr := by
    obtain ⟨h1, h2, h3⟩ := hc.exists_same h.node
    have hz := h.zarr
    have e2 : ∀ n, n = ".zgroup" ∨ n = ".zarray" → n ≠ L.file := by
      rintro n (rfl | rfl) <;> cases L <;> decide
    cases t with
    | dataset d =>
      have hz : d.isZarr σ = _ := hz
      show d.isZarr σ' = _
      simp only [path] at h1 h2 h3
      rw [dataset_isZarr] at hz ⊢
      rw [h1, h3, h2 _ (e2 _ (.inr rfl))]
      rw [Prod.mk.injEq] at hz ⊢
      exact ⟨hz.1, rfl⟩
    | group g =>
      have hz : g.isZarr σ = _ := hz
      show g.isZarr σ' = _
      simp only [path] at h1 h2 h3
      rw [group_isZarr] at hz ⊢
      rw [h1, h3, h2 _ (e2 _ (.inl rfl))]
      rw [Prod.mk.injEq] at hz ⊢
      exact ⟨hz.1, rfl⟩
    | file g =>
      have hz : g.isZarr σ = _ := hz
      show g.isZarr σ' = _
      simp only [path] at h1 h2 h3
      rw [group_isZarr] at hz ⊢
      rw [h1, h3, h2 _ (e2 _ (.inl rfl))]
      rw [Prod.mk.injEq] at hz ⊢
      exact ⟨hz.1, rfl⟩
  dataset := fun d e hL => by
    have := hc.kept
    rw [hL] at this
    exact this (h.dataset d e hL)

/-- **C29.**  One change of the attributes of a node: if it names a key that is locked (the metadata of an
    N5 dataset, the version of an N5 file), it throws and changes nothing.  Otherwise it succeeds, the
    attributes are changed as those of a map are, and nothing else is changed. -/
theorem c29_change {t : Target} {σ : Fs} {L : Layout} {op : AttrOp} (hw : t.mode.canWrite = true)
    (h : t.Refers σ L) (hop : op.Valid) :
    (op.names (t.locked L) = true → t.change op σ = (.throw .runtimeError, σ)) ∧
    (op.names (t.locked L) = false → ∃ σ', t.change op σ = (.ok (), σ') ∧
      σ.OnlyAttributes σ' t.path L (op.apply (σ.attributes t.path L)) ∧ t.Refers σ' L) := by
  rw [Target.change_run hw h]
  refine ⟨fun e => by rw [e]; rfl, fun e => ?_⟩
  rw [e]
  cases op with
  | write j =>
    obtain ⟨σ', h1, h2⟩ := generic_write h.node (j := j) hop
    exact ⟨σ', h1, h2, h.after h2⟩
  | remove k =>
    obtain ⟨σ', h1, h2⟩ := generic_remove h.node (key := k)
    exact ⟨σ', h1, h2, h.after h2⟩

theorem Fs.OnlyAttributes.trans {σ σ' σ'' : Fs} {p : Path} {L : Layout} {A B : AttrMap}
    (h : σ.OnlyAttributes σ' p L A) (h' : σ'.OnlyAttributes σ'' p L B) :
    σ.OnlyAttributes σ'' p L B :=
  ⟨h'.node, h'.attributes, fun q hq => (h'.files q hq).trans (h.files q hq),
    fun e k hk => (h'.rest e k hk).trans (h.rest e k hk), fun e => h'.kept (h.kept e)⟩

theorem Target.read_ok {t : Target} {σ : Fs} {L : Layout} (h : t.Refers σ L) :
    ∃ j, t.read σ = (.ok j, σ) ∧ ∀ k, j.find k = t.shown L (σ.attributes t.path L) k := by
  obtain ⟨j, h1, h2, h3, h4⟩ := generic_read h.node
  have hz := h.zarr
  cases t with
  | group g =>
    have hz : g.isZarr σ = _ := hz
    refine ⟨j, ?_, fun k => (h4 k).trans (by cases L <;> rfl)⟩
    simp only [read, GroupHandle.readAttributes, FsM.bind_run, hz]
    exact h1
  | file g =>
    have hz : g.isZarr σ = _ := hz
    refine ⟨j, ?_, fun k => (h4 k).trans (by cases L <;> rfl)⟩
    simp only [read, GroupHandle.readAttributes, FsM.bind_run, hz]
    exact h1
  | dataset d =>
    have hz : d.isZarr σ = _ := hz
    have h1 : Generic.readAttributes d.path L.isZarr .null σ = _ := h1
    cases L with
    | n5 =>
      obtain ⟨e, e1, e2, e3⟩ := hideN5_ok (h3 (by decide) (h.dataset d rfl rfl))
      refine ⟨e, ?_, fun k => ?_⟩
      · simp only [read, DatasetHandle.readAttributes, FsM.bind_run, hz, h1]
        simp [Layout.isZarr, FsM.lift_run, e1]
      · rw [e3, h4]
        rfl
    | v2 =>
      refine ⟨j, ?_, fun k => (h4 k).trans rfl⟩
      simp only [read, DatasetHandle.readAttributes, FsM.bind_run, hz, h1]
      rfl
    | v3 =>
      refine ⟨j, ?_, fun k => (h4 k).trans rfl⟩
      simp only [read, DatasetHandle.readAttributes, FsM.bind_run, hz, h1]
      rfl

theorem Fs.OnlyAttributes.refl {σ : Fs} {p : Path} {L : Layout} (h : σ.Node p L) :
    σ.OnlyAttributes σ p L (σ.attributes p L) :=
  ⟨h, rfl, fun _ _ => rfl, fun _ _ _ => rfl, id⟩

theorem Target.changes_ok {t : Target} {L : Layout} (hw : t.mode.canWrite = true) :
    ∀ {ops : List AttrOp} {σ : Fs}, t.Refers σ L → (∀ op ∈ ops, op.Valid) →
    σ.OnlyAttributes (t.changes ops σ) t.path L (t.replay L ops (σ.attributes t.path L)) ∧
    t.Refers (t.changes ops σ) L
  | [], _, h, _ => ⟨.refl h.node, h⟩
  | op :: ops, σ, h, hv => by
    obtain ⟨h1, h2⟩ := c29_change hw h (hv op (by simp))
    cases hn : op.names (t.locked L) with
    | true =>
      have := changes_ok hw h (fun o ho => hv o (List.mem_cons_of_mem _ ho))
      simp only [changes, replay, hn, h1 hn, if_true]
      exact this
    | false =>
      obtain ⟨σ', e, ho, hr⟩ := h2 hn
      have := changes_ok hw hr (fun o ho => hv o (List.mem_cons_of_mem _ ho))
      simp only [changes, replay, hn, e, Bool.false_eq_true, if_false]
      rw [ho.attributes] at this
      exact ⟨ho.trans this.1, this.2⟩

/-- **C29.**  Over any history of changes (some of which may throw), reading the attributes yields the map
    obtained by applying the changes in order, and nothing but the attributes has changed. -/
theorem c29_history {t : Target} {L : Layout} {ops : List AttrOp} {σ : Fs}
    (hw : t.mode.canWrite = true) (h : t.Refers σ L) (hv : ∀ op ∈ ops, op.Valid) :
    let A := t.replay L ops (σ.attributes t.path L)
    σ.OnlyAttributes (t.changes ops σ) t.path L A ∧ t.Refers (t.changes ops σ) L ∧
    ∃ j, t.read (t.changes ops σ) = (.ok j, t.changes ops σ) ∧ ∀ k, j.find k = t.shown L A k := by
  obtain ⟨h1, h2⟩ := Target.changes_ok hw h hv
  obtain ⟨j, e, hj⟩ := Target.read_ok h2
  exact ⟨h1, h2, j, e, fun k => by rw [hj, h1.attributes]⟩

/-! ### the metadata of a dataset -/

theorem Json.IsObject.at_eq {j j' : Json} (h : j.IsObject) (h' : j'.IsObject) {k : String}
    (e : j'.find k = j.find k) : j'.at' k = j.at' k := by
  obtain ⟨l, rfl, _⟩ := h
  obtain ⟨l', rfl, _⟩ := h'
  have e : assocGet l' k = assocGet l k := e
  simp only [Json.at', e]

theorem Json.IsObject.sub_eq {j j' : Json} (h : j.IsObject) (h' : j'.IsObject) {k : String}
    (e : j'.find k = j.find k) : j'.sub k = j.sub k := by
  obtain ⟨l, rfl, _⟩ := h
  obtain ⟨l', rfl, _⟩ := h'
  have e : assocGet l' k = assocGet l k := e
  simp only [Json.sub, e]

/-- The metadata of a zarr dataset do not depend on its attributes. -/
theorem fromJson_zarr_congr {j j' : Json} (h : j.IsObject) (h' : j'.IsObject)
    (hk : ∀ k, k ≠ "attributes" → j'.find k = j.find k) :
    Meta.fromJson j' true = Meta.fromJson j true := by
  have ha := fun k hn => h.at_eq h' (hk k hn)
  have hs := fun k hn => h.sub_eq h' (hk k hn)
  have e3 : Meta.fromJsonV3 j' = Meta.fromJsonV3 j := by
    simp only [Meta.fromJsonV3, ha "node_type" (by decide), ha "data_type" (by decide),
      ha "shape" (by decide), ha "chunk_grid" (by decide), ha "chunk_key_encoding" (by decide),
      ha "fill_value" (by decide), ha "codecs" (by decide)]
  have ec : Meta.checkJson j' = Meta.checkJson j := by
    simp only [Meta.checkJson, hk "order" (by decide), hk "zarr_format" (by decide),
      hk "filters" (by decide)]
  have e2 : Meta.fromJsonZarr j' = Meta.fromJsonZarr j := by
    simp only [Meta.fromJsonZarr, ec, hs "dtype" (by decide), hs "shape" (by decide),
      hs "chunks" (by decide), hs "fill_value" (by decide), hk "dimension_separator" (by decide),
      hs "compressor" (by decide)]
  simp only [Meta.fromJson, e3, e2, hk "zarr_format" (by decide), if_true]

/-- Those of an N5 dataset depend only on the keys that cannot be changed. -/
theorem fromJson_n5_congr {j j' : Json} (h : j.IsObject) (h' : j'.IsObject)
    (hk : ∀ k, k ∈ n5DatasetKeys → j'.find k = j.find k) :
    Meta.fromJson j' false = Meta.fromJson j false := by
  have hs := fun k hn => h.sub_eq h' (hk k hn)
  have ec : Meta.readN5Compressor j' = Meta.readN5Compressor j := by
    simp only [Meta.readN5Compressor, hk "compression" (by decide), hk "compressionType" (by decide)]
  have e2 : Meta.fromJsonN5 j' = Meta.fromJsonN5 j := by
    simp only [Meta.fromJsonN5, ec, hs "dataType" (by decide), hs "dimensions" (by decide),
      hs "blockSize" (by decide)]
  simp only [Meta.fromJson, e2, Bool.false_eq_true, if_false]

theorem AttrOp.apply_of_not_names {op : AttrOp} {ks : List String} {k : String} {A : AttrMap}
    (h : op.names ks = false) (hk : k ∈ ks) : op.apply A k = A k := by
  cases op with
  | write j =>
    have := (List.any_eq_false.1 h) k hk
    have : j.find k = none := by simpa using this
    simp only [apply, this]
  | remove k' =>
    have hk' : k' ∉ ks := by simpa [names] using h
    have : k ≠ k' := fun e => hk' (e ▸ hk)
    simp only [apply, if_neg this]

/-- A locked key keeps its value. -/
theorem Target.replay_locked {t : Target} {L : Layout} {k : String} (hk : k ∈ t.locked L) :
    ∀ {ops : List AttrOp} {A : AttrMap}, t.replay L ops A k = A k
  | [], _ => rfl
  | op :: ops, A => by
    simp only [replay]
    rw [replay_locked hk]
    cases hn : op.names (t.locked L)
    · simp only [Bool.false_eq_true, if_false]
      exact AttrOp.apply_of_not_names hn hk
    · rfl

theorem parse_run (p : Path) (σ : Fs) : FsM.parse p σ
    = (match σ.docAt p with
      | some j => .ok j
      | none => .throw .typeError, σ) := by
  simp only [FsM.parse, Fs.docAt]
  rcases σ p with _ | _ | _ | _ <;> rfl

theorem readDatasetMetadata_run (p : Path) (σ : Fs) : readDatasetMetadata p σ
    = (let z := (σ (p ++ [".zarray"])).isSome
       let v := (σ (p ++ ["zarr.json"])).isSome
       let n := (σ (p ++ ["attributes.json"])).isSome
       if (z || v) && n then .throw .runtimeError
       else if !z && !v && !n then .throw .runtimeError
       else match σ.docAt (p ++ [if v then "zarr.json" else if z then ".zarray" else "attributes.json"]) with
         | some j => Meta.fromJson j (z || v)
         | none => .throw .typeError, σ) := by
  simp only [readDatasetMetadata, getMetadataPath, FsM.bind_run, FsM.exist_run]
  generalize (σ (p ++ [".zarray"])).isSome = z
  generalize (σ (p ++ ["zarr.json"])).isSome = v
  generalize (σ (p ++ ["attributes.json"])).isSome = n
  cases z <;> cases v <;> cases n <;>
    simp [FsM.lift_run, FsM.pure_run, parse_run] <;> (generalize σ.docAt _ = o; cases o <;> rfl)

/-- If nothing but the attributes of a dataset changed, the same metadata are read. -/
theorem Fs.OnlyAttributes.metadata {d : DatasetHandle} {L : Layout} {A : AttrMap} {σ σ' : Fs}
    (h : (Target.dataset d).Refers σ L) (ho : σ.OnlyAttributes σ' d.path L A)
    (hk : L = .n5 → ∀ k ∈ n5DatasetKeys, A k = σ.attributes d.path L k) :
    (readDatasetMetadata d.path σ').1 = (readDatasetMetadata d.path σ).1 := by
  have hn : σ.Node d.path L := h.node
  obtain ⟨_, hf, hz⟩ := ho.exists_same hn
  have e1 : σ' (d.path ++ [".zarray"]) = σ (d.path ++ [".zarray"]) := hf _ (by cases L <;> decide)
  rw [readDatasetMetadata_run, readDatasetMetadata_run]
  cases L with
  | v2 =>
    have e2 := hf "zarr.json" (by decide)
    have e3 := hf "attributes.json" (by decide)
    have e4 : ∀ n, n = "zarr.json" ∨ n = ".zarray" ∨ n = "attributes.json" →
        σ'.docAt (d.path ++ [n]) = σ.docAt (d.path ++ [n]) := by
      rintro n (rfl | rfl | rfl) <;> simp only [Fs.docAt, e1, e2, e3]
    simp only [e1, e2, e3]
    rw [e4]
    split
    · exact .inl rfl
    · split
      · exact .inr (.inl rfl)
      · exact .inr (.inr rfl)
  | v3 =>
    have e3 := hf "attributes.json" (by decide)
    obtain ⟨j, ej, oj, _⟩ := hn.v3 rfl
    obtain ⟨j', ej', oj', _⟩ := ho.node.v3 rfl
    have hr := ho.rest rfl
    simp only [Fs.docAt, ej, ej', Option.bind_some] at hr
    simp only [e1, e3, ej, ej', Fs.docAt, Option.isSome_some, Bool.or_true, if_true]
    rw [fromJson_zarr_congr oj oj' hr]
  | n5 =>
    have e2 := hf "zarr.json" (by decide)
    obtain ⟨j, ej, oj⟩ := hn.doc.resolve_left (h.dataset d rfl rfl)
    obtain ⟨j', ej', oj'⟩ := ho.node.doc.resolve_left (ho.kept (h.dataset d rfl rfl))
    have ej : σ (d.path ++ ["attributes.json"]) = _ := ej
    have ej' : σ' (d.path ++ ["attributes.json"]) = _ := ej'
    have hr := hk rfl
    have ha := ho.attributes
    have hr : ∀ k ∈ n5DatasetKeys, j'.find k = j.find k := by
      intro k hm
      have := hr k hm
      rw [← ha] at this
      simpa only [Fs.attributes, Layout.file, Fs.docAt, ej, ej', Option.bind_some] using this
    simp only [e1, e2, ej, ej', Option.isSome_some, Bool.and_true]
    cases hb : ((σ (d.path ++ [".zarray"])).isSome || (σ (d.path ++ ["zarr.json"])).isSome)
    · obtain ⟨b1, b2⟩ := Bool.or_eq_false_iff.1 hb
      simp only [b1, b2, Fs.docAt, ej, ej', Bool.false_eq_true, if_false]
      rw [fromJson_n5_congr oj oj' hr]
    · rfl

/-- **C29.**  Whatever attributes are written to or removed from a dataset, opening it again yields the
    same dataset, with the same metadata. -/
theorem c29_metadata {d : DatasetHandle} {L : Layout} {ops : List AttrOp} {σ : Fs}
    (hw : d.mode.canWrite = true) (h : (Target.dataset d).Refers σ L) (hv : ∀ op ∈ ops, op.Valid) :
    let σ' := (Target.dataset d).changes ops σ
    readDatasetMetadata d.path σ' = ((readDatasetMetadata d.path σ).1, σ') ∧
    d.openDataset σ' = ((d.openDataset σ).1, σ') := by
  intro σ'
  obtain ⟨ho, _⟩ := Target.changes_ok (t := .dataset d) hw h hv
  have ho : σ.OnlyAttributes σ' d.path L _ := ho
  have hm := ho.metadata h fun hL k hk => Target.replay_locked (by subst hL; exact hk)
  have h1 : readDatasetMetadata d.path σ' = ((readDatasetMetadata d.path σ).1, σ') := by
    rw [← hm, readDatasetMetadata_run]
  refine ⟨h1, ?_⟩
  obtain ⟨he, _⟩ := ho.exists_same h.node
  have he : (σ' d.path).isSome = (σ d.path).isSome := he
  simp only [DatasetHandle.openDataset, FsM.bind_run, FsM.exist_run, he]
  split
  · rfl
  · have h2 : readDatasetMetadata d.path σ = ((readDatasetMetadata d.path σ).1, σ) := by
      rw [readDatasetMetadata_run]
    simp only [FsM.bind_run, h1]
    rw [h2]
    cases (readDatasetMetadata d.path σ).1 <;> rfl

/-! ## C30 -/

/-- **C30.**  A write to an N5 dataset that names one of the metadata keys, or the removal of one, throws
    and changes nothing. -/
theorem c30_refused {d : DatasetHandle} {σ : Fs} (hw : d.mode.canWrite = true)
    (h : (Target.dataset d).Refers σ .n5) {k : String}
    (hk : k ∈ ["dimensions", "blockSize", "dataType", "compressionType", "compression"]) :
    (∀ j : Json, j.IsObject → j.find k ≠ none →
      d.writeAttributes j σ = (.throw .runtimeError, σ)) ∧
    d.removeAttribute k σ = (.throw .runtimeError, σ) := by
  constructor
  · intro j hj hf
    refine (c29_change (t := .dataset d) (op := .write j) hw h hj).1 ?_
    exact List.any_eq_true.2 ⟨k, hk, by cases e : j.find k <;> simp_all⟩
  · refine (c29_change (t := .dataset d) (op := .remove k) hw h trivial).1 ?_
    exact List.contains_iff_mem.2 hk

/-- **C30.**  After any history of attribute changes through the dataset, the metadata keys have the values
    they had, and reading the attributes does not show them. -/
theorem c30_hidden {d : DatasetHandle} {ops : List AttrOp} {σ : Fs} (hw : d.mode.canWrite = true)
    (h : (Target.dataset d).Refers σ .n5) (hv : ∀ op ∈ ops, op.Valid) {k : String}
    (hk : k ∈ ["dimensions", "blockSize", "dataType", "compressionType", "compression"]) :
    let σ' := (Target.dataset d).changes ops σ
    σ'.attributes d.path .n5 k = σ.attributes d.path .n5 k ∧
    ∃ j, d.readAttributes .null σ' = (.ok j, σ') ∧ j.find k = none := by
  obtain ⟨h1, _, j, h2, h3⟩ := c29_history (t := .dataset d) hw h hv
  refine ⟨?_, j, h2, ?_⟩
  · have e : ((Target.dataset d).changes ops σ).attributes d.path .n5 = _ := h1.attributes
    rw [e]
    exact Target.replay_locked hk
  · rw [h3]
    exact if_pos (List.contains_iff_mem.2 hk)

/-- **C30**, for the handle of an N5 file: the version cannot be changed. -/
theorem c30_version {g : GroupHandle} {ops : List AttrOp} {σ : Fs} (hw : g.mode.canWrite = true)
    (h : (Target.file g).Refers σ .n5) (hv : ∀ op ∈ ops, op.Valid) :
    ((Target.file g).changes ops σ).attributes g.path .n5 "n5" = σ.attributes g.path .n5 "n5" := by
  obtain ⟨h1, _⟩ := Target.changes_ok (t := .file g) hw h hv
  have e : ((Target.file g).changes ops σ).attributes g.path .n5 = _ := h1.attributes
  rw [e]
  exact Target.replay_locked (t := .file g) (L := .n5) (List.mem_singleton.2 rfl)

/-- An N5 container with one dataset, at `d` -/
def exN5 : Fs := fun q =>
  if q = [] then some .dir
  else if q = ["attributes.json"] then some (.doc (.obj [("n5", .str "2.0.0")]))
  else if q = ["d"] then some .dir
  else if q = ["d", "attributes.json"] then
    some (.doc (.obj [("dimensions", .arr [.int 8]), ("blockSize", .arr [.int 4]),
      ("dataType", .str "uint8"), ("compression", .obj [("type", .str "raw")]), ("name", .str "x")]))
  else none

theorem exN5_dataset : (Target.dataset ⟨["d"], .a, ".", 2, "default", none⟩).Refers exN5 .n5 where
  node := ⟨rfl, .inr ⟨_, rfl, _, rfl, by decide⟩, (fun e => by cases e), (fun e => by cases e)⟩
  zarr := (dataset_isZarr ⟨["d"], .a, ".", 2, "default", none⟩ exN5).trans rfl
  dataset := fun d _ _ => by
    show exN5 ["d", "attributes.json"] ≠ none
    intro h
    cases h

theorem exN5_group : (Target.group ⟨["d"], .a⟩).Refers exN5 .n5 where
  node := exN5_dataset.node
  zarr := (group_isZarr _ _).trans rfl
  dataset := fun d e => by cases e

/-- The hypotheses of `c29_history`, `c29_metadata`, `c30_hidden` are met: a history that writes two
    attributes, tries to change the metadata and removes one attribute. -/
example :
    let d : DatasetHandle := ⟨["d"], .a, ".", 2, "default", none⟩
    let σ' := (Target.dataset d).changes
      [.write (.obj [("a", .int 1), ("name", .null)]), .write (.obj [("b", .int 2), ("dimensions", .null)]),
        .remove "name"] exN5
    ∃ j, d.readAttributes .null σ' = (.ok j, σ') ∧
      j.find "a" = some (.int 1) ∧ j.find "name" = none ∧ j.find "b" = none ∧ j.find "dimensions" = none := by
  have hv : ∀ op ∈ [AttrOp.write (.obj [("a", .int 1), ("name", .null)]),
      .write (.obj [("b", .int 2), ("dimensions", .null)]), .remove "name"], op.Valid := by
    intro op hop
    simp only [List.mem_cons, List.not_mem_nil, or_false] at hop
    rcases hop with rfl | rfl | rfl
    · exact ⟨_, rfl, by decide⟩
    · exact ⟨_, rfl, by decide⟩
    · trivial
  obtain ⟨_, _, j, h, hf⟩ := c29_history (by decide) exN5_dataset hv
  exact ⟨j, h, hf _, hf _, hf _, hf _⟩

/-- **C30, negation** for other handles: through the handle of a group at the same path the metadata of an
    N5 dataset can be overwritten. -/
theorem c30_group_handle_counterexample :
    ∃ (σ σ' : Fs) (g : GroupHandle) (d : DatasetHandle) (j : Json), g.path = d.path ∧
      (Target.dataset d).Refers σ .n5 ∧ (Target.group g).Refers σ .n5 ∧
      g.writeAttributes j σ = (.ok (), σ') ∧ σ.attributes d.path .n5 "dimensions" = some (.arr [.int 8]) ∧
      σ'.attributes d.path .n5 "dimensions" = some (.arr [.int 9]) := by
  have hj : (Json.obj [("dimensions", .arr [.int 9])]).IsObject := ⟨_, rfl, by decide⟩
  obtain ⟨σ', h, ho, _⟩ := (c29_change (op := .write _) (by decide) exN5_group hj).2 rfl
  refine ⟨exN5, σ', _, _, _, rfl, exN5_dataset, exN5_group, h, rfl, ?_⟩
  have e : σ'.attributes ["d"] .n5 = _ := ho.attributes
  show σ'.attributes ["d"] .n5 "dimensions" = _
  rw [e]
  rfl

end Z5
