import Verif.Props.S3Nodes
import Verif.Props.Factory

/-!
# C57, C58: files, groups and datasets on S3
-/

namespace Z5

/-! ## Nothing below a name -/

theorem dirPrefix_docKey (name : Key) (n : String) : dirPrefix name <+: docKey name n := by
  unfold dirPrefix docKey joinKey
  split
  · exact List.nil_prefix
  · exact ⟨n.toList, by simp⟩

theorem not_exists_get {b : Bucket} {name k : Key} (h : ¬ b.Exists name) (hk : dirPrefix name <+: k) :
    b.get k = none := by
  cases e : b.get k with
  | none => rfl
  | some o => exact absurd ⟨k, mem_keys.2 (by rw [e]; rfl), hk⟩ h

theorem fresh_get {b : Bucket} {name : Key} (h : ¬ b.Exists name) (n : String) : b.get (docKey name n) = none :=
  not_exists_get h (dirPrefix_docKey name n)

theorem dirPrefix_below {name k : Key} {n : String} (hk : docKey name n ++ ['/'] <+: k) : dirPrefix name <+: k :=
  (dirPrefix_docKey name n).trans ((List.prefix_append _ _).trans hk)

/-- `b'` is `b` with one object in the new node `name`. -/
structure Bucket.NewNode (b b' : Bucket) (name : Key) (n : String) (j : Json) : Prop where
  fresh : ¬ b.Exists name
  eq : b' = b.put (docKey name n) (.doc j)

namespace Bucket.NewNode

variable {b b' : Bucket} {name : Key} {n : String} {j : Json}

theorem get (h : b.NewNode b' name n j) {k : Key} (hk : dirPrefix name <+: k) :
    b'.get k = if k = docKey name n then some (.doc j) else none := by
  rw [h.eq]
  split
  · next e => rw [e, get_put_self]
  · next e => rw [get_put_ne e, not_exists_get h.fresh hk]

theorem get_doc (h : b.NewNode b' name n j) (m : String) :
    b'.get (docKey name m) = if m = n then some (.doc j) else none := by
  rw [h.get (dirPrefix_docKey name m)]
  by_cases e : m = n
  · rw [if_pos e, if_pos (by rw [e])]
  · rw [if_neg e, if_neg fun e' => e (docKey_inj e')]

theorem docAt (h : b.NewNode b' name n j) (m : String) :
    b'.docAt (docKey name m) = if m = n then some j else none := by
  unfold Bucket.docAt
  rw [h.get_doc]
  by_cases e : m = n
  · rw [if_pos e, if_pos e]
  · rw [if_neg e, if_neg e]

theorem hasNode (h : b.NewNode b' name n j) {m : String} (hn : '/' ∉ n.toList) :
    b'.HasNode (docKey name m) ↔ m = n := by
  have hg : ∀ k, dirPrefix name <+: k → (k ∈ b'.keys ↔ k = docKey name n) := by
    intro k hk
    rw [mem_keys, h.get hk]
    by_cases e : k = docKey name n
    · rw [if_pos e]; simp [e]
    · rw [if_neg e]; simp [e]
  constructor
  · rintro (h' | ⟨k, hk, hp⟩)
    · exact docKey_inj ((hg _ (dirPrefix_docKey name m)).1 h')
    · rw [hg k (dirPrefix_below hp)] at hk
      subst hk
      exact absurd ((joinKey_prefix hp).subset (by simp)) hn
  · rintro rfl
    exact .inl ((hg _ (dirPrefix_docKey name m)).2 rfl)

theorem exists_ (h : b.NewNode b' name n j) : b'.Exists name :=
  ⟨docKey name n, mem_keys.2 (by rw [h.get_doc, if_pos rfl]; rfl), dirPrefix_docKey name n⟩

/-- No object but the new one is different. -/
theorem rest (h : b.NewNode b' name n j) {k : Key} (hk : k ≠ docKey name n) : b'.get k = b.get k := by
  rw [h.eq, get_put_ne hk]

theorem mono (h : b.NewNode b' name n j) {k : Key} (hk : b.HasNode k) : b'.HasNode k := by
  have : ∀ k, k ∈ b.keys → k ∈ b'.keys := by
    intro k hk
    by_cases e : k = docKey name n
    · subst e
      rw [mem_keys, h.get_doc, if_pos rfl]
      rfl
    · rw [mem_keys, h.rest e, ← mem_keys]
      exact hk
  rcases hk with hk | ⟨k', h1, h2⟩
  · exact .inl (this _ hk)
  · exact .inr ⟨k', this _ h1, h2⟩

theorem chunks (h : b.NewNode b' name n j) : b'.chunks name = fun _ => none := by
  funext k
  unfold Bucket.chunks chunkObject
  have hp : dirPrefix name <+: name ++ '/' :: k := by
    unfold dirPrefix
    split
    · exact List.nil_prefix
    · exact ⟨k, by simp⟩
  rw [h.get hp]
  split
  · next e =>
    split at e
    · cases e
    · cases e
  · rfl

end Bucket.NewNode

/-! ## What the calls do -/

open Classical in
theorem root_isZarr (root : S3Handle) (b : Bucket) : root.isZarr.Does 4 b (.ok (decide (b.IsZarr root.name))) b := by
  have := markers_does root ".zgroup" "zarr.json" b (x := root.isZarr) rfl
  have e : decide (b.IsZarr root.name) = decide (∃ m ∈ [".zgroup", "zarr.json"], b.HasNode (docKey root.name m)) :=
    decide_eq_decide.2 Iff.rfl
  rw [e]
  exact this

theorem create_refused {h : S3Handle} {b : Bucket} (hr : h.mode = .r ∨ b.Exists h.name) :
    h.create.Does 1 b (.throw .invalidArgument) b := by
  classical
  unfold S3Handle.create
  by_cases hm : h.mode = .r
  · rw [if_pos hm]
    exact (S3M.Does.lift _ _).mono (by omega)
  · rw [if_neg hm]
    have he := exist_does h b
    rw [decide_eq_true (hr.resolve_left hm)] at he
    exact he.bind (m := 0) (.lift _ _)

theorem create_accepted {h : S3Handle} {b : Bucket} (hm : h.mode ≠ .r) (he : ¬ b.Exists h.name) :
    h.create.Does 1 b (.ok ()) b := by
  classical
  unfold S3Handle.create
  rw [if_neg hm]
  have hx := exist_does h b
  rw [decide_eq_false he] at hx
  exact hx.bind (m := 0) (.pure _ _)

/-- what writing the metadata of a dataset does, if nothing is below the name -/
theorem writeMeta_does {name : Key} {m : Meta} {j : Json} {b : Bucket} (he : ¬ b.Exists name)
    (hj : m.toJson = .ok j) :
    (GenericS3.writeDatasetMetadata name m).Does 2 b (.ok ()) (b.put (docKey name m.fileName) (.doc j)) := by
  unfold GenericS3.writeDatasetMetadata
  by_cases h3 : (m.isZarr && m.zarrFormat == 3) = true
  · rw [if_pos h3]
    rw [Bool.and_eq_true, beq_iff_eq] at h3
    have hf : m.fileName = "zarr.json" := by
      unfold Meta.fileName
      rw [h3.1, h3.2]
      rfl
    rw [hf]
    refine (s3Read_none (fresh_get he "zarr.json")).bind (m := 1) ?_
    rw [hj]
    refine ((S3M.Does.lift (.ok j) b).bind (m := 1) ?_).mono (by omega)
    exact (S3M.Does.pure j b).bind (m := 1) (s3Write_does _ _ _ _)
  · rw [if_neg h3]
    have hf : m.fileName = if m.isZarr then ".zarray" else "attributes.json" := by
      unfold Meta.fileName
      cases hz : m.isZarr with
      | false => rfl
      | true =>
        rw [hz, Bool.true_and, beq_iff_eq] at h3
        rw [if_pos rfl, if_neg h3, if_pos rfl]
    rw [hf, hj]
    exact ((S3M.Does.lift (.ok j) b).bind (m := 1) (s3Write_does _ _ _ _)).mono (by omega)

theorem writeMeta_throw {name : Key} {m : Meta} {e : Err} {b : Bucket} (he : ¬ b.Exists name)
    (hj : m.toJson = .throw e) : (GenericS3.writeDatasetMetadata name m).Does 2 b (.throw e) b := by
  unfold GenericS3.writeDatasetMetadata
  split
  · refine (s3Read_none (fresh_get he "zarr.json")).bind (m := 1) ?_
    rw [hj]
    exact (S3M.Does.lift (.throw e) b).bind_throw.mono (by omega)
  · rw [hj]
    exact (S3M.Does.lift (.throw e) b).bind_throw.mono (by omega)

theorem writeMeta_ub {name : Key} {m : Meta} {b : Bucket} (he : ¬ b.Exists name)
    (hj : m.toJson = .ub) : (GenericS3.writeDatasetMetadata name m).Does 2 b .ub b := by
  unfold GenericS3.writeDatasetMetadata
  split
  · refine (s3Read_none (fresh_get he "zarr.json")).bind (m := 1) ?_
    rw [hj]
    exact (S3M.Does.lift .ub b).bind_ub.mono (by omega)
  · rw [hj]
    exact (S3M.Does.lift .ub b).bind_ub.mono (by omega)

section
open Classical

/-- What `createDataset` returns, and the bucket if it does. -/
noncomputable def createOutcome (root : S3Handle) (key : Key) (a : CreateArgs) (b : Bucket) :
    Res S3DatasetObj × Bucket :=
  match a.toMeta (decide (b.IsZarr root.name)) with
  | .throw e => (.throw e, b)
  | .ub => (.ub, b)
  | .ok m =>
    if root.mode = .r ∨ b.Exists (joinKey root.name key) then (.throw .invalidArgument, b)
    else match m.toJson with
      | .throw e => (.throw e, b)
      | .ub => (.ub, b)
      | .ok j => (makeS3Dataset (root.dataset key m.delimiter m.zarrFormat m.encoding) m,
          b.put (docKey (joinKey root.name key) m.fileName) (.doc j))

theorem createDataset_does (root : S3Handle) (key : Key) (a : CreateArgs) (b : Bucket) :
    (root.createDataset key a).Does 7 b (createOutcome root key a b).1 (createOutcome root key a b).2 := by
  unfold S3Handle.createDataset createOutcome
  refine (root_isZarr root b).bind (m := 3) ?_
  cases hm : a.toMeta (decide (b.IsZarr root.name)) with
  | throw e => exact ((S3M.Does.lift (.throw e) b).bind_throw).mono (by omega)
  | ub => exact ((S3M.Does.lift .ub b).bind_ub).mono (by omega)
  | ok m =>
    refine ((S3M.Does.lift (.ok m) b).bind (m := 3) ?_).mono (by omega)
    unfold S3DatasetHandle.createDataset
    show (S3Handle.create ⟨joinKey root.name key, root.mode⟩ >>= fun _ =>
      GenericS3.writeDatasetMetadata (joinKey root.name key) m >>= fun _ =>
      S3M.lift (makeS3Dataset (root.dataset key m.delimiter m.zarrFormat m.encoding) m)).Does 3 b _ _
    dsimp only
    by_cases hr : root.mode = .r ∨ b.Exists (joinKey root.name key)
    · rw [if_pos hr]
      exact ((create_refused hr).bind_throw).mono (by omega)
    · rw [if_neg hr]
      have hr := not_or.1 hr
      refine (create_accepted (h := ⟨joinKey root.name key, root.mode⟩) hr.1 hr.2).bind (m := 2) ?_
      cases hj : m.toJson with
      | throw e => exact (writeMeta_throw hr.2 hj).bind_throw
      | ub => exact (writeMeta_ub hr.2 hj).bind_ub
      | ok j => exact (writeMeta_does hr.2 hj).bind_lift rfl

end

theorem createDataset_returned {root : S3Handle} {key : Key} {a : CreateArgs} {ds : S3DatasetObj} {b : Bucket}
    {es : List Event} {w : World} (hes : ∀ e ∈ es, e.Reliable)
    (h : root.createDataset key a ⟨es, b⟩ = (some (.ok ds), w)) :
    ∃ z j, (z = true ↔ b.IsZarr root.name) ∧ root.mode ≠ .r ∧ a.toMeta z = .ok ds.obj.info ∧
      ds.obj.info.dtype.isComplex = false ∧
      makeDataset ⟨[], root.mode, a.delimiter, a.zarrFormat, a.encoding, none⟩ ds.obj.info = .ok ds.obj ∧
      ds.name = joinKey root.name key ∧
      ds.obj.handle = ⟨[], root.mode, a.delimiter, a.zarrFormat, a.encoding, some z⟩ ∧
      ds.obj.info.toJson = .ok j ∧
      b.NewNode w.bucket (joinKey root.name key) ds.obj.info.fileName j := by
  classical
  obtain ⟨h1, h2⟩ := (createDataset_does root key a b).ok hes h
  unfold createOutcome at h1 h2
  cases hm : a.toMeta (decide (b.IsZarr root.name)) with
  | throw e => rw [hm] at h1; cases h1
  | ub => rw [hm] at h1; cases h1
  | ok m =>
    rw [hm] at h1 h2
    dsimp only at h1 h2
    by_cases hr : root.mode = .r ∨ b.Exists (joinKey root.name key)
    · rw [if_pos hr] at h1; cases h1
    · rw [if_neg hr] at h1 h2
      have hr := not_or.1 hr
      cases hj : m.toJson with
      | throw e => rw [hj] at h1; cases h1
      | ub => rw [hj] at h1; cases h1
      | ok j =>
        rw [hj] at h1 h2
        dsimp only at h1 h2
        unfold makeS3Dataset at h1
        cases hc : m.dtype.isComplex with
        | true => rw [hc] at h1; cases h1
        | false =>
          rw [hc] at h1
          obtain ⟨o, ho, he⟩ := Res.bind_eq_ok.1 h1
          cases he
          obtain ⟨e1, e2, e3, e4, e5, e6, e7, e8, e9, e10, e11, e12⟩ := createMeta_ok hm
          have ho : makeDataset ⟨[], root.mode, m.delimiter, m.zarrFormat, m.encoding, none⟩ m = .ok o := ho
          rw [e7, e2, e8] at ho
          obtain ⟨i1, i2⟩ := makeDataset_info ho (fun e => by rw [e1]; exact (e12 e).1)
          subst i1
          refine ⟨_, j, decide_eq_true_iff, hr.1, hm, hc, ho, rfl, ?_, hj, hr.2, h2⟩
          rw [i2, e1]

/-! ## C57: datasets -/

/-- **C57.**  With a handle that may not write, or if something exists at the key, no dataset and no group is created,
    and nothing is changed. -/
theorem c57_refused {root : S3Handle} {key : Key} {b : Bucket}
    (hr : root.mode = .r ∨ b.Exists (joinKey root.name key)) :
    (∀ zarrFormat, (root.createGroup key zarrFormat).Does 5 b (.throw .invalidArgument) b) ∧
    (∀ (a : CreateArgs) (z : Bool) (m : Meta), (z = true ↔ b.IsZarr root.name) → a.toMeta z = .ok m →
      (root.createDataset key a).Does 7 b (.throw .invalidArgument) b) ∧
    ∀ (a : CreateArgs) (es : List Event), (∀ e ∈ es, e.Reliable) →
      (root.createDataset key a ⟨es, b⟩).2.bucket = b ∧
      ∀ ds, (root.createDataset key a ⟨es, b⟩).1 ≠ some (.ok ds) := by
  classical
  refine ⟨fun f => ?_, fun a z m hz hm => ?_, fun a es hes => ?_⟩
  · unfold S3Handle.createGroup
    exact (root_isZarr root b).bind (m := 1) (create_refused (h := root.child key) hr).bind_throw
  · have := createDataset_does root key a b
    have hz : decide (b.IsZarr root.name) = z := by
      rw [Bool.eq_iff_iff, decide_eq_true_iff]
      exact hz.symm
    unfold createOutcome at this
    rw [hz, hm] at this
    dsimp only at this
    rw [if_pos hr] at this
    exact this
  · have hd := createDataset_does root key a b
    have ho : (createOutcome root key a b).2 = b ∧ ∀ ds, (createOutcome root key a b).1 ≠ .ok ds := by
      unfold createOutcome
      cases a.toMeta (decide (b.IsZarr root.name)) with
      | ok m =>
        dsimp only
        rw [if_pos hr]
        exact ⟨rfl, fun _ e => by cases e⟩
      | throw e => exact ⟨rfl, fun _ e => by cases e⟩
      | ub => exact ⟨rfl, fun _ e => by cases e⟩
    refine ⟨?_, fun ds h => ?_⟩
    · have := hd.bucket hes
      rw [ho.1] at this
      exact this.elim id id
    · exact ho.2 ds (hd.ok hes (w := (root.createDataset key a ⟨es, b⟩).2) (Prod.ext h rfl)).1

/-- **C57.**  If `createDataset` returns, nothing existed at the key; it has stored one object, the metadata document;
    and the dataset has the requested properties. -/
theorem c57_created {root : S3Handle} {key : Key} {a : CreateArgs} {ds : S3DatasetObj} {b : Bucket}
    {es : List Event} {w : World} (hes : ∀ e ∈ es, e.Reliable)
    (h : root.createDataset key a ⟨es, b⟩ = (some (.ok ds), w)) :
    ¬ b.Exists (joinKey root.name key) ∧
    (∃ j, w.bucket = b.put (docKey (joinKey root.name key) ds.obj.info.fileName) (.doc j)) ∧
    ds.name = joinKey root.name key ∧
    ds.obj.info.shape = a.shape ∧ ds.obj.info.chunkShape = a.chunkShape ∧ ds.obj.info.shardShape = a.shardShape ∧
    ds.obj.info.zarrFormat = a.zarrFormat ∧ ds.obj.info.fillValue = a.fill ∧
    assocGet Datatype.n5ToDtype a.dtype = some ds.obj.info.dtype ∧
    assocGet Compressor.stringToCompressor a.compressor = some ds.obj.info.compressor ∧
    (ds.obj.info.isZarr = true ↔ b.IsZarr root.name) ∧
    ds.obj.keyCfg = ⟨ds.obj.info.isZarr, a.delimiter.toList, a.zarrFormat.toNat, a.encoding.toList⟩ := by
  obtain ⟨z, j, hz, hr, hm, hc, hmk, hn, hh, hj, hnn⟩ := createDataset_returned hes h
  obtain ⟨e1, e2, e3, e4, e5, e6, e7, e8, e9, e10, e11⟩ := createMeta_ok hm
  refine ⟨hnn.fresh, ⟨j, hnn.eq⟩, hn, e3, e4, e5, e2, e6, e9, e10, by rw [e1, hz], ?_⟩
  unfold DatasetObj.keyCfg
  rw [hh, e1]
  rfl

/-- **C57.**  `createDataset` is atomic: if requests fail or it is interrupted, the bucket is as it was, or the
    complete metadata document has been stored. -/
theorem c57_atomic {root : S3Handle} {key : Key} {a : CreateArgs} {b : Bucket} {es : List Event}
    (hes : ∀ e ∈ es, e.Reliable) :
    (root.createDataset key a ⟨es, b⟩).2.bucket = b ∨
    ∃ z m j, (z = true ↔ b.IsZarr root.name) ∧ a.toMeta z = .ok m ∧ m.toJson = .ok j ∧
      ¬ b.Exists (joinKey root.name key) ∧
      (root.createDataset key a ⟨es, b⟩).2.bucket = b.put (docKey (joinKey root.name key) m.fileName) (.doc j) := by
  classical
  rcases (createDataset_does root key a b).bucket hes with e | e
  · exact .inl e
  · rw [e]
    unfold createOutcome
    cases hm : a.toMeta (decide (b.IsZarr root.name)) with
    | throw e => exact .inl rfl
    | ub => exact .inl rfl
    | ok m =>
      dsimp only
      by_cases hr : root.mode = .r ∨ b.Exists (joinKey root.name key)
      · rw [if_pos hr]; exact .inl rfl
      · rw [if_neg hr]
        cases hj : m.toJson with
        | throw e => exact .inl rfl
        | ub => exact .inl rfl
        | ok j => exact .inr ⟨_, m, j, decide_eq_true_iff, hm, hj, (not_or.1 hr).2, rfl⟩

/-- **C57.**  `createDataset` succeeds, unless a request fails, if the handle may write, nothing exists at the key, the
    record is valid and can be serialised, the compressor accepts its options and the data type is not complex. -/
theorem c57_succeeds {root : S3Handle} {key : Key} {a : CreateArgs} {b : Bucket} {z : Bool} {m : Meta} {j : Json}
    {obj : DatasetObj} (hz : z = true ↔ b.IsZarr root.name) (hr : root.mode ≠ .r)
    (he : ¬ b.Exists (joinKey root.name key)) (hm : a.toMeta z = .ok m) (hj : m.toJson = .ok j)
    (hc : m.dtype.isComplex = false)
    (hmk : makeDataset ⟨[], root.mode, a.delimiter, a.zarrFormat, a.encoding, none⟩ m = .ok obj) :
    (root.createDataset key a).Does 7 b (.ok ⟨joinKey root.name key, obj⟩)
      (b.put (docKey (joinKey root.name key) m.fileName) (.doc j)) := by
  classical
  have := createDataset_does root key a b
  have hz : decide (b.IsZarr root.name) = z := by
    rw [Bool.eq_iff_iff, decide_eq_true_iff]
    exact hz.symm
  unfold createOutcome at this
  obtain ⟨e1, e2, e3, e4, e5, e6, e7, e8, _⟩ := createMeta_ok hm
  rw [hz, hm] at this
  dsimp only at this
  rw [if_neg (not_or.2 ⟨hr, he⟩), hj] at this
  have e : makeS3Dataset (root.dataset key m.delimiter m.zarrFormat m.encoding) m
      = .ok ⟨joinKey root.name key, obj⟩ := by
    unfold makeS3Dataset
    rw [hc, e7, e2, e8]
    show (makeDataset ⟨[], root.mode, a.delimiter, a.zarrFormat, a.encoding, none⟩ m >>= fun o =>
      (Res.ok ⟨joinKey root.name key, o⟩ : Res S3DatasetObj)) = _
    rw [hmk]
    rfl
  rw [e] at this
  exact this

theorem readS3ChunkConfig_new {b b' : Bucket} {name : Key} {m : Meta} {j : Json}
    (h : b.NewNode b' name m.fileName j) :
    (readS3ChunkConfig name).Does 2 b' (getZarrChunkConfig (if m.fileName = "zarr.json" then some j else none)
      (if m.fileName = ".zarray" then some j else none)) b' := by
  unfold readS3ChunkConfig
  have h3 := getObject_does (docKey name "zarr.json") b'
  have h2 := getObject_does (docKey name ".zarray") b'
  rw [h.get_doc] at h2 h3
  rcases fileName_cases m with ⟨e, _⟩ | ⟨e, _⟩ | ⟨e, _⟩
  · rw [e] at h3 ⊢
    exact (h3.bind (m := 0) (.lift _ _)).mono (by omega)
  · rw [e] at h3 h2 ⊢
    exact h3.bind (m := 1) (h2.bind (m := 0) (.lift _ _))
  · rw [e] at h3 h2 ⊢
    exact h3.bind (m := 1) (h2.bind (m := 0) (.lift _ _))

theorem metadata_new {b b' : Bucket} {name : Key} {m : Meta} {j : Json} (h : b.NewNode b' name m.fileName j) :
    b'.metadata name = Meta.fromJson j m.isZarr := by
  unfold Bucket.metadata
  simp only [h.get_doc]
  rcases fileName_cases m with ⟨e, hz⟩ | ⟨e, hz⟩ | ⟨e, hz⟩ <;> rw [e, hz] <;> rfl

/-- **C57.**  What `createDataset` created, `openDataset` opens, as a dataset with the same properties. -/
theorem c57_reopen {root : S3Handle} {key : Key} {a : CreateArgs} {ds : S3DatasetObj} {b : Bucket}
    {es : List Event} {w : World} (hes : ∀ e ∈ es, e.Reliable)
    (h : root.createDataset key a ⟨es, b⟩ = (some (.ok ds), w)) (ht : ds.obj.info.Typed)
    (hf : ds.obj.info.isZarr = true → a.zarrFormat = 2 ∨ a.zarrFormat = 3) :
    ∃ ds', (root.openDataset key).Does 10 w.bucket (.ok ds') w.bucket ∧ ds'.name = ds.name ∧ ds.obj.SameAs ds'.obj := by
  classical
  obtain ⟨z, j, hz, hr, hm, hc, hmk, hn, hh, hj, hnn⟩ := createDataset_returned hes h
  obtain ⟨e1, _⟩ := createMeta_ok hm
  obtain ⟨m', cfg, obj', h1, h2, h3, h4, h5⟩ := reopen_pure hm hmk hj ht hf
  refine ⟨⟨joinKey root.name key, obj'⟩, ?_, hn.symm, h5⟩
  have hcfg := readS3ChunkConfig_new hnn
  have hcfg : (readS3ChunkConfig (joinKey root.name key)).Does 2 w.bucket (.ok cfg) w.bucket := by
    cases hzz : ds.obj.info.isZarr with
    | true => rw [h2 hzz] at hcfg; exact hcfg
    | false =>
      have : ds.obj.info.fileName = "attributes.json" := by
        unfold Meta.fileName
        rw [hzz]
        rfl
      rw [this] at hcfg
      rw [h3 hzz]
      exact hcfg
  unfold S3Handle.openDataset
  refine (root_isZarr root w.bucket).bind (m := 6) ?_
  have tail : ((root.dataset key cfg.delimiter cfg.zarrFormat cfg.encoding).openDataset).Does 4 w.bucket
      (.ok ⟨joinKey root.name key, obj'⟩) w.bucket := by
    unfold S3DatasetHandle.openDataset
    have he := exist_does ⟨joinKey root.name key, root.mode⟩ w.bucket
    rw [decide_eq_true hnn.exists_] at he
    refine he.bind (m := 3) ?_
    have hmd := readS3Metadata_does (joinKey root.name key) w.bucket
    rw [metadata_new hnn, h1] at hmd
    refine hmd.bind (m := 0) ?_
    have e : makeS3Dataset (root.dataset key cfg.delimiter cfg.zarrFormat cfg.encoding) m'
        = .ok ⟨joinKey root.name key, obj'⟩ := by
      have hd : m'.dtype.isComplex = false := by
        have := h5.dtype
        have hi : obj'.info = m' := by
          obtain ⟨B, f, s, _, _, _, hx⟩ := makeDataset_ok.1 h4
          rcases hx with ⟨_, _, _, rfl⟩ | ⟨_, rfl⟩ <;> rfl
        rw [hi] at this
        rw [this]
        exact hc
      unfold makeS3Dataset
      rw [hd]
      show (makeDataset ⟨[], root.mode, cfg.delimiter, cfg.zarrFormat, cfg.encoding, none⟩ m' >>= fun o =>
        (Res.ok ⟨joinKey root.name key, o⟩ : Res S3DatasetObj)) = _
      rw [h4]
      rfl
    rw [e]
    exact .lift _ _
  by_cases hzz : w.bucket.IsZarr root.name
  · rw [decide_eq_true hzz]
    exact hcfg.bind (m := 4) tail
  · rw [decide_eq_false hzz]
    have hi : cfg = ChunkConfig.initial := by
      cases hz' : ds.obj.info.isZarr with
      | false => exact h3 hz'
      | true =>
        rw [e1] at hz'
        obtain ⟨m, g1, g2⟩ := hz.1 hz'
        exact absurd ⟨m, g1, hnn.mono g2⟩ hzz
    rw [hi] at tail
    exact ((S3M.Does.pure ChunkConfig.initial w.bucket).bind (m := 4) tail).mono (by omega)

/-- **C57.**  A new dataset is in the initial state of all histories (`Reaches`), and reads as the fill value
    everywhere.  `D` is the dataset object with the same shape and chunk shape. -/
theorem c57_all_fill {root : S3Handle} {key : Key} {a : CreateArgs} {ds : S3DatasetObj} {b : Bucket}
    {es : List Event} {w : World} (hes : ∀ e ∈ es, e.Reliable)
    (h : root.createDataset key a ⟨es, b⟩ = (some (.ok ds), w)) {E : Elem} {D : Dataset E}
    (hD : D.WF) (hw : D.canWrite = true) :
    Reaches D [] (w.bucket.chunks ds.name) ∧
    ∃ A, ReadsAs D (w.bucket.chunks ds.name) A ∧ ∀ x, InBox x D.shape → A x = D.fill := by
  obtain ⟨z, j, hz, hr, hm, hc, hmk, hn, hh, hj, hnn⟩ := createDataset_returned hes h
  rw [hn, hnn.chunks]
  have hr : Reaches D [] (fun _ => none) := .empty fun _ _ => rfl
  obtain ⟨A, h1, h2⟩ := Props.c12_unwritten_is_fill hD hw hr
  exact ⟨hr, A, h1, fun x hx => h2 x hx (fun w hw => by cases hw)⟩

theorem hasNode_dataset {b b' : Bucket} {name : Key} {m : Meta} {j : Json} (h : b.NewNode b' name m.fileName j) {n : String} :
    b'.HasNode (docKey name n) ↔ n = m.fileName := by
  refine h.hasNode ?_
  rcases fileName_cases m with ⟨e, _⟩ | ⟨e, _⟩ | ⟨e, _⟩ <;> rw [e] <;> decide

/-- **C57.**  The handle of a dataset that was created refers to a node with no attributes to be seen, so that C56
    holds of it. -/
theorem c57_created_attributes {root : S3Handle} {key : Key} {a : CreateArgs} {ds : S3DatasetObj} {b : Bucket}
    {es : List Event} {w : World} (hes : ∀ e ∈ es, e.Reliable)
    (h : root.createDataset key a ⟨es, b⟩ = (some (.ok ds), w)) :
    let L := Layout.of ds.obj.info.isZarr a.zarrFormat
    let t := S3Target.dataset ⟨ds.name, ds.obj.handle⟩
    t.Refers w.bucket L ∧ t.mode.canWrite = true ∧ ∀ k, t.shown L (w.bucket.attributes t.name L) k = none := by
  obtain ⟨z, j, hz, hr, hm, hc, hmk, hn, hh, hj, hnn⟩ := createDataset_returned hes h
  obtain ⟨e1, e2, _⟩ := createMeta_ok hm
  intro L t
  have ht : t.name = joinKey root.name key := hn
  have hL : Layout.of ds.obj.info.isZarr ds.obj.info.zarrFormat = L := by rw [e2]
  have hfile : ds.obj.info.fileName = L.datasetFile := by rw [← hL, fileName_layout]
  have hLz : L.isZarr = ds.obj.info.isZarr := by
    rw [← hL]
    cases ds.obj.info.isZarr with
    | false => rfl
    | true => by_cases hf : ds.obj.info.zarrFormat = 3 <;> simp [Layout.of, hf, Layout.isZarr]
  have hobj := toJson_object hj
  have hcache : t.cache = some z := by
    show ds.obj.handle.cache = some z
    rw [hh]
  refine ⟨⟨?_, ?_, ?_, ?_⟩, ?_, ?_⟩
  · rw [ht]
    refine ⟨?_, ?_, ?_⟩
    · by_cases hv : L = .v2
      · refine .inl ?_
        rw [hnn.get_doc, hfile, hv]
        rfl
      · refine .inr ⟨j, ?_, (hobj (by rw [hL]; exact hv)).1⟩
        rw [hnn.docAt, hfile]
        cases hLL : L with
        | v2 => exact absurd hLL hv
        | v3 => rfl
        | n5 => rfl
    · intro hv
      obtain ⟨o1, o2⟩ := hobj (by rw [hL, hv]; decide)
      refine ⟨j, ?_, o1, fun c hc => ?_⟩
      · rw [hnn.docAt, hfile, hv]
        rfl
      · rw [o2 (by rw [hL, hv])] at hc
        cases hc
        exact isObject_empty
    · intro hv
      rw [hnn.get_doc, hfile, hv]
      rfl
  · intro e
    rw [hcache] at e
    cases e
  · intro z' e
    rw [hcache] at e
    cases e
    rw [hLz, e1]
  · intro d _ hv
    rw [ht, hnn.get_doc, hfile, hv]
    exact fun e => by cases e
  · show ds.obj.handle.mode.canWrite = true
    rw [hh]
    show root.mode.canWrite = true
    generalize root.mode = mo at hr ⊢
    cases mo <;> first | rfl | exact absurd rfl hr
  · intro k
    rw [ht]
    unfold S3Target.shown
    split
    · rfl
    · next hk =>
      cases hLL : L with
      | v2 =>
        show (w.bucket.docAt (docKey _ ".zattrs")).bind _ = none
        rw [hnn.docAt, hfile, hLL]
        rfl
      | v3 =>
        show ((w.bucket.docAt (docKey _ "zarr.json")).bind _).bind _ = none
        rw [hnn.docAt, hfile, hLL]
        show (j.find "attributes").bind _ = none
        rw [(hobj (by rw [hL, hLL]; decide)).2 (by rw [hL, hLL])]
        rfl
      | n5 =>
        show (w.bucket.docAt (docKey _ "attributes.json")).bind _ = none
        rw [hnn.docAt, hfile, hLL]
        show j.find k = none
        rw [hLL] at hk
        have hz0 : ds.obj.info.isZarr = false := by rw [← hLz, hLL]; rfl
        obtain ⟨s, c, _, _, rfl⟩ := (toJson_n5 hz0).1 hj
        have hk : k ∉ ["dimensions", "blockSize", "dataType", "compressionType", "compression"] := by
          intro h'
          exact hk (List.contains_iff_mem.2 h')
        simp at hk
        simp [Json.find, assocGet, Ne.symm hk.1, Ne.symm hk.2.1, Ne.symm hk.2.2.1, Ne.symm hk.2.2.2.2]

/-! ## C57: groups and files -/

theorem writeV3Group_does {name : Key} {b : Bucket} (he : ¬ b.Exists name) :
    (GenericS3.writeV3GroupMetadata name).Does 2 b (.ok ()) (b.put (docKey name "zarr.json") (.doc v3GroupDoc)) := by
  unfold GenericS3.writeV3GroupMetadata
  refine (s3Read_none (fresh_get he "zarr.json")).bind (m := 1) ?_
  exact s3Write_does name "zarr.json" v3GroupDoc b

theorem writeFile_does {name : Key} {b : Bucket} (he : ¬ b.Exists name) (z : Bool) (f : Int) :
    (GenericS3.writeFileMetadata name z f).Does 2 b (.ok ()) (b.withGroup name (.of z f) f true) := by
  unfold GenericS3.writeFileMetadata Layout.of
  cases z with
  | false =>
    refine (s3Read_none (fresh_get he "attributes.json")).bind (m := 1) ?_
    exact s3Write_does name "attributes.json" (.obj [("n5", .str "2.0.0")]) b
  | true =>
    by_cases hf : f = 3
    · subst hf
      exact writeV3Group_does he
    · have : (true && f == 3) = false := by simpa using hf
      rw [this]
      simp only [Bool.false_eq_true, if_false, if_true, if_neg hf]
      exact (s3Write_does name ".zgroup" _ b).mono (by omega)

theorem writeGroup_does {name : Key} {b : Bucket} (he : ¬ b.Exists name) (z : Bool) (f : Int) :
    (GenericS3.writeGroupMetadata name z f).Does 2 b (.ok ()) (b.withGroup name (.of z f) f false) := by
  unfold GenericS3.writeGroupMetadata Layout.of
  cases z with
  | false => exact (S3M.Does.pure () b).mono (by omega)
  | true =>
    by_cases hf : f = 3
    · subst hf
      exact writeV3Group_does he
    · have : (true && f == 3) = false := by simpa using hf
      rw [this]
      simp only [Bool.false_eq_true, if_false, if_true, if_neg hf]
      exact (s3Write_does name ".zgroup" _ b).mono (by omega)

/-- the node of a new group or file -/
theorem withGroup_node {b : Bucket} {name : Key} {L : Layout} {f : Int} {isFile : Bool} (he : ¬ b.Exists name) :
    let b' := b.withGroup name L f isFile
    b'.Node name L ∧ (L.isZarr = true ↔ ∃ m ∈ [".zgroup", "zarr.json"], b'.HasNode (docKey name m)) ∧
    ∀ k, b'.attributes name L k = if L = .n5 ∧ isFile = true ∧ k = "n5" then some (.str "2.0.0") else none := by
  intro b'
  cases L with
  | v3 =>
    have hn : b.NewNode b' name "zarr.json" v3GroupDoc := ⟨he, rfl⟩
    have hd : b'.docAt (docKey name "zarr.json") = some v3GroupDoc := hn.docAt _
    have ho : v3GroupDoc.IsObject := ⟨_, rfl, by decide⟩
    refine ⟨⟨.inr ⟨_, hd, ho⟩, fun _ => ⟨_, hd, ho, fun c hc => by cases hc; exact isObject_empty⟩, (fun e => by cases e)⟩,
      ⟨fun _ => ⟨"zarr.json", by decide, (hn.hasNode (by decide)).2 rfl⟩, fun _ => rfl⟩, fun k => ?_⟩
    show ((b'.docAt (docKey name "zarr.json")).bind _).bind _ = _
    rw [hd]
    rfl
  | v2 =>
    have hn : b.NewNode b' name ".zgroup" (.obj [("zarr_format", .int f)]) := ⟨he, rfl⟩
    refine ⟨⟨.inl (hn.get_doc ".zattrs"), (fun e => by cases e), fun _ => hn.get_doc "zarr.json"⟩,
      ⟨fun _ => ⟨".zgroup", by decide, (hn.hasNode (by decide)).2 rfl⟩, fun _ => rfl⟩, fun k => ?_⟩
    show (b'.docAt (docKey name ".zattrs")).bind _ = _
    rw [hn.docAt]
    rfl
  | n5 =>
    cases isFile with
    | true =>
      have hn : b.NewNode b' name "attributes.json" (.obj [("n5", .str "2.0.0")]) := ⟨he, rfl⟩
      refine ⟨⟨.inr ⟨_, hn.docAt "attributes.json", _, rfl, by decide⟩, (fun e => by cases e), (fun e => by cases e)⟩,
        ⟨(fun e => by cases e), fun ⟨m, hm, h⟩ => ?_⟩, fun k => ?_⟩
      · rw [hn.hasNode (by decide)] at h
        subst h
        exact absurd hm (by decide)
      · show (b'.docAt (docKey name "attributes.json")).bind _ = _
        rw [hn.docAt]
        show assocGet [("n5", Json.str "2.0.0")] k = _
        simp only [assocGet]
        by_cases e : k = "n5"
        · simp [e]
        · simp [e, Ne.symm e]
    | false =>
      have hg : ∀ n, b'.get (docKey name n) = none := fresh_get he
      refine ⟨⟨.inl (hg _), (fun e => by cases e), (fun e => by cases e)⟩,
        ⟨(fun e => by cases e), fun ⟨m, _, h⟩ => ?_⟩, fun k => ?_⟩
      · rcases h with h | ⟨k, hk, hp⟩
        · rw [mem_keys, hg] at h
          cases h
        · exact absurd ⟨k, hk, dirPrefix_below hp⟩ he
      · show (b'.docAt (docKey name "attributes.json")).bind _ = _
        rw [s3_docAt_none (hg _), if_neg fun h => by cases h.2.1]
        rfl

/-- **C57.**  `createGroup` at a key where nothing exists stores the document of the group, in zarr, and nothing else;
    in N5 it stores nothing.  The new group has no attributes, and C56 holds of it. -/
theorem c57_group {root : S3Handle} {key : Key} {zarrFormat : Int} {z : Bool} {b : Bucket}
    (hz : z = true ↔ b.IsZarr root.name) (hr : root.mode ≠ .r) (he : ¬ b.Exists (joinKey root.name key)) :
    let L := Layout.of z zarrFormat
    let b' := b.withGroup (joinKey root.name key) L zarrFormat false
    (root.createGroup key zarrFormat).Does 7 b (.ok ()) b' ∧
    (S3Target.group (root.child key)).Refers b' L ∧ ∀ k, b'.attributes (joinKey root.name key) L k = none := by
  classical
  intro L b'
  obtain ⟨h1, h2, h3⟩ := withGroup_node (L := L) (f := zarrFormat) (isFile := false) he
  refine ⟨?_, ⟨h1, fun _ => h2, (fun z e => by cases e), (fun d e => by cases e)⟩, fun k => ?_⟩
  · have hz' : decide (b.IsZarr root.name) = z := by
      rw [Bool.eq_iff_iff, decide_eq_true_iff]
      exact hz.symm
    unfold S3Handle.createGroup
    have := root_isZarr root b
    rw [hz'] at this
    refine this.bind (m := 3) ?_
    exact (create_accepted (h := root.child key) hr he).bind (m := 2) (writeGroup_does he z zarrFormat)
  · rw [h3, if_neg fun h => by cases h.2.1]

/-- **C57.**  `createFile` is refused if the handle may not create or something exists.  Otherwise it stores one
    document; the container has the format asked for, no attributes but the version of N5, and C56 holds of it. -/
theorem c57_file {h : S3Handle} {isZarr : Bool} {zarrFormat : Int} {b : Bucket} :
    (h.mode.canCreate = false ∨ b.Exists h.name →
      (h.createFile isZarr zarrFormat).Does 3 b (.throw .invalidArgument) b) ∧
    (h.mode.canCreate = true → ¬ b.Exists h.name →
      let L := Layout.of isZarr zarrFormat
      let b' := b.withGroup h.name L zarrFormat true
      (h.createFile isZarr zarrFormat).Does 3 b (.ok ()) b' ∧ (isZarr = true ↔ b'.IsZarr h.name) ∧
      (S3Target.file h).Refers b' L ∧
      ∀ k, b'.attributes h.name L k = if L = .n5 ∧ k = "n5" then some (.str "2.0.0") else none) := by
  classical
  constructor
  · intro hr
    unfold S3Handle.createFile S3Handle.createAsFile
    cases hc : h.mode.canCreate with
    | false => exact (S3M.Does.lift (α := Unit) (.throw .invalidArgument) b).bind_throw.mono (by omega)
    | true =>
      have hx := exist_does h b
      rw [decide_eq_true (hr.resolve_left (by rw [hc]; decide))] at hx
      exact (hx.bind (m := 0) (.lift _ _)).bind_throw.mono (by omega)
  · intro hc he L b'
    obtain ⟨h1, h2, h3⟩ := withGroup_node (L := L) (f := zarrFormat) (isFile := true) he
    have hL : L.isZarr = isZarr := by
      show (Layout.of isZarr zarrFormat).isZarr = _
      cases isZarr with
      | false => rfl
      | true => by_cases hf : zarrFormat = 3 <;> simp [Layout.of, hf, Layout.isZarr]
    refine ⟨?_, by rw [← hL]; exact h2, ⟨h1, fun _ => h2, (fun z e => by cases e), (fun d e => by cases e)⟩, fun k => ?_⟩
    · unfold S3Handle.createFile S3Handle.createAsFile
      rw [hc]
      have hx := exist_does h b
      rw [decide_eq_false he] at hx
      exact (hx.bind (m := 0) (.pure () b)).bind (m := 2) (writeFile_does he isZarr zarrFormat)
    · rw [h3]
      simp


/-- A bucket with the root of a zarr v2 file, and its handle -/
def exS3Zarr : Bucket := [("f/.zgroup".toList, .doc (.obj [("zarr_format", .int 2)]))]

def exS3Root : S3Handle := ⟨"f".toList, .a⟩

/-- The same for N5 -/
def exS3N5 : Bucket := [("f/attributes.json".toList, .doc (.obj [("n5", .str "2.0.0")]))]

/-- what creating `exArgs` in it returns -/
def exS3Ds : S3DatasetObj := ⟨"f/d".toList, { exDs with handle := { exDs.handle with path := [] } }⟩

theorem exS3_calm (n : Nat) : ∀ e ∈ List.replicate n ({} : Event), e.Reliable := fun e he => by
  rw [List.eq_of_mem_replicate he]
  exact ⟨rfl, rfl, (fun d h => by cases h), by decide⟩

theorem exS3_isZarr : true = true ↔ exS3Zarr.IsZarr exS3Root.name :=
  ⟨fun _ => ⟨".zgroup", by decide, .inl (by decide +kernel)⟩, fun _ => rfl⟩

theorem exS3_fresh : ¬ exS3Zarr.Exists (joinKey exS3Root.name "d".toList) := by
  unfold Bucket.Exists
  decide +kernel

theorem exS3_succeeds : (exS3Root.createDataset "d".toList exArgs).Does 7 exS3Zarr (.ok exS3Ds)
    (exS3Zarr.put "f/d/.zarray".toList (.doc (by
      exact match exDs.info.toJson with | .ok j => j | _ => .null))) := by
  refine c57_succeeds (z := true) (m := exDs.info) (obj := exS3Ds.obj) exS3_isZarr (by decide) exS3_fresh ?_ ?_ rfl ?_
  · decide +kernel
  · rfl
  · decide +kernel

/-- The hypotheses of `c57_created`, `c57_reopen`, `c57_all_fill` and `c57_created_attributes` are met. -/
example : ∃ w ds', exS3Root.createDataset "d".toList exArgs ⟨List.replicate 7 {}, exS3Zarr⟩ = (some (.ok exS3Ds), w) ∧
    (exS3Root.openDataset "d".toList).Does 10 w.bucket (.ok ds') w.bucket ∧ exS3Ds.obj.SameAs ds'.obj := by
  rcases exS3_succeeds _ (exS3_calm 7) with ⟨es', -, -, h⟩ | ⟨es', b', -, -, -, e, he, k, hk⟩ | ⟨h, -⟩
  · obtain ⟨ds', h1, _, h2⟩ := c57_reopen (exS3_calm 7) h exDs_typed (fun _ => .inl rfl)
    exact ⟨_, ds', h, h1, h2⟩
  · rw [List.eq_of_mem_replicate he] at hk
    exact absurd rfl hk
  · exact absurd h (by decide)

/-- The hypotheses of `c57_refused` are met: a dataset that exists. -/
example : exS3.Exists (joinKey "".toList "d".toList) := ⟨"d/attributes.json".toList, by decide +kernel, by decide +kernel⟩

/-- The hypotheses of `c57_group` are met by `exS3Root`; those of `c57_file` by an empty bucket. -/
example : exS3Root.mode ≠ .r ∧ ¬ exS3Zarr.Exists (joinKey exS3Root.name "d".toList) ∧
    exS3Root.mode.canCreate = true ∧ ¬ Bucket.Exists [] exS3Root.name :=
  ⟨by decide, exS3_fresh, by decide, fun ⟨_, h, _⟩ => by cases h⟩

deriving instance DecidableEq for S3DatasetObj

theorem S3M.run_eq {α : Type} {x : S3M α} {w : World} {r : Option (Res α)} (h : (x w).1 = r) : x w = (r, (x w).2) := by
  rw [← h]

/-- **C57, negation**: `createGroup` in an N5 container returns, and the group does not exist: nothing is stored, and
    `createGroup` with the same key is not refused.  Nor does `isSubGroup` tell such groups from keys that were never
    created: of the key `other` it says that it is a group. -/
theorem c57_n5_group_counterexample :
    ∃ (root : S3Handle) (key other : Key) (b : Bucket), key ≠ other ∧
      (root.createGroup key).Does 7 b (.ok ()) b ∧ ¬ b.Exists (joinKey root.name key) ∧
      ¬ b.Exists (joinKey root.name other) ∧
      (root.isSubGroup other ⟨List.replicate 5 {}, b⟩).1 = some (.ok true) := by
  have hz : false = true ↔ exS3N5.IsZarr exS3Root.name := by
    refine ⟨(fun e => by cases e), fun h => ?_⟩
    exfalso
    revert h
    unfold Bucket.IsZarr Bucket.HasNode
    decide +kernel
  have hf : ∀ k ∈ ["g".toList, "h".toList], ¬ exS3N5.Exists (joinKey exS3Root.name k) := by
    unfold Bucket.Exists
    decide +kernel
  exact ⟨exS3Root, "g".toList, "h".toList, exS3N5, by decide,
    (c57_group (root := exS3Root) (zarrFormat := 2) hz (by decide) (hf _ (by decide))).1, hf _ (by decide),
    hf _ (by decide), rfl⟩

/-- **C57, negation**: `createDataset` with an empty shape throws after it has stored the metadata: from then on
    creating any dataset with this key is refused, and what is there cannot be opened. -/
theorem c57_throws_counterexample :
    ∃ (root : S3Handle) (key : Key) (a : CreateArgs) (b : Bucket) (w : World), ¬ b.Exists (joinKey root.name key) ∧
      root.createDataset key a ⟨List.replicate 7 {}, b⟩ = (some (.throw .invalidArgument), w) ∧
      (∀ (c : CreateArgs) (es : List Event), (∀ e ∈ es, e.Reliable) →
        ∀ ds, (root.createDataset key c ⟨es, w.bucket⟩).1 ≠ some (.ok ds)) ∧
      (root.openDataset key ⟨List.replicate 10 {}, w.bucket⟩).1 = some (.throw .invalidArgument) := by
  refine ⟨exS3Root, "d".toList, { exArgs with shape := [], chunkShape := [] }, exS3Zarr, _, exS3_fresh,
    S3M.run_eq (by decide +kernel), ?_, by decide +kernel⟩
  intro c es hes
  exact ((c57_refused (.inr ⟨"f/d/.zarray".toList, by decide +kernel, by decide +kernel⟩)).2.2 c es hes).2

def exS3Wrong : S3DatasetObj := ⟨"f/d".toList, { exS3Ds.obj with
  info := { exS3Ds.obj.info with isZarr := false, options := [("level", .int 5), ("useZlib", .bool false)] }
  handle := { exS3Ds.obj.handle with cache := some false }
  settings := .zlib 5 false }⟩

/-- **C57, negation**: if HEAD requests fail while the code asks whether the container is one of zarr, it takes it for
    N5: the call returns and there is an N5 dataset in the zarr container. -/
theorem c57_head_counterexample :
    ∃ (root : S3Handle) (key : Key) (a : CreateArgs) (b : Bucket) (es : List Event) (ds : S3DatasetObj) (w : World),
      b.IsZarr root.name ∧ (∀ e ∈ es, e.change = id) ∧
      root.createDataset key a ⟨es, b⟩ = (some (.ok ds), w) ∧ ds.obj.info.isZarr = false := by
  refine ⟨exS3Root, "d".toList, exArgs, exS3Zarr,
    [{ error := fun k => if k = .head then some (.other, false) else none }, {}, {}, {}, {}, {}], exS3Wrong, _,
    exS3_isZarr.1 rfl, ?_, S3M.run_eq (by decide +kernel), rfl⟩
  intro e he
  simp only [List.mem_cons, List.not_mem_nil, or_false] at he
  rcases he with rfl | rfl | rfl | rfl | rfl | rfl <;> rfl

/-- **C57, negation**: two clients that create a dataset with the same key at the same time: both calls return, and
    what is stored is the metadata of one of them only. -/
theorem c57_race_counterexample :
    ∃ (root : S3Handle) (key : Key) (a c : CreateArgs) (b : Bucket) (es es' : List Event) (ds ds' : S3DatasetObj)
      (w : World), (∀ e ∈ es', e.Reliable) ∧
      (∀ e ∈ es, e.error = (fun _ => none) ∧ (e.change = id ∨
        (e.change = fun b => (root.createDataset key c ⟨es', b⟩).2.bucket) ∧
          (root.createDataset key c ⟨es', b⟩).1 = some (.ok ds'))) ∧
      root.createDataset key a ⟨es, b⟩ = (some (.ok ds), w) ∧
      ds.obj.info.shape ≠ ds'.obj.info.shape ∧
      w.bucket.metadata (joinKey root.name key) = .ok ds.obj.info := by
  refine ⟨exS3Root, "d".toList, exArgs, { exArgs with shape := [50, 40] }, exS3Zarr,
    [{}, {}, {}, { change := fun b =>
      (exS3Root.createDataset "d".toList { exArgs with shape := [50, 40] } ⟨List.replicate 7 {}, b⟩).2.bucket }],
    List.replicate 7 {}, exS3Ds, ⟨exS3Ds.name, { exS3Ds.obj with info := { exS3Ds.obj.info with shape := [50, 40] } }⟩, _,
    exS3_calm 7, ?_, S3M.run_eq (by decide +kernel), by decide, by decide +kernel⟩
  intro e he
  simp only [List.mem_cons, List.not_mem_nil, or_false] at he
  rcases he with rfl | rfl | rfl | rfl <;>
    first | exact ⟨rfl, .inl rfl⟩ | exact ⟨rfl, .inr ⟨rfl, by decide +kernel⟩⟩

end Z5
