import Verif.Props.Rewrite
import Verif.Props.S3Factory
import Verif.Spec.S3Rewrite

/-!
# C62 on S3: writing metadata again
-/

namespace Z5

theorem s3_docAt_congr {b b' : Bucket} {k : Key} (h : b'.get k = b.get k) : b'.docAt k = b.docAt k := by
  unfold Bucket.docAt
  rw [h]

theorem s3_v3Group_again {name : Key} {b : Bucket} (h : b.Node name .v3) :
    ∃ d, (GenericS3.writeV3GroupMetadata name).Does 2 b (.ok ()) (b.put (docKey name "zarr.json") (.doc d)) ∧
      b.KeepsAttributes (b.put (docKey name "zarr.json") (.doc d)) name .v3 "zarr.json" [] ∧
      d.find "zarr_format" = some (.int 3) ∧ d.find "node_type" = some (.str "group") ∧
      ∀ k, k ≠ "zarr_format" → k ≠ "node_type" → k ≠ "attributes" →
        d.find k = (b.docAt (docKey name "zarr.json")).bind (·.find k) := by
  obtain ⟨j, hj, ho, ha⟩ := h.v3 rfl
  obtain ⟨d1, e1, o1, f1⟩ := set_ok ho "zarr_format" (.int 3)
  obtain ⟨d2, e2, o2, f2⟩ := set_ok o1 "node_type" (.str "group")
  obtain ⟨d3, e3, o3, f3, f4⟩ : ∃ d3, (∀ (f : Json → S3M Unit) b', (f d3).Does 1 b (.ok ()) b' →
        (if (d2.find "attributes").isNone = true then
          S3M.lift (d2.set "attributes" (.obj [])) >>= f else pure d2 >>= f : S3M Unit).Does 1 b (.ok ()) b') ∧ d3.IsObject ∧
      (∀ k, k ≠ "attributes" → d3.find k = d2.find k) ∧
      (d3.find "attributes" = j.find "attributes" ∨ j.find "attributes" = none ∧ d3.find "attributes" = some (.obj [])) := by
    have e : d2.find "attributes" = j.find "attributes" := by
      rw [f2, if_neg (by decide), f1, if_neg (by decide)]
    rw [e]
    cases hja : j.find "attributes" with
    | some a => exact ⟨d2, fun f b' hf => ((S3M.Does.pure d2 b).bind (m := 1) hf).mono (by omega), o2, fun _ _ => rfl, .inl (by rw [e, hja])⟩
    | none =>
      obtain ⟨d3, e3, o3, f3⟩ := set_ok o2 "attributes" (.obj [])
      refine ⟨d3, ?_, o3, fun k hk => by rw [f3, if_neg hk.symm], .inr ⟨rfl, by rw [f3, if_pos rfl]⟩⟩
      intro f b' hf
      rw [e3]
      exact ((S3M.Does.lift (.ok d3) b).bind (m := 1) hf).mono (by omega)
  have hobj : ∀ a, d3.find "attributes" = some a → a.IsObject := by
    intro a hda
    rcases f4 with e | ⟨_, e⟩
    · exact ha a (by rw [← e, hda])
    · rw [hda] at e
      cases e
      exact isObject_empty
  refine ⟨d3, ?_, ⟨⟨.inr ⟨d3, docAt_put _ _ _, o3⟩, fun _ => ⟨d3, docAt_put _ _ _, o3, hobj⟩, fun e => by cases e⟩,
    fun k hk => get_put_ne hk, ?_⟩, ?_, ?_, ?_⟩
  · unfold GenericS3.writeV3GroupMetadata
    refine (s3Read_doc hj).bind (m := 1) ?_
    simp only [Option.getD_some, e1]
    refine ((S3M.Does.lift (.ok d1) b).bind (m := 1) ?_).mono (by omega)
    simp only [e2]
    refine ((S3M.Does.lift (.ok d2) b).bind (m := 1) ?_).mono (by omega)
    exact e3 _ _ (s3Write_does _ _ _ _)
  · intro k _
    simp only [Bucket.attributes, docAt_put, hj, Option.bind_some]
    rcases f4 with e | ⟨e, e'⟩
    · rw [e]
    · rw [e, e']
      rfl
  · rw [f3 _ (by decide), f2, if_neg (by decide), f1, if_pos rfl]
  · rw [f3 _ (by decide), f2, if_pos rfl]
  · intro k k1 k2 k3
    rw [f3 _ k3, f2, if_neg k2.symm, f1, if_neg k1.symm, hj]
    rfl

/-- **C62, S3.**  Writing the metadata of a group or of the root of a container on S3 that exists takes at most two requests.
    Afterwards the metadata say what they should, all user attributes are kept (in N5 the version of the format, which is stored
    with the attributes, is replaced), other members of the metadata document of zarr v3 are kept too, and no other
    object is changed. -/
theorem c62_s3_group {name : Key} {b : Bucket} {L : Layout} (h : b.Node name L) (isFile : Bool) :
    ∃ b', ((if isFile then GenericS3.writeFileMetadata else GenericS3.writeGroupMetadata) name L.isZarr L.version).Does 2 b (.ok ()) b' ∧
      b.KeepsAttributes b' name L L.groupFile ((L.groupSays isFile).map Prod.fst) ∧
      (∀ x ∈ L.groupSays isFile, (b'.docAt (docKey name L.groupFile)).bind (·.find x.1) = some x.2) ∧
      (L = .v3 → ∀ k, k ≠ "zarr_format" → k ≠ "node_type" → k ≠ "attributes" →
        (b'.docAt (docKey name "zarr.json")).bind (·.find k) = (b.docAt (docKey name "zarr.json")).bind (·.find k)) := by
  cases L with
  | v3 =>
    obtain ⟨d, h1, h2, h4, h5, h6⟩ := s3_v3Group_again h
    refine ⟨_, ?_, ⟨h2.node, h2.objects, fun k _ => h2.attributes k (by simp)⟩, ?_, ?_⟩
    · cases isFile
      · show (GenericS3.writeGroupMetadata name true 3).Does _ _ _ _
        unfold GenericS3.writeGroupMetadata
        exact h1
      · show (GenericS3.writeFileMetadata name true 3).Does _ _ _ _
        unfold GenericS3.writeFileMetadata
        exact h1
    · intro x hx
      rw [show docKey name Layout.v3.groupFile = docKey name "zarr.json" from rfl, docAt_put]
      simp only [Layout.groupSays, List.mem_cons, List.not_mem_nil, or_false] at hx
      rcases hx with rfl | rfl
      · exact h4
      · exact h5
    · intro _ k k1 k2 k3
      rw [docAt_put]
      exact h6 k k1 k2 k3
  | v2 =>
    have hrun : ((if isFile then GenericS3.writeFileMetadata else GenericS3.writeGroupMetadata) name true 2).Does 2 b (.ok ())
        (b.put (docKey name ".zgroup") (.doc (.obj [("zarr_format", .int 2)]))) := by
      have := (s3Write_does name ".zgroup" (.obj [("zarr_format", .int 2)]) b).mono (m := 2) (by omega)
      cases isFile
      · show (GenericS3.writeGroupMetadata name true 2).Does _ _ _ _
        unfold GenericS3.writeGroupMetadata
        exact this
      · show (GenericS3.writeFileMetadata name true 2).Does _ _ _ _
        unfold GenericS3.writeFileMetadata
        exact this
    have hother : ∀ n : String, n ≠ ".zgroup" →
        (b.put (docKey name ".zgroup") (.doc (.obj [("zarr_format", .int 2)]))).get (docKey name n) = b.get (docKey name n) :=
      fun n hn => get_put_ne fun e => hn (docKey_inj e)
    refine ⟨_, hrun, ⟨⟨?_, (fun e => by cases e), ?_⟩, fun q hq => get_put_ne hq, ?_⟩, ?_, fun e => by cases e⟩
    · rw [hother _ (by decide), s3_docAt_congr (hother _ (by decide))]
      exact h.doc
    · intro _
      rw [hother _ (by decide)]
      exact h.v2 rfl
    · intro k _
      simp only [Bucket.attributes]
      rw [s3_docAt_congr (hother _ (by decide))]
    · intro x hx
      simp only [Layout.groupSays, List.mem_cons, List.not_mem_nil, or_false] at hx
      subst hx
      rw [show docKey name Layout.v2.groupFile = docKey name ".zgroup" from rfl, docAt_put]
      rfl
  | n5 =>
    cases isFile with
    | false =>
      refine ⟨b, ?_, ⟨h, fun _ _ => rfl, fun _ _ => rfl⟩, (fun x hx => by cases hx), fun e => by cases e⟩
      show (GenericS3.writeGroupMetadata name false 2).Does _ _ _ _
      exact (S3M.Does.pure () b).mono (by omega)
    | true =>
      obtain ⟨o, d, r1, e1, o1, f1⟩ : ∃ o d, (s3Read name "attributes.json").Does 1 b (.ok o) b ∧
          (o.getD .null).set "n5" (.str n5Version) = .ok d ∧ d.IsObject ∧
          ∀ k, d.find k = if "n5" = k then some (.str n5Version) else (b.docAt (docKey name "attributes.json")).bind (·.find k) := by
        rcases h.doc with e | ⟨j, e, ho⟩
        · have e : b.get (docKey name "attributes.json") = none := e
          obtain ⟨d, e1, o1, f1⟩ := set_ok isObject_empty "n5" (.str n5Version)
          refine ⟨none, d, s3Read_none e, ?_, o1, ?_⟩
          · show Json.set .null _ _ = _
            rw [null_set]
            exact e1
          · rw [s3_docAt_none e]
            exact f1
        · have e : b.docAt (docKey name "attributes.json") = some j := e
          obtain ⟨d, e1, o1, f1⟩ := set_ok ho "n5" (.str n5Version)
          refine ⟨some j, d, s3Read_doc e, e1, o1, ?_⟩
          rw [e]
          exact f1
      refine ⟨b.put (docKey name "attributes.json") (.doc d), ?_, ⟨⟨.inr ⟨d, docAt_put _ _ _, o1⟩, (fun e => by cases e), fun e => by cases e⟩,
        fun q hq => get_put_ne hq, ?_⟩, ?_, fun e => by cases e⟩
      · show (GenericS3.writeFileMetadata name false 2).Does _ _ _ _
        unfold GenericS3.writeFileMetadata
        refine r1.bind (m := 1) ?_
        simp only [e1]
        exact ((S3M.Does.lift (.ok d) b).bind (m := 1) (s3Write_does _ _ _ _)).mono (by omega)
      · intro k hk
        simp only [Layout.groupSays, if_true, List.map_cons, List.map_nil, List.mem_cons, List.not_mem_nil, or_false] at hk
        simp only [Bucket.attributes, Layout.file, docAt_put, Option.bind_some]
        rw [f1, if_neg (fun e => hk e.symm)]
      · intro x hx
        simp only [Layout.groupSays, if_true, List.mem_cons, List.not_mem_nil, or_false] at hx
        subst hx
        rw [show docKey name Layout.n5.groupFile = docKey name "attributes.json" from rfl, docAt_put]
        show d.find "n5" = _
        rw [f1, if_pos rfl]
        rfl

/-- **C62, S3.**  Writing the metadata of a zarr dataset on S3 that exists keeps its attributes and all its other objects, and the
    metadata that are read from then on are those of the document written. -/
theorem c62_s3_dataset {name : Key} {b : Bucket} {m : Meta} {j : Json} (hz : m.isZarr = true)
    (h : b.Node name (.of true m.zarrFormat)) (hj : m.toJson = .ok j) :
    ∃ b', (GenericS3.writeDatasetMetadata name m).Does 2 b (.ok ()) b' ∧
      b.KeepsAttributes b' name (.of true m.zarrFormat) m.fileName [] ∧ (readS3Metadata name).Does 3 b' (Meta.fromJson j true) b' := by
  by_cases hf : m.zarrFormat = 3
  · have hL : Layout.of true m.zarrFormat = .v3 := by simp [Layout.of, hf]
    have hfn : m.fileName = "zarr.json" := by simp [Meta.fileName, hz, hf]
    rw [hL] at h ⊢
    rw [hfn]
    obtain ⟨o, hjo⟩ := toJson_object hj (by rw [hz, hL]; decide)
    have hjo := hjo (by rw [hz, hL])
    obtain ⟨e, he, heo, hea⟩ := h.v3 rfl
    obtain ⟨d, hd1, hd2, hd3, hd4⟩ : ∃ d, (∀ (f : Json → S3M Unit) b', (f d).Does 1 b (.ok ()) b' →
        (match (some e).bind fun e => e.find "attributes" with
        | some a => S3M.lift (j.set "attributes" a) >>= f
        | none => pure j >>= f : S3M Unit).Does 1 b (.ok ()) b') ∧ d.IsObject ∧ (∀ k, k ≠ "attributes" → d.find k = j.find k) ∧
        (d.find "attributes" = e.find "attributes" ∨
          e.find "attributes" = none ∧ d.find "attributes" = some (.obj [])) := by
      cases ha : e.find "attributes" with
      | none =>
        refine ⟨j, ?_, o, fun _ _ => rfl, .inr ⟨rfl, hjo⟩⟩
        intro f b' hf
        simp only [Option.bind_some, ha]
        exact ((S3M.Does.pure j b).bind (m := 1) hf).mono (by omega)
      | some a =>
        obtain ⟨d, e1, o1, f1⟩ := set_ok o "attributes" a
        refine ⟨d, ?_, o1, fun k hk => by rw [f1, if_neg hk.symm], .inl (by rw [f1, if_pos rfl])⟩
        intro f b' hf
        simp only [Option.bind_some, ha, e1]
        exact ((S3M.Does.lift (.ok d) b).bind (m := 1) hf).mono (by omega)
    have hobj : ∀ a, d.find "attributes" = some a → a.IsObject := by
      intro a hda
      rcases hd4 with x | ⟨_, x⟩
      · exact hea a (by rw [← x, hda])
      · rw [hda] at x
        cases x
        exact isObject_empty
    refine ⟨b.put (docKey name "zarr.json") (.doc d), ?_, ⟨⟨.inr ⟨d, docAt_put _ _ _, hd2⟩, fun _ => ⟨d, docAt_put _ _ _, hd2, hobj⟩,
      fun e => by cases e⟩, fun q hq => get_put_ne hq, ?_⟩, ?_⟩
    · unfold GenericS3.writeDatasetMetadata
      rw [if_pos (by simp [hz, hf])]
      refine (s3Read_doc he).bind (m := 1) ?_
      rw [hj]
      refine ((S3M.Does.lift (.ok j) b).bind (m := 1) ?_).mono (by omega)
      exact hd1 _ _ (s3Write_does _ _ _ _)
    · intro k _
      simp only [Bucket.attributes, docAt_put, he, Option.bind_some]
      rcases hd4 with x | ⟨x, x'⟩
      · rw [x]
      · rw [x, x']
        rfl
    · have := readS3Metadata_does name (b.put (docKey name "zarr.json") (.doc d))
      unfold Bucket.metadata at this
      simp only [get_put_self, Option.isSome_some, if_true, Bool.true_or] at this
      rw [fromJson_zarr_congr o hd2 hd3] at this
      exact this
  · have hL : Layout.of true m.zarrFormat = .v2 := by simp [Layout.of, hf]
    have hfn : m.fileName = ".zarray" := by simp [Meta.fileName, hz, hf]
    rw [hL] at h ⊢
    rw [hfn]
    have hother : ∀ n : String, n ≠ ".zarray" →
        (b.put (docKey name ".zarray") (.doc j)).get (docKey name n) = b.get (docKey name n) :=
      fun n hn => get_put_ne fun e => hn (docKey_inj e)
    refine ⟨b.put (docKey name ".zarray") (.doc j), ?_, ⟨⟨?_, (fun e => by cases e), ?_⟩, fun q hq => get_put_ne hq, ?_⟩, ?_⟩
    · unfold GenericS3.writeDatasetMetadata
      rw [if_neg (by simp [hf]), hj, hz]
      exact ((S3M.Does.lift (.ok j) b).bind (m := 1) (s3Write_does _ _ _ _)).mono (by omega)
    · rw [hother _ (by decide), s3_docAt_congr (hother _ (by decide))]
      exact h.doc
    · intro _
      rw [hother _ (by decide)]
      exact h.v2 rfl
    · intro k _
      simp only [Bucket.attributes]
      rw [s3_docAt_congr (hother _ (by decide))]
    · have := readS3Metadata_does name (b.put (docKey name ".zarray") (.doc j))
      unfold Bucket.metadata at this
      simp only [get_put_self, hother "zarr.json" (by decide), h.v2 rfl, Option.isSome_some, Option.isSome_none, Bool.not_false, Bool.and_true,
        Bool.false_eq_true, if_false, if_true, Bool.or_true] at this
      exact this

/-- The hypotheses of `c62_s3_dataset` and `c62_s3_group` are met: a zarr v2 dataset and a zarr v3 group with attributes. -/
example : (∃ (m : Meta) (j : Json) (b : Bucket), m.isZarr = true ∧ b.Node "d".toList (.of true m.zarrFormat) ∧ m.toJson = .ok j ∧
      b.attributes "d".toList .v2 "a" = some (.int 1)) ∧
    ∃ b : Bucket, b.Node "g".toList .v3 ∧ b.attributes "g".toList .v3 "a" = some (.int 1) := by
  constructor
  · let m : Meta :=
      { isZarr := true, zarrFormat := 2, dtype := .uint8, shape := [5], chunkShape := [2], compressor := .raw, options := [],
        fillValue := .zero, delimiter := ".", encoding := "default", shardShape := [] }
    obtain ⟨j, hj⟩ : ∃ j, m.toJson = .ok j := ⟨_, rfl⟩
    have hn : Bucket.Node [("d/.zattrs".toList, .doc (.obj [("a", .int 1)]))] "d".toList .v2 :=
      ⟨.inr ⟨_, rfl, ⟨_, rfl, by decide⟩⟩, (fun e => by cases e), fun _ => rfl⟩
    exact ⟨m, j, _, rfl, hn, hj, rfl⟩
  · refine ⟨[("g/zarr.json".toList, .doc (.obj [("attributes", .obj [("a", .int 1)])]))],
      ⟨.inr ⟨_, rfl, ⟨_, rfl, by decide⟩⟩, fun _ => ⟨_, rfl, ⟨_, rfl, by decide⟩, fun a ha => ?_⟩, fun e => by cases e⟩, rfl⟩
    cases ha
    exact ⟨_, rfl, by decide⟩

/-- **C62, S3, counterexample.**  Writing the metadata of an N5 dataset deletes its attributes. -/
theorem c62_s3_n5_counterexample : ∃ (m : Meta) (b b' : Bucket), b.Node "d".toList .n5 ∧
    (b.attributes "d".toList .n5 "resolution").isSome = true ∧ (b.attributes "d".toList .n5 "dimensions").isSome = true ∧
    (GenericS3.writeDatasetMetadata "d".toList m).Does 2 b (.ok ()) b' ∧ b'.attributes "d".toList .n5 "resolution" = none := by
  obtain ⟨j, hj⟩ : ∃ j, exN5Meta.toJson = .ok j := ⟨_, rfl⟩
  obtain ⟨s, c, _, _, rfl⟩ := (toJson_n5 rfl).1 hj
  obtain ⟨b, hb⟩ : ∃ b : Bucket, b = [("d/attributes.json".toList, .doc (.obj [("dimensions", .arr [.int 5]), ("resolution", .int 4)]))] :=
    ⟨_, rfl⟩
  refine ⟨exN5Meta, b, b.put (docKey "d".toList "attributes.json") (.doc (.obj
      [("dimensions", Json.ofShape exN5Meta.shape.reverse), ("blockSize", Json.ofShape exN5Meta.chunkShape.reverse),
        ("dataType", Json.str s), ("compression", c)])), ?_, by rw [hb]; rfl, by rw [hb]; rfl, ?_, ?_⟩
  · rw [hb]
    exact ⟨.inr ⟨_, rfl, ⟨_, rfl, by decide⟩⟩, (fun e => by cases e), fun e => by cases e⟩
  · unfold GenericS3.writeDatasetMetadata
    rw [if_neg (by decide), hj]
    exact ((S3M.Does.lift _ _).bind (m := 1) (s3Write_does _ _ _ _)).mono (by omega)
  · simp only [Bucket.attributes, Layout.file, docAt_put, Option.bind_some]
    rfl

end Z5
