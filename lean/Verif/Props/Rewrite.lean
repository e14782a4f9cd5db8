import Verif.Spec.Rewrite
import Verif.Props.Factory

/-!
# C62: writing metadata again
-/

namespace Z5

theorem null_set (k : String) (v : Json) : Json.null.set k v = (Json.obj []).set k v := rfl

theorem v3Group_again {p : Path} {σ : Fs} (h : σ.Node p .v3) :
    ∃ d σ', writeV3GroupMetadata p σ = (.ok (), σ') ∧ σ.KeepsAttributes σ' p .v3 "zarr.json" [] ∧
      σ'.docAt (p ++ ["zarr.json"]) = some d ∧ d.find "zarr_format" = some (.int 3) ∧
      d.find "node_type" = some (.str "group") ∧
      ∀ k, k ≠ "zarr_format" → k ≠ "node_type" → k ≠ "attributes" →
        d.find k = (σ.docAt (p ++ ["zarr.json"])).bind (·.find k) := by
  obtain ⟨j, hj, ho, ha⟩ := h.v3 rfl
  obtain ⟨d1, e1, o1, f1⟩ := set_ok ho "zarr_format" (.int 3)
  obtain ⟨d2, e2, o2, f2⟩ := set_ok o1 "node_type" (.str "group")
  obtain ⟨d3, e3, o3, f3, f4⟩ : ∃ d3, (∀ f : Json → FsM Unit, (if (d2.find "attributes").isNone = true then
        FsM.lift (d2.set "attributes" (.obj [])) >>= f else pure d2 >>= f : FsM Unit) σ = f d3 σ) ∧ d3.IsObject ∧ (∀ k, k ≠ "attributes" → d3.find k = d2.find k) ∧
      (d3.find "attributes" = j.find "attributes" ∨ j.find "attributes" = none ∧ d3.find "attributes" = some (.obj [])) := by
    have e : d2.find "attributes" = j.find "attributes" := by
      rw [f2, if_neg (by decide), f1, if_neg (by decide)]
    rw [e]
    cases hja : j.find "attributes" with
    | some a => exact ⟨d2, fun _ => rfl, o2, fun _ _ => rfl, .inl (by rw [e, hja])⟩
    | none =>
      obtain ⟨d3, e3, o3, f3⟩ := set_ok o2 "attributes" (.obj [])
      refine ⟨d3, ?_, o3, fun k hk => by rw [f3, if_neg hk.symm], .inr ⟨rfl, by rw [f3, if_pos rfl]⟩⟩
      intro f
      simp only [Option.isNone_none, if_true, FsM.bind_run, FsM.lift_run, e3]
  have hrun : writeV3GroupMetadata p σ = (.ok (), σ.setDoc (p ++ ["zarr.json"]) d3) := by
    simp only [writeV3GroupMetadata, FsM.bind_run, jsonRead_doc hj, Option.getD_some, FsM.lift_run, e1, e2, e3]
    exact FsM.writeDoc_run h.dir (by rw [hj]; exact fun e => by cases e)
  have hobj : ∀ a, d3.find "attributes" = some a → a.IsObject := by
    intro a hda
    rcases f4 with e | ⟨_, e⟩
    · exact ha a (by rw [← e, hda])
    · rw [hda] at e
      cases e
      exact isObject_empty
  refine ⟨d3, _, hrun, ⟨⟨?_, ?_, ?_, fun e => by cases e⟩, fun q hq => setDoc_of_ne hq, ?_⟩, docAt_setDoc _ _ _,
    ?_, ?_, ?_⟩
  · rw [setDoc_of_ne append_ne_self.symm]
    exact h.dir
  · exact .inr ⟨d3, if_pos rfl, o3⟩
  · exact fun _ => ⟨d3, if_pos rfl, o3, hobj⟩
  · intro k _
    simp only [Fs.attributes, docAt_setDoc, docAt_doc hj, Option.bind_some]
    rcases f4 with e | ⟨e, e'⟩
    · rw [e]
    · rw [e, e']
      rfl
  · rw [f3 _ (by decide), f2, if_neg (by decide), f1, if_pos rfl]
  · rw [f3 _ (by decide), f2, if_pos rfl]
  · intro k k1 k2 k3
    rw [f3 _ k3, f2, if_neg k2.symm, f1, if_neg k1.symm, docAt_doc hj]
    rfl

/-- **C62.**  Writing the metadata of a group or of the root of a container that exists succeeds.  Afterwards the metadata say
    what they should, all user attributes are kept (in N5 the version of the format, which is stored with the
    attributes, is replaced), other members of the metadata document of zarr v3 are kept too, and no other file is
    changed. -/
theorem c62_group {p : Path} {σ : Fs} {L : Layout} (h : σ.Node p L) (hg : L = .v2 → σ (p ++ [".zgroup"]) ≠ some .dir)
    (isFile : Bool) :
    ∃ σ', (if isFile then writeFileMetadata else writeGroupMetadata) p L.isZarr L.version σ = (.ok (), σ') ∧
      σ.KeepsAttributes σ' p L L.groupFile ((L.groupSays isFile).map Prod.fst) ∧
      (∀ x ∈ L.groupSays isFile, (σ'.docAt (p ++ [L.groupFile])).bind (·.find x.1) = some x.2) ∧
      (L = .v3 → ∀ k, k ≠ "zarr_format" → k ≠ "node_type" → k ≠ "attributes" →
        (σ'.docAt (p ++ ["zarr.json"])).bind (·.find k) = (σ.docAt (p ++ ["zarr.json"])).bind (·.find k)) := by
  cases L with
  | v3 =>
    obtain ⟨d, σ', h1, h2, h3, h4, h5, h6⟩ := v3Group_again h
    have hrun : (if isFile then writeFileMetadata else writeGroupMetadata) p true 3 σ = (.ok (), σ') := by
      cases isFile
      · show writeGroupMetadata p true 3 σ = _
        unfold writeGroupMetadata
        exact h1
      · show writeFileMetadata p true 3 σ = _
        unfold writeFileMetadata
        exact h1
    refine ⟨σ', hrun, ⟨h2.node, h2.files, fun k _ => h2.attributes k (by simp)⟩, ?_, ?_⟩
    · intro x hx
      show (σ'.docAt (p ++ ["zarr.json"])).bind _ = _
      rw [h3]
      simp only [Layout.groupSays, List.mem_cons, List.not_mem_nil, or_false] at hx
      rcases hx with rfl | rfl
      · exact h4
      · exact h5
    · intro _ k k1 k2 k3
      rw [h3]
      exact h6 k k1 k2 k3
  | v2 =>
    have hrun : (if isFile then writeFileMetadata else writeGroupMetadata) p true 2 σ
        = (.ok (), σ.setDoc (p ++ [".zgroup"]) (.obj [("zarr_format", .int 2)])) := by
      have := FsM.writeDoc_run (j := .obj [("zarr_format", .int 2)]) h.dir (hg rfl)
      cases isFile
      · show writeGroupMetadata p true 2 σ = _
        unfold writeGroupMetadata
        exact this
      · show writeFileMetadata p true 2 σ = _
        unfold writeFileMetadata
        exact this
    have hother : ∀ n : String, n ≠ ".zgroup" →
        σ.setDoc (p ++ [".zgroup"]) (.obj [("zarr_format", .int 2)]) (p ++ [n]) = σ (p ++ [n]) := by
      intro n hn
      exact setDoc_of_ne (by simpa using hn)
    refine ⟨_, hrun, ⟨⟨?_, ?_, (fun e => by cases e), ?_⟩, fun q hq => setDoc_of_ne hq, ?_⟩, ?_, fun e => by cases e⟩
    · rw [setDoc_of_ne append_ne_self.symm]
      exact h.dir
    · rw [hother _ (by decide)]
      exact h.doc
    · intro _
      rw [hother _ (by decide)]
      exact h.v2 rfl
    · intro k _
      simp only [Fs.attributes, Fs.docAt]
      rw [hother _ (by decide)]
    · intro x hx
      simp only [Layout.groupSays, List.mem_cons, List.not_mem_nil, or_false] at hx
      subst hx
      rw [show p ++ [Layout.v2.groupFile] = p ++ [".zgroup"] from rfl, docAt_setDoc]
      rfl
  | n5 =>
    cases isFile with
    | false =>
      refine ⟨σ, ?_, ⟨h, fun _ _ => rfl, fun _ _ => rfl⟩, (fun x hx => by cases hx), fun e => by cases e⟩
      show writeGroupMetadata p false 2 σ = _
      rfl
    | true =>
      obtain ⟨d, e1, o1, f1⟩ : ∃ d, (((jsonRead p ["attributes.json"] σ).1 : Res (Option Json)) >>= fun o =>
          (o.getD .null).set "n5" (.str n5Version)) = .ok d ∧ d.IsObject ∧
          ∀ k, d.find k = if "n5" = k then some (.str n5Version) else (σ.docAt (p ++ ["attributes.json"])).bind (·.find k) := by
        rcases h.doc with e | ⟨j, e, ho⟩
        · have e : σ (p ++ ["attributes.json"]) = none := e
          obtain ⟨d, e1, o1, f1⟩ := set_ok isObject_empty "n5" (.str n5Version)
          rw [jsonRead_none e, docAt_none e]
          refine ⟨d, ?_, o1, f1⟩
          show Json.set .null _ _ = _
          rw [null_set]
          exact e1
        · have e : σ (p ++ ["attributes.json"]) = some (.doc j) := e
          obtain ⟨d, e1, o1, f1⟩ := set_ok ho "n5" (.str n5Version)
          rw [jsonRead_doc e, docAt_doc e]
          exact ⟨d, e1, o1, f1⟩
      have hrun : writeFileMetadata p false 2 σ = (.ok (), σ.setDoc (p ++ ["attributes.json"]) d) := by
        have hr : ∃ o, jsonRead p ["attributes.json"] σ = (.ok o, σ) := by
          rcases h.doc with e | ⟨j, e, ho⟩
          · exact ⟨none, jsonRead_none e⟩
          · exact ⟨some j, jsonRead_doc e⟩
        obtain ⟨o, hr⟩ := hr
        rw [hr] at e1
        have e1 : (o.getD .null).set "n5" (.str n5Version) = .ok d := e1
        simp only [writeFileMetadata, Bool.false_and, Bool.false_eq_true, if_false, FsM.bind_run, hr, FsM.lift_run, e1]
        exact FsM.writeDoc_run h.dir h.notDir
      refine ⟨_, hrun, ⟨⟨?_, ?_, (fun e => by cases e), fun e => by cases e⟩, fun q hq => setDoc_of_ne hq, ?_⟩, ?_,
        fun e => by cases e⟩
      · rw [setDoc_of_ne append_ne_self.symm]
        exact h.dir
      · exact .inr ⟨d, if_pos rfl, o1⟩
      · intro k hk
        simp only [Layout.groupSays, if_true, List.map_cons, List.map_nil, List.mem_cons, List.not_mem_nil, or_false] at hk
        simp only [Fs.attributes, Layout.file, docAt_setDoc, Option.bind_some]
        rw [f1, if_neg (fun e => hk e.symm)]
      · intro x hx
        simp only [Layout.groupSays, if_true, List.mem_cons, List.not_mem_nil, or_false] at hx
        subst hx
        rw [show p ++ [Layout.n5.groupFile] = p ++ ["attributes.json"] from rfl, docAt_setDoc]
        show d.find "n5" = _
        rw [f1, if_pos rfl]
        rfl

/-- **C62.**  Writing the metadata of a zarr dataset that exists keeps its attributes and all its other files, and the metadata
    that are read from then on are those of the document written. -/
theorem c62_dataset {p : Path} {σ : Fs} {m : Meta} {j : Json} (hz : m.isZarr = true)
    (h : σ.Node p (.of true m.zarrFormat)) (hd : σ (p ++ [m.fileName]) ≠ some .dir)
    (hn5 : σ (p ++ ["attributes.json"]) = none) (hj : m.toJson = .ok j) :
    ∃ σ', writeDatasetMetadata p m σ = (.ok (), σ') ∧ σ.KeepsAttributes σ' p (.of true m.zarrFormat) m.fileName [] ∧
      readDatasetMetadata p σ' = (Meta.fromJson j true, σ') := by
  by_cases hf : m.zarrFormat = 3
  · have hL : Layout.of true m.zarrFormat = .v3 := by simp [Layout.of, hf]
    have hfn : m.fileName = "zarr.json" := by simp [Meta.fileName, hz, hf]
    rw [hL] at h ⊢
    rw [hfn] at hd ⊢
    obtain ⟨o, hjo⟩ := toJson_object hj (by rw [hz, hL]; decide)
    have hjo := hjo (by rw [hz, hL])
    obtain ⟨e, he, heo, hea⟩ := h.v3 rfl
    obtain ⟨d, hd1, hd2, hd3, hd4⟩ : ∃ d, (∀ f : Json → FsM Unit, (match (some e).bind fun e => e.find "attributes" with
        | some a => FsM.lift (j.set "attributes" a) >>= f
        | none => pure j >>= f : FsM Unit) σ = f d σ) ∧ d.IsObject ∧ (∀ k, k ≠ "attributes" → d.find k = j.find k) ∧
        (d.find "attributes" = e.find "attributes" ∨
          e.find "attributes" = none ∧ d.find "attributes" = some (.obj [])) := by
      cases ha : e.find "attributes" with
      | none => exact ⟨j, fun f => by simp only [Option.bind_some, ha]; rfl, o, fun _ _ => rfl, .inr ⟨rfl, hjo⟩⟩
      | some a =>
        obtain ⟨d, e1, o1, f1⟩ := set_ok o "attributes" a
        exact ⟨d, fun f => by simp only [Option.bind_some, ha, FsM.bind_run, FsM.lift_run, e1], o1, fun k hk => by rw [f1, if_neg hk.symm],
          .inl (by rw [f1, if_pos rfl])⟩
    have hrun : writeDatasetMetadata p m σ = (.ok (), σ.setDoc (p ++ ["zarr.json"]) d) := by
      unfold writeDatasetMetadata
      rw [if_pos (by simp [hz, hf])]
      simp only [FsM.bind_run, jsonRead_doc he, FsM.lift_run, hj]
      refine (hd1 _).trans ?_
      exact FsM.writeDoc_run h.dir hd
    have hobj : ∀ a, d.find "attributes" = some a → a.IsObject := by
      intro a hda
      rcases hd4 with x | ⟨_, x⟩
      · exact hea a (by rw [← x, hda])
      · rw [hda] at x
        cases x
        exact isObject_empty
    refine ⟨_, hrun, ⟨⟨?_, ?_, ?_, fun e => by cases e⟩, fun q hq => setDoc_of_ne hq, ?_⟩, ?_⟩
    · rw [setDoc_of_ne append_ne_self.symm]
      exact h.dir
    · exact .inr ⟨d, if_pos rfl, hd2⟩
    · exact fun _ => ⟨d, if_pos rfl, hd2, hobj⟩
    · intro k _
      simp only [Fs.attributes, docAt_setDoc, docAt_doc he, Option.bind_some]
      rcases hd4 with x | ⟨x, x'⟩
      · rw [x]
      · rw [x, x']
        rfl
    · rw [readDatasetMetadata_run]
      have e1 : (σ.setDoc (p ++ ["zarr.json"]) d) (p ++ ["attributes.json"]) = none := by
        rw [setDoc_of_ne (by simp)]
        exact hn5
      have e2 : (σ.setDoc (p ++ ["zarr.json"]) d) (p ++ ["zarr.json"]) = some (.doc d) := if_pos rfl
      simp only [e1, e2, Option.isSome_some, Option.isSome_none, Bool.or_true, Bool.and_false, Bool.false_eq_true, if_false,
        Bool.not_true, Bool.false_and, if_true, docAt_setDoc]
      rw [fromJson_zarr_congr o hd2 hd3]
  · have hL : Layout.of true m.zarrFormat = .v2 := by simp [Layout.of, hf]
    have hfn : m.fileName = ".zarray" := by simp [Meta.fileName, hz, hf]
    rw [hL] at h ⊢
    rw [hfn] at hd ⊢
    have hrun : writeDatasetMetadata p m σ = (.ok (), σ.setDoc (p ++ [".zarray"]) j) := by
      unfold writeDatasetMetadata
      rw [if_neg (by simp [hf])]
      simp only [FsM.bind_run, FsM.lift_run, hj, hz, if_true]
      exact FsM.writeDoc_run h.dir hd
    have hother : ∀ n : String, n ≠ ".zarray" → σ.setDoc (p ++ [".zarray"]) j (p ++ [n]) = σ (p ++ [n]) := by
      intro n hn
      exact setDoc_of_ne (by simpa using hn)
    refine ⟨_, hrun, ⟨⟨?_, ?_, (fun e => by cases e), ?_⟩, fun q hq => setDoc_of_ne hq, ?_⟩, ?_⟩
    · rw [setDoc_of_ne append_ne_self.symm]
      exact h.dir
    · rw [hother _ (by decide)]
      exact h.doc
    · intro _
      rw [hother _ (by decide)]
      exact h.v2 rfl
    · intro k _
      simp only [Fs.attributes, Fs.docAt]
      rw [hother _ (by decide)]
    · rw [readDatasetMetadata_run]
      have e2 : (σ.setDoc (p ++ [".zarray"]) j) (p ++ [".zarray"]) = some (.doc j) := if_pos rfl
      simp only [hother "attributes.json" (by decide), hother "zarr.json" (by decide), hn5, h.v2 rfl, e2, docAt_setDoc,
        Option.isSome_some, Option.isSome_none, Bool.or_false, Bool.and_false, Bool.false_eq_true, if_false, Bool.not_true,
        Bool.false_and, if_true]

/-- The hypotheses of `c62_dataset` and `c62_group` are met: a zarr v2 dataset with attributes, and a zarr v3 group. -/
example : ∃ (m : Meta) (j : Json) (σ : Fs) (p : Path), m.isZarr = true ∧ σ.Node p (.of true m.zarrFormat) ∧
    σ (p ++ [m.fileName]) ≠ some .dir ∧ σ (p ++ ["attributes.json"]) = none ∧ m.toJson = .ok j ∧
    σ.attributes p .v2 "a" = some (.int 1) := by
  let m : Meta :=
    { isZarr := true, zarrFormat := 2, dtype := .uint8, shape := [5], chunkShape := [2], compressor := .raw, options := [],
      fillValue := .zero, delimiter := ".", encoding := "default", shardShape := [] }
  obtain ⟨j, hj⟩ : ∃ j, m.toJson = .ok j := ⟨_, rfl⟩
  refine ⟨m, j, fun q => if q = [] then some .dir else if q = [".zattrs"] then some (.doc (.obj [("a", .int 1)])) else none,
    [], rfl, ⟨rfl, .inr ⟨_, rfl, ⟨_, rfl, by decide⟩⟩, (fun e => by cases e), fun _ => rfl⟩,
    (fun e => by cases e), rfl, hj, rfl⟩

/-- An N5 dataset in `[]` -/
def exN5Meta : Meta :=
  { isZarr := false, zarrFormat := 2, dtype := .uint8, shape := [5], chunkShape := [2], compressor := .raw, options := [],
    fillValue := .zero, delimiter := "/", encoding := "default", shardShape := [] }

/-- **C62, counterexample.**  Writing the metadata of an N5 dataset deletes its attributes. -/
theorem c62_n5_counterexample : ∃ (m : Meta) (σ σ' : Fs), σ.Node [] .n5 ∧
    (σ.attributes [] .n5 "resolution").isSome = true ∧ (σ.attributes [] .n5 "dimensions").isSome = true ∧
    writeDatasetMetadata [] m σ = (.ok (), σ') ∧ σ'.attributes [] .n5 "resolution" = none := by
  obtain ⟨j, hj⟩ : ∃ j, exN5Meta.toJson = .ok j := ⟨_, rfl⟩
  obtain ⟨s, c, _, _, rfl⟩ := (toJson_n5 rfl).1 hj
  let σ : Fs := fun q => if q = [] then some .dir
    else if q = ["attributes.json"] then some (.doc (.obj [("dimensions", .arr [.int 5]), ("resolution", .int 4)])) else none
  have hN : σ.Node [] .n5 := ⟨rfl, .inr ⟨_, rfl, ⟨_, rfl, by decide⟩⟩, (fun e => by cases e), fun e => by cases e⟩
  have hrun : writeDatasetMetadata [] exN5Meta σ = (.ok (), σ.setDoc ["attributes.json"] (.obj
      [("dimensions", Json.ofShape exN5Meta.shape.reverse), ("blockSize", Json.ofShape exN5Meta.chunkShape.reverse),
        ("dataType", Json.str s), ("compression", c)])) := by
    unfold writeDatasetMetadata
    rw [if_neg (by decide)]
    simp only [FsM.bind_run, FsM.lift_run, hj]
    exact FsM.writeDoc_run hN.dir hN.notDir
  exact ⟨exN5Meta, σ, _, hN, rfl, rfl, hrun, rfl⟩

end Z5
