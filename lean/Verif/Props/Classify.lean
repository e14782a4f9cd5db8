import Verif.Proofs.Classify

/-!
# C49: telling groups from datasets
-/

namespace Z5

theorem Fs.OnlyAttributes.isZarr_above {σ σ' : Fs} {p : Path} {L : Layout} {A : AttrMap} {g : GroupHandle}
    (h : σ.OnlyAttributes σ' p L A) (hn : σ.Node p L) (hg : g.path <+: p) :
    g.isZarr σ' = ((g.isZarr σ).1, σ') := by
  have h1 : σ' g.path = σ g.path := by
    apply h.files
    intro e
    have := hg.length_le
    rw [e, List.length_append] at this
    simp at this
    omega
  have h2 : ∀ n, n = ".zgroup" ∨ n = "zarr.json" →
      (σ' (g.path ++ [n])).isSome = (σ (g.path ++ [n])).isSome := by
    intro n hnn
    by_cases e : g.path ++ [n] = p ++ [L.file]
    · obtain ⟨e1, e2⟩ := List.append_inj' e rfl
      have e2 : n = L.file := by simpa using e2
      have hL : L = .v3 := by
        rcases hnn with rfl | rfl <;> cases L <;> first | rfl | (simp [Layout.file] at e2)
      obtain ⟨j, c, _⟩ := hn.v3 hL
      obtain ⟨j', c', _⟩ := h.node.v3 hL
      rw [e, hL]
      show (σ' (p ++ ["zarr.json"])).isSome = (σ (p ++ ["zarr.json"])).isSome
      rw [c, c']
      rfl
    · rw [h.files _ e]
  rw [group_isZarr, group_isZarr, h1, h2 _ (.inl rfl), h2 _ (.inr rfl)]

/-- In zarr, attributes have no influence on the classification. -/
theorem isSubGroup_attributes_zarr {g : GroupHandle} {key : Path} {σ σ' : Fs} {L : Layout} {A : AttrMap}
    (h : σ.OnlyAttributes σ' (g.path ++ key) L A) (hn : σ.Node (g.path ++ key) L) (hL : L.isZarr = true)
    (hz : g.isZarr σ = (.ok true, σ)) :
    g.isSubGroup key σ' = ((g.isSubGroup key σ).1, σ') := by
  have hz' : g.isZarr σ' = (.ok true, σ') := by
    rw [h.isZarr_above hn (List.prefix_append _ _), hz]
  obtain ⟨h1, h2, h3⟩ := h.exists_same hn
  rw [isSubGroup_zarr hz, isSubGroup_zarr hz', h1, h3, h2 ".zgroup" (by cases L <;> decide)]
  cases L with
  | n5 => cases hL
  | v2 => rw [hn.v2 rfl]; rfl
  | v3 =>
    obtain ⟨j, c, ⟨l, rfl, _⟩, _⟩ := hn.v3 rfl
    obtain ⟨j', c', ⟨l', rfl, _⟩, _⟩ := h.node.v3 rfl
    have := h.rest rfl "node_type" (by decide)
    rw [docAt_doc c, docAt_doc c'] at this
    have : assocGet l' "node_type" = assocGet l "node_type" := this
    rw [docAt_doc c, docAt_doc c']
    simp only [Json.valueStr, this]

/-- In N5, those count that have the names of dataset metadata. -/
theorem isSubGroup_attributes_n5 {g : GroupHandle} {key : Path} {σ : Fs}
    (hn : σ.Node (g.path ++ key) .n5) (hz : g.isZarr σ = (.ok false, σ)) :
    g.isSubGroup key σ = (.ok !((n5DatasetKeys.filter fun k =>
      (σ.attributes (g.path ++ key) .n5 k).isSome).length == 4), σ) := by
  rw [isSubGroup_n5 hz, hn.dir]
  rcases hn.doc with e | ⟨j, e, hj⟩
  · have e : σ (g.path ++ key ++ ["attributes.json"]) = none := e
    have : σ.attributes (g.path ++ key) .n5 = fun _ => none := by
      funext k
      show (σ.docAt (g.path ++ key ++ ["attributes.json"])).bind _ = none
      rw [docAt_none e]
      rfl
    rw [e, this]
    rfl
  · have e : σ (g.path ++ key ++ ["attributes.json"]) = some (.doc j) := e
    have : σ.attributes (g.path ++ key) .n5 = fun k => j.find k := by
      funext k
      show (σ.docAt (g.path ++ key ++ ["attributes.json"])).bind _ = _
      rw [docAt_doc e]
      rfl
    rw [e, docAt_doc e, this]
    simp only [Option.isSome_some, if_true, hasAll_count hj]
    rfl

theorem Target.replay_untouched {t : Target} {L : Layout} {ks : List String} {k : String} (hk : k ∈ ks) :
    ∀ {ops : List AttrOp} {A : AttrMap}, (∀ op ∈ ops, op.names ks = false) → t.replay L ops A k = A k
  | [], _, _ => rfl
  | op :: ops, A, h => by
    simp only [replay]
    rw [replay_untouched hk (fun o ho => h o (List.mem_cons_of_mem _ ho))]
    split
    · rfl
    · exact AttrOp.apply_of_not_names (h op (by simp)) hk

/-- **C49.**  A node created as a group is reported as a sub-group, and stays one over any history of
    attribute changes (in N5: that do not use the names of dataset metadata).  In N5 the key must not be
    the name of a zarr document. -/
theorem c49_group {root : GroupHandle} {key : Path} {f : Int} {σ σ' : Fs} {z : Bool} {ops : List AttrOp}
    (hσ : σ.WF) (h : root.createGroup key f σ = (.ok (), σ')) (hz : root.isZarr σ = (.ok z, σ))
    (hk : z = false → key.head? ≠ some ".zgroup" ∧ key.head? ≠ some "zarr.json")
    (hv : ∀ op ∈ ops, op.Valid)
    (hops : z = false → ∀ op ∈ ops,
      op.names ["dimensions", "blockSize", "dataType", "compressionType", "compression"] = false) :
    let σ'' := (Target.group (root.group key)).changes ops σ'
    root.isSubGroup key σ'' = (.ok true, σ'') := by
  intro σ''
  obtain ⟨z', hz', hr, hw, ha⟩ := c29_created_group hσ h
  obtain ⟨z'', hz'', _, hn⟩ := createGroup_ok hσ h
  have e1 : z' = z := by rw [hz] at hz'; cases hz'; rfl
  have e2 : z'' = z := by rw [hz] at hz''; cases hz''; rfl
  subst e1
  subst e2
  obtain ⟨ho, _⟩ := Target.changes_ok (t := .group (root.group key)) hw hr hv
  have ho : σ'.OnlyAttributes σ'' (root.path ++ key) _ _ := ho
  have hnode : σ'.Node (root.path ++ key) (.of z'' f) := hr.node
  have hzr : root.isZarr σ' = (.ok z'', σ') := hn.isZarr hσ hz hk
  cases z'' with
  | true =>
    have hL : (Layout.of true f).isZarr = true := by
      by_cases hf : f = 3 <;> simp [Layout.of, hf, Layout.isZarr]
    rw [isSubGroup_attributes_zarr ho hnode hL hzr]
    refine Prod.ext ?_ rfl
    show (root.isSubGroup key σ').1 = _
    rw [isSubGroup_zarr hzr, hnode.dir, hn.isSome, hn.isSome, hn.docAt]
    by_cases hf : f = 3
    · rw [groupDocs_v3 hf]
      rfl
    · rw [groupDocs_v2 hf]
      rfl
  | false =>
    have hzr' : root.isZarr σ'' = (.ok false, σ'') := by
      rw [ho.isZarr_above hnode (List.prefix_append _ _), hzr]
    rw [isSubGroup_attributes_n5 ho.node hzr']
    have : ∀ k ∈ n5DatasetKeys, (σ''.attributes (root.path ++ key) .n5 k).isSome = false := by
      intro k hk
      have e : σ''.attributes (root.path ++ key) .n5 = _ := ho.attributes
      rw [e, Target.replay_untouched hk (hops rfl)]
      show (σ'.attributes (root.path ++ key) (.of false f) k).isSome = false
      rw [ha]
      rfl
    rw [List.filter_eq_nil_iff.2 (fun k hk => by rw [this k hk]; decide)]
    rfl

/-- **C49.**  A node created as a dataset is not reported as a sub-group, and this stays so over any history
    of attribute changes through the dataset. -/
theorem c49_dataset {root : GroupHandle} {key : Path} {a : CreateArgs} {ds : DatasetObj} {σ σ' : Fs}
    {z : Bool} {ops : List AttrOp}
    (hσ : σ.WF) (h : root.createDataset key a σ = (.ok ds, σ')) (hz : root.isZarr σ = (.ok z, σ))
    (hk : z = false → key.head? ≠ some ".zgroup" ∧ key.head? ≠ some "zarr.json")
    (hv : ∀ op ∈ ops, op.Valid) :
    let σ'' := (Target.dataset ds.handle).changes ops σ'
    root.isSubGroup key σ'' = (.ok false, σ'') := by
  intro σ''
  obtain ⟨z', hz', hr, hw, ha⟩ := c29_created_dataset hσ h
  obtain ⟨z'', m, j, hz'', _, hm, _, _, hh, hj, hn⟩ := GroupHandle.createDataset_ok hσ h
  have e1 : z' = z := by rw [hz] at hz'; cases hz'; rfl
  have e2 : z'' = z := by rw [hz] at hz''; cases hz''; rfl
  subst e1
  subst e2
  have hp : ds.handle.path = root.path ++ key := by rw [hh]; rfl
  obtain ⟨c1, c2, _⟩ := createMeta_ok hm
  obtain ⟨ho, _⟩ := Target.changes_ok (t := .dataset ds.handle) hw hr hv
  have ho : σ'.OnlyAttributes σ'' ds.handle.path _ _ := ho
  have hnode : σ'.Node ds.handle.path (.of z'' a.zarrFormat) := hr.node
  have hzr : root.isZarr σ' = (.ok z'', σ') := hn.isZarr hσ hz hk
  rw [hp] at ho hnode
  cases z'' with
  | true =>
    have hL : (Layout.of true a.zarrFormat).isZarr = true := by
      by_cases hf : a.zarrFormat = 3 <;> simp [Layout.of, hf, Layout.isZarr]
    rw [isSubGroup_attributes_zarr ho hnode hL hzr]
    refine Prod.ext ?_ rfl
    show (root.isSubGroup key σ').1 = _
    rw [isSubGroup_zarr hzr, hnode.dir, hn.isSome, hn.isSome, hn.docAt]
    by_cases hf : a.zarrFormat = 3
    · have hfn : m.fileName = "zarr.json" := by
        unfold Meta.fileName
        rw [c1, c2, hf]
        rfl
      obtain ⟨s, fl, l, _, _, _, rfl⟩ := (toJson_v3 c1 (by rw [c2, hf])).1 hj
      rw [hfn]
      rfl
    · have hfn : m.fileName = ".zarray" := by
        unfold Meta.fileName
        rw [c1, c2, if_neg hf]
        rfl
      rw [hfn]
      rfl
  | false =>
    have hzr' : root.isZarr σ'' = (.ok false, σ'') := by
      rw [ho.isZarr_above hnode (List.prefix_append _ _), hzr]
    rw [isSubGroup_attributes_n5 ho.node hzr']
    have : ∀ k ∈ n5DatasetKeys, σ''.attributes (root.path ++ key) .n5 k = j.find k := by
      intro k hk
      have e : σ''.attributes (root.path ++ key) .n5 = _ := ho.attributes
      rw [e, Target.replay_locked (t := .dataset ds.handle) hk]
      have hfn : m.fileName = "attributes.json" := by
        unfold Meta.fileName
        rw [c1]
        rfl
      show (σ'.docAt (ds.handle.path ++ ["attributes.json"])).bind _ = _
      rw [hp, hn.docAt, hfn]
      rfl
    rw [List.filter_congr (fun k hk => by rw [this k hk])]
    obtain ⟨s, c, _, _, rfl⟩ := (toJson_n5 c1).1 hj
    rfl

theorem isSubGroup_others {g : GroupHandle} {key q : Path} {docs : String → Option Json} {σ σ' : Fs} {b : Bool}
    (hσ : σ.WF) (hn : σ.NewNode σ' q docs) (hp : σ (g.path ++ key) ≠ none)
    (h1 : ∀ n ∈ [".zgroup", "zarr.json"], ¬ g.path ++ [n] <+: q)
    (h2 : ∀ n ∈ [".zgroup", "zarr.json", "attributes.json"], ¬ g.path ++ key ++ [n] <+: q)
    (h : g.isSubGroup key σ = (.ok b, σ)) : g.isSubGroup key σ' = (.ok b, σ') := by
  have side : ∀ p n, σ p ≠ none → ¬ p ++ [n] <+: q → σ' (p ++ [n]) = σ (p ++ [n]) := by
    intro p n hp hnq
    by_cases hq : q <+: p ++ [n]
    · rcases List.prefix_concat_iff.1 hq with rfl | ⟨r, rfl⟩
      · exact absurd (List.prefix_refl _) hnq
      · exact absurd (hσ.below hn.fresh r) hp
    · exact hn.rest _ hnq hq
  have kept : ∀ p, σ p ≠ none → (σ' p).isSome = (σ p).isSome := by
    intro p hp
    rcases hn.kept hσ hp with e | e
    · rw [e]
    · cases e' : σ p with
      | none => exact absurd e' hp
      | some _ => rw [e]; rfl
  have hg : σ g.path ≠ none := fun e => hp (hσ.below e key)
  have hz : g.isZarr σ' = ((g.isZarr σ).1, σ') := by
    rw [group_isZarr, group_isZarr, kept _ hg, side _ _ hg (h1 ".zgroup" (by simp)),
      side _ _ hg (h1 "zarr.json" (by simp))]
  have doc : ∀ n, ¬ g.path ++ key ++ [n] <+: q →
      σ'.docAt (g.path ++ key ++ [n]) = σ.docAt (g.path ++ key ++ [n]) := by
    intro n hnq
    unfold Fs.docAt
    rw [side _ _ hp hnq]
  obtain ⟨z, hz1⟩ : ∃ z, g.isZarr σ = (.ok z, σ) := by
    rw [group_isZarr]
    cases e : σ g.path with
    | none => exact absurd e hg
    | some _ => exact ⟨_, rfl⟩
  rw [hz1] at hz
  cases z with
  | true =>
    rw [isSubGroup_zarr hz1] at h
    rw [isSubGroup_zarr hz, kept _ hp, side _ _ hp (h2 ".zgroup" (by simp)),
      side _ _ hp (h2 "zarr.json" (by simp)), doc _ (h2 "zarr.json" (by simp))]
    exact Prod.ext (Prod.mk.inj h).1 rfl
  | false =>
    rw [isSubGroup_n5 hz1] at h
    rw [isSubGroup_n5 hz, kept _ hp, side _ _ hp (h2 "attributes.json" (by simp)),
      doc _ (h2 "attributes.json" (by simp))]
    exact Prod.ext (Prod.mk.inj h).1 rfl

/-- **C49.**  Creating another group or dataset anywhere, through any handle, does not change how a node is
    reported, unless what is created has the name of a metadata document of the node or of the container. -/
theorem c49_others {g other : GroupHandle} {key key' : Path} {σ σ' : Fs} {b : Bool} (hσ : σ.WF)
    (hc : (∃ f, other.createGroup key' f σ = (.ok (), σ')) ∨
      ∃ a ds, other.createDataset key' a σ = (.ok ds, σ'))
    (hp : σ (g.path ++ key) ≠ none)
    (h1 : ∀ n ∈ [".zgroup", "zarr.json"], ¬ g.path ++ [n] <+: other.path ++ key')
    (h2 : ∀ n ∈ [".zgroup", "zarr.json", "attributes.json"], ¬ g.path ++ key ++ [n] <+: other.path ++ key')
    (h : g.isSubGroup key σ = (.ok b, σ)) : g.isSubGroup key σ' = (.ok b, σ') := by
  rcases hc with ⟨f, hc⟩ | ⟨a, ds, hc⟩
  · obtain ⟨_, _, _, hn⟩ := createGroup_ok hσ hc
    exact isSubGroup_others hσ hn hp h1 h2 h
  · obtain ⟨_, ⟨_, hn⟩, _⟩ := c45_created hσ hc
    exact isSubGroup_others hσ hn hp h1 h2 h

/-- The hypotheses of `c49_group` are met: a group of format 3 with attributes. -/
example :
    let σ := (Target.group (exRoot.group ["g"])).changes
      [.write (.obj [("node_type", .str "array"), ("a", .int 1)]), .remove "a"]
      (exRoot.createGroup ["g"] 3 exZarr).2
    exRoot.isSubGroup ["g"] σ = (.ok true, σ) := by
  refine c49_group (z := true) exZarr_wf (f := 3) (FsM.run_eq (by decide +kernel))
    ((group_isZarr _ _).trans rfl) (fun e => by cases e) ?_ (fun e => by cases e)
  intro op hop
  simp only [List.mem_cons, List.not_mem_nil, or_false] at hop
  rcases hop with rfl | rfl
  · exact ⟨_, rfl, by decide⟩
  · trivial

/-- The hypotheses of `c49_dataset` and `c49_others` are met: a dataset, then a group beside it. -/
example :
    let σ := (Target.dataset exDs.handle).changes [.write (.obj [("node_type", .str "group")])]
      (exRoot.createDataset ["raw", "d"] exArgs exZarr).2
    exRoot.isSubGroup ["raw", "d"] σ = (.ok false, σ) := by
  refine c49_dataset (z := true) exZarr_wf (FsM.run_eq (by decide +kernel))
    ((group_isZarr _ _).trans rfl) (fun e => by cases e) ?_
  intro op hop
  cases List.mem_singleton.1 hop
  exact ⟨_, rfl, by decide⟩

example : ∃ σ σ', exRoot.createDataset ["raw", "d"] exArgs exZarr = (.ok exDs, σ) ∧
    exRoot.createGroup ["raw", "g"] 2 σ = (.ok (), σ') ∧
    exRoot.isSubGroup ["raw", "d"] σ' = (.ok false, σ') := by
  have hd := FsM.run_eq (by decide +kernel :
    (exRoot.createDataset ["raw", "d"] exArgs exZarr).1 = .ok exDs)
  have hg := FsM.run_eq (by decide +kernel : (exRoot.createGroup ["raw", "g"] 2
    (exRoot.createDataset ["raw", "d"] exArgs exZarr).2).1 = .ok ())
  have hz : exRoot.isZarr exZarr = (.ok true, exZarr) := (group_isZarr _ _).trans rfl
  obtain ⟨hw, ⟨_, hn⟩, _⟩ := c45_created exZarr_wf hd
  refine ⟨_, _, hd, hg, c49_others hw (.inl ⟨_, hg⟩) ?_ (by decide) (by decide)
    (c49_dataset (ops := []) exZarr_wf hd hz (fun e => by cases e) (fun _ h => by cases h))⟩
  rw [hn.dirs _ (List.prefix_refl _)]
  exact fun e => by cases e

/-- An empty N5 container -/
def exN5Root : Fs := fun q =>
  if q = [] then some .dir
  else if q = ["attributes.json"] then some (.doc (.obj [("n5", .str "2.0.0")]))
  else none

theorem exN5Root_wf : exN5Root.WF := by
  intro p q hq h
  cases p with
  | nil => rfl
  | cons a p =>
    refine absurd ?_ h
    show (if a :: p ++ q = [] then _ else if a :: p ++ q = ["attributes.json"] then _ else _) = _
    rw [if_neg (by simp), if_neg]
    intro e
    cases q with
    | nil => exact hq rfl
    | cons b q => simp at e

/-- **C49, negation**: an N5 group that is given the four metadata entries of a dataset as attributes is no
    longer reported as a group. -/
theorem c49_named_attributes_counterexample :
    ∃ (root : GroupHandle) (key : Path) (op : AttrOp) (σ σ' : Fs), σ.WF ∧ op.Valid ∧
      root.createGroup key 2 σ = (.ok (), σ') ∧ (root.isSubGroup key σ').1 = .ok true ∧
      (root.isSubGroup key ((Target.group (root.group key)).changes [op] σ')).1 = .ok false :=
  ⟨exRoot, ["g"], .write (.obj [("dimensions", .null), ("blockSize", .null), ("dataType", .null),
      ("compression", .null)]), exN5Root, _, exN5Root_wf, ⟨_, rfl, by decide⟩,
    FsM.run_eq (by decide +kernel), by decide +kernel, by decide +kernel⟩

/-- **C49, negation**: an N5 dataset whose document has the present and the former entry for the compression
    is reported as a group, although it can be opened as a dataset. -/
theorem c49_both_compressions_counterexample :
    ∃ (root : GroupHandle) (key : Path) (j : Json) (σ : Fs),
      σ (root.path ++ key ++ ["attributes.json"]) = some (.doc j) ∧ j.IsObject ∧
      (∀ k ∈ ["dimensions", "blockSize", "dataType", "compression", "compressionType"],
        (j.find k).isSome = true) ∧
      (root.openDataset key σ).1.isOk = true ∧ (root.isSubGroup key σ).1 = .ok true :=
  ⟨exRoot, ["d"], .obj [("dimensions", .arr [.int 8]), ("blockSize", .arr [.int 4]), ("dataType", .str "uint8"),
      ("compression", .obj [("type", .str "raw")]), ("compressionType", .str "raw")],
    fun q => if q = [] then some .dir
      else if q = ["attributes.json"] then some (.doc (.obj [("n5", .str "2.0.0")]))
      else if q = ["d"] then some .dir
      else if q = ["d", "attributes.json"] then
        some (.doc (.obj [("dimensions", .arr [.int 8]), ("blockSize", .arr [.int 4]),
          ("dataType", .str "uint8"), ("compression", .obj [("type", .str "raw")]),
          ("compressionType", .str "raw")]))
      else none,
    rfl, ⟨_, rfl, by decide⟩, by decide, by decide +kernel, by decide +kernel⟩

/-- **C49, negation** for nodes that come into being on the way: creating the group `a/b` in a zarr container
    makes a directory `a` that is not reported as a group. -/
theorem c49_implicit_parent_counterexample :
    ∃ (root : GroupHandle) (a b : String) (σ σ' : Fs), σ.WF ∧
      root.createGroup [a, b] 2 σ = (.ok (), σ') ∧ (root.isSubGroup [a, b] σ').1 = .ok true ∧
      isDirectory (σ' (root.path ++ [a])) = true ∧ (root.isSubGroup [a] σ').1 = .ok false :=
  ⟨exRoot, "a", "b", exZarr, _, exZarr_wf, FsM.run_eq (by decide +kernel), by decide +kernel,
    by decide +kernel, by decide +kernel⟩

/-- **C49, negation**: in an N5 container a group of the name of a zarr document makes the container look
    like a zarr container. -/
theorem c49_reserved_name_counterexample :
    ∃ (root : GroupHandle) (key : Path) (σ σ' : Fs), σ.WF ∧ root.isZarr σ = (.ok false, σ) ∧
      root.createGroup key 2 σ = (.ok (), σ') ∧ root.isZarr σ' = (.ok true, σ') ∧
      (root.isSubGroup key σ').1 = .ok false :=
  ⟨exRoot, [".zgroup"], exN5Root, _, exN5Root_wf, (group_isZarr _ _).trans rfl,
    FsM.run_eq (by decide +kernel), (group_isZarr _ _).trans (Prod.ext (by decide +kernel) rfl),
    by decide +kernel⟩

end Z5
