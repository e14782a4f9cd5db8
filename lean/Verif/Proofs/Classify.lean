import Verif.Props.Factory

/-!
# Lemmas on `isSubGroup`
-/

namespace Z5

theorem jsonRead_run (p : Path) (q : Path) (σ : Fs) : jsonRead p q σ
    = (if (σ (p ++ q)).isSome then (match σ.docAt (p ++ q) with
        | some j => .ok (some j)
        | none => .throw .typeError)
      else .ok none, σ) := by
  unfold jsonRead
  simp only [FsM.bind_run, FsM.exist_run, FsM.ite_run, parse_run, FsM.pure_run]
  cases (σ (p ++ q)).isSome with
  | false => rfl
  | true =>
    simp only [Bool.not_true, Bool.false_eq_true, if_false, if_true]
    generalize σ.docAt (p ++ q) = o
    cases o <;> rfl

theorem docAt_isSome {σ : Fs} {p : Path} {j : Json} (h : σ.docAt p = some j) : (σ p).isSome = true := by
  unfold Fs.docAt at h
  cases e : σ p with
  | none => rw [e] at h; cases h
  | some e => rfl

/-- `isSubGroup` in a zarr container -/
theorem isSubGroup_zarr {g : GroupHandle} {key : Path} {σ : Fs} (hz : g.isZarr σ = (.ok true, σ)) :
    g.isSubGroup key σ = (if (σ (g.path ++ key)).isSome then
      (if (σ (g.path ++ key ++ ["zarr.json"])).isSome then
        (match σ.docAt (g.path ++ key ++ ["zarr.json"]) with
        | some j => (j.valueStr "node_type" "group").bind fun s => .ok (decide (s = "group"))
        | none => .throw .typeError)
      else .ok (σ (g.path ++ key ++ [".zgroup"])).isSome)
      else .ok false, σ) := by
  unfold GroupHandle.isSubGroup
  simp only [FsM.bind_run, hz, FsM.exist_run, FsM.ite_run, jsonRead_run, FsM.pure_run,
    ← List.append_assoc]
  cases (σ (g.path ++ key)).isSome with
  | false => rfl
  | true =>
    simp only [Bool.not_true, Bool.false_eq_true, if_false, if_true]
    cases he : (σ (g.path ++ key ++ ["zarr.json"])).isSome with
    | false => rfl
    | true =>
      simp only [if_true]
      generalize σ.docAt (g.path ++ key ++ ["zarr.json"]) = o
      cases o with
      | none => rfl
      | some j => 
        dsimp only [FsM.lift_run]
        cases j.valueStr "node_type" "group" <;> rfl

/-- `isSubGroup` in an N5 container -/
theorem isSubGroup_n5 {g : GroupHandle} {key : Path} {σ : Fs} (hz : g.isZarr σ = (.ok false, σ)) :
    g.isSubGroup key σ = (if (σ (g.path ++ key)).isSome then
      (if (σ (g.path ++ key ++ ["attributes.json"])).isSome then
        (match σ.docAt (g.path ++ key ++ ["attributes.json"]) with
        | some j => (hasAllN5DatasetAttributes j).bind fun b => .ok !b
        | none => .throw .typeError)
      else .ok true)
      else .ok false, σ) := by
  unfold GroupHandle.isSubGroup
  simp only [FsM.bind_run, hz, FsM.exist_run, FsM.ite_run, jsonRead_run, FsM.pure_run,
    ← List.append_assoc, Bool.false_eq_true, if_false]
  cases (σ (g.path ++ key)).isSome with
  | false => rfl
  | true =>
    simp only [Bool.not_true, Bool.false_eq_true, if_false, if_true]
    cases he : (σ (g.path ++ key ++ ["attributes.json"])).isSome with
    | false => rfl
    | true =>
      simp only [if_true]
      generalize σ.docAt (g.path ++ key ++ ["attributes.json"]) = o
      cases o with
      | none => rfl
      | some j => 
        dsimp only [FsM.lift_run]
        cases hasAllN5DatasetAttributes j <;> rfl

/-- The metadata keys of an N5 dataset are counted. -/
theorem hasAll_count {j : Json} (h : j.IsObject) : hasAllN5DatasetAttributes j
    = .ok ((n5DatasetKeys.filter fun k => (j.find k).isSome).length == 4) := by
  obtain ⟨l, rfl, hl⟩ := h
  have : (l.filter fun p => n5DatasetKeys.contains p.1).length
      = (n5DatasetKeys.filter fun k => ((Json.obj l).find k).isSome).length := by
    rw [← List.length_map (f := Prod.fst)]
    apply List.Perm.length_eq
    rw [List.perm_ext_iff_of_nodup]
    · intro a
      simp only [List.mem_map, List.mem_filter, List.contains_iff_mem, Json.find, assocGet_isSome]
      constructor
      · rintro ⟨p, ⟨h1, h2⟩, rfl⟩
        exact ⟨h2, ⟨p, h1, rfl⟩⟩
      · rintro ⟨h1, p, h2, rfl⟩
        exact ⟨p, ⟨h2, h1⟩, rfl⟩
    · exact hl.sublist (List.Sublist.map _ List.filter_sublist)
    · exact List.Nodup.sublist List.filter_sublist (by decide)
  simp only [hasAllN5DatasetAttributes, Json.items]
  show Res.ok _ = _
  rw [this]
  rfl

end Z5
