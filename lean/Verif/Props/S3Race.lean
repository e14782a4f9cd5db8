import Verif.Props.S3Edit
import Verif.Model.S3Group

/-!
# C100: several clients change the attributes of the same node on S3, or create the same node
-/

namespace Z5.Props
open Spec

variable {S : Bucket → Prop}

theorem generic_race {name : Key} {La : Layout} (hz : La.isZarr = true) {op : AttrOp} (hop : op.Valid) (h : ∀ b, S b → b.Node name La)
    (hrest : La = .v3 → ∀ b b', S b → S b' → ∀ k, k ≠ "attributes" →
      (b.docAt (docKey name "zarr.json")).bind (·.find k) = (b'.docAt (docKey name "zarr.json")).bind (·.find k)) :
    (match op with
      | .write j => GenericS3.writeAttributes name true j
      | .remove k => GenericS3.removeAttribute name true k).Edits S fun _ => ChangesFrom S name La op := by
  cases La with
  | n5 => cases hz
  | v2 =>
    have hread : (s3Read name ".zattrs").Looks S fun r => ∃ b, S b ∧ r = .ok (b.docAt (docKey name ".zattrs")) :=
      s3Read_looks fun b hb => (h b hb).doc.imp id fun ⟨j, hj, _⟩ => ⟨j, hj⟩
    have hobj : ∀ b, S b → ∀ j, b.docAt (docKey name ".zattrs") = some j → j.IsObject := fun b hb j hj => by
      rcases (h b hb).doc with e | ⟨d, e, hd⟩
      · have e : b.get (docKey name ".zattrs") = none := e
        rw [s3_docAt_none e] at hj
        cases hj
      · have e : b.docAt (docKey name ".zattrs") = some d := e
        rw [hj] at e
        cases e
        exact hd
    cases op with
    | write j =>
      show (GenericS3.writeAttributes name true j).Edits _ _
      unfold GenericS3.writeAttributes
      refine .after (isV3_looks (La := .v2) rfl h) (fun a ha => ?_) (fun e he => by cases he) (fun he => by cases he)
      cases ha
      refine S3M.Edits.after hread (fun a ha => ?_) (fun e he => by obtain ⟨_, _, e⟩ := he; cases e) (fun he => by obtain ⟨_, _, e⟩ := he; cases e)
      obtain ⟨b₁, hb₁, e⟩ := ha
      cases e
      have ho : ((b₁.docAt (docKey name ".zattrs")).getD (.obj [])).IsObject := by
        cases e : b₁.docAt (docKey name ".zattrs") with
        | none => exact isObject_empty
        | some f => exact hobj b₁ hb₁ f e
      obtain ⟨d, d1, d2, d3⟩ := mergeAttributes_ok ho hop
      refine S3M.Edits.lift d1 (S3M.Edits.mono (fun _ b b' hb e => ⟨b₁, hb₁, .inl ?_⟩) (s3Write_edits _ ".zattrs" _))
      rw [e]
      refine (h b hb).set d2 (fun e => by cases e) (fun k => ?_) (fun e => by cases e)
      rw [docAttr_flat (by decide), d3]
      simp only [AttrOp.apply, attributes_flat (L := .v2) (by decide), Layout.file]
      cases j.find k with
      | some v => rfl
      | none => cases b₁.docAt (docKey name ".zattrs") <;> rfl
    | remove key =>
      show (GenericS3.removeAttribute name true key).Edits _ _
      unfold GenericS3.removeAttribute
      refine .after (isV3_looks (La := .v2) rfl h) (fun a ha => ?_) (fun e he => by cases he) (fun he => by cases he)
      cases ha
      refine S3M.Edits.after hread (fun a ha => ?_) (fun e he => by obtain ⟨_, _, e⟩ := he; cases e) (fun he => by obtain ⟨_, _, e⟩ := he; cases e)
      obtain ⟨b₁, hb₁, e⟩ := ha
      cases e
      cases e : b₁.docAt (docKey name ".zattrs") with
      | none =>
        refine S3M.Edits.mono (fun _ b b' hb e' => ⟨b₁, hb₁, .inr ⟨e', ?_⟩⟩) (pure_edits (docKey name ".zattrs"))
        funext k
        simp only [AttrOp.apply, attributes_flat (L := .v2) (by decide), Layout.file, e]
        split <;> rfl
      | some f =>
        obtain ⟨d, d1, d2, d3⟩ := erase_ok (hobj b₁ hb₁ f e) key
        refine S3M.Edits.lift d1 (S3M.Edits.mono (fun _ b b' hb e' => ⟨b₁, hb₁, .inl ?_⟩) (s3Write_edits _ ".zattrs" _))
        rw [e']
        refine (h b hb).set d2 (fun e => by cases e) (fun k => ?_) (fun e => by cases e)
        rw [docAttr_flat (by decide), d3]
        simp only [AttrOp.apply, attributes_flat (L := .v2) (by decide), Layout.file, e, Option.bind_some]
        by_cases ek : k = key
        · rw [if_pos ek, if_pos ek.symm]
        · rw [if_neg ek, if_neg (Ne.symm ek)]
  | v3 =>
    have hread : (s3Read name "zarr.json").Looks S fun r => ∃ b, S b ∧ r = .ok (b.docAt (docKey name "zarr.json")) :=
      s3Read_looks fun b hb => (h b hb).doc.imp id fun ⟨j, hj, _⟩ => ⟨j, hj⟩
    cases op with
    | write j =>
      show (GenericS3.writeAttributes name true j).Edits _ _
      unfold GenericS3.writeAttributes
      refine .after (isV3_looks (La := .v3) rfl h) (fun a ha => ?_) (fun e he => by cases he) (fun he => by cases he)
      cases ha
      show (GenericS3.writeV3Attributes name j).Edits _ _
      unfold GenericS3.writeV3Attributes
      refine S3M.Edits.after hread (fun a ha => ?_) (fun e he => by obtain ⟨_, _, e⟩ := he; cases e) (fun he => by obtain ⟨_, _, e⟩ := he; cases e)
      obtain ⟨b₁, hb₁, e⟩ := ha
      cases e
      obtain ⟨f, hf, hfo, hfa⟩ := (h b₁ hb₁).v3 rfl
      rw [hf]
      have ho : ((f.find "attributes").getD (.obj [])).IsObject := by
        cases e : f.find "attributes" with
        | none => exact isObject_empty
        | some a => exact hfa a e
      obtain ⟨a, a1, a2, a3⟩ := mergeAttributes_ok ho hop
      obtain ⟨d, d1, d2, d3⟩ := set_ok hfo "attributes" a
      refine S3M.Edits.lift a1 (S3M.Edits.lift d1 (S3M.Edits.mono (fun _ b b' hb e => ⟨b₁, hb₁, .inl ?_⟩) (s3Write_edits _ "zarr.json" _)))
      rw [e]
      refine (h b hb).set d2 (fun _ c hc => ?_) (fun k => ?_) (fun _ k hk => ?_)
      · rw [d3, if_pos rfl] at hc
        cases hc
        exact a2
      · show _ = (d.find "attributes").bind _
        rw [d3, if_pos rfl]
        simp only [AttrOp.apply, Bucket.attributes, hf, Option.bind_some, a3]
        cases j.find k with
        | some v => rfl
        | none => cases f.find "attributes" <;> rfl
      · rw [d3, if_neg hk.symm, hrest rfl b b₁ hb hb₁ k hk, hf]
        rfl
    | remove key =>
      show (GenericS3.removeAttribute name true key).Edits _ _
      unfold GenericS3.removeAttribute
      refine .after (isV3_looks (La := .v3) rfl h) (fun a ha => ?_) (fun e he => by cases he) (fun he => by cases he)
      cases ha
      show (GenericS3.removeV3Attribute name key).Edits _ _
      unfold GenericS3.removeV3Attribute
      refine S3M.Edits.after hread (fun a ha => ?_) (fun e he => by obtain ⟨_, _, e⟩ := he; cases e) (fun he => by obtain ⟨_, _, e⟩ := he; cases e)
      obtain ⟨b₁, hb₁, e⟩ := ha
      cases e
      obtain ⟨f, hf, hfo, hfa⟩ := (h b₁ hb₁).v3 rfl
      rw [hf]
      cases ea : f.find "attributes" with
      | none =>
        simp only [ea]
        refine S3M.Edits.mono (fun _ b b' hb e => ⟨b₁, hb₁, .inl ?_⟩) (s3Write_edits _ "zarr.json" _)
        rw [e]
        refine (h b hb).set hfo (fun _ => hfa) (fun k => ?_) (fun _ k hk => ?_)
        · show _ = (f.find "attributes").bind _
          simp only [AttrOp.apply, Bucket.attributes, hf, Option.bind_some, ea]
          split <;> rfl
        · rw [hrest rfl b b₁ hb hb₁ k hk, hf]
          rfl
      | some c =>
        simp only [ea]
        obtain ⟨a, a1, a2, a3⟩ := erase_ok (hfa c ea) key
        obtain ⟨d, d1, d2, d3⟩ := set_ok hfo "attributes" a
        refine S3M.Edits.lift a1 (S3M.Edits.lift d1 (S3M.Edits.mono (fun _ b b' hb e => ⟨b₁, hb₁, .inl ?_⟩) (s3Write_edits _ "zarr.json" _)))
        rw [e]
        refine (h b hb).set d2 (fun _ c hc => ?_) (fun k => ?_) (fun _ k hk => ?_)
        · rw [d3, if_pos rfl] at hc
          cases hc
          exact a2
        · show _ = (d.find "attributes").bind _
          rw [d3, if_pos rfl]
          simp only [AttrOp.apply, Bucket.attributes, hf, Option.bind_some, ea, a3]
          by_cases ek : k = key
          · rw [if_pos ek, if_pos ek.symm]
          · rw [if_neg ek, if_neg (Ne.symm ek)]
        · rw [d3, if_neg hk.symm, hrest rfl b b₁ hb hb₁ k hk, hf]
          rfl

/-- **C100.**  The attributes of a zarr node on S3 are changed while others change the bucket, also the attributes of the same node, but not its other
metadata.  If the call returns, then at one moment it has replaced all attributes of the node by those of one moment during the call
with its change; nothing else in the bucket has been changed.  If a request has failed, this has been done, or nothing. -/
theorem c100_change {t : S3Target} {La : Layout} (hz : La.isZarr = true) (hw : t.mode.canWrite = true) {op : AttrOp} (hop : op.Valid)
    (h : ∀ b, S b → t.Refers b La) (hm : t.cache ≠ none ∨ ∃ m ∈ t.markers, ∀ b, S b → (b.get (docKey t.name m)).isSome = true)
    (hrest : La = .v3 → ∀ b b', S b → S b' → ∀ k, k ≠ "attributes" →
      (b.docAt (docKey t.name "zarr.json")).bind (·.find k) = (b'.docAt (docKey t.name "zarr.json")).bind (·.find k)) :
    (t.change op).Edits S fun _ => ChangesFrom S t.name La op :=
  target_edits hz hw h hm (generic_race hz hop (fun b hb => (h b hb).node) hrest)

/-! ### creating the same dataset -/

section Creating

variable {root : S3Handle} {key : Key}

/-- The requests of `create`: something is there, or nothing -/
theorem create_or_looks {h : S3Handle} (hr : h.mode ≠ .r) : h.create.Looks S fun r =>
    (r = .ok () ∧ ∃ b, S b ∧ ¬ b.Exists h.name) ∨ (r = .throw .invalidArgument ∧ ∃ b, S b ∧ b.Exists h.name) := by
  unfold S3Handle.create
  rw [if_neg hr]
  unfold S3Handle.exist
  refine (anyObject_looks _).bind (fun a ha => ?_) (fun e he => ?_) (fun he => ?_)
  · obtain ⟨b, hb, e⟩ := ha
    cases a with
    | true => exact .lift (.inr ⟨rfl, b, hb, by unfold Bucket.Exists; exact of_decide_eq_true (Res.ok.inj e).symm⟩)
    | false => exact .pure (.inl ⟨rfl, b, hb, by unfold Bucket.Exists; exact of_decide_eq_false (Res.ok.inj e).symm⟩)
  · obtain ⟨_, _, e⟩ := he; cases e
  · obtain ⟨_, _, e⟩ := he; cases e

/-- **C100, the same dataset.**  A dataset is created in a zarr group on S3 while others change the bucket, and may create something of the same name.  Alone
(in a state `b₀`) the call would give the object `ds`, and write the document `j`.  The call is refused with `invalid_argument`, because in one of the
states something was below the name, and changes nothing; or it gives `ds`, in one of the states nothing was below the name, and at one
moment it has put a document, and nothing else: in zarr of version 2 `j` itself, in version 3 `j` with the attributes that the document in one of the states had, if it had any. -/
theorem c100_create {a : CreateArgs} {ds : S3DatasetObj} {b₀ : Bucket} {es₀ : List Event} {w : World} (hes₀ : ∀ e ∈ es₀, e.Reliable)
    (h : root.createDataset key a ⟨es₀, b₀⟩ = (some (.ok ds), w)) (hb₀ : b₀.IsZarr root.name)
    (hroot : ∃ m ∈ [".zgroup", "zarr.json"], ∀ b, S b → (b.get (docKey root.name m)).isSome = true)
    (hS : ∀ b, S b → b.get (docKey (joinKey root.name key) "zarr.json") = none ∨
      ∃ j, b.docAt (docKey (joinKey root.name key) "zarr.json") = some j)
    (hf : a.zarrFormat = 2 ∨ a.zarrFormat = 3) :
    ∃ j, ds.obj.info.toJson = .ok j ∧ (root.createDataset key a).Tries S
      (fun o b b' => o = ds ∧ (∃ b₁, S b₁ ∧ ¬ b₁.Exists (joinKey root.name key)) ∧ ∃ j', (∀ k, k ≠ "attributes" → j'.find k = j.find k) ∧
        (a.zarrFormat = 2 → j' = j) ∧ (a.zarrFormat = 3 → ∃ b₂, S b₂ ∧ j'.find "attributes" =
          ((b₂.docAt (docKey (joinKey root.name key) "zarr.json")).bind (Json.find · "attributes")).or (j.find "attributes")) ∧
        b' = b.put (docKey (joinKey root.name key) ds.obj.info.fileName) (.doc j'))
      (fun e => e = .invalidArgument ∧ ∃ b₁, S b₁ ∧ b₁.Exists (joinKey root.name key)) := by
  obtain ⟨z, j, hz, hr, hm, hc, hmk, hn, hh, hj, hnn⟩ := createDataset_returned hes₀ h
  obtain ⟨m, hm', hg⟩ := hroot
  have hzt : z = true := hz.2 hb₀
  subst hzt
  obtain ⟨e1, e2, _, _, _, _, e3, e4, _⟩ := createMeta_ok hm
  have hjo := zarrJson_object e1 (by rw [e2]; exact hf) hj
  refine ⟨j, hj, ?_⟩
  unfold S3Handle.createDataset
  refine .after (markers_looks (S := S) root (by simpa using hm') hg (x := root.isZarr) rfl) (fun a' ha => ?_) (fun e he => by cases he) (fun he => by cases he)
  cases ha
  rw [hm]
  show ((root.dataset key ds.obj.info.delimiter ds.obj.info.zarrFormat ds.obj.info.encoding).createDataset ds.obj.info).Tries _ _ _
  unfold S3DatasetHandle.createDataset
  refine .after (create_or_looks (h := ⟨joinKey root.name key, root.mode⟩) hr) (fun a' ha => ?_) (fun e he => ?_) (fun he => ?_)
  · have hfree : ∃ b₁, S b₁ ∧ ¬ b₁.Exists (joinKey root.name key) := by
      rcases ha with ⟨_, h⟩ | ⟨h, _⟩
      · exact h
      · cases h
    have hput : (GenericS3.writeDatasetMetadata (joinKey root.name key) ds.obj.info).Edits S fun _ b b' =>
        ∃ j', (∀ k, k ≠ "attributes" → j'.find k = j.find k) ∧ (a.zarrFormat = 2 → j' = j) ∧
          (a.zarrFormat = 3 → ∃ b₂, S b₂ ∧ j'.find "attributes" =
            ((b₂.docAt (docKey (joinKey root.name key) "zarr.json")).bind (Json.find · "attributes")).or (j.find "attributes")) ∧
          b' = b.put (docKey (joinKey root.name key) ds.obj.info.fileName) (.doc j') := by
      unfold GenericS3.writeDatasetMetadata Meta.fileName
      rw [e1, if_pos rfl]
      rcases hf with hf | hf
      · rw [e2, hf]
        exact .lift hj (S3M.Edits.mono (fun _ b b' _ e => ⟨j, fun _ _ => rfl, fun _ => rfl, fun h23 => absurd h23 (by decide), e⟩) (s3Write_edits _ ".zarray" j))
      · rw [e2, hf]
        refine .after (s3Read_looks hS) (fun o ho => ?_) (fun e he => by obtain ⟨_, _, e⟩ := he; cases e) (fun he => by obtain ⟨_, _, e⟩ := he; cases e)
        obtain ⟨b₂, hb₂, ho⟩ := ho
        have ho := Res.ok.inj ho
        refine .lift hj ?_
        cases ho' : o.bind fun e => e.find "attributes" with
        | none =>
          simp only
          exact S3M.Edits.mono (fun _ b b' _ e => ⟨j, fun _ _ => rfl, fun _ => rfl, fun _ => ⟨b₂, hb₂, by rw [← ho, ho']; rfl⟩, e⟩) (s3Write_edits _ "zarr.json" j)
        | some at' =>
          simp only
          obtain ⟨d, d1, _, d3⟩ := set_ok hjo "attributes" at'
          exact .lift d1 (S3M.Edits.mono (fun _ b b' _ e => ⟨d, fun k hk => (by rw [d3, if_neg hk.symm]), fun h32 => absurd h32 (by decide), fun _ => ⟨b₂, hb₂, by rw [← ho, ho', d3, if_pos rfl]; rfl⟩, e⟩)
            (s3Write_edits _ "zarr.json" d))
    refine S3M.Edits.tries (S3M.Edits.mono (fun o b b' hb e => ?_) (hput.then_value (v := ds) fun _ => ?_))
    · obtain ⟨rfl, _, e⟩ := e
      exact ⟨rfl, hfree, e⟩
    · unfold makeS3Dataset
      rw [hc, e2, e3, e4]
      show S3M.lift (makeDataset ⟨[], root.mode, a.delimiter, a.zarrFormat, a.encoding, none⟩ ds.obj.info >>= fun x =>
        .ok (⟨joinKey root.name key, x⟩ : S3DatasetObj)) = _
      rw [hmk, ← hn]
      rfl
  · rcases he with ⟨h, _⟩ | ⟨h, h'⟩
    · cases h
    · exact ⟨by injection h, h'⟩
  · rcases he with ⟨h, _⟩ | ⟨h, _⟩ <;> cases h

/-- a name that is never there -/
theorem has_not_looks (h : S3Handle) {name : Key} (hn : ∀ b, S b → ¬ b.HasNode (joinKey h.name name)) : (h.has name).Looks S (· = .ok false) := by
  unfold S3Handle.has
  refine (objectExists_looks _).bind (fun a ha => ?_) (fun e he => ?_) (fun he => ?_)
  · obtain ⟨b, hb, e⟩ := ha
    have : a = false := by
      rw [Res.ok.inj e]
      cases h' : (b.get (joinKey h.name name)).isSome with
      | true => exact absurd (.inl (mem_keys.2 h')) (hn b hb)
      | false => rfl
    subst this
    exact (anyObject_looks _).mono fun r ⟨b, hb, e⟩ => e.trans (congrArg Res.ok (decide_eq_false fun h' => hn b hb (.inr h')))
  · obtain ⟨_, _, e⟩ := he; cases e
  · obtain ⟨_, _, e⟩ := he; cases e

/-- a container or group that is never one of zarr -/
theorem isZarr_not_looks (h : S3Handle) (hn : ∀ b, S b → ¬ b.IsZarr h.name) : h.isZarr.Looks S (· = .ok false) := by
  unfold S3Handle.isZarr
  refine (has_not_looks h fun b hb h' => hn b hb ⟨".zgroup", by simp, h'⟩).bind (fun a ha => ?_) (fun e he => by cases he) (fun he => by cases he)
  cases ha
  exact has_not_looks h fun b hb h' => hn b hb ⟨"zarr.json", by simp, h'⟩

/-- **C100, the same dataset of N5.**  As `c100_create`, in a container or group of N5: the call is refused and changes nothing, because in one of the states
something was below the name; or it gives `ds`, in one of the states nothing was below the name, and at one moment it has put the document, and nothing else. -/
theorem c100_create_n5 {a : CreateArgs} {ds : S3DatasetObj} {b₀ : Bucket} {es₀ : List Event} {w : World} (hes₀ : ∀ e ∈ es₀, e.Reliable)
    (h : root.createDataset key a ⟨es₀, b₀⟩ = (some (.ok ds), w)) (hb₀ : ¬ b₀.IsZarr root.name) (hroot : ∀ b, S b → ¬ b.IsZarr root.name) :
    ∃ j, ds.obj.info.toJson = .ok j ∧ (root.createDataset key a).Tries S
      (fun o b b' => o = ds ∧ (∃ b₁, S b₁ ∧ ¬ b₁.Exists (joinKey root.name key)) ∧
        b' = b.put (docKey (joinKey root.name key) "attributes.json") (.doc j))
      (fun e => e = .invalidArgument ∧ ∃ b₁, S b₁ ∧ b₁.Exists (joinKey root.name key)) := by
  obtain ⟨z, j, hz, hr, hm, hc, hmk, hn, hh, hj, hnn⟩ := createDataset_returned hes₀ h
  have hzf : z = false := by
    cases z with
    | true => exact absurd (hz.1 rfl) hb₀
    | false => rfl
  subst hzf
  obtain ⟨e1, e2, _, _, _, _, e3, e4, _⟩ := createMeta_ok hm
  refine ⟨j, hj, ?_⟩
  unfold S3Handle.createDataset
  refine .after (isZarr_not_looks root hroot) (fun a' ha => ?_) (fun e he => by cases he) (fun he => by cases he)
  cases ha
  rw [hm]
  show ((root.dataset key ds.obj.info.delimiter ds.obj.info.zarrFormat ds.obj.info.encoding).createDataset ds.obj.info).Tries _ _ _
  unfold S3DatasetHandle.createDataset
  refine .after (create_or_looks (h := ⟨joinKey root.name key, root.mode⟩) hr) (fun a' ha => ?_) (fun e he => ?_) (fun he => ?_)
  · have hfree : ∃ b₁, S b₁ ∧ ¬ b₁.Exists (joinKey root.name key) := by
      rcases ha with ⟨_, h⟩ | ⟨h, _⟩
      · exact h
      · cases h
    have hput : (GenericS3.writeDatasetMetadata (joinKey root.name key) ds.obj.info).Edits S fun _ b b' =>
        b' = b.put (docKey (joinKey root.name key) "attributes.json") (.doc j) := by
      unfold GenericS3.writeDatasetMetadata
      rw [e1]
      exact .lift hj (S3M.Edits.mono (fun _ b b' _ e => e) (s3Write_edits _ "attributes.json" j))
    refine S3M.Edits.tries (S3M.Edits.mono (fun o b b' hb e => ?_) (hput.then_value (v := ds) fun _ => ?_))
    · obtain ⟨rfl, _, e⟩ := e
      exact ⟨rfl, hfree, e⟩
    · unfold makeS3Dataset
      rw [hc, e2, e3, e4]
      show S3M.lift (makeDataset ⟨[], root.mode, a.delimiter, a.zarrFormat, a.encoding, none⟩ ds.obj.info >>= fun x =>
        .ok (⟨joinKey root.name key, x⟩ : S3DatasetObj)) = _
      rw [hmk, ← hn]
      rfl
  · rcases he with ⟨h, _⟩ | ⟨h, h'⟩
    · cases h
    · exact ⟨by injection h, h'⟩
  · rcases he with ⟨h, _⟩ | ⟨h, _⟩ <;> cases h

/-- `o["k"] = v` where `o` is what was read, or `null` -/
theorem set_read {o : Option Json} (ho : ∀ j, o = some j → j.IsObject) (k : String) (v : Json) :
    ∃ d, (o.getD .null).set k v = .ok d ∧ d.IsObject ∧ ∀ k', d.find k' = if k = k' then some v else o.bind (Json.find · k') := by
  cases o with
  | some j => exact set_ok (ho j rfl) k v
  | none =>
    refine ⟨.obj [(k, v)], rfl, ⟨_, rfl, by simp⟩, fun k' => ?_⟩
    by_cases e : k = k'
    · subst e; rw [if_pos rfl]; simp [Json.find, assocGet]
    · rw [if_neg e]; simp [Json.find, assocGet, e]

/-- the document of a group of zarr v3 -/
theorem v3Group_edits {name : Key}
    (hS : ∀ b, S b → b.get (docKey name "zarr.json") = none ∨ ∃ j, b.docAt (docKey name "zarr.json") = some j ∧ j.IsObject) :
    (GenericS3.writeV3GroupMetadata name).Edits S fun _ b b' => ∃ b₂, S b₂ ∧ ∃ j, b' = b.put (docKey name "zarr.json") (.doc j) ∧
      j.find "zarr_format" = some (.int 3) ∧ j.find "node_type" = some (.str "group") ∧
      let old := fun k => (b₂.docAt (docKey name "zarr.json")).bind (Json.find · k)
      j.find "attributes" = some ((old "attributes").getD (.obj [])) ∧
      ∀ k, k ∉ ["zarr_format", "node_type", "attributes"] → j.find k = old k := by
  unfold GenericS3.writeV3GroupMetadata
  refine .after (s3Read_looks fun b hb => (hS b hb).imp id fun ⟨j, h, _⟩ => ⟨j, h⟩) (fun o ho => ?_) (fun e he => by obtain ⟨_, _, e⟩ := he; cases e)
    (fun he => by obtain ⟨_, _, e⟩ := he; cases e)
  obtain ⟨b₂, hb₂, ho⟩ := ho
  have ho := Res.ok.inj ho
  have hobj : ∀ j, o = some j → j.IsObject := fun j hj => by
    rcases hS b₂ hb₂ with h | ⟨j', h, h'⟩
    · rw [ho, s3_docAt_none h] at hj; cases hj
    · rw [ho, h] at hj; cases hj; exact h'
  obtain ⟨d1, f1, g1, k1⟩ := set_read hobj "zarr_format" (.int 3)
  obtain ⟨d2, f2, g2, k2⟩ := set_ok g1 "node_type" (.str "group")
  refine .lift f1 (.lift f2 ?_)
  have hat : d2.find "attributes" = o.bind (Json.find · "attributes") := by
    rw [k2, if_neg (by decide), k1, if_neg (by decide)]
  refine S3M.Edits.mono (P := fun _ b b' => ∃ d : Json, (d.find "attributes" = some ((o.bind (Json.find · "attributes")).getD (.obj [])) ∧
    ∀ k, k ≠ "attributes" → d.find k = d2.find k) ∧ b' = b.put (docKey name "zarr.json") (.doc d)) (fun _ b b' _ e => ?_) ?_
  · obtain ⟨d, ⟨h1, h2⟩, e⟩ := e
    refine ⟨b₂, hb₂, d, e, ?_, ?_, ?_, fun k hk => ?_⟩
    · rw [h2 _ (by decide), k2, if_neg (by decide), k1, if_pos rfl]
    · rw [h2 _ (by decide), k2, if_pos rfl]
    · rw [h1, ho]
    · simp only [List.mem_cons, List.not_mem_nil, or_false, not_or] at hk
      rw [h2 k hk.2.2, k2, if_neg (Ne.symm hk.2.1), k1, if_neg (Ne.symm hk.1), ho]
  cases hn : d2.find "attributes" with
  | none =>
    obtain ⟨d3, f3, _, k3⟩ := set_ok g2 "attributes" (.obj [])
    simp only [Option.isNone_none, if_true]
    refine .lift f3 (S3M.Edits.mono (fun _ b b' _ e => ⟨d3, ⟨?_, fun k hk => by rw [k3, if_neg hk.symm]⟩, e⟩) (s3Write_edits _ "zarr.json" d3))
    rw [k3, if_pos rfl, ← hat, hn]; rfl
  | some v =>
    refine S3M.Edits.mono (fun _ b b' _ e => ⟨d2, ⟨?_, fun _ _ => rfl⟩, e⟩) (s3Write_edits _ "zarr.json" d2)
    rw [← hat, hn]; rfl

/-- **C100, the same group.**  A group is created in a zarr group on S3 while others change the bucket, and may create something of the same name.  The call is
refused with `invalid_argument`, because in one of the states something was below the name, and changes nothing; or in one of the states nothing was below
the name, and at one moment the call has put the document of a group, and nothing else.  In zarr of version 3 the document
has what the document in one of the states had, but that the node is a group and of version 3. -/
theorem c100_create_group {f : Int} (hr : root.mode ≠ .r) (hf : f = 2 ∨ f = 3)
    (hroot : ∃ m ∈ [".zgroup", "zarr.json"], ∀ b, S b → (b.get (docKey root.name m)).isSome = true)
    (hS : ∀ b, S b → b.get (docKey (joinKey root.name key) "zarr.json") = none ∨
      ∃ j, b.docAt (docKey (joinKey root.name key) "zarr.json") = some j ∧ j.IsObject) :
    (root.createGroup key f).Tries S
      (fun _ b b' => (∃ b₁, S b₁ ∧ ¬ b₁.Exists (joinKey root.name key)) ∧
        (f = 2 → b' = b.put (docKey (joinKey root.name key) ".zgroup") (.doc (.obj [("zarr_format", .int 2)]))) ∧
        (f = 3 → ∃ b₂, S b₂ ∧ ∃ j, b' = b.put (docKey (joinKey root.name key) "zarr.json") (.doc j) ∧
          j.find "zarr_format" = some (.int 3) ∧ j.find "node_type" = some (.str "group") ∧
          let old := fun k => (b₂.docAt (docKey (joinKey root.name key) "zarr.json")).bind (Json.find · k)
          j.find "attributes" = some ((old "attributes").getD (.obj [])) ∧
          ∀ k, k ∉ ["zarr_format", "node_type", "attributes"] → j.find k = old k))
      (fun e => e = .invalidArgument ∧ ∃ b₁, S b₁ ∧ b₁.Exists (joinKey root.name key)) := by
  obtain ⟨m, hm, hg⟩ := hroot
  unfold S3Handle.createGroup
  refine .after (markers_looks (S := S) root (by simpa using hm) hg (x := root.isZarr) rfl) (fun a ha => ?_) (fun e he => by cases he) (fun he => by cases he)
  cases ha
  refine .after (create_or_looks (h := root.child key) hr) (fun a ha => ?_) (fun e he => ?_) (fun he => ?_)
  · have hfree : ∃ b₁, S b₁ ∧ ¬ b₁.Exists (joinKey root.name key) := by
      rcases ha with ⟨_, h⟩ | ⟨h, _⟩
      · exact h
      · cases h
    refine S3M.Edits.tries ?_
    unfold GenericS3.writeGroupMetadata
    rcases hf with rfl | rfl
    · exact S3M.Edits.mono (fun _ b b' hb e => ⟨hfree, fun _ => e, fun h => absurd h (by decide)⟩) (s3Write_edits _ _ _)
    · show (GenericS3.writeV3GroupMetadata (joinKey root.name key)).Edits _ _
      exact S3M.Edits.mono (fun _ b b' _ e => ⟨hfree, fun h => absurd h (by decide), fun _ => e⟩) (v3Group_edits hS)
  · rcases he with ⟨h, _⟩ | ⟨h, h'⟩
    · cases h
    · exact ⟨by injection h, h'⟩
  · rcases he with ⟨h, _⟩ | ⟨h, _⟩ <;> cases h

/-- The requests of `create` of a file: something is there, or nothing -/
theorem createAsFile_or_looks {h : S3Handle} (hr : h.mode.canCreate = true) : h.createAsFile.Looks S fun r =>
    (r = .ok () ∧ ∃ b, S b ∧ ¬ b.Exists h.name) ∨ (r = .throw .invalidArgument ∧ ∃ b, S b ∧ b.Exists h.name) := by
  unfold S3Handle.createAsFile
  rw [hr]
  unfold S3Handle.exist
  refine (anyObject_looks _).bind (fun a ha => ?_) (fun e he => ?_) (fun he => ?_)
  · obtain ⟨b, hb, e⟩ := ha
    cases a with
    | true => exact .lift (.inr ⟨rfl, b, hb, by unfold Bucket.Exists; exact of_decide_eq_true (Res.ok.inj e).symm⟩)
    | false => exact .pure (.inl ⟨rfl, b, hb, by unfold Bucket.Exists; exact of_decide_eq_false (Res.ok.inj e).symm⟩)
  · obtain ⟨_, _, e⟩ := he; cases e
  · obtain ⟨_, _, e⟩ := he; cases e

/-- **C100, the same container.**  A container is created on S3 while others change the bucket, and may create one of the same name.  The call is refused
and changes nothing, because in one of the states something was below the name; or in one of the states nothing was, and at one moment the call has put
the document of the container, and nothing else.  In zarr v3 and N5 this has what the document in one of the states had, but for the
version and the type of the node. -/
theorem c100_create_file {f : Int} {isZarr : Bool} (hr : root.mode.canCreate = true) (hf : isZarr = true → f = 2 ∨ f = 3)
    (hS : ∀ b, S b → ∀ n ∈ ["zarr.json", "attributes.json"], b.get (docKey root.name n) = none ∨
      ∃ j, b.docAt (docKey root.name n) = some j ∧ j.IsObject) :
    (root.createFile isZarr f).Tries S
      (fun _ b b' => (∃ b₁, S b₁ ∧ ¬ b₁.Exists root.name) ∧
        (isZarr = true → f = 2 → b' = b.put (docKey root.name ".zgroup") (.doc (.obj [("zarr_format", .int 2)]))) ∧
        (isZarr = true → f = 3 → ∃ b₂, S b₂ ∧ ∃ j, b' = b.put (docKey root.name "zarr.json") (.doc j) ∧
          j.find "zarr_format" = some (.int 3) ∧ j.find "node_type" = some (.str "group") ∧
          let old := fun k => (b₂.docAt (docKey root.name "zarr.json")).bind (Json.find · k)
          j.find "attributes" = some ((old "attributes").getD (.obj [])) ∧
          ∀ k, k ∉ ["zarr_format", "node_type", "attributes"] → j.find k = old k) ∧
        (isZarr = false → ∃ b₂, S b₂ ∧ ∃ j, b' = b.put (docKey root.name "attributes.json") (.doc j) ∧
          j.find "n5" = some (.str n5Version) ∧
          ∀ k, k ≠ "n5" → j.find k = (b₂.docAt (docKey root.name "attributes.json")).bind (Json.find · k)))
      (fun e => e = .invalidArgument ∧ ∃ b₁, S b₁ ∧ b₁.Exists root.name) := by
  unfold S3Handle.createFile
  refine .after (createAsFile_or_looks hr) (fun a ha => ?_) (fun e he => ?_) (fun he => ?_)
  · have hfree : ∃ b₁, S b₁ ∧ ¬ b₁.Exists root.name := by
      rcases ha with ⟨_, h⟩ | ⟨h, _⟩
      · exact h
      · cases h
    refine S3M.Edits.tries ?_
    unfold GenericS3.writeFileMetadata
    cases isZarr with
    | true =>
      rcases hf rfl with rfl | rfl
      · exact S3M.Edits.mono (fun _ b b' hb e => ⟨hfree, fun _ _ => e, fun _ h => absurd h (by decide), fun h => by cases h⟩) (s3Write_edits _ _ _)
      · exact S3M.Edits.mono (fun _ b b' _ e => ⟨hfree, fun _ h => absurd h (by decide), fun _ _ => e, fun h => by cases h⟩)
          (v3Group_edits fun b hb => hS b hb _ (by simp))
    | false =>
      refine .after (s3Read_looks fun b hb => (hS b hb "attributes.json" (by simp)).imp id fun ⟨j, h, _⟩ => ⟨j, h⟩) (fun o ho => ?_)
        (fun e he => by obtain ⟨_, _, e⟩ := he; cases e) (fun he => by obtain ⟨_, _, e⟩ := he; cases e)
      obtain ⟨b₂, hb₂, ho⟩ := ho
      have ho := Res.ok.inj ho
      have hobj : ∀ j, o = some j → j.IsObject := fun j hj => by
        rcases hS b₂ hb₂ "attributes.json" (by simp) with h | ⟨j', h, h'⟩
        · rw [ho, s3_docAt_none h] at hj; cases hj
        · rw [ho, h] at hj; cases hj; exact h'
      obtain ⟨d, f1, _, k1⟩ := set_read hobj "n5" (.str n5Version)
      refine .lift f1 (S3M.Edits.mono (fun _ b b' _ e => ⟨hfree, (fun h => by cases h), (fun h => by cases h), fun _ => ⟨b₂, hb₂, d, e, ?_, fun k hk => ?_⟩⟩)
        (s3Write_edits _ "attributes.json" d))
      · rw [k1, if_pos rfl]
      · rw [k1, if_neg hk.symm, ho]
  · rcases he with ⟨h, _⟩ | ⟨h, h'⟩
    · cases h
    · exact ⟨by injection h, h'⟩
  · rcases he with ⟨h, _⟩ | ⟨h, _⟩ <;> cases h

/-- a name that is there, or not -/
theorem has_or_looks (h : S3Handle) (name : Key) : (h.has name).Looks S fun r =>
    (r = .ok true ∧ ∃ b, S b ∧ b.HasNode (joinKey h.name name)) ∨ (r = .ok false ∧ ∃ b, S b ∧ b.get (joinKey h.name name) = none) := by
  unfold S3Handle.has
  refine (objectExists_looks _).bind (fun a ha => ?_) (fun e he => ?_) (fun he => ?_)
  · obtain ⟨b, hb, e⟩ := ha
    have e := Res.ok.inj e
    cases a with
    | true => exact .pure (.inl ⟨rfl, b, hb, .inl (mem_keys.2 e.symm)⟩)
    | false =>
      have hn : b.get (joinKey h.name name) = none := Option.isNone_iff_eq_none.1 (by rw [← Option.not_isSome, ← e]; rfl)
      refine (anyObject_looks _).mono fun r ⟨b', hb', e'⟩ => ?_
      by_cases hx : ∃ k ∈ b'.keys, joinKey h.name name ++ ['/'] <+: k
      · exact .inl ⟨e'.trans (congrArg Res.ok (decide_eq_true hx)), b', hb', .inr hx⟩
      · exact .inr ⟨e'.trans (congrArg Res.ok (decide_eq_false hx)), b, hb, hn⟩
  · obtain ⟨_, _, e⟩ := he; cases e
  · obtain ⟨_, _, e⟩ := he; cases e

/-- looks that end a call -/
theorem S3M.Looks.tries {α : Type} {x : S3M α} {Q : Res α → Prop} {P : α → Bucket → Bucket → Prop} {E : Err → Prop} (hx : x.Looks S Q)
    (hok : ∀ a, Q (.ok a) → ∀ b, S b → P a b b) (hth : ∀ e, Q (.throw e) → E e) (hub : ¬ Q .ub) : x.Tries S P E := fun es b h1 h2 => by
  rcases hx es b h1 h2 with ⟨r, es', b', e1, e2, e3, e4⟩ | ⟨b', e, hb⟩
  · have hb := e3.mem (statesOf_self es' b')
    refine .inl ⟨r, es', b', hb, b', e1, ?_⟩
    rcases e4 with e4 | ⟨rfl, e5⟩
    · cases r with
      | ok a => exact .inl ⟨a, rfl, hok a e4 b' (h2 b' hb)⟩
      | throw e => exact .inr (.inl ⟨e, rfl, rfl, hth e e4⟩)
      | ub => exact absurd e4 hub
    · exact .inr (.inr ⟨rfl, .inl rfl, e5⟩)
  · exact .inr ⟨b', hb, e⟩

/-- a value is returned after the change -/
theorem S3M.Tries.then_value {α β : Type} {x : S3M α} {K : α → S3M β} {P : α → Bucket → Bucket → Prop} {E : Err → Prop} {v : β} (hx : x.Tries S P E)
    (hv : ∀ a, K a = S3M.lift (.ok v)) : (x >>= K).Tries S (fun a b b' => a = v ∧ ∃ c, P c b b') E := fun es b h1 h2 => by
  rcases hx es b h1 h2 with ⟨r, es', c, hc, c', f1, ⟨a, rfl, f2⟩ | ⟨e, rfl, f2, f3⟩ | ⟨rfl, f2, f3⟩⟩ | ⟨c, hc, f⟩
  · refine .inl ⟨.ok v, es', c, hc, c', ?_, .inl ⟨v, rfl, rfl, a, f2⟩⟩
    rw [S3M.run_bind f1, hv]
    rfl
  · refine .inl ⟨.throw e, es', c, hc, c', ?_, .inr (.inl ⟨e, rfl, f2, f3⟩)⟩
    rw [S3M.bind_eq, f1]
  · refine .inl ⟨.throw .runtimeError, es', c, hc, c', ?_, .inr (.inr ⟨rfl, f2.imp id fun ⟨a, h⟩ => ⟨v, rfl, a, h⟩, f3⟩)⟩
    rw [S3M.bind_eq, f1]
  · refine .inr ⟨c, hc, ?_⟩
    rw [S3M.bind_eq, f]

theorem S3M.Tries.mono {α : Type} {x : S3M α} {P P' : α → Bucket → Bucket → Prop} {E E' : Err → Prop} (h : ∀ a b b', P a b b' → P' a b b')
    (he : ∀ e, E e → E' e) (hx : x.Tries S P E) : x.Tries S P' E' := fun es b h1 h2 => by
  rcases hx es b h1 h2 with ⟨r, es', c, hc, c', f1, f2⟩ | f
  · exact .inl ⟨r, es', c, hc, c', f1, f2.imp (fun ⟨a, g1, g2⟩ => ⟨a, g1, h _ _ _ g2⟩)
      (Or.imp (fun ⟨e, g1, g2, g3⟩ => ⟨e, g1, g2, he e g3⟩) fun ⟨g1, g2, g3⟩ => ⟨g1, g2.imp id fun ⟨a, g⟩ => ⟨a, h _ _ _ g⟩, g3⟩)⟩
  · exact .inr f

theorem joinKey_doc (a : Key) {k : Key} (hk : k ≠ []) (n : String) : joinKey a (k ++ '/' :: n.toList) = docKey (joinKey a k) n := by
  unfold docKey joinKey
  cases a with
  | nil => cases k with
    | nil => exact absurd rfl hk
    | cons c k => rfl
  | cons c a => simp

/-- **C100, the same required group.**  `require_group` in Python in a zarr v2 group on S3, while others change the bucket and may create or remove something of the
same name.  The call gives the group, and has changed nothing, because in one of the states something was there, and in one its
document was; or in one of the states nothing was below the name, and at one moment the call has put the document of the group, and nothing else.  Or it is
refused, and has changed nothing: because something was below the name when it was about to create the group, or because something is there
whose document was missing in one of the states. -/
theorem c100_require_group (hr : root.mode.canWrite = true) (hk : key ≠ []) (hkey : pyLstrip key = key)
    (hroot : ∃ m ∈ [".zgroup", "zarr.json"], ∀ b, S b → (b.get (docKey root.name m)).isSome = true)
    (hS : ∀ b, S b → b.get (docKey (joinKey root.name key) "zarr.json") = none) :
    (S3PyGroup.requireGroup ⟨root, 2⟩ key).Tries S
      (fun o b b' => o = ⟨root.child key, 2⟩ ∧
        ((b' = b ∧ (∃ b₁, S b₁ ∧ b₁.HasNode (joinKey root.name key)) ∧ ∃ b₂, S b₂ ∧ (b₂.get (docKey (joinKey root.name key) ".zgroup")).isSome = true) ∨
          ((∃ b₁, S b₁ ∧ ¬ b₁.Exists (joinKey root.name key)) ∧
            b' = b.put (docKey (joinKey root.name key) ".zgroup") (.doc (.obj [("zarr_format", .int 2)])))))
      (fun e => (e = .invalidArgument ∧ ∃ b₁, S b₁ ∧ b₁.Exists (joinKey root.name key)) ∨
        (e = .typeError ∧ (∃ b₁, S b₁ ∧ b₁.HasNode (joinKey root.name key)) ∧ ∃ b₂, S b₂ ∧ b₂.get (docKey (joinKey root.name key) ".zgroup") = none)) := by
  unfold S3PyGroup.requireGroup S3PyGroup.contains
  rw [hkey]
  refine .after (has_or_looks root key) (fun a ha => ?_) (fun e he => ?_) (fun he => ?_)
  · rcases ha with ⟨h, hn⟩ | ⟨h, _⟩
    · cases h
      have hsub : (root.isSubGroup key).Looks S fun r => ∃ b, S b ∧ r = .ok (b.get (docKey (joinKey root.name key) ".zgroup")).isSome := by
        obtain ⟨m, hm, hg⟩ := hroot
        unfold S3Handle.isSubGroup
        refine (markers_looks (S := S) root (by simpa using hm) hg (x := root.isZarr) rfl).bind (fun a ha => ?_) (fun e he => by cases he) (fun he => by cases he)
        cases ha
        simp only [joinKey_doc root.name hk, if_true]
        refine (objectExists_looks _).bind (fun a ha => ?_) (fun e he => by obtain ⟨_, _, e⟩ := he; cases e) (fun he => by obtain ⟨_, _, e⟩ := he; cases e)
        obtain ⟨b, hb, e⟩ := ha
        rw [hS b hb] at e
        cases e
        exact objectExists_looks _
      refine .after hsub (fun a ha => ?_) (fun e he => by obtain ⟨_, _, e⟩ := he; cases e) (fun he => by obtain ⟨_, _, e⟩ := he; cases e)
      obtain ⟨b₂, hb₂, e⟩ := ha
      have e := Res.ok.inj e
      cases a with
      | true =>
        refine S3M.Looks.tries (Q := fun r => r = .ok ⟨root.child key, 2⟩) (.pure rfl) (fun a ha b _ => ?_) (fun e he => by cases he) (fun he => by cases he)
        cases ha
        exact ⟨rfl, .inl ⟨rfl, hn, b₂, hb₂, e.symm⟩⟩
      | false =>
        refine S3M.Looks.tries (Q := fun r => r = .throw .typeError) (.lift rfl) (fun a ha => by cases ha) (fun e' he => ?_) (fun he => by cases he)
        cases he
        exact .inr ⟨rfl, hn, b₂, hb₂, Option.isNone_iff_eq_none.1 (by rw [← Option.not_isSome, ← e]; rfl)⟩
    · cases h
      simp only [hr, Bool.not_true, Bool.false_eq_true, if_false]
      have hc := c100_create_group (S := S) (root := root) (key := key) (f := 2) (fun h => by rw [h] at hr; cases hr) (.inl rfl) hroot
        (fun b hb => .inl (hS b hb))
      refine S3M.Tries.mono (fun o b b' h => ?_) (fun e he => .inl he) (S3M.Tries.then_value (v := (⟨root.child key, 2⟩ : S3PyGroup)) hc fun _ => rfl)
      obtain ⟨rfl, _, h1, h2, _⟩ := h
      exact ⟨rfl, .inr ⟨h1, h2 rfl⟩⟩
  · rcases he with ⟨h, _⟩ | ⟨h, _⟩ <;> cases h
  · rcases he with ⟨h, _⟩ | ⟨h, _⟩ <;> cases h

/-- **C100, the same group in Python.**  `create_group` in Python in a zarr v2 group on S3, while others change the bucket and may create something of the same
name: as `c100_create_group`, but that the call is also refused with a `KeyError` if it finds something when it looks first. -/
theorem c100_create_group_python (hr : root.mode.canWrite = true) (hkey : pyLstrip key = key)
    (hroot : ∃ m ∈ [".zgroup", "zarr.json"], ∀ b, S b → (b.get (docKey root.name m)).isSome = true)
    (hS : ∀ b, S b → b.get (docKey (joinKey root.name key) "zarr.json") = none) :
    (S3PyGroup.createGroup ⟨root, 2⟩ key).Tries S
      (fun o b b' => o = ⟨root.child key, 2⟩ ∧ (∃ b₁, S b₁ ∧ ¬ b₁.Exists (joinKey root.name key)) ∧
        b' = b.put (docKey (joinKey root.name key) ".zgroup") (.doc (.obj [("zarr_format", .int 2)])))
      (fun e => (e = .invalidArgument ∧ ∃ b₁, S b₁ ∧ b₁.Exists (joinKey root.name key)) ∨
        (e = .keyError ∧ ∃ b₁, S b₁ ∧ b₁.HasNode (joinKey root.name key))) := by
  unfold S3PyGroup.createGroup S3PyGroup.contains
  simp only [hr, hkey, Bool.not_true, Bool.false_eq_true, if_false]
  refine .after (has_or_looks root key) (fun a ha => ?_) (fun e he => ?_) (fun he => ?_)
  · rcases ha with ⟨h, hn⟩ | ⟨h, _⟩
    · cases h
      refine S3M.Looks.tries (Q := fun r => r = .throw .keyError) (.lift rfl) (fun a ha => by cases ha) (fun e' he => ?_) (fun he => by cases he)
      cases he
      exact .inr ⟨rfl, hn⟩
    · cases h
      have hc := c100_create_group (S := S) (root := root) (key := key) (f := 2) (fun h => by rw [h] at hr; cases hr) (.inl rfl) hroot
        (fun b hb => .inl (hS b hb))
      refine S3M.Tries.mono (fun o b b' h => ?_) (fun e he => .inl he) (S3M.Tries.then_value (v := (⟨root.child key, 2⟩ : S3PyGroup)) hc fun _ => rfl)
      obtain ⟨rfl, _, h1, h2, _⟩ := h
      exact ⟨rfl, h1, h2 rfl⟩
  · rcases he with ⟨h, _⟩ | ⟨h, _⟩ <;> cases h
  · rcases he with ⟨h, _⟩ | ⟨h, _⟩ <;> cases h

/-- **C100, the same required group in zarr v3.**  As `c100_require_group`.  The call gives the group, and has changed nothing, because in one of the states
something was there, and in one the document of a group was; or in one of the states nothing was below the name, and at one moment the call has put
the document of a group, and nothing else.  Or it is refused, and has changed nothing: because something was below the name when it was
about to create the group, or because something is there that in one of the states did not have the document of a group. -/
theorem c100_require_group_v3 (hr : root.mode.canWrite = true) (hk : key ≠ []) (hkey : pyLstrip key = key)
    (hroot : ∃ m ∈ [".zgroup", "zarr.json"], ∀ b, S b → (b.get (docKey root.name m)).isSome = true)
    (hS : ∀ b, S b → b.get (docKey (joinKey root.name key) "zarr.json") = none ∨
      ∃ j t, b.get (docKey (joinKey root.name key) "zarr.json") = some (.doc j) ∧ j.IsObject ∧ j.find "node_type" = some (.str t)) :
    (S3PyGroup.requireGroup ⟨root, 3⟩ key).Tries S
      (fun o b b' => o = ⟨root.child key, 3⟩ ∧
        ((b' = b ∧ (∃ b₁, S b₁ ∧ b₁.HasNode (joinKey root.name key)) ∧ ∃ b₂, S b₂ ∧
            ((∃ j, b₂.get (docKey (joinKey root.name key) "zarr.json") = some (.doc j) ∧ j.find "node_type" = some (.str "group")) ∨
              (b₂.get (docKey (joinKey root.name key) ".zgroup")).isSome = true)) ∨
          ((∃ b₁, S b₁ ∧ ¬ b₁.Exists (joinKey root.name key)) ∧
            ∃ j, b' = b.put (docKey (joinKey root.name key) "zarr.json") (.doc j) ∧
              j.find "zarr_format" = some (.int 3) ∧ j.find "node_type" = some (.str "group"))))
      (fun e => (e = .invalidArgument ∧ ∃ b₁, S b₁ ∧ b₁.Exists (joinKey root.name key)) ∨
        (e = .typeError ∧ (∃ b₁, S b₁ ∧ b₁.HasNode (joinKey root.name key)) ∧ ∃ b₂, S b₂ ∧
          ∀ j, b₂.get (docKey (joinKey root.name key) "zarr.json") = some (.doc j) → j.find "node_type" ≠ some (.str "group"))) := by
  unfold S3PyGroup.requireGroup S3PyGroup.contains
  rw [hkey]
  refine .after (has_or_looks root key) (fun a ha => ?_) (fun e he => ?_) (fun he => ?_)
  · rcases ha with ⟨h, hn⟩ | ⟨h, _⟩
    · cases h
      have hsub : (root.isSubGroup key).Looks S fun r =>
          (r = .ok true ∧ ∃ b₂, S b₂ ∧
            ((∃ j, b₂.get (docKey (joinKey root.name key) "zarr.json") = some (.doc j) ∧ j.find "node_type" = some (.str "group")) ∨
              (b₂.get (docKey (joinKey root.name key) ".zgroup")).isSome = true)) ∨
          ((r = .ok false ∨ r = .throw .typeError) ∧ ∃ b₂, S b₂ ∧
            ∀ j, b₂.get (docKey (joinKey root.name key) "zarr.json") = some (.doc j) → j.find "node_type" ≠ some (.str "group")) := by
        obtain ⟨m, hm, hg⟩ := hroot
        unfold S3Handle.isSubGroup
        refine (markers_looks (S := S) root (by simpa using hm) hg (x := root.isZarr) rfl).bind (fun a ha => ?_) (fun e he => by cases he) (fun he => by cases he)
        cases ha
        simp only [joinKey_doc root.name hk, if_true]
        refine (objectExists_looks _).bind (fun a ha => ?_) (fun e he => by obtain ⟨_, _, e⟩ := he; cases e) (fun he => by obtain ⟨_, _, e⟩ := he; cases e)
        obtain ⟨b, hb, e⟩ := ha
        have e := Res.ok.inj e
        cases a with
        | true =>
          simp only [if_true]
          refine (getObject_looks _).bind (fun o ho => ?_) (fun e he => by obtain ⟨_, _, e⟩ := he; cases e) (fun he => by obtain ⟨_, _, e⟩ := he; cases e)
          obtain ⟨b₂, hb₂, ho⟩ := ho
          have ho := Res.ok.inj ho
          rcases hS b₂ hb₂ with h | ⟨j, t, h, ⟨l, rfl, hl⟩, ht⟩
          · rw [ho, h]
            exact .lift (.inr ⟨.inr rfl, b₂, hb₂, fun j hj => by rw [h] at hj; cases hj⟩)
          · rw [ho, h]
            have hv : (Json.obj l).valueStr "node_type" "group" = .ok t := by
              have ht : assocGet l "node_type" = some (.str t) := ht
              unfold Json.valueStr
              simp only [ht]
              rfl
            show (S3M.lift ((Json.obj l).valueStr "node_type" "group") >>= fun x => (pure (decide (x = "group")) : S3M Bool)).Looks S _
            rw [hv]
            show (S3M.lift (.ok (decide (t = "group")))).Looks S _
            refine .lift ?_
            by_cases hg : t = "group"
            · subst hg
              exact .inl ⟨rfl, b₂, hb₂, .inl ⟨_, h, ht⟩⟩
            · refine .inr ⟨.inl (congrArg Res.ok (decide_eq_false hg)), b₂, hb₂, fun j hj e => hg ?_⟩
              rw [h] at hj
              cases hj
              rw [ht] at e
              cases e
              rfl
        | false =>
          have hnone : b.get (docKey (joinKey root.name key) "zarr.json") = none := Option.isNone_iff_eq_none.1 (by rw [← Option.not_isSome, ← e]; rfl)
          refine (objectExists_looks _).mono fun r ⟨b', hb', e'⟩ => ?_
          cases hz : (b'.get (docKey (joinKey root.name key) ".zgroup")).isSome with
          | true => exact .inl ⟨e'.trans (congrArg Res.ok hz), b', hb', .inr hz⟩
          | false => exact .inr ⟨.inl (e'.trans (congrArg Res.ok hz)), b, hb, fun j hj => by rw [hnone] at hj; cases hj⟩
      refine .after hsub (fun a ha => ?_) (fun e he => ?_) (fun he => ?_)
      · cases a with
        | true =>
          rcases ha with ⟨_, h⟩ | ⟨h | h, _⟩
          · refine S3M.Looks.tries (Q := fun r => r = .ok ⟨root.child key, 3⟩) (.pure rfl) (fun a ha b _ => ?_) (fun e he => by cases he) (fun he => by cases he)
            cases ha
            exact ⟨rfl, .inl ⟨rfl, hn, h⟩⟩
          · cases h
          · cases h
        | false =>
          rcases ha with ⟨h, _⟩ | ⟨_, h⟩
          · cases h
          · refine S3M.Looks.tries (Q := fun r => r = .throw .typeError) (.lift rfl) (fun a ha => by cases ha) (fun e' he => ?_) (fun he => by cases he)
            cases he
            exact .inr ⟨rfl, hn, h⟩
      · rcases he with ⟨h, _⟩ | ⟨h | h, h'⟩
        · cases h
        · cases h
        · cases h
          exact .inr ⟨rfl, hn, h'⟩
      · rcases he with ⟨h, _⟩ | ⟨h | h, _⟩ <;> cases h
    · cases h
      simp only [hr, Bool.not_true, Bool.false_eq_true, if_false]
      have hc := c100_create_group (S := S) (root := root) (key := key) (f := 3) (fun h => by rw [h] at hr; cases hr) (.inr rfl) hroot
        (fun b hb => (hS b hb).imp id fun ⟨j, t, h, hj, _⟩ => ⟨j, by unfold Bucket.docAt; rw [h], hj⟩)
      refine S3M.Tries.mono (fun o b b' h => ?_) (fun e he => .inl he) (S3M.Tries.then_value (v := (⟨root.child key, 3⟩ : S3PyGroup)) hc fun _ => rfl)
      obtain ⟨rfl, _, h1, _, h3⟩ := h
      obtain ⟨_, _, j, g1, g2, g3, _⟩ := h3 rfl
      exact ⟨rfl, .inr ⟨h1, j, g1, g2, g3⟩⟩
  · rcases he with ⟨h, _⟩ | ⟨h, _⟩ <;> cases h
  · rcases he with ⟨h, _⟩ | ⟨h, _⟩ <;> cases h

end Creating

/-- The hypotheses of `c100_change` hold, for one client that sets `a` while another one sets `c` (as in `c56_race_counterexample`). -/
example : ∃ b₂ : Bucket, b₂.attributes exS3Group.name .v3 "c" = some (.int 2) ∧
    (exS3Group.change (.write (.obj [("a", .int 1)]))).Edits (fun b => b = exS3 ∨ b = b₂) fun _ =>
      ChangesFrom (fun b => b = exS3 ∨ b = b₂) exS3Group.name .v3 (.write (.obj [("a", .int 1)])) := by
  obtain ⟨b₂, h1, h2, h3⟩ := (c56_change (op := .write (.obj [("c", .int 2)])) rfl exS3_group (show Json.IsObject _ from ⟨_, rfl, by decide⟩)).2 rfl
  refine ⟨b₂, by rw [h2.attributes]; rfl, c100_change rfl rfl (show Json.IsObject _ from ⟨_, rfl, by decide⟩) (fun b hb => ?_)
    (.inr ⟨"zarr.json", by decide, fun b hb => ?_⟩) fun _ b b' hb hb' k hk => ?_⟩
  · rcases hb with rfl | rfl
    · exact exS3_group
    · exact h3
  · have : b.Node exS3Group.name .v3 := by
      rcases hb with rfl | rfl
      · exact exS3_group.node
      · exact h3.node
    obtain ⟨j, hj, _⟩ := this.v3 rfl
    exact docAt_some hj
  · rcases hb with rfl | rfl <;> rcases hb' with rfl | rfl
    · rfl
    · exact (h2.rest rfl k hk).symm
    · exact h2.rest rfl k hk
    · rfl

/-- The hypotheses of `c100_create` hold, for two clients that create `d`, the other one with another shape (as in `c99_create_counterexample`). -/
example : let other := (exS3Root.createDataset "d".toList { exArgs with shape := [9, 9] } ⟨List.replicate 7 {}, exS3Zarr⟩).2.bucket
    let S : Bucket → Prop := fun b => b = exS3Zarr ∨ b = other
    other.Exists "f/d".toList ∧ ∃ j, exS3Ds.obj.info.toJson = .ok j ∧ (exS3Root.createDataset "d".toList exArgs).Tries S
      (fun o b b' => o = exS3Ds ∧ (∃ b₁, S b₁ ∧ ¬ b₁.Exists "f/d".toList) ∧ ∃ j', (∀ k, k ≠ "attributes" → j'.find k = j.find k) ∧
        (exArgs.zarrFormat = 2 → j' = j) ∧ (exArgs.zarrFormat = 3 → ∃ b₂, S b₂ ∧ j'.find "attributes" =
          ((b₂.docAt (docKey "f/d".toList "zarr.json")).bind (Json.find · "attributes")).or (j.find "attributes")) ∧ b' = b.put (docKey "f/d".toList exS3Ds.obj.info.fileName) (.doc j'))
      (fun e => e = .invalidArgument ∧ ∃ b₁, S b₁ ∧ b₁.Exists "f/d".toList) := by
  intro other S
  refine ⟨by unfold Bucket.Exists; decide +kernel,
    c100_create (root := exS3Root) (key := "d".toList) (a := exArgs) (ds := exS3Ds) (b₀ := exS3Zarr) (w := exS3Created) (exS3_calm 7)
      (S3M.run_eq (by decide +kernel)) ⟨".zgroup", by simp, by unfold Bucket.HasNode; decide +kernel⟩ ⟨".zgroup", by simp, fun b hb => ?_⟩ (fun b hb => .inl ?_) (.inl rfl)⟩
  · rcases hb with rfl | rfl <;> decide +kernel
  · rcases hb with rfl | rfl <;> decide +kernel

/-- The hypotheses of `c100_create_n5` hold, for two clients that create `d`, the other one with another shape. -/
example : let other := (exS3Root.createDataset "d".toList { exArgs with shape := [9, 9] } ⟨List.replicate 7 {}, exS3N5⟩).2.bucket
    let S : Bucket → Prop := fun b => b = exS3N5 ∨ b = other
    other.Exists "f/d".toList ∧ (∃ ds w, exS3Root.createDataset "d".toList exArgs ⟨List.replicate 7 {}, exS3N5⟩ = (some (.ok ds), w)) ∧
    ¬ exS3N5.IsZarr exS3Root.name ∧ ∀ b, S b → ¬ b.IsZarr exS3Root.name := by
  intro other S
  have hz : ∀ b : Bucket, (¬ b.HasNode (docKey exS3Root.name ".zgroup")) → (¬ b.HasNode (docKey exS3Root.name "zarr.json")) → ¬ b.IsZarr exS3Root.name :=
    fun b h1 h2 ⟨m, hm, h⟩ => by
      simp only [List.mem_cons, List.not_mem_nil, or_false] at hm
      rcases hm with rfl | rfl
      · exact h1 h
      · exact h2 h
  refine ⟨by unfold Bucket.Exists; decide +kernel, ?_, ?_, fun b hb => ?_⟩
  · have h : (match (exS3Root.createDataset "d".toList exArgs ⟨List.replicate 7 {}, exS3N5⟩).1 with | some (.ok _) => true | _ => false) = true := by
      decide +kernel
    generalize exS3Root.createDataset "d".toList exArgs ⟨List.replicate 7 {}, exS3N5⟩ = r at h ⊢
    obtain ⟨r, w⟩ := r
    split at h
    · rename_i ds e
      exact ⟨ds, w, congrArg (·, w) e⟩
    · cases h
  · exact hz _ (by unfold Bucket.HasNode; decide +kernel) (by unfold Bucket.HasNode; decide +kernel)
  · rcases hb with h | h <;> rw [h] <;> exact hz _ (by unfold Bucket.HasNode; decide +kernel) (by unfold Bucket.HasNode; decide +kernel)

/-- The hypotheses of `c100_create_file` hold, for all formats: another client creates a container of N5 of the same name in an empty bucket. -/
example : let S : Bucket → Prop := fun b => b = [] ∨ b = exS3N5
    exS3N5.Exists exS3Root.name ∧ exS3Root.mode.canCreate = true ∧
    ∀ b, S b → ∀ n ∈ ["zarr.json", "attributes.json"], b.get (docKey exS3Root.name n) = none ∨
      ∃ j, b.docAt (docKey exS3Root.name n) = some j ∧ j.IsObject := by
  intro S
  refine ⟨by unfold Bucket.Exists; decide +kernel, rfl, fun b hb n hn => ?_⟩
  simp only [List.mem_cons, List.not_mem_nil, or_false] at hn
  rcases hb with rfl | rfl
  · exact .inl rfl
  · rcases hn with rfl | rfl
    · exact .inl rfl
    · exact .inr ⟨_, rfl, _, rfl, by decide⟩

/-- The bucket after another client has created a dataset of zarr v3 -/
def exS3Other : Bucket := (exS3Root.createDataset "d".toList { exArgs with zarrFormat := 3 } ⟨List.replicate 7 {}, exS3Zarr⟩).2.bucket

/-- A document is an object whose names are distinct -/
def objectAt (b : Bucket) (k : Key) : Bool :=
  match b.docAt k with
  | some (.obj l) => decide (l.map (·.1)).Nodup
  | _ => false

theorem objectAt_iff {b : Bucket} {k : Key} (h : objectAt b k = true) : ∃ j, b.docAt k = some j ∧ j.IsObject := by
  unfold objectAt at h
  split at h
  · rename_i l e
    exact ⟨_, e, l, rfl, of_decide_eq_true h⟩
  · cases h

/-- The hypotheses of `c100_create_group` hold: another client creates a dataset of zarr v3 of the same name. -/
example : let S : Bucket → Prop := fun b => b = exS3Zarr ∨ b = exS3Other
    exS3Other.Exists "f/d".toList ∧ exS3Root.mode ≠ .r ∧
    (∃ m ∈ [".zgroup", "zarr.json"], ∀ b, S b → (b.get (docKey exS3Root.name m)).isSome = true) ∧
    ∀ b, S b → b.get (docKey (joinKey exS3Root.name "d".toList) "zarr.json") = none ∨
      ∃ j, b.docAt (docKey (joinKey exS3Root.name "d".toList) "zarr.json") = some j ∧ j.IsObject := by
  intro S
  refine ⟨by unfold Bucket.Exists; decide +kernel, by decide, ⟨".zgroup", by simp, fun b hb => ?_⟩, fun b hb => ?_⟩
  · rcases hb with h | h <;> rw [h] <;> decide +kernel
  · rcases hb with h | h <;> rw [h]
    · exact .inl (by decide +kernel)
    · exact .inr (objectAt_iff (by decide +kernel))

/-- **C100: a group and a dataset of the same name.**  Before the third request of a call that creates a group of zarr v3, another client creates a
dataset of the same name (`exS3Other`).  Both calls return; afterwards the node is a group whose document still has the shape of the dataset, and the
dataset cannot be opened. -/
theorem c100_create_counterexample : ∃ es : List Event, (∀ e ∈ es, e.Answers) ∧ (∀ b' ∈ statesOf es exS3Zarr, b' = exS3Zarr ∨ b' = exS3Other) ∧
    s3ShapeOf (exS3Root.openDataset "d".toList ⟨List.replicate 10 {}, exS3Other⟩).1 = [5, 4] ∧
    let w := exS3Root.createGroup "d".toList 3 ⟨es, exS3Zarr⟩
    (match w.1 with | some (.ok ()) => true | _ => false) = true ∧
    (match (w.2.bucket.docAt "f/d/zarr.json".toList).bind (Json.find · "node_type") with | some (.str t) => t == "group" | _ => false) = true ∧
    (match (w.2.bucket.docAt "f/d/zarr.json".toList).bind (Json.find · "shape") with | some (.arr [.int 5, .int 4]) => true | _ => false) = true ∧
    (match (exS3Root.openDataset "d".toList ⟨List.replicate 10 {}, w.2.bucket⟩).1 with | some (.throw _) => true | _ => false) = true := by
  refine ⟨[{}, {}, { change := fun _ => exS3Other }, {}],
    fun e he => ?_, fun b' hb' => ?_, by decide +kernel, by decide +kernel, by decide +kernel, by decide +kernel, by decide +kernel⟩
  · simp only [List.mem_cons, List.not_mem_nil, or_false] at he
    rcases he with rfl | rfl | rfl | rfl <;> exact ⟨rfl, (fun _ h => by cases h), by decide⟩
  · simp only [statesOf, List.mem_cons, List.not_mem_nil, or_false] at hb'
    generalize exS3Other = o at hb' ⊢
    rcases hb' with h | h | h | h | h
    · exact .inl h
    · exact .inl h
    · exact .inl h
    · exact .inr h
    · exact .inr h

/-- The bucket after another client has required the group `d` -/
def exS3Required : Bucket := (S3PyGroup.requireGroup ⟨exS3Root, 2⟩ "d".toList ⟨List.replicate 7 {}, exS3Zarr⟩).2.bucket

/-- The hypotheses of `c100_require_group` and `c100_create_group_python` hold: another client requires the same group. -/
example : let S : Bucket → Prop := fun b => b = exS3Zarr ∨ b = exS3Required
    exS3Required.Exists "f/d".toList ∧ exS3Root.mode.canWrite = true ∧ pyLstrip "d".toList = "d".toList ∧
    (∃ m ∈ [".zgroup", "zarr.json"], ∀ b, S b → (b.get (docKey exS3Root.name m)).isSome = true) ∧
    ∀ b, S b → b.get (docKey (joinKey exS3Root.name "d".toList) "zarr.json") = none := by
  intro S
  refine ⟨by unfold Bucket.Exists; decide +kernel, rfl, by decide, ⟨".zgroup", by simp, fun b hb => ?_⟩, fun b hb => ?_⟩
  · rcases hb with h | h <;> rw [h] <;> decide +kernel
  · rcases hb with h | h <;> rw [h] <;> exact Option.isNone_iff_eq_none.1 (by decide +kernel)

/-- **C100: two clients require the same group.**  Before the fourth request of `require_group`, another client calls `require_group` with the same name, and
succeeds.  The first call is refused with `invalid_argument`, although the group exists then; called again, it succeeds. -/
theorem c100_require_counterexample : ∃ es : List Event, (∀ e ∈ es, e.Answers) ∧ (∀ b' ∈ statesOf es exS3Zarr, b' = exS3Zarr ∨ b' = exS3Required) ∧
    (match (S3PyGroup.requireGroup ⟨exS3Root, 2⟩ "d".toList ⟨List.replicate 7 {}, exS3Zarr⟩).1 with | some (.ok _) => true | _ => false) = true ∧
    let w := S3PyGroup.requireGroup ⟨exS3Root, 2⟩ "d".toList ⟨es, exS3Zarr⟩
    (match w.1 with | some (.throw .invalidArgument) => true | _ => false) = true ∧ w.2.bucket = exS3Required ∧
    (match (S3PyGroup.requireGroup ⟨exS3Root, 2⟩ "d".toList ⟨List.replicate 7 {}, w.2.bucket⟩).1 with | some (.ok _) => true | _ => false) = true := by
  refine ⟨[{}, {}, {}, { change := fun _ => exS3Required }],
    fun e he => ?_, fun b' hb' => ?_, by decide +kernel, by decide +kernel, by rfl, by decide +kernel⟩
  · simp only [List.mem_cons, List.not_mem_nil, or_false] at he
    rcases he with rfl | rfl | rfl | rfl <;> exact ⟨rfl, (fun _ h => by cases h), by decide⟩
  · simp only [statesOf, List.mem_cons, List.not_mem_nil, or_false] at hb'
    generalize exS3Required = o at hb' ⊢
    rcases hb' with h | h | h | h | h
    · exact .inl h
    · exact .inl h
    · exact .inl h
    · exact .inl h
    · exact .inr h

/-- The hypotheses of `c100_require_group_v3` hold: another client creates the group. -/
example : let g : Json := .obj [("zarr_format", .int 3), ("node_type", .str "group"), ("attributes", .obj [])]
    let S : Bucket → Prop := fun b => b = exS3Zarr ∨ b = exS3Zarr ++ [("f/d/zarr.json".toList, .doc g)]
    exS3Root.mode.canWrite = true ∧ pyLstrip "d".toList = "d".toList ∧
    (∃ m ∈ [".zgroup", "zarr.json"], ∀ b, S b → (b.get (docKey exS3Root.name m)).isSome = true) ∧
    ∀ b, S b → b.get (docKey (joinKey exS3Root.name "d".toList) "zarr.json") = none ∨
      ∃ j t, b.get (docKey (joinKey exS3Root.name "d".toList) "zarr.json") = some (.doc j) ∧ j.IsObject ∧ j.find "node_type" = some (.str t) := by
  intro g S
  refine ⟨rfl, by decide, ⟨".zgroup", by simp, fun b hb => ?_⟩, fun b hb => ?_⟩
  · rcases hb with h | h <;> rw [h] <;> rfl
  · rcases hb with h | h <;> rw [h]
    · exact .inl rfl
    · exact .inr ⟨g, "group", rfl, ⟨_, rfl, by decide⟩, rfl⟩

end Z5.Props
