import Verif.Proofs.S3Watch
import Verif.Props.S3Container

/-!
# C98: reading attributes on S3 while others change the bucket
-/

namespace Z5.Props
open Spec

variable {Ty : ElemTypes} {C : S3Container} {L : Libs} {S : Bucket → Prop}

theorem isV3_looks {name : Key} {La : Layout} (hz : La.isZarr = true) (h : ∀ b, S b → b.Node name La) :
    (GenericS3.isV3 name true).Looks S (· = .ok (decide (La = .v3))) := by
  unfold GenericS3.isV3
  rw [if_pos rfl]
  unfold s3Exists
  refine (objectExists_looks _).mono fun r ⟨b, hb, e⟩ => ?_
  rw [e]
  cases La with
  | n5 => cases hz
  | v2 => rw [(h b hb).v2 rfl]; rfl
  | v3 =>
    obtain ⟨j, hj, _⟩ := (h b hb).v3 rfl
    rw [docAt_some hj]; rfl

/-- reading the attributes of a node -/
theorem s3_read_looks {name : Key} {La : Layout} (hz : La.isZarr = true) (h : ∀ b, S b → b.Node name La) :
    (GenericS3.readAttributes name true .null).Looks S fun r => ∃ b j, S b ∧ r = .ok j ∧ ∀ k, j.find k = b.attributes name La k := by
  unfold GenericS3.readAttributes
  refine (isV3_looks hz h).bind (fun a ha => ?_) (fun e he => by cases he) (fun he => by cases he)
  cases ha
  cases La with
  | n5 => cases hz
  | v2 =>
    show S3M.Looks (do return (← s3Read name ".zattrs").getD .null) _ _
    refine (s3Read_looks (S := S) fun b hb => ?_).bind (fun a ha => ?_) (fun e he => ?_) (fun he => ?_)
    · exact (h b hb).doc.imp id fun ⟨j, hj, _⟩ => ⟨j, hj⟩
    · obtain ⟨b, hb, e⟩ := ha
      cases e
      refine .pure ⟨b, _, hb, rfl, fun k => ?_⟩
      show _ = (b.docAt (docKey name ".zattrs")).bind _
      cases b.docAt (docKey name ".zattrs") <;> rfl
    · obtain ⟨_, _, e⟩ := he; cases e
    · obtain ⟨_, _, e⟩ := he; cases e
  | v3 =>
    show S3M.Looks (GenericS3.readV3Attributes name .null) _ _
    unfold GenericS3.readV3Attributes
    refine (s3Read_looks (S := S) fun b hb => ?_).bind (fun a ha => ?_) (fun e he => ?_) (fun he => ?_)
    · obtain ⟨j, hj, _⟩ := (h b hb).v3 rfl
      exact .inr ⟨j, hj⟩
    · obtain ⟨b, hb, e⟩ := ha
      cases e
      obtain ⟨f, hf, _⟩ := (h b hb).v3 rfl
      rw [hf]
      refine .pure ⟨b, _, hb, rfl, fun k => ?_⟩
      show _ = ((b.docAt (docKey name "zarr.json")).bind (·.find "attributes")).bind (·.find k)
      rw [hf]
      show _ = (f.find "attributes").bind (·.find k)
      cases f.find "attributes" <;> rfl
    · obtain ⟨_, _, e⟩ := he; cases e
    · obtain ⟨_, _, e⟩ := he; cases e

/-- **C98, nodes.**  The attributes of a zarr node on S3 are read while others change the bucket between the requests in any way that leaves the
node one of its format (its format is known to the handle, or the document that tells it is there all the time).  What is read are all the
attributes of one moment. -/
theorem c98_attributes {t : S3Target} {La : Layout} (hz : La.isZarr = true) (h : ∀ b, S b → t.Refers b La)
    (hm : t.cache ≠ none ∨ ∃ m ∈ t.markers, ∀ b, S b → (b.get (docKey t.name m)).isSome = true) :
    t.read.Looks S fun r => ∃ b j, S b ∧ r = .ok j ∧ ∀ k, j.find k = b.attributes t.name La k := by
  have hr := s3_read_looks (S := S) (name := t.name) hz fun b hb => (h b hb).node
  have hgroup : ∀ g : S3Handle, (∃ m ∈ [".zgroup", "zarr.json"], ∀ b, S b → (b.get (docKey g.name m)).isSome = true) →
      (GenericS3.readAttributes g.name true .null).Looks S (fun r => ∃ b j, S b ∧ r = .ok j ∧ ∀ k, j.find k = b.attributes g.name La k) →
      (g.readAttributes .null).Looks S fun r => ∃ b j, S b ∧ r = .ok j ∧ ∀ k, j.find k = b.attributes g.name La k := by
    rintro g ⟨m, hm, hg⟩ hr
    unfold S3Handle.readAttributes
    refine (markers_looks g (by simpa using hm) hg (x := g.isZarr) rfl).bind (fun a ha => ?_) (fun e he => by cases he) (fun he => by cases he)
    cases ha
    exact hr
  cases t with
  | group g => exact hgroup g (hm.resolve_left fun e => e rfl) hr
  | file g => exact hgroup g (hm.resolve_left fun e => e rfl) hr
  | dataset d =>
    show (d.readAttributes .null).Looks _ _
    unfold S3DatasetHandle.readAttributes
    have hzarr : d.isZarr.Looks S (· = .ok true) := by
      intro es b hes hS
      unfold S3DatasetHandle.isZarr
      cases hc : d.base.cache with
      | some z =>
        have hb : b ∈ statesOf es b := by cases es <;> exact List.mem_cons_self
        have : z = true := ((h b (hS b hb)).cached z hc).trans hz
        subst this
        exact S3M.Looks.pure (S := S) (Q := (· = .ok true)) (a := true) rfl es b hes hS
      | none =>
        obtain ⟨m, hm, hg⟩ := hm.resolve_left fun e => e hc
        exact markers_looks (S := S) ⟨d.name, d.base.mode⟩ (m1 := ".zarray") (m2 := "zarr.json") (by simpa [S3Target.markers] using hm) hg rfl es b hes hS
    refine hzarr.bind (fun a ha => ?_) (fun e he => by cases he) (fun he => by cases he)
    cases ha
    refine hr.bind (fun a ha => ?_) (fun e he => ?_) (fun he => ?_)
    · exact .pure ha
    · obtain ⟨_, _, _, e, _⟩ := he; cases e
    · obtain ⟨_, _, _, e, _⟩ := he; cases e

/-- what the handle of an open array knows -/
theorem array_cache (hL : L.Lawful) {os : List (Path × S3DatasetObj)} {b : Bucket} {p : Path} {x : ArrayItem Ty} (h : C.ArrayAt L os b p x)
    {o : S3DatasetObj} (ho : (p, o) ∈ os) : o.obj.handle.cache ≠ none := by
  rcases h with h | ⟨b₀, a, A₀, os', ws, h⟩
  · obtain ⟨o₀, d₀, m, cfg, h0, h1, _, h2, h3⟩ := h.carries hL
    obtain ⟨hn, hs⟩ := h3 o ho
    rw [hs.cache]
    exact fun e => by cases e
  · obtain ⟨f, v, e⟩ := h.now hL
    obtain ⟨d', g⟩ := e.objects o (h.objects o ho)
    rw [g.cache]
    exact fun e => by cases e

/-- the document that makes a group of the container one of zarr -/
theorem group_marker {g : Path} {m : FileMode} (hat : ∀ b, S b → ∃ A, C.GroupAt b g A) :
    ∃ m' ∈ (C.attrsOf g m).markers, ∀ b, S b → (b.get (docKey (C.attrsOf g m).name m')).isSome = true := by
  have e : (C.attrsOf g m).markers = [".zgroup", "zarr.json"] := by unfold S3Container.attrsOf; split <;> rfl
  rw [e, S3Container.attrsOf_name]
  rcases S3Container.layout_cases (C := C) with e | e
  · refine ⟨".zgroup", by simp, fun b' hb' => ?_⟩
    obtain ⟨A, hA⟩ := hat b' hb'
    have := hA.kind
    unfold S3Container.GroupKind at this
    rw [e] at this
    obtain ⟨j, hj, _⟩ := this
    rw [hj]; rfl
  · refine ⟨"zarr.json", by simp, fun b' hb' => ?_⟩
    obtain ⟨A, hA⟩ := hat b' hb'
    obtain ⟨j, hj, _⟩ := hA.node.v3 e
    exact docAt_some hj

/-- **C98, groups of a container.**  The attributes of a group are read while others change the container (`es`), so that each state of the bucket is
one in the life of the container and the group is there.  What is read are the attributes of the group in one of these states; or the call
reports an error, because a request has failed; or it still waits. -/
theorem c98_group (hL : L.Lawful) {g : Path} {m : FileMode} {es : List Event} {b : Bucket} (hes : ∀ e ∈ es, e.Answers)
    (h : ∀ b' ∈ statesOf es b, ∃ (T : Tree Ty) (os : List (Path × S3DatasetObj)) (A : AttrMap), S3History C L Ty T os b' ∧ T g = some (.group A)) :
    (∃ j w, (C.attrsOf g m).read ⟨es, b⟩ = (some (.ok j), w) ∧ ∃ b' ∈ statesOf es b,
      ∀ (T : Tree Ty) os A, S3History C L Ty T os b' → T g = some (.group A) → ∀ k, j.find k = A k) ∨
    (∃ w, (C.attrsOf g m).read ⟨es, b⟩ = (some (.throw .runtimeError), w) ∧ ∃ e ∈ es, ∃ kind, e.error kind ≠ none) ∨
    ∃ w, (C.attrsOf g m).read ⟨es, b⟩ = (none, w) := by
  have hat : ∀ b' ∈ statesOf es b, ∃ A, C.GroupAt b' g A := fun b' hb' => by
    obtain ⟨T, os, A, h1, h2⟩ := h b' hb'
    exact ⟨A, (S3Container.inv_of_history hL h1).group _ _ h2⟩
  have hmark : ∃ m' ∈ (C.attrsOf g m).markers, ∀ b', b' ∈ statesOf es b → (b'.get (docKey (C.attrsOf g m).name m')).isSome = true := group_marker hat
  rcases c98_attributes (S := (· ∈ statesOf es b)) (t := C.attrsOf g m) (La := C.layout) S3Container.layout_isZarr
    (fun b' hb' => (hat b' hb').elim fun A hA => hA.refers m) (.inr hmark) es b hes (fun _ h => h) with ⟨r, es', b', e1, _, _, e4⟩ | ⟨b', e, _⟩
  · rcases e4 with ⟨b'', j, hb, rfl, hj⟩ | ⟨rfl, e5⟩
    · refine .inl ⟨j, _, e1, b'', hb, fun T os A h1 h2 k => ?_⟩
      rw [hj, S3Container.attrsOf_name, ((S3Container.inv_of_history hL h1).group _ _ h2).attrs]
    · exact .inr (.inl ⟨_, e1, e5⟩)
  · exact .inr (.inr ⟨_, e⟩)

/-- **C98, arrays of a container**, through an open object. -/
theorem c98_array (hL : L.Lawful) {p : Path} {o : S3DatasetObj} {es : List Event} {b : Bucket} (hes : ∀ e ∈ es, e.Answers)
    (h : ∀ b' ∈ statesOf es b, ∃ (T : Tree Ty) (os : List (Path × S3DatasetObj)) (x : ArrayItem Ty), S3History C L Ty T os b' ∧
      T p = some (.array x) ∧ (p, o) ∈ os) :
    (∃ j w, (S3Target.dataset ⟨o.name, o.obj.handle⟩).read ⟨es, b⟩ = (some (.ok j), w) ∧ ∃ b' ∈ statesOf es b,
      ∀ (T : Tree Ty) os x, S3History C L Ty T os b' → T p = some (.array x) → (p, o) ∈ os → ∀ k, j.find k = x.attrs k) ∨
    (∃ w, (S3Target.dataset ⟨o.name, o.obj.handle⟩).read ⟨es, b⟩ = (some (.throw .runtimeError), w) ∧ ∃ e ∈ es, ∃ kind, e.error kind ≠ none) ∨
    ∃ w, (S3Target.dataset ⟨o.name, o.obj.handle⟩).read ⟨es, b⟩ = (none, w) := by
  have hb : b ∈ statesOf es b := by cases es <;> exact List.mem_cons_self
  have hc : o.obj.handle.cache ≠ none := by
    obtain ⟨T, os, x, h1, h2, h3⟩ := h b hb
    exact array_cache hL ((S3Container.inv_of_history hL h1).array _ _ h2) h3
  rcases c98_attributes (S := (· ∈ statesOf es b)) (t := .dataset ⟨o.name, o.obj.handle⟩) (La := C.layout) S3Container.layout_isZarr
    (fun b' hb' => by
      obtain ⟨T, os, x, h1, h2, h3⟩ := h b' hb'
      exact (((S3Container.inv_of_history hL h1).array _ _ h2).refers hL h3).1) (.inl hc) es b hes (fun _ h => h) with ⟨r, es', b', e1, _, _, e4⟩ | ⟨b', e, _⟩
  · rcases e4 with ⟨b'', j, hb, rfl, hj⟩ | ⟨rfl, e5⟩
    · refine .inl ⟨j, _, e1, b'', hb, fun T os x h1 h2 h3 k => ?_⟩
      have ha := (S3Container.inv_of_history hL h1).array _ _ h2
      rw [hj, show (S3Target.dataset ⟨o.name, o.obj.handle⟩).name = C.key p from (ha.refers hL h3).2, ← ha.attrs]
    · exact .inr (.inl ⟨_, e1, e5⟩)
  · exact .inr (.inr ⟨_, e⟩)

/-! ### opening a dataset -/

section Opening

variable {root : S3Handle} {key name : Key} {La : Layout} {j : Json}

/-- the chunk keys that the document tells -/
def s3KeysOf (La : Layout) (j : Json) : Res ChunkConfig :=
  if La = .v3 then getZarrChunkConfig (some j) none else getZarrChunkConfig none (some j)

theorem s3KeysOf_congr {j' : Json} (h : ∀ k, k ≠ "attributes" → j'.find k = j.find k) : s3KeysOf La j' = s3KeysOf La j := by
  unfold s3KeysOf getZarrChunkConfig
  simp only [h "chunk_key_encoding" (by decide), h "dimension_separator" (by decide)]

/-- Is the document missing at some time? -/
def Missing (S : Bucket → Prop) (name : Key) (La : Layout) : Prop := ∃ b, S b ∧ b.get (docKey name La.datasetFile) = none

theorem s3Keys_looks (hz : La.isZarr = true) (hS : ∀ b, S b → b.MayHold name La j) :
    (readS3ChunkConfig name).Looks S fun r => r = s3KeysOf La j ∨ (Missing S name La ∧ r = .ok .initial) := by
  unfold readS3ChunkConfig
  refine (getObject_looks _).bind (fun a ha => ?_) (fun e he => ?_) (fun he => ?_)
  · obtain ⟨b, hb, e⟩ := ha
    cases e
    cases La with
    | n5 => cases hz
    | v3 =>
      rcases (hS b hb).doc with e | ⟨j', e, _, hj⟩
      · have e : b.get (docKey name "zarr.json") = none := e
        rw [e]
        refine (getObject_looks _).bind (fun a ha => ?_) (fun e he => ?_) (fun he => ?_)
        · obtain ⟨b', hb', e'⟩ := ha
          cases e'
          rw [(hS b' hb').rest ".zarray" (by simp) (by decide)]
          exact .lift (.inr ⟨⟨b, hb, e⟩, rfl⟩)
        · obtain ⟨_, _, e⟩ := he; cases e
        · obtain ⟨_, _, e⟩ := he; cases e
      · have e : b.get (docKey name "zarr.json") = _ := e
        rw [e]
        exact .lift (.inl (s3KeysOf_congr (La := .v3) hj))
    | v2 =>
      rw [(hS b hb).rest "zarr.json" (by simp) (by decide)]
      refine (getObject_looks _).bind (fun a ha => ?_) (fun e he => ?_) (fun he => ?_)
      · obtain ⟨b', hb', e'⟩ := ha
        cases e'
        rcases (hS b' hb').doc with e | ⟨j', e, _, hj⟩
        · have e' : b'.get (docKey name ".zarray") = none := e
          rw [e']
          exact .lift (.inr ⟨⟨b', hb', e⟩, rfl⟩)
        · have e : b'.get (docKey name ".zarray") = _ := e
          rw [e]
          exact .lift (.inl (s3KeysOf_congr (La := .v2) hj))
      · obtain ⟨_, _, e⟩ := he; cases e
      · obtain ⟨_, _, e⟩ := he; cases e
  · obtain ⟨_, _, e⟩ := he; cases e
  · obtain ⟨_, _, e⟩ := he; cases e

theorem s3Exists_looks (n : String) : (s3Exists name n).Looks S fun r => ∃ b, S b ∧ r = .ok (b.get (docKey name n)).isSome :=
  objectExists_looks _

/-- the document, if it is there at the right times -/
theorem s3Doc_looks (hj : j.IsObject) (hS : ∀ b, S b → b.MayHold name La j) {K : Option Json → S3M Meta}
    (hn : K none = S3M.lift (.throw .runtimeError)) (hs : ∀ j', K (some j') = S3M.lift (Meta.fromJson j' true)) :
    (s3Read name La.datasetFile >>= K).Looks S fun r => r = Meta.fromJson j true ∨ (Missing S name La ∧ r = .throw .runtimeError) := by
  refine (s3Read_looks (S := S) fun b hb => ?_).bind (fun a ha => ?_) (fun e he => ?_) (fun he => ?_)
  · rcases (hS b hb).doc with e | ⟨j', e, _⟩
    · exact .inl e
    · exact .inr ⟨j', by unfold Bucket.docAt; rw [e]⟩
  · obtain ⟨b, hb, e⟩ := ha
    cases e
    rcases (hS b hb).doc with e | ⟨j', e, h1, h2⟩
    · rw [s3_docAt_none e, hn]
      exact .lift (.inr ⟨⟨b, hb, e⟩, rfl⟩)
    · rw [show b.docAt (docKey name La.datasetFile) = some j' from by unfold Bucket.docAt; rw [e], hs]
      exact .lift (.inl (fromJson_zarr_congr hj h1 h2))
  · obtain ⟨_, _, e⟩ := he; cases e
  · obtain ⟨_, _, e⟩ := he; cases e

/-- no document at all -/
theorem s3None_looks (hS : ∀ b, S b → b.get (docKey name "attributes.json") = none) {Q : Res Meta → Prop} {K : Option Json → S3M Meta}
    (hn : K none = S3M.lift (.throw .runtimeError)) (hq : Q (.throw .runtimeError)) : (s3Read name "attributes.json" >>= K).Looks S Q := by
  refine (s3Read_looks (S := S) fun b hb => .inl (hS b hb)).bind (fun a ha => ?_) (fun e he => ?_) (fun he => ?_)
  · obtain ⟨b, hb, e⟩ := ha
    cases e
    rw [s3_docAt_none (hS b hb), hn]
    exact .lift hq
  · obtain ⟨_, _, e⟩ := he; cases e
  · obtain ⟨_, _, e⟩ := he; cases e

theorem s3Metadata_looks (hz : La.isZarr = true) (hj : j.IsObject) (hS : ∀ b, S b → b.MayHold name La j) :
    (readS3Metadata name).Looks S fun r => r = Meta.fromJson j true ∨ (Missing S name La ∧ r = .throw .runtimeError) := by
  unfold readS3Metadata
  refine (s3Exists_looks _).bind (fun a ha => ?_) (fun e he => ?_) (fun he => ?_)
  · obtain ⟨b, hb, e⟩ := ha
    cases La with
    | n5 => cases hz
    | v3 =>
      cases e' : b.get (docKey name "zarr.json") with
      | some v =>
        rw [e'] at e
        cases e
        exact s3Doc_looks (La := .v3) hj hS rfl fun _ => rfl
      | none =>
        have hmiss : Missing S name .v3 := ⟨b, hb, e'⟩
        rw [e'] at e
        cases e
        refine (s3Exists_looks _).bind (fun a ha => ?_) (fun e he => ?_) (fun he => ?_)
        · obtain ⟨b', hb', e⟩ := ha
          rw [(hS b' hb').rest ".zarray" (by simp) (by decide)] at e
          cases e
          exact s3None_looks (fun b hb => (hS b hb).rest _ (by simp) (by decide)) rfl (.inr ⟨hmiss, rfl⟩)
        · obtain ⟨_, _, e⟩ := he; cases e
        · obtain ⟨_, _, e⟩ := he; cases e
    | v2 =>
      rw [(hS b hb).rest "zarr.json" (by simp) (by decide)] at e
      cases e
      refine (s3Exists_looks _).bind (fun a ha => ?_) (fun e he => ?_) (fun he => ?_)
      · obtain ⟨b', hb', e⟩ := ha
        cases e' : b'.get (docKey name ".zarray") with
        | some v =>
          rw [e'] at e
          cases e
          exact s3Doc_looks (La := .v2) hj hS rfl fun _ => rfl
        | none =>
          rw [e'] at e
          cases e
          exact s3None_looks (fun b hb => (hS b hb).rest _ (by simp) (by decide)) rfl (.inr ⟨⟨b', hb', e'⟩, rfl⟩)
      · obtain ⟨_, _, e⟩ := he; cases e
      · obtain ⟨_, _, e⟩ := he; cases e
  · obtain ⟨_, _, e⟩ := he; cases e
  · obtain ⟨_, _, e⟩ := he; cases e

/-- the dataset of the document -/
def s3Opened (j : Json) (d : S3DatasetHandle) : Res S3DatasetObj := Meta.fromJson j true >>= makeS3Dataset d

theorem s3Handle_looks (hz : La.isZarr = true) (hj : j.IsObject) (hS : ∀ b, S b → b.MayHold name La j) {d : S3DatasetHandle} (hd : d.name = name) :
    d.openDataset.Looks S fun r => r = s3Opened j d ∨ (Missing S name La ∧ r = .throw .runtimeError) := by
  subst hd
  unfold S3DatasetHandle.openDataset S3Handle.exist
  refine (anyObject_looks _).bind (fun a ha => ?_) (fun e he => ?_) (fun he => ?_)
  · obtain ⟨b, hb, e⟩ := ha
    cases a with
    | false =>
      refine .lift (.inr ⟨⟨b, hb, ?_⟩, rfl⟩)
      cases e' : b.get (docKey d.name La.datasetFile) with
      | none => rfl
      | some v =>
        have e := Res.ok.inj e
        have : ∃ k ∈ b.keys, dirPrefix d.name <+: k := ⟨_, mem_keys.2 (by rw [e']; rfl), dirPrefix_docKey _ _⟩
        have h2 := of_decide_eq_false e.symm
        exact absurd this h2
    | true =>
      refine (s3Metadata_looks hz hj hS).bind (fun m hm => ?_) (fun e he => ?_) (fun he => ?_)
      · rcases hm with hm | ⟨_, hm⟩
        · refine .lift (.inl ?_)
          unfold s3Opened
          rw [← hm]
          rfl
        · cases hm
      · rcases he with he | he
        · exact .inl (by unfold s3Opened; rw [← he]; rfl)
        · cases he.2
          exact .inr ⟨he.1, rfl⟩
      · rcases he with he | ⟨_, he⟩
        · exact .inl (by unfold s3Opened; rw [← he]; rfl)
        · cases he
  · obtain ⟨_, _, e⟩ := he; cases e
  · obtain ⟨_, _, e⟩ := he; cases e

/-- the handle with these chunk keys -/
def s3HandleWith (root : S3Handle) (key : Key) (c : ChunkConfig) : S3DatasetHandle := root.dataset key c.delimiter c.zarrFormat c.encoding

theorem s3Open_looks (hz : La.isZarr = true) (hj : j.IsObject) (hS : ∀ b, S b → b.MayHold (joinKey root.name key) La j)
    (hroot : ∃ m ∈ [".zgroup", "zarr.json"], ∀ b, S b → (b.get (docKey root.name m)).isSome = true) :
    (root.openDataset key).Looks S fun r => r = (s3KeysOf La j >>= fun c => s3Opened j (s3HandleWith root key c)) ∨
      (Missing S (joinKey root.name key) La ∧ (r = .throw .runtimeError ∨ r = s3Opened j (s3HandleWith root key .initial))) := by
  have hopen := fun c => s3Handle_looks (d := s3HandleWith root key c) hz hj hS rfl
  unfold S3Handle.openDataset
  obtain ⟨m, hm, hg⟩ := hroot
  refine (markers_looks root (by simpa using hm) hg (x := root.isZarr) rfl).bind (fun a ha => ?_) (fun e he => by cases he) (fun he => by cases he)
  cases ha
  refine (s3Keys_looks hz hS).bind (fun c hc => ?_) (fun e he => ?_) (fun he => ?_)
  · rcases hc with hc | ⟨hF, hc⟩
    · rw [← hc]
      refine (hopen c).mono fun r hr => ?_
      exact hr.imp id fun ⟨h1, h2⟩ => ⟨h1, .inl h2⟩
    · cases hc
      refine (hopen .initial).mono fun r hr => ?_
      rcases hr with hr | ⟨_, hr⟩
      · exact .inr ⟨hF, .inr hr⟩
      · exact .inr ⟨hF, .inl hr⟩
  · rcases he with he | ⟨_, he⟩
    · exact .inl (by rw [← he]; rfl)
    · cases he
  · rcases he with he | ⟨_, he⟩
    · exact .inl (by rw [← he]; rfl)
    · cases he

theorem states_calm (b : Bucket) : ∀ n, ∀ b' ∈ statesOf (List.replicate n {}) b, b' = b
  | 0, b', h => by simpa [statesOf] using h
  | n + 1, b', h => by
    rcases List.mem_cons.1 h with h | h
    · exact h
    · exact states_calm b n b' h

theorem s3Opened_dots {c : ChunkConfig} {m : Meta} {o : S3DatasetObj} (h : makeS3Dataset (s3HandleWith root key c) m = .ok o) :
    makeS3Dataset (s3HandleWith root key .initial) m = .ok o.withDots := by
  unfold makeS3Dataset at h ⊢
  split at h
  · cases h
  · rename_i hc
    rw [if_neg hc]
    obtain ⟨o', h1, h2⟩ := Res.bind_eq_ok.1 h
    cases h2
    obtain ⟨B, f, s, k1, k2, k3, ⟨k4, k5, k6, rfl⟩ | ⟨k4, rfl⟩⟩ := makeDataset_ok.1 h1
    · exact Res.bind_eq_ok.2 ⟨_, makeDataset_ok.2 ⟨B, f, s, k1, k2, k3, .inl ⟨k4, k5, k6, rfl⟩⟩, rfl⟩
    · exact Res.bind_eq_ok.2 ⟨_, makeDataset_ok.2 ⟨B, f, s, k1, k2, k3, .inr ⟨k4, rfl⟩⟩, rfl⟩

/-- **C98, datasets.**  A dataset in a zarr group on S3 is opened while others change the bucket between the requests, so that in every state its
document is missing, or there, with any attributes.  In one of the states (`b₁`) opening it would give the object `o`.  The call gives `o`;
or, but only if the document was missing at some time, it fails or gives `o` with the chunk keys of zarr of version 2 with dots. -/
theorem c98_open (hz : La.isZarr = true) (hj : j.IsObject) (hS : ∀ b, S b → b.MayHold (joinKey root.name key) La j)
    (hroot : ∃ m ∈ [".zgroup", "zarr.json"], ∀ b, S b → (b.get (docKey root.name m)).isSome = true) {b₁ : Bucket} (hb : S b₁)
    (hd : b₁.get (docKey (joinKey root.name key) La.datasetFile) ≠ none) {n : Nat} {o : S3DatasetObj}
    (ho : (root.openDataset key).Does n b₁ (.ok o) b₁) :
    (root.openDataset key).Looks S fun r => r = .ok o ∨
      ((∃ b, S b ∧ b.get (docKey (joinKey root.name key) La.datasetFile) = none) ∧ (r = .throw .runtimeError ∨ r = .ok o.withDots)) := by
  have key : (s3KeysOf La j >>= fun c => s3Opened j (s3HandleWith root key c)) = .ok o := by
    obtain ⟨w, hw, _⟩ := does_calm ho
    obtain ⟨m, hm, hr⟩ := hroot
    rcases s3Open_looks (S := (· = b₁)) hz hj (fun b e => by cases e; exact hS _ hb) ⟨m, hm, fun b e => by cases e; exact hr _ hb⟩
      (List.replicate n {}) b₁ (fun e he => by rw [List.eq_of_mem_replicate he]; exact ⟨rfl, (fun _ h => by cases h), by decide⟩)
      (states_calm b₁ n) with ⟨r, es', b', e1, _, _, e4⟩ | ⟨b', e, _⟩
    · rw [hw] at e1
      cases e1
      rcases e4 with (e4 | ⟨⟨b, rfl, e4⟩, _⟩) | ⟨e4, _⟩
      · exact e4.symm
      · exact absurd e4 hd
      · cases e4
    · rw [hw] at e
      cases e
  refine (s3Open_looks hz hj hS hroot).mono fun r hr => ?_
  rw [key] at hr
  refine hr.imp id fun ⟨h1, h2⟩ => ⟨h1, h2.imp id fun h2 => ?_⟩
  obtain ⟨c, _, k2⟩ := Res.bind_eq_ok.1 key
  unfold s3Opened at k2 h2
  obtain ⟨m, k3, k4⟩ := Res.bind_eq_ok.1 k2
  rw [h2, k3]
  exact s3Opened_dots k4

theorem zarrJson_object {m : Meta} (hz : m.isZarr = true) (hf : m.zarrFormat = 2 ∨ m.zarrFormat = 3) (h : m.toJson = .ok j) : j.IsObject := by
  rcases hf with hf | hf
  · rw [toJson_v2 hz hf] at h
    obtain ⟨c, _, h⟩ := Res.bind_eq_ok.1 h
    cases h
    exact ⟨_, rfl, by simp⟩
  · exact (toJson_object h (by rw [hz, hf]; decide)).1

/-- **C98, a dataset that is being created.**  While one client creates a dataset in a zarr group on S3 (from `b` to `w.bucket`), another one opens it:
each state that it meets is the one before or the one after.  There is an object `o` that opening the dataset afterwards gives, and that is
the same dataset as the one that was created.  The call gives `o`, or it fails, or it gives `o` with the chunk keys with dots, or it still waits. -/
theorem c98_created {a : CreateArgs} {ds : S3DatasetObj} {b : Bucket} {es₀ : List Event} {w : World} (hes₀ : ∀ e ∈ es₀, e.Reliable)
    (h : root.createDataset key a ⟨es₀, b⟩ = (some (.ok ds), w)) (ht : ds.obj.info.Typed) (hf : a.zarrFormat = 2 ∨ a.zarrFormat = 3)
    (hroot : ∃ m ∈ [".zgroup", "zarr.json"], (b.get (docKey root.name m)).isSome = true ∧ (w.bucket.get (docKey root.name m)).isSome = true) :
    ∃ o, (root.openDataset key).Does 10 w.bucket (.ok o) w.bucket ∧ ds.obj.SameAs o.obj ∧
      ∀ (es : List Event) (b₀ : Bucket), (∀ e ∈ es, e.Answers) → (∀ b' ∈ statesOf es b₀, b' = b ∨ b' = w.bucket) →
        (root.openDataset key ⟨es, b₀⟩).1 = some (.ok o) ∨ (root.openDataset key ⟨es, b₀⟩).1 = some (.throw .runtimeError) ∨
        (root.openDataset key ⟨es, b₀⟩).1 = some (.ok o.withDots) ∨ (root.openDataset key ⟨es, b₀⟩).1 = none := by
  obtain ⟨o, h1, _, h2⟩ := c57_reopen hes₀ h ht fun _ => hf
  refine ⟨o, h1, h2, fun es b₀ hes hst => ?_⟩
  obtain ⟨z, j, hz, hr, hm, hc, hmk, hn, hh, hj, hnn⟩ := createDataset_returned hes₀ h
  obtain ⟨e1, e2, _⟩ := createMeta_ok hm
  obtain ⟨m, hm, g1, g2⟩ := hroot
  have hzt : ds.obj.info.isZarr = true := e1.trans (hz.2 ⟨m, hm, .inl (mem_keys.2 g1)⟩)
  have hlay := fileName_layout ds.obj.info
  have hLz : (Layout.of ds.obj.info.isZarr ds.obj.info.zarrFormat).isZarr = true := by
    unfold Layout.of; rw [if_pos hzt]; split <;> rfl
  have hJ := zarrJson_object hzt (by rw [e2]; exact hf) hj
  have hold : ∀ n : String, b.get (docKey (joinKey root.name key) n) = none := fun n => by
    cases e : b.get (docKey (joinKey root.name key) n) with
    | none => rfl
    | some v => exact absurd ⟨_, mem_keys.2 (by rw [e]; rfl), dirPrefix_docKey _ _⟩ hnn.fresh
  have hnew : w.bucket.get (docKey (joinKey root.name key) (Layout.of ds.obj.info.isZarr ds.obj.info.zarrFormat).datasetFile) = some (.doc j) := by
    rw [hnn.get (dirPrefix_docKey _ _), ← hlay, if_pos rfl]
  rcases c98_open (S := fun b' => b' = b ∨ b' = w.bucket) (j := j) hLz hJ (fun b' hb' => by
      rcases hb' with rfl | rfl
      · exact ⟨.inl (hold _), fun n _ _ => hold n⟩
      · refine ⟨.inr ⟨j, hnew, hJ, fun _ _ => rfl⟩, fun n _ hne => ?_⟩
        rw [hnn.get (dirPrefix_docKey _ _), if_neg fun e => hne ((docKey_inj e).trans hlay)])
    ⟨m, hm, fun b' hb' => hb'.elim (fun e => e ▸ g1) fun e => e ▸ g2⟩ (.inr rfl) (by rw [hnew]; exact fun e => by cases e) h1 es b₀ hes hst
    with ⟨r, es', b', k1, _, _, k4⟩ | ⟨b', k, _⟩
  · rw [k1]
    rcases k4 with (rfl | ⟨_, rfl | rfl⟩) | ⟨rfl, _⟩
    · exact .inl rfl
    · exact .inr (.inl rfl)
    · exact .inr (.inr (.inl rfl))
    · exact .inr (.inl rfl)
  · rw [k]
    exact .inr (.inr (.inr rfl))

end Opening

/-! ### what goes wrong, and examples -/

/-- the delimiter of the chunk keys of the object of an outcome -/
def s3DelimiterOf : Option (Res S3DatasetObj) → String
  | some (.ok o) => o.obj.handle.delimiter
  | _ => ""

/-- **C98: the third outcome.**  While another client creates a dataset whose chunk keys have slashes, a call that opens it ends well, with an object
that takes the chunk keys to be those with dots. -/
theorem c98_open_counterexample : ∃ (a : CreateArgs) (b : Bucket) (es : List Event), (∀ e ∈ es, e.Answers) ∧
    let b₁ := (exS3Root.createDataset "d".toList a ⟨List.replicate 7 {}, b⟩).2.bucket
    (∀ b' ∈ statesOf es b, b' = b ∨ b' = b₁) ∧
    s3DelimiterOf (exS3Root.openDataset "d".toList ⟨es, b⟩).1 = "." ∧
    s3DelimiterOf (exS3Root.openDataset "d".toList ⟨List.replicate 10 {}, b₁⟩).1 = "/" := by
  refine ⟨exArgs, exS3Zarr, [{}, {}, {}, { change := fun _ => (exS3Root.createDataset "d".toList exArgs ⟨List.replicate 7 {}, exS3Zarr⟩).2.bucket },
    {}, {}, {}], fun e he => ?_, fun b' hb' => ?_, by decide +kernel, by decide +kernel⟩
  · simp only [List.mem_cons, List.not_mem_nil, or_false] at he
    rcases he with rfl | rfl | rfl | rfl | rfl | rfl | rfl <;> exact ⟨rfl, (fun _ h => by cases h), by decide⟩
  · simp only [statesOf, List.mem_cons, List.not_mem_nil, or_false] at hb'
    rcases hb' with h | h | h | h | h | h | h | h <;> first | exact .inl h | exact .inr h

/-- The hypotheses of `c98_created` (and with them those of `c98_open`) hold. -/
example : ∃ o, (exS3Root.openDataset "d".toList).Does 10 exS3Created.bucket (.ok o) exS3Created.bucket ∧ exS3Ds.obj.SameAs o.obj :=
  (c98_created (root := exS3Root) (key := "d".toList) (a := exArgs) (ds := exS3Ds) (b := exS3Zarr) (w := exS3Created) (exS3_calm 7)
    (S3M.run_eq (by decide +kernel)) exDs_typed (.inl rfl) ⟨".zgroup", by simp, by decide +kernel, by decide +kernel⟩).imp
    fun _ h => ⟨h.1, h.2.1⟩

/-- The hypotheses of `c98_group` (and with them those of `c98_attributes`) hold: the attributes of a new container are read while another client
sets one, before the third request. -/
example : ∃ (b' : Bucket) (A : AttrMap), A "b" = some (.int 2) ∧
    let es : List Event := [{}, {}, { change := fun _ => b' }, {}, {}, {}, {}]
    ∀ j w, (exS3C.attrsOf [] .r).read ⟨es, exS3Start.bucket⟩ = (some (.ok j), w) → (∀ k, j.find k = none) ∨ ∀ k, j.find k = A k := by
  obtain ⟨b', _, h2⟩ := ((c79_group_attributes (exLibs_lawful _) exS3Start_history (g := []) rfl .a).2 (.write (.obj [("b", .int 2)]))
    (show Json.IsObject _ from ⟨_, rfl, by decide⟩)).2 (by decide)
  refine ⟨b', (AttrOp.write (.obj [("b", .int 2)])).apply fun _ => none, rfl, fun j w hr => ?_⟩
  have hst : ∀ c ∈ statesOf [{}, {}, { change := fun _ => b' }, {}, {}, {}, {}] exS3Start.bucket, c = exS3Start.bucket ∨ c = b' := fun c hc => by
    simp only [statesOf, List.mem_cons, List.not_mem_nil, or_false] at hc
    rcases hc with h | h | h | h | h | h | h | h <;> first | exact .inl h | exact .inr h
  rcases c98_group (C := exS3C) (Ty := exTypes) (g := []) (m := .r) (es := [{}, {}, { change := fun _ => b' }, {}, {}, {}, {}])
    (b := exS3Start.bucket) (exLibs_lawful _) (fun e he => by
      simp only [List.mem_cons, List.not_mem_nil, or_false] at he
      rcases he with rfl | rfl | rfl | rfl | rfl | rfl | rfl <;> exact ⟨rfl, (fun _ h => by cases h), Nat.zero_lt_succ 999⟩)
    (fun c hc => by
      rcases hst c hc with rfl | rfl
      · exact ⟨_, _, _, exS3Start_history, rfl⟩
      · exact ⟨_, _, _, h2, Container.put_self _ _ _⟩) with ⟨j', w', e, c, hc, hj⟩ | ⟨w', e, _⟩ | ⟨w', e⟩
  · rw [hr] at e
    cases e
    rcases hst c hc with rfl | rfl
    · exact .inl (hj _ _ _ exS3Start_history rfl)
    · exact .inr (hj _ _ _ h2 (Container.put_self _ _ _))
  · rw [hr] at e
    cases e
  · rw [hr] at e
    cases e

end Z5.Props
