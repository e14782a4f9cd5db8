import Verif.Proofs.S3Edit
import Verif.Props.S3Watch

/-!
# C99: changing attributes on S3 while others change the rest of the bucket
-/

namespace Z5.Props
open Spec

variable {Ty : ElemTypes} {C : S3Container} {L : Libs} {S : Bucket → Prop}

theorem docAt_congr {b b' : Bucket} {k : Key} (h : b.get k = b'.get k) : b.docAt k = b'.docAt k := by
  unfold Bucket.docAt
  rw [h]

/-- the document that a change of attributes puts, which depends on the document before alone -/
theorem generic_edits {name : Key} {La : Layout} (hz : La.isZarr = true) {b₀ : Bucket} (h₀ : b₀.Node name La) {op : AttrOp} (hop : op.Valid) :
    ∃ c : Option Json, ∀ S : Bucket → Prop, (∀ b, S b → b.Node name La ∧ b.get (docKey name La.file) = b₀.get (docKey name La.file)) →
      (match op with
        | .write j => GenericS3.writeAttributes name true j
        | .remove k => GenericS3.removeAttribute name true k).Edits S fun _ b b' => b' = putDoc (docKey name La.file) c b := by
  cases La with
  | n5 => cases hz
  | v2 =>
    have hread : ∀ S : Bucket → Prop, (∀ b, S b → b.Node name .v2 ∧ b.get (docKey name ".zattrs") = b₀.get (docKey name ".zattrs")) →
        (s3Read name ".zattrs").Looks S (· = .ok (b₀.docAt (docKey name ".zattrs"))) := fun S hS =>
      (s3Read_looks fun b hb => (hS b hb).1.doc.imp id fun ⟨j, hj, _⟩ => ⟨j, hj⟩).mono fun r ⟨b, hb, e⟩ => by
        rw [e]
        exact congrArg Res.ok (docAt_congr (hS b hb).2)
    have hobj : ∀ j, b₀.docAt (docKey name ".zattrs") = some j → j.IsObject := fun j hj => by
      rcases h₀.doc with e | ⟨d, e, hd⟩
      · have e : b₀.get (docKey name ".zattrs") = none := e
        unfold Bucket.docAt at hj
        rw [e] at hj
        cases hj
      · have e : b₀.docAt (docKey name ".zattrs") = some d := e
        rw [hj] at e
        cases e
        exact hd
    cases op with
    | write j =>
      have ho : ((b₀.docAt (docKey name ".zattrs")).getD (.obj [])).IsObject := by
        cases e : b₀.docAt (docKey name ".zattrs") with
        | none => exact isObject_empty
        | some f => exact hobj f e
      obtain ⟨d, d1, _⟩ := mergeAttributes_ok ho hop
      refine ⟨some d, fun S hS => ?_⟩
      show (GenericS3.writeAttributes name true j).Edits _ _
      unfold GenericS3.writeAttributes
      refine .after (isV3_looks (La := .v2) rfl fun b hb => (hS b hb).1) (fun a ha => ?_) (fun e he => by cases he) (fun he => by cases he)
      cases ha
      show S3M.Edits (s3Read name ".zattrs" >>= fun o => S3M.lift (mergeAttributes (o.getD (.obj [])) j) >>= fun out => s3Write name ".zattrs" out) _ _
      refine .after (hread S hS) (fun a ha => ?_) (fun e he => by cases he) (fun he => by cases he)
      cases ha
      exact .lift d1 (s3Write_edits _ _ _)
    | remove k =>
      have hgo : ∀ c : Option Json, (∀ S : Bucket → Prop, (match b₀.docAt (docKey name ".zattrs") with
          | none => (return () : S3M Unit)
          | some out => do
            let out ← S3M.lift (out.erase k)
            s3Write name ".zattrs" out).Edits S fun _ b b' => b' = putDoc (docKey name ".zattrs") c b) →
          ∀ S : Bucket → Prop, (∀ b, S b → b.Node name .v2 ∧ b.get (docKey name ".zattrs") = b₀.get (docKey name ".zattrs")) →
          (GenericS3.removeAttribute name true k).Edits S fun _ b b' => b' = putDoc (docKey name ".zattrs") c b := fun c hc S hS => by
        unfold GenericS3.removeAttribute
        refine .after (isV3_looks (La := .v2) rfl fun b hb => (hS b hb).1) (fun a ha => ?_) (fun e he => by cases he) (fun he => by cases he)
        cases ha
        refine S3M.Edits.after (hread S hS) (fun a ha => ?_) (fun e he => by cases he) (fun he => by cases he)
        cases ha
        exact hc S
      cases e : b₀.docAt (docKey name ".zattrs") with
      | none =>
        refine ⟨none, hgo _ fun S => ?_⟩
        rw [e]
        exact pure_edits _
      | some f =>
        obtain ⟨d, d1, _⟩ := erase_ok (hobj f e) k
        refine ⟨some d, hgo _ fun S => ?_⟩
        rw [e]
        exact .lift d1 (s3Write_edits _ _ _)
  | v3 =>
    obtain ⟨f, hf, hfo, hfa⟩ := h₀.v3 rfl
    have hread : ∀ S : Bucket → Prop, (∀ b, S b → b.Node name .v3 ∧ b.get (docKey name "zarr.json") = b₀.get (docKey name "zarr.json")) →
        (s3Read name "zarr.json").Looks S (· = .ok (some f)) := fun S hS =>
      (s3Read_looks fun b hb => (hS b hb).1.doc.imp id fun ⟨j, hj, _⟩ => ⟨j, hj⟩).mono fun r ⟨b, hb, e⟩ => by
        rw [e]
        exact congrArg Res.ok ((docAt_congr (hS b hb).2).trans hf)
    cases op with
    | write j =>
      have ho : ((f.find "attributes").getD (.obj [])).IsObject := by
        cases e : f.find "attributes" with
        | none => exact isObject_empty
        | some a => exact hfa a e
      obtain ⟨a, a1, _⟩ := mergeAttributes_ok ho hop
      obtain ⟨d, d1, _⟩ := set_ok hfo "attributes" a
      refine ⟨some d, fun S hS => ?_⟩
      show (GenericS3.writeAttributes name true j).Edits _ _
      unfold GenericS3.writeAttributes
      refine .after (isV3_looks (La := .v3) rfl fun b hb => (hS b hb).1) (fun a ha => ?_) (fun e he => by cases he) (fun he => by cases he)
      cases ha
      show (GenericS3.writeV3Attributes name j).Edits _ _
      unfold GenericS3.writeV3Attributes
      refine .after (hread S hS) (fun a ha => ?_) (fun e he => by cases he) (fun he => by cases he)
      cases ha
      exact .lift a1 (.lift d1 (s3Write_edits _ _ _))
    | remove k =>
      have hgo : ∀ c : Option Json, (∀ S : Bucket → Prop, (match f.find "attributes" with
            | none => s3Write name "zarr.json" f
            | some attrs => do
              let attrs ← S3M.lift (attrs.erase k)
              let full ← S3M.lift (f.set "attributes" attrs)
              s3Write name "zarr.json" full).Edits S fun _ b b' => b' = putDoc (docKey name "zarr.json") c b) →
          ∀ S : Bucket → Prop, (∀ b, S b → b.Node name .v3 ∧ b.get (docKey name "zarr.json") = b₀.get (docKey name "zarr.json")) →
          (GenericS3.removeAttribute name true k).Edits S fun _ b b' => b' = putDoc (docKey name "zarr.json") c b := fun c hc S hS => by
        unfold GenericS3.removeAttribute
        refine .after (isV3_looks (La := .v3) rfl fun b hb => (hS b hb).1) (fun a ha => ?_) (fun e he => by cases he) (fun he => by cases he)
        cases ha
        show (GenericS3.removeV3Attribute name k).Edits _ _
        unfold GenericS3.removeV3Attribute
        refine S3M.Edits.after (hread S hS) (fun a ha => ?_) (fun e he => by cases he) (fun he => by cases he)
        cases ha
        exact hc S
      cases e : f.find "attributes" with
      | none =>
        refine ⟨some f, hgo _ fun S => ?_⟩
        rw [e]
        exact s3Write_edits _ _ _
      | some a =>
        obtain ⟨a', a1, _⟩ := erase_ok (hfa a e) k
        obtain ⟨d, d1, _⟩ := set_ok hfo "attributes" a'
        refine ⟨some d, hgo _ fun S => ?_⟩
        rw [e]
        exact .lift a1 (.lift d1 (s3Write_edits _ _ _))

/-- the calls on handles -/
theorem target_edits {t : S3Target} {La : Layout} (hz : La.isZarr = true) (hw : t.mode.canWrite = true) (h : ∀ b, S b → t.Refers b La)
    (hm : t.cache ≠ none ∨ ∃ m ∈ t.markers, ∀ b, S b → (b.get (docKey t.name m)).isSome = true) {op : AttrOp} {P : Unit → Bucket → Bucket → Prop}
    (hx : (match op with
        | .write j => GenericS3.writeAttributes t.name true j
        | .remove k => GenericS3.removeAttribute t.name true k).Edits S P) : (t.change op).Edits S P := by
  cases t with
  | group g =>
    have hw : g.mode.canWrite = true := hw
    obtain ⟨m, hm, hg⟩ := hm.resolve_left fun e => e rfl
    have hzarr := markers_looks (S := S) g (by simpa [S3Target.markers] using hm) hg (x := g.isZarr) rfl
    cases op with
    | write j =>
      show (g.writeAttributes j).Edits _ _
      unfold S3Handle.writeAttributes
      rw [hw]
      refine S3M.Edits.after hzarr (fun a ha => ?_) (fun e he => by cases he) (fun he => by cases he)
      cases ha
      exact hx
    | remove k =>
      show (g.removeAttribute k).Edits _ _
      unfold S3Handle.removeAttribute
      rw [hw]
      refine S3M.Edits.after hzarr (fun a ha => ?_) (fun e he => by cases he) (fun he => by cases he)
      cases ha
      exact hx
  | file g =>
    have hw : g.mode.canWrite = true := hw
    obtain ⟨m, hm, hg⟩ := hm.resolve_left fun e => e rfl
    have hzarr := markers_looks (S := S) g (by simpa [S3Target.markers] using hm) hg (x := g.isZarr) rfl
    cases op with
    | write j =>
      show (g.writeFileAttributes j).Edits _ _
      unfold S3Handle.writeFileAttributes
      rw [hw]
      refine S3M.Edits.after hzarr (fun a ha => ?_) (fun e he => by cases he) (fun he => by cases he)
      cases ha
      refine S3M.Edits.after hzarr (fun a ha => ?_) (fun e he => by cases he) (fun he => by cases he)
      cases ha
      exact hx
    | remove k =>
      show (g.removeFileAttribute k).Edits _ _
      unfold S3Handle.removeFileAttribute
      rw [hw]
      refine S3M.Edits.after hzarr (fun a ha => ?_) (fun e he => by cases he) (fun he => by cases he)
      cases ha
      refine S3M.Edits.after hzarr (fun a ha => ?_) (fun e he => by cases he) (fun he => by cases he)
      cases ha
      exact hx
  | dataset d =>
    have hw : d.base.mode.canWrite = true := hw
    have hzarr : d.isZarr.Looks S (· = .ok true) := by
      intro es b hes hS
      unfold S3DatasetHandle.isZarr
      cases hc : d.base.cache with
      | some z =>
        have : z = true := ((h b (hS b (statesOf_self es b))).cached z hc).trans hz
        subst this
        exact S3M.Looks.pure (S := S) (Q := (· = .ok true)) (a := true) rfl es b hes hS
      | none =>
        obtain ⟨m, hm, hg⟩ := hm.resolve_left fun e => e hc
        exact markers_looks (S := S) ⟨d.name, d.base.mode⟩ (m1 := ".zarray") (m2 := "zarr.json") (by simpa [S3Target.markers] using hm) hg rfl es b hes hS
    cases op with
    | write j =>
      show (d.writeAttributes j).Edits _ _
      unfold S3DatasetHandle.writeAttributes
      rw [hw]
      refine S3M.Edits.after hzarr (fun a ha => ?_) (fun e he => by cases he) (fun he => by cases he)
      cases ha
      exact hx
    | remove k =>
      show (d.removeAttribute k).Edits _ _
      unfold S3DatasetHandle.removeAttribute
      rw [hw]
      refine S3M.Edits.after hzarr (fun a ha => ?_) (fun e he => by cases he) (fun he => by cases he)
      cases ha
      exact hx

theorem calm_answers (n : Nat) : ∀ e ∈ List.replicate n ({} : Event), e.Answers := fun e he => by
  rw [List.eq_of_mem_replicate he]
  exact ⟨rfl, (fun _ h => by cases h), Nat.zero_lt_succ 999⟩

theorem calm_reliable (n : Nat) : ∀ e ∈ List.replicate n ({} : Event), e.Reliable := fun e he => by
  rw [List.eq_of_mem_replicate he]
  exact ⟨rfl, rfl, (fun d h => by cases h), by decide⟩

theorem calm_healthy (n : Nat) : ¬ ∃ e ∈ List.replicate n ({} : Event), ∃ kind, e.error kind ≠ none := fun ⟨e, he, kind, hk⟩ => by
  rw [List.eq_of_mem_replicate he] at hk
  exact hk rfl

/-- **C99, nodes.**  The attributes of a zarr node on S3 are changed while others change the bucket between the requests in any way that leaves the
node one of its format, and its document as it is.  The call has exactly the effect that it has if it is made alone at one moment (`b`);
if it fails because a request has failed, it has this effect or none. -/
theorem c99_change {t : S3Target} {La : Layout} (hz : La.isZarr = true) (hw : t.mode.canWrite = true) {op : AttrOp} (hop : op.Valid)
    (h : ∀ b, S b → t.Refers b La) (hm : t.cache ≠ none ∨ ∃ m ∈ t.markers, ∀ b, S b → (b.get (docKey t.name m)).isSome = true)
    (hd : ∀ b b', S b → S b' → b.get (docKey t.name La.file) = b'.get (docKey t.name La.file)) :
    (t.change op).Edits S fun _ b b' => (t.change op).Does 11 b (.ok ()) b' ∧
      b.OnlyAttributes b' t.name La (op.apply (b.attributes t.name La)) := by
  intro es b₀ hes hS
  have hb₀ := hS _ (statesOf_self es b₀)
  obtain ⟨c, hc⟩ := generic_edits hz (h _ hb₀).node hop
  refine S3M.Edits.mono (S := S) (fun _ b b' hb e => ?_)
    (target_edits hz hw h hm (hc S fun b hb => ⟨(h b hb).node, hd _ _ hb hb₀⟩)) es b₀ hes hS
  have hl : op.names (t.locked La) = false := by
    cases La with
    | n5 => cases hz
    | v2 => cases t <;> cases op <;> rfl
    | v3 => cases t <;> cases op <;> rfl
  obtain ⟨b'', h1, h2, _⟩ := (c56_change hw (h b hb) hop).2 hl
  have hcalm := target_edits (S := (· = b)) hz hw (fun _ e => e ▸ h b hb)
    (hm.imp id fun ⟨m, hm, g⟩ => ⟨m, hm, fun _ e => e ▸ g b hb⟩)
    (hc (· = b) fun _ e => e ▸ ⟨(h b hb).node, hd _ _ hb hb₀⟩) (List.replicate 11 {}) b (calm_answers _) (states_calm b 11)
  suffices b'' = b' by subst this; exact ⟨h1, h2⟩
  rcases h1 _ (calm_reliable 11) with ⟨es', _, _, k⟩ | ⟨_, _, _, _, _, k⟩ | ⟨k, _⟩
  · rw [k] at hcalm
    rcases hcalm with ⟨r, es', b₁, hb₁, b₂, g1, ⟨_, _, g2⟩ | ⟨_, _, g2⟩⟩ | ⟨_, _, g⟩
    · cases g1
      rw [g2, states_calm b 11 b₁ hb₁, e]
    · exact absurd g2 (calm_healthy 11)
    · cases g
  · exact absurd k (calm_healthy 11)
  · simp at k

/-- What a call does alone is determined. -/
theorem does_unique {α : Type} {x : S3M α} {n : Nat} {b b' b'' : Bucket} {r r' : Res α} (h : x.Does n b r b') (h' : x.Does n b r' b'') :
    b' = b'' := by
  rcases h _ (calm_reliable n) with ⟨es', _, _, k⟩ | ⟨_, _, _, _, _, k⟩ | ⟨k, _⟩
  · rcases h' _ (calm_reliable n) with ⟨es', _, _, k'⟩ | ⟨_, _, _, _, _, k'⟩ | ⟨k', _⟩
    · rw [k] at k'
      cases k'
      rfl
    · exact absurd k' (calm_healthy n)
    · simp at k'
  · exact absurd k (calm_healthy n)
  · simp at k

/-- **C99, groups of a container.**  The attributes of a group are changed while others change the container, so that each state of the bucket is one
in the life of the container, the group is there, and its document is not changed.  If the call returns, then it has changed the attributes of
this group at one moment, and nothing else: what others had made of the container until then (`T`) is kept. -/
theorem c99_group (hL : L.Lawful) {g : Path} {m : FileMode} (hm : m ≠ .r) {op : AttrOp} (hop : op.Valid)
    (h : ∀ b, S b → ∃ (T : Tree Ty) (os : List (Path × S3DatasetObj)) (A : AttrMap), S3History C L Ty T os b ∧ T g = some (.group A))
    (hd : ∀ b b', S b → S b' → b.get (docKey (C.key g) C.layout.file) = b'.get (docKey (C.key g) C.layout.file)) :
    ((C.attrsOf g m).change op).Edits S fun _ b b' => ∀ (T : Tree Ty) os A, S3History C L Ty T os b → T g = some (.group A) →
      S3History C L Ty (T.put g (.group (op.apply A))) os b' := by
  have hat : ∀ b, S b → ∃ A, C.GroupAt b g A := fun b' hb' => by
    obtain ⟨T, os, A, h1, h2⟩ := h b' hb'
    exact ⟨A, (S3Container.inv_of_history hL h1).group _ _ h2⟩
  have hmark : ∃ m' ∈ (C.attrsOf g m).markers, ∀ b, S b → (b.get (docKey (C.attrsOf g m).name m')).isSome = true := group_marker hat
  refine S3M.Edits.mono (fun _ b b' hb ⟨h1, _⟩ T os A hT hA => ?_) (c99_change (S := S) (La := C.layout) (t := C.attrsOf g m)
    (by rcases S3Container.layout_cases (C := C) with e | e <;> rw [e] <;> rfl)
    (by rw [S3Container.attrsOf_mode]; cases m <;> first | rfl | exact absurd rfl hm) hop
    (fun b' hb' => (hat b' hb').elim fun A hA => hA.refers m) (.inr hmark) (by rw [S3Container.attrsOf_name]; exact hd))
  obtain ⟨b₁, k1, k2⟩ := ((c79_group_attributes hL hT hA m).2 op hop).2 hm
  rw [does_unique h1 k1]
  exact k2

/-- **C99, arrays of a container**, through an open object. -/
theorem c99_array (hL : L.Lawful) {p : Path} {o : S3DatasetObj} (hm : o.obj.handle.mode ≠ .r) {op : AttrOp} (hop : op.Valid)
    (h : ∀ b, S b → ∃ (T : Tree Ty) (os : List (Path × S3DatasetObj)) (x : ArrayItem Ty), S3History C L Ty T os b ∧ T p = some (.array x) ∧
      (p, o) ∈ os)
    (hd : ∀ b b', S b → S b' → b.get (docKey (C.key p) C.layout.file) = b'.get (docKey (C.key p) C.layout.file)) :
    ((S3Target.dataset ⟨o.name, o.obj.handle⟩).change op).Edits S fun _ b b' => ∀ (T : Tree Ty) os x, S3History C L Ty T os b →
      T p = some (.array x) → (p, o) ∈ os → S3History C L Ty (T.put p (.array { x with attrs := op.apply x.attrs })) os b' := by
  intro es b₀ hes hS
  obtain ⟨T, os, x, h1, h2, h3⟩ := h _ (hS _ (statesOf_self es b₀))
  have ha := (S3Container.inv_of_history hL h1).array _ _ h2
  have hname : (S3Target.dataset ⟨o.name, o.obj.handle⟩).name = C.key p := (ha.refers hL h3).2
  refine S3M.Edits.mono (S := S) (fun _ b b' hb ⟨h1, _⟩ T os x hT hx ho => ?_) (c99_change (S := S) (La := C.layout)
    (t := .dataset ⟨o.name, o.obj.handle⟩)
    (by rcases S3Container.layout_cases (C := C) with e | e <;> rw [e] <;> rfl)
    (by show o.obj.handle.mode.canWrite = true; cases e : o.obj.handle.mode <;> first | rfl | exact absurd e hm) hop
    (fun b' hb' => by
      obtain ⟨T, os, x, h1, h2, h3⟩ := h b' hb'
      exact (((S3Container.inv_of_history hL h1).array _ _ h2).refers hL h3).1)
    (.inl (array_cache hL ha h3)) (by rw [hname]; exact hd)) es b₀ hes hS
  obtain ⟨b₁, k1, k2⟩ := ((c79_array_attributes hL hT ho hx).2 op hop).2 hm
  rw [does_unique h1 k1]
  exact k2

/-! ### creating nodes -/

section Creating

variable {root : S3Handle} {key : Key}

/-- The requests of `create`: nothing is there -/
theorem create_looks {h : S3Handle} (hr : h.mode ≠ .r) (hS : ∀ b, S b → ¬ b.Exists h.name) : h.create.Looks S (· = .ok ()) := by
  unfold S3Handle.create
  rw [if_neg hr]
  unfold S3Handle.exist
  refine (anyObject_looks _).bind (fun a ha => ?_) (fun e he => ?_) (fun he => ?_)
  · obtain ⟨b, hb, e⟩ := ha
    have : a = false := (Res.ok.inj e).trans (decide_eq_false (hS b hb))
    subst this
    exact .pure rfl
  · obtain ⟨_, _, e⟩ := he; cases e
  · obtain ⟨_, _, e⟩ := he; cases e

theorem fresh_none {b : Bucket} {name : Key} (h : ¬ b.Exists name) (n : String) : b.get (docKey name n) = none := by
  cases e : b.get (docKey name n) with
  | none => rfl
  | some v => exact absurd ⟨_, mem_keys.2 (by rw [e]; rfl), dirPrefix_docKey _ _⟩ h

theorem fresh_looks {name : Key} (h : ∀ b, S b → ¬ b.Exists name) (n : String) : (s3Read name n).Looks S (· = .ok none) :=
  (s3Read_looks fun b hb => .inl (fresh_none (h b hb) n)).mono fun r ⟨b, hb, e⟩ => by
    rw [e, s3_docAt_none (fresh_none (h b hb) n)]

/-- **C99, new groups.**  A group is created in a zarr group on S3 while others change the bucket, but create nothing below the same name.  At one moment
the call adds the document of the group; nothing else changes, and what others have done is kept. -/
theorem c99_create_group {f : Int} (hr : root.mode ≠ .r) (hf : f = 2 ∨ f = 3)
    (hroot : ∃ m ∈ [".zgroup", "zarr.json"], ∀ b, S b → (b.get (docKey root.name m)).isSome = true)
    (hS : ∀ b, S b → ¬ b.Exists (joinKey root.name key)) :
    (root.createGroup key f).Edits S fun _ b b' => b.NewNode b' (joinKey root.name key) (if f = 3 then "zarr.json" else ".zgroup")
      (if f = 3 then .obj [("zarr_format", .int 3), ("node_type", .str "group"), ("attributes", .obj [])] else .obj [("zarr_format", .int 2)]) := by
  obtain ⟨m, hm, hg⟩ := hroot
  unfold S3Handle.createGroup
  refine .after (markers_looks (S := S) root (by simpa using hm) hg (x := root.isZarr) rfl) (fun a ha => ?_) (fun e he => by cases he) (fun he => by cases he)
  cases ha
  refine .after (create_looks (h := root.child key) hr hS) (fun a ha => ?_) (fun e he => by cases he) (fun he => by cases he)
  cases ha
  unfold GenericS3.writeGroupMetadata
  rcases hf with rfl | rfl
  · exact S3M.Edits.mono (fun _ b b' hb e => ⟨hS b hb, e⟩) (s3Write_edits _ _ _)
  · show (GenericS3.writeV3GroupMetadata _).Edits _ _
    unfold GenericS3.writeV3GroupMetadata
    refine .after (fresh_looks hS "zarr.json") (fun a ha => ?_) (fun e he => by cases he) (fun he => by cases he)
    cases ha
    exact S3M.Edits.mono (fun _ b b' hb e => ⟨hS b hb, e⟩)
      (s3Write_edits _ _ (.obj [("zarr_format", .int 3), ("node_type", .str "group"), ("attributes", .obj [])]))

/-- **C99, new datasets.**  A dataset is created in a zarr group on S3 while others change the bucket, but create nothing below the same name.  Alone (in the
state `b₁`) the call would give the object `ds`.  It gives `ds`, and at one moment it adds the document of the dataset; nothing else changes. -/
theorem c99_create_dataset {a : CreateArgs} {ds : S3DatasetObj} {b₁ : Bucket} {es₀ : List Event} {w : World} (hes₀ : ∀ e ∈ es₀, e.Reliable)
    (h : root.createDataset key a ⟨es₀, b₁⟩ = (some (.ok ds), w)) (hb₁ : S b₁)
    (hroot : ∃ m ∈ [".zgroup", "zarr.json"], ∀ b, S b → (b.get (docKey root.name m)).isSome = true)
    (hS : ∀ b, S b → ¬ b.Exists (joinKey root.name key)) :
    ∃ j, ds.obj.info.toJson = .ok j ∧ (root.createDataset key a).Edits S fun o b b' => o = ds ∧
      b.NewNode b' (joinKey root.name key) ds.obj.info.fileName j := by
  obtain ⟨z, j, hz, hr, hm, hc, hmk, hn, hh, hj, hnn⟩ := createDataset_returned hes₀ h
  obtain ⟨m, hm', hg⟩ := hroot
  have hzt : z = true := hz.2 ⟨m, hm', .inl (mem_keys.2 (hg b₁ hb₁))⟩
  subst hzt
  obtain ⟨e1, e2, _, _, _, _, e3, e4, _⟩ := createMeta_ok hm
  refine ⟨j, hj, ?_⟩
  unfold S3Handle.createDataset
  refine .after (markers_looks (S := S) root (by simpa using hm') hg (x := root.isZarr) rfl) (fun a' ha => ?_) (fun e he => by cases he) (fun he => by cases he)
  cases ha
  refine .lift hm ?_
  unfold S3DatasetHandle.createDataset
  refine .after (create_looks (h := ⟨(root.dataset key _ _ _).name, _⟩) hr hS) (fun a' ha => ?_) (fun e he => by cases he) (fun he => by cases he)
  cases ha
  have hput : (GenericS3.writeDatasetMetadata (joinKey root.name key) ds.obj.info).Edits S fun _ b b' =>
      b' = putDoc (docKey (joinKey root.name key) ds.obj.info.fileName) (some j) b := by
    unfold GenericS3.writeDatasetMetadata Meta.fileName
    rw [e1, if_pos rfl]
    cases h3 : ds.obj.info.zarrFormat == 3 with
    | true =>
      rw [if_pos (eq_of_beq h3)]
      refine .after (fresh_looks hS "zarr.json") (fun a' ha => ?_) (fun e he => by cases he) (fun he => by cases he)
      cases ha
      exact .lift hj (s3Write_edits _ "zarr.json" j)
    | false =>
      rw [if_neg (show ¬ ds.obj.info.zarrFormat = 3 from fun e => by rw [e] at h3; cases h3)]
      exact .lift hj (s3Write_edits _ ".zarray" j)
  refine S3M.Edits.mono (fun o b b' hb e => ?_) (hput.then_value (v := ds) fun _ => ?_)
  · obtain ⟨rfl, _, e⟩ := e
    exact ⟨rfl, hS b hb, e⟩
  · unfold makeS3Dataset
    rw [hc, e2, e3, e4]
    show S3M.lift (makeDataset ⟨[], root.mode, a.delimiter, a.zarrFormat, a.encoding, none⟩ ds.obj.info >>= fun x =>
      .ok (⟨joinKey root.name key, x⟩ : S3DatasetObj)) = _
    rw [hmk, ← hn]
    rfl

end Creating

/-- The hypotheses of `c99_group` (and with them those of `c99_change`) hold: an attribute of a new container is set, and before the third request
another client creates the group `h`. -/
example : ∃ (b' : Bucket) (T : Tree exTypes) (A : AttrMap), S3History exS3C exLibs exTypes T [] b' ∧ T.IsGroup ["h"] ∧ A "b" = some (.int 2) ∧
    let es : List Event := [{}, {}, { change := fun _ => b' }, {}, {}, {}, {}]
    ∀ w, (exS3C.attrsOf [] .a).change (.write (.obj [("b", .int 2)])) ⟨es, exS3Start.bucket⟩ = (some (.ok ()), w) →
      ∃ T' : Tree exTypes, S3History exS3C exLibs exTypes T' [] w.bucket ∧ T' [] = some (.group A) ∧ (T' ["h"] = none ∨ T'.IsGroup ["h"]) := by
  have hh : NodeName "h" := by unfold NodeName PlainName; decide
  obtain ⟨b', e2, h2⟩ := (c79_create_group (exLibs_lawful _) exS3Start_history (g := []) (ks := []) (n := "h") ⟨_, rfl⟩ hh .a).2.2 (by decide) rfl
  obtain ⟨w', hw', hb'⟩ := does_calm e2
  have hdoc : exS3Start.bucket.get (docKey (exS3C.key []) exS3C.layout.file) = none := Option.isNone_iff_eq_none.1 (by decide +kernel)
  have hdoc' : b'.get (docKey (exS3C.key []) exS3C.layout.file) = none := by
    have h3 : ((exS3C.group [] .a).createGroup "h".toList ⟨List.replicate 9 {}, exS3Start.bucket⟩).2.bucket = b' := by
      rw [← hb']
      exact congrArg (fun r => r.2.bucket) hw'
    rw [← h3]
    exact Option.isNone_iff_eq_none.1 (by decide +kernel)
  refine ⟨b', _, (AttrOp.write (.obj [("b", .int 2)])).apply fun _ => none, h2, ⟨_, rfl⟩, rfl, fun w hr => ?_⟩
  have hst : ∀ c ∈ statesOf [{}, {}, { change := fun _ => b' }, {}, {}, {}, {}] exS3Start.bucket, c = exS3Start.bucket ∨ c = b' := fun c hc => by
    simp only [statesOf, List.mem_cons, List.not_mem_nil, or_false] at hc
    rcases hc with h | h | h | h | h | h | h | h <;> first | exact .inl h | exact .inr h
  have hone : ∀ c, (c = exS3Start.bucket ∨ c = b') → c.get (docKey (exS3C.key []) exS3C.layout.file) = none := fun c hc => by
    rcases hc with rfl | rfl
    · exact hdoc
    · exact hdoc'
  rcases c99_group (C := exS3C) (Ty := exTypes) (L := exLibs) (g := []) (m := .a) (S := fun c => c = exS3Start.bucket ∨ c = b')
    (op := .write (.obj [("b", .int 2)])) (exLibs_lawful _) (by decide) (show Json.IsObject _ from ⟨_, rfl, by decide⟩)
    (fun c hc => by
      rcases hc with rfl | rfl
      · exact ⟨_, _, _, exS3Start_history, rfl⟩
      · exact ⟨_, _, _, h2, rfl⟩)
    (fun c c' hc hc' => (hone c hc).trans (hone c' hc').symm)
    [{}, {}, { change := fun _ => b' }, {}, {}, {}, {}] exS3Start.bucket (fun e he => by
      simp only [List.mem_cons, List.not_mem_nil, or_false] at he
      rcases he with rfl | rfl | rfl | rfl | rfl | rfl | rfl <;> exact ⟨rfl, (fun _ h => by cases h), Nat.zero_lt_succ 999⟩)
    hst with ⟨r, es', c, hc, c', g1, ⟨_, _, g2⟩ | ⟨g2, _⟩⟩ | ⟨c, _, g⟩
  · rw [hr] at g1
    cases g1
    rcases hst c hc with rfl | rfl
    · exact ⟨_, g2 _ _ _ exS3Start_history rfl, Container.put_self _ _ _, .inl rfl⟩
    · exact ⟨_, g2 _ _ _ h2 rfl, Container.put_self _ _ _, .inr ⟨_, rfl⟩⟩
  · rw [hr] at g1
    rw [g2] at g1
    cases g1
  · rw [hr] at g
    cases g

/-- The hypotheses of `c99_array` hold: an array `d` was created; an attribute of it is set while others set one of the root. -/
example : ∃ (o : S3DatasetObj) (b₁ b₂ : Bucket) (A : AttrMap) (T : Tree exTypes), A "a" = some (.int 1) ∧
    S3History exS3C exLibs exTypes T [(["d"], o)] b₂ ∧ T [] = some (.group A) ∧
    ((S3Target.dataset ⟨o.name, o.obj.handle⟩).change (.write (.obj [("b", .int 2)]))).Edits (fun b => b = b₁ ∨ b = b₂) fun _ b b' =>
      ∀ (T : Tree exTypes) os x, S3History exS3C exLibs exTypes T os b → T ["d"] = some (.array x) → (["d"], o) ∈ os →
        S3History exS3C exLibs exTypes (T.put ["d"] (.array { x with attrs := (AttrOp.write (.obj [("b", .int 2)])).apply x.attrs })) os b' := by
  have hd : ∀ n ∈ ["d"], NodeName n := by unfold NodeName PlainName; decide
  have c1 := (c79_create_array (exLibs_lawful _) exS3Start_history (g := []) (key := ["d"]) ⟨_, rfl⟩ (by decide) hd
    (fun q _ _ a e => by
      by_cases hq : q = []
      · rw [hq] at e; cases e
      · rw [if_neg hq] at e; cases e) exS3Item_asked (by decide) .a).2.2 (by decide) rfl
  obtain ⟨o, b₁, m1, _, _, _, h1⟩ : ∃ o b, _ := by
    rcases c1 (List.replicate 15 {}) (exS3_calm 15) with ⟨o1, es', b1, _, _, _, h⟩ | ⟨_, _, _, _, e, he, k, hk⟩ | ⟨h, _⟩
    · exact ⟨o1, b1, h⟩
    · rw [List.eq_of_mem_replicate he] at hk
      exact absurd rfl hk
    · simp at h
  obtain ⟨b₂, e2, h2⟩ := ((c79_group_attributes (exLibs_lawful _) h1 (g := []) rfl .a).2 (.write (.obj [("a", .int 1)]))
    (show Json.IsObject _ from ⟨_, rfl, by decide⟩)).2 (by decide)
  obtain ⟨b₃, e3, e4, _⟩ := (c56_change (t := exS3C.attrsOf [] .a) (L := exS3C.layout) (op := .write (.obj [("a", .int 1)])) rfl
    (((S3Container.inv_of_history (exLibs_lawful _) h1).group [] _ rfl).refers .a)
    (show Json.IsObject _ from ⟨_, rfl, by decide⟩)).2 rfl
  have e5 := does_unique e2 e3
  subst e5
  have hdoc : b₁.get (docKey (exS3C.key ["d"]) exS3C.layout.file) = b₂.get (docKey (exS3C.key ["d"]) exS3C.layout.file) :=
    (e4.objects _ (by decide +kernel)).symm
  refine ⟨o, b₁, b₂, _, _, rfl, h2, Container.put_self _ _ _, c99_array (exLibs_lawful _) (by rw [m1]; decide)
    (show Json.IsObject _ from ⟨_, rfl, by decide⟩) (fun b hb => ?_) fun b b' hb hb' => ?_⟩
  · rcases hb with rfl | rfl
    · exact ⟨_, _, _, h1, rfl, List.mem_singleton.2 rfl⟩
    · exact ⟨_, _, _, h2, rfl, List.mem_singleton.2 rfl⟩
  · rcases hb with rfl | rfl <;> rcases hb' with rfl | rfl
    · rfl
    · exact hdoc
    · exact hdoc.symm
    · rfl

/-- the shape of the object of an outcome -/
def s3ShapeOf : Option (Res S3DatasetObj) → List Nat
  | some (.ok o) => o.obj.info.shape
  | _ => []

/-- **C99: two clients create the same dataset.**  Before the last request of a call that creates a dataset, another client creates one of the same
name and another shape.  Both calls return an object, and the document says what the first call was asked for: the other client has an object
of another shape than that of the dataset. -/
theorem c99_create_counterexample : ∃ (a a' : CreateArgs) (b : Bucket) (es : List Event), (∀ e ∈ es, e.Answers) ∧
    let other := exS3Root.createDataset "d".toList a' ⟨List.replicate 7 {}, b⟩
    (∀ b' ∈ statesOf es b, b' = b ∨ b' = other.2.bucket) ∧ s3ShapeOf other.1 = [9, 9] ∧
    let w := exS3Root.createDataset "d".toList a ⟨es, b⟩
    s3ShapeOf w.1 = [5, 4] ∧ s3ShapeOf (exS3Root.openDataset "d".toList ⟨List.replicate 10 {}, w.2.bucket⟩).1 = [5, 4] := by
  refine ⟨exArgs, { exArgs with shape := [9, 9] }, exS3Zarr,
    [{}, {}, { change := fun _ => (exS3Root.createDataset "d".toList { exArgs with shape := [9, 9] } ⟨List.replicate 7 {}, exS3Zarr⟩).2.bucket }],
    fun e he => ?_, fun b' hb' => ?_, by decide +kernel, by decide +kernel, by decide +kernel⟩
  · simp only [List.mem_cons, List.not_mem_nil, or_false] at he
    rcases he with rfl | rfl | rfl <;> exact ⟨rfl, (fun _ h => by cases h), by decide⟩
  · simp only [statesOf, List.mem_cons, List.not_mem_nil, or_false] at hb'
    rcases hb' with h | h | h | h <;> first | exact .inl h | exact .inr h

/-- The hypotheses of `c99_create_group` and `c99_create_dataset` hold: meanwhile others change the attributes of the root. -/
example : let S : Bucket → Prop := fun b => b = exS3Zarr ∨ b = ("f/.zattrs".toList, .doc (.obj [("b", .int 2)])) :: exS3Zarr
    ((exS3Root.createGroup "h".toList 2).Edits S fun _ b b' =>
      b.NewNode b' "f/h".toList ".zgroup" (.obj [("zarr_format", .int 2)])) ∧
    ∃ j, exS3Ds.obj.info.toJson = .ok j ∧ (exS3Root.createDataset "d".toList exArgs).Edits S fun o b b' => o = exS3Ds ∧
      b.NewNode b' "f/d".toList ".zarray" j := by
  intro S
  have hroot : ∃ m ∈ [".zgroup", "zarr.json"], ∀ b, S b → (b.get (docKey exS3Root.name m)).isSome = true :=
    ⟨".zgroup", by simp, fun b hb => by rcases hb with rfl | rfl <;> decide +kernel⟩
  have hS : ∀ n ∈ ["h".toList, "d".toList], ∀ b, S b → ¬ b.Exists (joinKey exS3Root.name n) := fun n hn b hb => by
    unfold Bucket.Exists
    simp only [List.mem_cons, List.not_mem_nil, or_false] at hn
    rcases hb with rfl | rfl <;> rcases hn with rfl | rfl <;> decide +kernel
  exact ⟨c99_create_group (root := exS3Root) (key := "h".toList) (f := 2) (by decide) (.inl rfl) hroot (hS _ (by simp)),
    c99_create_dataset (root := exS3Root) (key := "d".toList) (a := exArgs) (ds := exS3Ds) (b₁ := exS3Zarr) (w := exS3Created) (exS3_calm 7)
      (S3M.run_eq (by decide +kernel)) (.inl rfl) hroot (hS _ (by simp))⟩

end Z5.Props
