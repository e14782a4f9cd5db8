import Verif.Proofs.Foreign
import Verif.Proofs.Container

/-!
# Using arrays of other programs (C83)
-/

namespace Z5
open Spec Props

variable {E : Elem} {p : Path} {La : Layout} {a : ArrayDesc}

theorem Json.path_congr {j j' : Json} {k : String} {l : List String} (h : j'.find k = j.find k) : j'.path (k :: l) = j.path (k :: l) := by
  unfold Json.path
  rw [h]

/-- What a document says does not depend on the attributes. -/
theorem Layout.Says.congr {j j' : Json} (h : La.Says j a)
    (hk : ∀ k, (La = .n5 → k ∈ n5DatasetKeys) → k ≠ "attributes" → j'.find k = j.find k) : La.Says j' a := by
  cases La with
  | v2 =>
    have h : ZarrV2.Describes j a := h
    have e : ∀ k, k ≠ "attributes" → j'.find k = j.find k := fun k => hk k nofun
    show ZarrV2.Describes j' a
    refine ⟨?_, ?_, ?_, ?_, ?_, ?_, ?_, ?_, ?_, h.noShards, h.encoding⟩ <;> rw [e _ (by decide)]
    · exact h.format
    · exact h.dtype
    · exact h.shape
    · exact h.chunks
    · exact h.order
    · exact h.filters
    · exact h.compression
    · exact h.fill
    · exact h.separator
  | v3 =>
    have h : ZarrV3.Describes j a := h
    have e : ∀ k, k ≠ "attributes" → j'.find k = j.find k := fun k => hk k nofun
    show ZarrV3.Describes j' a
    refine ⟨?_, ?_, ?_, ?_, ?_, ?_, ?_, ?_, ?_, ?_⟩ <;> first | rw [e _ (by decide)] | rw [Json.path_congr (e _ (by decide))]
    · exact h.format
    · exact h.node
    · exact h.dtype
    · exact h.shape
    · exact h.grid
    · exact h.gridShape
    · exact h.encoding
    · exact h.separator
    · exact h.fill
    · exact h.codecs
  | n5 =>
    have e : ∀ k, k ∈ n5DatasetKeys → k ≠ "attributes" → j'.find k = j.find k := fun k h => hk k fun _ => h
    rcases h with h | h
    · refine .inl ⟨?_, ?_, ?_, ?_, h.fill, h.noShards⟩ <;> rw [e _ (by decide) (by decide)]
      · exact h.dtype
      · exact h.shape
      · exact h.chunks
      · exact h.compression
    · refine .inr ⟨?_, ?_, ?_, ?_, ?_, h.fill, h.noShards⟩ <;> rw [e _ (by decide) (by decide)]
      · exact h.dtype
      · exact h.shape
      · exact h.chunks
      · exact h.noCompression
      · exact h.compression

/-- Changing the attributes keeps an array an array. -/
theorem Fs.HoldsArray.annotated {σ : Fs} {C : Codec} {fill : E.T} {A : List Nat → E.T} (h : σ.HoldsArray p La a E C fill A)
    (hn : σ.Node p La) {d : AnyDataset E} (hkey : d.IsKey = a.IsFile La) {dh : DatasetHandle} (hp : dh.path = p)
    (hc : dh.cache = some La.isZarr) {op : AttrOp} (hv : op.Valid) :
    ((Target.dataset dh).change op σ).2.HoldsArray p La a E C fill A ∧ ((Target.dataset dh).change op σ).2.Node p La := by
  cases hw : dh.mode.canWrite with
  | false =>
    have hm : dh.mode = .r := by
      revert hw
      cases dh.mode <;> decide
    have : ((Target.dataset dh).change op σ).2 = σ := (c31_container (op := .change (.dataset dh) op) hm σ).1
    rw [this]
    exact ⟨h, hn⟩
  | true =>
    obtain ⟨j, hj, hsay⟩ := h.document
    have hr : (Target.dataset dh).Refers σ La := by
      refine ⟨?_, ?_, ?_⟩
      · show σ.Node dh.path _
        rw [hp]
        exact hn
      · show dh.isZarr σ = _
        rw [dataset_isZarr, hc]
      · intro _ _ e
        show σ (dh.path ++ _) ≠ none
        rw [hp]
        subst e
        have := docAt_isSome hj
        intro e
        rw [show σ (p ++ [Layout.datasetFile .n5]) = none from e] at this
        cases this
    obtain ⟨c1, c2⟩ := c29_change (t := .dataset dh) hw hr hv
    cases hnm : op.names ((Target.dataset dh).locked La) with
    | true => rw [c1 hnm]; exact ⟨h, hn⟩
    | false =>
      obtain ⟨σ', e, ho, hr'⟩ := c2 hnm
      rw [e]
      have hpath : (Target.dataset dh).path = p := hp
      rw [hpath] at ho
      refine ⟨?_, ho.node⟩
      show σ'.HoldsArray p La a E C fill A
      have hf : MetaName La.file := by cases La <;> simp [MetaName, Layout.file]
      have hk : ∀ k, a.IsFile La k → ∀ q, q <+: chunkFile p k → p <+: q → σ' q = σ q := fun k hk q h1 h2 =>
        ho.files q (AnyDataset.IsKey.ne_meta (d := d) (by rw [hkey]; exact hk) hf h1 h2)
      have hpp : ∀ q, q <+: p → σ' q = σ q := fun q hq => ho.files q fun e => by
        have := hq.length_le
        rw [e] at this
        simp at this
        omega
      refine ⟨⟨?_, ?_, ?_⟩, ?_, ?_, ?_⟩
      · intro q hq
        rw [hpp q hq]
        exact h.tidy.above q hq
      · intro k hk'
        rw [hk k hk' _ (List.prefix_refl _) (by unfold chunkFile; exact List.prefix_append _ _)]
        exact h.tidy.files k hk'
      · intro k hk' q h1 h2 h3
        rw [hk k hk' q h2 h1]
        exact h.tidy.dirs k hk' q h1 h2 h3
      · cases La with
        | v2 =>
          refine ⟨j, ?_, hsay⟩
          rw [← hj]
          unfold Fs.docAt
          rw [ho.files _ (by simp [Layout.file, Layout.datasetFile])]
        | v3 =>
          obtain ⟨j', hj', _, _⟩ := ho.node.v3 rfl
          refine ⟨j', docAt_doc hj', hsay.congr fun k _ hne => ?_⟩
          have := ho.rest rfl k hne
          rw [docAt_doc hj', show σ.docAt (p ++ ["zarr.json"]) = some j from hj] at this
          exact this
        | n5 =>
          have hj : σ.docAt (p ++ ["attributes.json"]) = some j := hj
          have hne : σ' (p ++ ["attributes.json"]) ≠ none := ho.kept fun e => by
            have := docAt_isSome hj
            rw [show σ (p ++ ["attributes.json"]) = none from e] at this
            cases this
          obtain ⟨j', hj', _⟩ := ho.node.doc.resolve_left hne
          have hj' : σ' (p ++ ["attributes.json"]) = some (.doc j') := hj'
          refine ⟨j', docAt_doc hj', hsay.congr fun k hk _ => ?_⟩
          have h1 : σ'.attributes p .n5 k = _ := congrFun ho.attributes k
          rw [AttrOp.apply_of_not_names (h := hnm) (hk rfl)] at h1
          unfold Fs.attributes at h1
          dsimp only [Layout.file] at h1
          rw [docAt_doc hj', show σ.docAt (p ++ ["attributes.json"]) = some j from hj] at h1
          exact h1
      · intro n hn' hne
        by_cases e : n = La.file
        · subst e
          cases La with
          | v2 => simp [Layout.file] at hn'
          | v3 => exact absurd rfl hne
          | n5 => exact absurd rfl hne
        · rw [ho.files _ (by simpa using e)]
          exact h.others n hn' hne
      · have : σ'.chunks p = σ.chunks p := by
          funext k
          rw [chunks_eq, chunks_eq]
          by_cases e : chunkFile p k = p ++ [La.file]
          · rw [e]
            have e1 : contentOf (σ (p ++ [La.file])) = none := by
              rcases hn.doc with e | ⟨j, e, _⟩ <;> rw [e] <;> rfl
            have e2 : contentOf (σ' (p ++ [La.file])) = none := by
              rcases ho.node.doc with e | ⟨j, e, _⟩ <;> rw [e] <;> rfl
            rw [e1, e2]
          · rw [ho.files _ e]
        rw [this]
        exact h.elements

/-- What happens elsewhere does not matter. -/
theorem Fs.HoldsArray.elsewhere {σ σ' : Fs} {C : Codec} {fill : E.T} {A : List Nat → E.T} (h : σ.HoldsArray p La a E C fill A)
    (he : ∀ q, q <+: p ∨ p <+: q → σ' q = σ q) : σ'.HoldsArray p La a E C fill A where
  tidy := by
    refine ⟨fun q hq => ?_, fun k hk => ?_, fun k hk q h1 h2 h3 => ?_⟩
    · rw [he q (.inl hq)]; exact h.tidy.above q hq
    · rw [he _ (.inr (by unfold chunkFile; exact List.prefix_append _ _))]; exact h.tidy.files k hk
    · rw [he q (.inr h1)]; exact h.tidy.dirs k hk q h1 h2 h3
  document := by
    obtain ⟨j, h1, h2⟩ := h.document
    refine ⟨j, ?_, h2⟩
    rw [← h1]
    unfold Fs.docAt
    rw [he _ (.inr (List.prefix_append _ _))]
  others n hn hne := by
    rw [he _ (.inr (List.prefix_append _ _))]; exact h.others n hn hne
  elements := by
    have : σ'.chunks p = σ.chunks p := by
      funext k
      rw [chunks_eq, chunks_eq, he _ (.inr (by unfold chunkFile; exact List.prefix_append _ _))]
    rw [this]
    exact h.elements

/-- What an open object has to do with the array, with what the proofs need -/
structure ArrayObj (L : Libs) (elem : FillVal → E.T) (p : Path) (La : Layout) (a : ArrayDesc) (v : FillVal) (o : DatasetObj)
    (d : AnyDataset E) : Prop where
  stands : o.StandsFor d L elem a p o.handle.mode
  cache : o.handle.cache = some La.isZarr
  fill : d.base.fill = elem v
  codec : d.base.codec = L.codec E.size a.compression
  key : d.IsKey = a.IsFile La
  files : ∀ S A, d.Files S A ↔ a.IsStored La E (L.codec E.size a.compression) (elem v) S A
  shards : ∀ sd, d = .sharded sd → a.shards ≠ []
  names : getChunkKey d.base.key = a.fileName La
  part : d.fileShape = a.part

theorem SameOrFill.trans {T : Type} {eq : T → T → Bool} {f x y z : T} (h1 : SameOrFill eq f x y) (h2 : SameOrFill eq f y z) :
    SameOrFill eq f x z := by
  rcases h1 with rfl | ⟨e, rfl⟩
  · exact h2
  · rcases h2 with rfl | ⟨e', rfl⟩
    · exact .inr ⟨e, rfl⟩
    · exact .inr ⟨e', rfl⟩

theorem sameOrFill_replay {T : Type} {eq : T → T → Bool} {f : T} {x : List Nat} : ∀ (ws : List (Write T)) {A B : List Nat → T},
    SameOrFill eq f (A x) (B x) → SameOrFill eq f (replay A ws x) (replay B ws x)
  | [], _, _, h => h
  | w :: ws, A, B, h => by
    refine sameOrFill_replay ws (A := override A w.off w.shape w.val) (B := override B w.off w.shape w.val) ?_
    unfold override
    split
    · exact .inl rfl
    · exact h

variable {L : Libs} {elem : FillVal → E.T} {x : Dbl} {v : FillVal} {A : List Nat → E.T} {σ₀ σ : Fs} {os : List DatasetObj}
  {ws : List (Write E.T)}

theorem Uses.effect (hL : L.Lawful) (hs : a.Supported La E.size) (hx : a.fill = some x) (hv : a.dtype.castFill x = .ok v)
    (h : σ₀.HoldsArray p La a E (L.codec E.size a.compression) (elem v) A) (hn : σ₀.Node p La)
    (hu : Uses L elem p La σ₀ os ws σ) :
    (∃ A', σ.HoldsArray p La a E (L.codec E.size a.compression) (elem v) A' ∧
      ∀ y, InBox y a.shape → SameOrFill E.ceq (elem v) (A' y) (replay A ws y)) ∧
    σ.Node p La ∧ ∀ o ∈ os, ∃ d, ArrayObj L elem p La a v o d := by
  induction hu with
  | start => exact ⟨⟨A, h, fun _ _ => .inl rfl⟩, hn, fun o ho => by cases ho⟩
  | opened _ hp hz ho ih =>
    obtain ⟨⟨A', i1, i2⟩, i3, i4⟩ := ih
    obtain ⟨o', d', h1, h2, h3, h4, h5, h6, h7, h8, h9, h10, h11, h12, h13, h14, h15, h16⟩ :=
      document_open hL (i1.tidy.above p (List.prefix_refl _)) i1.document i1.others hs hx hv hp hz
    rw [h1] at ho
    cases ho
    refine ⟨⟨A', i1, i2⟩, i3, fun o ho => ?_⟩
    rcases List.mem_cons.1 ho with rfl | ho
    · exact ⟨d', ⟨h6, h2, rfl, h4.dtype, h4.shape, h4.chunks, h4.shards, h7, h8, h9, h10, by rw [h3]; exact h13⟩, h5.2, h11, h12, h14, h15, h16.1, h16.2.1, h16.2.2⟩
    · exact i4 o ho
  | closed _ hsub ih =>
    obtain ⟨i1, i3, i4⟩ := ih
    exact ⟨i1, i3, fun o ho => i4 o (hsub o ho)⟩
  | @wrote os ws σ σ' o d w _ ho hw ht hp ih =>
    obtain ⟨⟨A', i1, i2⟩, i3, i4⟩ := ih
    obtain ⟨d', g⟩ := i4 o ho
    have e := g.stands.typed
    rw [ht] at e
    cases e
    have hwr : d.base.canWrite = true := g.stands.base.2.2.trans hw
    have hfiles := g.files
    rw [← g.codec, ← g.fill] at i1 hfiles ⊢
    obtain ⟨A'', k1, k2⟩ := i1.does g.stands.wf g.stands.plain hwr g.stands.base.1 g.key hfiles (.step .nil hp)
    refine ⟨⟨A'', k1, fun y hy => ?_⟩, ?_, i4⟩
    · rw [replay_append]
      refine (k2 y hy).trans (sameOrFill_replay [w] ?_)
      rw [g.fill]
      exact i2 y hy
    · have := (AnyDataset.Does.effect g.stands.wf g.stands.plain hwr (AnyDataset.Does.step .nil hp) (g.key ▸ i1.tidy)).2.1
      exact i3.congr ((k1.tidy.above p (List.prefix_refl _)).trans (i1.tidy.above p (List.prefix_refl _)).symm) this
  | annotated _ ho hv ih =>
    obtain ⟨⟨A', i1, i2⟩, i3, i4⟩ := ih
    obtain ⟨d', g⟩ := i4 _ ho
    obtain ⟨k1, k2⟩ := i1.annotated i3 g.key g.stands.path g.cache hv
    exact ⟨⟨A', k1, i2⟩, k2, i4⟩
  | elsewhere _ he ih =>
    obtain ⟨⟨A', i1, i2⟩, i3, i4⟩ := ih
    exact ⟨⟨A', i1.elsewhere he, i2⟩, i3.congr (he p (.inl (List.prefix_refl _))) fun n _ => he _ (.inr (List.prefix_append _ _)), i4⟩

end Z5
