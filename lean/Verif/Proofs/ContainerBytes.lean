import Verif.Proofs.ContainerHist
import Verif.Props.Foreign

/-!
# What a container is, byte by byte (for C85)
-/

namespace Z5
open Spec

variable {E : Elem} {p : Path} {L : Libs} {elem : FillVal → E.T} {o₀ : DatasetObj} {d₀ : AnyDataset E}

/-- what the document of a created array says, now and later -/
structure Stated (L : Libs) (elem : FillVal → E.T) (o₀ : DatasetObj) (d₀ : AnyDataset E) (a : ArrayDesc) (f : Dbl) : Prop where
  dtype : a.dtype = o₀.info.dtype
  shape : a.shape = o₀.info.shape
  chunks : a.chunks = o₀.info.chunkShape
  shards : a.shards = o₀.info.shardShape
  fill : a.fill = some f
  cast : a.dtype.castFill f = .ok o₀.fill
  separator : o₀.info.isZarr = true → a.separator = o₀.info.delimiter
  alike : d₀.base.Alike d₀.base.key (L.codec E.size a.compression)
  keys : d₀.IsKey = a.IsFile o₀.layout
  files : ∀ S A, (d₀.variant d₀.base.key (L.codec E.size a.compression) d₀.base.canWrite).Files S A ↔
    a.IsStored o₀.layout E (L.codec E.size a.compression) (elem o₀.fill) S A
  part : d₀.fileShape = a.part
  names : getChunkKey d₀.base.key = a.fileName o₀.layout

theorem Stated.holds {a : ArrayDesc} {f : Dbl} (h : Stated L elem o₀ d₀ a f) (hd : o₀.typed L elem = .ok d₀) (hwf : d₀.WF) {m : Meta}
    {cfg : ChunkConfig} {S : List Nat → E.T} {σ : Fs} (hc : Carries p o₀ m cfg d₀ S σ)
    (hdoc : ∃ j, σ.docAt (p ++ [o₀.layout.datasetFile]) = some j ∧ o₀.layout.Says j a)
    (hoth : ∀ n ∈ [".zarray", "zarr.json", "attributes.json"], n ≠ o₀.layout.datasetFile → σ (p ++ [n]) = none) :
    ∃ A, σ.HoldsArray p o₀.layout a E (L.codec E.size a.compression) (elem o₀.fill) A ∧
      ∀ y, InBox y a.shape → SameOrFill E.ceq (elem o₀.fill) (A y) (S y) := by
  obtain ⟨f1, f2, f3, f4, f5, f6⟩ := typed_fields hd
  obtain ⟨A, v1, v2⟩ := AnyDataset.Holds.files (AnyDataset.variant_wf h.alike hwf)
    ((AnyDataset.variant_holds (w := d₀.base.canWrite) h.alike).2 hc.holds)
  rw [AnyDataset.variant_base] at v2
  refine ⟨A, ⟨by rw [← h.keys]; exact hc.tidy, hdoc, hoth, (h.files _ _).1 v1⟩, fun y hy => ?_⟩
  rw [← f2]
  refine v2 y ?_
  show InBox y d₀.base.shape
  rw [f4, ← h.shape]
  exact hy

/-- An array that the library created is, in every state, one that its document describes. -/
theorem Sessions.stated (hL : L.LawfulFor (prod d₀.base.chunkShape * E.size)) (hdesc : o₀.Describable)
    (hd : o₀.typed L elem = .ok d₀) (hwf : d₀.WF) (hk : d₀.PlainKeys) {os : List DatasetObj} {ws : List (Write E.T)} {σ : Fs}
    (h : Sessions L elem p o₀ os ws σ) :
    ∃ a f, Stated L elem o₀ d₀ a f ∧ (∃ j, σ.docAt (p ++ [o₀.layout.datasetFile]) = some j ∧ o₀.layout.Says j a) ∧
      ∀ n ∈ [".zarray", "zarr.json", "attributes.json"], n ≠ o₀.layout.datasetFile → σ (p ++ [n]) = none := by
  have keep : ∀ {σ σ' : Fs} {a : ArrayDesc}, (∀ n, MetaName n → σ' (p ++ [n]) = σ (p ++ [n])) →
      ((∃ j, σ.docAt (p ++ [o₀.layout.datasetFile]) = some j ∧ o₀.layout.Says j a) ∧
        ∀ n ∈ [".zarray", "zarr.json", "attributes.json"], n ≠ o₀.layout.datasetFile → σ (p ++ [n]) = none) →
      (∃ j, σ'.docAt (p ++ [o₀.layout.datasetFile]) = some j ∧ o₀.layout.Says j a) ∧
        ∀ n ∈ [".zarray", "zarr.json", "attributes.json"], n ≠ o₀.layout.datasetFile → σ' (p ++ [n]) = none := by
    intro σ σ' a hm ⟨⟨j, h1, h2⟩, h3⟩
    refine ⟨⟨j, ?_, h2⟩, fun n hn hne => ?_⟩
    · rw [← h1]
      unfold Fs.docAt
      rw [hm _ (datasetFile_meta _)]
    · rw [hm n (other_meta hn)]
      exact h3 n hn hne
  induction h with
  | @created root key args σ σ' hσ hp hc =>
    subst hp
    obtain ⟨z, m, j, h0, hr, hm, rfl, hmk, hh, hj, hn⟩ := GroupHandle.createDataset_ok hσ hc
    have hkey : o₀.keyCfg = ⟨z, args.delimiter.toList, args.zarrFormat.toNat, args.encoding.toList⟩ := by
      unfold DatasetObj.keyCfg
      rw [hh]
      rfl
    obtain ⟨a, x, hsays, a1, a2, a3, a4, a5, a6, hal, q1, q2, q3, q4, q5⟩ := created_object hm hmk hkey hj hdesc hL hd
    have hfile := datasetFile_eq o₀
    refine ⟨a, x, ⟨a1, a2, a3, a4, a5, a6, q3, hal, q1, q2, q4, q5⟩, ⟨j, ?_, hsays⟩, fun n hn' hne => ?_⟩
    · unfold Fs.docAt
      rw [hn.docs, ← hfile, if_pos rfl]
      rfl
    · rw [hn.docs, if_neg (by rw [hfile]; exact hne)]
      rfl
  | @opened root key os ws σ σ' o hs hp hz ho ih =>
    obtain ⟨a, f, h1, h2⟩ := ih
    obtain ⟨m, cfg, g1, g2, g3⟩ := hs.carries hL hdesc hd hwf hk
    have hσ : σ' = σ := by
      subst hp
      have hroot : ∃ z, root.isZarr σ = (.ok z, σ) := by
        rw [group_isZarr, g2.tidy.above _ (List.prefix_append _ _)]
        exact ⟨_, rfl⟩
      obtain ⟨z, hz'⟩ := hroot
      have hi : z = false → cfg = ChunkConfig.initial := fun e => g1.initial (by
        cases hzz : o₀.info.isZarr with
        | false => rfl
        | true =>
          have := hz hzz
          rw [hz', e] at this
          cases this)
      rw [openDataset_run hz' (g2.tidy.above _ (List.prefix_refl _)) (fun _ => g2.names) hi g2.info] at ho
      exact (Prod.mk.inj ho).2.symm
    subst hσ
    exact ⟨a, f, h1, h2⟩
  | closed _ hs ih => exact ih
  | @wrote os ws σ σ' o d w hs ho hw hty hp ih =>
    obtain ⟨a, f, h1, h2⟩ := ih
    obtain ⟨m, cfg, g1, g2, g3⟩ := hs.carries hL hdesc hd hwf hk
    obtain ⟨t1, t2, _, _⟩ := (g3 o ho).typed g1.self g1.shard hL hd
    rw [t1] at hty
    have hty := Res.ok.inj hty
    subst hty
    have hcan : (d₀.variant o.keyCfg (L.codec E.size o.settings) o.handle.mode.canWrite).base.canWrite = true := by
      rw [AnyDataset.variant_base]
      exact hw
    obtain ⟨p1, p2, p3⟩ := hp.effect (AnyDataset.variant_wf t2 hwf) (AnyDataset.variant_plainKeys t2 hk) hcan
      (by rw [AnyDataset.variant_isKey t2]; exact g2.tidy)
    exact ⟨a, f, h1, keep (fun n hn => AnyDataset.onlyChunks_meta p2 hn) h2⟩
  | @annotated os ws σ o op hs ho hv ih =>
    obtain ⟨a, f, h1, h2⟩ := ih
    obtain ⟨m, cfg, g1, g2, g3⟩ := hs.carries hL hdesc hd hwf hk
    obtain ⟨A, e1, _⟩ := h1.holds hd hwf g2 h2.1 h2.2
    have hs := g3 o ho
    obtain ⟨r, _⟩ := e1.annotated (d := d₀) g2.node h1.keys hs.path (by rw [hs.cache, hs.isZarr, DatasetObj.layout_isZarr]) hv
    exact ⟨a, f, h1, r.document, r.others⟩
  | elsewhere _ he ih =>
    obtain ⟨a, f, h1, h2⟩ := ih
    exact ⟨a, f, h1, keep (fun n hn => he _ (.inr (List.prefix_append _ _))) h2⟩

/-! ### Bytes -/

namespace RawFs.Stores

variable {R : RawFs} {σ : Fs} {q : Path}

theorem none (h : R.Stores σ) (e : σ q = none) : R q = none := by
  have := h q
  rw [e] at this
  exact this

theorem dir (h : R.Stores σ) (e : σ q = some .dir) : R q = some .dir := by
  have := h q
  rw [e] at this
  exact this

theorem text (h : R.Stores σ) {j : Json} (e : σ q = some (.doc j)) : R.HasText q j := by
  have := h q
  rw [e] at this
  exact this

theorem exist (h : R.Stores σ) (e : R q ≠ .none) : σ q ≠ .none := fun e' => e (h.none e')

theorem notDir (h : R.Stores σ) (e : isDirectory (σ q) = false) : R q ≠ some .dir := by
  intro e'
  have := h q
  cases hq : σ q with
  | none => rw [hq] at this; rw [show R q = .none from this] at e'; cases e'
  | some y =>
    rw [hq] at this e
    cases y with
    | dir => cases e
    | file b => rw [show R q = some (.file b) from this] at e'; cases e'
    | doc j =>
      obtain ⟨bom, t, _, _, hc⟩ := this
      unfold RawFs.content at hc
      rw [e'] at hc
      cases hc

theorem attributes (h : R.Stores σ) {p : Path} {La : Layout} (hn : σ.Node p La) : R.HasAttributes p La (σ.attributes p La) := by
  have hplain : ∀ La : Layout, La ≠ .v3 → (σ (p ++ [La.file]) = .none ∨ ∃ j, σ (p ++ [La.file]) = some (.doc j) ∧ j.IsObject) →
      (R (p ++ [La.file]) = .none ∧ σ.attributes p La = fun _ => .none) ∨
        ∃ j, R.HasText (p ++ [La.file]) j ∧ j.IsObject ∧ σ.attributes p La = j.find := by
    intro La hLa hd
    have ha : σ.attributes p La = fun k => (σ.docAt (p ++ [La.file])).bind (·.find k) := by
      cases La <;> first | rfl | exact absurd rfl hLa
    rw [ha]
    rcases hd with e | ⟨j, e, hj⟩
    · refine .inl ⟨h.none e, ?_⟩
      unfold Fs.docAt
      rw [e]
      rfl
    · refine .inr ⟨j, h.text e, hj, ?_⟩
      rw [docAt_doc e]
      rfl
  cases La with
  | v2 => exact hplain .v2 (fun e => by cases e) hn.doc
  | n5 => exact hplain .n5 (fun e => by cases e) hn.doc
  | v3 =>
    obtain ⟨j, hj, _, ho⟩ := hn.v3 rfl
    refine ⟨j, h.text hj, ?_⟩
    have ha : σ.attributes p .v3 = fun k => (j.find "attributes").bind (·.find k) := by
      unfold Fs.attributes
      simp only
      rw [docAt_doc hj]
      rfl
    rw [ha]
    cases e : j.find "attributes" with
    | none => exact .inl ⟨rfl, rfl⟩
    | some b => exact .inr ⟨b, rfl, ho b e, rfl⟩

/-- what tells it from a group -/
theorem noGroup (h : R.Stores σ) {p : Path} {La : Layout} (hk : σ.NotGroup p La) {a : ArrayDesc} {j : Json}
    (hj : σ.docAt (p ++ [La.datasetFile]) = some j) (hsay : La.Says j a) : R.NoGroup p La := by
  cases La with
  | v2 => exact h.none hk
  | v3 => trivial
  | n5 =>
    intro j' hj'
    have hv : σ (p ++ ["attributes.json"]) = some (.doc j) := by
      revert hj
      unfold Fs.docAt
      cases h' : σ (p ++ [Layout.datasetFile .n5]) with
      | none => intro e; cases e
      | some y =>
        cases y with
        | doc j' => intro e; cases e; exact h'
        | _ => intro e; cases e
    have e1 := (h.text hv).view (by decide)
    rw [hj'.view (by decide)] at e1
    have e1 : some (Entry.doc j') = some (.doc j) := e1
    cases e1
    have hk : ((n5DatasetKeys.filter fun k => (σ.attributes p .n5 k).isSome).length == 4) = true := hk
    have ha : ∀ k, σ.attributes p .n5 k = j.find k := by
      intro k
      unfold Fs.attributes
      simp only [Layout.file]
      rw [docAt_doc hv]
      rfl
    simp only [ha] at hk
    cases e2 : j.find "compression" with
    | none => exact .inl rfl
    | some c =>
      cases e3 : j.find "compressionType" with
      | none => exact .inr rfl
      | some t =>
        have f1 : (j.find "dimensions").isSome = true ∧ (j.find "blockSize").isSome = true ∧ (j.find "dataType").isSome = true := by
          rcases hsay with hh | hh
          · obtain ⟨s, _, hs⟩ := hh.dtype
            rw [show j.find "dimensions" = _ from hh.shape, show j.find "blockSize" = _ from hh.chunks, show j.find "dataType" = _ from hs]
            exact ⟨rfl, rfl, rfl⟩
          · obtain ⟨s, _, hs⟩ := hh.dtype
            rw [show j.find "dimensions" = _ from hh.shape, show j.find "blockSize" = _ from hh.chunks, show j.find "dataType" = _ from hs]
            exact ⟨rfl, rfl, rfl⟩
        unfold n5DatasetKeys at hk
        simp [f1.1, f1.2.1, f1.2.2, e2, e3] at hk

end RawFs.Stores

namespace Container

variable {Ty : ElemTypes} {C : Container} {T : Tree Ty} {os : List (Path × DatasetObj)} {σ : Fs} {R : RawFs}

theorem GroupAt.bytes {p : Path} {A : AttrMap} (h : C.GroupAt σ p A) (hC : C.Ok) (hR : R.Stores σ) :
    R.HoldsGroup (C.root ++ p) C.layout A where
  dir := hR.dir h.node.dir
  attributes := by rw [← h.attrs]; exact hR.attributes h.node
  document := by
    have hk := h.kind
    have hn := h.node
    have ha := h.attrs
    unfold GroupKind at hk
    cases e : C.layout with
    | v2 =>
      rw [e] at hk hn
      obtain ⟨j, h1, h2⟩ := hk
      have hf' : C.format = 2 := by
        have hz : C.isZarr = true := by rw [← layout_isZarr, e]; rfl
        rcases hC hz with e' | e'
        · exact e'
        · unfold layout at e; rw [hz, e'] at e; cases e
      rw [hf'] at h2
      exact ⟨hR.none (hn.v2 rfl), j, hR.text h1, h2⟩
    | v3 =>
      rw [e] at hk
      obtain ⟨j, h1, h2, h3⟩ := hk
      exact ⟨j, hR.text h1, h3, h2⟩
    | n5 =>
      rw [e] at hk ha
      refine ⟨hR.none hk.1, hR.none hk.2.1, fun k hk' => ?_⟩
      rw [← ha]
      exact hk.2.2 k hk'

/-- what is stored of an array -/
structure ArrayHolds (C : Container) (L : Libs) (σ : Fs) (p : Path) (x : ArrayItem Ty) (a : ArrayDesc)
    (A : List Nat → (Ty.elem x.dtype).T) : Prop where
  is : x.IsDescribed a C.layout
  holds : σ.HoldsArray (C.root ++ p) C.layout a (Ty.elem x.dtype) (L.codec (Ty.elem x.dtype).size a.compression) x.fill A
  kind : σ.NotGroup (C.root ++ p) C.layout
  node : σ.Node (C.root ++ p) C.layout
  attrs : ∃ dh : DatasetHandle, (Target.dataset dh).shown C.layout (σ.attributes (C.root ++ p) C.layout) = x.attrs

theorem ArrayAt.holds (hL : L.Lawful) {p : Path} {x : ArrayItem Ty} (h : C.ArrayAt L os σ p x) :
    ∃ a A, (∀ y, InBox y x.shape → SameOrFill (Ty.elem x.dtype).ceq x.fill (A y) (x.content y)) ∧ C.ArrayHolds L σ p x a A ∧
      ∀ o, (p, o) ∈ os → ∀ d, o.typed L (Ty.cast x.dtype) = .ok d → d.IsKey = a.IsFile C.layout ∧
        ∀ c, d.fileKey c = a.fileName C.layout c := by
  rcases h with ⟨o₀, d₀, os', ws, h⟩ | ⟨σ₀, a, A₀, os', ws, h⟩
  · obtain ⟨a, f, s, ⟨j, hj, hsay⟩, hoth⟩ := h.sessions.stated (h.is.law hL) h.is.desc h.is.typed h.is.wf h.is.keys
    obtain ⟨m, cfg, c1, c2, c3⟩ := h.sessions.carries (h.is.law hL) h.is.desc h.is.typed h.is.wf h.is.keys
    obtain ⟨A, e1, e2⟩ := s.holds h.is.typed h.is.wf c2 ⟨j, hj, hsay⟩ hoth
    have hs := h.is.supported a s.shape s.chunks s.shards s.separator
    have hf : d₀.base.fill = x.fill := by
      obtain ⟨f1, f2, f3, f4, f5, f6⟩ := typed_fields h.is.typed
      rw [f2]
      exact h.is.fill
    have hk := c2.kind
    have hn := c2.node
    rw [hf, h.content] at e2
    rw [h.is.fill] at e1 e2
    rw [h.is.layout] at e1 hk hn
    refine ⟨a, A, fun y hy => e2 y (by rw [s.shape, h.is.shape]; exact hy), ⟨⟨s.dtype.trans h.is.dtype, s.shape.trans h.is.shape,
      s.chunks.trans h.is.chunks, ?_, ⟨f, o₀.fill, s.fill, ?_, h.is.fill.symm⟩, hs, ?_⟩, e1, hk, hn, ⟨_, h.attrs⟩⟩, fun o ho d hd => ?_⟩
    · rw [s.shards]; exact h.is.sharding
    · rw [← h.is.dtype, ← s.dtype]; exact s.cast
    · have := h.is.fit
      obtain ⟨f1, f2, f3, f4, f5, f6⟩ := typed_fields h.is.typed
      rw [f4, f5, h.is.shape, h.is.chunks] at this
      exact this
    · obtain ⟨t1, t2, t3, t4⟩ := (c3 o (h.objects o ho)).typed c1.self c1.shard (h.is.law hL) h.is.typed
      rw [t1] at hd
      have hd := Res.ok.inj hd
      subst hd
      refine ⟨by rw [AnyDataset.variant_isKey t2, s.keys, h.is.layout], fun c => ?_⟩
      rw [← h.is.layout, ← s.names]
      unfold AnyDataset.fileKey
      rw [AnyDataset.variant_base]
      exact t2.keys c
  · obtain ⟨f, v, e⟩ := h.now hL
    obtain ⟨A, e1, e2⟩ := e.holds
    rw [← e.value] at e1
    refine ⟨a, A, e2, ⟨h.is, e1, h.kind, e.node, ⟨⟨[], .r, "", 2, "", none⟩, h.attrs _⟩⟩, fun o ho d hd => ?_⟩
    obtain ⟨d', g⟩ := e.objects o (h.objects o ho)
    have := g.stands.typed
    rw [hd] at this
    cases this
    exact ⟨g.key, fun c => congrFun g.names c⟩

theorem ArrayHolds.bytes {p : Path} {x : ArrayItem Ty} {a : ArrayDesc} {A : List Nat → (Ty.elem x.dtype).T} (h : C.ArrayHolds L σ p x a A)
    (hR : R.Stores σ) :
    R.HoldsArray (C.root ++ p) C.layout a (Ty.elem x.dtype) (L.codec (Ty.elem x.dtype).size a.compression) x.fill A ∧
    R.NoGroup (C.root ++ p) C.layout ∧ ∃ B, R.HasAttributes (C.root ++ p) C.layout B ∧
    ∀ k, x.attrs k = if C.layout = .n5 ∧ k ∈ ["dimensions", "blockSize", "dataType", "compressionType", "compression"] then none
      else B k := by
  have hshown : ∀ dh : DatasetHandle, (Target.dataset dh).shown C.layout (σ.attributes (C.root ++ p) C.layout) = x.attrs → ∀ k,
      x.attrs k = if C.layout = .n5 ∧ k ∈ ["dimensions", "blockSize", "dataType", "compressionType", "compression"] then none
      else σ.attributes (C.root ++ p) C.layout k := by
    intro dh e k
    rw [← e]
    unfold Target.shown
    cases e : C.layout with
    | v2 => simp [Target.hidden]
    | v3 => simp [Target.hidden]
    | n5 => simp [Target.hidden]
  obtain ⟨j, hj, hsay⟩ := h.holds.document
  obtain ⟨dh, hdh⟩ := h.attrs
  exact ⟨Props.c83_bytes h.holds h.is.supported hR, hR.noGroup h.kind hj hsay, _, hR.attributes h.node, hshown dh hdh⟩

/-- the bytes of files with the groups and arrays of a tree -/
theorem bytes_of (hC : C.Ok) (hwf : σ.WF) (htop : ∃ A, T [] = some (.group A) ∧ (C.isZarr = false → N5Version A))
    (hclosed : ∀ p n, T (p ++ [n]) ≠ none → T.IsGroup p) (hnames : ∀ p n, T (p ++ [n]) ≠ none → PlainName n)
    (hgr : ∀ p A, T p = some (.group A) → C.GroupAt σ p A)
    (hknown : ∀ p n, T.IsGroup p → T (p ++ [n]) = none →
      isDirectory (σ (C.root ++ (p ++ [n]))) = false ∧ (PlainName n → σ (C.root ++ (p ++ [n])) = none))
    {Q : (p : Path) → (x : ArrayItem Ty) → (List Nat → (Ty.elem x.dtype).T) → Prop}
    (harr : ∀ p x, T p = some (.array x) → ∃ a A, Q p x A ∧ C.ArrayHolds L σ p x a A) (hR : R.Stores σ) :
    ∃ T' : Tree Ty, (∀ p, match T p with
        | none => T' p = none
        | some (.group A) => T' p = some (.group A)
        | some (.array x) => ∃ A, T' p = some (.array { x with content := A }) ∧ Q p x A) ∧ R.HoldsContainer C L T' := by
  have key : ∀ p, ∃ i : Option (Item Ty),
      (match T p with
        | none => i = none
        | some (.group A) => i = some (.group A)
        | some (.array x) => ∃ A, i = some (.array { x with content := A }) ∧ Q p x A) ∧
      ∀ x, i = some (.array x) → ∃ a A, x.IsDescribed a C.layout ∧
        R.HoldsArray (C.root ++ p) C.layout a (Ty.elem x.dtype) (L.codec (Ty.elem x.dtype).size a.compression) x.fill x.content ∧
        R.NoGroup (C.root ++ p) C.layout ∧ R.HasAttributes (C.root ++ p) C.layout A ∧
        ∀ k, x.attrs k = if C.layout = .n5 ∧ k ∈ ["dimensions", "blockSize", "dataType", "compressionType", "compression"] then none
          else A k := by
    intro p
    cases e : T p with
    | none => exact ⟨none, rfl, fun x e => by cases e⟩
    | some y =>
      cases y with
      | group A => exact ⟨_, rfl, fun x e => by cases e⟩
      | array x =>
        obtain ⟨a, A, h1, h2⟩ := harr p x e
        obtain ⟨h3, h4, B, h5, h6⟩ := h2.bytes hR
        have i := h2.is
        refine ⟨some (.array { x with content := A }), ⟨A, rfl, h1⟩, fun x' e' => ?_⟩
        cases e'
        exact ⟨a, B, ⟨i.dtype, i.shape, i.chunks, i.shards, i.fill, i.supported, i.number⟩, h3, h4, h5, h6⟩
  obtain ⟨T', hT⟩ : ∃ T' : Tree Ty, _ := Classical.axiomOfChoice key
  have hnone : ∀ p, T' p = none ↔ T p = none := by
    intro p
    have := (hT p).1
    cases e : T p with
    | none => rw [e] at this; exact ⟨fun _ => rfl, fun _ => this⟩
    | some y =>
      rw [e] at this
      refine ⟨fun e' => ?_, fun e' => by cases e'⟩
      cases y with
      | group A => rw [show T' p = _ from this] at e'; exact absurd e' (fun e => by cases e)
      | array x => obtain ⟨A, h1, _⟩ := this; rw [h1] at e'; cases e'
  have hgroup : ∀ p A, T' p = some (.group A) ↔ T p = some (.group A) := by
    intro p A
    have := (hT p).1
    cases e : T p with
    | none => rw [e] at this; rw [show T' p = _ from this]
    | some y =>
      rw [e] at this
      cases y with
      | group A => rw [show T' p = _ from this]
      | array x => obtain ⟨A, h1, _⟩ := this; rw [h1]; exact ⟨fun e => (by cases e), fun e => (by cases e)⟩
  have his : ∀ p, T'.IsGroup p ↔ T.IsGroup p := fun p =>
    ⟨fun ⟨A, e⟩ => ⟨A, (hgroup p A).1 e⟩, fun ⟨A, e⟩ => ⟨A, (hgroup p A).2 e⟩⟩
  refine ⟨T', fun p => (hT p).1, ?_, ?_, ?_, ?_, ?_, ?_, ?_, ?_⟩
  · intro p n hp
    exact hR.dir (hwf p [n] (by simp) (hR.exist hp))
  · obtain ⟨A, h1, h2⟩ := htop
    exact ⟨A, (hgroup _ _).2 h1, h2⟩
  · intro p n hp
    exact (his p).2 (hclosed p n fun e => hp ((hnone _).2 e))
  · intro p n hp
    exact hnames p n fun e => hp ((hnone _).2 e)
  · intro p A hA
    exact (hgr p A ((hgroup p A).1 hA)).bytes hC hR
  · intro p x hx
    exact (hT p).2 x hx
  · intro p n hp hn hk
    exact hR.none ((hknown p n ((his p).1 hp) ((hnone _).1 hn)).2 hk)
  · intro p n hp hk
    refine hR.notDir (hknown p n ((his p).1 hp) ?_).1
    exact Classical.byContradiction fun e => hk (hnames p n e)

theorem Inv.bytes (hL : L.Lawful) (hC : C.Ok) (h : C.Inv L T os σ) (hR : R.Stores σ) :
    ∃ T' : Tree Ty, T.StoredAs T' ∧ R.HoldsContainer C L T' :=
  bytes_of hC h.wf h.top h.closed h.names h.group h.known
    (Q := fun _ x A => ∀ y, InBox y x.shape → SameOrFill (Ty.elem x.dtype).ceq x.fill (A y) (x.content y))
    (fun p x e => by
      obtain ⟨a, A, h1, h2, _⟩ := (h.array p x e).holds hL
      exact ⟨a, A, h1, h2⟩) hR

end Container

end Z5
