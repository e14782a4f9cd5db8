import Verif.Proofs.S3ContainerHist
import Verif.Proofs.ContainerBytes
import Verif.Props.S3Foreign

/-!
# What a container on S3 is, byte by byte (for C86)
-/

namespace Z5
open Spec

variable {E : Elem} {name : Key} {L : Libs} {elem : FillVal → E.T} {o₀ : S3DatasetObj} {d₀ : AnyDataset E}

theorem Stated.holdsS3 {a : ArrayDesc} {f : Dbl} (h : Stated L elem o₀.obj d₀ a f) (hd : o₀.typed L elem = .ok d₀) (hwf : d₀.WF)
    {m : Meta} {cfg : ChunkConfig} {S : List Nat → E.T} {b : Bucket} (hname : name ≠ []) (hc : S3Carries name o₀.obj m cfg d₀ S b)
    (hdoc : ∃ j, b.get (docKey name o₀.obj.layout.datasetFile) = some (.doc j) ∧ o₀.obj.layout.Says j a)
    (hoth : ∀ n ∈ [".zarray", "zarr.json", "attributes.json"], n ≠ o₀.obj.layout.datasetFile → b.get (docKey name n) = none) :
    ∃ A, b.HoldsArray name o₀.obj.layout a E (L.codec E.size a.compression) (elem o₀.obj.fill) A ∧
      ∀ y, InBox y a.shape → SameOrFill E.ceq (elem o₀.obj.fill) (A y) (S y) := by
  obtain ⟨f1, f2, f3, f4, f5, f6⟩ := typed_fields hd
  obtain ⟨A, v1, v2⟩ := AnyDataset.InStore.files (AnyDataset.variant_wf h.alike hwf)
    ((AnyDataset.variant_inStore (w := d₀.base.canWrite) h.alike).2 hc.holds)
  rw [AnyDataset.variant_base] at v2
  simp only [docKey_named hname] at hdoc hoth
  refine ⟨A, ⟨hname, hdoc, hoth, (h.files _ _).1 v1⟩, fun y hy => ?_⟩
  rw [← f2]
  refine v2 y ?_
  show InBox y d₀.base.shape
  rw [f4, ← h.shape]
  exact hy

/-- An array that the library created is, in every state, one that its document describes. -/
theorem S3Sessions.stated (hname : name ≠ []) (hL : L.LawfulFor (prod d₀.base.chunkShape * E.size)) (hdesc : o₀.obj.Describable)
    (hd : o₀.typed L elem = .ok d₀) (hwf : d₀.WF)
    (hsup : ∀ a f, Stated L elem o₀.obj d₀ a f → a.Supported o₀.obj.layout E.size)
    {os : List S3DatasetObj} {ws : List (Write E.T)} {b : Bucket} (h : S3Sessions L elem name o₀ os ws b) :
    ∃ a f, Stated L elem o₀.obj d₀ a f ∧
      (∃ j, b.get (docKey name o₀.obj.layout.datasetFile) = some (.doc j) ∧ o₀.obj.layout.Says j a) ∧
      ∀ n ∈ [".zarray", "zarr.json", "attributes.json"], n ≠ o₀.obj.layout.datasetFile → b.get (docKey name n) = none := by
  have keep : ∀ {b b' : Bucket} {a : ArrayDesc}, (∀ n, MetaName n → b'.get (docKey name n) = b.get (docKey name n)) →
      ((∃ j, b.get (docKey name o₀.obj.layout.datasetFile) = some (.doc j) ∧ o₀.obj.layout.Says j a) ∧
        ∀ n ∈ [".zarray", "zarr.json", "attributes.json"], n ≠ o₀.obj.layout.datasetFile → b.get (docKey name n) = none) →
      (∃ j, b'.get (docKey name o₀.obj.layout.datasetFile) = some (.doc j) ∧ o₀.obj.layout.Says j a) ∧
        ∀ n ∈ [".zarray", "zarr.json", "attributes.json"], n ≠ o₀.obj.layout.datasetFile → b'.get (docKey name n) = none := by
    intro b b' a hm ⟨⟨j, h1, h2⟩, h3⟩
    refine ⟨⟨j, ?_, h2⟩, fun n hn hne => ?_⟩
    · rw [← h1, hm _ (datasetFile_meta _)]
    · rw [hm n (other_meta hn)]
      exact h3 n hn hne
  induction h with
  | @created root key args b es w hes hp hc =>
    subst hp
    obtain ⟨z, j, hz, hr, hm, hcx, hmk, hn, hh, hj, hnn⟩ := createDataset_returned hes hc
    have hkey : o₀.obj.keyCfg = ⟨z, args.delimiter.toList, args.zarrFormat.toNat, args.encoding.toList⟩ := by
      unfold DatasetObj.keyCfg
      rw [hh]
      rfl
    obtain ⟨a, x, hsays, a1, a2, a3, a4, a5, a6, hal, q1, q2, q3, q4, q5⟩ := created_object hm hmk hkey hj hdesc hL hd
    have hfile := datasetFile_eq o₀.obj
    refine ⟨a, x, ⟨a1, a2, a3, a4, a5, a6, q3, hal, q1, q2, q4, q5⟩, ⟨j, ?_, hsays⟩, fun n hn' hne => ?_⟩
    · rw [hnn.get_doc, ← hfile, if_pos rfl]
    · rw [hnn.get_doc, if_neg (by rw [hfile]; exact hne)]
  | @opened root key os ws b es w o hs hes hp hz ho ih =>
    obtain ⟨a, f, h1, h2⟩ := ih
    obtain ⟨m, cfg, g1, gx, g2, g3⟩ := hs.carries hL hdesc hd hwf
    obtain ⟨o', h4, h5, _⟩ := g2.open g1 gx hp hz
    obtain ⟨e1, e2⟩ := h4.ok hes ho
    rw [e2]
    exact ⟨a, f, h1, h2⟩
  | closed _ hs ih => exact ih
  | @wrote os ws b b' o d w hs ho hw hty hp ih =>
    obtain ⟨a, f, h1, h2⟩ := ih
    obtain ⟨m, cfg, g1, gx, g2, g3⟩ := hs.carries hL hdesc hd hwf
    obtain ⟨hn, hs⟩ := g3 o ho
    obtain ⟨t1, t2, _, _⟩ := hs.typed g1.self g1.shard hL hd
    have hty := Res.ok.inj (t1.symm.trans hty)
    subst hty
    rw [hn] at hp
    obtain ⟨p2, _⟩ := hp.effect (AnyDataset.variant_wf t2 hwf) (by rw [AnyDataset.variant_base]; exact hw)
    exact ⟨a, f, h1, keep (fun n hn => p2 _ fun k hk => chunk_ne_doc hk hn) h2⟩
  | @annotated os ws b es o op hs hes ho hv ih =>
    obtain ⟨a, f, h1, h2⟩ := ih
    obtain ⟨m, cfg, g1, gx, g2, g3⟩ := hs.carries hL hdesc hd hwf
    obtain ⟨A, e1, _⟩ := h1.holdsS3 hd hwf hname g2 h2.1 h2.2
    obtain ⟨hn, hs⟩ := g3 o ho
    rw [hn]
    refine ⟨a, f, h1, ?_⟩
    cases hw : o.obj.handle.mode.canWrite with
    | false =>
      have := c56_readonly (t := .dataset ⟨name, o.obj.handle⟩) (op := op) hw ⟨es, b⟩
      rw [this]
      exact h2
    | true =>
      obtain ⟨eff, _, hoa, _⟩ := S3Target.change_step (t := .dataset ⟨name, o.obj.handle⟩) hw (g2.refers hs) hv hes
      have := e1.onlyAttributes (d := d₀) (hsup a f h1) h1.keys hoa fun e k hk => by
        split
        · next hc =>
          have hnm : op.names ((S3Target.dataset ⟨name, o.obj.handle⟩).locked o₀.obj.layout) = false := by
            cases hx : op.names ((S3Target.dataset ⟨name, o.obj.handle⟩).locked o₀.obj.layout) with
            | false => rfl
            | true => rw [hx] at hc; simp at hc
          rw [AttrOp.apply_of_not_names (h := hnm) (by rw [e]; exact hk), e]
          rfl
        · rw [e]
          rfl
      exact this.documents
  | elsewhere _ he ih =>
    obtain ⟨a, f, h1, h2⟩ := ih
    exact ⟨a, f, h1, keep (fun n hn => he _ (dirPrefix_docKey _ _)) h2⟩

/-! ### Bytes -/

namespace RawBucket.Stores

variable {R : RawBucket} {b : Bucket} {k : Key}

theorem none (h : R.Stores b) (e : b.get k = .none) : R.content k = .none := by
  have := h k
  rw [e] at this
  exact this

theorem text (h : R.Stores b) {j : Json} (e : b.get k = some (.doc j)) : R.HasText k j := by
  have := h k
  rw [e] at this
  exact this.2

/-- a document that is not an empty object -/
theorem docAt (h : R.Stores b) {j : Json} (e : b.docAt k = some j) (hf : b.get k ≠ some (.file [])) : R.HasText k j := by
  unfold Bucket.docAt at e
  split at e
  · rename_i e'
    cases e
    exact h.text e'
  · rename_i e'
    exact absurd e' hf
  · cases e

theorem attributes (h : R.Stores b) {La : Layout} (hn : b.Node name La) (hf : b.get (docKey name La.file) ≠ some (.file [])) :
    R.HasAttributes name La (b.attributes name La) := by
  have hplain : ∀ La : Layout, La ≠ .v3 → b.get (docKey name La.file) ≠ some (.file []) →
      (b.get (docKey name La.file) = .none ∨ ∃ j, b.docAt (docKey name La.file) = some j ∧ j.IsObject) →
      (R.content (docKey name La.file) = .none ∧ b.attributes name La = fun _ => .none) ∨
        ∃ j, R.HasText (docKey name La.file) j ∧ j.IsObject ∧ b.attributes name La = j.find := by
    intro La hLa hf hd
    have ha : b.attributes name La = fun k => (b.docAt (docKey name La.file)).bind (·.find k) := by
      cases La <;> first | rfl | exact absurd rfl hLa
    rw [ha]
    rcases hd with e | ⟨j, e, hj⟩
    · refine .inl ⟨h.none e, ?_⟩
      rw [s3_docAt_none e]
      rfl
    · refine .inr ⟨j, h.docAt e hf, hj, ?_⟩
      rw [e]
      rfl
  cases La with
  | v2 => exact hplain .v2 (fun e => by cases e) hf hn.doc
  | n5 => exact hplain .n5 (fun e => by cases e) hf hn.doc
  | v3 =>
    obtain ⟨j, hj, _, ho⟩ := hn.v3 rfl
    refine ⟨j, h.docAt hj hf, ?_⟩
    have ha : b.attributes name .v3 = fun k => (j.find "attributes").bind (·.find k) := by
      unfold Bucket.attributes
      simp only
      rw [hj]
      rfl
    rw [ha]
    cases e : j.find "attributes" with
    | none => exact .inl ⟨rfl, rfl⟩
    | some b => exact .inr ⟨b, rfl, ho b e, rfl⟩

end RawBucket.Stores

namespace S3Container

variable {Ty : ElemTypes} {C : S3Container} {T : Tree Ty} {os : List (Path × S3DatasetObj)} {b : Bucket} {R : RawBucket}

theorem GroupAt.bytes {p : Path} {A : AttrMap} (h : C.GroupAt b p A) (hC : C.Ok) (hR : R.Stores b) :
    R.SaysGroup (C.key p) C.layout ∧ R.HasAttributes (C.key p) C.layout A := by
  refine ⟨?_, by rw [← h.attrs]; exact hR.attributes h.node h.full⟩
  have hk := h.kind
  have hn := h.node
  have hfull := h.full
  unfold GroupKind at hk
  cases e : C.layout with
  | v2 =>
    rw [e] at hk hn
    obtain ⟨j, h1, h2⟩ := hk
    have hf' : C.format = 2 := by
      rcases hC with e' | e'
      · exact e'
      · unfold layout Layout.of at e; rw [e'] at e; cases e
    rw [hf'] at h2
    exact ⟨hR.none (hn.v2 rfl), j, hR.text h1, h2⟩
  | v3 =>
    rw [e] at hk hn hfull
    obtain ⟨j, hj, _⟩ := hn.v3 rfl
    simp only at hk
    rw [hj] at hk
    exact ⟨j, hR.docAt hj hfull, hk.2, hk.1⟩
  | n5 =>
    rw [e] at hk
    exact hk

theorem noGroup_bytes {p : Path} (hk : b.NotGroup (C.key p) C.layout) (hname : C.key p ≠ []) (hR : R.Stores b) :
    R.NoGroup (C.key p) C.layout := by
  cases e : C.layout with
  | v2 =>
    rw [e] at hk
    have hk : b.get (docKey (C.key p) ".zgroup") = none := hk
    rw [docKey_named hname] at hk
    exact hR.none hk
  | v3 => trivial
  | n5 =>
    have := layout_isZarr (C := C)
    rw [e] at this
    cases this

/-- an array, as its document describes it -/
structure ArrayHolds (C : S3Container) (L : Libs) (b : Bucket) (p : Path) (x : ArrayItem Ty) (a : ArrayDesc)
    (A : List Nat → (Ty.elem x.dtype).T) : Prop where
  real : x.dtype.isComplex = false
  is : x.IsDescribed a C.layout
  holds : b.HoldsArray (C.key p) C.layout a (Ty.elem x.dtype) (L.codec (Ty.elem x.dtype).size a.compression) x.fill A
  kind : b.NotGroup (C.key p) C.layout
  node : b.Node (C.key p) C.layout
  attrs : b.attributes (C.key p) C.layout = x.attrs
  full : b.get (docKey (C.key p) C.layout.file) ≠ some (.file [])

theorem ArrayAt.holds (hL : L.Lawful) {p : Path} {x : ArrayItem Ty} (h : C.ArrayAt L os b p x) (hname : C.key p ≠ []) :
    ∃ a A, (∀ y, InBox y x.shape → SameOrFill (Ty.elem x.dtype).ceq x.fill (A y) (x.content y)) ∧ C.ArrayHolds L b p x a A := by
  rcases h with ⟨o₀, d₀, os', ws, h⟩ | ⟨b₀, a, A₀, os', ws, h⟩
  · have hsup : ∀ a f, Stated L (Ty.cast x.dtype) o₀.obj d₀ a f → a.Supported o₀.obj.layout (Ty.elem x.dtype).size := by
      intro a f s
      rw [h.is.layout]
      exact h.is.supported a s.shape s.chunks s.shards s.separator
    obtain ⟨a, f, s, hdoc, hoth⟩ := h.sessions.stated hname (h.is.law hL) h.is.desc h.is.typed h.is.wf hsup
    obtain ⟨m, cfg, c1, cx, c2, c3⟩ := h.sessions.carries (h.is.law hL) h.is.desc h.is.typed h.is.wf
    obtain ⟨A, e1, e2⟩ := s.holdsS3 h.is.typed h.is.wf hname c2 hdoc hoth
    have hs := h.is.supported a s.shape s.chunks s.shards s.separator
    obtain ⟨f1, f2, f3, f4, f5, f6⟩ := typed_fields h.is.typed
    have hf : d₀.base.fill = x.fill := by
      rw [f2]
      exact h.is.fill
    have hk := c2.kind
    have hn := c2.node
    rw [hf, h.content] at e2
    rw [h.is.fill] at e1 e2
    rw [h.is.layout] at e1 hk hn
    refine ⟨a, A, fun y hy => e2 y (by rw [s.shape, h.is.shape]; exact hy), ?_, ⟨s.dtype.trans h.is.dtype, s.shape.trans h.is.shape,
      s.chunks.trans h.is.chunks, ?_, ⟨f, o₀.obj.fill, s.fill, ?_, h.is.fill.symm⟩, hs, ?_⟩, e1, hk, hn, h.attrs, h.full⟩
    · obtain ⟨o, h1, h2, _⟩ := c1.make .r
      rw [← h.is.dtype, ← h2.dtype, (makeDataset_facts h1).1]
      exact cx
    · rw [s.shards]; exact h.is.sharding
    · rw [← h.is.dtype, ← s.dtype]; exact s.cast
    · have := h.is.fit
      rw [f4, f5] at this
      have e1 : o₀.obj.info.shape = x.shape := h.is.shape
      have e2 : o₀.obj.info.chunkShape = x.chunks := h.is.chunks
      rw [e1, e2] at this
      exact this
  · obtain ⟨f, v, e⟩ := h.now hL
    obtain ⟨A, e1, e2⟩ := e.holds
    rw [← e.value] at e1
    exact ⟨a, A, e2, h.real, h.is, e1, h.kind, e.node, h.attrs, h.full⟩

theorem ArrayHolds.bytes {p : Path} {x : ArrayItem Ty} {a : ArrayDesc} {A : List Nat → (Ty.elem x.dtype).T} (h : C.ArrayHolds L b p x a A)
    (hR : R.Stores b) :
    R.HoldsArray (C.key p) C.layout a (Ty.elem x.dtype) (L.codec (Ty.elem x.dtype).size a.compression) x.fill A ∧
    R.NoGroup (C.key p) C.layout ∧ R.HasAttributes (C.key p) C.layout x.attrs :=
  ⟨Props.c84_bytes h.holds h.is.supported hR, noGroup_bytes h.kind h.holds.named hR, by rw [← h.attrs]; exact hR.attributes h.node h.full⟩

theorem key_ne_nil {p : Path} (h : p ≠ []) (hn : ∀ n ∈ p, NodeName n) : C.key p ≠ [] := by
  unfold key joinKey
  rw [if_neg h]
  split
  · exact text_ne_nil h hn
  · simp

/-- the bytes of a bucket with the groups and arrays of a tree -/
theorem bytes_of (hC : C.Ok) (htop : T.IsGroup []) (hclosed : ∀ p n, T (p ++ [n]) ≠ none → T.IsGroup p)
    (hnames : ∀ p n, T (p ++ [n]) ≠ none → NodeName n) (hgr : ∀ p A, T p = some (.group A) → C.GroupAt b p A)
    (hknown : ∀ p, T.IsGroup p → C.Known T b p) {Q : (p : Path) → (x : ArrayItem Ty) → (List Nat → (Ty.elem x.dtype).T) → Prop}
    (harr : ∀ p x, T p = some (.array x) → ∃ a A, Q p x A ∧ C.ArrayHolds L b p x a A) (hR : R.Stores b)
    (hO : R.Pairwise fun p q => keyLt p.1 q.1 = true) :
    ∃ T' : Tree Ty, (∀ p, match T p with
        | none => T' p = none
        | some (.group A) => T' p = some (.group A)
        | some (.array x) => ∃ A, T' p = some (.array { x with content := A }) ∧ Q p x A) ∧ R.HoldsContainer C L T' := by
  have key : ∀ p, ∃ i : Option (Item Ty),
      (match T p with
        | none => i = none
        | some (.group A) => i = some (.group A)
        | some (.array x) => ∃ A, i = some (.array { x with content := A }) ∧ Q p x A) ∧
      ∀ x, i = some (.array x) → x.dtype.isComplex = false ∧ ∃ a, x.IsDescribed a C.layout ∧
        R.HoldsArray (C.key p) C.layout a (Ty.elem x.dtype) (L.codec (Ty.elem x.dtype).size a.compression) x.fill x.content ∧
        R.NoGroup (C.key p) C.layout ∧ R.HasAttributes (C.key p) C.layout x.attrs := by
    intro p
    cases e : T p with
    | none => exact ⟨none, rfl, fun x e => by cases e⟩
    | some y =>
      cases y with
      | group A => exact ⟨_, rfl, fun x e => by cases e⟩
      | array x =>
        obtain ⟨a, A, h1, h2⟩ := harr p x e
        refine ⟨some (.array { x with content := A }), ⟨A, rfl, h1⟩, fun x' e' => ?_⟩
        cases e'
        have i := h2.is
        exact ⟨h2.real, a, ⟨i.dtype, i.shape, i.chunks, i.shards, i.fill, i.supported, i.number⟩, h2.bytes hR⟩
  obtain ⟨T', hT⟩ : ∃ T' : Tree Ty, _ := Classical.axiomOfChoice key
  have hnone : ∀ p, T' p = none ↔ T p = none := by
    intro p
    have := (hT p).1
    cases e : T p with
    | none => rw [e] at this; exact ⟨fun _ => rfl, fun _ => this⟩
    | some y =>
      rw [e] at this
      refine ⟨fun e' => ?_, fun e' => by cases e'⟩
      cases y with
      | group A => rw [show T' p = _ from this] at e'; exact absurd e' (fun e => by cases e)
      | array x => obtain ⟨A, h1, _⟩ := this; rw [h1] at e'; cases e'
  have hgroup : ∀ p A, T' p = some (.group A) ↔ T p = some (.group A) := by
    intro p A
    have := (hT p).1
    cases e : T p with
    | none => rw [e] at this; rw [show T' p = _ from this]
    | some y =>
      rw [e] at this
      cases y with
      | group A => rw [show T' p = _ from this]
      | array x => obtain ⟨A, h1, _⟩ := this; rw [h1]; exact ⟨fun e => (by cases e), fun e => (by cases e)⟩
  have his : ∀ p, T'.IsGroup p ↔ T.IsGroup p := fun p =>
    ⟨fun ⟨A, e⟩ => ⟨A, (hgroup p A).1 e⟩, fun ⟨A, e⟩ => ⟨A, (hgroup p A).2 e⟩⟩
  refine ⟨T', fun p => (hT p).1, hO, (his _).2 htop, ?_, ?_, ?_, ?_, ?_⟩
  · intro p n hp
    exact (his p).2 (hclosed p n fun e => hp ((hnone _).2 e))
  · intro p n hp
    exact hnames p n fun e => hp ((hnone _).2 e)
  · intro p A hA
    exact (hgr p A ((hgroup p A).1 hA)).bytes hC hR
  · intro p x hx
    exact (hT p).2 x hx
  · intro p k hp hk
    have hp' := (his p).1 hp
    have hin : C.dir p ++ k ∈ b.keys := by
      rw [← dirPrefix_key (named_of hclosed hnames _ p (Nat.le_refl _) (isGroup_ne hp')), mem_keys]
      cases e : b.get (dirPrefix (C.key p) ++ k) with
      | none => exact absurd (hR.none e) hk
      | some y => rfl
    rcases hknown p hp' k hin with ⟨n, hn, e⟩ | ⟨n, t, h1, h2⟩
    · refine .inl ⟨n, ?_, e⟩
      unfold documentFiles
      rcases hn with h | h | h | h | h <;> simp [h]
    · exact .inr ⟨n, t, fun e => h1 ((hnone _).1 e), h2⟩

theorem Inv.bytes (hL : L.Lawful) (hC : C.Ok) (h : C.Inv L T os b) (hR : R.Stores b)
    (hO : R.Pairwise fun p q => keyLt p.1 q.1 = true) : ∃ T' : Tree Ty, T.StoredAs T' ∧ R.HoldsContainer C L T' := by
  refine bytes_of hC h.top h.closed h.names h.group h.known
    (Q := fun _ x A => ∀ y, InBox y x.shape → SameOrFill (Ty.elem x.dtype).ceq x.fill (A y) (x.content y)) (fun p x e => ?_) hR hO
  have hp : p ≠ [] := by
    rintro rfl
    obtain ⟨A, hA⟩ := h.top
    rw [hA] at e
    cases e
  exact (h.array p x e).holds hL
    (key_ne_nil hp (named_of h.closed h.names _ p (Nat.le_refl _) (by rw [e]; exact fun e => by cases e)))

end S3Container

end Z5
