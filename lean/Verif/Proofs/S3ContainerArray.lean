import Verif.Proofs.S3Container
import Verif.Proofs.S3Foreign

/-!
# The arrays of a container on S3 (for C79 and C86)

An array of a container was created by the library, or it was there before, made by another program.
-/

namespace Z5
open Spec Prog

namespace S3Container

variable {Ty : ElemTypes} {C : S3Container} {L : Libs} {os os' : List (Path × S3DatasetObj)} {b b' : Bucket} {p : Path}
  {x : ArrayItem Ty}

/-! ### Arrays of the library -/

theorem ArrayMade.read (hL : L.Lawful) (h : C.ArrayMade L os b p x) {o : S3DatasetObj} (ho : (p, o) ∈ os) :
    ∃ d A, o.typed L (Ty.cast x.dtype) = .ok d ∧ d.base.shape = x.shape ∧
    d.ReadsAsS3 (C.key p) b A ∧ ∀ i, InBox i x.shape → SameOrFill (Ty.elem x.dtype).ceq x.fill (A i) (x.content i) := by
  obtain ⟨o₀, d₀, os', ws, ha⟩ := h
  obtain ⟨_, d, A, h1, h2, h3, h4⟩ := Props.c78_read (ha.is.law hL) ha.is.desc ha.is.typed ha.is.wf ha.sessions (ha.objects o ho)
  rw [ha.is.shape] at h2 h4
  rw [ha.is.fill, ha.content] at h4
  exact ⟨d, A, h1, h2, h3, h4⟩

theorem ArrayMade.write (hL : L.Lawful) (h : C.ArrayMade L os b p x) {o : S3DatasetObj} (ho : (p, o) ∈ os)
    (hT : (L.codec (Ty.elem x.dtype).size o.obj.settings).TotalFor (prod x.chunks * (Ty.elem x.dtype).size))
    (hm : o.obj.handle.mode ≠ .r) :
    ∃ d, o.typed L (Ty.cast x.dtype) = .ok d ∧ ∀ call : RegionCall (Ty.elem x.dtype), call.Valid d.base → ∀ scratch,
      ∃ ts, d.start call scratch = .ok ts ∧ ∀ is rs, Prog.Finished (Prog.interleaveS3 (C.key p) is (ts, b)).1 rs →
        ∀ r ∈ rs, r = .ok () ∨ (r = .throw .lengthError ∧ x.shards ≠ none) := by
  obtain ⟨o₀, d₀, os', ws, ha⟩ := h
  have hchunks : d₀.base.chunkShape = x.chunks := ha.is.chunkShape
  obtain ⟨d, h1, h2⟩ := Props.c78_write_succeeds (ha.is.law hL) ha.is.desc ha.is.typed ha.is.wf ha.sessions
    (by rw [hchunks]; exact hT) (ha.objects o ho) (Props.canWrite_of_ne hm)
  refine ⟨d, h1, fun call hv scratch => ?_⟩
  obtain ⟨ts, h3, h4⟩ := h2 call hv scratch
  refine ⟨ts, h3, fun is rs hf r hr => (h4 is rs hf r hr).imp_right fun ⟨e, sd, hsd⟩ => ⟨e, fun hn => ?_⟩⟩
  obtain ⟨ds, e⟩ := ha.is.plain hn
  obtain ⟨mt, cfg, c1, _, _, c3⟩ := ha.sessions.carries (ha.is.law hL) ha.is.desc ha.is.typed ha.is.wf
  obtain ⟨t1, _⟩ := (c3 o (ha.objects o ho)).2.typed c1.self c1.shard (ha.is.law hL) ha.is.typed
  have t1 := Res.ok.inj (t1.symm.trans h1)
  rw [hsd, e] at t1
  cases t1

/-! ### Arrays of other programs -/

structure FoundHas (C : S3Container) (L : Libs) (os : List (Path × S3DatasetObj)) (b : Bucket) (p : Path) (x : ArrayItem Ty)
    (b₀ : Bucket) (a : ArrayDesc) (A₀ : List Nat → (Ty.elem x.dtype).T) (os' : List S3DatasetObj)
    (ws : List (Write (Ty.elem x.dtype).T)) : Prop where
  is : x.IsDescribed a C.layout
  real : x.dtype.isComplex = false
  start : b₀.HoldsArray (C.key p) C.layout a (Ty.elem x.dtype) (L.codec (Ty.elem x.dtype).size a.compression) x.fill A₀
  node : b₀.Node (C.key p) C.layout
  uses : S3Uses L (Ty.cast x.dtype) (C.key p) C.layout b₀ os' ws b
  content : replay A₀ ws = x.content
  attrs : b.attributes (C.key p) C.layout = x.attrs
  full : b.get (docKey (C.key p) C.layout.file) ≠ some (.file [])
  kind : b.NotGroup (C.key p) C.layout
  objects : ∀ o, (p, o) ∈ os → o ∈ os'

/-- what is known about it now -/
structure FoundNow (C : S3Container) (L : Libs) (b : Bucket) (p : Path) (x : ArrayItem Ty) (a : ArrayDesc) (os' : List S3DatasetObj)
    (f : Dbl) (v : FillVal) : Prop where
  fill : a.fill = some f
  cast : a.dtype.castFill f = .ok v
  real : a.dtype.isComplex = false
  value : x.fill = Ty.cast x.dtype v
  holds : ∃ A', b.HoldsArray (C.key p) C.layout a (Ty.elem x.dtype) (L.codec (Ty.elem x.dtype).size a.compression)
      (Ty.cast x.dtype v) A' ∧ ∀ y, InBox y x.shape → SameOrFill (Ty.elem x.dtype).ceq x.fill (A' y) (x.content y)
  node : b.Node (C.key p) C.layout
  objects : ∀ o ∈ os', ∃ d, S3ArrayObj L (Ty.cast x.dtype) (C.key p) C.layout a v o d

variable {b₀ : Bucket} {a : ArrayDesc} {A₀ : List Nat → (Ty.elem x.dtype).T} {os₀ : List S3DatasetObj}
  {ws : List (Write (Ty.elem x.dtype).T)}

theorem FoundHas.now (hL : L.Lawful) (h : C.FoundHas L os b p x b₀ a A₀ os₀ ws) : ∃ f v, C.FoundNow L b p x a os₀ f v := by
  obtain ⟨f, v, h1, h2, h3⟩ := h.is.fill
  have hst := h.start
  have hc := h.real
  rw [h3] at hst
  rw [← h.is.dtype] at h2 hc
  obtain ⟨⟨A', e1, e2⟩, e3, e4⟩ := h.uses.effect hL h.is.supported h1 h2 hc hst h.node
  refine ⟨f, v, h1, h2, hc, h3, ⟨A', e1, fun y hy => ?_⟩, e3, e4⟩
  have := e2 y (by rw [h.is.shape]; exact hy)
  rw [h.content] at this
  rw [h3]
  exact this

def ArrayFound (C : S3Container) (L : Libs) (os : List (Path × S3DatasetObj)) (b : Bucket) (p : Path) (x : ArrayItem Ty) : Prop :=
  ∃ b₀ a A₀ os' ws, C.FoundHas L os b p x b₀ a A₀ os' ws

theorem ArrayFound.exists_ (hL : L.Lawful) (h : C.ArrayFound L os b p x) : b.Exists (C.key p) := by
  obtain ⟨b₀, a, A₀, os', ws, h⟩ := h
  obtain ⟨f, v, e⟩ := h.now hL
  obtain ⟨A', e1, _⟩ := e.holds
  obtain ⟨⟨j, hj, _⟩, _⟩ := e1.documents
  exact ⟨_, mem_keys.2 (by rw [hj]; rfl), dirPrefix_docKey _ _⟩

theorem ArrayFound.isSubGroup (hL : L.Lawful) {g ks : Path} (h : C.ArrayFound L os b (g ++ ks) x) (hg : ∀ n ∈ g, NodeName n)
    (hks : ks ≠ []) (hn : ∀ n ∈ ks, NodeName n) {m : FileMode} (hz : b.IsZarr (C.key g)) :
    ((C.group g m).handle.isSubGroup ks.text).Does 6 b (.ok false) b := by
  obtain ⟨b₀, a, A₀, os', ws, h⟩ := h
  obtain ⟨f, v, e⟩ := h.now hL
  exact isSubGroup_of_notGroup e.node h.kind hg hks hn hz

theorem ArrayFound.mono (h : C.ArrayFound L os b p x) (ho : ∀ o, (p, o) ∈ os' → (p, o) ∈ os) : C.ArrayFound L os' b p x := by
  obtain ⟨b₀, a, A₀, os'', ws, h⟩ := h
  exact ⟨b₀, a, A₀, os'', ws, { h with objects := fun o e => h.objects o (ho o e) }⟩

theorem ArrayFound.elsewhere (h : C.ArrayFound L os b p x) (he : ∀ k, dirPrefix (C.key p) <+: k → b'.get k = b.get k) :
    C.ArrayFound L os b' p x := by
  obtain ⟨b₀, a, A₀, os', ws, h⟩ := h
  have hm : ∀ n, MetaName n → b'.get (docKey (C.key p) n) = b.get (docKey (C.key p) n) := fun n _ => he _ (dirPrefix_docKey _ _)
  refine ⟨b₀, a, A₀, os', ws, { h with uses := h.uses.elsewhere he, attrs := ?_, full := ?_, kind := h.kind.congr hm }⟩
  · rw [Bucket.attributes_congr hm]
    exact h.attrs
  · rw [hm _ layout_file_meta]
    exact h.full

/-- a call that succeeds -/
theorem does_run {α : Type} {y : S3M α} {n : Nat} {r : α} (h : y.Does n b (.ok r) b') :
    ∃ es w, (∀ e ∈ es, Event.Reliable e) ∧ y ⟨es, b⟩ = (some (.ok r), w) ∧ w.bucket = b' := by
  rcases h _ (exS3_calm n) with ⟨es', -, -, e⟩ | ⟨es', b', -, -, -, e, he, k, hk⟩ | ⟨h, -⟩
  · exact ⟨_, _, exS3_calm n, e, rfl⟩
  · rw [List.eq_of_mem_replicate he] at hk
    exact absurd rfl hk
  · simp at h

/-- opening -/
theorem ArrayFound.opened (hL : L.Lawful) {g ks : Path} (h : C.ArrayFound L os b (g ++ ks) x) (hg : ∀ n ∈ g, NodeName n)
    (hks : ks ≠ []) {m : FileMode} (hz : b.IsZarr (C.key g)) :
    ∃ o, ((C.group g m).handle.openDataset ks.text).Does 10 b (.ok o) b ∧ o.obj.handle.mode = m ∧
      o.obj.info.dtype = x.dtype ∧ o.obj.info.shape = x.shape ∧ o.obj.info.chunkShape = x.chunks ∧
      C.ArrayFound L ((g ++ ks, o) :: os) b (g ++ ks) x := by
  obtain ⟨b₀, a, A₀, os', ws, h⟩ := h
  obtain ⟨f, v, e⟩ := h.now hL
  obtain ⟨A', e1, _⟩ := e.holds
  have hj : joinKey (C.group g m).handle.name ks.text = C.key (g ++ ks) := joinKey_key hg hks
  obtain ⟨o, d, h1, h3, h4⟩ := e1.open (elem := Ty.cast x.dtype) hL h.is.supported e.fill e.cast e.real hj (fun _ => hz)
  obtain ⟨es, w, hes, hrun, hb⟩ := does_run h1
  have hu := S3Uses.opened h.uses hes hj (fun _ => hz) hrun
  rw [hb] at hu
  refine ⟨o, h1, h3, h4.stands.dtype.trans h.is.dtype, h4.stands.shape.trans h.is.shape, h4.stands.chunks.trans h.is.chunks,
    b₀, a, A₀, o :: os', ws, { h with uses := hu, objects := ?_ }⟩
  intro o' ho'
  rcases List.mem_cons.1 ho' with e | e
  · cases e; exact List.mem_cons_self ..
  · exact List.mem_cons_of_mem _ (h.objects o' e)

/-- writing -/
theorem ArrayFound.wrote (hL : L.Lawful) (h : C.ArrayFound L os b p x) {o : S3DatasetObj} (ho : (p, o) ∈ os)
    (hm : o.obj.handle.mode ≠ .r) {d : AnyDataset (Ty.elem x.dtype)} (hd : o.typed L (Ty.cast x.dtype) = .ok d)
    {w : Write (Ty.elem x.dtype).T} (hp : d.PerformsS3 (C.key p) w b b') :
    C.ArrayFound L os b' p { x with content := override x.content w.off w.shape w.val } ∧
    ∀ k, ¬ dirPrefix (C.key p) <+: k → b'.get k = b.get k := by
  obtain ⟨b₀, a, A₀, os', ws, h⟩ := h
  obtain ⟨f, v, e⟩ := h.now hL
  have hw := Props.canWrite_of_ne hm
  obtain ⟨d', g⟩ := e.objects o (h.objects o ho)
  have := g.stands.typed
  rw [hd] at this
  cases this
  obtain ⟨p2, _⟩ := hp.effect g.stands.wf (g.stands.base.2.2.trans hw)
  have hmeta : ∀ n, MetaName n → b'.get (docKey (C.key p) n) = b.get (docKey (C.key p) n) :=
    fun n hn => p2 _ fun k hk => chunk_ne_doc hk hn
  refine ⟨⟨b₀, a, A₀, os', ws ++ [w], { h.is with }, h.real, h.start, h.node,
    h.uses.wrote (h.objects o ho) hw hd (by rw [g.stands.name]; exact hp), ?_, ?_, ?_,
    h.kind.congr hmeta, h.objects⟩, fun k hk => p2 k fun k' _ e => hk (by rw [e]; exact dirPrefix_chunk _ _)⟩
  · rw [Container.replay_concat, h.content]
  · show b'.attributes (C.key p) C.layout = x.attrs
    rw [Bucket.attributes_congr hmeta]
    exact h.attrs
  · rw [hmeta _ layout_file_meta]
    exact h.full

theorem ArrayFound.refers (hL : L.Lawful) (h : C.ArrayFound L os b p x) {o : S3DatasetObj} (ho : (p, o) ∈ os) :
    (S3Target.dataset ⟨o.name, o.obj.handle⟩).Refers b C.layout ∧ o.name = C.key p := by
  obtain ⟨b₀, a, A₀, os', ws, h⟩ := h
  obtain ⟨f, v, e⟩ := h.now hL
  obtain ⟨A', e1, _⟩ := e.holds
  obtain ⟨d', g⟩ := e.objects o (h.objects o ho)
  refine ⟨?_, g.stands.name⟩
  rw [g.stands.name]
  exact g.refers e1 e.node

/-- changing attributes -/
theorem ArrayFound.change (hL : L.Lawful) (h : C.ArrayFound L os b p x) {o : S3DatasetObj} (ho : (p, o) ∈ os)
    (hm : o.obj.handle.mode ≠ .r) {op : AttrOp} (hv : op.Valid) :
    ∃ b', ((S3Target.dataset ⟨o.name, o.obj.handle⟩).change op).Does 11 b (.ok ()) b' ∧ (b.WF → b'.WF) ∧
      (∀ k, ¬ dirPrefix (C.key p) <+: k → b'.get k = b.get k) ∧
      C.ArrayFound L os b' p { x with attrs := op.apply x.attrs } := by
  obtain ⟨hr, hname⟩ := h.refers hL ho
  obtain ⟨_, c2⟩ := c56_change (t := .dataset ⟨o.name, o.obj.handle⟩) (Props.canWrite_of_ne hm) hr hv
  obtain ⟨b', h1, hoa, _⟩ := c2 (by rw [array_locked]; exact names_nil op)
  rw [show (S3Target.dataset ⟨o.name, o.obj.handle⟩).name = C.key p from hname] at hoa
  refine ⟨b', h1, hoa.wf, fun k hk => hoa.objects k fun e => hk (by rw [e]; exact dirPrefix_docKey _ _), ?_⟩
  obtain ⟨b₀, a, A₀, os', ws, h⟩ := h
  obtain ⟨es, w, hes, e, hb⟩ := does_run h1
  have hs := h.uses.annotated hes (h.objects o ho) hv
  rw [e] at hs
  refine ⟨b₀, a, A₀, os', ws, { h.is with }, h.real, h.start, h.node, ?_, h.content, ?_, hoa.written h.full, ?_, h.objects⟩
  · rw [← hb]; exact hs
  · show b'.attributes (C.key p) C.layout = op.apply x.attrs
    rw [hoa.attributes, h.attrs]
  · have hk := h.kind
    have hob := hoa.objects
    have hrest := hoa.rest
    cases el : C.layout with
    | v2 =>
      rw [el] at hk hob
      exact (hob _ fun e => absurd (docKey_inj e) (by decide)).trans hk
    | v3 =>
      rw [el] at hk hrest
      exact (hrest rfl "node_type" (by decide)).trans hk
    | n5 =>
      have := layout_isZarr (C := C)
      rw [el] at this
      cases this

/-- reading -/
theorem ArrayFound.read (hL : L.Lawful) (h : C.ArrayFound L os b p x) {o : S3DatasetObj} (ho : (p, o) ∈ os) :
    ∃ d A, o.typed L (Ty.cast x.dtype) = .ok d ∧ d.base.shape = x.shape ∧
    d.ReadsAsS3 (C.key p) b A ∧ ∀ i, InBox i x.shape → SameOrFill (Ty.elem x.dtype).ceq x.fill (A i) (x.content i) := by
  obtain ⟨b₀, a, A₀, os', ws, h⟩ := h
  obtain ⟨f, v, e⟩ := h.now hL
  obtain ⟨A', e1, e2⟩ := e.holds
  obtain ⟨d, g⟩ := e.objects o (h.objects o ho)
  exact ⟨d, A', g.stands.typed, g.stands.base.1.trans h.is.shape,
    AnyDataset.Files.readsAsS3 g.stands.wf ((g.files _ _).2 e1.elements), e2⟩

/-- writing succeeds -/
theorem ArrayFound.write (hL : L.Lawful) (h : C.ArrayFound L os b p x) {o : S3DatasetObj} (ho : (p, o) ∈ os)
    (hT : (L.codec (Ty.elem x.dtype).size o.obj.settings).TotalFor (prod x.chunks * (Ty.elem x.dtype).size))
    (hm : o.obj.handle.mode ≠ .r) :
    ∃ d, o.typed L (Ty.cast x.dtype) = .ok d ∧ ∀ call : RegionCall (Ty.elem x.dtype), call.Valid d.base → ∀ scratch,
      ∃ ts, d.start call scratch = .ok ts ∧ ∀ is rs, Prog.Finished (Prog.interleaveS3 (C.key p) is (ts, b)).1 rs →
        ∀ r ∈ rs, r = .ok () ∨ (r = .throw .lengthError ∧ x.shards ≠ none) := by
  obtain ⟨b₀, a, A₀, os', ws, h⟩ := h
  obtain ⟨f, v, e⟩ := h.now hL
  obtain ⟨A', e1, e2⟩ := e.holds
  obtain ⟨d, g⟩ := e.objects o (h.objects o ho)
  obtain ⟨S, hS, _⟩ := AnyDataset.Files.inStore g.stands.wf ((g.files _ _).2 e1.elements)
  refine ⟨d, g.stands.typed, fun call hc scratch => ?_⟩
  obtain ⟨ts, t1, t2⟩ := AnyDataset.InStore.write_succeeds g.stands.wf (g.stands.base.2.2.trans (Props.canWrite_of_ne hm))
    (by
      rw [g.stands.base.2.1, h.is.chunks]
      have := (typed_fields g.stands.typed).1
      rw [this]
      exact hT) hS hc scratch
  refine ⟨ts, t1, fun is rs hf r hr => ?_⟩
  rcases t2 is rs hf r hr with e | ⟨e, sd, hsd⟩
  · exact .inl e
  · refine .inr ⟨e, ?_⟩
    rw [h.is.shards, if_neg (g.shards sd hsd)]
    exact fun e => by cases e

/-! ### Arrays -/

/-- an array of the library or of another program -/
def ArrayAt (C : S3Container) (L : Libs) (os : List (Path × S3DatasetObj)) (b : Bucket) (p : Path) (x : ArrayItem Ty) : Prop :=
  C.ArrayMade L os b p x ∨ C.ArrayFound L os b p x

theorem ArrayAt.exists_ (hL : L.Lawful) (h : C.ArrayAt L os b p x) : b.Exists (C.key p) :=
  h.elim (fun h => h.exists_ hL) (fun h => h.exists_ hL)

theorem ArrayAt.isSubGroup (hL : L.Lawful) {g ks : Path} (h : C.ArrayAt L os b (g ++ ks) x) (hg : ∀ n ∈ g, NodeName n)
    (hks : ks ≠ []) (hn : ∀ n ∈ ks, NodeName n) {m : FileMode} (hz : b.IsZarr (C.key g)) :
    ((C.group g m).handle.isSubGroup ks.text).Does 6 b (.ok false) b :=
  h.elim (fun h => h.isSubGroup hL hg hks hn hz) (fun h => h.isSubGroup hL hg hks hn hz)

theorem ArrayAt.mono (h : C.ArrayAt L os b p x) (ho : ∀ o, (p, o) ∈ os' → (p, o) ∈ os) : C.ArrayAt L os' b p x :=
  h.imp (fun h => h.mono ho) (fun h => h.mono ho)

theorem ArrayAt.elsewhere (h : C.ArrayAt L os b p x) (he : ∀ k, dirPrefix (C.key p) <+: k → b'.get k = b.get k) :
    C.ArrayAt L os b' p x :=
  h.imp (fun h => h.elsewhere he) (fun h => h.elsewhere he)

theorem ArrayAt.opened (hL : L.Lawful) {g ks : Path} (h : C.ArrayAt L os b (g ++ ks) x) (hg : ∀ n ∈ g, NodeName n)
    (hks : ks ≠ []) {m : FileMode} (hz : b.IsZarr (C.key g)) :
    ∃ o, ((C.group g m).handle.openDataset ks.text).Does 10 b (.ok o) b ∧ o.obj.handle.mode = m ∧
      o.obj.info.dtype = x.dtype ∧ o.obj.info.shape = x.shape ∧ o.obj.info.chunkShape = x.chunks ∧
      C.ArrayAt L ((g ++ ks, o) :: os) b (g ++ ks) x := by
  rcases h with h | h
  · obtain ⟨o, h1, h2, h3, h4, h5, h6⟩ := h.opened hL hg hks (m := m) hz
    exact ⟨o, h1, h2, h3, h4, h5, .inl h6⟩
  · obtain ⟨o, h1, h2, h3, h4, h5, h6⟩ := h.opened hL hg hks (m := m) hz
    exact ⟨o, h1, h2, h3, h4, h5, .inr h6⟩

theorem ArrayAt.wrote (hL : L.Lawful) (h : C.ArrayAt L os b p x) {o : S3DatasetObj} (ho : (p, o) ∈ os)
    (hm : o.obj.handle.mode ≠ .r) {d : AnyDataset (Ty.elem x.dtype)} (hd : o.typed L (Ty.cast x.dtype) = .ok d)
    {w : Write (Ty.elem x.dtype).T} (hp : d.PerformsS3 (C.key p) w b b') :
    C.ArrayAt L os b' p { x with content := override x.content w.off w.shape w.val } ∧
    ∀ k, ¬ dirPrefix (C.key p) <+: k → b'.get k = b.get k :=
  h.elim (fun h => (h.wrote hL ho hm hd hp).imp_left .inl) (fun h => (h.wrote hL ho hm hd hp).imp_left .inr)

theorem ArrayAt.refers (hL : L.Lawful) (h : C.ArrayAt L os b p x) {o : S3DatasetObj} (ho : (p, o) ∈ os) :
    (S3Target.dataset ⟨o.name, o.obj.handle⟩).Refers b C.layout ∧ o.name = C.key p :=
  h.elim (fun h => h.refers hL ho) (fun h => h.refers hL ho)

theorem ArrayAt.change (hL : L.Lawful) (h : C.ArrayAt L os b p x) {o : S3DatasetObj} (ho : (p, o) ∈ os)
    (hm : o.obj.handle.mode ≠ .r) {op : AttrOp} (hv : op.Valid) :
    ∃ b', ((S3Target.dataset ⟨o.name, o.obj.handle⟩).change op).Does 11 b (.ok ()) b' ∧ (b.WF → b'.WF) ∧
      (∀ k, ¬ dirPrefix (C.key p) <+: k → b'.get k = b.get k) ∧
      C.ArrayAt L os b' p { x with attrs := op.apply x.attrs } := by
  rcases h with h | h
  · obtain ⟨b', e1, e2, e3, e4⟩ := h.change hL ho hm hv
    exact ⟨b', e1, e2, e3, .inl e4⟩
  · obtain ⟨b', e1, e2, e3, e4⟩ := h.change hL ho hm hv
    exact ⟨b', e1, e2, e3, .inr e4⟩

theorem ArrayAt.read (hL : L.Lawful) (h : C.ArrayAt L os b p x) {o : S3DatasetObj} (ho : (p, o) ∈ os) :
    ∃ d A, o.typed L (Ty.cast x.dtype) = .ok d ∧ d.base.shape = x.shape ∧
    d.ReadsAsS3 (C.key p) b A ∧ ∀ i, InBox i x.shape → SameOrFill (Ty.elem x.dtype).ceq x.fill (A i) (x.content i) :=
  h.elim (fun h => h.read hL ho) (fun h => h.read hL ho)

theorem ArrayAt.write (hL : L.Lawful) (h : C.ArrayAt L os b p x) {o : S3DatasetObj} (ho : (p, o) ∈ os)
    (hT : (L.codec (Ty.elem x.dtype).size o.obj.settings).TotalFor (prod x.chunks * (Ty.elem x.dtype).size))
    (hm : o.obj.handle.mode ≠ .r) :
    ∃ d, o.typed L (Ty.cast x.dtype) = .ok d ∧ ∀ call : RegionCall (Ty.elem x.dtype), call.Valid d.base → ∀ scratch,
      ∃ ts, d.start call scratch = .ok ts ∧ ∀ is rs, Prog.Finished (Prog.interleaveS3 (C.key p) is (ts, b)).1 rs →
        ∀ r ∈ rs, r = .ok () ∨ (r = .throw .lengthError ∧ x.shards ≠ none) :=
  h.elim (fun h => h.write hL ho hT hm) (fun h => h.write hL ho hT hm)

theorem ArrayAt.attrs (h : C.ArrayAt L os b p x) : b.attributes (C.key p) C.layout = x.attrs := by
  rcases h with ⟨o₀, d₀, os', ws, h⟩ | ⟨b₀, a, A₀, os', ws, h⟩
  · exact h.attrs
  · exact h.attrs

end S3Container

end Z5
