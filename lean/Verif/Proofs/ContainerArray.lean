import Verif.Proofs.ForeignUse

/-!
# Arrays in containers (for C66)

An array that the library created, or one of another program.
-/

namespace Z5
open Spec

/-! ### What tells arrays from groups -/

theorem isSubGroup_of_notGroup {g : GroupHandle} {key p : Path} {σ : Fs} {La : Layout} (hp : g.path ++ key = p) (hn : σ.Node p La)
    (hk : σ.NotGroup p La) (hz : g.isZarr σ = (.ok La.isZarr, σ)) : g.isSubGroup key σ = (.ok false, σ) := by
  have hdir : σ (g.path ++ key) = some .dir := by rw [hp]; exact hn.dir
  cases La with
  | v2 =>
    have hk : σ (p ++ [".zgroup"]) = none := hk
    rw [isSubGroup_zarr hz, hdir, hp, hn.v2 rfl, hk]
    rfl
  | v3 =>
    obtain ⟨j, hj, ⟨l, rfl, _⟩, _⟩ := hn.v3 rfl
    have hk : (σ.docAt (p ++ ["zarr.json"])).bind (·.find "node_type") = some (.str "array") := hk
    have hd : σ.docAt (p ++ ["zarr.json"]) = some (.obj l) := by
      unfold Fs.docAt
      rw [hj]
    rw [hd] at hk
    have hk : assocGet l "node_type" = some (.str "array") := hk
    rw [isSubGroup_zarr hz, hdir, hp, hd, hj]
    simp only [Option.isSome_some, if_true]
    refine Prod.ext ?_ rfl
    show (Json.valueStr (.obj l) "node_type" "group").bind _ = _
    unfold Json.valueStr
    simp only [hk]
    rfl
  | n5 =>
    rw [isSubGroup_attributes_n5 (by rw [hp]; exact hn) hz, hp]
    rw [show ((n5DatasetKeys.filter fun k => (σ.attributes p .n5 k).isSome).length == 4) = true from hk]
    rfl

/-- four of the five attributes -/
theorem Layout.Says.count {a : ArrayDesc} {j : Json} (hsay : Layout.Says .n5 j a)
    (hno : j.find "compression" = none ∨ j.find "compressionType" = none) :
    (n5DatasetKeys.filter fun k => (j.find k).isSome).length = 4 := by
  have f1 : (j.find "dimensions").isSome = true ∧ (j.find "blockSize").isSome = true ∧ (j.find "dataType").isSome = true := by
    rcases hsay with hh | hh
    · obtain ⟨s, _, hs⟩ := hh.dtype
      rw [show j.find "dimensions" = _ from hh.shape, show j.find "blockSize" = _ from hh.chunks, show j.find "dataType" = _ from hs]
      exact ⟨rfl, rfl, rfl⟩
    · obtain ⟨s, _, hs⟩ := hh.dtype
      rw [show j.find "dimensions" = _ from hh.shape, show j.find "blockSize" = _ from hh.chunks, show j.find "dataType" = _ from hs]
      exact ⟨rfl, rfl, rfl⟩
  have f2 : ((j.find "compressionType").isSome = false ∧ (j.find "compression").isSome = true) ∨
      ((j.find "compressionType").isSome = true ∧ (j.find "compression").isSome = false) := by
    rcases hsay with hh | hh
    · obtain ⟨c, hc, _⟩ := hh.compression
      rcases hno with e | e
      · rw [hc] at e; cases e
      · left; rw [hc, e]; exact ⟨rfl, rfl⟩
    · obtain ⟨t, ht, _⟩ := hh.compression
      right
      rw [show j.find "compressionType" = _ from ht, hh.noCompression]
      exact ⟨rfl, rfl⟩
  unfold n5DatasetKeys
  rcases f2 with ⟨e1, e2⟩ | ⟨e1, e2⟩ <;>
    simp only [List.filter_cons, List.filter_nil, f1.1, f1.2.1, f1.2.2, e1, e2, if_true, Bool.false_eq_true, if_false] <;> rfl

/-- removal of an object with its elements -/
theorem removeDataset_run {E : Elem} {o : DatasetObj} {d : AnyDataset E} {L : Libs} {elem : FillVal → E.T} {p : Path} {σ : Fs}
    {S : List Nat → E.T} (h1 : o.typed L elem = .ok d) (hp : o.handle.path = p) (hm : o.handle.mode.canWrite = true)
    (hc : d.base.canWrite = true) (h3 : d.WF) (h4 : d.PlainKeys) (h5 : Tidy p d.IsKey σ) (hS : d.Holds p σ S)
    (hfit : prod (blocksPerDimension d.base.shape d.base.chunkShape) < 2 ^ 64) :
    o.removeDataset L elem σ = (.ok (), σ.without p) ∨
    ∃ sd σ', d = .sharded sd ∧ o.removeDataset L elem σ = (.throw .lengthError, σ') ∧ ∀ q, ¬ p <+: q → σ' q = σ q := by
  obtain ⟨ts, h2, h8⟩ := AnyDataset.removeDataset_calls h3 hc hfit
  have h6 : d.Intact (σ.chunks p) := by
    cases d with
    | plain ds => trivial
    | sharded sd => exact And.left hS
  obtain ⟨r, σ', g1, g2, g3, g4⟩ := runEach_calls h4 h8 h5 h6
  have hrun : ∀ r', FsProg.runEach (ts.map (·.onFiles p d.base.key.nested)) σ = (r', σ') →
      o.removeDataset L elem σ = (match r' with
      | .ok _ => o.handle.remove σ'
      | .throw e => (.throw e, σ')
      | .ub => (.ub, σ')) := by
    intro r' g1
    unfold DatasetObj.removeDataset
    rw [FsM.bind_run, FsM.lift_run, h1]
    simp only
    rw [FsM.bind_run, FsM.lift_run, h2]
    simp only
    rw [FsM.bind_run, hp, g1]
    cases r' <;> rfl
  rcases g4 with rfl | ⟨rfl, sd, rfl⟩
  · left
    rw [hrun _ g1]
    rw [← hp] at g2 g3 ⊢
    show o.handle.remove σ' = _
    rw [DatasetHandle.remove_run hm (by rw [g2.above _ (List.prefix_refl _)]; exact fun e => by cases e),
      without_eq fun q hq => g3.frame hq]
  · right
    exact ⟨sd, σ', rfl, hrun _ g1, fun q hq => g3.frame hq⟩

namespace Container

variable {Ty : ElemTypes} {C : Container} {L : Libs} {os os' : List (Path × DatasetObj)} {σ σ' : Fs} {p : Path} {x : ArrayItem Ty}

/-! ### Arrays of other programs -/

structure FoundHas (C : Container) (L : Libs) (os : List (Path × DatasetObj)) (σ : Fs) (p : Path) (x : ArrayItem Ty) (σ₀ : Fs)
    (a : ArrayDesc) (A₀ : List Nat → (Ty.elem x.dtype).T) (os' : List DatasetObj) (ws : List (Write (Ty.elem x.dtype).T)) :
    Prop where
  is : x.IsDescribed a C.layout
  start : σ₀.HoldsArray (C.root ++ p) C.layout a (Ty.elem x.dtype) (L.codec (Ty.elem x.dtype).size a.compression) x.fill A₀
  node : σ₀.Node (C.root ++ p) C.layout
  uses : Uses L (Ty.cast x.dtype) (C.root ++ p) C.layout σ₀ os' ws σ
  content : replay A₀ ws = x.content
  attrs : ∀ dh, (Target.dataset dh).shown C.layout (σ.attributes (C.root ++ p) C.layout) = x.attrs
  kind : σ.NotGroup (C.root ++ p) C.layout
  objects : ∀ o, (p, o) ∈ os → o ∈ os'

/-- what is known about it now -/
structure FoundNow (C : Container) (L : Libs) (σ : Fs) (p : Path) (x : ArrayItem Ty) (a : ArrayDesc) (os' : List DatasetObj) (f : Dbl)
    (v : FillVal) : Prop where
  fill : a.fill = some f
  cast : a.dtype.castFill f = .ok v
  value : x.fill = Ty.cast x.dtype v
  holds : ∃ A', σ.HoldsArray (C.root ++ p) C.layout a (Ty.elem x.dtype) (L.codec (Ty.elem x.dtype).size a.compression)
      (Ty.cast x.dtype v) A' ∧ ∀ y, InBox y x.shape → SameOrFill (Ty.elem x.dtype).ceq x.fill (A' y) (x.content y)
  node : σ.Node (C.root ++ p) C.layout
  objects : ∀ o ∈ os', ∃ d, ArrayObj L (Ty.cast x.dtype) (C.root ++ p) C.layout a v o d

variable {σ₀ : Fs} {a : ArrayDesc} {A₀ : List Nat → (Ty.elem x.dtype).T} {os₀ : List DatasetObj}
  {ws : List (Write (Ty.elem x.dtype).T)}

theorem FoundHas.now (hL : L.Lawful) (h : C.FoundHas L os σ p x σ₀ a A₀ os₀ ws) : ∃ f v, C.FoundNow L σ p x a os₀ f v := by
  obtain ⟨f, v, h1, h2, h3⟩ := h.is.fill
  have hst := h.start
  rw [h3] at hst
  rw [← h.is.dtype] at h2
  obtain ⟨⟨A', e1, e2⟩, e3, e4⟩ := h.uses.effect hL h.is.supported h1 h2 hst h.node
  refine ⟨f, v, h1, h2, h3, ⟨A', e1, fun y hy => ?_⟩, e3, e4⟩
  have := e2 y (by rw [h.is.shape]; exact hy)
  rw [h.content] at this
  rw [h3]
  exact this

def ArrayFound (C : Container) (L : Libs) (os : List (Path × DatasetObj)) (σ : Fs) (p : Path) (x : ArrayItem Ty) : Prop :=
  ∃ σ₀ a A₀ os' ws, C.FoundHas L os σ p x σ₀ a A₀ os' ws

theorem ArrayFound.dir (hL : L.Lawful) (h : C.ArrayFound L os σ p x) : ∀ q, q <+: C.root ++ p → σ q = some .dir := by
  obtain ⟨σ₀, a, A₀, os', ws, h⟩ := h
  obtain ⟨f, v, e⟩ := h.now hL
  obtain ⟨A', e1, _⟩ := e.holds
  exact e1.tidy.above

theorem ArrayFound.isSubGroup (hL : L.Lawful) {g key : Path} (h : C.ArrayFound L os σ (g ++ key) x) {m : FileMode}
    (hz : (C.group g m).handle.isZarr σ = (.ok C.isZarr, σ)) :
    (C.group g m).handle.isSubGroup key σ = (.ok false, σ) := by
  obtain ⟨σ₀, a, A₀, os', ws, h⟩ := h
  obtain ⟨f, v, e⟩ := h.now hL
  exact isSubGroup_of_notGroup (List.append_assoc ..) e.node h.kind (by rw [layout_isZarr]; exact hz)

theorem ArrayFound.mono (h : C.ArrayFound L os σ p x) (ho : ∀ o, (p, o) ∈ os' → (p, o) ∈ os) : C.ArrayFound L os' σ p x := by
  obtain ⟨σ₀, a, A₀, os'', ws, h⟩ := h
  exact ⟨σ₀, a, A₀, os'', ws, { h with objects := fun o e => h.objects o (ho o e) }⟩

theorem ArrayFound.elsewhere (h : C.ArrayFound L os σ p x)
    (he : ∀ q, q <+: C.root ++ p ∨ C.root ++ p <+: q → σ' q = σ q) : C.ArrayFound L os σ' p x := by
  obtain ⟨σ₀, a, A₀, os', ws, h⟩ := h
  have hm : ∀ n, MetaName n → σ' (C.root ++ p ++ [n]) = σ (C.root ++ p ++ [n]) := fun n _ => he _ (.inr (List.prefix_append _ _))
  refine ⟨σ₀, a, A₀, os', ws, { h with uses := h.uses.elsewhere he, attrs := ?_, kind := h.kind.congr hm }⟩
  rw [attributes_congr hm]
  exact h.attrs

/-- opening -/
theorem ArrayFound.opened (hL : L.Lawful) {g key : Path} (h : C.ArrayFound L os σ (g ++ key) x) {m : FileMode}
    (hz : (C.group g m).handle.isZarr σ = (.ok C.isZarr, σ)) :
    ∃ o, (C.group g m).handle.openDataset key σ = (.ok o, σ) ∧ o.handle.mode = m ∧ o.info.dtype = x.dtype ∧
      o.info.shape = x.shape ∧ o.info.chunkShape = x.chunks ∧ C.ArrayFound L ((g ++ key, o) :: os) σ (g ++ key) x := by
  obtain ⟨σ₀, a, A₀, os', ws, h⟩ := h
  obtain ⟨f, v, e⟩ := h.now hL
  obtain ⟨A', e1, _⟩ := e.holds
  have hp : (C.group g m).handle.path ++ key = C.root ++ (g ++ key) := List.append_assoc ..
  have hz' : (C.group g m).handle.isZarr σ = (.ok C.layout.isZarr, σ) := by rw [layout_isZarr]; exact hz
  obtain ⟨o, d, h1, h2, h3, h4, _⟩ :=
    document_open (elem := Ty.cast x.dtype) hL (e1.tidy.above _ (List.prefix_refl _)) e1.document e1.others h.is.supported e.fill e.cast hp hz'
  refine ⟨o, h1, h3, h4.dtype.trans h.is.dtype, h4.shape.trans h.is.shape, h4.chunks.trans h.is.chunks,
    σ₀, a, A₀, o :: os', ws, { h with uses := .opened h.uses hp hz' h1, objects := ?_ }⟩
  intro o' ho'
  rcases List.mem_cons.1 ho' with e | e
  · cases e; exact List.mem_cons_self ..
  · exact List.mem_cons_of_mem _ (h.objects o' e)

/-- writing -/
theorem ArrayFound.wrote (hL : L.Lawful) (h : C.ArrayFound L os σ p x) {o : DatasetObj} (ho : (p, o) ∈ os)
    (hm : o.handle.mode ≠ .r) {d : AnyDataset (Ty.elem x.dtype)} (hd : o.typed L (Ty.cast x.dtype) = .ok d)
    {w : Write (Ty.elem x.dtype).T} (hp : d.Performs (C.root ++ p) w σ σ') :
    C.ArrayFound L os σ' p { x with content := override x.content w.off w.shape w.val } ∧
    ∀ q, ¬ C.root ++ p <+: q → σ' q = σ q := by
  obtain ⟨σ₀, a, A₀, os', ws, h⟩ := h
  obtain ⟨f, v, e⟩ := h.now hL
  obtain ⟨A', e1, _⟩ := e.holds
  have hw := Props.canWrite_of_ne hm
  obtain ⟨d', g⟩ := e.objects o (h.objects o ho)
  have := g.stands.typed
  rw [hd] at this
  cases this
  obtain ⟨_, p2, _⟩ := hp.effect g.stands.wf g.stands.plain (g.stands.base.2.2.trans hw) (g.key ▸ e1.tidy)
  have hmeta : ∀ n, MetaName n → σ' (C.root ++ p ++ [n]) = σ (C.root ++ p ++ [n]) := fun n hn => AnyDataset.onlyChunks_meta p2 hn
  refine ⟨⟨σ₀, a, A₀, os', ws ++ [w], { h.is with }, h.start, h.node, h.uses.wrote (h.objects o ho) hw hd hp, ?_, ?_,
    h.kind.congr hmeta, h.objects⟩, fun q hq => p2.frame hq⟩
  · rw [replay_concat, h.content]
  · show ∀ dh, (Target.dataset dh).shown _ _ = x.attrs
    rw [attributes_congr hmeta]
    exact h.attrs

theorem ArrayFound.refers (hL : L.Lawful) (h : C.ArrayFound L os σ p x) {o : DatasetObj} (ho : (p, o) ∈ os) :
    (Target.dataset o.handle).Refers σ C.layout ∧ o.handle.path = C.root ++ p := by
  obtain ⟨σ₀, a, A₀, os', ws, h⟩ := h
  obtain ⟨f, v, e⟩ := h.now hL
  obtain ⟨A', e1, _⟩ := e.holds
  obtain ⟨d', g⟩ := e.objects o (h.objects o ho)
  refine ⟨⟨?_, ?_, ?_⟩, g.stands.path⟩
  · show σ.Node o.handle.path _
    rw [g.stands.path]
    exact e.node
  · show o.handle.isZarr σ = _
    rw [dataset_isZarr, g.cache]
  · intro _ _ el
    show σ (o.handle.path ++ _) ≠ none
    rw [g.stands.path]
    obtain ⟨j, hj, _⟩ := e1.document
    rw [el] at hj
    have := docAt_isSome hj
    intro e'
    rw [show σ (C.root ++ p ++ [Layout.datasetFile .n5]) = none from e'] at this
    cases this

/-- changing attributes -/
theorem ArrayFound.change (hL : L.Lawful) (h : C.ArrayFound L os σ p x) (hσ : σ.WF) {o : DatasetObj} (ho : (p, o) ∈ os)
    (hm : o.handle.mode ≠ .r) {op : AttrOp} (hv : op.Valid) :
    (op.names ((Target.dataset o.handle).locked C.layout) = true →
      (Target.dataset o.handle).change op σ = (.throw .runtimeError, σ)) ∧
    (op.names ((Target.dataset o.handle).locked C.layout) = false →
      ∃ σ', (Target.dataset o.handle).change op σ = (.ok (), σ') ∧ σ'.WF ∧
        (∀ q, q ≠ C.root ++ p ++ [C.layout.file] → σ' q = σ q) ∧
        C.ArrayFound L os σ' p { x with attrs := op.apply x.attrs }) := by
  obtain ⟨hr, hpath⟩ := h.refers hL ho
  obtain ⟨c1, c2⟩ := c29_change (t := .dataset o.handle) (Props.canWrite_of_ne hm) hr hv
  refine ⟨c1, fun hn => ?_⟩
  obtain ⟨σ', e, hoa, _⟩ := c2 hn
  have hnode := hr.node
  rw [show (Target.dataset o.handle).path = C.root ++ p from hpath] at hoa hnode
  refine ⟨σ', e, onlyAttributes_wf hoa hnode hσ, hoa.files, ?_⟩
  obtain ⟨σ₀, a, A₀, os', ws, h⟩ := h
  have hs := h.uses.annotated (h.objects o ho) hv
  rw [e] at hs
  refine ⟨σ₀, a, A₀, os', ws, { h.is with }, h.start, h.node, hs, h.content, fun dh => ?_, ?_, h.objects⟩
  · show (Target.dataset dh).shown C.layout (σ'.attributes (C.root ++ p) C.layout) = op.apply x.attrs
    rw [hoa.attributes, shown_apply hn, h.attrs]
  · refine h.kind.attributes hoa fun e k hk => ?_
    rw [← e]
    exact AttrOp.apply_of_not_names (h := hn) (by rw [e]; exact hk)

/-- what `del` does when it succeeds -/
theorem ArrayFound.del (hL : L.Lawful) {g : Path} {n : PyName} {x : ArrayItem Ty} (h : C.ArrayFound L os σ (g ++ n.parts) x) {m : FileMode}
    (hz : (C.group g m).handle.isZarr σ = (.ok C.isZarr, σ)) (hm : m ≠ .r) :
    (C.group g m).delItem n L Ty σ = (.ok (), σ.without (C.root ++ (g ++ n.parts))) ∨
    x.shards ≠ none ∧
    ∃ σ', (C.group g m).delItem n L Ty σ = (.throw .lengthError, σ') ∧ ∀ q, ¬ C.root ++ (g ++ n.parts) <+: q → σ' q = σ q := by
  have hb := h.isSubGroup hL hz
  obtain ⟨o, ho, hom, hdt, _, _, h'⟩ := h.opened hL hz
  have hp : (C.group g m).handle.path ++ n.parts = C.root ++ (g ++ n.parts) := List.append_assoc ..
  have hdir : σ ((C.group g m).handle.path ++ n.parts) = some .dir := by rw [hp]; exact h.dir hL _ (List.prefix_refl _)
  have hw : o.handle.mode.canWrite = true := by rw [hom]; exact Props.canWrite_of_ne hm
  have hrun : ∀ dt, o.info.dtype = dt → (C.group g m).delItem n L Ty σ = o.removeDataset L (Ty.cast dt) σ := by
    rintro _ rfl
    have hget : (C.group g m).getItem n σ = (.ok (.inr o), σ) := by
      unfold PyGroup.getItem
      rw [FsM.bind_run, Props.contains_run, hdir]
      simp only [isDirectory, Bool.not_true, Bool.false_eq_true, if_false]
      rw [FsM.bind_run, hb]
      simp only [Bool.false_eq_true, if_false]
      rw [FsM.bind_run, ho]
      rfl
    unfold PyGroup.delItem
    rw [if_neg (by rw [show (C.group g m).handle.mode.canWrite = true from Props.canWrite_of_ne hm]; decide), FsM.bind_run,
      Props.contains_run, hdir]
    simp only [isDirectory, Bool.not_true, Bool.false_eq_true, if_false]
    rw [FsM.bind_run, hb]
    simp only [Bool.false_eq_true, if_false]
    rw [FsM.bind_run, hget]
  rw [hrun _ hdt]
  obtain ⟨σ₀, a, A₀, os', ws, h'⟩ := h'
  obtain ⟨f, v, e⟩ := h'.now hL
  obtain ⟨A', e1, _⟩ := e.holds
  obtain ⟨d, g⟩ := e.objects o (h'.objects o (List.mem_cons_self ..))
  obtain ⟨S, hS, _⟩ := AnyDataset.Files.holds g.stands.wf ((g.files _ _).2 e1.elements)
  rcases removeDataset_run g.stands.typed g.stands.path hw (g.stands.base.2.2.trans hw) g.stands.wf g.stands.plain (g.key ▸ e1.tidy) hS
    (by rw [g.stands.base.1, g.stands.base.2.1, h'.is.shape, h'.is.chunks]; exact h'.is.number) with r | ⟨sd, σ', r1, r2, r3⟩
  · exact .inl r
  · refine .inr ⟨?_, σ', r2, r3⟩
    rw [h'.is.shards, if_neg (g.shards sd r1)]
    exact fun e => by cases e

/-- reading -/
theorem ArrayFound.read (hL : L.Lawful) (h : C.ArrayFound L os σ p x) {o : DatasetObj} (ho : (p, o) ∈ os) :
    ∃ d A, o.typed L (Ty.cast x.dtype) = .ok d ∧ d.base.shape = x.shape ∧
    d.ReadsAs (C.root ++ p) σ A ∧ ∀ i, InBox i x.shape → SameOrFill (Ty.elem x.dtype).ceq x.fill (A i) (x.content i) := by
  obtain ⟨σ₀, a, A₀, os', ws, h⟩ := h
  obtain ⟨f, v, e⟩ := h.now hL
  obtain ⟨A', e1, e2⟩ := e.holds
  obtain ⟨d, g⟩ := e.objects o (h.objects o ho)
  exact ⟨d, A', g.stands.typed, g.stands.base.1.trans h.is.shape,
    AnyDataset.Files.readsAs g.stands.wf g.stands.plain (g.key ▸ e1.tidy) ((g.files _ _).2 e1.elements), e2⟩

/-- writing succeeds -/
theorem ArrayFound.write (hL : L.Lawful) (h : C.ArrayFound L os σ p x) {o : DatasetObj} (ho : (p, o) ∈ os)
    (hT : (L.codec (Ty.elem x.dtype).size o.settings).TotalFor (prod x.chunks * (Ty.elem x.dtype).size)) (hm : o.handle.mode ≠ .r) :
    ∃ d, o.typed L (Ty.cast x.dtype) = .ok d ∧ ∀ call : RegionCall (Ty.elem x.dtype), call.Valid d.base → ∀ scratch,
      ∃ ts, d.start call scratch = .ok ts ∧ ∀ is rs, FsProg.Finished (FsProg.interleave is (d.onFiles (C.root ++ p) ts, σ)).1 rs →
        ∀ r ∈ rs, r = .ok () ∨ (r = .throw .lengthError ∧ x.shards ≠ none) := by
  obtain ⟨σ₀, a, A₀, os', ws, h⟩ := h
  obtain ⟨f, v, e⟩ := h.now hL
  obtain ⟨A', e1, e2⟩ := e.holds
  obtain ⟨d, g⟩ := e.objects o (h.objects o ho)
  obtain ⟨S, hS, _⟩ := AnyDataset.Files.holds g.stands.wf ((g.files _ _).2 e1.elements)
  refine ⟨d, g.stands.typed, fun call hc scratch => ?_⟩
  obtain ⟨ts, t1, t2⟩ := Props.holds_write_succeeds g.stands.wf g.stands.plain (g.stands.base.2.2.trans (Props.canWrite_of_ne hm))
    (by
      rw [g.stands.base.2.1, h.is.chunks]
      have := (typed_fields g.stands.typed).1
      rw [this]
      exact hT) (g.key ▸ e1.tidy) hS hc scratch
  refine ⟨ts, t1, fun is rs hf r hr => ?_⟩
  rcases t2 is rs hf r hr with e | ⟨e, sd, hsd⟩
  · exact .inl e
  · refine .inr ⟨e, ?_⟩
    rw [h.is.shards, if_neg (g.shards sd hsd)]
    exact fun e => by cases e

/-! ### Arrays -/

/-- an array of the library or of another program -/
def ArrayAt (C : Container) (L : Libs) (os : List (Path × DatasetObj)) (σ : Fs) (p : Path) (x : ArrayItem Ty) : Prop :=
  C.ArrayMade L os σ p x ∨ C.ArrayFound L os σ p x

theorem ArrayAt.dir (hL : L.Lawful) (h : C.ArrayAt L os σ p x) : ∀ q, q <+: C.root ++ p → σ q = some .dir :=
  h.elim (fun h => h.dir hL) (fun h => h.dir hL)

theorem ArrayAt.isSubGroup (hL : L.Lawful) {g key : Path} (h : C.ArrayAt L os σ (g ++ key) x) {m : FileMode}
    (hz : (C.group g m).handle.isZarr σ = (.ok C.isZarr, σ)) :
    (C.group g m).handle.isSubGroup key σ = (.ok false, σ) :=
  h.elim (fun h => h.isSubGroup hL hz) (fun h => h.isSubGroup hL hz)

theorem ArrayAt.mono (h : C.ArrayAt L os σ p x) (ho : ∀ o, (p, o) ∈ os' → (p, o) ∈ os) : C.ArrayAt L os' σ p x :=
  h.imp (fun h => h.mono ho) (fun h => h.mono ho)

theorem ArrayAt.elsewhere (h : C.ArrayAt L os σ p x)
    (he : ∀ q, q <+: C.root ++ p ∨ C.root ++ p <+: q → σ' q = σ q) : C.ArrayAt L os σ' p x :=
  h.imp (fun h => h.elsewhere he) (fun h => h.elsewhere he)

theorem ArrayAt.opened (hL : L.Lawful) {g key : Path} (h : C.ArrayAt L os σ (g ++ key) x) {m : FileMode}
    (hz : (C.group g m).handle.isZarr σ = (.ok C.isZarr, σ)) :
    ∃ o, (C.group g m).handle.openDataset key σ = (.ok o, σ) ∧ o.handle.mode = m ∧ o.info.dtype = x.dtype ∧
      o.info.shape = x.shape ∧ o.info.chunkShape = x.chunks ∧ C.ArrayAt L ((g ++ key, o) :: os) σ (g ++ key) x := by
  rcases h with h | h
  · obtain ⟨o, h1, h2, h3, h4, h5, h6⟩ := h.opened hL hz
    exact ⟨o, h1, h2, h3, h4, h5, .inl h6⟩
  · obtain ⟨o, h1, h2, h3, h4, h5, h6⟩ := h.opened hL hz
    exact ⟨o, h1, h2, h3, h4, h5, .inr h6⟩

theorem ArrayAt.wrote (hL : L.Lawful) (h : C.ArrayAt L os σ p x) {o : DatasetObj} (ho : (p, o) ∈ os)
    (hm : o.handle.mode ≠ .r) {d : AnyDataset (Ty.elem x.dtype)} (hd : o.typed L (Ty.cast x.dtype) = .ok d)
    {w : Write (Ty.elem x.dtype).T} (hp : d.Performs (C.root ++ p) w σ σ') :
    C.ArrayAt L os σ' p { x with content := override x.content w.off w.shape w.val } ∧
    ∀ q, ¬ C.root ++ p <+: q → σ' q = σ q :=
  h.elim (fun h => (h.wrote hL ho hm hd hp).imp_left .inl) (fun h => (h.wrote hL ho hm hd hp).imp_left .inr)

theorem ArrayAt.refers (hL : L.Lawful) (h : C.ArrayAt L os σ p x) {o : DatasetObj} (ho : (p, o) ∈ os) :
    (Target.dataset o.handle).Refers σ C.layout ∧ o.handle.path = C.root ++ p :=
  h.elim (fun h => h.refers hL ho) (fun h => h.refers hL ho)

theorem ArrayAt.change (hL : L.Lawful) (h : C.ArrayAt L os σ p x) (hσ : σ.WF) {o : DatasetObj} (ho : (p, o) ∈ os)
    (hm : o.handle.mode ≠ .r) {op : AttrOp} (hv : op.Valid) :
    (op.names ((Target.dataset o.handle).locked C.layout) = true →
      (Target.dataset o.handle).change op σ = (.throw .runtimeError, σ)) ∧
    (op.names ((Target.dataset o.handle).locked C.layout) = false →
      ∃ σ', (Target.dataset o.handle).change op σ = (.ok (), σ') ∧ σ'.WF ∧
        (∀ q, q ≠ C.root ++ p ++ [C.layout.file] → σ' q = σ q) ∧
        C.ArrayAt L os σ' p { x with attrs := op.apply x.attrs }) := by
  rcases h with h | h
  · obtain ⟨h1, h2⟩ := h.change hL hσ ho hm hv
    refine ⟨h1, fun e => ?_⟩
    obtain ⟨σ', e1, e2, e3, e4⟩ := h2 e
    exact ⟨σ', e1, e2, e3, .inl e4⟩
  · obtain ⟨h1, h2⟩ := h.change hL hσ ho hm hv
    refine ⟨h1, fun e => ?_⟩
    obtain ⟨σ', e1, e2, e3, e4⟩ := h2 e
    exact ⟨σ', e1, e2, e3, .inr e4⟩

theorem ArrayAt.attrs (h : C.ArrayAt L os σ p x) (dh : DatasetHandle) :
    (Target.dataset dh).shown C.layout (σ.attributes (C.root ++ p) C.layout) = x.attrs := by
  rcases h with ⟨o₀, d₀, os', ws, h⟩ | ⟨σ₀, a, A₀, os', ws, h⟩
  · rw [← h.attrs]
    cases C.layout <;> rfl
  · exact h.attrs dh

end Container
end Z5
