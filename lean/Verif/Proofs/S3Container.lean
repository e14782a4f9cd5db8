import Verif.Proofs.Container
import Verif.Proofs.ContainerHist
import Verif.Proofs.S3Paths
import Verif.Props.S3Persist
import Verif.Props.S3Python
import Verif.Props.S3Visit

/-!
# The invariant of a container on S3: groups and arrays (for C79)
-/

namespace Z5
open Spec Prog

/-! ### Buckets in order -/

theorem erase_wf {b : Bucket} {ks : List Key} (hb : b.WF) : (b.erase ks).WF := List.Pairwise.sublist List.filter_sublist hb

theorem onChunk_wf {b : Bucket} {name k : Key} {f : Option Bytes → Option Bytes} (hb : b.WF) : (b.onChunk name k f).WF := by
  unfold Bucket.onChunk
  split
  · exact hb
  · split
    · exact put_wf hb
    · exact erase_wf hb

theorem interleaveS3_wf {name : Key} {α : Type} : ∀ (is : List Nat) {c : List (Prog α) × Bucket}, c.2.WF →
    (interleaveS3 name is c).2.WF
  | [], _, h => h
  | i :: is, (ts, b), h => by
    rw [interleaveS3]
    refine interleaveS3_wf is ?_
    unfold stepS3
    split
    · exact onChunk_wf h
    · exact h

theorem performsS3_wf {E : Elem} {d : AnyDataset E} {name : Key} {w : Write E.T} {b b' : Bucket} (h : d.PerformsS3 name w b b')
    (hb : b.WF) : b'.WF := by
  have key : ∀ (ts : List (Prog Unit)) (is : List Nat) (b' : Bucket), AnyDataset.CompletesS3 name ts is b b' → b'.WF := by
    rintro ts is b' ⟨rs, _, _, rfl⟩
    exact interleaveS3_wf is hb
  cases h with
  | region call val scratch ts is _ _ _ h => exact key _ _ _ h
  | chunk c data val is _ _ _ h => exact key _ _ _ h
  | remove c is _ h => exact key _ _ _ h

theorem remove_wf {h : S3Handle} {w : World} (hes : ∀ e ∈ w.events, e.Reliable) (hw : w.bucket.WF) :
    (h.remove w).2.bucket.WF := by
  have hc : ∀ e ∈ w.events, ∀ b : Bucket, b.WF → (e.change b).WF := fun e he b hb => by rw [(hes e he).1]; exact hb
  have : (h.remove).Keeps w.events Bucket.WF := by
    unfold S3Handle.remove
    split
    · exact .lift _ _ _
    · exact (listAllKeys_keeps hc).bind fun _ => deleteFrom_keeps hc (fun _ _ _ hb => erase_wf hb) 0
  exact (this w List.suffix_rfl hw).2

theorem s3File_wf {a : S3FileArgs} {w : World} (hes : ∀ e ∈ w.events, e.Reliable) (hw : w.bucket.WF) :
    (s3File a w).2.bucket.WF := by
  have hc : ∀ e ∈ w.events, ∀ b : Bucket, b.WF → (e.change b).WF := fun e he b hb => by rw [(hes e he).1]; exact hb
  by_cases hz : a.useZarr = some false
  · rw [(c77_refused w).1 hz]
    exact hw
  cases hm : pyFileModes.lookup a.mode with
  | none =>
    unfold s3File
    rw [if_neg hz, hm]
    exact hw
  | some mode =>
    rw [s3File_eq hz hm]
    have hk : S3M.Keeps (do
        if (← S3Handle.exist ⟨a.name, mode⟩) && mode.shouldTruncate then S3Handle.remove ⟨a.name, mode⟩
        s3FileTail ⟨a.name, mode⟩ a.zarrFormat (a.file mode)) w.events Bucket.WF := by
      have htail := s3FileTail_keeps (h := ⟨a.name, mode⟩) (zf := a.zarrFormat) (f := a.file mode) (es := w.events)
        (P := Bucket.WF) hc (fun _ _ _ hb => put_wf hb)
      refine (exist_keeps hc).bind fun e => ?_
      dsimp only
      split
      · refine S3M.Keeps.bind ?_ fun _ => htail
        unfold S3Handle.remove
        split
        · exact .lift _ _ _
        · exact (listAllKeys_keeps hc).bind fun _ => deleteFrom_keeps hc (fun _ _ _ hb => erase_wf hb) 0
      · exact htail
    exact (hk w List.suffix_rfl hw).2

/-- the events that are left after a call are some of those before it -/
theorem S3M.Does.rest {α : Type} {x : S3M α} {n : Nat} {b b' : Bucket} {r : Res α} (hx : x.Does n b r b') {es : List Event}
    (hes : ∀ e ∈ es, e.Reliable) {a : α} {w : World} (h : x ⟨es, b⟩ = (some (.ok a), w)) :
    r = .ok a ∧ w.bucket = b' ∧ w.events <:+ es := by
  rcases hx es hes with ⟨es', h1, _, h2⟩ | ⟨es', b'', _, h2, _⟩ | ⟨_, h2⟩
  · rw [h] at h2
    cases h2
    exact ⟨rfl, rfl, h1⟩
  · rw [h] at h2
    cases h2
  · rw [h] at h2
    cases h2

theorem S3M.lift_ok {α : Type} {r : Res α} {a : α} {w w' : World} (h : S3M.lift r w = (some (.ok a), w')) : r = .ok a ∧ w' = w := by
  obtain ⟨h1, h2⟩ := Prod.mk.inj h
  exact ⟨Option.some.inj h1, h2.symm⟩

/-- the first call of two, one that changes nothing -/
theorem S3M.Does.step {α β : Type} {x : S3M α} {f : α → S3M β} {n : Nat} {b b' : Bucket} {r : Res α} (hx : x.Does n b r b')
    {es : List Event} (hes : ∀ e ∈ es, e.Reliable) {c : β} {w : World} (h : (x >>= f) ⟨es, b⟩ = (some (.ok c), w)) :
    ∃ a es', r = .ok a ∧ es' <:+ es ∧ f a ⟨es', b'⟩ = (some (.ok c), w) := by
  obtain ⟨a, w1, h1, h2⟩ := S3M.bind_ok h
  obtain ⟨e1, e2, e3⟩ := hx.rest hes h1
  refine ⟨a, w1.events, e1, e3, ?_⟩
  rw [← e2]
  exact h2

namespace S3Container

variable {C : S3Container}

theorem layout_cases : C.layout = .v2 ∨ C.layout = .v3 := by
  unfold layout Layout.of
  by_cases h : C.format = 3 <;> simp [h]

theorem layout_isZarr : C.layout.isZarr = true := by
  rcases layout_cases (C := C) with h | h <;> rw [h] <;> rfl

theorem layout_file_meta : MetaName C.layout.file := by
  cases C.layout <;> simp [Layout.file, MetaName]

theorem meta_slash {n : String} (h : MetaName n) : '/' ∉ n.toList := by
  rcases h with h | h | h | h | h <;> subst h <;> decide

/-- what makes a node a group -/
def GroupKind (C : S3Container) (b : Bucket) (p : Path) : Prop :=
  match C.layout with
  | .v2 => ∃ j, b.get (docKey (C.key p) ".zgroup") = some (.doc j) ∧ j.find "zarr_format" = some (.int C.format)
  | .v3 => (b.docAt (docKey (C.key p) "zarr.json")).bind (·.find "node_type") = some (.str "group") ∧
      (b.docAt (docKey (C.key p) "zarr.json")).bind (·.find "zarr_format") = some (.int 3)
  | .n5 => False

structure GroupAt (C : S3Container) (b : Bucket) (p : Path) (A : AttrMap) : Prop where
  node : b.Node (C.key p) C.layout
  kind : C.GroupKind b p
  attrs : b.attributes (C.key p) C.layout = A
  full : b.get (docKey (C.key p) C.layout.file) ≠ some (.file [])

variable {b b' : Bucket} {p : Path} {A : AttrMap}

theorem docAt_congr {k : Key} (h : b'.get k = b.get k) : b'.docAt k = b.docAt k := by
  unfold Bucket.docAt
  rw [h]

theorem GroupAt.congr (h : C.GroupAt b p A) (hm : ∀ n, MetaName n → b'.get (docKey (C.key p) n) = b.get (docKey (C.key p) n)) :
    C.GroupAt b' p A where
  node := h.node.congr hm
  attrs := by rw [Bucket.attributes_congr hm]; exact h.attrs
  full := by rw [hm _ layout_file_meta]; exact h.full
  kind := by
    have hk := h.kind
    unfold GroupKind at hk ⊢
    cases e : C.layout with
    | v2 => rw [e] at hk; simp only at hk ⊢; rw [hm _ (by simp [MetaName])]; exact hk
    | v3 => rw [e] at hk; simp only at hk ⊢; rw [docAt_congr (hm _ (by simp [MetaName]))]; exact hk
    | n5 => rw [e] at hk; exact hk.elim

/-- the object that makes it a group -/
theorem GroupAt.marker (h : C.GroupAt b p A) : ∃ m ∈ [".zgroup", "zarr.json"], (b.get (docKey (C.key p) m)).isSome = true := by
  have hk := h.kind
  unfold GroupKind at hk
  cases e : C.layout with
  | v2 =>
    rw [e] at hk
    obtain ⟨j, hj, _⟩ := hk
    exact ⟨".zgroup", by simp, by rw [hj]; rfl⟩
  | v3 =>
    rw [e] at hk
    replace hk := hk.1
    cases hd : b.docAt (docKey (C.key p) "zarr.json") with
    | none => rw [hd] at hk; cases hk
    | some j => exact ⟨"zarr.json", by simp, docAt_some hd⟩
  | n5 => rw [e] at hk; exact hk.elim

theorem GroupAt.isZarr (h : C.GroupAt b p A) : b.IsZarr (C.key p) := by
  obtain ⟨m, hm, h1⟩ := h.marker
  exact ⟨m, hm, .inl (mem_keys.2 h1)⟩

theorem GroupAt.exists_ (h : C.GroupAt b p A) : b.Exists (C.key p) := by
  obtain ⟨m, _, h1⟩ := h.marker
  exact ⟨_, mem_keys.2 h1, dirPrefix_docKey _ _⟩

/-- `isSubGroup` of a node of version 3 -/
theorem isSubGroup_v3 {h : S3Handle} {key : Key} {t : String} (hz : b.IsZarr h.name) (hk : key ≠ [])
    (h3 : (b.docAt (docKey (joinKey h.name key) "zarr.json")).bind (·.find "node_type") = some (.str t)) :
    (h.isSubGroup key).Does 6 b (.ok (decide (t = "group"))) b := by
  classical
  have e : joinKey h.name (key ++ '/' :: "zarr.json".toList) = docKey (joinKey h.name key) "zarr.json" :=
    (joinKey_join hk).symm
  cases hd : b.docAt (docKey (joinKey h.name key) "zarr.json") with
  | none => rw [hd] at h3; cases h3
  | some j =>
    rw [hd] at h3
    have h3 : j.find "node_type" = some (.str t) := h3
    have hg : b.get (docKey (joinKey h.name key) "zarr.json") = some (.doc j) := by
      unfold Bucket.docAt at hd
      split at hd
      · next e => rw [e]; cases hd; rfl
      · cases hd; cases h3
      · cases hd
    have hv : Json.valueStr j "node_type" "group" = .ok t := by
      unfold Json.valueStr
      cases j with
      | obj l =>
        have h3 : assocGet l "node_type" = some (.str t) := h3
        simp only [h3]
        rfl
      | _ => cases h3
    unfold S3Handle.isSubGroup
    have h1 := root_isZarr h b
    rw [decide_eq_true hz] at h1
    refine h1.bind (m := 2) ?_
    have h2 := objectExists_does (joinKey h.name (key ++ '/' :: "zarr.json".toList)) b
    rw [e, hg] at h2
    show ((do
      if ← objectExists (joinKey h.name (key ++ '/' :: "zarr.json".toList)) then _ else _) : S3M Bool).Does 2 b _ b
    rw [e]
    refine h2.bind (m := 1) ?_
    have h4 := getObject_does (docKey (joinKey h.name key) "zarr.json") b
    rw [hg, ← e] at h4
    refine S3M.Does.bind (n := 1) (m := 0) h4 ?_
    show ((do return decide ((← S3M.lift (j.valueStr "node_type" "group")) = "group")) : S3M Bool).Does 0 b _ b
    rw [hv]
    exact (S3M.Does.lift (.ok t) b).bind (m := 0) (.pure _ _)

theorem GroupAt.isSubGroup {g ks : Path} (h : C.GroupAt b (g ++ ks) A) (hg : ∀ n ∈ g, NodeName n) (hks : ks ≠ [])
    (hn : ∀ n ∈ ks, NodeName n) {m : FileMode} (hz : b.IsZarr (C.key g)) :
    ((C.group g m).handle.isSubGroup ks.text).Does 6 b (.ok true) b := by
  have hj : joinKey (C.group g m).handle.name ks.text = C.key (g ++ ks) := joinKey_key hg hks
  have ht := text_ne_nil hks hn
  have hk := h.kind
  unfold GroupKind at hk
  have hnode := h.node
  cases e : C.layout with
  | v2 =>
    rw [e] at hk hnode
    have he : ∀ n : String, joinKey (C.group g m).handle.name (ks.text ++ '/' :: n.toList) = docKey (C.key (g ++ ks)) n :=
      fun n => by rw [← hj]; exact (joinKey_join ht).symm
    have := isSubGroup_v2 (h := (C.group g m).handle) (key := ks.text) (b := b) hz (by rw [he]; exact hnode.v2 rfl)
    obtain ⟨j, hk, _⟩ := hk
    rw [he, hk] at this
    exact this
  | v3 =>
    rw [e] at hk
    exact isSubGroup_v3 hz ht (by rw [hj]; exact hk.1)
  | n5 => rw [e] at hk; exact hk.elim

/-- a new group -/
theorem newGroup_at {isFile : Bool} (he : ¬ b.Exists (C.key p)) :
    C.GroupAt (b.withGroup (C.key p) C.layout C.format isFile) p (fun _ => none) := by
  obtain ⟨h1, h2, h3⟩ := withGroup_node (L := C.layout) (f := C.format) (isFile := isFile) he
  refine ⟨h1, ?_, ?_, ?_⟩
  · unfold GroupKind
    cases e : C.layout with
    | v2 => exact ⟨_, get_put_self .., rfl⟩
    | v3 =>
      show ((b.put (docKey (C.key p) "zarr.json") _).docAt _).bind _ = _ ∧ ((b.put (docKey (C.key p) "zarr.json") _).docAt _).bind _ = _
      rw [docAt_put]
      exact ⟨rfl, rfl⟩
    | n5 =>
      have := layout_isZarr (C := C)
      rw [e] at this
      cases this
  · funext k
    rw [h3, if_neg]
    rintro ⟨e, _⟩
    have := layout_isZarr (C := C)
    rw [e] at this
    cases this
  · have hno : b.get (docKey (C.key p) ".zattrs") = none := by
      cases e : b.get (docKey (C.key p) ".zattrs") with
      | none => rfl
      | some o => exact absurd ⟨_, mem_keys.2 (by rw [e]; rfl), dirPrefix_docKey _ _⟩ he
    cases e : C.layout with
    | v2 =>
      show (b.put (docKey (C.key p) ".zgroup") _).get (docKey (C.key p) ".zattrs") ≠ _
      rw [get_put_ne fun e => absurd (docKey_inj e) (by decide), hno]
      exact fun e => by cases e
    | v3 =>
      show (b.put (docKey (C.key p) "zarr.json") _).get (docKey (C.key p) "zarr.json") ≠ _
      rw [get_put_self]
      exact fun e => by cases e
    | n5 =>
      have := layout_isZarr (C := C)
      rw [e] at this
      cases this

/-- the object of a new group -/
theorem withGroup_get (b : Bucket) (name : Key) (isFile : Bool) : ∃ n o, MetaName n ∧
    b.withGroup name C.layout C.format isFile = b.put (docKey name n) o := by
  rcases layout_cases (C := C) with e | e <;> rw [e]
  · exact ⟨".zgroup", _, by simp [MetaName], rfl⟩
  · exact ⟨"zarr.json", _, by simp [MetaName], rfl⟩

theorem GroupAt.refers (h : C.GroupAt b p A) (m : FileMode) : (C.attrsOf p m).Refers b C.layout := by
  have hz : C.layout.isZarr = true ↔ b.IsZarr (C.key p) := ⟨fun _ => h.isZarr, fun _ => layout_isZarr⟩
  unfold attrsOf
  split
  · exact ⟨h.node, fun _ => hz, (fun z e => by cases e), (fun d e => by cases e)⟩
  · exact ⟨h.node, fun _ => hz, (fun z e => by cases e), (fun d e => by cases e)⟩

theorem attrsOf_name (p : Path) (m : FileMode) : (C.attrsOf p m).name = C.key p := by
  unfold attrsOf
  split <;> rfl

theorem attrsOf_mode (p : Path) (m : FileMode) : (C.attrsOf p m).mode = m := by
  unfold attrsOf
  split <;> rfl

theorem attrsOf_locked (p : Path) (m : FileMode) : (C.attrsOf p m).locked C.layout = [] := by
  unfold attrsOf
  rcases layout_cases (C := C) with e | e <;> rw [e] <;> split <;> rfl

theorem attrsOf_shown (p : Path) (m : FileMode) (A : AttrMap) : (C.attrsOf p m).shown C.layout A = A := by
  funext k
  unfold attrsOf
  rcases layout_cases (C := C) with e | e <;> rw [e] <;> split <;> rfl

theorem names_nil (op : AttrOp) : op.names [] = false := by
  cases op <;> simp [AttrOp.names]

/-- changing attributes -/
theorem GroupAt.change (h : C.GroupAt b p A) {m : FileMode} (hm : m ≠ .r) {op : AttrOp} (hv : op.Valid) :
    ∃ b', ((C.attrsOf p m).change op).Does 11 b (.ok ()) b' ∧ (b.WF → b'.WF) ∧
      (∀ k, k ≠ docKey (C.key p) C.layout.file → b'.get k = b.get k) ∧ C.GroupAt b' p (op.apply A) := by
  obtain ⟨_, c2⟩ := c56_change (t := C.attrsOf p m) (by rw [attrsOf_mode]; exact Props.canWrite_of_ne hm) (h.refers m) hv
  obtain ⟨b', h1, hoa, _⟩ := c2 (by rw [attrsOf_locked]; exact names_nil op)
  rw [attrsOf_name, h.attrs] at hoa
  refine ⟨b', h1, hoa.wf, hoa.objects, hoa.node, ?_, hoa.attributes, hoa.written h.full⟩
  have hk := h.kind
  unfold GroupKind at hk ⊢
  have hobj := hoa.objects
  have hrest := hoa.rest
  cases el : C.layout with
  | v2 =>
    rw [el] at hk hobj
    simp only at hk ⊢
    rw [hobj _ fun e => absurd (docKey_inj e) (by decide)]
    exact hk
  | v3 =>
    rw [el] at hk hrest
    exact ⟨(hrest rfl "node_type" (by decide)).trans hk.1, (hrest rfl "zarr_format" (by decide)).trans hk.2⟩
  | n5 => rw [el] at hk; exact hk.elim

/-! ### Arrays -/

variable {L : Libs} {Ty : ElemTypes}

/-- how an array was created -/
structure ArrayIs (C : S3Container) (L : Libs) (x : ArrayItem Ty) (o₀ : S3DatasetObj) (d₀ : AnyDataset (Ty.elem x.dtype)) :
    Prop where
  desc : o₀.obj.Describable
  typed : o₀.typed L (Ty.cast x.dtype) = .ok d₀
  wf : d₀.WF
  bytes : prod d₀.base.chunkShape * (Ty.elem x.dtype).size < 2 ^ 32
  layout : o₀.obj.layout = C.layout
  dtype : o₀.obj.info.dtype = x.dtype
  shape : o₀.obj.info.shape = x.shape
  chunks : o₀.obj.info.chunkShape = x.chunks
  fill : Ty.cast x.dtype o₀.obj.fill = x.fill
  chunkShape : d₀.base.chunkShape = x.chunks
  fit : prod (blocksPerDimension d₀.base.shape d₀.base.chunkShape) < 2 ^ 64
  plain : x.shards = none → ∃ ds, d₀ = .plain ds
  sharding : x.shards = if o₀.obj.info.shardShape = [] then none else some o₀.obj.info.shardShape
  supported : ∀ a : ArrayDesc, a.shape = o₀.obj.info.shape → a.chunks = o₀.obj.info.chunkShape → a.shards = o₀.obj.info.shardShape →
    (o₀.obj.info.isZarr = true → a.separator = o₀.obj.info.delimiter) → a.Supported C.layout (Ty.elem x.dtype).size

/-- what makes up an array -/
structure ArrayHas (C : S3Container) (L : Libs) (os : List (Path × S3DatasetObj)) (b : Bucket) (p : Path) (x : ArrayItem Ty)
    (o₀ : S3DatasetObj) (d₀ : AnyDataset (Ty.elem x.dtype)) (os' : List S3DatasetObj)
    (ws : List (Write (Ty.elem x.dtype).T)) : Prop where
  is : C.ArrayIs L x o₀ d₀
  sessions : S3Sessions L (Ty.cast x.dtype) (C.key p) o₀ os' ws b
  content : replay (fun _ => x.fill) ws = x.content
  attrs : b.attributes (C.key p) C.layout = x.attrs
  full : b.get (docKey (C.key p) C.layout.file) ≠ some (.file [])
  objects : ∀ o, (p, o) ∈ os → o ∈ os'

def ArrayMade (C : S3Container) (L : Libs) (os : List (Path × S3DatasetObj)) (b : Bucket) (p : Path) (x : ArrayItem Ty) : Prop :=
  ∃ o₀ d₀ os' ws, C.ArrayHas L os b p x o₀ d₀ os' ws

variable {os os' : List (Path × S3DatasetObj)} {x : ArrayItem Ty}

theorem ArrayIs.law {o₀ : S3DatasetObj} {d₀ : AnyDataset (Ty.elem x.dtype)} (h : C.ArrayIs L x o₀ d₀) (hL : L.Lawful) :
    L.LawfulFor (prod d₀.base.chunkShape * (Ty.elem x.dtype).size) :=
  fun _ s => (hL _ s).mono (Nat.le_sub_one_of_lt h.bytes)

theorem ArrayMade.carries (hL : L.Lawful) (h : C.ArrayMade L os b p x) :
    ∃ o₀ d₀ m cfg, C.ArrayIs L x o₀ d₀ ∧ Opens [] o₀.obj m cfg ∧ m.dtype.isComplex = false ∧
      S3Carries (C.key p) o₀.obj m cfg d₀ x.content b ∧ ∀ o, (p, o) ∈ os → o.name = C.key p ∧ Sibling [] o₀.obj o.obj := by
  obtain ⟨o₀, d₀, os', ws, h⟩ := h
  obtain ⟨m, cfg, h1, hx, h2, h3⟩ := h.sessions.carries (h.is.law hL) h.is.desc h.is.typed h.is.wf
  obtain ⟨_, _, _, t4⟩ := h1.self.typed h1.self h1.shard (h.is.law hL) h.is.typed
  rw [t4, h.is.fill, h.content] at h2
  exact ⟨o₀, d₀, m, cfg, h.is, h1, hx, h2, fun o ho => h3 o (h.objects o ho)⟩

theorem ArrayMade.exists_ (hL : L.Lawful) (h : C.ArrayMade L os b p x) : b.Exists (C.key p) := by
  obtain ⟨_, _, _, _, _, _, _, h, _⟩ := h.carries hL
  exact metadata_exists h.info

theorem isSubGroup_of_notGroup {g ks : Path} (hnode : b.Node (C.key (g ++ ks)) C.layout) (hk : b.NotGroup (C.key (g ++ ks)) C.layout)
    (hg : ∀ n ∈ g, NodeName n) (hks : ks ≠ []) (hn : ∀ n ∈ ks, NodeName n) {m : FileMode} (hz : b.IsZarr (C.key g)) :
    ((C.group g m).handle.isSubGroup ks.text).Does 6 b (.ok false) b := by
  have hj : joinKey (C.group g m).handle.name ks.text = C.key (g ++ ks) := joinKey_key hg hks
  have ht := text_ne_nil hks hn
  cases e : C.layout with
  | v2 =>
    rw [e] at hk hnode
    have hk : b.get (docKey (C.key (g ++ ks)) ".zgroup") = none := hk
    have he : ∀ n : String, joinKey (C.group g m).handle.name (ks.text ++ '/' :: n.toList) = docKey (C.key (g ++ ks)) n :=
      fun n => by rw [← hj]; exact (joinKey_join ht).symm
    have := isSubGroup_v2 (h := (C.group g m).handle) (key := ks.text) (b := b) hz (by rw [he]; exact hnode.v2 rfl)
    rw [he, hk] at this
    exact this
  | v3 =>
    rw [e] at hk
    exact isSubGroup_v3 (t := "array") hz ht (by rw [hj]; exact hk)
  | n5 =>
    have := layout_isZarr (C := C)
    rw [e] at this
    cases this

theorem ArrayMade.isSubGroup (hL : L.Lawful) {g ks : Path} (h : C.ArrayMade L os b (g ++ ks) x) (hg : ∀ n ∈ g, NodeName n)
    (hks : ks ≠ []) (hn : ∀ n ∈ ks, NodeName n) {m : FileMode} (hz : b.IsZarr (C.key g)) :
    ((C.group g m).handle.isSubGroup ks.text).Does 6 b (.ok false) b := by
  obtain ⟨o₀, d₀, me, cfg, h0, h1, _, h2, _⟩ := h.carries hL
  have hk := h2.kind
  have hnode := h2.node
  rw [h0.layout] at hk hnode
  exact isSubGroup_of_notGroup hnode hk hg hks hn hz

theorem ArrayMade.mono (h : C.ArrayMade L os b p x) (ho : ∀ o, (p, o) ∈ os' → (p, o) ∈ os) : C.ArrayMade L os' b p x := by
  obtain ⟨o₀, d₀, os'', ws, h⟩ := h
  exact ⟨o₀, d₀, os'', ws, { h with objects := fun o e => h.objects o (ho o e) }⟩

theorem ArrayMade.elsewhere (h : C.ArrayMade L os b p x) (he : ∀ k, dirPrefix (C.key p) <+: k → b'.get k = b.get k) :
    C.ArrayMade L os b' p x := by
  obtain ⟨o₀, d₀, os', ws, h⟩ := h
  refine ⟨o₀, d₀, os', ws, { h with sessions := h.sessions.elsewhere he, attrs := ?_, full := ?_ }⟩
  · rw [Bucket.attributes_congr fun n _ => he _ (dirPrefix_docKey _ _)]
    exact h.attrs
  · rw [he _ (dirPrefix_docKey _ _)]
    exact h.full

/-- opening -/
theorem ArrayMade.opened (hL : L.Lawful) {g ks : Path} (h : C.ArrayMade L os b (g ++ ks) x) (hg : ∀ n ∈ g, NodeName n)
    (hks : ks ≠ []) {m : FileMode} (hz : b.IsZarr (C.key g)) :
    ∃ o, ((C.group g m).handle.openDataset ks.text).Does 10 b (.ok o) b ∧ o.obj.handle.mode = m ∧
      o.obj.info.dtype = x.dtype ∧ o.obj.info.shape = x.shape ∧ o.obj.info.chunkShape = x.chunks ∧
      C.ArrayMade L ((g ++ ks, o) :: os) b (g ++ ks) x := by
  obtain ⟨o₀, d₀, os', ws, h⟩ := h
  have hj : joinKey (C.group g m).handle.name ks.text = C.key (g ++ ks) := joinKey_key hg hks
  have hz' : o₀.obj.info.isZarr = true → b.IsZarr (C.group g m).handle.name := fun _ => hz
  obtain ⟨o, h1, _, h2, h3, h4, h5, _⟩ := Props.c78_reopen (h.is.law hL) h.is.desc h.is.typed h.is.wf h.sessions hj hz'
  have hgo : ∃ es w, (∀ e ∈ es, Event.Reliable e) ∧ (C.group g m).handle.openDataset ks.text ⟨es, b⟩ = (some (.ok o), w) ∧
      w.bucket = b := by
    rcases h1 _ (exS3_calm 10) with ⟨es', -, -, e⟩ | ⟨es', b', -, -, -, e, he, k, hk⟩ | ⟨h, -⟩
    · exact ⟨_, _, exS3_calm 10, e, rfl⟩
    · rw [List.eq_of_mem_replicate he] at hk
      exact absurd rfl hk
    · simp at h
  obtain ⟨es, w, hes, ho, hb⟩ := hgo
  refine ⟨o, h1, h2, by rw [h5, h.is.dtype], by rw [h3, h.is.shape], by rw [h4, h.is.chunks],
    o₀, d₀, o :: os', ws, { h with sessions := ?_, objects := ?_ }⟩
  · have := S3Sessions.opened h.sessions hes hj hz' ho
    rw [hb] at this
    exact this
  · intro o' ho'
    rcases List.mem_cons.1 ho' with e | e
    · cases e; exact List.mem_cons_self ..
    · exact List.mem_cons_of_mem _ (h.objects o' e)

/-- writing -/
theorem ArrayMade.wrote (hL : L.Lawful) (h : C.ArrayMade L os b p x) {o : S3DatasetObj} (ho : (p, o) ∈ os)
    (hm : o.obj.handle.mode ≠ .r) {d : AnyDataset (Ty.elem x.dtype)} (hd : o.typed L (Ty.cast x.dtype) = .ok d)
    {w : Write (Ty.elem x.dtype).T} (hp : d.PerformsS3 (C.key p) w b b') :
    C.ArrayMade L os b' p { x with content := override x.content w.off w.shape w.val } ∧
    ∀ k, ¬ dirPrefix (C.key p) <+: k → b'.get k = b.get k := by
  have hname : o.name = C.key p := by
    obtain ⟨_, _, _, _, _, _, _, _, h3⟩ := h.carries hL
    exact (h3 o ho).1
  obtain ⟨o₀, d₀, os', ws, h⟩ := h
  have hw := Props.canWrite_of_ne hm
  obtain ⟨f1, f2⟩ := Props.c78_write_frame (h.is.law hL) h.is.desc h.is.typed h.is.wf h.sessions (h.objects o ho) hw hd hp
  refine ⟨⟨o₀, d₀, os', ws ++ [w], { h.is with }, h.sessions.wrote (h.objects o ho) hw hd (by rw [hname]; exact hp), ?_, ?_, ?_,
    h.objects⟩, f1⟩
  · rw [Container.replay_concat, h.content]
  · show b'.attributes (C.key p) C.layout = x.attrs
    rw [Bucket.attributes_congr fun n hn => f2 n (by simpa [MetaName] using hn)]
    exact h.attrs
  · rw [f2 _ (by simpa [MetaName] using layout_file_meta (C := C))]
    exact h.full

theorem ArrayMade.refers (hL : L.Lawful) (h : C.ArrayMade L os b p x) {o : S3DatasetObj} (ho : (p, o) ∈ os) :
    (S3Target.dataset ⟨o.name, o.obj.handle⟩).Refers b C.layout ∧ o.name = C.key p := by
  obtain ⟨o₀, d₀, m, cfg, h0, h1, _, h2, h3⟩ := h.carries hL
  obtain ⟨hn, hs⟩ := h3 o ho
  refine ⟨?_, hn⟩
  rw [← h0.layout, hn]
  exact h2.refers hs

theorem array_locked (d : S3DatasetHandle) : (S3Target.dataset d).locked C.layout = [] := by
  rcases layout_cases (C := C) with e | e <;> rw [e] <;> rfl

theorem array_shown (d : S3DatasetHandle) (A : AttrMap) : (S3Target.dataset d).shown C.layout A = A := by
  funext k
  rcases layout_cases (C := C) with e | e <;> rw [e] <;> rfl

/-- changing attributes -/
theorem ArrayMade.change (hL : L.Lawful) (h : C.ArrayMade L os b p x) {o : S3DatasetObj} (ho : (p, o) ∈ os)
    (hm : o.obj.handle.mode ≠ .r) {op : AttrOp} (hv : op.Valid) :
    ∃ b', ((S3Target.dataset ⟨o.name, o.obj.handle⟩).change op).Does 11 b (.ok ()) b' ∧ (b.WF → b'.WF) ∧
      (∀ k, ¬ dirPrefix (C.key p) <+: k → b'.get k = b.get k) ∧
      C.ArrayMade L os b' p { x with attrs := op.apply x.attrs } := by
  obtain ⟨hr, hname⟩ := h.refers hL ho
  obtain ⟨_, c2⟩ := c56_change (t := .dataset ⟨o.name, o.obj.handle⟩) (Props.canWrite_of_ne hm) hr hv
  obtain ⟨b', h1, hoa, _⟩ := c2 (by rw [array_locked]; exact names_nil op)
  rw [show (S3Target.dataset ⟨o.name, o.obj.handle⟩).name = C.key p from hname] at hoa
  refine ⟨b', h1, hoa.wf, fun k hk => hoa.objects k fun e => hk (by rw [e]; exact dirPrefix_docKey _ _), ?_⟩
  obtain ⟨o₀, d₀, os', ws, h⟩ := h
  have hgo : ∃ es w, (∀ e ∈ es, Event.Reliable e) ∧
      (S3Target.dataset ⟨o.name, o.obj.handle⟩).change op ⟨es, b⟩ = (some (.ok ()), w) ∧ w.bucket = b' := by
    rcases h1 _ (exS3_calm 11) with ⟨es', -, -, e⟩ | ⟨es', b', -, -, -, e, he, k, hk⟩ | ⟨h, -⟩
    · exact ⟨_, _, exS3_calm 11, e, rfl⟩
    · rw [List.eq_of_mem_replicate he] at hk
      exact absurd rfl hk
    · simp at h
  obtain ⟨es, w, hes, e, hb⟩ := hgo
  have hs := h.sessions.annotated hes (h.objects o ho) hv
  rw [e] at hs
  refine ⟨o₀, d₀, os', ws, { h.is with }, ?_, h.content, ?_, hoa.written h.full, h.objects⟩
  · rw [← hb]; exact hs
  · show b'.attributes (C.key p) C.layout = op.apply x.attrs
    rw [hoa.attributes, h.attrs]

/-! ### New arrays -/

/-- what `_create_dataset` does -/
theorem newDataset_call {g : S3PyGroup} {n : Key} {a : PyCreateArgs} {o : S3DatasetObj} {es : List Event} {w : World}
    (hes : ∀ e ∈ es, e.Reliable) (ha : a.Typed) (h : g.newDataset n a ⟨es, b⟩ = (some (.ok o), w)) :
    ∃ z args O args' es', es' <:+ es ∧ (z = true ↔ b.IsZarr g.handle.name) ∧ Resolved a z g.zarrFormat args O ∧
      g.handle.createDataset n args' ⟨es', b⟩ = (some (.ok o), w) ∧ args'.zarrFormat = args.zarrFormat ∧
      args'.delimiter = args.delimiter ∧ o.obj.info.Typed ∧ a.AsksShape o.obj.info.shape ∧ a.AsksType o.obj.info.dtype ∧
      a.AsksChunks o.obj.info.shape o.obj.info.chunkShape ∧ o.obj.info.isZarr = z ∧
      o.obj.info.zarrFormat = args.zarrFormat ∧ o.obj.info.shardShape = args.shardShape ∧
      o.obj.info.fillValue = args.fill ∧ o.obj.info.chunkShape = args.chunkShape ∧ o.obj.info.shape = args.shape := by
  classical
  unfold S3PyGroup.newDataset at h
  obtain ⟨z, es1, e1, hs1, h1⟩ := (root_isZarr g.handle b).step hes h
  have e1 := Res.ok.inj e1
  have hz : z = true ↔ b.IsZarr g.handle.name := by rw [← e1]; exact decide_eq_true_iff
  obtain ⟨⟨args, O⟩, w1, h2, h3⟩ := S3M.bind_ok h1
  obtain ⟨hr, rfl⟩ := S3M.lift_ok h2
  dsimp only at h3
  have R := resolve_ok hr
  unfold S3Handle.createDatasetJson at h3
  obtain ⟨_, w2, h4, h5⟩ := S3M.bind_ok h3
  obtain ⟨_, rfl⟩ := S3M.lift_ok h4
  obtain ⟨r, w3, h6, h7⟩ := S3M.bind_ok h5
  obtain ⟨hro, rfl⟩ := S3M.lift_ok h6
  have hro : jsonToOptions O [] = .ok r := hro
  obtain ⟨z', j, hz', _, hm, _, hmk, hn, hh, hj, hnew⟩ := createDataset_returned (fun e he => hes e (hs1.subset he)) h7
  have ez : z' = z := by rw [Bool.eq_iff_iff, hz', hz]
  subst ez
  obtain ⟨e1, e2, e3, e4, e5, e6, e7, e8, e9, e10, e11, e12⟩ := createMeta_ok hm
  have eo := createMeta_options hm
  dsimp only at e2 e3 e4 e5 e6 e7 e8 e9 e10 eo
  obtain ⟨hs1', hs2, hs3, hs4⟩ := what_ok R.what
  have hO := pyOptionsFor_nodup R.options
  have hd := dtype_name e9
  refine ⟨z', args, O, _, es1, hs1, hz, R, h7, rfl, rfl, ⟨e11, by rw [e3]; exact ha.shape _ hs1', ?_, ?_, ?_, ?_⟩,
    by rw [e3]; exact hs1', ⟨fun t e => by rw [hd, hs2 t e], fun x t e => by rw [hd, hs3 x t e], hs4⟩,
    by rw [e3, e4]; exact R.chunks, e1, e2, e5, e6, e4, e3⟩
  · rw [e4]
    exact zip_lt R.axes R.limited (ha.shape _ hs1')
  · rw [e5, R.shards]
    cases hsh : a.shards with
    | none => simp
    | some x => exact ha.shards x hsh
  · rw [eo]
    exact defaultOptions_typed (jsonToOptions_typed hro hO (by intro k v e; cases e))
  · rw [e6, R.fill]
    exact ha.fill

/-- a new array -/
theorem newArray_at (hL : L.Lawful) {g ks : Path} {m : FileMode} {a : PyCreateArgs} {o : S3DatasetObj} {es : List Event}
    {w : World} (hes : ∀ e ∈ es, e.Reliable) (hg : ∀ n ∈ g, NodeName n) (hks : ks ≠ []) (hz : b.IsZarr (C.key g))
    (hx : a.Asks C.layout x) (h : (C.group g m).newDataset ks.text a ⟨es, b⟩ = (some (.ok o), w))
    (hos : ∀ o', (g ++ ks, o') ∉ os) :
    m ≠ .r ∧ (∃ n j, b.NewNode w.bucket (C.key (g ++ ks)) n j) ∧ o.obj.handle.mode = m ∧ o.obj.info.dtype = x.dtype ∧
    o.obj.info.shape = x.shape ∧ o.obj.info.chunkShape = x.chunks ∧
    C.ArrayMade L ((g ++ ks, o) :: os) w.bucket (g ++ ks) x := by
  obtain ⟨z, args, O, args', es', hs, hz', R, hcr, f5, f6, htyped, hshape, htype, hchunks, f1, f2, f3, f4, f8, f9⟩ :=
    newDataset_call hes (Container.asks_typed hx) h
  have hes' : ∀ e ∈ es', e.Reliable := fun e he => hes e (hs.subset he)
  have ez : z = true := hz'.2 hz
  subst ez
  have R : Resolved a true C.format args O := R
  have hj : joinKey (C.group g m).handle.name ks.text = C.key (g ++ ks) := joinKey_key hg hks
  have eS : o.obj.info.shape = x.shape := asksShape_unique hshape hx.shape
  have et : o.obj.info.dtype = x.dtype := Container.asksType_eq htype hx.type
  have ec : o.obj.info.chunkShape = x.chunks := by rw [eS] at hchunks; exact asksChunks_unique hchunks hx.chunks
  obtain ⟨z', j, _, hmr, _, _, hmk, hname, hh, _, hnew⟩ := createDataset_returned hes' hcr
  rw [hj] at hnew hname
  have hlay : o.obj.layout = C.layout := by
    unfold DatasetObj.layout layout
    rw [f1, f2, R.format]
    exact Container.createDataset_layout _ _
  have hle : ∀ c ∈ o.obj.info.chunkShape, c < 2 ^ 31 := by
    rw [f8]
    exact zip_lt R.axes R.limited (by rw [← f9, eS]; exact hx.small)
  have hlen : o.obj.info.shape.length = o.obj.info.chunkShape.length := by rw [f8, f9, R.axes]
  have hdims : Spec.ChunkDims o.obj.info.shape o.obj.info.chunkShape := by
    refine ⟨by rw [eS]; exact hx.axes.1, Container.all₂_zip hlen fun p hp => ?_⟩
    have h1 := hle p.2 (List.of_mem_zip hp).2
    have h2 : p.1 < 2 ^ 31 := hx.small _ (by rw [← eS]; exact (List.of_mem_zip hp).1)
    exact ⟨hx.positive _ (by rw [← ec]; exact (List.of_mem_zip hp).2), by omega⟩
  have hz'' : z' = true := by
    obtain ⟨e1, _⟩ := createMeta_ok (by assumption : args'.toMeta z' = .ok o.obj.info)
    rw [← e1, f1]
  have hcache : o.obj.handle.cache = some o.obj.info.isZarr := by rw [hh, f1, hz'']
  have hsep : o.obj.handle.delimiter = "." ∨ o.obj.handle.delimiter = "/" := by
    have : o.obj.handle.delimiter = args'.delimiter := by rw [hh]
    rw [this, f6, R.separator]
    have h1 : a.askedSeparator C.layout = "." ∨ a.askedSeparator C.layout = "/" := by simpa using hx.separator
    exact h1
  have hmode : o.obj.handle.mode = m := by rw [hh]; rfl
  obtain ⟨d₀, t1, t2, t3, t4, t5⟩ := Container.typed_of_make (E := Ty.elem x.dtype) (elem := Ty.cast x.dtype) hmk hL
    (by rw [ec]; exact hx.bytes) hdims (by rw [eS]; exact hx.small) hsep hcache (by rw [eS]; exact hx.axes.2)
    (fun b hb => Nat.lt_trans (hle b hb) (by decide)) (by
      intro hne
      rw [f3, R.shards] at hne ⊢
      cases hsh : a.shards with
      | none => rw [hsh] at hne; exact absurd rfl hne
      | some s =>
        obtain ⟨s1, s2, s3⟩ := hx.shards s hsh
        refine ⟨f1, ?_, ?_⟩
        · rw [ec]
          refine Container.all₂_zip s2 fun p hp => ?_
          obtain ⟨g1, g2⟩ := s3 p hp
          exact ⟨hx.positive _ (List.of_mem_zip hp).2, g1, Nat.mod_eq_zero_of_dvd g2⟩
        · rw [ec]; exact (hx.slots s hsh).1) .s3
  obtain ⟨hr, _, hshown⟩ := c57_created_attributes hes' hcr
  have hlay' : Layout.of o.obj.info.isZarr args'.zarrFormat = C.layout := by
    rw [f1, f5, R.format]
    exact Container.createDataset_layout _ _
  rw [hlay'] at hshown
  refine ⟨hmr, ⟨_, j, hnew⟩, hmode, et, eS, ec, o, d₀, [o], [], ⟨⟨htyped, ?_, ?_⟩, t1, t2, by rw [t5, ec]; exact hx.bytes, hlay, et,
    eS, ec, ?_, by rw [t5, ec], by rw [t4, t5, eS, ec]; exact hx.number, ?_, ?_, ?_⟩,
    .created hes' hj hcr, ?_, ?_, ?_, ?_⟩
  · intro _
    rw [f2, R.format]
    split
    · exact .inr rfl
    · exact .inl rfl
  · rw [f1]
    exact .inl rfl
  · obtain ⟨B, f, s, _, h2, _, h4⟩ := makeDataset_ok.1 hmk
    obtain ⟨v, hv, hv'⟩ := hx.fill
    have : o.obj.fill = f := by
      rcases h4 with ⟨_, _, _, e⟩ | ⟨_, e⟩ <;> exact congrArg DatasetObj.fill e
    rw [f4, R.fill, et, hv] at h2
    cases h2
    rw [hv', this]
  · intro hn
    have hs : o.obj.sharded = false := by
      cases e : o.obj.sharded with
      | false => rfl
      | true =>
        refine absurd ?_ ((makeDataset_facts hmk).2.2.2 e)
        rw [f3, R.shards, ← hx.sharding, hn]
        rfl
    unfold DatasetObj.typed at t1
    simp only at t1
    rw [hs, if_neg (by decide)] at t1
    obtain ⟨ds, _, e⟩ := Res.bind_eq_ok.1 t1
    exact ⟨ds, (Res.ok.inj e).symm⟩
  · rw [f3, R.shards, hx.sharding]
    cases hsh : a.shards with
    | none => rfl
    | some s =>
      have : s ≠ [] := by
        rintro rfl
        have h1 := (hx.shards _ hsh).2.1
        rw [← ec, ← hlen, eS] at h1
        exact hx.axes.1 (List.eq_nil_of_length_eq_zero h1.symm)
      exact (if_neg this).symm
  · intro d b1 b2 b3 b4
    refine ⟨⟨by rw [b1, eS]; exact hx.axes.1, by rw [b1, eS]; exact hx.axes.2, by rw [b1, b2]; exact hlen⟩,
      by rw [b2, ec]; exact hx.positive, by rw [b1, eS]; exact hx.small,
      ⟨by rw [b2]; exact fun c hc => Nat.lt_trans (hle c hc) (by decide), by rw [b2, ec]; exact hx.bytes⟩, ?_, fun e => ?_⟩
    · rw [b3, f3, R.shards]
      intro hne
      cases hsh : a.shards with
      | none => rw [hsh] at hne; exact absurd rfl hne
      | some s =>
        obtain ⟨s1, s2, s3⟩ := hx.shards s hsh
        rw [b2, ec]
        refine ⟨Container.all₂_zip s2 fun p hp => ?_, (hx.slots s hsh).2, (hx.slots s hsh).1⟩
        obtain ⟨g1, g2⟩ := s3 p hp
        exact ⟨g1, Nat.mod_eq_zero_of_dvd g2⟩
    · rw [b4 f1]
      have e7 : o.obj.info.delimiter = o.obj.handle.delimiter := by
        obtain ⟨_, _, _, _, _, _, e7, _⟩ := createMeta_ok (by assumption : args'.toMeta z' = .ok o.obj.info)
        rw [e7, hh]
      rw [e7]
      simpa using hsep
  · exact hx.content.symm
  · rw [hx.attrs]
    funext k
    have := hshown k
    rw [array_shown] at this
    rw [← this, show (S3Target.dataset ⟨o.name, o.obj.handle⟩).name = C.key (g ++ ks) from hname]
  · rw [hnew.get_doc]
    split <;> exact fun e => by cases e
  · intro o' ho'
    rcases List.mem_cons.1 ho' with e | e
    · cases e; exact List.mem_singleton.2 rfl
    · exact absurd e (hos o')

end S3Container

end Z5
