import Verif.Spec.Container
import Verif.Proofs.WellFormed
import Verif.Props.PyRequire
import Verif.Props.Remove

/-!
# The invariant of a container (C66)
-/

namespace Z5
open Spec Prog

theorem metaName_iff {n : String} : MetaName n ↔ ¬ PlainName n := by
  unfold MetaName PlainName
  simp only [List.mem_cons, List.not_mem_nil, or_false, Classical.not_not]
  constructor
  · rintro (h | h | h | h | h) <;> simp [h]
  · rintro (h | h | h | h | h) <;> simp [h]

theorem prefix_concat_iff {x p : Path} {n : String} : x <+: p ++ [n] ↔ x <+: p ∨ x = p ++ [n] := by
  rw [List.prefix_concat_iff]
  exact Or.comm

theorem last_cases (p : Path) : p = [] ∨ ∃ q n, p = q ++ [n] := by
  by_cases h : p = []
  · exact .inl h
  · exact .inr ⟨p.dropLast, p.getLast h, (List.dropLast_concat_getLast h).symm⟩

/-- a list that is a proper prefix ends before some further name -/
theorem proper_prefix {q p : Path} (h : q <+: p) (hne : q ≠ p) : ∃ n r, p = q ++ [n] ++ r := by
  obtain ⟨r, rfl⟩ := h
  cases r with
  | nil => exact absurd (List.append_nil q).symm hne
  | cons n r => exact ⟨n, r, by simp⟩

namespace Container

variable {C : Container}

theorem layout_isZarr : C.layout.isZarr = C.isZarr := by
  unfold layout Layout.of
  cases C.isZarr with
  | false => rfl
  | true => by_cases h : C.format = 3 <;> simp [h, Layout.isZarr]

theorem layout_n5 : C.layout = .n5 ↔ C.isZarr = false := by
  rw [← layout_isZarr]
  cases C.layout <;> simp [Layout.isZarr]

/-- what makes a directory a group -/
def GroupKind (C : Container) (σ : Fs) (p : Path) : Prop :=
  match C.layout with
  | .v2 => ∃ j, σ (C.root ++ p ++ [".zgroup"]) = some (.doc j) ∧ j.find "zarr_format" = some (.int C.format)
  | .v3 => ∃ j, σ (C.root ++ p ++ ["zarr.json"]) = some (.doc j) ∧ j.find "node_type" = some (.str "group") ∧
      j.find "zarr_format" = some (.int 3)
  | .n5 => σ (C.root ++ p ++ [".zgroup"]) = none ∧ σ (C.root ++ p ++ ["zarr.json"]) = none ∧
      ∀ k ∈ n5DatasetKeys, σ.attributes (C.root ++ p) .n5 k = none

structure GroupAt (C : Container) (σ : Fs) (p : Path) (A : AttrMap) : Prop where
  node : σ.Node (C.root ++ p) C.layout
  kind : C.GroupKind σ p
  attrs : σ.attributes (C.root ++ p) C.layout = A

variable {σ σ' : Fs} {p : Path} {A : AttrMap}

theorem attributes_congr {p : Path} {L : Layout} (h : ∀ n, MetaName n → σ' (p ++ [n]) = σ (p ++ [n])) :
    σ'.attributes p L = σ.attributes p L := by
  funext k
  have hd : ∀ n, MetaName n → σ'.docAt (p ++ [n]) = σ.docAt (p ++ [n]) := by
    intro n hn
    unfold Fs.docAt
    rw [h n hn]
  unfold Fs.attributes
  cases L with
  | v2 => simp only [Layout.file]; rw [hd ".zattrs" (by simp [MetaName])]
  | v3 => simp only; rw [hd "zarr.json" (by simp [MetaName])]
  | n5 => simp only [Layout.file]; rw [hd "attributes.json" (by simp [MetaName])]

theorem GroupAt.congr (h : C.GroupAt σ p A) (hd : σ' (C.root ++ p) = σ (C.root ++ p))
    (hm : ∀ n, MetaName n → σ' (C.root ++ p ++ [n]) = σ (C.root ++ p ++ [n])) : C.GroupAt σ' p A where
  node := h.node.congr hd hm
  attrs := by rw [attributes_congr hm]; exact h.attrs
  kind := by
    have hk := h.kind
    unfold GroupKind at hk ⊢
    cases e : C.layout with
    | v2 => rw [e] at hk; simp only at hk ⊢; rw [hm _ (by simp [MetaName])]; exact hk
    | v3 => rw [e] at hk; simp only at hk ⊢; rw [hm _ (by simp [MetaName])]; exact hk
    | n5 =>
      rw [e] at hk
      simp only at hk ⊢
      rw [hm _ (by simp [MetaName]), hm _ (by simp [MetaName]), attributes_congr hm]
      exact hk

theorem GroupAt.isZarr (h : C.GroupAt σ p A) (m : FileMode) :
    (C.group p m).handle.isZarr σ = (.ok C.isZarr, σ) := by
  rw [group_isZarr]
  show ((if (σ (C.root ++ p)).isSome then Res.ok ((σ (C.root ++ p ++ [".zgroup"])).isSome ||
    (σ (C.root ++ p ++ ["zarr.json"])).isSome) else Res.throw .runtimeError), σ) = _
  rw [h.node.dir, ← layout_isZarr (C := C)]
  have hk := h.kind
  unfold GroupKind at hk
  cases e : C.layout with
  | v2 =>
    rw [e] at hk
    obtain ⟨j, hk, _⟩ := hk
    rw [hk]
    rfl
  | v3 =>
    rw [e] at hk
    obtain ⟨j, hk, _⟩ := hk
    rw [hk]
    simp [Layout.isZarr]
  | n5 => rw [e] at hk; rw [hk.1, hk.2.1]; rfl

theorem GroupAt.isSubGroup {g key : Path} (h : C.GroupAt σ (g ++ key) A) {m : FileMode}
    (hz : (C.group g m).handle.isZarr σ = (.ok C.isZarr, σ)) :
    (C.group g m).handle.isSubGroup key σ = (.ok true, σ) := by
  have hp : (C.group g m).handle.path ++ key = C.root ++ (g ++ key) := List.append_assoc ..
  have hk := h.kind
  unfold GroupKind at hk
  have hn := h.node
  have hlz := layout_isZarr (C := C)
  cases e : C.layout with
  | v2 =>
    rw [e] at hk hn hlz
    obtain ⟨j, hk, _⟩ := hk
    rw [isSubGroup_zarr (by rw [hz, ← hlz]; rfl), hp, hn.dir, hn.v2 rfl, hk]
    rfl
  | v3 =>
    rw [e] at hk hn hlz
    obtain ⟨j, hk, h1, _⟩ := hk
    rw [isSubGroup_zarr (by rw [hz, ← hlz]; rfl), hp, hn.dir]
    have hd : σ.docAt (C.root ++ (g ++ key) ++ ["zarr.json"]) = some j := by unfold Fs.docAt; rw [hk]
    rw [hd, hk]
    simp only [Option.isSome_some, if_true]
    refine Prod.ext ?_ rfl
    show (Json.valueStr j "node_type" "group").bind _ = _
    have : Json.valueStr j "node_type" "group" = .ok "group" := by
      unfold Json.valueStr
      cases j with
      | obj l =>
        have h1 : assocGet l "node_type" = some (.str "group") := h1
        simp only [h1]
        rfl
      | _ => cases h1
    rw [this]
    rfl
  | n5 =>
    rw [e] at hk hn hlz
    rw [isSubGroup_attributes_n5 (by rw [hp]; exact hn) (by rw [hz, ← hlz]; rfl), hp]
    have : (n5DatasetKeys.filter fun k => (σ.attributes (C.root ++ (g ++ key)) .n5 k).isSome) = [] := by
      rw [List.filter_eq_nil_iff]
      intro k hkk
      rw [hk.2.2 k hkk]
      simp
    rw [this]
    rfl

/-- the file with the attributes of a group is no directory, whatever it is -/
theorem layout_file_meta : MetaName C.layout.file := by
  cases C.layout <;> simp [Layout.file, MetaName]

/-- a new group -/
theorem newGroup_at {q : Path} (isFile : Bool)
    (h : σ.NewNode σ' (C.root ++ q) (groupDocs C.layout C.format isFile)) :
    C.GroupAt σ' q (fun k => if C.isZarr = false ∧ isFile = true ∧ k = "n5" then some (.str "2.0.0") else none) := by
  have hd : σ' (C.root ++ q) = some .dir := h.dirs _ (List.prefix_refl _)
  have hlz := layout_isZarr (C := C)
  cases e : C.layout with
  | v2 =>
    rw [e] at h hlz
    have hz : C.isZarr = true := hlz.symm
    refine ⟨?_, ?_, ?_⟩
    · rw [e]
      exact ⟨hd, .inl (by rw [h.docs]; rfl), (fun e => by cases e), fun _ => by rw [h.docs]; rfl⟩
    · unfold GroupKind; rw [e]; exact ⟨_, by rw [h.docs]; rfl, rfl⟩
    · rw [e]
      funext k
      unfold Fs.attributes
      simp only [Layout.file]
      rw [h.docAt]
      simp [groupDocs, hz]
  | v3 =>
    rw [e] at h hlz
    have hz : C.isZarr = true := hlz.symm
    refine ⟨?_, ?_, ?_⟩
    · rw [e]
      refine ⟨hd, .inr ⟨v3GroupDoc, by rw [h.docs]; rfl, ⟨_, rfl, by decide⟩⟩, fun _ => ⟨v3GroupDoc, by rw [h.docs]; rfl,
        ⟨_, rfl, by decide⟩, fun a ha => ?_⟩, (fun e => by cases e)⟩
      cases ha
      exact ⟨_, rfl, by decide⟩
    · unfold GroupKind; rw [e]; exact ⟨v3GroupDoc, by rw [h.docs]; rfl, rfl, rfl⟩
    · rw [e]
      funext k
      unfold Fs.attributes
      simp only
      rw [h.docAt]
      simp [groupDocs, hz, v3GroupDoc, Json.find, assocGet]
  | n5 =>
    rw [e] at h hlz
    have hz : C.isZarr = false := hlz.symm
    have hA : σ'.attributes (C.root ++ q) .n5 =
        fun k => if C.isZarr = false ∧ isFile = true ∧ k = "n5" then some (.str "2.0.0") else none := by
      funext k
      unfold Fs.attributes
      simp only [Layout.file]
      rw [h.docAt]
      cases isFile with
      | false => simp [groupDocs]
      | true =>
        by_cases hk : k = "n5"
        · subst hk; simp [groupDocs, hz, Json.find, assocGet]
        · simp [groupDocs, hz, Json.find, assocGet, hk, Ne.symm hk]
    refine ⟨?_, ?_, ?_⟩
    · rw [e]
      refine ⟨hd, ?_, (fun e => by cases e), (fun e => by cases e)⟩
      cases isFile with
      | false => exact .inl (by rw [h.docs]; rfl)
      | true => exact .inr ⟨_, by rw [h.docs]; rfl, ⟨_, rfl, by decide⟩⟩
    · unfold GroupKind
      rw [e]
      refine ⟨by rw [h.docs]; simp [groupDocs], by rw [h.docs]; simp [groupDocs], fun k hk => ?_⟩
      rw [hA]
      have : k ≠ "n5" := by
        rintro rfl
        revert hk
        decide
      simp [this]
    · rw [e]; exact hA

/-! ### Arrays -/

variable {L : Libs} {Ty : ElemTypes}

/-- how an array was created -/
structure ArrayIs (C : Container) (L : Libs) (x : ArrayItem Ty) (o₀ : DatasetObj) (d₀ : AnyDataset (Ty.elem x.dtype)) :
    Prop where
  desc : o₀.Describable
  typed : o₀.typed L (Ty.cast x.dtype) = .ok d₀
  wf : d₀.WF
  keys : d₀.PlainKeys
  fit : prod (blocksPerDimension d₀.base.shape d₀.base.chunkShape) < 2 ^ 64
  bytes : prod d₀.base.chunkShape * (Ty.elem x.dtype).size < 2 ^ 32
  layout : o₀.layout = C.layout
  dtype : o₀.info.dtype = x.dtype
  shape : o₀.info.shape = x.shape
  chunks : o₀.info.chunkShape = x.chunks
  fill : Ty.cast x.dtype o₀.fill = x.fill
  plain : x.shards = none → ∃ ds, d₀ = .plain ds
  sharding : x.shards = if o₀.info.shardShape = [] then none else some o₀.info.shardShape
  supported : ∀ a : ArrayDesc, a.shape = o₀.info.shape → a.chunks = o₀.info.chunkShape → a.shards = o₀.info.shardShape →
    (o₀.info.isZarr = true → a.separator = o₀.info.delimiter) → a.Supported C.layout (Ty.elem x.dtype).size

/-- what makes up an array -/
structure ArrayHas (C : Container) (L : Libs) (os : List (Path × DatasetObj)) (σ : Fs) (p : Path) (x : ArrayItem Ty)
    (o₀ : DatasetObj) (d₀ : AnyDataset (Ty.elem x.dtype)) (os' : List DatasetObj) (ws : List (Write (Ty.elem x.dtype).T)) :
    Prop where
  is : C.ArrayIs L x o₀ d₀
  sessions : Sessions L (Ty.cast x.dtype) (C.root ++ p) o₀ os' ws σ
  content : replay (fun _ => x.fill) ws = x.content
  attrs : (Target.dataset o₀.handle).shown C.layout (σ.attributes (C.root ++ p) C.layout) = x.attrs
  objects : ∀ o, (p, o) ∈ os → o ∈ os'

def ArrayMade (C : Container) (L : Libs) (os : List (Path × DatasetObj)) (σ : Fs) (p : Path) (x : ArrayItem Ty) : Prop :=
  ∃ o₀ d₀ os' ws, C.ArrayHas L os σ p x o₀ d₀ os' ws

variable {os os' : List (Path × DatasetObj)} {x : ArrayItem Ty}

theorem ArrayIs.law {o₀ : DatasetObj} {d₀ : AnyDataset (Ty.elem x.dtype)} (h : C.ArrayIs L x o₀ d₀) (hL : L.Lawful) :
    L.LawfulFor (prod d₀.base.chunkShape * (Ty.elem x.dtype).size) :=
  fun _ s => (hL _ s).mono (Nat.le_sub_one_of_lt h.bytes)

theorem ArrayIs.chunkShape {o₀ : DatasetObj} {d₀ : AnyDataset (Ty.elem x.dtype)} (h : C.ArrayIs L x o₀ d₀) :
    d₀.base.chunkShape = x.chunks := by
  rw [← h.chunks]
  have hd := h.typed
  unfold DatasetObj.typed at hd
  simp only at hd
  split at hd
  · obtain ⟨sd, h1, h2⟩ := Res.bind_eq_ok.1 hd
    have h2 := Res.ok.inj h2
    subst h2
    unfold ShardedDataset.make Dataset.make at h1
    obtain ⟨d, h3, h4⟩ := Res.bind_eq_ok.1 h1
    obtain ⟨c, h5, h6⟩ := Res.bind_eq_ok.1 h4
    obtain ⟨B, h7, h8⟩ := Res.bind_eq_ok.1 h3
    have h6 := Res.ok.inj h6
    have h8 := Res.ok.inj h8
    subst h8
    subst h6
    rfl
  · obtain ⟨ds, h1, h2⟩ := Res.bind_eq_ok.1 hd
    have h2 := Res.ok.inj h2
    subst h2
    unfold Dataset.make at h1
    obtain ⟨B, h3, h4⟩ := Res.bind_eq_ok.1 h1
    have h4 := Res.ok.inj h4
    subst h4
    rfl

theorem ArrayIs.isZarr {o₀ : DatasetObj} {d₀ : AnyDataset (Ty.elem x.dtype)} (h : C.ArrayIs L x o₀ d₀) :
    o₀.info.isZarr = C.isZarr := by
  rw [← o₀.layout_isZarr, h.layout, layout_isZarr]

theorem ArrayMade.carries (hL : L.Lawful) (h : C.ArrayMade L os σ p x) :
    ∃ o₀ d₀ m cfg, C.ArrayIs L x o₀ d₀ ∧ Opens (C.root ++ p) o₀ m cfg ∧
      Carries (C.root ++ p) o₀ m cfg d₀ x.content σ ∧ ∀ o, (p, o) ∈ os → Sibling (C.root ++ p) o₀ o := by
  obtain ⟨o₀, d₀, os', ws, h⟩ := h
  obtain ⟨m, cfg, h1, h2, h3⟩ := h.sessions.carries (h.is.law hL) h.is.desc h.is.typed h.is.wf h.is.keys
  obtain ⟨_, _, _, t4⟩ := h1.self.typed h1.self h1.shard (h.is.law hL) h.is.typed
  rw [t4, h.is.fill, h.content] at h2
  exact ⟨o₀, d₀, m, cfg, h.is, h1, h2, fun o ho => h3 o (h.objects o ho)⟩

theorem ArrayMade.dir (hL : L.Lawful) (h : C.ArrayMade L os σ p x) : ∀ q, q <+: C.root ++ p → σ q = some .dir := by
  obtain ⟨_, _, _, _, _, _, h, _⟩ := h.carries hL
  exact h.tidy.above

theorem ArrayMade.isSubGroup (hL : L.Lawful) {g key : Path} (h : C.ArrayMade L os σ (g ++ key) x) {m : FileMode}
    (hz : (C.group g m).handle.isZarr σ = (.ok C.isZarr, σ)) :
    (C.group g m).handle.isSubGroup key σ = (.ok false, σ) := by
  obtain ⟨o₀, d₀, me, cfg, h0, h1, h2, _⟩ := h.carries hL
  obtain ⟨b, hb, hf⟩ := h2.isSubGroup (g := (C.group g m).handle) (key := key) (List.append_assoc ..)
    (fun e => by rw [hz, ← h0.isZarr, e])
  rw [hb, hf (by rw [h0.isZarr]; exact hz)]

theorem ArrayMade.mono (h : C.ArrayMade L os σ p x) (ho : ∀ o, (p, o) ∈ os' → (p, o) ∈ os) : C.ArrayMade L os' σ p x := by
  obtain ⟨o₀, d₀, os'', ws, h⟩ := h
  exact ⟨o₀, d₀, os'', ws, { h with objects := fun o e => h.objects o (ho o e) }⟩

theorem ArrayMade.elsewhere (h : C.ArrayMade L os σ p x)
    (he : ∀ q, q <+: C.root ++ p ∨ C.root ++ p <+: q → σ' q = σ q) : C.ArrayMade L os σ' p x := by
  obtain ⟨o₀, d₀, os', ws, h⟩ := h
  refine ⟨o₀, d₀, os', ws, { h with sessions := h.sessions.elsewhere he, attrs := ?_ }⟩
  rw [attributes_congr fun n _ => he _ (.inr (List.prefix_append _ _))]
  exact h.attrs

/-- opening -/
theorem ArrayMade.opened (hL : L.Lawful) {g key : Path} (h : C.ArrayMade L os σ (g ++ key) x) {m : FileMode}
    (hz : (C.group g m).handle.isZarr σ = (.ok C.isZarr, σ)) :
    ∃ o, (C.group g m).handle.openDataset key σ = (.ok o, σ) ∧ o.handle.mode = m ∧ o.info.dtype = x.dtype ∧
      o.info.shape = x.shape ∧ o.info.chunkShape = x.chunks ∧ C.ArrayMade L ((g ++ key, o) :: os) σ (g ++ key) x := by
  obtain ⟨o₀, d₀, os', ws, h⟩ := h
  have hp : (C.group g m).handle.path ++ key = C.root ++ (g ++ key) := List.append_assoc ..
  have hz' : o₀.info.isZarr = true → (C.group g m).handle.isZarr σ = (.ok true, σ) :=
    fun e => by rw [hz, ← h.is.isZarr, e]
  obtain ⟨o, h1, h2, h3, h4, h5, _⟩ := Props.c64_reopen (h.is.law hL) h.is.desc h.is.typed h.is.wf h.is.keys h.sessions hp hz'
  refine ⟨o, h1, h2, by rw [h5, h.is.dtype], by rw [h3, h.is.shape], by rw [h4, h.is.chunks],
    o₀, d₀, o :: os', ws, { h with sessions := .opened h.sessions hp hz' h1, objects := ?_ }⟩
  intro o' ho'
  rcases List.mem_cons.1 ho' with e | e
  · cases e; exact List.mem_cons_self ..
  · exact List.mem_cons_of_mem _ (h.objects o' e)

theorem replay_concat {T : Type} (w : Write T) : ∀ (ws : List (Write T)) (A : List Nat → T),
    replay A (ws ++ [w]) = override (replay A ws) w.off w.shape w.val
  | [], _ => rfl
  | _ :: ws, _ => replay_concat w ws _

theorem performs_wf {E : Elem} {d : AnyDataset E} {p : Path} {w : Write E.T} (h : d.Performs p w σ σ') (hσ : σ.WF) :
    σ'.WF := by
  have key : ∀ (ts : List (Prog Unit)) (is : List Nat) (τ' : Fs), d.Completes p ts is σ τ' → τ'.WF := by
    rintro ts is τ' ⟨rs, _, _, rfl⟩
    refine FsProg.KeepsWF.interleave is (fun t ht => ?_) hσ
    obtain ⟨u, _, rfl⟩ := List.mem_map.1 ht
    exact Prog.onFiles_keepsWF _ _ _
  cases h with
  | region call val scratch ts is _ _ _ h => exact key _ _ _ h
  | chunk c data val is _ _ _ h => exact key _ _ _ h
  | remove c is _ h => exact key _ _ _ h

/-- writing -/
theorem ArrayMade.wrote (hL : L.Lawful) (h : C.ArrayMade L os σ p x) {o : DatasetObj} (ho : (p, o) ∈ os)
    (hm : o.handle.mode ≠ .r) {d : AnyDataset (Ty.elem x.dtype)} (hd : o.typed L (Ty.cast x.dtype) = .ok d)
    {w : Write (Ty.elem x.dtype).T} (hp : d.Performs (C.root ++ p) w σ σ') :
    C.ArrayMade L os σ' p { x with content := override x.content w.off w.shape w.val } ∧
    ∀ q, ¬ C.root ++ p <+: q → σ' q = σ q := by
  obtain ⟨o₀, d₀, os', ws, h⟩ := h
  have hw := Props.canWrite_of_ne hm
  refine ⟨⟨o₀, d₀, os', ws ++ [w], { h.is with }, h.sessions.wrote (h.objects o ho) hw hd hp, ?_, ?_, h.objects⟩,
    Props.c64_write_frame (h.is.law hL) h.is.desc h.is.typed h.is.wf h.is.keys h.sessions (h.objects o ho) hw hd hp⟩
  · rw [replay_concat, h.content]
  · have : σ'.attributes (C.root ++ p) C.layout = σ.attributes (C.root ++ p) C.layout := by
      obtain ⟨m, cfg, h1, h2, h3⟩ := h.sessions.carries (h.is.law hL) h.is.desc h.is.typed h.is.wf h.is.keys
      obtain ⟨t1, t2, t3, t4⟩ := (h3 o (h.objects o ho)).typed h1.self h1.shard (h.is.law hL) h.is.typed
      rw [t1] at hd
      have hd := Res.ok.inj hd
      subst hd
      obtain ⟨_, p2, _⟩ := hp.effect (AnyDataset.variant_wf t2 h.is.wf) (AnyDataset.variant_plainKeys t2 h.is.keys)
        (by rw [AnyDataset.variant_base]; exact hw) (by rw [AnyDataset.variant_isKey t2]; exact h2.tidy)
      exact attributes_congr fun n hn => AnyDataset.onlyChunks_meta p2 hn
    show (Target.dataset o₀.handle).shown _ _ = x.attrs
    rw [this]
    exact h.attrs

theorem onlyAttributes_wf {p : Path} {La : Layout} (h : σ.OnlyAttributes σ' p La A) (hn : σ.Node p La) (hσ : σ.WF) : σ'.WF := by
  have e : σ' = σ.set (p ++ [La.file]) (σ' (p ++ [La.file])) := by
    funext q
    by_cases hq : q = p ++ [La.file]
    · subst hq; simp [Fs.set]
    · rw [set_other _ _ hq]; exact h.files q hq
  rw [e]
  refine hσ.set (by simp) (by rw [List.dropLast_concat, hn.dir]; rfl) ?_ _
  rcases hn.doc with e | ⟨j, e, _⟩ <;> rw [e] <;> rfl

theorem apply_congr (op : AttrOp) {A B : AttrMap} {k : String} (h : A k = B k) : op.apply A k = op.apply B k := by
  cases op with
  | write j => simp only [AttrOp.apply, h]
  | remove k' => simp only [AttrOp.apply, h]

theorem shown_apply {d d' : DatasetHandle} {La : Layout} {op : AttrOp} (h : op.names ((Target.dataset d').locked La) = false)
    (A : AttrMap) : (Target.dataset d).shown La (op.apply A) = op.apply ((Target.dataset d).shown La A) := by
  have hl : (Target.dataset d').locked La = (Target.dataset d).hidden La := by cases La <;> rfl
  rw [hl] at h
  funext k
  by_cases hk : k ∈ (Target.dataset d).hidden La
  · rw [AttrOp.apply_of_not_names h hk]
    simp [Target.shown, hk]
  · rw [apply_congr op (B := A) (by simp [Target.shown, hk])]
    simp [Target.shown, hk]

theorem ArrayMade.refers (hL : L.Lawful) (h : C.ArrayMade L os σ p x) {o : DatasetObj} (ho : (p, o) ∈ os) :
    (Target.dataset o.handle).Refers σ C.layout ∧ o.handle.path = C.root ++ p := by
  obtain ⟨o₀, d₀, m, cfg, h0, h1, h2, h3⟩ := h.carries hL
  have hs := h3 o ho
  rw [← h0.layout]
  refine ⟨⟨?_, ?_, ?_⟩, hs.path⟩
  · show σ.Node o.handle.path _
    rw [hs.path]
    exact h2.node
  · show o.handle.isZarr σ = _
    rw [dataset_isZarr, hs.cache, o₀.layout_isZarr, hs.isZarr]
  · intro _ _ e
    show σ (o.handle.path ++ _) ≠ none
    rw [hs.path]
    exact h2.n5 e

/-- changing attributes -/
theorem ArrayMade.change (hL : L.Lawful) (h : C.ArrayMade L os σ p x) (hσ : σ.WF) {o : DatasetObj} (ho : (p, o) ∈ os)
    (hm : o.handle.mode ≠ .r) {op : AttrOp} (hv : op.Valid) :
    (op.names ((Target.dataset o.handle).locked C.layout) = true →
      (Target.dataset o.handle).change op σ = (.throw .runtimeError, σ)) ∧
    (op.names ((Target.dataset o.handle).locked C.layout) = false →
      ∃ σ', (Target.dataset o.handle).change op σ = (.ok (), σ') ∧ σ'.WF ∧
        (∀ q, q ≠ C.root ++ p ++ [C.layout.file] → σ' q = σ q) ∧
        C.ArrayMade L os σ' p { x with attrs := op.apply x.attrs }) := by
  obtain ⟨hr, hpath⟩ := h.refers hL ho
  obtain ⟨c1, c2⟩ := c29_change (t := .dataset o.handle) (Props.canWrite_of_ne hm) hr hv
  refine ⟨c1, fun hn => ?_⟩
  obtain ⟨σ', e, hoa, _⟩ := c2 hn
  have hnode := hr.node
  rw [show (Target.dataset o.handle).path = C.root ++ p from hpath] at hoa hnode
  refine ⟨σ', e, onlyAttributes_wf hoa hnode hσ, hoa.files, ?_⟩
  obtain ⟨o₀, d₀, os', ws, h⟩ := h
  have hs := h.sessions.annotated (h.objects o ho) hv
  rw [e] at hs
  refine ⟨o₀, d₀, os', ws, { h.is with }, hs, h.content, ?_, h.objects⟩
  show (Target.dataset o₀.handle).shown C.layout (σ'.attributes (C.root ++ p) C.layout) = op.apply x.attrs
  rw [hoa.attributes, shown_apply hn, h.attrs]

theorem GroupAt.refers (h : C.GroupAt σ p A) (m : FileMode) : (C.attrsOf p m).Refers σ C.layout := by
  have hz := h.isZarr m
  rw [← layout_isZarr (C := C)] at hz
  unfold attrsOf
  split
  · exact ⟨h.node, hz, fun d e => by cases e⟩
  · exact ⟨h.node, hz, fun d e => by cases e⟩

theorem attrsOf_path (p : Path) (m : FileMode) : (C.attrsOf p m).path = C.root ++ p := by
  unfold attrsOf
  split <;> rfl

theorem attrsOf_mode (p : Path) (m : FileMode) : (C.attrsOf p m).mode = m := by
  unfold attrsOf
  split <;> rfl

/-- changing attributes -/
theorem GroupAt.change (h : C.GroupAt σ p A) (hσ : σ.WF) {m : FileMode} (hm : m ≠ .r) {op : AttrOp} (hv : op.Valid)
    (h5 : C.isZarr = false → op.names ["dimensions", "blockSize", "dataType", "compressionType", "compression"] = false) :
    (op.names ((C.attrsOf p m).locked C.layout) = true → (C.attrsOf p m).change op σ = (.throw .runtimeError, σ)) ∧
    (op.names ((C.attrsOf p m).locked C.layout) = false →
      ∃ σ', (C.attrsOf p m).change op σ = (.ok (), σ') ∧ σ'.WF ∧
        (∀ q, q ≠ C.root ++ p ++ [C.layout.file] → σ' q = σ q) ∧
        isDirectory (σ' (C.root ++ p ++ [C.layout.file])) = false ∧ C.GroupAt σ' p (op.apply A)) := by
  have hr := h.refers m
  obtain ⟨c1, c2⟩ := c29_change (t := C.attrsOf p m) (by rw [attrsOf_mode]; exact Props.canWrite_of_ne hm) hr hv
  refine ⟨c1, fun hn => ?_⟩
  obtain ⟨σ', e, hoa, _⟩ := c2 hn
  rw [attrsOf_path, h.attrs] at hoa
  refine ⟨σ', e, onlyAttributes_wf hoa h.node hσ, hoa.files, ?_, hoa.node, ?_, hoa.attributes⟩
  · rcases hoa.node.doc with e | ⟨j, e, _⟩ <;> rw [e] <;> rfl
  · have hk := h.kind
    unfold GroupKind at hk ⊢
    have hne : ∀ n, n ≠ C.layout.file → σ' (C.root ++ p ++ [n]) = σ (C.root ++ p ++ [n]) := fun n hn =>
      hoa.files _ fun e => hn (by simpa using e)
    have hnode := hoa.node
    have hrest := hoa.rest
    have hat := hoa.attributes
    have ha := h.attrs
    cases el : C.layout with
    | v2 =>
      rw [el] at hk hne
      simp only at hk ⊢
      rw [hne _ (by decide)]
      exact hk
    | v3 =>
      rw [el] at hk hne hnode hrest
      obtain ⟨j, hj, k1, k2⟩ := hk
      obtain ⟨j', hj', _⟩ := hnode.v3 rfl
      have r1 := hrest rfl "node_type" (by decide)
      have r2 := hrest rfl "zarr_format" (by decide)
      have d : σ.docAt (C.root ++ p ++ ["zarr.json"]) = some j := by unfold Fs.docAt; rw [hj]
      have d' : σ'.docAt (C.root ++ p ++ ["zarr.json"]) = some j' := by unfold Fs.docAt; rw [hj']
      rw [d, d'] at r1 r2
      exact ⟨j', hj', Eq.trans r1 k1, Eq.trans r2 k2⟩
    | n5 =>
      rw [el] at hk hne hat ha
      refine ⟨by rw [hne _ (by decide)]; exact hk.1, by rw [hne _ (by decide)]; exact hk.2.1, fun k hkk => ?_⟩
      rw [hat, AttrOp.apply_of_not_names (h5 (layout_n5.1 el)) hkk, ← ha]
      exact hk.2.2 k hkk

/-! ### New arrays -/

theorem all₂_zip {P : Nat → Nat → Prop} : ∀ {a b : List Nat}, a.length = b.length → (∀ p ∈ List.zip a b, P p.1 p.2) →
    All₂ P a b
  | [], [], _, _ => trivial
  | [], _ :: _, h, _ => by cases h
  | _ :: _, [], h, _ => by cases h
  | x :: a, y :: b, h, hp =>
    ⟨hp (x, y) (by simp), all₂_zip (by simpa using h) fun p hm => hp p (by simp only [List.zip_cons_cons]; exact List.mem_cons_of_mem _ hm)⟩

theorem newDatasetFull_more {g : PyGroup} {n : PyName} {a : PyCreateArgs} {ds : DatasetObj} {σ σ' : Fs} (hσ : σ.WF)
    (hn : n.absolute = false) (h : g.newDatasetFull n a σ = (.ok ds, σ')) :
    ∃ z args O args', g.handle.isZarr σ = (.ok z, σ) ∧ Resolved a z g.zarrFormat args O ∧
      g.handle.createDataset n.parts args' σ = (.ok ds, σ') ∧ ds.info.isZarr = z ∧
      ds.info.zarrFormat = args.zarrFormat ∧ ds.info.shardShape = args.shardShape ∧ ds.info.fillValue = args.fill ∧
      args'.zarrFormat = args.zarrFormat ∧ ds.handle.delimiter = args.delimiter ∧ ds.handle.cache = some z ∧
      ds.info.chunkShape = args.chunkShape ∧ ds.info.shape = args.shape ∧
      ∃ d m, makeDataset d m = .ok ds ∧ ds.info = m := by
  unfold PyGroup.newDatasetFull at h
  obtain ⟨z, σ1, h1, h3⟩ := FsM.bind_ok.1 h
  clear h
  have : σ1 = σ := by
    rw [Z5.group_isZarr] at h1
    exact (Prod.mk.inj h1).2.symm
  subst this
  obtain ⟨⟨args, O⟩, σ2, h2, h⟩ := FsM.bind_ok.1 h3
  clear h3
  obtain ⟨hr, rfl⟩ := FsM.lift_ok.1 h2
  dsimp only at h
  have R := resolve_ok hr
  obtain ⟨r, hro, h⟩ := createDatasetJsonAt_ok hn h
  obtain ⟨z', m, j, hz', _, hm, hi, hmk, hh, hj, hnew⟩ := GroupHandle.createDataset_ok hσ h
  obtain ⟨e1, e2, e3, e4, e5, e6, e7, e8, e9, e10, e11, e12⟩ := createMeta_ok hm
  have ez : z' = z := by rw [h1] at hz'; cases hz'; rfl
  subst ez
  refine ⟨z', args, O, _, h1, R, h, by rw [hi, e1], by rw [hi, e2], by rw [hi, e5], by rw [hi, e6], rfl,
    by rw [hh]; rfl, by rw [hh], by rw [hi, e4], by rw [hi, e3], _, m, hmk, hi⟩

theorem plainTypeName_inj {t t' : Datatype} {s : String} (h : plainTypeName t = some s) (h' : plainTypeName t' = some s) :
    t = t' := by
  rw [← h'] at h
  cases t <;> cases t' <;> first | rfl | (revert h h'; simp [plainTypeName])

theorem asksType_eq {a : PyCreateArgs} {t t' : Datatype} (h : a.AsksType t) (h' : a.AsksType t') : t = t' := by
  obtain ⟨h1, h2, h3⟩ := h
  obtain ⟨h1', h2', _⟩ := h'
  cases e : a.dtype with
  | some s => exact plainTypeName_inj (h1 s e) (h1' s e)
  | none =>
    cases e' : a.data with
    | some d => exact plainTypeName_inj (h2 d.1 d.2 e') (h2' d.1 d.2 e')
    | none => rcases h3 with h | h <;> contradiction

theorem asks_typed {a : PyCreateArgs} {La : Layout} (h : a.Asks La x) : a.Typed where
  shape s hs n hn := by
    rw [asksShape_unique hs h.shape] at hn
    exact Nat.lt_trans (h.small n hn) (by decide)
  shards s hs := (h.slots s hs).2
  fill := h.representable
  options := h.options

/-- an object as it comes out of the constructor -/
theorem typed_of_make {E : Elem} {elem : FillVal → E.T} {d : DatasetHandle} {o : DatasetObj}
    (hmk : makeDataset d o.info = .ok o) (hL : L.Lawful)
    (bytes : prod o.info.chunkShape * E.size < 2 ^ 32)
    (dims : Spec.ChunkDims o.info.shape o.info.chunkShape) (small : ∀ s ∈ o.info.shape, s < 2 ^ 31)
    (hsep : o.handle.delimiter = "." ∨ o.handle.delimiter = "/")
    (hc : o.handle.cache = some o.info.isZarr) (hax : o.info.shape.length < 2 ^ 16)
    (hb : ∀ b ∈ o.info.chunkShape, b < 2 ^ 32)
    (hsh : o.info.shardShape ≠ [] → o.info.isZarr = true ∧
      All₂ (fun S b => 0 < b ∧ 0 < S ∧ S % b = 0) o.info.shardShape o.info.chunkShape ∧
      prod (List.zipWith (· / ·) o.info.shardShape o.info.chunkShape) < 2 ^ 59) (bk : Backend := .files) :
    ∃ d₀ : AnyDataset E, o.typed L elem bk = .ok d₀ ∧ d₀.WF ∧ d₀.PlainKeys ∧ d₀.base.shape = o.info.shape ∧
      d₀.base.chunkShape = o.info.chunkShape := by
  obtain ⟨B, f, s, h1, h2, h3, h4⟩ := makeDataset_ok.1 hmk
  have hmake : ∀ (k : KeyCfg) (Co : Codec) (v : E.T) (w : Bool), Dataset.make o.info.shape o.info.chunkShape k Co v w bk =
      .ok ⟨o.info.shape, o.info.chunkShape, accumulateMul o.info.chunkShape, B, k, Co, v, w, bk⟩ := by
    intro k Co v w
    unfold Dataset.make
    rw [h1]
    rfl
  have hwf : ∀ (k : KeyCfg) (Co : Codec) (v : E.T) (w : Bool), Co.LawfulFor (prod o.info.chunkShape * E.size) → (k.isZarr = true → Separates k.delimiter) →
      Dataset.WF (E := E) ⟨o.info.shape, o.info.chunkShape, accumulateMul o.info.chunkShape, B, k, Co, v, w, bk⟩ :=
    fun k Co v w hCo hk => ⟨hmake k Co v w, dims, small, Nat.lt_trans bytes (by decide), hCo, hk, fun _ => ⟨hax, hb⟩⟩
  have hS : Separates o.handle.delimiter.toList := by
    rcases hsep with e | e <;> rw [e]
    · exact ⟨'.', by decide, by decide⟩
    · exact ⟨'/', by decide, by decide⟩
  have hP : ∀ k : KeyCfg, k.delimiter = o.handle.delimiter.toList → k.nested = true ∨ '/' ∉ k.delimiter := by
    intro k hk
    unfold KeyCfg.nested
    rw [hk]
    rcases hsep with e | e <;> rw [e]
    · right; decide
    · left; simp
  cases hsd : o.sharded with
  | false =>
    refine ⟨.plain ⟨o.info.shape, o.info.chunkShape, accumulateMul o.info.chunkShape, B,
      ⟨o.handle.cache.getD o.info.isZarr, o.handle.delimiter.toList, o.handle.zarrFormat.toNat, o.handle.encoding.toList⟩,
      L.codec E.size o.settings, elem o.fill, o.handle.mode.canWrite, bk⟩, ?_, hwf _ _ _ _ ((hL _ _).mono (Nat.le_sub_one_of_lt bytes)) (fun _ => hS), hP _ rfl, rfl, rfl⟩
    unfold DatasetObj.typed
    simp only
    rw [hsd, if_neg (by decide), hmake]
    rfl
  | true =>
    have hne : o.info.shardShape ≠ [] := (makeDataset_facts hmk).2.2.2 hsd
    obtain ⟨hz, hall, hsl⟩ := hsh hne
    have hcps : chunksPerShard o.info.shardShape o.info.chunkShape =
        .ok (List.zipWith (· / ·) o.info.shardShape o.info.chunkShape) := by
      rcases h4 with ⟨_, _, ⟨c, hc⟩, _⟩ | ⟨h4, h5⟩
      · unfold chunksPerShard at hc ⊢
        split at hc
        · cases hc
        · split at hc
          · cases hc
          · rename_i g1 g2
            rw [if_neg g1, if_neg g2]
      · rw [h5] at hsd
        cases hsd
    let ds : Dataset E := ⟨o.info.shape, o.info.chunkShape, accumulateMul o.info.chunkShape, B,
      ⟨true, o.handle.delimiter.toList, o.handle.zarrFormat.toNat, o.handle.encoding.toList⟩,
      L.codec E.size o.settings, elem o.fill, o.handle.mode.canWrite, bk⟩
    have hmk' : ∀ k : KeyCfg, { k with isZarr := true } = ds.key → ShardedDataset.make o.info.shape o.info.chunkShape
        o.info.shardShape k (L.codec E.size o.settings) (elem o.fill) o.handle.mode.canWrite bk =
        .ok { ds with shardShape := o.info.shardShape,
                      cps := List.zipWith (· / ·) o.info.shardShape o.info.chunkShape,
                      nSlots := numShardSlots (List.zipWith (· / ·) o.info.shardShape o.info.chunkShape) } := by
      intro k hk
      unfold ShardedDataset.make
      rw [hk, hmake, Res.ok_bind, hcps]
      rfl
    refine ⟨.sharded { ds with shardShape := o.info.shardShape,
                               cps := List.zipWith (· / ·) o.info.shardShape o.info.chunkShape,
                               nSlots := numShardSlots (List.zipWith (· / ·) o.info.shardShape o.info.chunkShape) }, ?_,
      ⟨hmk' ds.key rfl, hwf _ _ _ _ ((hL _ _).mono (Nat.le_sub_one_of_lt bytes)) (fun _ => hS), hall, hsl⟩, hP ds.key rfl, rfl, rfl⟩
    unfold DatasetObj.typed
    simp only
    rw [hsd, if_pos rfl, hmk' _ rfl]
    rfl

theorem createDataset_layout (z : Bool) (f : Int) : Layout.of z (if Layout.of z f = .v3 then 3 else 2) = Layout.of z f := by
  cases z with
  | false => rfl
  | true => by_cases h : f = 3 <;> simp [Layout.of, h]

/-- a new array -/
theorem newArray_at (hσ : σ.WF) (hL : L.Lawful) {g key : Path} {m : FileMode} {a : PyCreateArgs} {o : DatasetObj}
    (hz : (C.group g m).handle.isZarr σ = (.ok C.isZarr, σ)) (hx : a.Asks C.layout x)
    (h : (C.group g m).newDatasetFull { parts := key } a σ = (.ok o, σ')) (hos : ∀ o', (g ++ key, o') ∉ os) :
    (∃ docs, σ.NewNode σ' (C.root ++ (g ++ key)) docs) ∧ o.handle.mode = m ∧ o.info.dtype = x.dtype ∧
    o.info.shape = x.shape ∧ o.info.chunkShape = x.chunks ∧
    C.ArrayMade L ((g ++ key, o) :: os) σ' (g ++ key) x := by
  obtain ⟨_, _, htyped, _, hshape, htype, hchunks⟩ := newDatasetFull_call hσ rfl (asks_typed hx) h
  obtain ⟨z, args, O, args', hz', R, hcr, f1, f2, f3, f4, f5, f6, f7, f8, f9, d, me, hmk, hinfo⟩ := newDatasetFull_more hσ rfl h
  have ez : z = C.isZarr := by rw [hz] at hz'; cases hz'; rfl
  subst ez
  subst hinfo
  have R : Resolved a C.isZarr C.format args O := R
  have hp : (C.group g m).handle.path ++ key = C.root ++ (g ++ key) := List.append_assoc ..
  have es : o.info.shape = x.shape := asksShape_unique hshape hx.shape
  have et : o.info.dtype = x.dtype := asksType_eq htype hx.type
  have ec : o.info.chunkShape = x.chunks := by rw [es] at hchunks; exact asksChunks_unique hchunks hx.chunks
  obtain ⟨z', me', j, hz'', _, hm', hi', _, hh', _, hnew⟩ := GroupHandle.createDataset_ok hσ hcr
  have hlay : o.layout = C.layout := by
    unfold DatasetObj.layout layout
    rw [f1, f2, R.format]
    exact createDataset_layout _ _
  have hle : ∀ b ∈ o.info.chunkShape, b < 2 ^ 31 := by
    rw [f8]
    exact zip_lt R.axes R.limited (by rw [← f9, es]; exact hx.small)
  have hlen : o.info.shape.length = o.info.chunkShape.length := by rw [f8, f9, R.axes]
  have hdims : Spec.ChunkDims o.info.shape o.info.chunkShape := by
    refine ⟨by rw [es]; exact hx.axes.1, all₂_zip hlen fun p hp => ?_⟩
    have h1 := hle p.2 (List.of_mem_zip hp).2
    have h2 : p.1 < 2 ^ 31 := hx.small _ (by rw [← es]; exact (List.of_mem_zip hp).1)
    exact ⟨hx.positive _ (by rw [← ec]; exact (List.of_mem_zip hp).2), by omega⟩
  have hcache : o.handle.cache = some o.info.isZarr := by rw [f7, f1]
  have hsep : o.handle.delimiter = "." ∨ o.handle.delimiter = "/" := by
    rw [f6, R.separator]
    have h1 : a.askedSeparator C.layout = "." ∨ a.askedSeparator C.layout = "/" := by simpa using hx.separator
    exact h1
  have hmode : o.handle.mode = m := by rw [hh']; rfl
  obtain ⟨d₀, t1, t2, t3, t4, t5⟩ := typed_of_make (E := Ty.elem x.dtype) (elem := Ty.cast x.dtype) hmk hL
    (by rw [ec]; exact hx.bytes) hdims (by rw [es]; exact hx.small) hsep hcache (by rw [es]; exact hx.axes.2)
    (fun b hb => Nat.lt_trans (hle b hb) (by decide)) (by
      intro hne
      rw [f3, R.shards] at hne ⊢
      cases hsh : a.shards with
      | none => rw [hsh] at hne; exact absurd rfl hne
      | some s =>
        obtain ⟨s1, s2, s3⟩ := hx.shards s hsh
        refine ⟨?_, ?_, ?_⟩
        · rw [f1, ← layout_isZarr, s1]; rfl
        · rw [ec]
          refine all₂_zip s2 fun p hp => ?_
          obtain ⟨g1, g2⟩ := s3 p hp
          exact ⟨hx.positive _ (List.of_mem_zip hp).2, g1, Nat.mod_eq_zero_of_dvd g2⟩
        · rw [ec]; exact (hx.slots s hsh).1)
  obtain ⟨z'', hz3, hr, _, hshown⟩ := c29_created_dataset hσ hcr
  have ez : z'' = C.isZarr := by rw [hz] at hz3; cases hz3; rfl
  subst ez
  have hlay' : Layout.of C.isZarr args'.zarrFormat = C.layout := by
    rw [f5, R.format]
    exact createDataset_layout _ _
  rw [hlay'] at hshown
  have hpath : o.handle.path = C.root ++ (g ++ key) := by rw [hh', ← hp]; rfl
  refine ⟨⟨_, by rw [← hp]; exact hnew⟩, hmode, et, es, ec, o, d₀, [o], [], ⟨⟨htyped, ?_, ?_⟩, t1, t2, t3, ?_, by rw [t5, ec]; exact hx.bytes, hlay, et, es,
    ec, ?_, ?_, ?_, ?_⟩, .created hσ hp hcr, ?_, ?_, ?_⟩
  · intro _
    rw [f2, R.format]
    split
    · exact .inr rfl
    · exact .inl rfl
  · rw [f1, f4, R.fill]
    cases hzz : C.isZarr with
    | true => exact .inl rfl
    | false => exact .inr (hx.fillN5 (layout_n5.2 hzz))
  · rw [t4, t5, es, ec]; exact hx.number
  · obtain ⟨B, f, s, _, h2, _, h4⟩ := makeDataset_ok.1 hmk
    obtain ⟨v, hv, hv'⟩ := hx.fill
    have : o.fill = f := by
      rcases h4 with ⟨_, _, _, e⟩ | ⟨_, e⟩ <;> exact congrArg DatasetObj.fill e
    rw [f4, R.fill, et, hv] at h2
    cases h2
    rw [hv', this]
  · intro hn
    have hs : o.sharded = false := by
      cases e : o.sharded with
      | false => rfl
      | true =>
        refine absurd ?_ ((makeDataset_facts hmk).2.2.2 e)
        rw [f3, R.shards, ← hx.sharding, hn]
        rfl
    unfold DatasetObj.typed at t1
    simp only at t1
    rw [hs, if_neg (by decide)] at t1
    obtain ⟨ds, _, e⟩ := Res.bind_eq_ok.1 t1
    exact ⟨ds, (Res.ok.inj e).symm⟩
  · rw [f3, R.shards, hx.sharding]
    cases hsh : a.shards with
    | none => rfl
    | some s =>
      have : s ≠ [] := by
        rintro rfl
        have h1 := (hx.shards _ hsh).2.1
        rw [← ec, ← hlen, es] at h1
        exact hx.axes.1 (List.eq_nil_of_length_eq_zero h1.symm)
      exact (if_neg this).symm
  · intro b b1 b2 b3 b4
    have hlay'' : C.layout ≠ .n5 → o.info.isZarr = true := by
      intro e
      rw [f1]
      cases hzz : C.isZarr with
      | true => rfl
      | false => exact absurd (layout_n5.2 hzz) e
    refine ⟨⟨by rw [b1, es]; exact hx.axes.1, by rw [b1, es]; exact hx.axes.2, by rw [b1, b2]; exact hlen⟩,
      by rw [b2, ec]; exact hx.positive, by rw [b1, es]; exact hx.small,
      ⟨by rw [b2]; exact fun c hc => Nat.lt_trans (hle c hc) (by decide), by rw [b2, ec]; exact hx.bytes⟩, ?_, fun e => ?_⟩
    · rw [b3, f3, R.shards]
      intro hne
      cases hsh : a.shards with
      | none => rw [hsh] at hne; exact absurd rfl hne
      | some s =>
        obtain ⟨s1, s2, s3⟩ := hx.shards s hsh
        rw [b2, ec]
        refine ⟨all₂_zip s2 fun p hp => ?_, (hx.slots s hsh).2, (hx.slots s hsh).1⟩
        obtain ⟨g1, g2⟩ := s3 p hp
        exact ⟨g1, Nat.mod_eq_zero_of_dvd g2⟩
    · rw [b4 (hlay'' e)]
      have e7 : o.info.delimiter = o.handle.delimiter := by
        obtain ⟨_, _, _, _, _, _, e7, _⟩ := createMeta_ok hm'
        rw [hi', e7, hh']
        rfl
      rw [e7]
      simpa using hsep
  · exact hx.content.symm
  · funext k
    rw [hx.attrs, ← hpath]
    exact hshown k
  · intro o' ho'
    rcases List.mem_cons.1 ho' with e | e
    · cases e; exact List.mem_singleton.2 rfl
    · exact absurd e (hos o')

end Container

end Z5
