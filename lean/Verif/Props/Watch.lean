import Verif.Proofs.Watch
import Verif.Props.SameNode
import Verif.Props.Concurrent

/-!
# C97: looking at a node while another process changes its attributes or creates it
-/

namespace Z5.Props
open Spec FsProg

variable {Ty : ElemTypes} {C : Container} {L : Libs} {T : Tree Ty} {os : List (Path × DatasetObj)} {σ : Fs} {D : Disk}

/-- the states while attributes are changed -/
def Changing (σ : Fs) (F : Path) (σ₁ σ' : Fs) : Prop :=
  σ' = σ ∨ (σ' = σ₁ ∧ ∃ j, σ' = σ.set F (some (.doc j))) ∨ ∃ b, σ' = σ.set F (some (.file b))

theorem changing_crash {t : Target} {op : AttrOp} {La : Layout} (h : t.Refers σ La) (n : Nat) :
    Changing σ (t.path ++ [La.file]) (t.change op σ).2 ((t.steps D op).crash n σ) := by
  rcases OneDoc.target (D := D) (op := op) h _ ⟨n, rfl⟩ with h' | ⟨q, rfl, _, _, ⟨b, h'⟩ | ⟨h1, h'⟩⟩
  · exact .inl h'
  · exact .inr (.inr ⟨b, h'⟩)
  · rw [c75_attributes_complete] at h'
    exact .inr (.inl ⟨h', h1⟩)

theorem changing_alike {p : Path} {La : Layout} {σ₁ : Fs} (h : σ.Node p La) : Alike (Changing σ (p ++ [La.file]) σ₁) σ p where
  looks σ' hσ' := by
    have key : ∀ e : Entry, ((σ.set (p ++ [La.file]) (some e)) p).isSome = (σ p).isSome ∧ ∀ x, x = ".zgroup" ∨ x = ".zarray" ∨ x = "zarr.json" →
        ((σ.set (p ++ [La.file]) (some e)) (p ++ [x])).isSome = (σ (p ++ [x])).isSome := fun e => by
      refine ⟨by rw [Fs.set, if_neg (by simp)], fun x hx => ?_⟩
      rw [Fs.set]
      split
      · rename_i hp
        have hp : x = La.file := by simpa using hp
        cases La with
        | v2 => rcases hx with rfl | rfl | rfl <;> exact absurd hp (by decide)
        | n5 => rcases hx with rfl | rfl | rfl <;> exact absurd hp (by decide)
        | v3 =>
          obtain ⟨j, e, _⟩ := h.v3 rfl
          rw [hp]
          show _ = (σ (p ++ ["zarr.json"])).isSome
          rw [e]; rfl
      · rfl
    rcases hσ' with rfl | ⟨_, j, rfl⟩ | ⟨b, rfl⟩
    · exact ⟨rfl, fun _ _ => rfl⟩
    · exact key _
    · exact key _

/-- reading the attributes of a file system that does not change -/
theorem readAttrs_alone {t : Target} {La : Layout} {σ₁ : Fs} (h : t.Refers σ La) (hS : Alike (· = σ₁) σ t.path) :
    ((Call.read t).alone σ₁).1 = (docValue (σ₁ (t.path ++ [La.file])) >>= fun j => Answer.attributes <$> shownIn t La (attrsIn La j)) := by
  have := (meets_read (D := exDisk) h hS).run rfl
  rw [(Runs.target_read (I := fun _ => True) (D := exDisk) t σ₁ trivial).1] at this
  obtain ⟨r', h1, h2⟩ := this
  rw [h2]
  rcases h1 with ⟨_, rfl, rfl⟩ | ⟨_, _, _, rfl, rfl, h3, h4⟩
  · rfl
  · exact absurd h4 h3

/-- **C97, attributes.**  While one process changes the attributes of a node, other processes read them, each through a handle of its own, and
the steps are interleaved in any way.  Each of them gets what was there before the change, or what is there after it, or the error that the
document could not be parsed; never anything else.  The change is what it is without the others. -/
theorem c97_attributes {t : Target} {op : AttrOp} {La : Layout} (h : t.Refers σ La) {ts : List Target}
    (ht : ∀ t' ∈ ts, t'.path = t.path ∧ t'.Refers σ La) (is : List Nat) :
    let s := FsProg.interleave is ((Call.change t op).steps D :: ts.map fun t' => (Call.read t').steps D, σ)
    (∀ r, s.1[0]? = some (.ret r) → r = ((Call.change t op).alone σ).1 ∧ s.2 = (t.change op σ).2) ∧
    ∀ (i : Nat) (t' : Target) (r : Res Answer), ts[i]? = some t' → s.1[i + 1]? = some (.ret r) →
      r = ((Call.read t').alone σ).1 ∨ r = ((Call.read t').alone (t.change op σ).2).1 ∨ r = .throw .typeError := by
  let S := Changing σ (t.path ++ [La.file]) (t.change op σ).2
  have hw : ∀ n, S (((Call.change t op).steps D).crash n σ) := fun n => by
    rcases FsProg.passes_bind (t := t.steps D op) (g := fun _ => (.ret (.ok Answer.done) : FsProg Answer)) ⟨n, rfl⟩ with ⟨k, e⟩ | ⟨_, σ₁, e1, e2⟩
    · rw [show ((Call.change t op).steps D).crash n σ = _ from e.symm]
      exact changing_crash h k
    · rw [show ((Call.change t op).steps D).crash n σ = _ from FsProg.passes_ret e2]
      obtain ⟨k, e⟩ := passes_run (t.steps D op) σ
      rw [e1] at e
      have e : σ₁ = _ := e.symm
      rw [e]
      exact changing_crash h k
  obtain ⟨w', σ', ts', h1, h2, _, h3⟩ := watch (S := S) (Q := fun i r => ∀ t', ts[i]? = some t' → ReadAttrs S t' La r) is
    ((Call.change t op).steps D) σ (ts.map fun t' => (Call.read t').steps D) hw fun i u hu => by
      rw [List.getElem?_map] at hu
      cases hi : ts[i]? with
      | none => rw [hi] at hu; cases hu
      | some t' =>
        rw [hi] at hu
        cases hu
        obtain ⟨hp, hr⟩ := ht t' (List.mem_of_getElem? hi)
        refine Meets.mono (fun r hr t'' e => by cases e; exact hr) (meets_read hr ?_)
        rw [hp]
        exact changing_alike h.node
  intro s
  have hs : s = (w' :: ts', σ') := h1
  rw [hs]
  refine ⟨fun r hr => ?_, fun i t' r hi hr => ?_⟩
  · have hr : w' = .ret r := Option.some.inj hr
    rw [hr] at h2
    have h2 : (r, σ') = ((Call.change t op).steps D).run σ := h2
    have h4 := (Runs.bind (Runs.target (I := fun _ => True) (fun _ _ _ _ => trivial) D t op) (fun _ => Runs.pure Answer.done) σ trivial).1
    have h4 : ((Call.change t op).steps D).run σ = (Call.change t op).alone σ := h4
    rw [h4] at h2
    refine ⟨congrArg Prod.fst h2, (congrArg Prod.snd h2).trans ?_⟩
    show ((t.change op >>= fun _ => pure Answer.done) σ).2 = _
    rw [FsM.bind_run]
    rcases t.change op σ with ⟨r, σ''⟩
    cases r <;> rfl
  · obtain ⟨hp, hr'⟩ := ht t' (List.mem_of_getElem? hi)
    obtain ⟨r', g1, g2⟩ := h3 i (.ret r) hr t' hi
    rw [hp] at g1
    rcases g1 with ⟨σ'', e | ⟨e, j, e'⟩ | ⟨b, e⟩, g1⟩ | ⟨g1, _⟩
    · left
      rw [readAttrs_alone hr' ⟨fun _ e => by rw [e]; exact ⟨rfl, fun _ _ => rfl⟩⟩, g2, g1, e, hp]
    · right; left
      rw [readAttrs_alone hr' ⟨fun σ3 e3 => by
        rw [e3, ← e, hp]
        exact (changing_alike (σ₁ := (t.change op σ).2) h.node).looks _ (.inr (.inl ⟨e, j, e'⟩))⟩, g2, g1, e, hp]
    · right; right
      rw [g2, g1, e, Fs.set, if_pos rfl]
      rfl
    · right; right
      rw [g2, g1]
      rfl

theorem alone_read {t : Target} {σ : Fs} {j : Json} (h : t.read σ = (.ok j, σ)) : ((Call.read t).alone σ).1 = .ok (.attributes j) := by
  show ((t.read >>= fun j => pure (Answer.attributes j)) σ).1 = _
  rw [FsM.bind_run, h]
  rfl

/-- **C97, attributes of groups** of a container at any point in its life. -/
theorem c97_group_attributes (hL : L.Lawful) (h : History C L Ty T os σ) {g : Path} {A : AttrMap} (hg : T g = some (.group A)) (m : FileMode)
    {op : AttrOp} (hv : op.Valid)
    (h5 : C.isZarr = false → op.names ["dimensions", "blockSize", "dataType", "compressionType", "compression"] = false)
    (ms : List FileMode) (is : List Nat) :
    let s := FsProg.interleave is ((Call.change (C.attrsOf g m) op).steps D :: ms.map fun m' => (Call.read (C.attrsOf g m')).steps D, σ)
    ∀ (i : Nat) (r : Res Answer), s.1[i + 1]? = some (.ret r) →
      r = .throw .typeError ∨ ∃ j, r = .ok (.attributes j) ∧ ((∀ k, j.find k = A k) ∨ ∀ k, j.find k = op.apply A k) := by
  have ha := (Container.inv_of_history hL h).group _ _ hg
  intro s i r hr
  have hr' := hr
  have hs : s = FsProg.interleave is ((Call.change (C.attrsOf g m) op).steps D ::
      (ms.map fun m' => C.attrsOf g m').map fun t' => (Call.read t').steps D, σ) := by
    rw [List.map_map]; rfl
  have hlen := length_files is ((Call.change (C.attrsOf g m) op).steps D :: ms.map fun m' => (Call.read (C.attrsOf g m')).steps D) σ
  have hi : i + 1 < s.1.length := by
    refine Nat.lt_of_not_le fun e => ?_
    rw [List.getElem?_eq_none e] at hr
    cases hr
  rw [show s.1.length = _ from hlen, List.length_cons, List.length_map] at hi
  rw [hs] at hr
  have hm : (ms.map fun m' => C.attrsOf g m')[i]? = some (C.attrsOf g ms[i]) := by
    rw [List.getElem?_map, List.getElem?_eq_getElem (by omega)]; rfl
  have hc := (c97_attributes (D := D) (op := op) (ha.refers m) (ts := ms.map fun m' => C.attrsOf g m') (fun t' ht => by
    obtain ⟨m', _, rfl⟩ := List.mem_map.1 ht
    exact ⟨by rw [Container.attrsOf_path, Container.attrsOf_path], ha.refers m'⟩) is).2 i _ r hm hr
  obtain ⟨⟨j, e1, e2⟩, _⟩ := c66_group_attributes hL h hg (ms[i])
  rcases hc with e | e | e
  · exact .inr ⟨j, by rw [e, alone_read e1], .inl e2⟩
  · obtain ⟨d1, d2, d3⟩ := (c66_group_attributes hL h hg m).2 op hv h5
    by_cases hm : m = .r
    · exact .inr ⟨j, by rw [e, d1 hm, alone_read e1], .inl e2⟩
    · by_cases hb : C.isZarr = false ∧ g = [] ∧ op.names ["n5"] = true
      · exact .inr ⟨j, by rw [e, d2 hm hb, alone_read e1], .inl e2⟩
      · obtain ⟨σ'', g1, g2⟩ := d3 hm hb
        obtain ⟨⟨j', e3, e4⟩, _⟩ := c66_group_attributes hL g2 (Container.put_self _ _ _) (ms[i])
        exact .inr ⟨j', by rw [e, g1, alone_read e3], .inr e4⟩
  · exact .inl e

/-- **C97, attributes of arrays** -/
theorem c97_array_attributes (hL : L.Lawful) (h : History C L Ty T os σ) {p : Path} {x : ArrayItem Ty} {o : DatasetObj} (ho : (p, o) ∈ os)
    (hx : T p = some (.array x)) {op : AttrOp} (hv : op.Valid) {rd : List DatasetObj} (hrd : ∀ o' ∈ rd, (p, o') ∈ os) (is : List Nat) :
    let s := FsProg.interleave is ((Call.change (.dataset o.handle) op).steps D :: rd.map fun o' => (Call.read (.dataset o'.handle)).steps D, σ)
    ∀ (i : Nat) (r : Res Answer), s.1[i + 1]? = some (.ret r) →
      r = .throw .typeError ∨ ∃ j, r = .ok (.attributes j) ∧ ((∀ k, j.find k = x.attrs k) ∨ ∀ k, j.find k = op.apply x.attrs k) := by
  have ha := (Container.inv_of_history hL h).array _ _ hx
  intro s i r hr
  have hs : s = FsProg.interleave is ((Call.change (.dataset o.handle) op).steps D ::
      (rd.map fun o' => Target.dataset o'.handle).map fun t' => (Call.read t').steps D, σ) := by
    rw [List.map_map]; rfl
  have hlen := length_files is ((Call.change (.dataset o.handle) op).steps D :: rd.map fun o' => (Call.read (.dataset o'.handle)).steps D) σ
  have hi : i + 1 < s.1.length := by
    refine Nat.lt_of_not_le fun e => ?_
    rw [List.getElem?_eq_none e] at hr
    cases hr
  rw [show s.1.length = _ from hlen, List.length_cons, List.length_map] at hi
  rw [hs] at hr
  have hm : (rd.map fun o' => Target.dataset o'.handle)[i]? = some (.dataset rd[i].handle) := by
    rw [List.getElem?_map, List.getElem?_eq_getElem (by omega)]; rfl
  have ho' := hrd rd[i] (List.getElem_mem _)
  obtain ⟨hr1, hr2⟩ := ha.refers hL ho
  have hc := (c97_attributes (D := D) (op := op) hr1 (ts := rd.map fun o' => Target.dataset o'.handle) (fun t' ht => by
    obtain ⟨o', ho', rfl⟩ := List.mem_map.1 ht
    obtain ⟨k1, k2⟩ := ha.refers hL (hrd o' ho')
    exact ⟨k2.trans hr2.symm, k1⟩) is).2 i _ r hm hr
  obtain ⟨⟨j, e1, e2⟩, _⟩ := c66_array_attributes hL h ho' hx
  rcases hc with e | e | e
  · exact .inr ⟨j, by rw [e, alone_read e1], .inl e2⟩
  · obtain ⟨d1, d2, d3⟩ := (c66_array_attributes hL h ho hx).2 op hv
    by_cases hm : o.handle.mode = .r
    · exact .inr ⟨j, by rw [e, d1 hm, alone_read e1], .inl e2⟩
    · by_cases hb : C.isZarr = false ∧ op.names ["dimensions", "blockSize", "dataType", "compressionType", "compression"] = true
      · exact .inr ⟨j, by rw [e, d2 hm hb, alone_read e1], .inl e2⟩
      · obtain ⟨σ'', g1, g2⟩ := d3 hm hb
        obtain ⟨⟨j', e3, e4⟩, _⟩ := c66_array_attributes hL g2 ho' (Container.put_self _ _ _)
        exact .inr ⟨j', by rw [e, g1, alone_read e3], .inr e4⟩
  · exact .inl e

/-! ### opening a dataset that is being created -/

section Opening

variable {S : Fs → Prop} {g ks : Path} {n : String} {M : Meta} {J : Json} {o : DatasetObj}

/-- the dataset is complete all the time -/
def Full (S : Fs → Prop) (X : Race DatasetObj) : Prop := ∀ σ, S σ → σ X.P = some .dir ∧ σ X.F = some (.doc X.J)

/-- the dataset of a document -/
def opened (C : Container) (J : Json) (d : DatasetHandle) : Res DatasetObj := Meta.fromJson J C.isZarr >>= makeDataset d

/-- the chunk keys of a document -/
def keysOf (C : Container) (M : Meta) (J : Json) : Res ChunkConfig :=
  if C.isZarr then (if M.zarrFormat = 3 then getZarrChunkConfig (some J) none else getZarrChunkConfig none (some J)) else .ok .initial

/-- the name of the document -/
def docName (C : Container) (M : Meta) : String :=
  if C.isZarr && M.zarrFormat == 3 then "zarr.json" else if C.isZarr then ".zarray" else "attributes.json"

theorem race_file (hM : M.isZarr = C.isZarr) : (datasetRace C g ks n σ M J o).F = C.root ++ (g ++ ks ++ [n]) ++ [docName C M] := by
  unfold datasetRace docName
  rw [hM]

theorem race_other (hM : M.isZarr = C.isZarr) {σ' : Fs} (h : (datasetRace C g ks n σ M J o).Shape σ') {x : String} (hx : x ≠ docName C M) :
    (σ' (C.root ++ (g ++ ks ++ [n]) ++ [x])).isSome = false := by
  have : σ' (C.root ++ (g ++ ks ++ [n]) ++ [x]) = none := h.below _ (List.prefix_append ..) (by simp [datasetRace]) (by
    rw [race_file hM]
    intro e
    exact hx (by simpa [datasetRace] using e))
  rw [this]
  rfl

theorem race_none (hM : M.isZarr = C.isZarr) {σ' : Fs} (hσ : S σ') (hn : ∀ j, σ' (C.root ++ (g ++ ks ++ [n]) ++ [docName C M]) ≠ some (.doc j)) :
    ¬ Full S (datasetRace C g ks n σ M J o) := fun hF => by
  have := (hF σ' hσ).2
  rw [race_file hM] at this
  exact hn _ this

theorem race_doc (hM : M.isZarr = C.isZarr) {σ' : Fs} (h : (datasetRace C g ks n σ M J o).Shape σ') {j : Json}
    (hj : σ' (C.root ++ (g ++ ks ++ [n]) ++ [docName C M]) = some (.doc j)) : j = J := by
  have := h.doc
  rw [race_file hM, hj] at this
  rcases this with e | ⟨_, e⟩ | e
  · cases e
  · cases e
  · cases e; rfl

theorem meets_metadataPath (hM : M.isZarr = C.isZarr) (hS : ∀ σ', S σ' → (datasetRace C g ks n σ M J o).Shape σ') :
    Meets S (fun r => r = .ok (C.root ++ (g ++ ks ++ [n]) ++ [docName C M], C.isZarr) ∨
      (¬ Full S (datasetRace C g ks n σ M J o) ∧ ∃ e, r = .throw e)) (Stepwise.getMetadataPath (C.root ++ (g ++ ks ++ [n]))) := by
  show Meets S _ ((look (FsM.exist (C.root ++ (g ++ ks ++ [n]) ++ [".zarray"]))).bind _)
  refine Meets.exist fun σa ha => ?_
  show Meets S _ ((look (FsM.exist (C.root ++ (g ++ ks ++ [n]) ++ ["zarr.json"]))).bind _)
  refine Meets.exist fun σb hb => ?_
  show Meets S _ ((look (FsM.exist (C.root ++ (g ++ ks ++ [n]) ++ ["attributes.json"]))).bind _)
  refine Meets.exist fun σc hc => ?_
  have miss : ∀ {σ' : Fs}, S σ' → (σ' (C.root ++ (g ++ ks ++ [n]) ++ [docName C M])).isSome = false → ¬ Full S (datasetRace C g ks n σ M J o) :=
    fun hσ e => race_none hM hσ fun j e' => by rw [e'] at e; cases e
  cases hz : C.isZarr with
  | false =>
    have hN : docName C M = "attributes.json" := by unfold docName; rw [hz]; rfl
    rw [race_other hM (hS σa ha) (by rw [hN]; decide), race_other hM (hS σb hb) (by rw [hN]; decide)]
    rw [hN] at miss ⊢
    cases e : (σc (C.root ++ (g ++ ks ++ [n]) ++ ["attributes.json"])).isSome with
    | true => exact .inl rfl
    | false => exact .inr ⟨miss hc e, _, rfl⟩
  | true =>
    by_cases h3 : M.zarrFormat = 3
    · have hN : docName C M = "zarr.json" := by unfold docName; rw [hz, h3]; rfl
      rw [race_other hM (hS σa ha) (by rw [hN]; decide), race_other hM (hS σc hc) (by rw [hN]; decide)]
      rw [hN] at miss ⊢
      cases e : (σb (C.root ++ (g ++ ks ++ [n]) ++ ["zarr.json"])).isSome with
      | true => exact .inl rfl
      | false => exact .inr ⟨miss hb e, _, rfl⟩
    · have hN : docName C M = ".zarray" := by
        unfold docName
        rw [hz, show (true && M.zarrFormat == 3) = false from by simpa using h3]
        rfl
      rw [race_other hM (hS σb hb) (by rw [hN]; decide), race_other hM (hS σc hc) (by rw [hN]; decide)]
      rw [hN] at miss ⊢
      cases e : (σa (C.root ++ (g ++ ks ++ [n]) ++ [".zarray"])).isSome with
      | true => exact .inl rfl
      | false => exact .inr ⟨miss ha e, _, rfl⟩

theorem meets_openHandle (hM : M.isZarr = C.isZarr) (hS : ∀ σ', S σ' → (datasetRace C g ks n σ M J o).Shape σ') {d : DatasetHandle}
    (hd : d.path = C.root ++ (g ++ ks ++ [n])) :
    Meets S (fun r => r = opened C J d ∨ (¬ Full S (datasetRace C g ks n σ M J o) ∧ ∃ e, r = .throw e)) (Stepwise.openHandle d) := by
  show Meets S _ ((look (FsM.exist d.path)).bind _)
  refine Meets.exist fun σa ha => ?_
  cases e : σa d.path with
  | none =>
    refine .inr ⟨fun hF => ?_, _, rfl⟩
    have := (hF σa ha).1
    rw [hd] at e
    have this : σa (C.root ++ (g ++ ks ++ [n])) = _ := this
    rw [e] at this
    cases this
  | some v =>
    show Meets S _ (FsProg.bind (FsProg.bind (Stepwise.getMetadataPath d.path) fun x =>
      FsProg.bind (look (FsM.parse x.1)) fun j => .ret (Meta.fromJson j x.2)) fun m => .ret (makeDataset d m))
    rw [FsProg.bind_assoc, hd]
    refine Meets.bind (fun x hx => ?_) (fun e he => ?_) (fun he => ?_) (meets_metadataPath hM hS)
    · rcases hx with hx | ⟨_, _, hx⟩
      case inr => cases hx
      cases hx
      rw [FsProg.bind_assoc]
      refine Meets.parse (fun σ' hσ' j hj => ?_) fun σ' hσ' hj => .inr ⟨race_none hM hσ' hj, _, rfl⟩
      rw [race_doc hM (hS σ' hσ') hj]
      show Meets S _ (FsProg.bind (.ret (Meta.fromJson J C.isZarr)) _)
      unfold opened
      cases Meta.fromJson J C.isZarr <;> exact Or.inl rfl
    · rcases he with he | he
      · cases he
      · exact .inr ⟨he.1, e, rfl⟩
    · rcases he with he | ⟨_, _, he⟩ <;> cases he

theorem meets_keys (hM : M.isZarr = C.isZarr) (hz : C.isZarr = true) (hS : ∀ σ', S σ' → (datasetRace C g ks n σ M J o).Shape σ') :
    Meets S (fun r => r = keysOf C M J ∨ (¬ Full S (datasetRace C g ks n σ M J o) ∧ (r = .ok .initial ∨ r = .throw .typeError)))
      (Stepwise.readChunkConfig (C.root ++ (g ++ ks ++ [n]))) := by
  have miss : ∀ {σ' : Fs}, S σ' → (σ' (C.root ++ (g ++ ks ++ [n]) ++ [docName C M])).isSome = false → ¬ Full S (datasetRace C g ks n σ M J o) :=
    fun hσ e => race_none hM hσ fun j e' => by rw [e'] at e; cases e
  show Meets S _ ((look (FsM.exist (C.root ++ (g ++ ks ++ [n]) ++ ["zarr.json"]))).bind _)
  refine Meets.exist fun σa ha => ?_
  by_cases h3 : M.zarrFormat = 3
  · have hN : docName C M = "zarr.json" := by unfold docName; rw [hz, h3]; rfl
    have hk : keysOf C M J = getZarrChunkConfig (some J) none := by
      unfold keysOf; rw [if_pos hz, if_pos h3]
    have hdoc := fun {σ'} {j} => race_doc (g := g) (ks := ks) (n := n) (σ := σ) (J := J) (o := o) hM (σ' := σ') (j := j)
    have hno := fun {σ'} => race_none (S := S) (g := g) (ks := ks) (n := n) (σ := σ) (J := J) (o := o) hM (σ' := σ')
    rw [hN] at miss hdoc hno
    cases e : (σa (C.root ++ (g ++ ks ++ [n]) ++ ["zarr.json"])).isSome with
    | true =>
      show Meets S _ ((look (FsM.parse (C.root ++ (g ++ ks ++ [n]) ++ ["zarr.json"]))).bind fun j => .ret (getZarrChunkConfig (some j) none))
      refine Meets.parse (fun σ' hσ' j hj => ?_) fun σ' hσ' hj => .inr ⟨hno hσ' hj, .inr rfl⟩
      rw [hdoc (hS σ' hσ') hj]
      exact .inl hk.symm
    | false =>
      show Meets S _ ((look (FsM.exist (C.root ++ (g ++ ks ++ [n]) ++ [".zarray"]))).bind _)
      refine Meets.exist fun σb hb => ?_
      rw [race_other hM (hS σb hb) (by rw [hN]; decide)]
      exact .inr ⟨miss ha e, .inl rfl⟩
  · have hN : docName C M = ".zarray" := by
      unfold docName
      rw [hz, show (true && M.zarrFormat == 3) = false from by simpa using h3]
      rfl
    have hk : keysOf C M J = getZarrChunkConfig none (some J) := by
      unfold keysOf; rw [if_pos hz, if_neg h3]
    have hdoc := fun {σ'} {j} => race_doc (g := g) (ks := ks) (n := n) (σ := σ) (J := J) (o := o) hM (σ' := σ') (j := j)
    have hno := fun {σ'} => race_none (S := S) (g := g) (ks := ks) (n := n) (σ := σ) (J := J) (o := o) hM (σ' := σ')
    rw [race_other hM (hS σa ha) (by rw [hN]; decide)]
    rw [hN] at miss hdoc hno
    show Meets S _ ((look (FsM.exist (C.root ++ (g ++ ks ++ [n]) ++ [".zarray"]))).bind _)
    refine Meets.exist fun σb hb => ?_
    cases e : (σb (C.root ++ (g ++ ks ++ [n]) ++ [".zarray"])).isSome with
    | true =>
      show Meets S _ ((look (FsM.parse (C.root ++ (g ++ ks ++ [n]) ++ [".zarray"]))).bind fun j => .ret (getZarrChunkConfig none (some j)))
      refine Meets.parse (fun σ' hσ' j hj => ?_) fun σ' hσ' hj => .inr ⟨hno hσ' hj, .inr rfl⟩
      rw [hdoc (hS σ' hσ') hj]
      exact .inl hk.symm
    | false => exact .inr ⟨miss hb e, .inl rfl⟩

/-- the handle with these chunk keys -/
def handleWith (C : Container) (g ks : Path) (n : String) (m : FileMode) (c : ChunkConfig) : DatasetHandle :=
  (C.group g m).handle.dataset (ks ++ [n]) c.delimiter c.zarrFormat c.encoding

theorem meets_openDataset (hp : Place C g ks n σ) (hM : M.isZarr = C.isZarr) (hS : ∀ σ', S σ' → (datasetRace C g ks n σ M J o).Shape σ')
    (m : FileMode) :
    Meets S (fun r => r = (keysOf C M J >>= fun c => opened C J (handleWith C g ks n m c)) ∨
      (¬ Full S (datasetRace C g ks n σ M J o) ∧ (r = opened C J (handleWith C g ks n m .initial) ∨ ∃ e, r = .throw e)))
      (Stepwise.openDataset (C.group g m).handle (ks ++ [n])) := by
  have hpath : (C.group g m).handle.path ++ (ks ++ [n]) = C.root ++ (g ++ ks ++ [n]) := by
    show C.root ++ g ++ (ks ++ [n]) = _
    simp
  have hsame : ∀ q ∈ [C.root ++ g, C.root ++ g ++ [".zgroup"], C.root ++ g ++ ["zarr.json"]], ∀ σ', S σ' → σ' q = σ q :=
    fun q hq σ' hσ' => (hS σ' hσ').other q (hp.apart q hq)
  have hdir : ∀ c, (handleWith C g ks n m c).path = C.root ++ (g ++ ks ++ [n]) := fun c => hpath
  have hopen := fun c => meets_openHandle (S := S) hM hS (hdir c)
  have hz := meets_groupIsZarr (S := S) (g := (C.group g m).handle)
    (fun σ' hσ' => by
      show (σ' (C.root ++ g)).isSome = true
      rw [hsame _ (by simp) σ' hσ']; exact hp.there)
    (fun σ' hσ' => by
      show (σ' (C.root ++ g ++ [".zgroup"])).isSome = _
      rw [hsame _ (by simp) σ' hσ'])
    (fun σ' hσ' => by
      show (σ' (C.root ++ g ++ ["zarr.json"])).isSome = _
      rw [hsame _ (by simp) σ' hσ']) hp.zarr
  unfold Stepwise.openDataset
  refine Meets.bind (fun z hz => ?_) (fun e he => by cases he) (fun he => by cases he) hz
  cases hz
  cases hC : C.isZarr with
  | true =>
    rw [if_pos rfl]
    refine Meets.bind (fun c hc => ?_) (fun e he => ?_) (fun he => ?_) (hpath ▸ meets_keys hM hC hS)
    · rcases hc with hc | ⟨hF, hc | hc⟩
      · rw [← hc]
        refine Meets.mono (fun r hr => ?_) (hopen c)
        rcases hr with hr | ⟨hF, hr⟩
        · exact .inl hr
        · exact .inr ⟨hF, .inr hr⟩
      · cases hc
        refine Meets.mono (fun r hr => ?_) (hopen .initial)
        rcases hr with hr | ⟨_, hr⟩
        · exact .inr ⟨hF, .inl hr⟩
        · exact .inr ⟨hF, .inr hr⟩
      · cases hc
    · rcases he with he | ⟨hF, he⟩
      · exact .inl (by rw [← he]; rfl)
      · exact .inr ⟨hF, .inr ⟨_, rfl⟩⟩
    · rcases he with he | ⟨_, he | he⟩
      · exact .inl (by rw [← he]; rfl)
      · cases he
      · cases he
  | false =>
    have hk : keysOf C M J = .ok .initial := by unfold keysOf; rw [hC]; rfl
    rw [hk]
    refine Meets.mono (fun r hr => ?_) (hopen .initial)
    rcases hr with hr | ⟨hF, hr⟩
    · exact .inl hr
    · exact .inr ⟨hF, .inr hr⟩

theorem crash_interleave {α : Type} : ∀ (k : Nat) (t : FsProg α) (σ : Fs), (FsProg.interleave (List.replicate k 0) ([t], σ)).2 = t.crash k σ
  | 0, .ret _, _ => rfl
  | 0, .act _ _, _ => rfl
  | k + 1, .ret r, σ => by
    show (FsProg.interleave (List.replicate k 0) ([.ret r], σ)).2 = _
    rw [crash_interleave k]
    cases k <;> rfl
  | k + 1, .act f c, σ => crash_interleave k (c σ) (f σ)

/-- **C97, datasets.**  While one process creates a dataset, other processes open it, each through a handle of its own, and the processes go on
in any order.  The creating call is not disturbed.  A call that opens the dataset fails, or gives the object that opening the complete dataset
gives, or (only in a zarr container, if the chunk keys are not the ones of zarr of version 2 with dots) an object like that one that takes the
chunk keys to be those with dots: it looked for them before the document was there. -/
theorem c97_open (hL : L.Lawful) (h : History C L Ty T os σ) {g ks : Path} {n : String} (hr : T.IsGroup (g ++ ks)) (hn : PlainName n)
    (hT : T (g ++ ks ++ [n]) = none) {m : FileMode} {a : CreateArgs} {o : DatasetObj} {σ1 : Fs}
    (h1 : (C.group g m).handle.createDataset (ks ++ [n]) a σ = (.ok o, σ1)) (rd : List FileMode) (is : List Nat) :
    let s := FsProg.interleave is (Stepwise.createDataset D (C.group g m).handle (ks ++ [n]) a ::
      rd.map fun m' => Stepwise.openDataset (C.group g m').handle (ks ++ [n]), σ)
    (∀ r, s.1[0]? = some (.ret r) → r = .ok o ∧ s.2 = σ1) ∧
    ∀ (i : Nat) m' r, rd[i]? = some m' → s.1[i + 1]? = some (.ret r) → (∃ e, r = .throw e) ∨
      r = ((C.group g m').handle.openDataset (ks ++ [n]) σ1).1 ∨
      (C.isZarr = true ∧ ¬ (o.info.zarrFormat = 2 ∧ o.info.delimiter = ".") ∧
        r = (((C.group g m').handle.dataset (ks ++ [n]) "." 2 "default").openDataset σ1).1) := by
  have hp := place_of hL h hr hn hT
  obtain ⟨hm, M, J, h2, h3, h5, h4⟩ := dataset_parts hp h1
  have hM : M.isZarr = C.isZarr := (createMeta_ok h2).1
  have hE := early_createDataset (D := D) hp hm h2 h3 h4
  have hF : (datasetRace C g ks n σ M J o).F ≠ (datasetRace C g ks n σ M J o).P := by simp [datasetRace]
  have hPF : (datasetRace C g ks n σ M J o).P <+: (datasetRace C g ks n σ M J o).F := List.prefix_append ..
  have hrace := Race.race hF hPF hp.fresh (ts := [Stepwise.createDataset D (C.group g m).handle (ks ++ [n]) a])
    (fun t ht => by cases List.mem_singleton.1 ht; exact hE)
  rw [← c75_create_dataset_complete D _ _ _ (top_dir hL h)] at h1
  have hcrash : ∀ k, (datasetRace C g ks n σ M J o).Shape ((Stepwise.createDataset D (C.group g m).handle (ks ++ [n]) a).crash k σ) := fun k => by
    rw [← crash_interleave]
    exact (hrace _).1
  obtain ⟨is', his⟩ := files_alone _ h1
  obtain ⟨k1, _, k3⟩ := hrace is'
  have k3 := (k3 [.ok o] (by show FsProg.Finished (FsProg.interleave is' ([_], σ)).1 _; rw [his]; rfl) (by simp)).2
  have e2 : (FsProg.interleave is' ([Stepwise.createDataset D (C.group g m).handle (ks ++ [n]) a], (datasetRace C g ks n σ M J o).σ₀)).2 = σ1 := by
    show (FsProg.interleave is' ([_], σ)).2 = _
    rw [his]
  rw [e2] at k1 k3
  have hfull : Full (· = σ1) (datasetRace C g ks n σ M J o) := fun σ' hσ' => by
    cases hσ'
    rw [k3, k3, if_pos rfl, if_neg hF, if_pos ⟨rfl, rfl⟩]
    exact ⟨rfl, rfl⟩
  have hshape : ∀ σ', σ' = σ1 → (datasetRace C g ks n σ M J o).Shape σ' := fun σ' hσ' => by cases hσ'; exact k1
  have hopen : ∀ m', ((C.group g m').handle.openDataset (ks ++ [n]) σ1).1 =
      (keysOf C M J >>= fun c => opened C J (handleWith C g ks n m' c)) := fun m' => by
    have := (meets_openDataset hp hM hshape m').run rfl
    rw [(Runs.openDataset (I := fun _ => True) _ _ σ1 trivial).1] at this
    rcases this with e | ⟨e, _⟩
    · exact e
    · exact absurd hfull e
  have hhandle : ∀ m' c, ((handleWith C g ks n m' c).openDataset σ1).1 = opened C J (handleWith C g ks n m' c) := fun m' c => by
    have := (meets_openHandle (d := handleWith C g ks n m' c) hM hshape (by show C.root ++ g ++ (ks ++ [n]) = _; simp)).run rfl
    rw [(Runs.openHandle (I := fun _ => True) _ σ1 trivial).1] at this
    rcases this with e | ⟨e, _⟩
    · exact e
    · exact absurd hfull e
  have hkeys : C.isZarr = false ∨ (M.zarrFormat = 2 ∧ M.delimiter = ".") → keysOf C M J = .ok .initial := fun hd => by
    unfold keysOf
    cases hz : C.isZarr with
    | false => rfl
    | true =>
      rcases hd with hd | ⟨hd, he⟩
      · rw [hz] at hd; cases hd
      · rw [if_pos rfl, if_neg (by rw [hd]; decide), c26_key_config (hM.trans hz) hd h3, he]
        rfl
  obtain ⟨w', σ', ts', e, hw, _, ht⟩ := FsProg.watch (S := (datasetRace C g ks n σ M J o).Shape)
    (Q := fun i r => ∀ m', rd[i]? = some m' → r = (keysOf C M J >>= fun c => opened C J (handleWith C g ks n m' c)) ∨
      (¬ Full (datasetRace C g ks n σ M J o).Shape (datasetRace C g ks n σ M J o) ∧
        (r = opened C J (handleWith C g ks n m' .initial) ∨ ∃ e, r = .throw e)))
    is (Stepwise.createDataset D (C.group g m).handle (ks ++ [n]) a) σ
    (rd.map fun m' => Stepwise.openDataset (C.group g m').handle (ks ++ [n])) hcrash (fun i t hi => by
      rw [List.getElem?_map] at hi
      cases hm' : rd[i]? with
      | none => rw [hm'] at hi; cases hi
      | some m' =>
        rw [hm'] at hi
        cases hi
        refine Meets.mono (fun r hr m'' e => ?_) (meets_openDataset hp hM (fun _ h => h) m')
        cases e
        exact hr)
  intro s
  have e : s = _ := e
  rw [e]
  refine ⟨fun r hr' => ?_, fun i m' r hi hr' => ?_⟩
  · have hr' : some w' = some (.ret r) := hr'
    cases hr'
    have hw : (r, σ') = _ := hw
    rw [h1] at hw
    cases hw
    exact ⟨rfl, rfl⟩
  · have hr' : ts'[i]? = some (.ret r) := hr'
    rcases ht i _ hr' m' hi with e | ⟨_, e | e⟩
    · exact .inr (.inl (e.trans (hopen m').symm))
    · by_cases hd : C.isZarr = false ∨ (M.zarrFormat = 2 ∧ M.delimiter = ".")
      · refine .inr (.inl ?_)
        rw [hopen, hkeys hd]
        exact e
      · refine .inr (.inr ⟨?_, ?_, e.trans (hhandle m' .initial).symm⟩)
        · cases hz : C.isZarr with
          | true => rfl
          | false => exact absurd (.inl hz) hd
        · rw [h5]
          exact fun hc => hd (.inr hc)
    · exact .inl e

end Opening

/-- the chunk keys of the object of an outcome -/
def delimiterOf : Res DatasetObj → String
  | .ok o => o.handle.delimiter
  | _ => ""

/-- **C97: the third outcome.**  One process creates a zarr dataset whose chunk keys have slashes, another one opens it in the meantime.  Both calls
end well, but the object of the second one takes the chunk keys to be those with dots. -/
theorem c97_open_counterexample : ∃ (D : Disk) (a : CreateArgs) (σ : Fs) (is : List Nat),
    let s := FsProg.interleave is ([Stepwise.createDataset D exRoot ["d"] a, Stepwise.openDataset exRoot ["d"]], σ)
    (s.1.map fun t => t.outcome.map delimiterOf) = [some "/", some "."] ∧ delimiterOf (exRoot.openDataset ["d"] s.2).1 = "/" :=
  ⟨exDisk, exArgs, exZarr, List.replicate 5 1 ++ List.replicate 16 0 ++ List.replicate 16 1, by decide +kernel⟩

/-- the names of the attributes that a call gives (`none`: it could not parse the document) -/
def namesOf : Res Answer → Option (List String)
  | .ok (.attributes (.obj l)) => some (l.map Prod.fst)
  | .ok _ => some []
  | _ => none

/-- **C97: the error.**  A process that reads the attributes while they are written can fail. -/
theorem c97_torn_counterexample : ∃ (D : Disk) (t : Target) (j : Json) (σ : Fs) (is : List Nat), t.Refers σ .v2 ∧
    let s := FsProg.interleave is ([(Call.change t (.write j)).steps D, (Call.read t).steps D], σ)
    (s.1.map fun t => t.outcome.map namesOf) = [none, some none] :=
  ⟨exDisk, .file exRoot, .obj [("b", .int 2)], exZattrs, List.replicate 10 0 ++ List.replicate 10 1, exZattrs_refers, by decide +kernel⟩

/-- The hypotheses of `c97_attributes` hold: two processes read the attributes of a file while a third one changes them; all three end. -/
example : ∃ is,
    let s := FsProg.interleave is ((Call.change (.file exRoot) (.write (.obj [("b", .int 2)]))).steps exDisk ::
      [Target.file exRoot, .file exRoot].map fun t => (Call.read t).steps exDisk, exZattrs)
    (s.1.map fun t => t.outcome.map namesOf) = [some (some []), some (some ["a"]), some (some ["a", "b"])] ∧
    ∀ (i : Nat) (t' : Target) (r : Res Answer), [Target.file exRoot, .file exRoot][i]? = some t' → s.1[i + 1]? = some (.ret r) →
      r = ((Call.read t').alone exZattrs).1 ∨ r = ((Call.read t').alone ((Target.file exRoot).change (.write (.obj [("b", .int 2)])) exZattrs).2).1 ∨
        r = .throw .typeError :=
  ⟨List.replicate 10 1 ++ List.replicate 20 0 ++ List.replicate 10 2, by decide +kernel,
    (c97_attributes exZattrs_refers (ts := [.file exRoot, .file exRoot]) (by
      intro t ht
      have : t = .file exRoot := by simpa using ht
      cases this
      exact ⟨rfl, exZattrs_refers⟩) _).2⟩

/-- The hypotheses of `c97_group_attributes` and `c97_open` hold, in a new container. -/
example (is is' : List Nat) : ∃ o,
    (let s := FsProg.interleave is ((Call.change (exC.attrsOf [] .a) (.write (.obj [("b", .int 2)]))).steps exDisk ::
        [FileMode.r, .a].map fun m' => (Call.read (exC.attrsOf [] m')).steps exDisk, exCfs)
      ∀ (i : Nat) (r : Res Answer), s.1[i + 1]? = some (.ret r) →
        r = .throw .typeError ∨ ∃ j, r = .ok (.attributes j) ∧ ((∀ k, j.find k = exC.rootAttrs k) ∨
          ∀ k, j.find k = (AttrOp.write (.obj [("b", .int 2)])).apply exC.rootAttrs k)) ∧
    let s := FsProg.interleave is' (Stepwise.createDataset exDisk (exC.group [] .a).handle ["d"] exArgs ::
      [FileMode.r, .a].map fun m' => Stepwise.openDataset (exC.group [] m').handle ["d"], exCfs)
    ∀ r, s.1[0]? = some (.ret r) → r = .ok o := by
  obtain ⟨o, ho⟩ := ok_of (r := ((exC.group [] .a).handle.createDataset ["d"] exArgs exCfs).1) (by decide +kernel)
  refine ⟨o, c97_group_attributes (exLibs_lawful _) exCfs_history rfl .a (op := .write (.obj [("b", .int 2)])) (show Json.IsObject _ from ⟨_, rfl, by decide⟩) (fun e => by cases e) [.r, .a] is, ?_⟩
  exact fun r hr => ((c97_open (D := exDisk) (exLibs_lawful _) exCfs_history (g := []) (ks := []) (n := "d") ⟨_, rfl⟩ (by unfold PlainName; decide) rfl
    (m := .a) (a := exArgs) (o := o) (σ1 := ((exC.group [] .a).handle.createDataset ["d"] exArgs exCfs).2) (Prod.ext ho rfl) [.r, .a] is').1 r hr).1

end Z5.Props
