import Verif.Proofs.Apart
import Verif.Spec.Concurrent

/-!
# Footprints of calls (lemmas for C76)
-/

namespace Z5

/-- These directories exist. -/
def Dirs (S : Path → Prop) (σ : Fs) : Prop := ∀ q, S q → σ q = some .dir

namespace FsProg.Local

variable {α β : Type} {S R W : Path → Prop}

theorem pure (a : α) {I : Fs → Prop} : Local I R W (Pure.pure a : FsProg α) := .ret _
theorem lift (r : Res α) {I : Fs → Prop} : Local I R W (FsProg.lift r) := .ret _

theorem ite {I : Fs → Prop} {c : Prop} [Decidable c] {t t' : FsProg α} (h : Local I R W t) (h' : Local I R W t') :
    Local I R W (if c then t else t') := by
  split
  · exact h
  · exact h'

theorem exist {I : Fs → Prop} {q : Path} (h : R q) : Local I R W (FsProg.look (FsM.exist q)) :=
  .look fun σ σ' _ _ ha => by
    show Res.ok (σ q).isSome = Res.ok (σ' q).isSome
    rw [ha q h]

theorem parse {I : Fs → Prop} {q : Path} (h : R q) : Local I R W (FsProg.look (FsM.parse q)) :=
  .look fun σ σ' _ _ ha => by
    unfold FsM.parse
    rw [ha q h]
    split <;> rfl

theorem attempt {I : Fs → Prop} {t : FsProg α} (h : Local I R W t) : Local I R W t.attempt := by
  induction h with
  | ret r => cases r <;> exact .ret _
  | act h1 h2 h3 h4 _ ih => exact .act h1 h2 h3 (fun σ σ' hi hi' ha => by rw [h4 σ σ' hi hi' ha]) ih

theorem agree_set {q : Path} {o : Option Entry} {σ σ' : Fs} (h : σ.Agree R σ') : (σ.set q o).Agree R (σ'.set q o) := by
  intro x hx
  unfold Fs.set
  split
  · rfl
  · exact h x hx

theorem dirs_set {q : Path} {e : Option Entry} {σ : Fs} (h : Dirs S σ) (hq : ¬ S q) : Dirs S (σ.set q e) := by
  intro x hx
  unfold Fs.set
  split
  · rename_i e
    exact absurd (e ▸ hx) hq
  · exact h x hx

theorem contents {q : Path} (hq : ¬ S q) (hw : W q) {c : FsProg α} (hc : Local (Dirs S) R W c) :
    ∀ l : List Entry, Local (Dirs S) R W (Stepwise.contents q l c)
  | [] => hc
  | _ :: l => .act (fun _ h => dirs_set h hq) (fun _ _ _ hx => set_other _ _ fun e => hx (e ▸ hw))
      (fun _ _ _ _ => agree_set) (fun _ _ _ _ _ => rfl) fun _ _ => contents hq hw hc l

theorem writeDoc (D : Disk) {q : Path} (j : Json) (hw : W q) (hr : R q) (hd : R q.dropLast) :
    Local (Dirs S) R W (Stepwise.writeDoc D q j) := by
  have hcond : ∀ σ σ' : Fs, σ.Agree R σ' → (isDirectory (σ q.dropLast) && !isDirectory (σ q)) =
      (isDirectory (σ' q.dropLast) && !isDirectory (σ' q)) := fun σ σ' h => by rw [h _ hr, h _ hd]
  have hS : ∀ σ, Dirs S σ → (isDirectory (σ q.dropLast) && !isDirectory (σ q)) = true → ¬ S q := by
    intro σ h hc hs
    rw [h q hs] at hc
    simp [isDirectory] at hc
  unfold Stepwise.writeDoc
  refine .act (fun σ h => ?_) (fun σ h x hx => ?_) (fun σ σ' _ _ ha => ?_) (fun σ σ' _ _ ha => ?_) (fun σ h => ?_)
  · split
    · exact dirs_set h (hS σ h (by assumption))
    · exact h
  · split
    · exact set_other _ _ fun e => hx (e ▸ hw)
    · rfl
  · rw [hcond σ σ' ha]
    split
    · exact agree_set ha
    · exact ha
  · rw [hcond σ σ' ha]
  · split
    · exact contents (hS σ h (by assumption)) hw (.ret _) _
    · exact .ret _

theorem mkdir {q : Path} {c : Fs → FsProg α} (hw : S q ∨ (W q ∧ R q ∧ (S q.dropLast ∨ R q.dropLast)))
    (hk : ∀ σ σ', Dirs S σ → Dirs S σ' → σ.Agree R σ' → c σ = c σ') (hc : ∀ σ, Dirs S σ → Local (Dirs S) R W (c σ)) :
    Local (Dirs S) R W (.act (·.mkdir q) c) := by
  refine .act (fun σ h => ?_) (fun σ h x hx => ?_) (fun σ σ' h h' ha => ?_) hk hc
  · intro x hx
    show σ.mkdir q x = _
    unfold Fs.mkdir
    split
    · unfold Fs.set
      split
      · rfl
      · exact h x hx
    · exact h x hx
  · show σ.mkdir q x = _
    unfold Fs.mkdir
    rcases hw with hs | ⟨hw, -⟩
    · rw [h q hs]
      rfl
    · split
      · exact set_other _ _ fun e => hx (e ▸ hw)
      · rfl
  · show (σ.mkdir q).Agree R (σ'.mkdir q)
    unfold Fs.mkdir
    rcases hw with hs | ⟨-, hr, hd⟩
    · rw [h q hs, h' q hs]
      exact ha
    · have : isDirectory (σ q.dropLast) = isDirectory (σ' q.dropLast) := by
        rcases hd with hd | hd
        · rw [h _ hd, h' _ hd]
        · rw [ha _ hd]
      rw [ha q hr, this]
      split
      · exact agree_set ha
      · exact ha

theorem mkdirs {c : FsProg α} (hc : Local (Dirs S) R W c) :
    ∀ ps : List Path, (∀ q ∈ ps, S q ∨ (W q ∧ R q ∧ (S q.dropLast ∨ R q.dropLast))) → Local (Dirs S) R W (Z5.mkdirs ps c)
  | [], _ => hc
  | q :: ps, h => mkdir (h q List.mem_cons_self) (fun _ _ _ _ _ => rfl)
      fun _ _ => mkdirs hc ps fun x hx => h x (List.mem_cons_of_mem _ hx)

theorem mem_pathsTo {p q : Path} : q ∈ pathsTo p ↔ q <+: p := by
  unfold pathsTo
  simp only [List.mem_map, List.mem_range]
  constructor
  · rintro ⟨n, _, rfl⟩
    exact List.take_prefix _ _
  · intro h
    exact ⟨q.length, by have := h.length_le; omega, (List.prefix_iff_eq_take.1 h).symm⟩

theorem dropLast_above {p : Path} : p = [] ∨ (p.dropLast <+: p ∧ p.dropLast ≠ p) := by
  by_cases h : p = []
  · exact .inl h
  · refine .inr ⟨List.dropLast_prefix p, fun e => ?_⟩
    have := congrArg List.length e
    rw [List.length_dropLast] at this
    have := List.length_pos_iff.2 h
    omega

theorem createDirectories {p : Path} (hs : ∀ q, q <+: p → q ≠ p → S q) (hw : W p) (hr : R p) :
    Local (Dirs S) R W (Stepwise.createDirectories p) := by
  unfold Stepwise.createDirectories
  refine .act (fun _ h => h) (fun _ _ _ _ => rfl) (fun _ _ _ _ h => h) (fun σ σ' h h' ha => ?_) (fun σ h => ?_)
  · have : ∀ n, σ (p.take n) = σ' (p.take n) := by
      intro n
      by_cases e : p.take n = p
      · rw [e, ha p hr]
      · have := hs _ (List.take_prefix n p) e
        rw [h _ this, h' _ this]
    simp only [this]
  · refine ite (.ret _) (mkdirs (.ret _) _ fun q hq => ?_)
    rw [mem_pathsTo] at hq
    by_cases e : q = p
    · subst e
      refine .inr ⟨hw, hr, ?_⟩
      rcases dropLast_above (p := q) with h | ⟨h1, h2⟩
      · subst h
        exact .inr hr
      · exact .inl (hs _ h1 h2)
    · exact .inl (hs q hq e)

/-! ### the functions -/

theorem jsonRead {I : Fs → Prop} {p x : Path} (h : R (p ++ x)) : Local I R W (Stepwise.jsonRead p x) := by
  unfold Stepwise.jsonRead
  exact bind (exist h) fun _ => ite (pure _) (bind (parse h) fun _ => pure _)

/-- The directory of the node and its documents are among the paths of `R`. -/
structure Sees (R : Path → Prop) (p : Path) : Prop where
  dir : R p
  docs : ∀ n ∈ documentNames, R (p ++ [n])

theorem group_isZarr {I : Fs → Prop} {g : GroupHandle} (h : Sees R g.path) : Local I R W (Stepwise.groupIsZarr g) := by
  unfold Stepwise.groupIsZarr
  exact bind (exist h.dir) fun _ => ite (lift _) (bind (exist (h.docs _ (by decide))) fun _ => bind (exist (h.docs _ (by decide))) fun _ => pure _)

theorem dataset_isZarr {I : Fs → Prop} {d : DatasetHandle} (h : Sees R d.path) : Local I R W (Stepwise.datasetIsZarr d) := by
  unfold Stepwise.datasetIsZarr
  cases d.cache with
  | some b => exact pure _
  | none =>
    exact bind (exist h.dir) fun _ => ite (lift _) (bind (exist (h.docs _ (by decide))) fun _ => bind (exist (h.docs _ (by decide))) fun _ => pure _)

/-- The documents of the node are among the paths of `W`. -/
def Sets (W : Path → Prop) (p : Path) : Prop := ∀ n ∈ documentNames, W (p ++ [n])

theorem doc {D : Disk} {p : Path} {n : String} {j : Json} (hn : n ∈ documentNames) (hw : Sets W p) (h : Sees R p) :
    Local (Dirs S) R W (Stepwise.writeDoc D (p ++ [n]) j) :=
  writeDoc D j (hw n hn) (h.docs n hn) (by rw [List.dropLast_concat]; exact h.dir)

theorem attributesName_mem (z : Bool) : Generic.attributesName z ∈ documentNames := by cases z <;> decide

/-- Takes a program apart into its steps. -/
syntax "foot" term:max term:max : tactic
macro_rules
  | `(tactic| foot $h $hw) => `(tactic| repeat' (first
      | with_reducible exact pure _ | with_reducible exact lift _
      | with_reducible exact exist ($h).dir
      | with_reducible exact exist (($h).docs _ (by decide))
      | with_reducible exact parse (($h).docs _ (by decide))
      | with_reducible exact jsonRead (($h).docs _ (by decide))
      | with_reducible exact jsonRead (($h).docs _ (attributesName_mem _))
      | with_reducible exact group_isZarr $h | with_reducible exact dataset_isZarr $h
      | with_reducible exact doc (by decide) $hw $h
      | with_reducible exact doc (attributesName_mem _) $hw $h
      | with_reducible assumption
      | with_reducible refine bind ?_ fun _ => ?_
      | with_reducible apply ite))

variable (D : Disk) {p : Path}

theorem writeV3Attributes (h : Sees R p) (hw : Sets W p) (j : Json) :
    Local (Dirs S) R W (Stepwise.writeV3Attributes D p j) := by
  unfold Stepwise.writeV3Attributes
  foot h hw

theorem removeV3Attribute (h : Sees R p) (hw : Sets W p) (k : String) :
    Local (Dirs S) R W (Stepwise.removeV3Attribute D p k) := by
  unfold Stepwise.removeV3Attribute
  refine bind (jsonRead (h.docs _ (by decide))) fun o => ?_
  cases o with
  | none => exact pure _
  | some full =>
    show Local _ _ _ (match full.find "attributes" with | none => _ | some attrs => _)
    cases full.find "attributes" <;> dsimp only <;> foot h hw

theorem writeAttributes (h : Sees R p) (hw : Sets W p) (z : Bool) (j : Json) :
    Local (Dirs S) R W (Stepwise.writeAttributes D p z j) := by
  have := writeV3Attributes (S := S) D h hw j
  unfold Stepwise.writeAttributes
  foot h hw

theorem removeAttribute (h : Sees R p) (hw : Sets W p) (z : Bool) (k : String) :
    Local (Dirs S) R W (Stepwise.removeAttribute D p z k) := by
  have := removeV3Attribute (S := S) D h hw k
  unfold Stepwise.removeAttribute
  foot h hw
  rename_i o
  cases o with
  | none => exact pure _
  | some out => dsimp only; foot h hw

theorem target {t : Target} (h : Sees R t.path) (hw : Sets W t.path) (op : AttrOp) :
    Local (Dirs S) R W (t.steps D op) := by
  cases t <;> cases op <;> dsimp only [Target.steps] <;> dsimp only [Target.path] at h hw
  · unfold Stepwise.writeGroupAttributes
    foot h hw; exact writeAttributes D h hw _ _
  · unfold Stepwise.removeGroupAttribute
    foot h hw; exact removeAttribute D h hw _ _
  · unfold Stepwise.writeFileAttributes
    foot h hw <;> exact writeAttributes D h hw _ _
  · unfold Stepwise.removeFileAttribute
    foot h hw <;> exact removeAttribute D h hw _ _
  · unfold Stepwise.writeDatasetAttributes
    foot h hw <;> exact writeAttributes D h hw _ _
  · unfold Stepwise.removeDatasetAttribute
    foot h hw <;> exact removeAttribute D h hw _ _

theorem readV3Attributes {I : Fs → Prop} (h : Sees R p) (j : Json) : Local I R W (Stepwise.readV3Attributes p j) := by
  unfold Stepwise.readV3Attributes
  refine bind (jsonRead (h.docs _ (by decide))) fun o => ?_
  cases o <;> exact pure _

theorem readAttributes {I : Fs → Prop} (h : Sees R p) (z : Bool) (j : Json) : Local I R W (Stepwise.readAttributes p z j) := by
  have := readV3Attributes (I := I) (W := W) h j
  unfold Stepwise.readAttributes
  foot h h

theorem readGroupAttributes {I : Fs → Prop} {g : GroupHandle} (h : Sees R g.path) (j : Json) :
    Local I R W (Stepwise.readGroupAttributes g j) := by
  unfold Stepwise.readGroupAttributes
  foot h h
  exact readAttributes h _ _

theorem readDatasetAttributes {I : Fs → Prop} {d : DatasetHandle} (h : Sees R d.path) (j : Json) :
    Local I R W (Stepwise.readDatasetAttributes d j) := by
  unfold Stepwise.readDatasetAttributes
  refine bind (dataset_isZarr h) fun _ => bind (readAttributes h _ _) fun _ => ?_
  foot h h

/-- the program can return `a` -/
inductive Returns {α : Type} : FsProg α → α → Prop
  | ret (a : α) : Returns (.ret (.ok a)) a
  | act {f : Fs → Fs} {c : Fs → FsProg α} {a : α} (σ : Fs) (h : Returns (c σ) a) : Returns (.act f c) a

theorem returns_bind {t : FsProg α} {g : α → FsProg β} {b : β} (h : Returns (t >>= g) b) : ∃ a, Returns (g a) b := by
  rw [FsProg.bind_def] at h
  induction t with
  | ret r => cases r with
    | ok a => exact ⟨a, h⟩
    | throw e => cases h
    | ub => cases h
  | act f c ih =>
    cases h with
    | act σ h => exact ih σ h

theorem bind_returns {I : Fs → Prop} {t : FsProg α} {g : α → FsProg β} (h : Local I R W t)
    (hg : ∀ a, Returns t a → Local I R W (g a)) : Local I R W (t >>= g) := by
  rw [FsProg.bind_def]
  induction h with
  | ret r => cases r with
    | ok a => exact hg a (.ret a)
    | throw e => exact .ret _
    | ub => exact .ret _
  | act h1 h2 h3 h4 _ ih =>
    exact .act h1 h2 h3 (fun σ σ' hi hi' ha => by rw [h4 σ σ' hi hi' ha]) fun σ hσ => ih σ hσ fun a ha => hg a (.act σ ha)

theorem getMetadataPath {I : Fs → Prop} (h : Sees R p) : Local I R W (Stepwise.getMetadataPath p) := by
  unfold Stepwise.getMetadataPath
  foot h h

theorem getMetadataPath_returns {x : Path × Bool} (h : Returns (Stepwise.getMetadataPath p) x) :
    ∃ n ∈ documentNames, x.1 = p ++ [n] := by
  unfold Stepwise.getMetadataPath at h
  obtain ⟨a, h⟩ := returns_bind h
  obtain ⟨b, h⟩ := returns_bind h
  obtain ⟨c, h⟩ := returns_bind h
  split at h
  · cases h
  · split at h
    · cases h
    · cases h
      exact ⟨if b then "zarr.json" else if a then ".zarray" else "attributes.json",
        by cases a <;> cases b <;> decide, rfl⟩

theorem readDatasetMetadata {I : Fs → Prop} (h : Sees R p) : Local I R W (Stepwise.readDatasetMetadata p) := by
  unfold Stepwise.readDatasetMetadata
  refine bind_returns (getMetadataPath h) fun x hx => ?_
  obtain ⟨n, hn, e⟩ := getMetadataPath_returns hx
  rcases x with ⟨q, z⟩
  cases e
  exact bind (parse (h.docs n hn)) fun _ => lift _

theorem openHandle {I : Fs → Prop} {d : DatasetHandle} (h : Sees R d.path) : Local I R W (Stepwise.openHandle d) := by
  have := readDatasetMetadata (I := I) (W := W) h
  unfold Stepwise.openHandle
  foot h h

theorem readChunkConfig {I : Fs → Prop} (h : Sees R p) : Local I R W (Stepwise.readChunkConfig p) := by
  unfold Stepwise.readChunkConfig
  foot h h

theorem openDataset {I : Fs → Prop} {root : GroupHandle} {key : Path} (hr : Sees R root.path)
    (h : Sees R (root.path ++ key)) : Local I R W (Stepwise.openDataset root key) := by
  have := readChunkConfig (I := I) (W := W) h
  unfold Stepwise.openDataset
  refine bind (group_isZarr hr) fun z => ite (bind this fun _ => ?_) (bind (pure _) fun _ => ?_)
  · exact openHandle h
  · exact openHandle h

theorem writeV3GroupMetadata (h : Sees R p) (hw : Sets W p) : Local (Dirs S) R W (Stepwise.writeV3GroupMetadata D p) := by
  unfold Stepwise.writeV3GroupMetadata
  foot h hw

theorem writeGroupMetadata (h : Sees R p) (hw : Sets W p) (z : Bool) (f : Int) :
    Local (Dirs S) R W (Stepwise.writeGroupMetadata D p z f) := by
  have := writeV3GroupMetadata (S := S) D h hw
  unfold Stepwise.writeGroupMetadata
  foot h hw

theorem writeDatasetMetadata (h : Sees R p) (hw : Sets W p) (m : Meta) :
    Local (Dirs S) R W (Stepwise.writeDatasetMetadata D p m) := by
  unfold Stepwise.writeDatasetMetadata
  refine ite (bind (jsonRead (h.docs _ (by decide))) fun o => bind (lift _) fun j => ?_) (bind (lift _) fun j => ?_)
  · dsimp only
    cases o.bind fun e => e.find "attributes" <;> dsimp only <;> foot h hw
  · exact doc (by split <;> decide) hw h

theorem createDataset {root : GroupHandle} {key : Path} (hr : Sees R root.path) (h : Sees R (root.path ++ key))
    (hw : Sets W (root.path ++ key)) (hd : W (root.path ++ key))
    (hs : ∀ q, q <+: root.path ++ key → q ≠ root.path ++ key → S q) (a : CreateArgs) :
    Local (Dirs S) R W (Stepwise.createDataset D root key a) := by
  unfold Stepwise.createDataset
  refine bind (group_isZarr hr) fun z => bind (lift _) fun m => ?_
  refine bind ?_ fun _ => bind (writeDatasetMetadata D h hw m) fun _ => lift _
  have := createDirectories hs hd h.dir
  unfold Stepwise.createDatasetDir
  exact ite (lift _) (bind (exist h.dir) fun _ => ite (lift _) this)

theorem createGroup {root : GroupHandle} {key : Path} (hr : Sees R root.path) (h : Sees R (root.path ++ key))
    (hw : Sets W (root.path ++ key)) (hd : W (root.path ++ key))
    (hs : ∀ q, q <+: root.path ++ key → q ≠ root.path ++ key → S q) (f : Int) :
    Local (Dirs S) R W (Stepwise.createGroup D root key f) := by
  unfold Stepwise.createGroup
  refine bind (group_isZarr hr) fun z => ?_
  refine bind ?_ fun _ => writeGroupMetadata D h hw _ _
  have := createDirectories hs hd h.dir
  unfold Stepwise.createGroupDir
  exact ite (lift _) (bind (exist h.dir) fun _ => ite (lift _) this)

/-! ### calls and processes -/

theorem call {c : Call} (hR : ∀ q, c.touches q → R q) (hW : ∀ q, c.writes q → W q)
    (hS : c.creates = true → ∀ q, q <+: c.node → q ≠ c.node → S q) : Local (Dirs S) R W (c.steps D) := by
  have hn : Sees R c.node :=
    ⟨hR _ ⟨_, .inl rfl, .inl rfl⟩, fun n h => hR _ ⟨_, .inl rfl, .inr ⟨n, h, rfl⟩⟩⟩
  have hv : Sees R c.via :=
    ⟨hR _ ⟨_, .inr rfl, .inl rfl⟩, fun n h => hR _ ⟨_, .inr rfl, .inr ⟨n, h, rfl⟩⟩⟩
  have hw : c.modifies = true → Sets W c.node := fun hm n h => hW _ ⟨hm, .inr ⟨n, h, rfl⟩⟩
  have hd : c.modifies = true → c.creates = true → W c.node := fun hm hc => hW _ ⟨hm, .inl ⟨hc, rfl⟩⟩
  cases c with
  | change t op => exact bind (target D hn (hw rfl) op) fun _ => pure _
  | read t =>
    cases t with
    | group g => exact bind (readGroupAttributes hn _) fun _ => pure _
    | file g => exact bind (readGroupAttributes hn _) fun _ => pure _
    | dataset d => exact bind (readDatasetAttributes hn _) fun _ => pure _
  | openDataset root key => exact bind (openDataset hv hn) fun _ => pure _
  | createDataset root key a => exact bind (createDataset D hv hn (hw rfl) (hd rfl rfl) (hS rfl) a) fun _ => pure _
  | createGroup root key f => exact bind (createGroup D hv hn (hw rfl) (hd rfl rfl) (hS rfl) f) fun _ => pure _

theorem process : ∀ {cs : List Call} (_ : ∀ c ∈ cs, ∀ q, c.touches q → R q) (_ : ∀ c ∈ cs, ∀ q, c.writes q → W q)
    (_ : ∀ c ∈ cs, c.creates = true → ∀ q, q <+: c.node → q ≠ c.node → S q), Local (Dirs S) R W (Z5.process D cs)
  | [], _, _, _ => .ret _
  | c :: _, hR, hW, hS =>
    bind (attempt (call D (hR c List.mem_cons_self) (hW c List.mem_cons_self) (hS c List.mem_cons_self))) fun _ =>
      bind (process (fun x h => hR x (List.mem_cons_of_mem _ h)) (fun x h => hW x (List.mem_cons_of_mem _ h))
        (fun x h => hS x (List.mem_cons_of_mem _ h))) fun _ => pure _

/-! ### chunks -/

theorem onWay_chunk {p : Path} {K : Key → Prop} {k : Key} (h : K k) : OnWay p K (chunkFile p k) :=
  ⟨k, h, List.prefix_append _ _, fun e => keyNames_ne_nil k [] (by
    unfold chunkFile at e
    simpa using e), List.prefix_refl _⟩

theorem onWay_above {p : Path} {K : Key → Prop} {k : Key} (h : K k) {q : Path} (hq : q <+: chunkFile p k) : q <+: p ∨ OnWay p K q := by
  have hp : p <+: chunkFile p k := List.prefix_append _ _
  rcases List.prefix_or_prefix_of_prefix hq hp with h1 | h1
  · exact .inl h1
  · by_cases e : q = p
    · exact .inl (e ▸ List.prefix_refl _)
    · exact .inr ⟨k, h, h1, e, hq⟩

theorem onFiles {p : Path} {nested : Bool} {K : Key → Prop} (hS : ∀ q, q <+: p → S q) {W : Path → Prop} (hR : ∀ q, OnWay p K q → R q)
    (hW : ∀ q, OnWay p K q → W q) : ∀ {t : Prog α}, t.Within K → Local (Dirs S) R W (t.onFiles p nested)
  | .ret r, _ => .ret r
  | .act k f c, h => by
    obtain ⟨hk, hc⟩ := h
    have ih := fun v => onFiles hS hR hW (t := c v) (nested := nested) (hc v)
    have hq := onWay_chunk (p := p) hk
    have hd : S (chunkFile p k).dropLast ∨ R (chunkFile p k).dropLast := by
      rcases onWay_above (p := p) hk (List.dropLast_prefix _) with h | h
      · exact .inl (hS _ h)
      · exact .inr (hR _ h)
    have hdir : ∀ σ σ', Dirs S σ → Dirs S σ' → σ.Agree R σ' → σ (chunkFile p k).dropLast = σ' (chunkFile p k).dropLast := by
      intro σ σ' h h' ha
      rcases hd with hd | hd
      · rw [h _ hd, h' _ hd]
      · exact ha _ hd
    unfold Prog.onFiles
    generalize hqe : chunkFile p k = q at hq hd hdir ⊢
    have hn : ∀ σ, Dirs S σ → isDirectory (σ q) = false → ¬ S q := by
      intro σ h hc hs
      rw [h q hs] at hc
      cases hc
    dsimp only
    have hwrite : Local (Dirs S) R W (openForWriting q f fun v => (c v).onFiles p nested) := by
      unfold openForWriting
      refine .act (fun σ h => ?_) (fun σ h x hx => ?_) (fun σ σ' h h' ha => ?_) (fun σ σ' h h' ha => ?_) (fun σ h => ?_)
      · split
        · rename_i e
          simp only [Bool.and_eq_true, Bool.not_eq_true'] at e
          exact dirs_set h (hn σ h e.2)
        · exact h
      · split
        · exact set_other _ _ fun e => hx (e ▸ hW q hq)
        · rfl
      · rw [hdir σ σ' h h' ha, ha q (hR q hq)]
        split
        · exact agree_set ha
        · exact ha
      · rw [hdir σ σ' h h' ha, ha q (hR q hq)]
      · exact ite (ih _) (.ret _)
    refine ite (ite ?_ hwrite) ?_
    · refine .act (fun _ h => h) (fun _ _ _ _ => rfl) (fun _ _ _ _ h => h) (fun σ σ' h h' ha => ?_) (fun σ h => ?_)
      · rw [hdir σ σ' h h' ha]
      · refine ite hwrite (mkdirs hwrite _ fun x hx => ?_)
        rw [mem_pathsTo] at hx
        have hx' := hx.trans (List.dropLast_prefix q)
        rw [← hqe] at hx'
        rcases onWay_above hk hx' with hs | hs
        · exact .inl (hS _ hs)
        · refine .inr ⟨hW _ hs, hR _ hs, ?_⟩
          rcases onWay_above hk ((List.dropLast_prefix x).trans hx') with hs | hs
          · exact .inl (hS _ hs)
          · exact .inr (hR _ hs)
    · refine .act (fun σ h => ?_) (fun σ h x hx => ?_) (fun σ σ' h h' ha => ?_) (fun σ σ' h h' ha => ?_) (fun σ h => ?_)
      · split
        · exact h
        · rename_i e
          refine dirs_set h (hn σ h ?_)
          cases e' : σ q with
          | none => rfl
          | some y => cases y with
            | dir => rw [e'] at e; exact absurd rfl e
            | doc j => rfl
            | file b => rfl
      · split
        · rfl
        · exact set_other _ _ fun e => hx (e ▸ hW q hq)
      · rw [ha q (hR q hq)]
        split
        · exact ha
        · exact agree_set ha
      · rw [ha q (hR q hq)]
      · exact ite (.ret _) (ih _)

end FsProg.Local

/-! ### tasks and processes together -/

namespace FsProg

variable {α β γ : Type}

theorem as_ret {f : α → β} {t : FsProg α} {r : Res β} (h : t.as f = .ret r) : ∃ r', t = .ret r' ∧ r = f <$> r' := by
  cases t with
  | ret r' =>
    refine ⟨r', rfl, ?_⟩
    cases r' <;> cases h <;> rfl
  | act g c => cases h

theorem ret_as (f : α → β) (r : Res α) : (FsProg.ret r).as f = .ret (f <$> r) := by cases r <;> rfl

theorem run_as (f : α → β) (t : FsProg α) (σ : Fs) : (t.as f).run σ = (f <$> (t.run σ).1, (t.run σ).2) := by
  induction t generalizing σ with
  | ret r => cases r <;> rfl
  | act g c ih => exact ih σ (g σ)

theorem crash_as (f : α → β) : ∀ (n : Nat) (t : FsProg α) (σ : Fs), (t.as f).crash n σ = t.crash n σ
  | 0, t, σ => by cases t with
    | ret r => cases r <;> rfl
    | act g c => rfl
  | n + 1, t, σ => by cases t with
    | ret r => cases r <;> rfl
    | act g c => exact crash_as f n (c σ) (g σ)

theorem Local.as {I : Fs → Prop} {R W : Path → Prop} (f : α → β) {t : FsProg α} (h : Local I R W t) : Local I R W (t.as f) := by
  induction h with
  | ret r => cases r <;> exact .ret _
  | act h1 h2 h3 h4 _ ih => exact .act h1 h2 h3 (fun σ σ' hi hi' ha => by rw [h4 σ σ' hi hi' ha]) ih

theorem step_together {ts : List (FsProg α)} {us : List (FsProg β)} {σ : Fs} {i : Nat} (hi : i < ts.length) :
    step i (together ts us, σ) = (together (step i (ts, σ)).1 us, (step i (ts, σ)).2) := by
  have h1 : (together ts us)[i]? = some ((ts[i]).as .inl) := by
    unfold together
    rw [List.getElem?_append_left (by simpa using hi), List.getElem?_map, List.getElem?_eq_getElem hi]
    rfl
  have h2 : ts[i]? = some ts[i] := List.getElem?_eq_getElem hi
  cases e : ts[i] with
  | ret r =>
    rw [step_other (by rw [h1, e]; intro f c; cases r <;> simp [FsProg.as]),
      step_other (by rw [h2, e]; simp)]
  | act f c =>
    rw [e] at h1 h2
    rw [step_act h1, step_act h2]
    refine Prod.ext ?_ rfl
    unfold together
    dsimp only
    rw [List.set_append_left _ _ (by simpa using hi), List.map_set]

theorem interleave_together {us : List (FsProg β)} : ∀ (js : List Nat) {ts : List (FsProg α)} {σ : Fs}, (∀ j ∈ js, j < ts.length) →
    interleave js (together ts us, σ) = (together (interleave js (ts, σ)).1 us, (interleave js (ts, σ)).2)
  | [], _, _, _ => rfl
  | j :: js, ts, σ, h => by
    show interleave js (step j (together ts us, σ)) = _
    rw [step_together (h j List.mem_cons_self)]
    exact interleave_together js fun i hi => by
      rw [length_step]
      exact h i (List.mem_cons_of_mem _ hi)

end FsProg

/-! ### without other processes -/

namespace Runs

variable {I : Fs → Prop} {α : Type}

theorem attempt {t : FsProg α} {m : FsM α} (h : Runs I t m) : Runs I t.attempt m.attempt := by
  have key : ∀ (t : FsProg α) σ, t.attempt.run σ = (match t.run σ with
      | (.ub, σ) => (.ub, σ)
      | (r, σ) => (.ok r, σ)) := by
    intro t
    induction t with
    | ret r => intro σ; cases r <;> rfl
    | act f c ih => intro σ; exact ih σ (f σ)
  intro σ hσ
  obtain ⟨h1, h2⟩ := h σ hσ
  unfold FsM.attempt
  rw [key, ← h1]
  refine ⟨rfl, ?_⟩
  rcases e : t.run σ with ⟨r, σ'⟩
  rw [e] at h2
  cases r <;> exact h2

theorem readAttributes (p : Path) (z : Bool) (j : Json) :
    Runs I (Stepwise.readAttributes p z j) (Generic.readAttributes p z j) := by
  unfold Stepwise.readAttributes Generic.readAttributes Stepwise.readV3Attributes Generic.readV3Attributes
  refine bind (exist _) fun _ => ite (bind (jsonRead _ _) fun o => ?_) (bind (jsonRead _ _) fun _ => pure _)
  cases o <;> exact pure _

theorem target_read (t : Target) : Runs I (Call.steps D (.read t)) (Call.alone (.read t)) := by
  cases t with
  | group g => exact bind (bind (group_isZarr g) fun z => readAttributes _ _ _) fun _ => pure _
  | file g => exact bind (bind (group_isZarr g) fun z => readAttributes _ _ _) fun _ => pure _
  | dataset d =>
    exact bind (bind (dataset_isZarr d) fun z => bind (readAttributes _ _ _) fun _ =>
      bind (dataset_isZarr d) fun _ => ite (lift _) (pure _)) fun _ => pure _

theorem openHandle (d : DatasetHandle) : Runs I (Stepwise.openHandle d) d.openDataset := by
  unfold Stepwise.openHandle DatasetHandle.openDataset Stepwise.readDatasetMetadata Z5.readDatasetMetadata
    Stepwise.getMetadataPath Z5.getMetadataPath
  refine bind (exist _) fun _ => ite (lift _) (bind (bind ?_ fun x => ?_) fun _ => lift _)
  · exact bind (exist _) fun _ => bind (exist _) fun _ => bind (exist _) fun _ => ite (lift _) (ite (lift _) (pure _))
  · exact bind (parse _) fun _ => lift _

theorem readChunkConfig (p : Path) : Runs I (Stepwise.readChunkConfig p) (Z5.readChunkConfig p) := by
  unfold Stepwise.readChunkConfig Z5.readChunkConfig
  exact bind (exist _) fun _ => ite (bind (parse _) fun _ => lift _)
    (bind (exist _) fun _ => ite (bind (parse _) fun _ => lift _) (lift _))

theorem openDataset (root : GroupHandle) (key : Path) : Runs I (Stepwise.openDataset root key) (root.openDataset key) := by
  unfold Stepwise.openDataset GroupHandle.openDataset
  exact bind (group_isZarr root) fun z => ite (bind (readChunkConfig _) fun _ => openHandle _) (bind (pure _) fun _ => openHandle _)

theorem call (D : Disk) (c : Call) : Runs Fs.HasRoot (c.steps D) c.alone := by
  cases c with
  | change t op => exact bind (target rooted D t op) fun _ => pure _
  | read t => exact target_read t
  | openDataset root key => exact bind (openDataset root key) fun _ => pure _
  | createDataset root key a => exact bind (createDataset D root key a) fun _ => pure _
  | createGroup root key f => exact bind (createGroup D root key f) fun _ => pure _

theorem process (D : Disk) : ∀ cs : List Call, Runs Fs.HasRoot (Z5.process D cs) (inTurn cs)
  | [] => pure _
  | c :: cs => bind (attempt (call D c)) fun _ => bind (process D cs) fun _ => pure _

end Runs

end Z5
