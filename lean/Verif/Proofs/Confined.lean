import Verif.Proofs.Keeps
import Verif.Spec.Confined

/-!
# Operations change nothing outside the directory of their handle
-/

namespace Z5

/-- The directories that lead to `root` are there. -/
def Fs.Rooted (root : Path) (σ : Fs) : Prop := σ.WF ∧ ∀ q, q <+: root → q ≠ root → σ q = some .dir

/-- Nothing changes outside of `root`. -/
def Below (root : Path) (σ σ' : Fs) : Prop :=
  σ.Rooted root → σ'.Rooted root ∧ ∀ q, ¬ root <+: q → σ' q = σ q

theorem inside_steps (root : Path) : Steps (Below root) where
  refl _ h := ⟨h, fun _ _ => rfl⟩
  trans h h' hr := ⟨(h' (h hr).1).1, fun q hq => ((h' (h hr).1).2 q hq).trans ((h hr).2 q hq)⟩

theorem Fs.Rooted.of_same {root : Path} {σ σ' : Fs} (h : σ.Rooted root) (hw : σ'.WF)
    (hs : ∀ q, ¬ root <+: q → σ' q = σ q) : σ'.Rooted root := by
  refine ⟨hw, fun q hq hne => ?_⟩
  rw [hs q, h.2 q hq hne]
  intro hr
  exact hne (hq.eq_of_length_le hr.length_le)

namespace FsM.Keeps

theorem writeDoc {root p : Path} (hp : root <+: p) (j : Json) : Keeps (Below root) (FsM.writeDoc p j) := by
  intro σ hr
  unfold FsM.writeDoc
  split
  · rename_i hc
    rw [Bool.and_eq_true] at hc
    have hs : ∀ q, ¬ root <+: q → (fun q => if q = p then some (Entry.doc j) else σ q) q = σ q := by
      intro q hq
      exact if_neg fun (e : q = p) => hq (e ▸ hp)
    refine ⟨hr.of_same ?_ hs, hs⟩
    intro a r hrne hn
    dsimp only at hn ⊢
    have hpd : σ p ≠ some .dir := by
      intro e
      rw [e] at hc
      cases hc.2
    have hdd : σ p.dropLast = some .dir := by
      cases e : σ p.dropLast with
      | none => rw [e] at hc; cases hc.1
      | some x => rw [e] at hc; cases x <;> first | rfl | (cases hc.1; done)
    by_cases ha : a ++ r = p
    · have hlt : a <+: p.dropLast := by
        rw [← ha, List.dropLast_append_of_ne_nil hrne]
        exact List.prefix_append _ _
      have hap : a ≠ p := by
        intro e
        rw [← ha] at e
        exact hrne (List.self_eq_append_right.1 e)
      rw [if_neg hap]
      obtain ⟨t, ht⟩ := hlt
      by_cases htn : t = []
      · rw [htn, List.append_nil] at ht
        rw [ht, hdd]
      · exact hr.1 a t htn (by rw [ht, hdd]; exact fun e => by cases e)
    · rw [if_neg ha] at hn
      have := hr.1 a r hrne hn
      rw [if_neg (fun (e : a = p) => hpd (e ▸ this)), this]
  · exact ⟨hr, fun _ _ => rfl⟩

theorem createDirectories {root p : Path} (hp : root <+: p) :
    Keeps (Below root) (FsM.createDirectories p) := by
  intro σ hr
  unfold FsM.createDirectories
  split
  · exact ⟨hr, fun _ _ => rfl⟩
  · have hs : ∀ q, ¬ root <+: q → (σ.mkdirs p) q = σ q := by
      intro q hq
      unfold Fs.mkdirs
      split
      · rename_i hqp
        rcases List.prefix_or_prefix_of_prefix hqp hp with h | h
        · exact (hr.2 q h (fun e => hq (e ▸ List.prefix_refl _))).symm
        · exact absurd h hq
      · rfl
    exact ⟨hr.of_same (hr.1.mkdirs p) hs, hs⟩

theorem removeAll {root p : Path} (hp : root <+: p) : Keeps (Below root) (FsM.removeAll p) := by
  intro σ hr
  have hs : ∀ q, ¬ root <+: q → (σ.without p) q = σ q :=
    fun q hq => if_neg fun e => hq (hp.trans e)
  refine ⟨hr.of_same ?_ hs, hs⟩
  exact hr.1.without p

/-- The same with steps that depend on the value of the first one. -/
theorem bindOk {I : Fs → Fs → Prop} {α β : Type} (hI : Steps I) {x : FsM α} {f : α → FsM β} (hx : Keeps I x)
    (hf : ∀ a σ σ', x σ = (.ok a, σ') → Keeps I (f a)) : Keeps I (x >>= f) := by
  intro σ
  rw [FsM.bind_run]
  have := hx σ
  cases h : x σ with
  | mk r σ' =>
    rw [h] at this
    cases r with
    | ok a => exact hI.trans this (hf a σ σ' h σ')
    | throw e => exact this
    | ub => exact this

section

variable {root : Path}

theorem writeAttributes {p : Path} (hp : root <+: p) (z : Bool) (j : Json) :
    Keeps (Below root) (Generic.writeAttributes p z j) := by
  have hI := inside_steps root
  have hr := fun n => jsonRead hI p n
  have hw := fun n j => writeDoc (hp.trans (List.prefix_append p [n])) j
  unfold Generic.writeAttributes Generic.writeV3Attributes
  keeps hI <;> first | exact hw _ _ | exact hr _

theorem removeAttribute {p : Path} (hp : root <+: p) (z : Bool) (k : String) :
    Keeps (Below root) (Generic.removeAttribute p z k) := by
  have hI := inside_steps root
  have hr := fun n => jsonRead hI p n
  have hw := fun n j => writeDoc (hp.trans (List.prefix_append p [n])) j
  unfold Generic.removeAttribute Generic.removeV3Attribute
  keeps hI <;> first | exact hw _ _ | exact hr _

theorem change {t : Target} (hp : root <+: t.path) (op : AttrOp) : Keeps (Below root) (t.change op) := by
  have hI := inside_steps root
  cases t with
  | group g =>
    have hz := group_isZarr hI g
    have hw := fun z j => writeAttributes (p := g.path) hp z j
    have hr := fun z j => removeAttribute (p := g.path) hp z j
    have hd := fun n j => writeDoc (List.IsPrefix.trans (l₂ := g.path) hp (List.prefix_append _ [n])) j
    cases op <;> unfold Target.change
    · unfold GroupHandle.writeAttributes
      keeps hI <;> first | exact hw _ _ | exact hd _ _
    · unfold GroupHandle.removeAttribute
      keeps hI <;> first | exact hr _ _ | exact hd _ _
  | file g =>
    have hz := group_isZarr hI g
    have hw := fun z j => writeAttributes (p := g.path) hp z j
    have hr := fun z j => removeAttribute (p := g.path) hp z j
    have hd := fun n j => writeDoc (List.IsPrefix.trans (l₂ := g.path) hp (List.prefix_append _ [n])) j
    cases op <;> unfold Target.change
    · unfold GroupHandle.writeFileAttributes
      keeps hI <;> first | exact hw _ _ | exact hd _ _
    · unfold GroupHandle.removeFileAttribute
      keeps hI <;> first | exact hr _ _ | exact hd _ _
  | dataset d =>
    have hz := dataset_isZarr hI d
    have hw := fun z j => writeAttributes (p := d.path) hp z j
    have hr := fun z j => removeAttribute (p := d.path) hp z j
    have hd := fun n j => writeDoc (List.IsPrefix.trans (l₂ := d.path) hp (List.prefix_append _ [n])) j
    cases op <;> unfold Target.change
    · unfold DatasetHandle.writeAttributes
      keeps hI <;> first | exact hw _ _ | exact hd _ _
    · unfold DatasetHandle.removeAttribute
      keeps hI <;> first | exact hr _ _ | exact hd _ _

theorem group_create {g : GroupHandle} (hp : root <+: g.path) : Keeps (Below root) g.create := by
  have hI := inside_steps root
  have hc := createDirectories hp
  unfold GroupHandle.create
  keeps hI

theorem dataset_create {d : DatasetHandle} (hp : root <+: d.path) : Keeps (Below root) d.create := by
  have hI := inside_steps root
  have hc := createDirectories hp
  unfold DatasetHandle.create
  keeps hI

theorem group_remove {g : GroupHandle} (hp : root <+: g.path) : Keeps (Below root) g.remove := by
  have hI := inside_steps root
  have hc := removeAll hp
  unfold GroupHandle.remove
  keeps hI

theorem dataset_remove {d : DatasetHandle} (hp : root <+: d.path) : Keeps (Below root) d.remove := by
  have hI := inside_steps root
  have hc := removeAll hp
  unfold DatasetHandle.remove
  keeps hI

theorem writeV3Group {p : Path} (hp : root <+: p) : Keeps (Below root) (writeV3GroupMetadata p) := by
  have hI := inside_steps root
  have hr := fun n => jsonRead hI p n
  have hw := fun n j => writeDoc (hp.trans (List.prefix_append p [n])) j
  unfold writeV3GroupMetadata
  keeps hI <;> first | exact hw _ _ | exact hr _

theorem createFile {g : GroupHandle} (hp : root <+: g.path) (z : Bool) (f : Int) :
    Keeps (Below root) (g.createFile z f) := by
  have hI := inside_steps root
  have hc := createDirectories hp
  have h3 := writeV3Group hp
  have hr := fun n => jsonRead hI g.path n
  have hw := fun n j => writeDoc (hp.trans (List.prefix_append g.path [n])) j
  unfold GroupHandle.createFile GroupHandle.createAsFile writeFileMetadata
  keeps hI <;> first | exact hw _ _ | exact hr _

theorem writeGroup {p : Path} (hp : root <+: p) (z : Bool) (f : Int) :
    Keeps (Below root) (writeGroupMetadata p z f) := by
  have hI := inside_steps root
  have h3 := writeV3Group hp
  have hw := fun n j => writeDoc (hp.trans (List.prefix_append p [n])) j
  unfold writeGroupMetadata
  keeps hI <;> exact hw _ _

theorem createGroupAt {g : GroupHandle} {n : PyName} (hp : root <+: n.under g.path) (f : Int) :
    Keeps (Below root) (g.createGroupAt n f) := by
  have hI := inside_steps root
  exact bind hI (group_isZarr hI g) fun z => bind hI (group_create hp) fun _ => writeGroup hp _ _

theorem createGroup {g : GroupHandle} (hp : root <+: g.path) (key : Path) (f : Int) :
    Keeps (Below root) (g.createGroup key f) :=
  createGroupAt (n := { parts := key }) (hp.trans (List.prefix_append _ _)) f

theorem dataset_createDataset {d : DatasetHandle} (hp : root <+: d.path) (m : Meta) :
    Keeps (Below root) (d.createDataset m) := by
  have hI := inside_steps root
  have hc := dataset_create hp
  have hr := fun n => jsonRead hI d.path n
  have hw := fun n j => writeDoc (hp.trans (List.prefix_append d.path [n])) j
  unfold DatasetHandle.createDataset writeDatasetMetadata
  keeps hI <;> first | exact hw _ _ | exact hr _

theorem createDatasetAt {g : GroupHandle} {n : PyName} (hp : root <+: n.under g.path) (a : CreateArgs) :
    Keeps (Below root) (g.createDatasetAt n a) := by
  have hI := inside_steps root
  exact bind hI (group_isZarr hI g) fun z => bind hI (lift hI _) fun _ => dataset_createDataset hp _

theorem createDataset {g : GroupHandle} (hp : root <+: g.path) (key : Path) (a : CreateArgs) :
    Keeps (Below root) (g.createDataset key a) :=
  createDatasetAt (n := { parts := key }) (hp.trans (List.prefix_append _ _)) a

theorem pyFile {p : Path} (hp : root <+: p) (b : String) (m : FileMode) (u : Option Bool) (f : Int) :
    Keeps (Below root) (Z5.pyFile p b m u f) := by
  have hI := inside_steps root
  have h1 : Keeps (Below root) (GroupHandle.remove ⟨p, m⟩) := group_remove hp
  have h2 : ∀ z, Keeps (Below root) (GroupHandle.createFile ⟨p, m⟩ z f) := fun z => createFile hp z f
  have h3 := checkVersion hI ⟨⟨p, m⟩, f⟩
  have h4 : Keeps (Below root) (pyInferFormat p b) := by
    unfold pyInferFormat
    keeps hI
  unfold Z5.pyFile
  keeps hI
  all_goals exact h2 _

theorem pyCreateGroup {g : PyGroup} {n : PyName} (hp : root <+: n.under g.handle.path) :
    Keeps (Below root) (g.createGroup n) := by
  have hI := inside_steps root
  have h1 := createGroupAt hp g.zarrFormat
  unfold PyGroup.createGroup PyGroup.contains GroupHandle.has
  keeps hI

theorem requireGroup {g : PyGroup} (hp : root <+: g.handle.path) (key : Path) :
    Keeps (Below root) (g.requireGroup key) := by
  have hI := inside_steps root
  have h1 := createGroup hp key g.zarrFormat
  have h2 := isSubGroup hI g.handle key
  unfold PyGroup.requireGroup PyGroup.contains GroupHandle.has
  keeps hI

end

end FsM.Keeps

/-- What `require_group` returns -/
theorem requireGroup_ok {g g' : PyGroup} {key : Path} {σ σ' : Fs}
    (h : g.requireGroup key σ = (.ok g', σ')) : g' = ⟨g.handle.group key, g.zarrFormat⟩ := by
  unfold PyGroup.requireGroup at h
  obtain ⟨b, σ1, _, h⟩ := FsM.bind_ok.1 h
  split at h
  · obtain ⟨c, σ2, _, h⟩ := FsM.bind_ok.1 h
    split at h
    · cases h
    · cases h; rfl
  · split at h
    · cases h
    · obtain ⟨c, σ2, _, h⟩ := FsM.bind_ok.1 h
      cases h; rfl

theorem requireGroups_ok : ∀ {ns : List String} {g g' : PyGroup} {σ σ' : Fs},
    g.requireGroups ns σ = (.ok g', σ') → g' = ⟨g.handle.group ns, g.zarrFormat⟩
  | [], g, g', σ, σ', h => by
    cases h
    simp [GroupHandle.group]
  | n :: ns, g, g', σ, σ', h => by
    unfold PyGroup.requireGroups at h
    obtain ⟨g1, σ1, h1, h2⟩ := FsM.bind_ok.1 h
    rw [requireGroups_ok h2, requireGroup_ok h1]
    simp [GroupHandle.group]

namespace FsM.Keeps

variable {root : Path}

theorem requireGroups : ∀ {ns : List String} {g : PyGroup}, root <+: g.handle.path →
    Keeps (Below root) (g.requireGroups ns)
  | [], _, _ => pure (inside_steps root) _
  | n :: ns, g, hp => by
    unfold PyGroup.requireGroups
    refine bindOk (inside_steps root) (requireGroup hp _) fun g' σ σ' h => requireGroups ?_
    rw [requireGroup_ok h]
    exact hp.trans (List.prefix_append _ _)

theorem newDatasetFull {g : PyGroup} {n : PyName} (hp : root <+: n.under g.handle.path) (a : PyCreateArgs) :
    Keeps (Below root) (g.newDatasetFull n a) := by
  have hI := inside_steps root
  have h1 := fun a => createDatasetAt hp a
  have h2 := group_isZarr hI g.handle
  unfold PyGroup.newDatasetFull GroupHandle.createDatasetJsonAt
  keeps hI <;> exact h1 _

theorem pyCreateDataset {g : PyGroup} {n : PyName} (hn : n.absolute = false) (hp : root <+: g.handle.path)
    (a : PyCreateArgs) : Keeps (Below root) (g.createDatasetFull n a) := by
  have hI := inside_steps root
  have hu : n.under g.handle.path = g.handle.path ++ n.parts := by
    unfold PyName.under
    rw [hn]
    rfl
  have h1 : Keeps (Below root) (g.newDatasetFull n a) :=
    newDatasetFull (by rw [hu]; exact hp.trans (List.prefix_append _ _)) a
  unfold PyGroup.createDatasetFull PyGroup.contains GroupHandle.has
  refine ite (lift hI _) (bind hI (isDir hI _) fun b => ite (lift hI _) (ite ?_ h1))
  refine bindOk hI (requireGroups hp) fun g' σ σ' h => ?_
  have h2 : Keeps (Below root) (g'.newDatasetFull { parts := n.parts.getLast?.toList } a) := by
    apply newDatasetFull
    rw [requireGroups_ok h]
    exact (hp.trans (List.prefix_append _ _)).trans (List.prefix_append _ _)
  keeps hI

theorem pyRequireDataset {g : PyGroup} (hp : root <+: g.handle.path) (key : Path) (a : PyCreateArgs) :
    Keeps (Below root) (g.requireDataset key a) := by
  have hI := inside_steps root
  have h1 : Keeps (Below root) (g.newDatasetFull { parts := key } a) :=
    newDatasetFull (hp.trans (List.prefix_append _ _)) a
  have h2 := isSubGroup hI g.handle key
  have h3 := openDataset hI g.handle key
  unfold PyGroup.requireDataset GroupHandle.has
  keeps hI

end FsM.Keeps

end Z5
