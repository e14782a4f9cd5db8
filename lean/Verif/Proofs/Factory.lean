import Verif.Props.Attributes
import Verif.Props.Metadata
import Verif.Spec.Factory

/-!
# Lemmas on the factory functions
-/

namespace Z5

theorem FsM.bind_ok {α β : Type} {x : FsM α} {f : α → FsM β} {σ σ' : Fs} {b : β} :
    (x >>= f) σ = (.ok b, σ') ↔ ∃ a σ1, x σ = (.ok a, σ1) ∧ f a σ1 = (.ok b, σ') := by
  rw [FsM.bind_run]
  constructor
  · intro h
    cases hx : x σ with
    | mk r σ1 => 
      rw [hx] at h
      cases r with
      | ok a => exact ⟨a, σ1, rfl, h⟩
      | throw e => cases h
      | ub => cases h
  · rintro ⟨a, σ1, h1, h2⟩
    rw [h1]
    exact h2

theorem FsM.lift_ok {α : Type} {r : Res α} {σ σ' : Fs} {a : α} :
    FsM.lift r σ = (.ok a, σ') ↔ r = .ok a ∧ σ = σ' := by
  rw [FsM.lift_run, Prod.mk.injEq]

/-- The directories on the way to `p` -/
def Fs.mkdirs (σ : Fs) (p : Path) : Fs := fun q => if q <+: p then some .dir else σ q

theorem Fs.WF.mkdirs {σ : Fs} (h : σ.WF) (p : Path) : (σ.mkdirs p).WF := by
  intro a q hq hn
  unfold Fs.mkdirs at hn ⊢
  by_cases ha : a <+: p
  · rw [if_pos ha]
  · rw [if_neg ha]
    rw [if_neg (fun hh => ha ((List.prefix_append a q).trans hh))] at hn
    exact h a q hq hn

theorem Fs.WF.below {σ : Fs} (h : σ.WF) {p : Path} (hp : σ p = none) (q : Path) : σ (p ++ q) = none := by
  by_cases hq : q = []
  · rw [hq, List.append_nil, hp]
  · cases hn : σ (p ++ q) with
    | none => rfl
    | some e =>
      have := h p q hq (by rw [hn]; exact fun e => by cases e)
      rw [hp] at this
      cases this

theorem Fs.mkdirs_at (σ : Fs) (p : Path) : σ.mkdirs p p = some .dir := if_pos (List.prefix_refl p)

theorem Fs.mkdirs_below {σ : Fs} (h : σ.WF) {p : Path} (hp : σ p = none) {q : Path} (hq : q ≠ []) :
    σ.mkdirs p (p ++ q) = none := by
  unfold Fs.mkdirs
  rw [if_neg, h.below hp]
  intro hh
  have := hh.length_le
  rw [List.length_append] at this
  have : 0 < q.length := List.length_pos_iff.2 hq
  omega

theorem createDirectories_ok {p : Path} {σ σ' : Fs} (h : FsM.createDirectories p σ = (.ok (), σ')) :
    σ' = σ.mkdirs p ∧ ∀ n, isOther (σ (p.take n)) = false := by
  unfold FsM.createDirectories at h
  split at h
  · cases h
  · rename_i hn
    refine ⟨(Prod.mk.inj h).2.symm, fun n => ?_⟩
    have := fun m (hm : m < p.length + 1) => List.any_eq_false.1 (Bool.not_eq_true _ ▸ hn) m (List.mem_range.2 hm)
    by_cases hm : n < p.length + 1
    · simpa using this n hm
    · have := this p.length (by omega)
      rw [List.take_length] at this
      rw [List.take_of_length_le (by omega)]
      simpa using this

theorem group_create_ok {g : GroupHandle} {σ σ' : Fs} (h : g.create σ = (.ok (), σ')) :
    g.mode ≠ .r ∧ σ g.path = none ∧ σ' = σ.mkdirs g.path := by
  unfold GroupHandle.create at h
  by_cases hm : g.mode = .r
  · rw [if_pos hm] at h
    cases h
  · rw [if_neg hm, FsM.bind_ok] at h
    obtain ⟨b, σ1, h1, h2⟩ := h
    cases h1
    by_cases he : (σ g.path).isSome = true
    · rw [if_pos he] at h2
      cases h2
    · rw [if_neg he] at h2
      exact ⟨hm, by simpa using he, (createDirectories_ok h2).1⟩

theorem file_create_ok {g : GroupHandle} {σ σ' : Fs} (h : g.createAsFile σ = (.ok (), σ')) :
    g.mode.canCreate = true ∧ σ g.path = none ∧ σ' = σ.mkdirs g.path := by
  unfold GroupHandle.createAsFile at h
  cases hm : g.mode.canCreate
  · rw [hm] at h
    cases h
  · rw [hm, if_neg (by decide), FsM.bind_ok] at h
    obtain ⟨b, σ1, h1, h2⟩ := h
    cases h1
    by_cases he : (σ g.path).isSome = true
    · rw [if_pos he] at h2
      cases h2
    · rw [if_neg he] at h2
      exact ⟨rfl, by simpa using he, (createDirectories_ok h2).1⟩

theorem dataset_create_ok {d : DatasetHandle} {σ σ' : Fs} (h : d.create σ = (.ok (), σ')) :
    d.mode ≠ .r ∧ σ d.path = none ∧ σ' = σ.mkdirs d.path := by
  unfold DatasetHandle.create at h
  by_cases hm : d.mode = .r
  · rw [if_pos hm] at h
    cases h
  · rw [if_neg hm, FsM.bind_ok] at h
    obtain ⟨b, σ1, h1, h2⟩ := h
    cases h1
    by_cases he : (σ d.path).isSome = true
    · rw [if_pos he] at h2
      cases h2
    · rw [if_neg he] at h2
      exact ⟨hm, by simpa using he, (createDirectories_ok h2).1⟩

/-- In a new directory, a document is written. -/
theorem writeDoc_new {σ : Fs} (h : σ.WF) {p : Path} (hp : σ p = none) (n : String) (j : Json) :
    FsM.writeDoc (p ++ [n]) j (σ.mkdirs p) = (.ok (), (σ.mkdirs p).setDoc (p ++ [n]) j) :=
  FsM.writeDoc_run (σ.mkdirs_at p) (by rw [Fs.mkdirs_below h hp (by simp)]; exact fun e => by cases e)

theorem jsonRead_new {σ : Fs} (h : σ.WF) {p : Path} (hp : σ p = none) (n : String) :
    jsonRead p [n] (σ.mkdirs p) = (.ok none, σ.mkdirs p) :=
  jsonRead_none (Fs.mkdirs_below h hp (by simp))

/-- The directory of a new node, and one document in it -/
theorem NewNode.one {σ : Fs} (h : σ.WF) {p : Path} (hp : σ p = none) (n : String) (j : Json) :
    σ.NewNode ((σ.mkdirs p).setDoc (p ++ [n]) j) p (fun k => if k = n then some j else none) := by
  have hne : ∀ q, q <+: p → q ≠ p ++ [n] := by
    intro q hq e
    have := hq.length_le
    rw [e, List.length_append] at this
    simp at this
    omega
  refine ⟨hp, fun q hq => ?_, fun k => ?_, fun q hq => ?_, fun q h1 h2 => ?_⟩
  · rw [setDoc_of_ne (hne q hq)]
    exact if_pos hq
  · by_cases hk : k = n
    · subst hk
      rw [if_pos rfl]
      exact if_pos rfl
    · rw [if_neg hk, setDoc_of_ne (by simpa using hk), Fs.mkdirs_below h hp (by simp)]
      rfl
  · rw [setDoc_of_ne, Fs.mkdirs_below h hp (by intro e; rw [e] at hq; simp at hq)]
    intro e
    rw [List.append_cancel_left e] at hq
    simp at hq
  · rw [setDoc_of_ne]
    · exact if_neg h1
    · intro e
      exact h2 (e ▸ List.prefix_append p [n])

theorem NewNode.empty {σ : Fs} (h : σ.WF) {p : Path} (hp : σ p = none) :
    σ.NewNode (σ.mkdirs p) p (fun _ => none) := by
  refine ⟨hp, fun q hq => if_pos hq, fun k => ?_, fun q hq => ?_, fun q h1 h2 => if_neg h1⟩
  · rw [Fs.mkdirs_below h hp (by simp)]
    rfl
  · rw [Fs.mkdirs_below h hp (by intro e; rw [e] at hq; simp at hq)]

theorem Fs.NewNode.wf {σ σ' : Fs} {p : Path} {docs : String → Option Json} (h : σ.NewNode σ' p docs)
    (hσ : σ.WF) : σ'.WF := by
  intro a q hq hn
  by_cases ha : a <+: p
  · exact h.dirs a ha
  · by_cases hb : p <+: a
    · obtain ⟨r, rfl⟩ := hb
      have hr : r ≠ [] := fun e => ha (by rw [e, List.append_nil]; exact List.prefix_refl p)
      rw [List.append_assoc, h.below] at hn
      · exact absurd rfl hn
      · have h1 : 0 < r.length := List.length_pos_iff.2 hr
        have h2 : 0 < q.length := List.length_pos_iff.2 hq
        rw [List.length_append]
        omega
    · rw [h.rest a ha hb]
      rw [h.rest] at hn
      · exact hσ a q hq hn
      · exact fun e => ha ((List.prefix_append a q).trans e)
      · intro e
        rcases List.prefix_or_prefix_of_prefix e (List.prefix_append a q) with h1 | h1
        · exact hb h1
        · exact ha h1

/-- What existed is still there. -/
theorem Fs.NewNode.kept {σ σ' : Fs} {p : Path} {docs : String → Option Json} (h : σ.NewNode σ' p docs)
    (hσ : σ.WF) {q : Path} (hq : σ q ≠ none) : σ' q = σ q ∨ σ' q = some .dir := by
  by_cases h1 : q <+: p
  · exact .inr (h.dirs q h1)
  · by_cases h2 : p <+: q
    · obtain ⟨r, rfl⟩ := h2
      exact absurd (hσ.below h.fresh r) hq
    · exact .inl (h.rest q h1 h2)

theorem Fs.NewNode.docAt {σ σ' : Fs} {p : Path} {docs : String → Option Json} (h : σ.NewNode σ' p docs)
    (n : String) : σ'.docAt (p ++ [n]) = docs n := by
  unfold Fs.docAt
  rw [h.docs]
  cases docs n <;> rfl

theorem Fs.NewNode.isSome {σ σ' : Fs} {p : Path} {docs : String → Option Json} (h : σ.NewNode σ' p docs)
    (n : String) : (σ' (p ++ [n])).isSome = (docs n).isSome := by
  rw [h.docs]
  cases docs n <;> rfl

/-- The handle of the container still tells zarr from N5, unless the new node has the name of a metadata
    document. -/
theorem Fs.NewNode.isZarr {σ σ' : Fs} {g : GroupHandle} {key : Path} {docs : String → Option Json}
    (h : σ.NewNode σ' (g.path ++ key) docs) (hσ : σ.WF) {z : Bool} (hz : g.isZarr σ = (.ok z, σ))
    (hk : z = false → key.head? ≠ some ".zgroup" ∧ key.head? ≠ some "zarr.json") :
    g.isZarr σ' = (.ok z, σ') := by
  rw [group_isZarr, Prod.mk.injEq] at hz ⊢
  refine ⟨?_, rfl⟩
  have hz := hz.1
  split at hz
  · rename_i he
    have hp : σ' g.path = some .dir := h.dirs _ (List.prefix_append _ _)
    rw [hp]
    simp only [Option.isSome_some, if_true, Res.ok.injEq] at hz ⊢
    have mono : ∀ n, (σ (g.path ++ [n])).isSome = true → (σ' (g.path ++ [n])).isSome = true := by
      intro n hn
      rcases h.kept hσ (q := g.path ++ [n]) (by intro e; rw [e] at hn; cases hn) with e | e
      · rw [e, hn]
      · rw [e]; rfl
    cases z with
    | true =>
      rcases Bool.or_eq_true _ _ ▸ hz with h1 | h1
      · rw [mono _ h1, Bool.true_or]
      · rw [mono _ h1, Bool.or_true]
    | false =>
      obtain ⟨k1, k2⟩ := hk rfl
      obtain ⟨z1, z2⟩ := Bool.or_eq_false_iff.1 hz
      have same : ∀ n, key.head? ≠ some n → σ' (g.path ++ [n]) = σ (g.path ++ [n]) := by
        intro n hn
        cases key with
        | nil =>
          rw [List.append_nil] at h
          rw [h.fresh] at he
          cases he
        | cons k ks =>
          have hkn : k ≠ n := fun e => hn (by rw [e]; rfl)
          apply h.rest
          · rintro ⟨r, hr⟩
            simp at hr
            exact hkn hr.1.symm
          · rintro ⟨r, hr⟩
            simp at hr
            exact hkn hr.1
      rw [same _ k1, same _ k2, z1, z2]
      rfl
  · cases hz

theorem writeV3Group_new {σ : Fs} (h : σ.WF) {p : Path} (hp : σ p = none) :
    writeV3GroupMetadata p (σ.mkdirs p) = (.ok (), (σ.mkdirs p).setDoc (p ++ ["zarr.json"]) v3GroupDoc) := by
  simp only [writeV3GroupMetadata, FsM.bind_run, jsonRead_new h hp, Option.getD_none, FsM.lift_run]
  exact writeDoc_new h hp _ _

theorem groupDocs_v3 {f : Int} (hf : f = 3) (b : Bool) : groupDocs (.of true f) f b
    = fun n => if n = "zarr.json" then some v3GroupDoc else none := by
  funext n
  simp [groupDocs, Layout.of, hf]

theorem groupDocs_v2 {f : Int} (hf : f ≠ 3) (b : Bool) : groupDocs (.of true f) f b
    = fun n => if n = ".zgroup" then some (.obj [("zarr_format", .int f)]) else none := by
  funext n
  simp [groupDocs, Layout.of, hf]

theorem groupDocs_n5 (f : Int) : groupDocs (.of false f) f false = fun _ => none := by
  funext n
  simp [groupDocs, Layout.of]

theorem groupDocs_n5_file (f : Int) : groupDocs (.of false f) f true
    = fun n => if n = "attributes.json" then some (.obj [("n5", .str n5Version)]) else none := by
  funext n
  simp [groupDocs, Layout.of, n5Version]

theorem createFile_ok {g : GroupHandle} {z : Bool} {f : Int} {σ σ' : Fs} (hσ : σ.WF)
    (h : g.createFile z f σ = (.ok (), σ')) :
    g.mode.canCreate = true ∧ σ.NewNode σ' g.path (groupDocs (.of z f) f true) := by
  unfold GroupHandle.createFile at h
  obtain ⟨_, σ1, h1, h2⟩ := FsM.bind_ok.1 h
  obtain ⟨hm, hp, rfl⟩ := file_create_ok h1
  refine ⟨hm, ?_⟩
  unfold writeFileMetadata at h2
  cases z with
  | false =>
    simp only [Bool.false_and, Bool.false_eq_true, if_false, FsM.bind_run, jsonRead_new hσ hp,
      Option.getD_none, FsM.lift_run, Json.set, writeDoc_new hσ hp] at h2
    cases h2
    rw [groupDocs_n5_file]
    exact NewNode.one hσ hp _ _
  | true =>
    by_cases hf : f = 3
    · subst hf
      rw [if_pos (by decide), writeV3Group_new hσ hp] at h2
      cases h2
      rw [groupDocs_v3 rfl]
      exact NewNode.one hσ hp _ _
    · rw [if_neg (by simpa using hf), if_pos rfl, writeDoc_new hσ hp] at h2
      cases h2
      rw [groupDocs_v2 hf]
      exact NewNode.one hσ hp _ _

theorem createGroup_ok {root : GroupHandle} {key : Path} {f : Int} {σ σ' : Fs} (hσ : σ.WF)
    (h : root.createGroup key f σ = (.ok (), σ')) :
    ∃ z, root.isZarr σ = (.ok z, σ) ∧ root.mode ≠ .r ∧
      σ.NewNode σ' (root.path ++ key) (groupDocs (.of z f) f false) := by
  unfold GroupHandle.createGroup at h
  obtain ⟨z, σ0, h0, hc⟩ := FsM.bind_ok.1 h
  have : σ0 = σ := by
    rw [group_isZarr] at h0
    exact (Prod.mk.inj h0).2.symm
  subst this
  obtain ⟨_, σ1, h1, h2⟩ := FsM.bind_ok.1 hc
  obtain ⟨hm, hp, rfl⟩ := group_create_ok h1
  refine ⟨z, h0, hm, ?_⟩
  unfold writeGroupMetadata at h2
  simp only [GroupHandle.group] at hp h2
  cases z with
  | false =>
    simp only [Bool.false_and, Bool.false_eq_true, if_false] at h2
    cases h2
    rw [groupDocs_n5]
    exact NewNode.empty hσ hp
  | true =>
    by_cases hf : f = 3
    · subst hf
      rw [if_pos (by decide), writeV3Group_new hσ hp] at h2
      cases h2
      rw [groupDocs_v3 rfl]
      exact NewNode.one hσ hp _ _
    · rw [if_neg (by simpa using hf), if_pos rfl, writeDoc_new hσ hp] at h2
      cases h2
      rw [groupDocs_v2 hf]
      exact NewNode.one hσ hp _ _

theorem writeDatasetMetadata_new {σ σ' : Fs} (h : σ.WF) {p : Path} (hp : σ p = none) {m : Meta}
    (hw : writeDatasetMetadata p m (σ.mkdirs p) = (.ok (), σ')) :
    ∃ j, m.toJson = .ok j ∧ σ' = (σ.mkdirs p).setDoc (p ++ [m.fileName]) j := by
  unfold writeDatasetMetadata at hw
  by_cases hz : (m.isZarr && m.zarrFormat == 3) = true
  · rw [if_pos hz] at hw
    simp only [FsM.bind_run, jsonRead_new h hp, FsM.lift_run] at hw
    cases hj : m.toJson with
    | ok j =>
      simp only [hj, Option.bind_none, FsM.bind_run, FsM.pure_run, writeDoc_new h hp] at hw
      cases hw
      refine ⟨j, rfl, ?_⟩
      have : m.fileName = "zarr.json" := by
        unfold Meta.fileName
        have := Bool.and_eq_true _ _ ▸ hz
        rw [if_pos this.1, if_pos (by simpa using this.2)]
      rw [this]
    | throw e => rw [hj] at hw; cases hw
    | ub => rw [hj] at hw; cases hw
  · rw [if_neg hz] at hw
    simp only [FsM.bind_run, FsM.lift_run] at hw
    cases hj : m.toJson with
    | ok j =>
      simp only [hj, writeDoc_new h hp] at hw
      cases hw
      refine ⟨j, rfl, ?_⟩
      have : m.fileName = if m.isZarr then ".zarray" else "attributes.json" := by
        unfold Meta.fileName
        cases hm : m.isZarr
        · rfl
        · rw [hm] at hz
          rw [if_pos rfl, if_pos rfl, if_neg (by simpa using hz)]
      rw [this]
    | throw e => rw [hj] at hw; cases hw
    | ub => rw [hj] at hw; cases hw

theorem createDataset_ok {d : DatasetHandle} {m : Meta} {ds : DatasetObj} {σ σ' : Fs} (hσ : σ.WF)
    (h : d.createDataset m σ = (.ok ds, σ')) :
    d.mode ≠ .r ∧ makeDataset d m = .ok ds ∧
      ∃ j, m.toJson = .ok j ∧
        σ.NewNode σ' d.path (fun n => if n = m.fileName then some j else none) := by
  unfold DatasetHandle.createDataset at h
  obtain ⟨_, σ1, h1, h⟩ := FsM.bind_ok.1 h
  obtain ⟨hm, hp, rfl⟩ := dataset_create_ok h1
  obtain ⟨_, σ2, h2, h3⟩ := FsM.bind_ok.1 h
  obtain ⟨j, hj, rfl⟩ := writeDatasetMetadata_new hσ hp h2
  obtain ⟨h4, rfl⟩ := FsM.lift_ok.1 h3
  exact ⟨hm, h4, j, hj, NewNode.one hσ hp _ _⟩

end Z5
