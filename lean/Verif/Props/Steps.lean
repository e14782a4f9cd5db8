import Verif.Proofs.Steps
import Verif.Props.Remove

/-!
# C75: crashes while attributes are changed, and while nodes are created and removed

A crash point is a number of steps (`FsProg.crash`).  What the disk does between steps (which part of a text has reached
the file, the order in which a directory is emptied) is arbitrary (`Disk`).
-/

namespace Z5.Props
open Z5

/-! ### attributes -/

/-- **C75.**  Without a crash the steps are the functions that the other theorems are about. -/
theorem c75_attributes_complete (D : Disk) (t : Target) (op : AttrOp) (σ : Fs) : (t.steps D op).run σ = t.change op σ :=
  (Runs.target (I := fun _ => True) (fun _ _ _ _ => trivial) D t op σ trivial).1

theorem isZarr_torn {t : Target} {σ : Fs} {L : Layout} (h : t.Refers σ L) {e : Entry} :
    t.isZarr (σ.set (t.path ++ [L.file]) (some e)) = (.ok L.isZarr, σ.set (t.path ++ [L.file]) (some e)) := by
  have h0 : ((σ.set (t.path ++ [L.file]) (some e)) t.path).isSome = (σ t.path).isSome := by
    rw [Fs.set, if_neg (by simp)]
  have h1 : ∀ n, n = ".zgroup" ∨ n = ".zarray" →
      ((σ.set (t.path ++ [L.file]) (some e)) (t.path ++ [n])).isSome = (σ (t.path ++ [n])).isSome := by
    intro n hn
    rw [Fs.set, if_neg]
    intro h
    have : n = L.file := by simpa using h
    rcases hn with rfl | rfl <;> cases L <;> simp [Layout.file] at this
  have h2 : ((σ.set (t.path ++ [L.file]) (some e)) (t.path ++ ["zarr.json"])).isSome =
      (σ (t.path ++ ["zarr.json"])).isSome := by
    rw [Fs.set]
    split
    · rename_i h'
      have : L = .v3 := by
        have : "zarr.json" = L.file := by simpa using h'
        cases L <;> simp [Layout.file] at this ⊢
      obtain ⟨j, hj, _⟩ := h.node.v3 this
      rw [hj]
      rfl
    · rfl
  have hz := h.zarr
  cases t with
  | dataset d =>
    have hz : d.isZarr σ = _ := hz
    show d.isZarr _ = _
    simp only [Target.path] at h0 h1 h2 ⊢
    rw [dataset_isZarr] at hz ⊢
    rw [h0, h2, h1 _ (.inr rfl)]
    rw [Prod.mk.injEq] at hz ⊢
    exact ⟨hz.1, rfl⟩
  | group g =>
    have hz : g.isZarr σ = _ := hz
    show g.isZarr _ = _
    simp only [Target.path] at h0 h1 h2 ⊢
    rw [group_isZarr] at hz ⊢
    rw [h0, h2, h1 _ (.inl rfl)]
    rw [Prod.mk.injEq] at hz ⊢
    exact ⟨hz.1, rfl⟩
  | file g =>
    have hz : g.isZarr σ = _ := hz
    show g.isZarr _ = _
    simp only [Target.path] at h0 h1 h2 ⊢
    rw [group_isZarr] at hz ⊢
    rw [h0, h2, h1 _ (.inl rfl)]
    rw [Prod.mk.injEq] at hz ⊢
    exact ⟨hz.1, rfl⟩

/-- the operation throws and changes nothing -/
def Throws {α : Type} (m : FsM α) (σ : Fs) : Prop := ∃ e, m σ = (.throw e, σ)

theorem Throws.bind_left {α β : Type} {m : FsM α} {f : α → FsM β} {σ : Fs} (h : Throws m σ) : Throws (m >>= f) σ := by
  obtain ⟨e, h⟩ := h
  exact ⟨e, by rw [FsM.bind_run, h]⟩

theorem Throws.bind_right {α β : Type} {m : FsM α} {f : α → FsM β} {σ : Fs} {a : α} (h : m σ = (.ok a, σ))
    (h' : Throws (f a) σ) : Throws (m >>= f) σ := by
  obtain ⟨e, h'⟩ := h'
  exact ⟨e, by rw [FsM.bind_run, h]; exact h'⟩

theorem Throws.lift {α : Type} (e : Err) (σ : Fs) : Throws (FsM.lift (.throw e) : FsM α) σ := ⟨e, rfl⟩

theorem jsonRead_torn {σ : Fs} {p q : Path} {b : Bytes} (h : σ (p ++ q) = some (.file b)) :
    jsonRead p q σ = (.throw .typeError, σ) := by
  simp [jsonRead, FsM.bind_run, FsM.exist_run, h, FsM.parse]

/-- what the torn document does to the generic functions -/
theorem generic_torn {σ : Fs} {p : Path} {L : Layout} {b : Bytes} (h : σ (p ++ [L.file]) = some (.file b))
    (hv2 : L = .v2 → σ (p ++ ["zarr.json"]) = none) :
    (∀ j, Generic.readAttributes p L.isZarr j σ = (.throw .typeError, σ)) ∧
    (∀ j, Throws (Generic.writeAttributes p L.isZarr j) σ) ∧ (∀ k, Throws (Generic.removeAttribute p L.isZarr k) σ) := by
  have hr := jsonRead_torn h
  cases L with
  | v2 =>
    have hz := hv2 rfl
    simp only [Layout.file] at hr
    refine ⟨fun j => ?_, fun j => ⟨.typeError, ?_⟩, fun k => ⟨.typeError, ?_⟩⟩ <;>
      simp [Generic.readAttributes, Generic.writeAttributes, Generic.removeAttribute, FsM.bind_run, FsM.exist_run, hz,
        Layout.isZarr, Generic.attributesName, hr]
  | v3 =>
    simp only [Layout.file] at hr h
    refine ⟨fun j => ?_, fun j => ⟨.typeError, ?_⟩, fun k => ⟨.typeError, ?_⟩⟩ <;>
      simp [Generic.readAttributes, Generic.writeAttributes, Generic.removeAttribute, Generic.readV3Attributes,
        Generic.writeV3Attributes, Generic.removeV3Attribute, FsM.bind_run, FsM.exist_run, h,
        Layout.isZarr, hr]
  | n5 =>
    simp only [Layout.file] at hr
    refine ⟨fun j => ?_, fun j => ⟨.typeError, ?_⟩, fun k => ⟨.typeError, ?_⟩⟩ <;>
      simp [Generic.readAttributes, Generic.writeAttributes, Generic.removeAttribute, FsM.bind_run, FsM.exist_run,
        Layout.isZarr, Generic.attributesName, hr]

theorem target_torn {t : Target} {σ : Fs} {L : Layout} (h : t.Refers σ L) {b : Bytes} :
    let σ' := σ.set (t.path ++ [L.file]) (some (.file b))
    t.read σ' = (.throw .typeError, σ') ∧ ∀ op, Throws (t.change op) σ' := by
  intro σ'
  have hz : t.isZarr σ' = (.ok L.isZarr, σ') := isZarr_torn h
  have hv2 : L = .v2 → σ' (t.path ++ ["zarr.json"]) = none := by
    rintro rfl
    show Fs.set _ _ _ _ = none
    rw [Fs.set, if_neg (by simp [Layout.file])]
    exact h.node.v2 rfl
  have hf : σ' (t.path ++ [L.file]) = some (.file b) := if_pos rfl
  obtain ⟨h1, h2, h3⟩ := generic_torn hf hv2
  have hp : ∀ (r : Res Unit) (m : Unit → FsM Unit), r ≠ .ub → Throws (m ()) σ' → Throws (FsM.lift r >>= m) σ' := by
    intro r m hr hm
    cases r with
    | ok a => exact .bind_right rfl hm
    | throw e => exact .bind_left (.lift e σ')
    | ub => exact absurd rfl hr
  refine ⟨?_, fun op => ?_⟩
  · cases t with
    | group g =>
      have hz : g.isZarr σ' = _ := hz
      show g.readAttributes .null σ' = _
      unfold GroupHandle.readAttributes
      rw [FsM.bind_run, hz]
      exact h1 _
    | file g =>
      have hz : g.isZarr σ' = _ := hz
      show g.readAttributes .null σ' = _
      unfold GroupHandle.readAttributes
      rw [FsM.bind_run, hz]
      exact h1 _
    | dataset d =>
      have hz : d.isZarr σ' = _ := hz
      have h1 : ∀ j, Generic.readAttributes d.path L.isZarr j σ' = (.throw .typeError, σ') := h1
      show d.readAttributes .null σ' = _
      unfold DatasetHandle.readAttributes
      simp only [FsM.bind_run, hz, h1]
  · cases t with
    | group g =>
      have hz : g.isZarr σ' = _ := hz
      cases op <;> dsimp only [Target.change]
      · unfold GroupHandle.writeAttributes
        split
        · exact .lift _ _
        · exact .bind_right hz (h2 _)
      · unfold GroupHandle.removeAttribute
        split
        · exact .lift _ _
        · exact .bind_right hz (h3 _)
    | file g =>
      have hz : g.isZarr σ' = _ := hz
      cases op with
      | write j =>
        dsimp only [Target.change]
        unfold GroupHandle.writeFileAttributes
        split
        · exact .lift _ _
        · refine .bind_right hz ?_
          dsimp only
          split
          · exact hp _ _ (by unfold protectN5File; split <;> exact fun h => by cases h) (.bind_right hz (h2 _))
          · exact .bind_right hz (h2 _)
      | remove k =>
        dsimp only [Target.change]
        unfold GroupHandle.removeFileAttribute
        split
        · exact .lift _ _
        · refine .bind_right hz ?_
          dsimp only
          split
          · split
            · exact .bind_left (.lift _ _)
            · exact .bind_right hz (h3 _)
          · exact .bind_right hz (h3 _)
    | dataset d =>
      have hz : d.isZarr σ' = _ := hz
      cases op with
      | write j =>
        dsimp only [Target.change]
        unfold DatasetHandle.writeAttributes
        split
        · exact .lift _ _
        · refine .bind_right hz ?_
          dsimp only
          split
          · exact hp _ _ (by unfold protectN5Dataset; split <;> exact fun h => by cases h) (.bind_right hz (h2 _))
          · exact .bind_right hz (h2 _)
      | remove k =>
        dsimp only [Target.change]
        unfold DatasetHandle.removeAttribute
        split
        · exact .lift _ _
        · refine .bind_right hz ?_
          dsimp only
          split
          · split
            · exact .bind_left (.lift _ _)
            · exact .bind_right hz (h3 _)
          · exact .bind_right hz (h3 _)

/-- The states of a crash during a change of attributes -/
theorem crash_attributes {D : Disk} {t : Target} {op : AttrOp} {σ : Fs} {L : Layout} (h : t.Refers σ L) (n : Nat) :
    (t.steps D op).crash n σ = σ ∨ (t.steps D op).crash n σ = (t.change op σ).2 ∨
      ∃ b, (t.steps D op).crash n σ = σ.set (t.path ++ [L.file]) (some (.file b)) := by
  rcases OneDoc.target (D := D) (op := op) h _ ⟨n, rfl⟩ with h' | ⟨q, rfl, _, _, ⟨b, h'⟩ | ⟨_, h'⟩⟩
  · exact .inl h'
  · exact .inr (.inr ⟨b, h'⟩)
  · rw [c75_attributes_complete] at h'
    exact .inr (.inl h')

/-- **C75.**  A crash while attributes of a node are changed, at any point: the change was made or not, or the attributes of
    this node cannot be read any more, and every attempt to change them throws; no other file was touched. -/
theorem c75_attributes {D : Disk} {t : Target} {op : AttrOp} {σ : Fs} {L : Layout} (h : t.Refers σ L) (n : Nat) :
    let σ' := (t.steps D op).crash n σ
    (∀ q, q ≠ t.path ++ [L.file] → σ' q = σ q) ∧
    (σ' = σ ∨ σ' = (t.change op σ).2 ∨
      (t.read σ' = (.throw .typeError, σ') ∧ ∀ op', ∃ e, t.change op' σ' = (.throw e, σ'))) := by
  intro σ'
  refine ⟨fun q hq => ?_, ?_⟩
  · rcases OneDoc.target (D := D) (op := op) h _ ⟨n, rfl⟩ with h' | ⟨q', rfl, _, _, ⟨b, h'⟩ | ⟨⟨j, h'⟩, _⟩⟩
    · exact congrFun h' q
    · exact (congrFun h' q).trans (if_neg hq)
    · exact (congrFun h' q).trans (if_neg hq)
  · rcases crash_attributes (D := D) (op := op) h n with h' | h' | ⟨b, h'⟩
    · exact .inl h'
    · exact .inr (.inl h')
    · refine .inr (.inr ?_)
      show t.read ((t.steps D op).crash n σ) = _ ∧ _
      have := target_torn h (b := b)
      rw [← h'] at this
      exact this

/-! ### the dataset whose attributes are changed -/

theorem openDataset_congr {d : DatasetHandle} {σ σ' : Fs} (h : σ' d.path = σ d.path)
    (h' : ∀ n ∈ [".zarray", "zarr.json", "attributes.json"], σ' (d.path ++ [n]) = σ (d.path ++ [n])) :
    d.openDataset σ' = ((d.openDataset σ).1, σ') := by
  have hd : ∀ n ∈ [".zarray", "zarr.json", "attributes.json"], σ'.docAt (d.path ++ [n]) = σ.docAt (d.path ++ [n]) :=
    fun n hn => by simp only [Fs.docAt, h' n hn]
  have hm : readDatasetMetadata d.path σ' = ((readDatasetMetadata d.path σ).1, σ') := by
    rw [readDatasetMetadata_run, readDatasetMetadata_run]
    simp only [h' ".zarray" (by simp), h' "zarr.json" (by simp), h' "attributes.json" (by simp)]
    rw [hd]
    split
    · simp
    · split <;> simp
  simp only [DatasetHandle.openDataset, FsM.bind_run, FsM.exist_run, h]
  cases (σ d.path).isSome with
  | false => rfl
  | true =>
    simp only [Bool.not_true, Bool.false_eq_true, if_false, FsM.bind_run, hm]
    rcases readDatasetMetadata d.path σ with ⟨r, σ1⟩
    cases r <;> rfl

/-- **C75.**  In zarr v2 a crash while attributes of a dataset are changed does no harm to the dataset. -/
theorem c75_dataset_v2 {D : Disk} {d : DatasetHandle} {op : AttrOp} {σ : Fs} (h : (Target.dataset d).Refers σ .v2)
    (n : Nat) :
    let σ' := ((Target.dataset d).steps D op).crash n σ
    d.openDataset σ' = ((d.openDataset σ).1, σ') := by
  intro σ'
  have hq := (c75_attributes (D := D) (op := op) h n).1
  refine openDataset_congr (hq _ ?_) fun m hm => hq _ ?_
  · show d.path ≠ d.path ++ [_]
    simp
  · intro e
    have e : m = ".zattrs" := by simpa [Target.path, Layout.file] using e
    subst e
    simp at hm

/-- Documents that are missing or torn: the dataset cannot be opened. -/
theorem openDataset_broken {d : DatasetHandle} {σ : Fs}
    (h : ∀ n ∈ [".zarray", "zarr.json", "attributes.json"], σ.docAt (d.path ++ [n]) = none) : Throws d.openDataset σ := by
  have hm : ∃ e, readDatasetMetadata d.path σ = (.throw e, σ) := by
    rw [readDatasetMetadata_run]
    dsimp only
    rw [h (if (σ (d.path ++ ["zarr.json"])).isSome = true then "zarr.json"
      else if (σ (d.path ++ [".zarray"])).isSome = true then ".zarray" else "attributes.json") (by
      split
      · simp
      · split <;> simp)]
    split
    · exact ⟨_, rfl⟩
    · split <;> exact ⟨_, rfl⟩
  obtain ⟨e, hm⟩ := hm
  unfold DatasetHandle.openDataset
  refine .bind_right (FsM.exist_run _ _) ?_
  split
  · exact .lift _ _
  · exact .bind_left ⟨e, hm⟩

/-- **C75.**  In N5 and zarr v3, where the attributes are in the same document as the metadata, after such a crash the dataset
    is opened as before, or it cannot be opened. -/
theorem c75_dataset {D : Disk} {d : DatasetHandle} {op : AttrOp} {σ : Fs} {L : Layout} (h : (Target.dataset d).Refers σ L)
    (hop : op.Valid) (hw : d.mode.canWrite = true) (n : Nat) :
    let σ' := ((Target.dataset d).steps D op).crash n σ
    d.openDataset σ' = ((d.openDataset σ).1, σ') ∨ ∃ e, d.openDataset σ' = (.throw e, σ') := by
  intro σ'
  rcases crash_attributes (D := D) (op := op) h n with h' | h' | ⟨b, h'⟩
  · refine .inl ?_
    show d.openDataset (((Target.dataset d).steps D op).crash n σ) = (_, ((Target.dataset d).steps D op).crash n σ)
    rw [h']
    exact openDataset_congr rfl fun _ _ => rfl
  · refine .inl ?_
    show d.openDataset (((Target.dataset d).steps D op).crash n σ) = (_, ((Target.dataset d).steps D op).crash n σ)
    rw [h']
    exact (c29_metadata (ops := [op]) hw h fun o ho => by rw [List.mem_singleton.1 ho]; exact hop).2
  · by_cases hL : L = .v2
    · subst hL
      exact .inl (c75_dataset_v2 h n)
    · show (d.openDataset (((Target.dataset d).steps D op).crash n σ)
          = (_, ((Target.dataset d).steps D op).crash n σ)) ∨
        ∃ e, d.openDataset (((Target.dataset d).steps D op).crash n σ)
          = (.throw e, ((Target.dataset d).steps D op).crash n σ)
      rw [h']
      refine .inr ?_
      have hs : σ.set ((Target.dataset d).path ++ [L.file]) (some (.file b)) (d.path ++ [L.file]) = some (.file b) :=
        if_pos rfl
      generalize σ.set ((Target.dataset d).path ++ [L.file]) (some (.file b)) = σ1 at hs
      have hd : σ1.docAt (d.path ++ [L.file]) = none := by rw [Fs.docAt, hs]
      unfold DatasetHandle.openDataset
      refine Throws.bind_right (FsM.exist_run _ _) ?_
      split
      · exact .lift _ _
      · refine .bind_left ?_
        show ∃ e, _
        rw [readDatasetMetadata_run]
        cases L with
        | v2 => exact absurd rfl hL
        | v3 =>
          have hs : σ1 (d.path ++ ["zarr.json"]) = some (.file b) := hs
          have hd : σ1.docAt (d.path ++ ["zarr.json"]) = none := hd
          simp only [hs, Option.isSome_some, if_true, hd]
          split
          · exact ⟨_, rfl⟩
          · split <;> exact ⟨_, rfl⟩
        | n5 =>
          have hs : σ1 (d.path ++ ["attributes.json"]) = some (.file b) := hs
          have hd : σ1.docAt (d.path ++ ["attributes.json"]) = none := hd
          simp only [hs, Option.isSome_some]
          cases (σ1 (d.path ++ [".zarray"])).isSome <;> cases (σ1 (d.path ++ ["zarr.json"])).isSome <;>
            simp [hd]

/-! ### creating a node -/

theorem c75_create_dataset_complete (D : Disk) (root : GroupHandle) (key : Path) (a : CreateArgs) {σ : Fs}
    (h : σ [] = some .dir) : (Stepwise.createDataset D root key a).run σ = root.createDataset key a σ :=
  (Runs.createDataset D root key a σ h).1

theorem c75_create_group_complete (D : Disk) (root : GroupHandle) (key : Path) (format : Int) {σ : Fs}
    (h : σ [] = some .dir) : (Stepwise.createGroup D root key format).run σ = root.createGroup key format σ :=
  (Runs.createGroup D root key format σ h).1

theorem c75_create_file_complete (D : Disk) (g : GroupHandle) (isZarr : Bool) (format : Int) {σ : Fs}
    (h : σ [] = some .dir) : (Stepwise.createFile D g isZarr format).run σ = g.createFile isZarr format σ :=
  (Runs.createFile D g isZarr format σ h).1

/-- what is at a path after the directories of `p` were made, up to the one of length `k` -/
theorem made_new {σ : Fs} {p : Path} {k : Nat} (ho : ∀ n ≤ p.length, isOther (σ (p.take n)) = false) 
    (q : Path) : σ.made p k q = σ q ∨ (q <+: p.take k ∧ σ q = none ∧ σ.made p k q = some .dir) := by
  unfold Fs.made
  by_cases c : q <+: p.take k
  · rw [if_pos c]
    have e : q = p.take q.length := List.prefix_iff_eq_take.1 (c.trans (List.take_prefix _ _))
    have := ho q.length (c.trans (List.take_prefix _ _)).length_le
    rw [← e] at this
    cases hq : σ q with
    | none => exact .inr ⟨c, rfl, rfl⟩
    | some e =>
      rw [hq] at this
      cases e with
      | dir => exact .inl rfl
      | doc j => simp [isOther] at this
      | file b => simp [isOther] at this
  · rw [if_neg c]
    exact .inl rfl

theorem made_below {σ : Fs} {p : Path} {k : Nat} (hk : k ≤ p.length) (n : String) :
    σ.made p k (p ++ [n]) = σ (p ++ [n]) := by
  refine if_neg fun h => ?_
  have := h.length_le
  simp only [List.length_append, List.length_cons, List.length_nil, List.length_take] at this
  omega

/-- The directory of a node is made: the states of a crash -/
def Makes (t : FsProg Unit) (p : Path) (σ : Fs) : Prop :=
  (∀ σ', t.Passes σ σ' → σ' = σ ∨ (σ p = none ∧ (∀ n ≤ p.length, isOther (σ (p.take n)) = false) ∧
    ∃ k ≤ p.length, σ' = σ.made p k)) ∧
  ∀ a, (t.run σ).1 = .ok a → σ p = none ∧ (∀ n ≤ p.length, isOther (σ (p.take n)) = false) ∧
    (t.run σ).2 = σ.made p p.length

theorem makes_dir {c : Prop} [Decidable c] {p : Path} {σ : Fs} {e e' : Err} (h0 : σ [] = some .dir) :
    Makes (if c then FsProg.lift (.throw e) else FsProg.look (FsM.exist p) >>= fun x =>
      if x = true then FsProg.lift (.throw e') else Stepwise.createDirectories p) p σ := by
  by_cases hc : c
  · rw [if_pos hc]
    exact ⟨fun σ' h => .inl (FsProg.passes_ret h), fun a h => by simp [FsProg.run_lift] at h⟩
  rw [if_neg hc]
  constructor
  · intro σ' h
    rcases FsProg.passes_look_bind h with h | ⟨x, hx, h⟩
    · exact .inl h
    · rw [FsM.exist_run] at hx
      have hx : (σ p).isSome = x := by injection hx
      cases x with
      | true => exact .inl (FsProg.passes_ret h)
      | false =>
        rcases Stepwise.passes_createDirectories h0 h with h | ⟨ho, k, hk, h⟩
        · exact .inl h
        · exact .inr ⟨by simpa using hx, ho, k, hk, h⟩
  · intro a h
    rw [FsProg.run_bind, FsProg.run_look, FsM.exist_run] at h ⊢
    dsimp only at h ⊢
    cases hx : (σ p).isSome with
    | true =>
      rw [hx] at h
      simp [FsProg.run_lift] at h
    | false =>
      rw [hx] at h
      simp only [Bool.false_eq_true, if_false, Stepwise.run_createDirectories h0, FsM.createDirectories_made] at h ⊢
      by_cases ho : ((List.range (p.length + 1)).any fun n => isOther (σ (p.take n))) = true
      · rw [if_pos ho] at h
        simp at h
      · rw [if_neg ho]
        exact ⟨by simpa using hx, not_any_other ho, rfl⟩

/-- The metadata documents -/
def metaNames : List String := [".zgroup", ".zarray", "zarr.json", "attributes.json"]

/-- A directory is made, and then a document is written in it: the states of a crash -/
theorem passes_create {α : Type} {t : FsProg Unit} {g : Unit → FsProg α} {p : Path} {σ : Fs} (hwf : σ.WF)
    (ht : Makes t p σ) (hg : ∀ σ1, OneDoc (fun q => ∃ n ∈ metaNames, q = p ++ [n]) σ1 (g ())) {σ' : Fs}
    (h : (t >>= g).Passes σ σ') :
    σ.OnlyNew σ' p ∧ (σ' = σ ∨ σ' = ((t >>= g).run σ).2 ∨
      (σ p = none ∧ ∀ n ∈ metaNames, σ'.docAt (p ++ [n]) = none)) := by
  have hsame : σ.OnlyNew σ p := ⟨fun _ _ => rfl, fun q h h' => absurd h h'⟩
  have hbelow : σ p = none → ∀ n, σ (p ++ [n]) = none := fun h n => by
    cases hq : σ (p ++ [n]) with
    | none => rfl
    | some e =>
      have := hwf p [n] (by simp) (by rw [hq]; simp)
      rw [h] at this
      cases this
  have hmade : (∀ n ≤ p.length, isOther (σ (p.take n)) = false) → ∀ k ≤ p.length, σ.OnlyNew (σ.made p k) p := by
    intro ho k hk
    refine ⟨fun q hq => ?_, fun q hq hq' => .inl ?_⟩
    · rcases made_new ho q with h | ⟨_, h, _⟩
      · exact h
      · exact absurd h hq
    · rcases made_new ho q with h | ⟨h, _, h'⟩
      · rw [h] at hq'
        exact absurd hq hq'
      · exact ⟨h.trans (List.take_prefix _ _), h'⟩
  rcases FsProg.passes_bind h with h | ⟨a, ha⟩
  · rcases ht.1 σ' h with h | ⟨hp, ho, k, hk, h⟩
    · subst h
      exact ⟨hsame, .inl rfl⟩
    · subst h
      refine ⟨hmade ho k hk, .inr (.inr ⟨hp, fun n _ => ?_⟩)⟩
      rw [Fs.docAt, made_below hk, hbelow hp]
  · obtain ⟨σ1, hr, h⟩ := ha
    obtain ⟨hp, ho, e⟩ := ht.2 a (by rw [hr])
    rw [hr] at e
    dsimp only at e
    subst e
    have hrun : (t >>= g).run σ = (g ()).run (σ.made p p.length) := by
      rw [FsProg.run_bind, hr]
    have hm := hmade ho p.length (Nat.le_refl _)
    have hb := fun n => (made_below (σ := σ) (Nat.le_refl p.length) n).trans (hbelow hp n)
    generalize σ.made p p.length = σ1 at h hrun hm hb
    have hset : ∀ q e, (∃ n ∈ metaNames, q = p ++ [n]) → σ.OnlyNew (σ1.set q e) p := by
      rintro q e ⟨n, hn, rfl⟩
      refine ⟨fun q' hq' => ?_, fun q' hq' hq'' => ?_⟩
      · by_cases c : q' = p ++ [n]
        · subst c
          exact absurd (hbelow hp n) hq'
        · rw [Fs.set, if_neg c]
          exact hm.kept q' hq'
      · by_cases c : q' = p ++ [n]
        · exact .inr ⟨n, hn, c⟩
        · rw [Fs.set, if_neg c] at hq'' ⊢
          exact hm.new q' hq' hq''
    rcases hg σ1 σ' h with h | ⟨q, hq, _, _, ⟨b, h⟩ | ⟨⟨j, h⟩, h'⟩⟩
    · subst h
      refine ⟨hm, .inr (.inr ⟨hp, fun n _ => ?_⟩)⟩
      rw [Fs.docAt, hb]
    · subst h
      refine ⟨hset q _ hq, .inr (.inr ⟨hp, fun n _ => ?_⟩)⟩
      rw [Fs.docAt, Fs.set]
      by_cases c : p ++ [n] = q
      · rw [if_pos c]
      · rw [if_neg c, hb]
    · refine ⟨?_, .inr (.inl ?_)⟩
      · rw [h]
        exact hset q _ hq
      · rw [hrun]
        exact h'

theorem dataset_broken {root : GroupHandle} {key : Path} {σ : Fs}
    (h : ∀ n ∈ metaNames, σ.docAt (root.path ++ key ++ [n]) = none) : Throws (root.openDataset key) σ := by
  have hd : ∀ cfg : ChunkConfig, Throws (root.dataset key cfg.delimiter cfg.zarrFormat cfg.encoding).openDataset σ :=
    fun cfg => openDataset_broken fun n hn => h n (List.mem_cons_of_mem _ hn)
  unfold GroupHandle.openDataset
  rcases hz : root.isZarr σ with ⟨z, σ1⟩
  rw [group_isZarr] at hz
  injection hz with hz hs
  subst hs
  by_cases hp : (σ root.path).isSome = true
  · rw [if_pos hp] at hz
    refine .bind_right (a := (σ (root.path ++ [".zgroup"])).isSome || (σ (root.path ++ ["zarr.json"])).isSome)
      (by rw [group_isZarr, if_pos hp]) ?_
    cases ((σ (root.path ++ [".zgroup"])).isSome || (σ (root.path ++ ["zarr.json"])).isSome) with
    | false => exact hd _
    | true =>
      simp only [if_true]
      have hr := readChunkConfig_run (root.path ++ key) σ
      rw [h "zarr.json" (by simp [metaNames]), h ".zarray" (by simp [metaNames])] at hr
      dsimp only at hr
      by_cases c : (σ (root.path ++ key ++ ["zarr.json"])).isSome = true
      · rw [if_pos c] at hr
        exact .bind_left ⟨_, hr⟩
      rw [if_neg c] at hr
      by_cases c : (σ (root.path ++ key ++ [".zarray"])).isSome = true
      · rw [if_pos c] at hr
        exact .bind_left ⟨_, hr⟩
      rw [if_neg c] at hr
      exact .bind_right hr (hd _)
  · refine .bind_left ⟨.runtimeError, ?_⟩
    rw [group_isZarr, if_neg hp]

theorem group_broken {g : GroupHandle} {σ : Fs} (h : ∀ n ∈ metaNames, σ.docAt (g.path ++ [n]) = none) :
    Throws g.readMetadata σ := by
  have hp : ∀ n ∈ metaNames, Throws (FsM.parse (g.path ++ [n])) σ := fun n hn => ⟨.typeError, by rw [parse_run, h n hn]⟩
  unfold GroupHandle.readMetadata
  by_cases hs : (σ g.path).isSome = true
  · refine .bind_right (a := (σ (g.path ++ [".zgroup"])).isSome || (σ (g.path ++ ["zarr.json"])).isSome)
      (by rw [group_isZarr, if_pos hs]) ?_
    cases ((σ (g.path ++ [".zgroup"])).isSome || (σ (g.path ++ ["zarr.json"])).isSome) with
    | false => exact .bind_left (hp _ (by simp [metaNames]))
    | true =>
      simp only [if_true]
      refine .bind_right (a := if (σ (g.path ++ ["zarr.json"])).isSome then "zarr.json" else ".zgroup") ?_ (.bind_left (hp _ ?_))
      · rw [FsM.bind_run, FsM.exist_run]
        cases (σ (g.path ++ ["zarr.json"])).isSome <;> rfl
      · split <;> simp [metaNames]
  · refine .bind_left ⟨.runtimeError, ?_⟩
    rw [group_isZarr, if_neg hs]

theorem passes_run {α : Type} : ∀ (t : FsProg α) (σ : Fs), t.Passes σ (t.run σ).2
  | .ret _, _ => ⟨0, rfl⟩
  | .act f c, σ => by
    obtain ⟨n, h⟩ := passes_run (c σ) (f σ)
    exact ⟨n + 1, h⟩

theorem OneDoc.bind_lift {α β : Type} {P : Path → Prop} {σ : Fs} {t : FsProg α} (f : α → Res β) (h : OneDoc P σ t) :
    OneDoc P σ (t >>= fun a => FsProg.lift (f a)) := by
  have hr : ((t >>= fun a => FsProg.lift (f a)).run σ).2 = (t.run σ).2 := by
    rw [FsProg.run_bind]
    rcases t.run σ with ⟨r, σ1⟩
    cases r <;> rfl
  intro σ' h'
  rw [hr]
  refine h σ' ?_
  rcases FsProg.passes_bind h' with h' | ⟨a, σ1, e, h'⟩
  · exact h'
  · have := FsProg.passes_ret h'
    subst this
    have := passes_run t σ
    rw [e] at this
    exact this

theorem onlyNew_refl (σ : Fs) (p : Path) : σ.OnlyNew σ p := ⟨fun _ _ => rfl, fun _ h h' => absurd h h'⟩

/-- **C75.**  A crash while a dataset is created, at any point: nothing that was there is changed, what is new are directories on
    the way to the dataset and its metadata document; and the creation is complete, or has not begun, or the dataset cannot be
    opened. -/
theorem c75_create_dataset {D : Disk} {root : GroupHandle} {key : Path} {a : CreateArgs} {σ : Fs} (hwf : σ.WF)
    (h0 : σ [] = some .dir) (n : Nat) :
    let σ' := (Stepwise.createDataset D root key a).crash n σ
    σ.OnlyNew σ' (root.path ++ key) ∧
    (σ' = σ ∨ σ' = (root.createDataset key a σ).2 ∨
      (σ (root.path ++ key) = none ∧ ∃ e, root.openDataset key σ' = (.throw e, σ'))) := by
  intro σ'
  have hrun := c75_create_dataset_complete D root key a h0
  have h : (Stepwise.createDataset D root key a).Passes σ σ' := ⟨n, rfl⟩
  rw [← hrun]
  clear hrun
  generalize σ' = σ' at h
  rcases FsProg.passes_look_bind h with h1 | ⟨z, hz, h1⟩
  · subst h1
    exact ⟨onlyNew_refl _ _, .inl rfl⟩
  rcases FsProg.passes_lift_bind h1 with h2 | ⟨m, hm, h2⟩
  · subst h2
    exact ⟨onlyNew_refl _ _, .inl rfl⟩
  have hr : ((Stepwise.createDataset D root key a).run σ).2
      = ((Stepwise.createDatasetDir (root.dataset key a.delimiter a.zarrFormat a.encoding) >>= fun _ =>
        Stepwise.writeDatasetMetadata D (root.path ++ key) m >>= fun _ =>
          FsProg.lift (makeDataset (root.dataset key a.delimiter a.zarrFormat a.encoding) m)).run σ).2 := by
    unfold Stepwise.createDataset
    rw [FsProg.run_bind, FsProg.Reads.run, hz]
    dsimp only
    rw [FsProg.run_bind, FsProg.run_lift, hm]
    rfl
  have hg : ∀ σ1, OneDoc (fun q => ∃ n ∈ metaNames, q = root.path ++ key ++ [n]) σ1
      (Stepwise.writeDatasetMetadata D (root.path ++ key) m >>= fun _ =>
        FsProg.lift (makeDataset (root.dataset key a.delimiter a.zarrFormat a.encoding) m)) := fun σ1 =>
    OneDoc.bind_lift _ (OneDoc.writeDatasetMetadata ⟨_, by simp [metaNames], rfl⟩ ⟨_, by simp [metaNames], rfl⟩
      ⟨_, by simp [metaNames], rfl⟩)
  obtain ⟨ha, hb⟩ := passes_create hwf (makes_dir h0) hg h2
  refine ⟨ha, ?_⟩
  rcases hb with hb | hb | ⟨hb, hc⟩
  · exact .inl hb
  · exact .inr (.inl (hb.trans hr.symm))
  · exact .inr (.inr ⟨hb, dataset_broken hc⟩)

/-- **C75.**  The same for a group; `readMetadata` is what `open_file` of Python and the class `File` use to find the format. -/
theorem c75_create_group {D : Disk} {root : GroupHandle} {key : Path} {format : Int} {σ : Fs} (hwf : σ.WF)
    (h0 : σ [] = some .dir) (n : Nat) :
    let σ' := (Stepwise.createGroup D root key format).crash n σ
    σ.OnlyNew σ' (root.path ++ key) ∧
    (σ' = σ ∨ σ' = (root.createGroup key format σ).2 ∨
      (σ (root.path ++ key) = none ∧ ∃ e, (root.group key).readMetadata σ' = (.throw e, σ'))) := by
  intro σ'
  have hrun := c75_create_group_complete D root key format h0
  have h : (Stepwise.createGroup D root key format).Passes σ σ' := ⟨n, rfl⟩
  rw [← hrun]
  clear hrun
  generalize σ' = σ' at h
  rcases FsProg.passes_look_bind h with h1 | ⟨z, hz, h1⟩
  · subst h1
    exact ⟨onlyNew_refl _ _, .inl rfl⟩
  have hr : ((Stepwise.createGroup D root key format).run σ).2
      = ((Stepwise.createGroupDir (root.group key) >>= fun _ =>
        Stepwise.writeGroupMetadata D (root.path ++ key) z format).run σ).2 := by
    unfold Stepwise.createGroup
    rw [FsProg.run_bind, FsProg.Reads.run, hz]
    rfl
  have hg : ∀ σ1, OneDoc (fun q => ∃ n ∈ metaNames, q = root.path ++ key ++ [n]) σ1
      (Stepwise.writeGroupMetadata D (root.path ++ key) z format) := fun σ1 =>
    OneDoc.writeGroupMetadata ⟨_, by simp [metaNames], rfl⟩ ⟨_, by simp [metaNames], rfl⟩
  obtain ⟨ha, hb⟩ := passes_create hwf (makes_dir h0) hg h1
  refine ⟨ha, ?_⟩
  rcases hb with hb | hb | ⟨hb, hc⟩
  · exact .inl hb
  · exact .inr (.inl (hb.trans hr.symm))
  · exact .inr (.inr ⟨hb, group_broken hc⟩)

/-- **C75.**  The same for a file. -/
theorem c75_create_file {D : Disk} {g : GroupHandle} {isZarr : Bool} {format : Int} {σ : Fs} (hwf : σ.WF)
    (h0 : σ [] = some .dir) (n : Nat) :
    let σ' := (Stepwise.createFile D g isZarr format).crash n σ
    σ.OnlyNew σ' g.path ∧
    (σ' = σ ∨ σ' = (g.createFile isZarr format σ).2 ∨
      (σ g.path = none ∧ ∃ e, g.readMetadata σ' = (.throw e, σ'))) := by
  intro σ'
  have hrun := c75_create_file_complete D g isZarr format h0
  have h : (Stepwise.createFile D g isZarr format).Passes σ σ' := ⟨n, rfl⟩
  rw [← hrun]
  clear hrun
  generalize σ' = σ' at h
  have hg : ∀ σ1, OneDoc (fun q => ∃ n ∈ metaNames, q = g.path ++ [n]) σ1
      (Stepwise.writeFileMetadata D g.path isZarr format) := fun σ1 =>
    OneDoc.writeFileMetadata ⟨_, by simp [metaNames], rfl⟩ ⟨_, by simp [metaNames], rfl⟩ ⟨_, by simp [metaNames], rfl⟩
  obtain ⟨ha, hb⟩ := passes_create hwf (makes_dir h0) hg h
  refine ⟨ha, ?_⟩
  rcases hb with hb | hb | ⟨hb, hc⟩
  · exact .inl hb
  · exact .inr (.inl hb)
  · exact .inr (.inr ⟨hb, group_broken hc⟩)

/-! ### removing a node -/

theorem run_removeEach {α : Type} : ∀ (l : List Path) (c : FsProg α) (σ : Fs),
    (Stepwise.removeEach l c).run σ = c.run (fun q => if q ∈ l then none else σ q)
  | [], c, σ => by simp [Stepwise.removeEach]
  | p :: l, c, σ => by
    refine (run_removeEach l c _).trans ?_
    congr 1
    funext q
    by_cases h1 : q ∈ l
    · simp [h1]
    · by_cases h2 : q = p <;> simp [h1, h2, Fs.set]

theorem passes_removeEach {α : Type} {r : Res α} : ∀ {l : List Path} {σ σ' : Fs},
    (Stepwise.removeEach l (.ret r)).Passes σ σ' → ∃ k, σ' = fun q => if q ∈ l.take k then none else σ q
  | [], σ, σ', h => ⟨0, by rw [FsProg.passes_ret h]; simp⟩
  | p :: l, σ, σ', h => by
    rcases FsProg.passes_act h with h | h
    · exact ⟨0, by rw [h]; simp⟩
    · obtain ⟨k, h⟩ := passes_removeEach h
      refine ⟨k + 1, ?_⟩
      rw [h]
      funext q
      by_cases h1 : q ∈ l.take k
      · simp [h1]
      · by_cases h2 : q = p <;> simp [h1, h2, Fs.set]

/-- Some of the entries were removed, in the order in which `D` removes them -/
def Fs.partly (σ : Fs) (l : List Path) (k : Nat) : Fs := fun q => if q ∈ l.take k then none else σ q

theorem removeAll_run {D : Disk} {σ : Fs} {p : Path} (h : D.Removes σ p) :
    (Stepwise.removeAll D p).run σ = FsM.removeAll p σ := by
  refine (run_removeEach _ _ _).trans ?_
  show (Res.ok (), _) = (Res.ok (), _)
  congr 1
  funext q
  by_cases c : p <+: q
  · rw [if_pos c]
    split
    · rfl
    · rename_i hq
      cases e : (id σ) q with
      | none => rfl
      | some x => exact absurd ((h.all q).2 ⟨c, by rw [show σ q = some x from e]; simp⟩) hq
  · rw [if_neg c, if_neg fun hq => c ((h.all q).1 hq).1]
    rfl

theorem passes_removeAll {D : Disk} {σ σ' : Fs} {p : Path} (h : (Stepwise.removeAll D p).Passes σ σ') :
    ∃ k, σ' = Fs.partly σ (D.order σ p) k := by
  rcases FsProg.passes_act h with h | h
  · exact ⟨0, by rw [h]; funext q; simp [Fs.partly]⟩
  · exact passes_removeEach h

theorem c75_remove_dataset_complete {D : Disk} {d : DatasetHandle} {σ : Fs} (h : D.Removes σ d.path) :
    (Stepwise.removeDataset D d).run σ = d.remove σ := by
  unfold Stepwise.removeDataset DatasetHandle.remove
  split
  · rfl
  · rw [FsProg.run_bind, FsProg.run_look, FsM.bind_run, FsM.exist_run]
    dsimp only
    cases (σ d.path).isSome with
    | false => rfl
    | true => exact removeAll_run h

theorem c75_remove_group_complete {D : Disk} {g : GroupHandle} {σ : Fs} (h : D.Removes σ g.path) :
    (Stepwise.removeGroup D g).run σ = g.remove σ := by
  unfold Stepwise.removeGroup GroupHandle.remove
  split
  · rfl
  · rw [FsProg.run_bind, FsProg.run_look, FsM.bind_run, FsM.exist_run]
    dsimp only
    cases (σ g.path).isSome with
    | false => rfl
    | true => exact removeAll_run h

theorem partly_removed {D : Disk} {σ : Fs} {p : Path} (h : D.Removes σ p) (hwf : σ.WF) (k : Nat) :
    let σ' := Fs.partly σ (D.order σ p) k
    (∀ q, ¬ p <+: q → σ' q = σ q) ∧ (∀ q, σ' q = σ q ∨ σ' q = none) ∧ σ'.WF := by
  refine ⟨fun q hq => if_neg fun hm => hq ((h.all q).1 (List.mem_of_mem_take hm)).1, fun q => ?_, ?_⟩
  · unfold Fs.partly
    split
    · exact .inr rfl
    · exact .inl rfl
  · intro p' q hq hp
    have hn : p' ++ q ∉ (D.order σ p).take k := fun hm => hp (if_pos hm)
    have hs : σ (p' ++ q) ≠ none := by
      intro e
      exact hp ((if_neg hn).trans e)
    refine (if_neg fun hm => ?_).trans (hwf p' q hq hs)
    have hall := (h.all (p' ++ q)).2 ⟨((h.all p').1 (List.mem_of_mem_take hm)).1.trans (List.prefix_append _ _), hs⟩
    have hpw := h.inner
    rw [← List.take_append_drop k (D.order σ p)] at hall hpw
    rcases List.mem_append.1 hall with hall | hall
    · exact hn hall
    · exact (List.pairwise_append.1 hpw).2.2 p' hm _ hall (List.prefix_append _ _)

theorem partly_again {D : Disk} {σ : Fs} {p : Path} (h : D.Removes σ p) (k : Nat) :
    (FsM.removeAll p (Fs.partly σ (D.order σ p) k)).2 = (FsM.removeAll p σ).2 := by
  funext q
  show (if _ then _ else _) = if _ then _ else _
  by_cases c : p <+: q
  · rw [if_pos c, if_pos c]
  · rw [if_neg c, if_neg c]
    exact if_neg fun hm => c ((h.all q).1 (List.mem_of_mem_take hm)).1

/-- `remove` of handles, and its steps -/
def removing (c : Bool) (p : Path) : FsM Unit := do
  if !c then FsM.lift (.throw .invalidArgument)
  else if !(← FsM.exist p) then FsM.lift (.throw .invalidArgument)
  else FsM.removeAll p

def removingSteps (D : Disk) (c : Bool) (p : Path) : FsProg Unit := do
  if !c then FsProg.lift (.throw .invalidArgument)
  else if !(← FsProg.look (FsM.exist p)) then FsProg.lift (.throw .invalidArgument)
  else Stepwise.removeAll D p

theorem passes_removing {D : Disk} {c : Bool} {p : Path} {σ σ' : Fs} (h : D.Removes σ p) (hwf : σ.WF)
    (hp : (removingSteps D c p).Passes σ σ') :
    (∀ q, ¬ p <+: q → σ' q = σ q) ∧ (∀ q, σ' q = σ q ∨ σ' q = none) ∧ σ'.WF ∧
    (removing c p σ').2 = (removing c p σ).2 := by
  unfold removingSteps at hp
  cases c with
  | false =>
    have := FsProg.passes_ret hp
    subst this
    exact ⟨fun _ _ => rfl, fun _ => .inl rfl, hwf, rfl⟩
  | true =>
    simp only [Bool.not_true, Bool.false_eq_true, if_false] at hp
    rcases FsProg.passes_look_bind hp with rfl | ⟨x, hx, hp⟩
    · exact ⟨fun _ _ => rfl, fun _ => .inl rfl, hwf, rfl⟩
    · rw [FsM.exist_run] at hx
      have hx : (σ p).isSome = x := by injection hx
      cases x with
      | false =>
        have := FsProg.passes_ret hp
        subst this
        exact ⟨fun _ _ => rfl, fun _ => .inl rfl, hwf, rfl⟩
      | true =>
        obtain ⟨k, rfl⟩ := passes_removeAll hp
        obtain ⟨h1, h2, h3⟩ := partly_removed h hwf k
        refine ⟨h1, h2, h3, ?_⟩
        have hr : ∀ σ : Fs, removing true p σ
            = if (σ p).isSome = true then FsM.removeAll p σ else (.throw .invalidArgument, σ) := by
          intro σ
          simp only [removing, Bool.not_true, Bool.false_eq_true, if_false, FsM.bind_run, FsM.exist_run]
          cases (σ p).isSome <;> rfl
        rw [hr, hr, if_pos hx]
        split
        · exact partly_again h k
        · rename_i hn
          rw [← partly_again h k]
          funext q
          show _ = if p <+: q then none else _
          by_cases c : p <+: q
          · rw [if_pos c]
            obtain ⟨r, rfl⟩ := c
            generalize Fs.partly σ (D.order σ p) k = σ1 at h3 hn
            by_cases hr : r = []
            · subst hr
              simpa using hn
            · cases e : σ1 (p ++ r) with
              | none => exact e
              | some x =>
                have := h3 p r hr (by rw [e]; simp)
                rw [this] at hn
                exact absurd rfl hn
          · rw [if_neg c]

/-- **C75.**  A crash while a dataset is removed, at any point: nothing outside the dataset is changed, everything in it is as
    before or gone, with its directory present as long as something is in it; and to remove it again completes the removal. -/
theorem c75_remove_dataset {D : Disk} {d : DatasetHandle} {σ : Fs} (h : D.Removes σ d.path) (hwf : σ.WF) (n : Nat) :
    let σ' := (Stepwise.removeDataset D d).crash n σ
    (∀ q, ¬ d.path <+: q → σ' q = σ q) ∧ (∀ q, σ' q = σ q ∨ σ' q = none) ∧ σ'.WF ∧
    (d.remove σ').2 = (d.remove σ).2 :=
  passes_removing (c := d.mode.canWrite) h hwf ⟨n, rfl⟩

/-- **C75.**  The same for a group or file. -/
theorem c75_remove_group {D : Disk} {g : GroupHandle} {σ : Fs} (h : D.Removes σ g.path) (hwf : σ.WF) (n : Nat) :
    let σ' := (Stepwise.removeGroup D g).crash n σ
    (∀ q, ¬ g.path <+: q → σ' q = σ q) ∧ (∀ q, σ' q = σ q ∨ σ' q = none) ∧ σ'.WF ∧
    (g.remove σ').2 = (g.remove σ).2 :=
  passes_removing (c := g.mode.canWrite) h hwf ⟨n, rfl⟩

/-! ### Examples -/

/-- A disk: a document is written at once after the file was truncated, and `.zarray` is removed first. -/
def exDisk : Disk where
  torn _ := []
  order _ p := [p ++ [".zarray"], p]

/-- A zarr container with an attribute -/
def exZattrs : Fs := exZarr.set [".zattrs"] (some (.doc (.obj [("a", .int 1)])))

theorem exZattrs_refers : (Target.file exRoot).Refers exZattrs .v2 where
  node := ⟨rfl, .inr ⟨_, rfl, ⟨_, rfl, by decide⟩⟩, (fun e => by cases e), fun _ => rfl⟩
  zarr := (group_isZarr _ _).trans rfl
  dataset := fun _ e => by cases e

/-- the content of a file is no document -/
def torn : Option Entry → Bool
  | some (.file _) => true
  | _ => false

theorem torn_of_crash {t : Target} {op : AttrOp} {σ : Fs} {L : Layout} {n : Nat} (h : t.Refers σ L)
    (hn : torn ((t.steps exDisk op).crash n σ (t.path ++ [L.file])) = true)
    (hc : torn ((t.change op σ).2 (t.path ++ [L.file])) = false) :
    let σ' := (t.steps exDisk op).crash n σ
    t.read σ' = (.throw .typeError, σ') ∧ ∀ op', ∃ e, t.change op' σ' = (.throw e, σ') := by
  rcases (c75_attributes (D := exDisk) (op := op) h n).2 with h' | h' | h'
  · rw [h'] at hn
    rcases h.node.doc with e | ⟨j, e, _⟩ <;> rw [e] at hn <;> cases hn
  · rw [h', hc] at hn
    cases hn
  · exact h'

theorem ok_of {α : Type} {r : Res α} (h : (match r with | .ok _ => true | _ => false) = true) : ∃ a, r = .ok a := by
  cases r with
  | ok a => exact ⟨a, rfl⟩
  | throw e => cases h
  | ub => cases h

/-- **C75, counterexample.**  A crash while an attribute is added to a group or file loses all its attributes, for good: the document
    is truncated before it is written.  They cannot be read, and no call of the library can replace them. -/
theorem c75_attributes_lost_counterexample : ∃ (D : Disk) (t : Target) (j : Json) (σ : Fs) (n : Nat),
    t.Refers σ .v2 ∧ t.mode.canWrite = true ∧ (t.read σ).1 = .ok (.obj [("a", .int 1)]) ∧
    let σ' := (t.steps D (.write j)).crash n σ
    t.read σ' = (.throw .typeError, σ') ∧ ∀ op, ∃ e, t.change op σ' = (.throw e, σ') :=
  ⟨exDisk, .file exRoot, .obj [("b", .int 2)], exZattrs, 10, exZattrs_refers, rfl, rfl,
    torn_of_crash exZattrs_refers (by decide +kernel) (by decide +kernel)⟩

/-- **C75, counterexample.**  In N5 the metadata of a dataset are in the document of its attributes: a crash while an attribute is
    set makes the dataset unreadable, with all its chunks in place. -/
theorem c75_dataset_lost_counterexample : ∃ (D : Disk) (d : DatasetHandle) (j : Json) (σ : Fs) (n : Nat),
    (Target.dataset d).Refers σ .n5 ∧ (∃ o, (d.openDataset σ).1 = .ok o) ∧
    let σ' := ((Target.dataset d).steps D (.write j)).crash n σ
    ((d.openDataset σ').1 = .throw .typeError ∧
      ∀ op, ∃ e, (Target.dataset d).change op σ' = (.throw e, σ')) := by
  refine ⟨exDisk, ⟨["d"], .a, ".", 2, "default", none⟩, .obj [("b", .int 2)], exN5, 10, exN5_dataset, ok_of (by decide +kernel), by decide +kernel,
    (torn_of_crash exN5_dataset (by decide +kernel) (by decide +kernel)).2⟩

/-- **C75, counterexample.**  After a crash in `create_dataset` of a zarr container the dataset cannot be opened, cannot be created
    again and cannot be deleted with `del`, although `in` says that it exists. -/
theorem c75_create_stuck_counterexample : ∃ (D : Disk) (n : Nat),
    let σ' := (Stepwise.createDataset D exRoot ["d"] exArgs).crash n exZarr
    (exRoot.openDataset ["d"] σ').1 = .throw .runtimeError ∧
    (exRoot.createDataset ["d"] exArgs σ').1 = .throw .invalidArgument ∧
    ((⟨exRoot, 2⟩ : PyGroup).contains ⟨false, ["d"]⟩ σ').1 = .ok true ∧
    ((⟨exRoot, 2⟩ : PyGroup).delItem ⟨false, ["d"]⟩ exLibs exTypes σ').1 = .throw .runtimeError :=
  ⟨exDisk, 7, by decide +kernel, by decide +kernel, by decide +kernel, by decide +kernel⟩

/-- **C75, counterexample.**  After a crash in `create_dataset` of an N5 container the name is taken for a group. -/
theorem c75_create_group_counterexample : ∃ (D : Disk) (n : Nat),
    let σ' := (Stepwise.createDataset D exRoot ["d"] exArgs).crash n exN5Root
    (exRoot.isSubGroup ["d"] σ').1 = .ok true ∧
    (exRoot.isSubGroup ["d"] (exRoot.createDataset ["d"] exArgs exN5Root).2).1 = .ok false :=
  ⟨exDisk, 7, by decide +kernel, by decide +kernel⟩

/-- **C75, counterexample.**  After a crash while a zarr container is created it is taken for an N5 container. -/
theorem c75_create_file_counterexample : ∃ (D : Disk) (g : GroupHandle) (n : Nat),
    let σ' := (Stepwise.createFile D g true 2).crash n exZarr
    (g.isZarr σ').1 = .ok false ∧ (g.isZarr (g.createFile true 2 exZarr).2).1 = .ok true :=
  ⟨exDisk, ⟨["c"], .a⟩, 4, by decide +kernel, by decide +kernel⟩

theorem exDisk_removes : exDisk.Removes (exRoot.createDataset ["d"] exArgs exZarr).2 ["d"] where
  all q := by
    obtain ⟨n, hn⟩ := passes_run (Stepwise.createDataset exDisk exRoot ["d"] exArgs) exZarr
    have ho := (c75_create_dataset (D := exDisk) (root := exRoot) (key := ["d"]) (a := exArgs) exZarr_wf rfl n).1
    have hz : ∀ x ∈ [".zgroup", "zarr.json", "attributes.json"],
        ((exRoot.createDataset ["d"] exArgs exZarr).2 ["d", x]).isNone = true := by decide +kernel
    have h1 : ((exRoot.createDataset ["d"] exArgs exZarr).2 ["d"]).isSome = true := by decide +kernel
    have h2 : ((exRoot.createDataset ["d"] exArgs exZarr).2 ["d", ".zarray"]).isSome = true := by decide +kernel
    rw [hn, c75_create_dataset_complete _ _ _ _ rfl] at ho
    generalize (exRoot.createDataset ["d"] exArgs exZarr).2 = σ at ho hz h1 h2
    show q ∈ [["d", ".zarray"], ["d"]] ↔ _
    simp only [List.mem_cons, List.not_mem_nil, or_false]
    constructor
    · rintro (rfl | rfl)
      · exact ⟨by decide, by intro e; rw [e] at h2; cases h2⟩
      · exact ⟨by decide, by intro e; rw [e] at h1; cases h1⟩
    · rintro ⟨hp, hq⟩
      have h0 : exZarr q = none := by
        obtain ⟨r, rfl⟩ := hp
        rfl
      rcases ho.new q h0 hq with ⟨hp', _⟩ | ⟨x, hx, rfl⟩
      · have hl := hp.length_le
        exact .inr (hp.eq_of_length_le hp'.length_le).symm
      · simp only [List.mem_cons, List.not_mem_nil, or_false] at hx
        have hq : σ ["d", x] ≠ none := hq
        rcases hx with rfl | rfl | rfl | rfl
        · exact absurd (by simpa using hz ".zgroup" (by simp)) hq
        · exact .inl rfl
        · exact absurd (by simpa using hz "zarr.json" (by simp)) hq
        · exact absurd (by simpa using hz "attributes.json" (by simp)) hq
  inner := by
    show [["d", ".zarray"], ["d"]].Pairwise _
    simp [List.pairwise_cons]

/-- **C75, counterexample.**  A crash while a zarr dataset is removed can leave a directory that `del` cannot remove: only the
    handle of the dataset can. -/
theorem c75_remove_counterexample : ∃ (D : Disk) (σ : Fs) (n : Nat),
    D.Removes σ ["d"] ∧ (∃ o, (exRoot.openDataset ["d"] σ).1 = .ok o) ∧
    let σ' := (Stepwise.removeDataset D (exRoot.dataset ["d"])).crash n σ
    ((⟨exRoot, 2⟩ : PyGroup).contains ⟨false, ["d"]⟩ σ').1 = .ok true ∧
    ((⟨exRoot, 2⟩ : PyGroup).delItem ⟨false, ["d"]⟩ exLibs exTypes σ').1 = .throw .runtimeError := by
  refine ⟨exDisk, (exRoot.createDataset ["d"] exArgs exZarr).2, 3, ?_, ?_, ?_, ?_⟩
  · exact exDisk_removes
  · exact ok_of (by decide +kernel)
  · decide +kernel
  · decide +kernel

/-- A crash while a dataset is created two levels below the root: whatever is there afterwards, the container is intact. -/
example (n : Nat) : (Stepwise.createDataset exDisk exRoot ["raw", "d"] exArgs).crash n exZarr [".zgroup"] = exZarr [".zgroup"] :=
  (c75_create_dataset (D := exDisk) exZarr_wf rfl n).1.kept _ (by intro e; cases e)

/-- A crash while attributes of an N5 group are changed: the metadata document of the container is not touched. -/
example (n : Nat) : ((Target.group ⟨["d"], .a⟩).steps exDisk (.remove "name")).crash n exN5 ["attributes.json"]
    = exN5 ["attributes.json"] :=
  (c75_attributes (D := exDisk) exN5_group n).1 _ (by decide)

/-- A crash while the dataset is removed, and a second attempt: it is gone, and nothing else. -/
example (n : Nat) : ((exRoot.dataset ["d"]).remove ((Stepwise.removeDataset exDisk (exRoot.dataset ["d"])).crash n
      (exRoot.createDataset ["d"] exArgs exZarr).2)).2
    = (exRoot.createDataset ["d"] exArgs exZarr).2.without ["d"] := by
  obtain ⟨o, ho⟩ : ∃ o, (exRoot.createDataset ["d"] exArgs exZarr).1 = .ok o := ok_of (by decide +kernel)
  have h1 : ((exRoot.createDataset ["d"] exArgs exZarr).2 ["d"]).isSome = true := by decide +kernel
  have hwf := (c45_created exZarr_wf (FsM.run_eq ho)).1
  have hr := DatasetHandle.remove_run (g := exRoot.dataset ["d"]) (σ := (exRoot.createDataset ["d"] exArgs exZarr).2) rfl
    (by intro e; rw [show (exRoot.createDataset ["d"] exArgs exZarr).2 ["d"] = none from e] at h1; cases h1)
  refine (c75_remove_dataset (D := exDisk) (d := exRoot.dataset ["d"]) exDisk_removes hwf n).2.2.2.trans ?_
  rw [hr]
  rfl

end Z5.Props
