import Verif.Props.Factory
import Verif.Spec.Files

/-!
# Operations that keep a relation between the file system before and after

For a relation that is reflexive and transitive it is enough to look at the single steps of an operation.
-/

namespace Z5

theorem Fs.WF.without {σ : Fs} (h : σ.WF) (p : Path) : (σ.without p).WF := by
  intro a q hq hn
  unfold Fs.without at hn ⊢
  by_cases hp : p <+: a ++ q
  · rw [if_pos hp] at hn
    exact absurd rfl hn
  · rw [if_neg hp] at hn
    rw [if_neg (fun e => hp (e.trans (List.prefix_append a q)))]
    exact h a q hq hn

/-- Before and after the operation the relation holds, however it ends. -/
def FsM.Keeps (I : Fs → Fs → Prop) {α : Type} (x : FsM α) : Prop := ∀ σ, I σ (x σ).2

/-- The relations in question -/
structure Steps (I : Fs → Fs → Prop) : Prop where
  refl : ∀ σ, I σ σ
  trans : ∀ {σ σ' σ''}, I σ σ' → I σ' σ'' → I σ σ''

namespace FsM.Keeps

variable {I : Fs → Fs → Prop} {α β : Type}

theorem bind (hI : Steps I) {x : FsM α} {f : α → FsM β} (hx : Keeps I x) (hf : ∀ a, Keeps I (f a)) :
    Keeps I (x >>= f) := by
  intro σ
  rw [FsM.bind_run]
  have := hx σ
  cases h : x σ with
  | mk r σ' =>
    rw [h] at this
    cases r with
    | ok a => exact hI.trans this (hf a σ')
    | throw e => exact this
    | ub => exact this

theorem pure (hI : Steps I) (a : α) : Keeps I (Pure.pure a : FsM α) := hI.refl
theorem lift (hI : Steps I) (r : Res α) : Keeps I (FsM.lift r) := hI.refl
theorem exist (hI : Steps I) (p : Path) : Keeps I (FsM.exist p) := hI.refl
theorem isDir (hI : Steps I) (p : Path) : Keeps I (FsM.isDir p) := hI.refl
theorem parse (hI : Steps I) (p : Path) : Keeps I (FsM.parse p) := by
  intro σ
  rw [parse_run]
  exact hI.refl σ

theorem ite {c : Prop} [Decidable c] {x y : FsM α} (hx : Keeps I x) (hy : Keeps I y) :
    Keeps I (if c then x else y) := by
  split
  · exact hx
  · exact hy

/-- Takes an operation apart into its steps. -/
syntax "keeps" term:max : tactic
macro_rules
  | `(tactic| keeps $hI) => `(tactic| repeat' (first
      | with_reducible exact pure $hI _ | with_reducible exact lift $hI _ | with_reducible exact exist $hI _
      | with_reducible exact isDir $hI _ | with_reducible exact parse $hI _
      | with_reducible assumption
      | with_reducible refine bind $hI ?_ fun _ => ?_
      | with_reducible apply ite
      | split))

theorem jsonRead (hI : Steps I) (p q : Path) : Keeps I (Z5.jsonRead p q) := by
  unfold Z5.jsonRead
  keeps hI

theorem group_isZarr (hI : Steps I) (g : GroupHandle) : Keeps I g.isZarr := by
  unfold GroupHandle.isZarr
  keeps hI

theorem dataset_isZarr (hI : Steps I) (d : DatasetHandle) : Keeps I d.isZarr := by
  unfold DatasetHandle.isZarr
  keeps hI

theorem isSubGroup (hI : Steps I) (g : GroupHandle) (key : Path) : Keeps I (g.isSubGroup key) := by
  have h1 := group_isZarr hI g
  have h2 := jsonRead hI g.path
  unfold GroupHandle.isSubGroup
  keeps hI <;> exact h2 _

theorem readAttributes (hI : Steps I) (p : Path) (z : Bool) (j : Json) :
    Keeps I (Generic.readAttributes p z j) := by
  have h2 := fun q => jsonRead hI p q
  unfold Generic.readAttributes Generic.readV3Attributes
  keeps hI <;> exact h2 _

theorem group_readAttributes (hI : Steps I) (g : GroupHandle) (j : Json) : Keeps I (g.readAttributes j) :=
  bind hI (group_isZarr hI g) fun _ => readAttributes hI _ _ _

theorem dataset_readAttributes (hI : Steps I) (d : DatasetHandle) (j : Json) :
    Keeps I (d.readAttributes j) := by
  have h1 := dataset_isZarr hI d
  have h2 := fun z => readAttributes hI d.path z j
  unfold DatasetHandle.readAttributes
  keeps hI
  exact h2 _

theorem readMetadata (hI : Steps I) (g : GroupHandle) : Keeps I g.readMetadata := by
  have h1 := group_isZarr hI g
  unfold GroupHandle.readMetadata
  keeps hI

theorem readDatasetMetadata (hI : Steps I) (p : Path) : Keeps I (Z5.readDatasetMetadata p) := by
  unfold Z5.readDatasetMetadata getMetadataPath
  keeps hI

theorem dataset_open (hI : Steps I) (d : DatasetHandle) : Keeps I d.openDataset := by
  have h1 := readDatasetMetadata hI d.path
  unfold DatasetHandle.openDataset
  keeps hI

theorem openDataset (hI : Steps I) (g : GroupHandle) (key : Path) : Keeps I (g.openDataset key) := by
  have h1 := group_isZarr hI g
  have h2 := fun c : ChunkConfig => dataset_open hI (g.dataset key c.delimiter c.zarrFormat c.encoding)
  have h3 : Keeps I (readChunkConfig (g.path ++ key)) := by
    unfold readChunkConfig
    keeps hI
  unfold GroupHandle.openDataset
  refine bind hI h1 fun z => ?_
  cases z
  · exact bind hI (pure hI _) h2
  · exact bind hI h3 h2

theorem checkVersion (hI : Steps I) (g : PyGroup) : Keeps I g.checkVersion := by
  have h1 := group_isZarr hI g.handle
  have h2 := readMetadata hI g.handle
  unfold PyGroup.checkVersion
  keeps hI

theorem getItem (hI : Steps I) (g : PyGroup) (n : PyName) : Keeps I (g.getItem n) := by
  have h1 := isSubGroup hI g.handle n.parts
  have h2 := openDataset hI g.handle n.parts
  unfold PyGroup.getItem PyGroup.contains GroupHandle.has
  keeps hI

end FsM.Keeps

end Z5
