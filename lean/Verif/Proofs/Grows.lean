import Verif.Proofs.Confined

/-!
# Operations that create something remove nothing
-/

namespace Z5

/-- Directories stay directories, and what is there stays there. -/
def Grows (σ σ' : Fs) : Prop := ∀ p, (σ p = some .dir → σ' p = some .dir) ∧ (σ p ≠ none → σ' p ≠ none)

theorem grows_steps : Steps Grows where
  refl _ _ := ⟨id, id⟩
  trans h h' p := ⟨fun e => (h' p).1 ((h p).1 e), fun e => (h' p).2 ((h p).2 e)⟩

namespace FsM.Keeps

theorem grows_writeDoc (p : Path) (j : Json) : Keeps Grows (FsM.writeDoc p j) := by
  intro σ
  unfold FsM.writeDoc
  split
  · rename_i hc
    rw [Bool.and_eq_true] at hc
    intro q
    dsimp only
    by_cases e : q = p
    · rw [if_pos e]
      refine ⟨fun h => ?_, fun _ h => by cases h⟩
      rw [e] at h
      rw [h] at hc
      cases hc.2
    · rw [if_neg e]
      exact ⟨id, id⟩
  · exact grows_steps.refl σ

theorem grows_createDirectories (p : Path) : Keeps Grows (FsM.createDirectories p) := by
  intro σ
  unfold FsM.createDirectories
  split
  · exact grows_steps.refl σ
  · intro q
    show (_ → (σ.mkdirs p) q = _) ∧ (_ → (σ.mkdirs p) q ≠ none)
    unfold Fs.mkdirs
    split
    · exact ⟨fun _ => rfl, fun _ h => by cases h⟩
    · exact ⟨id, id⟩

theorem grows_writeGroup (p : Path) (z : Bool) (f : Int) : Keeps Grows (writeGroupMetadata p z f) := by
  have hI := grows_steps
  have hr := fun n => jsonRead hI p n
  have hw := fun n j => grows_writeDoc (p ++ [n]) j
  unfold writeGroupMetadata writeV3GroupMetadata
  keeps hI <;> first | exact hw _ _ | exact hr _

theorem grows_createGroup (g : GroupHandle) (key : Path) (f : Int) : Keeps Grows (g.createGroup key f) := by
  have hI := grows_steps
  have h1 : Keeps Grows (g.group key).create := by
    have hc := grows_createDirectories (g.group key).path
    unfold GroupHandle.create
    keeps hI
  have h2 := fun z => grows_writeGroup (g.group key).path z f
  exact bind hI (group_isZarr hI g) fun z => bind hI h1 fun _ => h2 z

theorem grows_requireGroup (g : PyGroup) (key : Path) : Keeps Grows (g.requireGroup key) := by
  have hI := grows_steps
  have h1 := grows_createGroup g.handle key g.zarrFormat
  have h2 := isSubGroup hI g.handle key
  unfold PyGroup.requireGroup PyGroup.contains GroupHandle.has
  keeps hI

theorem grows_requireGroups : ∀ (ns : List String) (g : PyGroup), Keeps Grows (g.requireGroups ns)
  | [], _ => pure grows_steps _
  | n :: ns, g => by
    unfold PyGroup.requireGroups
    exact bind grows_steps (grows_requireGroup g _) fun g' => grows_requireGroups ns g'

end FsM.Keeps

end Z5
