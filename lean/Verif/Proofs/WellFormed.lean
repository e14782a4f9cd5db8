import Verif.Proofs.Remove

/-!
# Programs on the file system keep it well-formed
-/

namespace Z5

theorem Fs.WF.set {σ : Fs} (h : σ.WF) {p : Path} (hp : p ≠ []) (hd : isDirectory (σ p.dropLast) = true)
    (hn : isDirectory (σ p) = false) (e : Option Entry) : (σ.set p e).WF := by
  have hne : p.dropLast ≠ p := by
    intro e
    have := congrArg List.length e
    rw [List.length_dropLast] at this
    have : 0 < p.length := List.length_pos_iff.2 hp
    omega
  have hdir : σ p.dropLast = some .dir := by
    cases e : σ p.dropLast with
    | none => rw [e] at hd; cases hd
    | some x => cases x <;> simp_all [isDirectory]
  intro a q hq ha
  by_cases e1 : a = p
  · subst e1
    rw [set_other] at ha
    · rw [h a q hq ha] at hn
      cases hn
    · intro e
      exact hq (List.append_right_eq_self.1 e)
  · rw [set_other _ _ e1]
    by_cases e2 : a ++ q = p
    · subst e2
      rw [List.dropLast_append_of_ne_nil hq] at hdir
      by_cases e3 : q.dropLast = []
      · rw [e3, List.append_nil] at hdir
        exact hdir
      · exact h a _ e3 (by rw [hdir]; exact fun e => by cases e)
    · rw [set_other _ _ e2] at ha
      exact h a q hq ha

variable {α : Type}

/-- every action of the program keeps the file system well-formed -/
def FsProg.KeepsWF : FsProg α → Prop
  | .ret _ => True
  | .act f c => (∀ σ, Fs.WF σ → Fs.WF (f σ)) ∧ ∀ σ, KeepsWF (c σ)

theorem FsProg.KeepsWF.run : ∀ {t : FsProg α}, t.KeepsWF → ∀ {σ : Fs}, σ.WF → (t.run σ).2.WF
  | .ret _, _, _, h => h
  | .act _ _, ht, _, h => (ht.2 _).run (ht.1 _ h)

theorem FsProg.KeepsWF.interleave : ∀ (is : List Nat) {c : List (FsProg α) × Fs}, (∀ t ∈ c.1, t.KeepsWF) → c.2.WF →
    (FsProg.interleave is c).2.WF
  | [], _, _, h => h
  | i :: is, c, ht, h => by
    have key : (∀ t ∈ (FsProg.step i c).1, t.KeepsWF) ∧ (FsProg.step i c).2.WF := by
      unfold FsProg.step
      split
      · rename_i f cont e
        have hm := ht _ (List.mem_of_getElem? e)
        refine ⟨fun t h' => ?_, hm.1 _ h⟩
        rcases List.mem_or_eq_of_mem_set h' with h' | rfl
        · exact ht _ h'
        · exact hm.2 _
      · exact ⟨ht, h⟩
    exact interleave is key.1 key.2

theorem mkdirs_keepsWF {c : FsProg α} (hc : c.KeepsWF) : ∀ ps : List Path, (mkdirs ps c).KeepsWF
  | [] => hc
  | p :: ps => by
    refine ⟨fun σ h => ?_, fun _ => mkdirs_keepsWF hc ps⟩
    show (σ.mkdir p).WF
    unfold Fs.mkdir
    split
    · rename_i e
      rw [Bool.and_eq_true] at e
      have hn : σ p = none := Option.isNone_iff_eq_none.1 e.1
      refine h.set ?_ e.2 (by rw [hn]; rfl) _
      rintro rfl
      rw [List.dropLast_nil, hn] at e
      cases e.2
    · exact h

theorem openForWriting_keepsWF {q : Path} (hq : q ≠ []) {f : Option Bytes → Option Bytes}
    {cont : Option Bytes → FsProg α} (hc : ∀ v, (cont v).KeepsWF) : (openForWriting q f cont).KeepsWF := by
  refine ⟨fun σ h => ?_, fun σ => ?_⟩
  · show Fs.WF (if _ then _ else _)
    split
    · rename_i e
      rw [Bool.and_eq_true] at e
      exact h.set hq e.1 (by simpa using e.2) _
    · exact h
  · show FsProg.KeepsWF (if _ then _ else _)
    split
    · exact hc _
    · trivial

theorem Prog.onFiles_keepsWF (p : Path) (nested : Bool) : ∀ t : Prog α, (t.onFiles p nested).KeepsWF
  | .ret _ => trivial
  | .act k f c => by
    have hq : chunkFile p k ≠ [] := by
      unfold chunkFile
      exact fun e => keyNames_ne_nil k [] (List.append_eq_nil_iff.1 e).2
    unfold Prog.onFiles
    simp only
    split
    · have hw := openForWriting_keepsWF hq (f := f) fun v => onFiles_keepsWF p nested (c v)
      split
      · refine ⟨fun _ h => h, fun σ => ?_⟩
        show FsProg.KeepsWF (if _ then _ else _)
        split
        · exact hw
        · exact mkdirs_keepsWF hw _
      · exact hw
    · rename_i hf
      refine ⟨fun σ h => ?_, fun σ => ?_⟩
      · show Fs.WF (if _ then _ else _)
        split
        · exact h
        · rename_i hx
          cases e : σ (chunkFile p k) with
          | none =>
            have : f none = none := by
              cases e : f none with
              | none => rfl
              | some _ => rw [e] at hf; exact absurd rfl hf
            have : σ.set (chunkFile p k) ((f (contentOf none)).map .file) = σ := by
              funext q
              unfold Fs.set
              split
              · rename_i e'
                rw [e', e]
                show (f none).map _ = _
                rw [this]
                rfl
              · rfl
            rw [this]
            exact h
          | some x =>
            have hx' : isForeign (σ (chunkFile p k)) = false := by simpa using hx
            refine h.set hq ?_ (by exact not_dir hx') _
            have hd := h (chunkFile p k).dropLast [(chunkFile p k).getLast hq] (by simp)
              (by rw [List.dropLast_concat_getLast hq, e]; exact fun e => by cases e)
            rw [hd]
            rfl
      · show FsProg.KeepsWF (if _ then _ else _)
        split
        · trivial
        · exact onFiles_keepsWF p nested _

theorem FsProg.runEach_wf : ∀ {ts : List (FsProg Unit)}, (∀ t ∈ ts, t.KeepsWF) → ∀ {σ : Fs}, σ.WF →
    (FsProg.runEach ts σ).2.WF
  | [], _, _, h => h
  | t :: ts, ht, σ, h => by
    unfold FsProg.runEach
    rw [FsM.bind_run]
    have h1 : (t.alone σ).2.WF := (ht t (List.mem_cons_self ..)).run h
    cases e : t.alone σ with
    | mk r σ' =>
      rw [e] at h1
      cases r with
      | ok _ => exact runEach_wf (fun t h => ht t (List.mem_cons_of_mem _ h)) h1
      | throw _ => exact h1
      | ub => exact h1

end Z5
