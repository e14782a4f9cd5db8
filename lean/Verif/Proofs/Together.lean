import Verif.Proofs.Opened
import Verif.Proofs.WellFormed

/-!
# Tasks with files of their own (for C88)

Tasks that share directories, but not files.  The directories are made by whichever task comes first; that the final state
does not depend on the schedule is not a matter of commuting actions.
-/

namespace Z5
open Prog

variable {α : Type}

/-- Does the program, run alone on this content, open its file for writing? -/
def Prog.opens : Prog α → Option Bytes → Bool
  | .ret _, _ => false
  | .act _ f c, v => (f none).isSome || (c v).opens (f v)

/-- A task on one file -/
structure FileJob (α : Type) where
  dir : Path
  nested : Bool
  key : Key
  prog : Prog α

namespace FileJob

def file (j : FileJob α) : Path := chunkFile j.dir j.key
def task (j : FileJob α) : FsProg α := j.prog.onFiles j.dir j.nested
def content (j : FileJob α) (σ : Fs) : Option Bytes := contentOf (σ j.file)

/-- the task needs the directory `r` -/
def Makes (j : FileJob α) (σ : Fs) (r : Path) : Prop := j.prog.opens (j.content σ) = true ∧ r <+: j.file ∧ r ≠ j.file

/-- the state lets the task work -/
structure Fits (j : FileJob α) (σ : Fs) : Prop where
  touches : TouchesOnly j.key j.prog
  flat : j.nested = false → j.key.count '/' = 0
  tidy : Tidy j.dir (· = j.key) σ

/-- neither file is the other, or in a directory of this name -/
def Apart (i j : FileJob α) : Prop := ¬ i.file <+: j.file ∧ ¬ j.file <+: i.file

theorem Apart.symm {i j : FileJob α} (h : i.Apart j) : j.Apart i := ⟨h.2, h.1⟩

theorem Apart.ne {i j : FileJob α} (h : i.Apart j) : j.file ≠ i.file := fun e => h.1 (e ▸ List.prefix_refl _)

end FileJob

/-- What the tasks do, whatever the schedule. -/
structure Done (js : List (FileJob α)) (σ σ' : Fs) : Prop where
  files : ∀ j ∈ js, σ' j.file = ((exec1 j.prog (j.content σ)).2).map .file
  dirs : ∀ r, (∀ j ∈ js, r ≠ j.file) → (∃ j ∈ js, j.Makes σ r) → σ' r = some .dir
  rest : ∀ r, (∀ j ∈ js, r ≠ j.file) → (¬ ∃ j ∈ js, j.Makes σ r) → σ' r = σ r

theorem Done.unique {js : List (FileJob α)} {σ σ₁ σ₂ : Fs} (h1 : Done js σ σ₁) (h2 : Done js σ σ₂) : σ₁ = σ₂ := by
  funext r
  by_cases hf : ∃ j ∈ js, r = j.file
  · obtain ⟨j, hj, rfl⟩ := hf
    rw [h1.files j hj, h2.files j hj]
  · have hf : ∀ j ∈ js, r ≠ j.file := fun j hj e => hf ⟨j, hj, e⟩
    by_cases hm : ∃ j ∈ js, j.Makes σ r
    · rw [h1.dirs r hf hm, h2.dirs r hf hm]
    · rw [h1.rest r hf hm, h2.rest r hf hm]

/-- a file that no task has stays as it is -/
theorem Done.other {js : List (FileJob α)} {σ σ' : Fs} (h : Done js σ σ') {i : FileJob α} (hi : ∀ j ∈ js, j.Apart i) :
    σ' i.file = σ i.file := by
  refine h.rest _ (fun j hj => (hi j hj).ne) ?_
  rintro ⟨j, hj, _, h2, _⟩
  exact (hi j hj).2 h2

theorem Done.append {js ks : List (FileJob α)} {σ σ₁ σ₂ : Fs} (hap : ∀ j ∈ js, ∀ k ∈ ks, j.Apart k) (h1 : Done js σ σ₁)
    (h2 : Done ks σ₁ σ₂) : Done (js ++ ks) σ σ₂ := by
  have hc : ∀ k ∈ ks, k.content σ₁ = k.content σ := fun k hk => congrArg contentOf (h1.other fun j hj => hap j hj k hk)
  have hm : ∀ k ∈ ks, ∀ r, k.Makes σ₁ r ↔ k.Makes σ r := by
    intro k hk r
    unfold FileJob.Makes
    rw [hc k hk]
  have key : ∀ j ∈ js, ¬ ∃ k ∈ ks, k.Makes σ₁ j.file := by
    rintro j hj ⟨k, hk, _, e, _⟩
    exact (hap j hj k hk).1 e
  refine ⟨fun j hj => ?_, fun r hf hmk => ?_, fun r hf hmk => ?_⟩
  · rcases List.mem_append.1 hj with hj | hj
    · rw [h2.rest _ (fun k hk => ((hap j hj k hk).symm).ne) (key j hj), h1.files j hj]
    · rw [h2.files j hj, hc j hj]
  · have f1 : ∀ j ∈ js, r ≠ j.file := fun j hj => hf j (List.mem_append_left _ hj)
    have f2 : ∀ j ∈ ks, r ≠ j.file := fun j hj => hf j (List.mem_append_right _ hj)
    by_cases e2 : ∃ k ∈ ks, k.Makes σ₁ r
    · exact h2.dirs r f2 e2
    · rw [h2.rest r f2 e2]
      refine h1.dirs r f1 ?_
      obtain ⟨j, hj, hj'⟩ := hmk
      rcases List.mem_append.1 hj with hj | hj
      · exact ⟨j, hj, hj'⟩
      · exact absurd ⟨j, hj, (hm j hj r).2 hj'⟩ e2
  · have f1 : ∀ j ∈ js, r ≠ j.file := fun j hj => hf j (List.mem_append_left _ hj)
    have f2 : ∀ j ∈ ks, r ≠ j.file := fun j hj => hf j (List.mem_append_right _ hj)
    rw [h2.rest r f2 ?_, h1.rest r f1 ?_]
    · rintro ⟨j, hj, hj'⟩
      exact hmk ⟨j, List.mem_append_left _ hj, hj'⟩
    · rintro ⟨j, hj, hj'⟩
      exact hmk ⟨j, List.mem_append_right _ hj, (hm j hj r).1 hj'⟩

/-! ### A task at work -/

/-- The task `t` is what is left of the job `j` that started in `σ₀`. -/
structure Phase (j : FileJob α) (σ₀ σ : Fs) (t : FsProg α) (s : Prog α) : Prop where
  sim : Sim j.dir j.nested σ t s
  touches : TouchesOnly j.key s
  tidy : Tidy j.dir (· = j.key) σ
  result : exec1 s (j.content σ) = exec1 j.prog (j.content σ₀)
  opens : s.opens (j.content σ) = true → j.prog.opens (j.content σ₀) = true
  opened : j.prog.opens (j.content σ₀) = true → σ j.file.dropLast = some .dir ∨ s.opens (j.content σ) = true

theorem keysFit_one {j : FileJob α} (h : j.nested = false → j.key.count '/' = 0) : KeysFit j.nested (· = j.key) :=
  ⟨fun _ _ e e' => by rw [e, e'], fun hn _ e => by rw [e]; exact h hn⟩

/-- what an action of another task leaves alone -/
theorem Phase.other {i j : FileJob α} {σ₀ σ σ' : Fs} {t : FsProg α} {s : Prog α} (h : Phase j σ₀ σ t s) (hap : i.Apart j)
    (hd : DirsKept σ σ') (ho : OnlyChunks i.dir (· = i.key) σ σ') : Phase j σ₀ σ' t s := by
  have hr : ∀ r, r <+: j.file → σ' r = σ r ∨ σ' r = some .dir := by
    intro r hr
    rcases ho r with ⟨k, rfl, e⟩ | e | ⟨_, e, _⟩
    · exact absurd (show i.file <+: j.file from (show r = i.file from e) ▸ hr) hap.1
    · exact .inl e
    · exact .inr e
  have hf : σ' j.file = σ j.file := by
    rcases ho j.file with ⟨k, rfl, e⟩ | e | ⟨_, _, k, rfl, _, e, _⟩
    · exact absurd e hap.ne
    · exact e
    · exact absurd e hap.2
  have hc : j.content σ' = j.content σ := congrArg contentOf hf
  refine ⟨h.sim.mono hd, h.touches, ⟨fun q hq => hd _ (h.tidy.above q hq), ?_, ?_⟩, by rw [hc]; exact h.result, by
    rw [hc]; exact h.opens, fun e => ?_⟩
  · rintro _ rfl
    show isForeign (σ' j.file) = false
    rw [hf]
    exact h.tidy.files _ rfl
  · rintro _ rfl q h1 h2 h3
    rcases hr q h2 with e | e
    · rw [e]; exact h.tidy.dirs _ rfl q h1 h2 h3
    · rw [e]; rfl
  · rw [hc]
    exact (h.opened e).imp_left (hd _)

theorem contentOf_chunks (j : FileJob α) (σ : Fs) : j.content σ = σ.chunks j.dir j.key := (chunks_eq σ j.dir j.key).symm

/-- an action of the task itself -/
theorem Phase.step {j : FileJob α} {σ₀ σ : Fs} {s : Prog α} {F : Fs → Fs} {C : Fs → FsProg α}
    (hflat : j.nested = false → j.key.count '/' = 0) (h : Phase j σ₀ σ (.act F C) s) :
    DirsKept σ (F σ) ∧ OnlyChunks j.dir (· = j.key) σ (F σ) ∧
    (∀ r, r ≠ j.file → F σ r ≠ σ r → j.prog.opens (j.content σ₀) = true) ∧ ∃ s', Phase j σ₀ (F σ) (C σ) s' := by
  obtain ⟨g1, g2, g3, g4⟩ := sim_act (keysFit_one hflat) h.tidy h.sim (within_of_touches (K := (· = j.key)) rfl h.touches) rfl
  refine ⟨g2, g3, ?_⟩
  rcases g4 with ⟨c1, c2, c3⟩ | ⟨k, f, c, rfl, c1, c2, c3, c4⟩
  · have hc : j.content (F σ) = j.content σ := by rw [contentOf_chunks, contentOf_chunks, c1]
    refine ⟨fun r _ hr => ?_, s, ⟨c2, h.touches, g1, by rw [hc]; exact h.result, by rw [hc]; exact h.opens, fun e => ?_⟩⟩
    · rcases c3 with e | ⟨k, f, c, rfl, e⟩
      · rw [e] at hr; exact absurd rfl hr
      · refine h.opens ?_
        unfold Prog.opens
        rw [e]
        rfl
    · rw [hc]
      exact (h.opened e).imp_left (g2 _)
  · have hk : k = j.key := h.touches.1
    subst hk
    have hc : j.content (F σ) = f (j.content σ) := by
      rw [contentOf_chunks, c1, upd_same, contentOf_chunks]
    have hv : σ.chunks j.dir j.key = j.content σ := (contentOf_chunks j σ).symm
    rw [hv] at c2
    refine ⟨fun r hr hne => ?_, c (j.content σ), ⟨c2, h.touches.2 _, g1, ?_, ?_, fun e => ?_⟩⟩
    · refine absurd ?_ hne
      rw [c4]
      exact set_other _ _ hr
    · rw [hc]
      exact h.result
    · rw [hc]
      intro e
      refine h.opens ?_
      unfold Prog.opens
      rw [e, Bool.or_true]
    · rw [hc]
      rcases h.opened e with e | e
      · exact .inl (g2 _ e)
      · unfold Prog.opens at e
        rcases Bool.or_eq_true_iff.1 e with e | e
        · exact .inl (g2 _ (c3 e))
        · exact .inr e

/-! ### All tasks -/

/-- the states of all tasks -/
structure During (js : List (FileJob α)) (σ₀ : Fs) (c : List (FsProg α) × Fs) : Prop where
  length : c.1.length = js.length
  each : ∀ (i : Nat) j t, js[i]? = some j → c.1[i]? = some t → ∃ s, Phase j σ₀ c.2 t s
  others : ∀ r, (∀ j ∈ js, r ≠ j.file) → c.2 r = σ₀ r ∨ (c.2 r = some .dir ∧ ∃ j ∈ js, j.Makes σ₀ r)

theorem During.step {js : List (FileJob α)} {σ₀ : Fs} {c : List (FsProg α) × Fs}
    (hflat : ∀ j ∈ js, j.nested = false → j.key.count '/' = 0) (hap : js.Pairwise FileJob.Apart) (h : During js σ₀ c) (i : Nat) :
    During js σ₀ (FsProg.step i c) := by
  have hap' : ∀ (a b : Nat) (x y : FileJob α), a ≠ b → js[a]? = some x → js[b]? = some y → x.Apart y := by
    intro a b x y hne ha hb
    obtain ⟨la, rfl⟩ := List.getElem?_eq_some_iff.1 ha
    obtain ⟨lb, rfl⟩ := List.getElem?_eq_some_iff.1 hb
    rcases Nat.lt_or_gt_of_ne hne with e | e
    · exact List.pairwise_iff_getElem.1 hap a b la lb e
    · exact (List.pairwise_iff_getElem.1 hap b a lb la e).symm
  obtain ⟨ts, σ⟩ := c
  cases hi : ts[i]? with
  | none =>
    have : FsProg.step i (ts, σ) = (ts, σ) := by simp [FsProg.step, hi]
    rw [this]
    exact h
  | some t =>
    cases t with
    | ret r =>
      have : FsProg.step i (ts, σ) = (ts, σ) := by simp [FsProg.step, hi]
      rw [this]
      exact h
    | act F C =>
      have hlt : i < ts.length := (List.getElem?_eq_some_iff.1 hi).1
      have hl := h.length
      simp only at hl
      obtain ⟨j, hj⟩ : ∃ j, js[i]? = some j := ⟨js[i]'(hl ▸ hlt), List.getElem?_eq_getElem _⟩
      have hstep : FsProg.step i (ts, σ) = (ts.set i (C σ), F σ) := by simp [FsProg.step, hi]
      rw [hstep]
      obtain ⟨s, hs⟩ := h.each i j _ hj hi
      obtain ⟨g1, g2, g3, s', g4⟩ := hs.step (hflat j (List.mem_of_getElem? hj))
      refine ⟨by simpa using hl, ?_, ?_⟩
      · intro a x t ha ht
        by_cases e : a = i
        · subst e
          rw [List.getElem?_set_self hlt] at ht
          cases ht
          rw [hj] at ha
          cases ha
          exact ⟨s', g4⟩
        · simp only at ht
          rw [List.getElem?_set_ne (fun c => e c.symm)] at ht
          obtain ⟨sa, hsa⟩ := h.each a x t ha ht
          exact ⟨sa, hsa.other (hap' i a j x (fun c => e c.symm) hj ha) g1 g2⟩
      · intro r hr
        have hrj := hr j (List.mem_of_getElem? hj)
        rcases g2 r with ⟨k, rfl, e⟩ | e | ⟨e1, e2, k, rfl, _, e3, _⟩
        · exact absurd e hrj
        · show F σ r = _ ∨ (F σ r = _ ∧ _)
          rw [e]
          exact h.others r hr
        · right
          refine ⟨e2, j, List.mem_of_getElem? hj, g3 r hrj ?_, e3, hrj⟩
          rw [e1, e2]
          exact fun e => by cases e

theorem During.interleave {js : List (FileJob α)} {σ₀ : Fs} (hflat : ∀ j ∈ js, j.nested = false → j.key.count '/' = 0)
    (hap : js.Pairwise FileJob.Apart) : ∀ (is : List Nat) {c : List (FsProg α) × Fs}, During js σ₀ c →
    During js σ₀ (FsProg.interleave is c)
  | [], _, h => h
  | i :: is, _, h => During.interleave hflat hap is (h.step hflat hap i)

/-- **Tasks with files of their own**: whatever the schedule, they have the outcomes that they have alone, and the final state is
    always the same. -/
theorem done_of_finished {js : List (FileJob α)} {σ : Fs} (hwf : σ.WF) (hfit : ∀ j ∈ js, j.Fits σ)
    (hap : js.Pairwise FileJob.Apart) {is : List Nat} {rs : List (Res α)}
    (hf : FsProg.Finished (FsProg.interleave is (js.map FileJob.task, σ)).1 rs) :
    rs = js.map (fun j => (exec1 j.prog (j.content σ)).1) ∧ Done js σ (FsProg.interleave is (js.map FileJob.task, σ)).2 := by
  have h0 : During js σ (js.map FileJob.task, σ) := by
    refine ⟨by simp, ?_, fun r _ => .inl rfl⟩
    intro i j t hj ht
    simp only [List.getElem?_map, hj, Option.map_some, Option.some.injEq] at ht
    subst ht
    have := hfit j (List.mem_of_getElem? hj)
    exact ⟨j.prog, .same _, this.touches, this.tidy, rfl, fun e => e, fun e => .inr e⟩
  have h := h0.interleave (fun j hj => (hfit j hj).flat) hap is
  have hw : (FsProg.interleave is (js.map FileJob.task, σ)).2.WF := by
    refine FsProg.KeepsWF.interleave is (fun t ht => ?_) hwf
    obtain ⟨u, _, rfl⟩ := List.mem_map.1 ht
    exact Prog.onFiles_keepsWF _ _ _
  generalize FsProg.interleave is (js.map FileJob.task, σ) = c at h hf hw
  obtain ⟨ts, σ'⟩ := c
  simp only at hf hw ⊢
  have hlen := h.length
  simp only at hlen
  have hrl : rs.length = js.length := by
    have := congrArg List.length hf
    simpa [hlen] using this.symm
  have fin : ∀ (i : Nat) j, js[i]? = some j → ∃ r, rs[i]? = some r ∧ Phase j σ σ' (.ret r) (.ret r) := by
    intro i j hj
    have hi : i < js.length := (List.getElem?_eq_some_iff.1 hj).1
    obtain ⟨t, ht⟩ : ∃ t, ts[i]? = some t := ⟨ts[i]'(hlen ▸ hi), List.getElem?_eq_getElem _⟩
    obtain ⟨r, hr⟩ : ∃ r, rs[i]? = some r := ⟨rs[i]'(hrl ▸ hi), List.getElem?_eq_getElem _⟩
    have e : (ts.map FsProg.outcome)[i]? = (rs.map some)[i]? := congrArg (·[i]?) hf
    rw [List.getElem?_map, List.getElem?_map, ht, hr] at e
    simp only [Option.map_some, Option.some.injEq] at e
    have et : t = .ret r := by
      cases t with
      | ret r' => cases e; rfl
      | act _ _ => cases e
    subst et
    obtain ⟨s, hs⟩ := h.each i j _ hj ht
    have := hs.sim.ret rfl
    subst this
    exact ⟨r, hr, hs⟩
  refine ⟨?_, ⟨fun j hj => ?_, fun r hr hm => ?_, fun r hr hm => ?_⟩⟩
  · refine List.ext_getElem? fun i => ?_
    rw [List.getElem?_map]
    cases hj : js[i]? with
    | none =>
      rw [Option.map_none, List.getElem?_eq_none_iff, hrl]
      exact List.getElem?_eq_none_iff.1 hj
    | some j =>
      obtain ⟨r, hr, hp⟩ := fin i j hj
      rw [hr, Option.map_some, ← hp.result]
      rfl
  · obtain ⟨i, hi⟩ := List.getElem?_of_mem hj
    obtain ⟨r, hr, hp⟩ := fin i j hi
    rw [← hp.result]
    show σ' j.file = (contentOf (σ' j.file)).map .file
    have := hp.tidy.files _ rfl
    change isForeign (σ' j.file) = false at this
    revert this
    cases σ' j.file with
    | none => intro _; rfl
    | some e => cases e <;> first | (intro _; rfl) | (intro h; cases h)
  · obtain ⟨j, hj, h1, h2, h3⟩ := hm
    obtain ⟨i, hi⟩ := List.getElem?_of_mem hj
    obtain ⟨r', hr', hp⟩ := fin i j hi
    have hd : σ' j.file.dropLast = some .dir := by
      rcases hp.opened h1 with e | e
      · exact e
      · cases e
    have hrd : r <+: j.file.dropLast := by
      obtain ⟨t, ht⟩ := h2
      rcases List.eq_nil_or_concat t with e | ⟨u, x, e⟩
      · rw [e, List.append_nil] at ht; exact absurd ht h3
      · rw [← ht, e, List.concat_eq_append, ← List.append_assoc, List.dropLast_concat]
        exact List.prefix_append _ _
    obtain ⟨u, hu⟩ := hrd
    by_cases e : u = []
    · rw [e, List.append_nil] at hu
      rw [hu]
      exact hd
    · refine hw r u e ?_
      rw [hu, hd]
      exact fun e => by cases e
  · rcases h.others r hr with e | ⟨_, e⟩
    · exact e
    · exact absurd e hm

end Z5
