import Verif.Proofs.Steps
import Verif.Proofs.FileStore

/-!
# Concurrent programs on different files (lemmas for C76)
-/

namespace Z5

/-- the same content at the paths of `R` -/
def Fs.Agree (R : Path → Prop) (σ σ' : Fs) : Prop := ∀ q, R q → σ q = σ' q

theorem Fs.Agree.refl (R : Path → Prop) (σ : Fs) : σ.Agree R σ := fun _ _ => rfl
theorem Fs.Agree.symm {R : Path → Prop} {σ σ' : Fs} (h : σ.Agree R σ') : σ'.Agree R σ := fun q hq => (h q hq).symm

namespace FsProg

variable {α β : Type}

/-- Started in states with `I` the program changes only the paths of `W`, keeps `I`, and depends only on those of `R`. -/
inductive Local (I : Fs → Prop) (R W : Path → Prop) : FsProg α → Prop
  | ret (r : Res α) : Local I R W (.ret r)
  | act {f : Fs → Fs} {c : Fs → FsProg α} (keeps : ∀ σ, I σ → I (f σ)) (only : ∀ σ, I σ → ∀ q, ¬ W q → f σ q = σ q)
      (same : ∀ σ σ', I σ → I σ' → σ.Agree R σ' → (f σ).Agree R (f σ'))
      (cont : ∀ σ σ', I σ → I σ' → σ.Agree R σ' → c σ = c σ') (rest : ∀ σ, I σ → Local I R W (c σ)) : Local I R W (.act f c)

variable {I : Fs → Prop} {R W : Path → Prop}

theorem Local.bind {t : FsProg α} {g : α → FsProg β} (h : Local I R W t) (hg : ∀ a, Local I R W (g a)) :
    Local I R W (t >>= g) := by
  rw [bind_def]
  induction h with
  | ret r => cases r with
    | ok a => exact hg a
    | throw e => exact .ret _
    | ub => exact .ret _
  | act h1 h2 h3 h4 _ ih => exact .act h1 h2 h3 (fun σ σ' hi hi' ha => by rw [h4 σ σ' hi hi' ha]) ih

/-- a look at the paths of `R` -/
theorem Local.look {m : FsM α} (h : ∀ σ σ', I σ → I σ' → σ.Agree R σ' → (m σ).1 = (m σ').1) : Local I R W (FsProg.look m) :=
  .act (fun _ h => h) (fun _ _ _ _ => rfl) (fun _ _ _ _ h => h) (fun σ σ' hi hi' ha => by rw [h σ σ' hi hi' ha])
    fun _ _ => .ret _

/-! ### Groups of tasks with footprints apart -/

/-- each task of a list, with the footprint of its group -/
def LocalAll {γ : Type} (I : Fs → Prop) (grp : Nat → γ) (R W : γ → Path → Prop) (ts : List (FsProg α)) : Prop :=
  ∀ (i : Nat) (t : FsProg α), ts[i]? = some t → Local I (R (grp i)) (W (grp i)) t

variable {γ : Type} {grp : Nat → γ} {R W : γ → Path → Prop}

theorem step_act {i : Nat} {ts : List (FsProg α)} {σ : Fs} {f : Fs → Fs} {c : Fs → FsProg α} (h : ts[i]? = some (.act f c)) :
    step i (ts, σ) = (ts.set i (c σ), f σ) := by
  simp only [step, h]

theorem step_other {i : Nat} {ts : List (FsProg α)} {σ : Fs} (h : ∀ f c, ts[i]? ≠ some (.act f c)) :
    step i (ts, σ) = (ts, σ) := by
  unfold step
  dsimp only
  split
  · rename_i f c e
    exact absurd e (h f c)
  · rfl

theorem act_or (o : Option (FsProg α)) : (∃ f c, o = some (.act f c)) ∨ ∀ f c, o ≠ some (.act f c) := by
  cases o with
  | none => exact .inr fun _ _ h => by cases h
  | some t => cases t with
    | ret r => exact .inr fun _ _ h => by cases h
    | act f c => exact .inl ⟨f, c, rfl⟩

theorem LocalAll.step {c : List (FsProg α) × Fs} (h : LocalAll I grp R W c.1) (hi : I c.2) (i : Nat) :
    LocalAll I grp R W (FsProg.step i c).1 ∧ I (FsProg.step i c).2 ∧
      ∀ q, ¬ W (grp i) q → (FsProg.step i c).2 q = c.2 q := by
  rcases c with ⟨ts, σ⟩
  dsimp only at h hi
  rcases act_or ts[i]? with ⟨f, k, e⟩ | hn
  · rw [step_act e]
    cases h i _ e with
    | act h1 h2 h3 h4 h5 =>
      refine ⟨fun j t ht => ?_, h1 σ hi, h2 σ hi⟩
      dsimp only at ht
      rw [List.getElem?_set] at ht
      split at ht
      · rename_i hij
        subst hij
        split at ht
        · cases ht
          exact h5 σ hi
        · cases ht
      · exact h j t ht
  · rw [step_other hn]
    exact ⟨h, hi, fun _ _ => rfl⟩

theorem LocalAll.interleave : ∀ (is : List Nat) {c : List (FsProg α) × Fs}, LocalAll I grp R W c.1 → I c.2 →
    LocalAll I grp R W (FsProg.interleave is c).1 ∧ I (FsProg.interleave is c).2 ∧
      ∀ q, (∀ i ∈ is, ¬ W (grp i) q) → (FsProg.interleave is c).2 q = c.2 q
  | [], c, h, hi => ⟨h, hi, fun _ _ => rfl⟩
  | i :: is, c, h, hi => by
    obtain ⟨h1, h2, h3⟩ := h.step hi i
    obtain ⟨h4, h5, h6⟩ := interleave is h1 h2
    exact ⟨h4, h5, fun q hq => (h6 q fun j hj => hq j (List.mem_cons_of_mem _ hj)).trans (h3 q (hq i List.mem_cons_self))⟩

/-- **The steps of other groups do not matter.**  What the tasks of the group `g` do, and the files they see, are those of the
    schedule in which only they make steps. -/
theorem interleave_apart [DecidableEq γ] (hap : ∀ g g', g ≠ g' → ∀ q, W g q → ¬ R g' q) (g : γ) :
    ∀ (is : List Nat) {ts ts' : List (FsProg α)} {σ σ' : Fs}, LocalAll I grp R W ts → LocalAll I grp R W ts' → I σ → I σ' →
      ts.length = ts'.length → (∀ i, grp i = g → ts[i]? = ts'[i]?) → σ.Agree (R g) σ' →
      let c := FsProg.interleave is (ts, σ)
      let d := FsProg.interleave (is.filter fun i => grp i = g) (ts', σ')
      (∀ i, grp i = g → c.1[i]? = d.1[i]?) ∧ c.2.Agree (R g) d.2
  | [], ts, ts', σ, σ', _, _, _, _, _, he, ha => ⟨he, ha⟩
  | i :: is, ts, ts', σ, σ', hl, hl', hi, hi', hlen, he, ha => by
    obtain ⟨h1, h2, h3⟩ := hl.step (c := (ts, σ)) hi i
    by_cases hg : grp i = g
    · rw [List.filter_cons_of_pos (by simpa using hg)]
      obtain ⟨h1', h2', _⟩ := hl'.step (c := (ts', σ')) hi' i
      have key : (∀ j, grp j = g → (FsProg.step i (ts, σ)).1[j]? = (FsProg.step i (ts', σ')).1[j]?) ∧
          (FsProg.step i (ts, σ)).2.Agree (R g) (FsProg.step i (ts', σ')).2 := by
        rcases act_or ts[i]? with ⟨f, k, e⟩ | hn
        · have e' : ts'[i]? = some (.act f k) := by rw [← he i hg, e]
          have hloc := hl i _ e
          rw [hg] at hloc
          rw [step_act e, step_act e']
          cases hloc with
          | act _ _ hs hc _ =>
            refine ⟨fun j hj => ?_, hs σ σ' hi hi' ha⟩
            dsimp only
            rw [hc σ σ' hi hi' ha, List.getElem?_set, List.getElem?_set, hlen, he j hj]
        · have hn' : ∀ f c, ts'[i]? ≠ some (.act f c) := by rw [← he i hg]; exact hn
          rw [step_other hn, step_other hn']
          exact ⟨he, ha⟩
      exact interleave_apart hap g is (ts := (FsProg.step i (ts, σ)).1) (σ := (FsProg.step i (ts, σ)).2)
        (ts' := (FsProg.step i (ts', σ')).1) (σ' := (FsProg.step i (ts', σ')).2) h1 h1' h2 h2'
        (by rw [length_step, length_step]; exact hlen) key.1 key.2
    · rw [List.filter_cons_of_neg (by simpa using hg)]
      refine interleave_apart hap g is (ts := (FsProg.step i (ts, σ)).1) (σ := (FsProg.step i (ts, σ)).2) h1 hl' h2 hi'
        (by rw [length_step]; exact hlen) (fun j hj => ?_) (fun q hq => ?_)
      · rw [← he j hj]
        rcases act_or ts[i]? with ⟨f, k, e⟩ | hn
        · rw [step_act e]
          exact List.getElem?_set_ne (by rintro rfl; exact hg hj)
        · rw [step_other hn]
      · rw [h3 q fun hw => hap _ _ hg q hw hq]
        exact ha q hq

/-- one task alone -/
theorem interleave_alone {i : Nat} : ∀ (n : Nat) {ts : List (FsProg α)} {t : FsProg α} (σ : Fs), ts[i]? = some t →
    (interleave (List.replicate n i) (ts, σ)).2 = t.crash n σ ∧
    ∀ r, (interleave (List.replicate n i) (ts, σ)).1[i]? = some (.ret r) → t.run σ = (r, t.crash n σ)
  | 0, ts, t, σ, h => by
    refine ⟨by cases t <;> rfl, fun r hr => ?_⟩
    have hr : ts[i]? = some (.ret r) := hr
    rw [h] at hr
    cases hr
    rfl
  | n + 1, ts, t, σ, h => by
    rw [List.replicate_succ]
    show (interleave (List.replicate n i) (step i (ts, σ))).2 = _ ∧
      ∀ r, (interleave (List.replicate n i) (step i (ts, σ))).1[i]? = _ → _
    cases t with
    | ret r =>
      have : step i (ts, σ) = (ts, σ) := step_other fun f c e => by rw [h] at e; cases e
      rw [this]
      obtain ⟨h1, h2⟩ := interleave_alone n σ h
      refine ⟨h1.trans ?_, fun r' hr' => (h2 r' hr').trans ?_⟩ <;> cases n <;> rfl
    | act f c =>
      rw [step_act h]
      have hi : i < ts.length := (List.getElem?_eq_some_iff.1 h).1
      obtain ⟨h1, h2⟩ := interleave_alone n (ts := ts.set i (c σ)) (t := c σ) (f σ) (List.getElem?_set_self hi)
      exact ⟨h1, h2⟩

/-- A program that goes on comes to its end. -/
theorem interleave_finishes {i : Nat} (t : FsProg α) : ∀ σ : Fs, ∃ n, ∀ m, n ≤ m → ∀ ts : List (FsProg α), ts[i]? = some t →
    (interleave (List.replicate m i) (ts, σ)).1[i]? = some (.ret (t.run σ).1) := by
  induction t with
  | ret r =>
    intro σ
    refine ⟨0, fun m _ ts h => ?_⟩
    have e : ∀ m, interleave (List.replicate m i) (ts, σ) = (ts, σ) := fun m => by
      induction m with
      | zero => rfl
      | succ m ih =>
        rw [List.replicate_succ]
        show interleave (List.replicate m i) (step i (ts, σ)) = _
        rw [step_other (fun f c e => by rw [h] at e; cases e), ih]
    rw [e]
    exact h
  | act f c ih =>
    intro σ
    obtain ⟨n, hn⟩ := ih σ (f σ)
    refine ⟨n + 1, fun m hm ts h => ?_⟩
    obtain ⟨m, rfl⟩ : ∃ m', m = m' + 1 := ⟨m - 1, by omega⟩
    rw [List.replicate_succ]
    show (interleave (List.replicate m i) (step i (ts, σ))).1[i]? = _
    rw [step_act h]
    have hi : i < ts.length := (List.getElem?_eq_some_iff.1 h).1
    exact hn m (by omega) _ (List.getElem?_set_self hi)

end FsProg

end Z5
