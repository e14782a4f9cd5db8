import Verif.Spec.Steps
import Verif.Proofs.Keeps

/-! # Lemmas on programs in steps -/

namespace Z5

namespace FsProg

variable {α β : Type}

/-- the states of a program that runs alone -/
def Passes (t : FsProg α) (σ σ' : Fs) : Prop := ∃ n, t.crash n σ = σ'

theorem bind_def (t : FsProg α) (g : α → FsProg β) : (t >>= g) = t.bind g := rfl
theorem pure_def (a : α) : (pure a : FsProg α) = .ret (.ok a) := rfl

theorem run_bind (t : FsProg α) (g : α → FsProg β) (σ : Fs) :
    (t >>= g).run σ = match t.run σ with
      | (.ok a, σ') => (g a).run σ'
      | (.throw e, σ') => (.throw e, σ')
      | (.ub, σ') => (.ub, σ') := by
  rw [bind_def]
  induction t generalizing σ with
  | ret r => cases r <;> rfl
  | act f c ih => exact ih σ (f σ)

theorem passes_ret {r : Res α} {σ σ' : Fs} : Passes (.ret r) σ σ' → σ' = σ := by
  rintro ⟨n, rfl⟩
  cases n <;> rfl

theorem passes_act {f : Fs → Fs} {c : Fs → FsProg α} {σ σ' : Fs} :
    Passes (.act f c) σ σ' → σ' = σ ∨ Passes (c σ) (f σ) σ' := by
  rintro ⟨n, rfl⟩
  cases n with
  | zero => exact .inl rfl
  | succ n => exact .inr ⟨n, rfl⟩

theorem passes_bind {t : FsProg α} {g : α → FsProg β} {σ σ' : Fs} (h : Passes (t >>= g) σ σ') :
    Passes t σ σ' ∨ ∃ a σ₁, t.run σ = (.ok a, σ₁) ∧ Passes (g a) σ₁ σ' := by
  rw [bind_def] at h
  induction t generalizing σ with
  | ret r =>
    cases r with
    | ok a => exact .inr ⟨a, σ, rfl, h⟩
    | throw e => exact .inl (by rw [passes_ret h]; exact ⟨0, rfl⟩)
    | ub => exact .inl (by rw [passes_ret h]; exact ⟨0, rfl⟩)
  | act f c ih =>
    rcases passes_act h with rfl | h
    · exact .inl ⟨0, rfl⟩
    · rcases ih σ h with ⟨n, e⟩ | ⟨a, σ₁, h1, h2⟩
      · exact .inl ⟨n + 1, e⟩
      · exact .inr ⟨a, σ₁, h1, h2⟩

theorem passes_look {m : FsM α} {σ σ' : Fs} (h : Passes (look m) σ σ') : σ' = σ := by
  rcases passes_act h with h | h
  · exact h
  · exact passes_ret h

theorem run_look (m : FsM α) (σ : Fs) : (look m).run σ = ((m σ).1, σ) := rfl
theorem run_lift (r : Res α) (σ : Fs) : (lift r).run σ = (r, σ) := rfl

/-- The program does what the function does, and only looks. -/
class Reads (t : FsProg α) (m : outParam (FsM α)) : Prop where
  run : ∀ σ, t.run σ = ((m σ).1, σ)
  passes : ∀ {σ σ'}, Passes t σ σ' → σ' = σ

instance (m : FsM α) : Reads (look m) m := ⟨run_look m, passes_look⟩

/-- a look that comes first -/
theorem passes_look_bind {t : FsProg α} {m : FsM α} [ht : Reads t m] {g : α → FsProg β} {σ σ' : Fs}
    (h : Passes (t >>= g) σ σ') : σ' = σ ∨ ∃ a, (m σ).1 = .ok a ∧ Passes (g a) σ σ' := by
  rcases passes_bind h with h | ⟨a, σ₁, h1, h2⟩
  · exact .inl (ht.passes h)
  · rw [ht.run] at h1
    injection h1 with h1 h3
    subst h3
    exact .inr ⟨a, h1, h2⟩

theorem passes_lift_bind {r : Res α} {g : α → FsProg β} {σ σ' : Fs} (h : Passes (lift r >>= g) σ σ') :
    σ' = σ ∨ ∃ a, r = .ok a ∧ Passes (g a) σ σ' := by
  rcases passes_bind h with h | ⟨a, σ₁, h1, h2⟩
  · exact .inl (passes_ret h)
  · rw [run_lift] at h1
    injection h1 with h1 h3
    subst h3
    exact .inr ⟨a, h1, h2⟩

end FsProg

/-! ### without a crash -/

/-- The program does what the function does, and keeps `I`. -/
def Runs (I : Fs → Prop) {α : Type} (t : FsProg α) (m : FsM α) : Prop := ∀ σ, I σ → t.run σ = m σ ∧ I (t.run σ).2

namespace Runs

variable {I : Fs → Prop} {α β : Type}

theorem bind {t : FsProg α} {m : FsM α} {g : α → FsProg β} {f : α → FsM β} (h : Runs I t m) (h' : ∀ a, Runs I (g a) (f a)) :
    Runs I (t >>= g) (m >>= f) := by
  intro σ hσ
  obtain ⟨h1, h2⟩ := h σ hσ
  rw [FsProg.run_bind]
  show _ = (match m σ with
    | (.ok a, σ) => f a σ
    | (.throw e, σ) => (.throw e, σ)
    | (.ub, σ) => (.ub, σ)) ∧ _
  rw [← h1]
  rcases e : t.run σ with ⟨r, σ'⟩
  rw [e] at h2
  cases r with
  | ok a => exact h' a σ' h2
  | throw e => exact ⟨rfl, h2⟩
  | ub => exact ⟨rfl, h2⟩

theorem lift (r : Res α) : Runs I (FsProg.lift r) (FsM.lift r) := fun _ h => ⟨rfl, h⟩

theorem pure (a : α) : Runs I (Pure.pure a) (Pure.pure a) := fun _ h => ⟨rfl, h⟩

theorem look {m : FsM α} (h : FsM.Keeps (fun σ σ' => σ' = σ) m) : Runs I (FsProg.look m) m :=
  fun σ hσ => ⟨by rw [FsProg.run_look]; exact Prod.ext rfl (h σ).symm, hσ⟩

theorem ite {c : Prop} [Decidable c] {t t' : FsProg α} {m m' : FsM α} (h : Runs I t m) (h' : Runs I t' m') :
    Runs I (if c then t else t') (if c then m else m') := by
  split
  · exact h
  · exact h'

theorem sameSteps : Steps (fun σ σ' : Fs => σ' = σ) := ⟨fun _ => rfl, fun h h' => h'.trans h⟩

theorem exist (p : Path) : Runs I (FsProg.look (FsM.exist p)) (FsM.exist p) := look (FsM.Keeps.exist sameSteps p)
theorem parse (p : Path) : Runs I (FsProg.look (FsM.parse p)) (FsM.parse p) := look (FsM.Keeps.parse sameSteps p)

theorem jsonRead (p q : Path) : Runs I (Stepwise.jsonRead p q) (Z5.jsonRead p q) := by
  unfold Stepwise.jsonRead Z5.jsonRead
  exact bind (exist _) fun _ => ite (pure _) (bind (parse _) fun _ => pure _)

theorem group_isZarr (g : GroupHandle) : Runs I (Stepwise.groupIsZarr g) g.isZarr := by
  unfold Stepwise.groupIsZarr GroupHandle.isZarr
  exact bind (exist _) fun _ => ite (lift _) (bind (exist _) fun _ => bind (exist _) fun _ => pure _)

theorem dataset_isZarr (d : DatasetHandle) : Runs I (Stepwise.datasetIsZarr d) d.isZarr := by
  unfold Stepwise.datasetIsZarr DatasetHandle.isZarr
  cases d.cache with
  | some b => exact pure _
  | none => exact bind (exist _) fun _ => ite (lift _) (bind (exist _) fun _ => bind (exist _) fun _ => pure _)

end Runs

/-! ### programs that only look -/

/-- A program with this property changes nothing. -/
def Quiet {α : Type} (t : FsProg α) : Prop := ∀ σ σ', t.Passes σ σ' → σ' = σ

namespace Quiet

variable {α β : Type}

theorem lift (r : Res α) : Quiet (FsProg.lift r) := fun _ _ h => FsProg.passes_ret h
theorem pure (a : α) : Quiet (Pure.pure a : FsProg α) := fun _ _ h => FsProg.passes_ret h
theorem look (m : FsM α) : Quiet (FsProg.look m) := fun _ _ h => FsProg.passes_look h

theorem run : ∀ (t : FsProg α) (σ : Fs), t.Passes σ (t.run σ).2
  | .ret _, _ => ⟨0, rfl⟩
  | .act f c, σ => by
    obtain ⟨n, h⟩ := run (c σ) (f σ)
    exact ⟨n + 1, h⟩

theorem bind {t : FsProg α} {g : α → FsProg β} (h : Quiet t) (h' : ∀ a, Quiet (g a)) : Quiet (t >>= g) := by
  intro σ σ' hp
  rcases FsProg.passes_bind hp with hp | ⟨a, σ₁, e, hp'⟩
  · exact h σ σ' hp
  · have e1 := h σ _ (run t σ)
    rw [e] at e1
    dsimp only at e1
    subst e1
    exact h' a _ σ' hp'

theorem ite {c : Prop} [Decidable c] {t t' : FsProg α} (h : Quiet t) (h' : Quiet t') : Quiet (if c then t else t') := by
  split
  · exact h
  · exact h'

theorem jsonRead (p q : Path) : Quiet (Stepwise.jsonRead p q) := by
  unfold Stepwise.jsonRead
  exact bind (look _) fun _ => ite (pure _) (bind (look _) fun _ => pure _)

theorem group_isZarr (g : GroupHandle) : Quiet (Stepwise.groupIsZarr g) := by
  unfold Stepwise.groupIsZarr
  exact bind (look _) fun _ => ite (lift _) (bind (look _) fun _ => bind (look _) fun _ => pure _)

theorem dataset_isZarr (d : DatasetHandle) : Quiet (Stepwise.datasetIsZarr d) := by
  unfold Stepwise.datasetIsZarr
  cases d.cache with
  | some b => exact pure _
  | none => exact bind (look _) fun _ => ite (lift _) (bind (look _) fun _ => bind (look _) fun _ => pure _)

theorem reads {t : FsProg α} {m : FsM α} (h : Quiet t) (h' : Runs (fun _ => True) t m) : t.Reads m where
  run σ := by
    have e := h σ _ (run t σ)
    rw [(h' σ trivial).1] at e ⊢
    exact Prod.ext rfl e
  passes := h _ _

end Quiet

instance (p q : Path) : (Stepwise.jsonRead p q).Reads (jsonRead p q) := (Quiet.jsonRead p q).reads (Runs.jsonRead p q)
instance (g : GroupHandle) : (Stepwise.groupIsZarr g).Reads g.isZarr := (Quiet.group_isZarr g).reads (Runs.group_isZarr g)
instance (d : DatasetHandle) : (Stepwise.datasetIsZarr d).Reads d.isZarr :=
  (Quiet.dataset_isZarr d).reads (Runs.dataset_isZarr d)


theorem Fs.set_set (σ : Fs) (p : Path) (e e' : Option Entry) : (σ.set p e).set p e' = σ.set p e' := by
  funext q
  unfold Fs.set
  split <;> rfl

theorem Stepwise.run_contents {p : Path} {j : Json} (l : List Entry) (σ : Fs) :
    (Stepwise.contents p (l ++ [.doc j]) (.ret (.ok ()))).run σ = (.ok (), σ.set p (some (.doc j))) := by
  induction l generalizing σ with
  | nil => rfl
  | cons e l ih =>
    exact (ih (σ.set p (some e))).trans (by rw [Fs.set_set])

theorem FsM.writeDoc_set (p : Path) (j : Json) (σ : Fs) : FsM.writeDoc p j σ =
    if isDirectory (σ p.dropLast) && !isDirectory (σ p) then (.ok (), σ.set p (some (.doc j))) else (.ok (), σ) := rfl

theorem Stepwise.run_writeDoc (D : Disk) (p : Path) (j : Json) (σ : Fs) :
    (Stepwise.writeDoc D p j).run σ = FsM.writeDoc p j σ := by
  rw [FsM.writeDoc_set]
  show FsProg.run (if _ then _ else _) (if _ then _ else _) = _
  by_cases c : (isDirectory (σ p.dropLast) && !isDirectory (σ p)) = true
  · rw [if_pos c, if_pos c, if_pos c, Stepwise.run_contents, Fs.set_set]
  · rw [if_neg c, if_neg c, if_neg c]
    rfl

/-- What a crash leaves of a document that is written -/
theorem Stepwise.passes_contents {p : Path} {l : List Entry} {σ σ' : Fs}
    (h : (Stepwise.contents p l (.ret (.ok ()))).Passes σ σ') : σ' = σ ∨ ∃ e ∈ l, σ' = σ.set p (some e) := by
  induction l generalizing σ with
  | nil => exact .inl (FsProg.passes_ret h)
  | cons e l ih =>
    rcases FsProg.passes_act h with h | h
    · exact .inl h
    · rcases ih h with h | ⟨e', he, h⟩
      · exact .inr ⟨e, .head _, h⟩
      · exact .inr ⟨e', .tail _ he, by rw [h, Fs.set_set]⟩

theorem Stepwise.passes_writeDoc {D : Disk} {p : Path} {j : Json} {σ σ' : Fs}
    (h : (Stepwise.writeDoc D p j).Passes σ σ') :
    σ' = σ ∨ (isDirectory (σ p.dropLast) = true ∧ isDirectory (σ p) = false ∧ ∃ b, σ' = σ.set p (some (.file b))) ∨
      σ' = (FsM.writeDoc p j σ).2 := by
  rcases FsProg.passes_act h with h | h
  · exact .inl h
  · rw [FsM.writeDoc_set]
    by_cases c : (isDirectory (σ p.dropLast) && !isDirectory (σ p)) = true
    · simp only [if_pos c] at h ⊢
      simp only [Bool.and_eq_true, Bool.not_eq_true'] at c
      rcases Stepwise.passes_contents h with h | ⟨e, he, h⟩
      · exact .inr (.inl ⟨c.1, c.2, [], h⟩)
      · rw [Fs.set_set] at h
        rcases List.mem_append.1 he with he | he
        · obtain ⟨b, _, rfl⟩ := List.mem_map.1 he
          exact .inr (.inl ⟨c.1, c.2, b, h⟩)
        · rw [List.mem_singleton.1 he] at h
          exact .inr (.inr h)
    · simp only [if_neg c] at h
      exact .inl (FsProg.passes_ret h)

namespace Runs

variable {I : Fs → Prop}

theorem writeDoc (hI : ∀ σ p j, I σ → I (FsM.writeDoc p j σ).2) (D : Disk) (p : Path) (j : Json) :
    Runs I (Stepwise.writeDoc D p j) (FsM.writeDoc p j) :=
  fun σ h => by
    rw [Stepwise.run_writeDoc]
    exact ⟨rfl, hI σ p j h⟩

/-- Takes a program and a function apart into their steps. -/
syntax "runs" term:max : tactic
macro_rules
  | `(tactic| runs $hI) => `(tactic| repeat' (first
      | with_reducible exact pure _ | with_reducible exact lift _ | with_reducible exact exist _
      | with_reducible exact jsonRead _ _ | with_reducible exact group_isZarr _ | with_reducible exact dataset_isZarr _
      | with_reducible exact writeDoc $hI _ _ _
      | with_reducible assumption
      | with_reducible refine bind ?_ fun _ => ?_
      | with_reducible apply ite))

variable (hI : ∀ σ p j, I σ → I (FsM.writeDoc p j σ).2) (D : Disk)
include hI

theorem writeV3Attributes (p : Path) (j : Json) :
    Runs I (Stepwise.writeV3Attributes D p j) (Generic.writeV3Attributes p j) := by
  unfold Stepwise.writeV3Attributes Generic.writeV3Attributes
  runs hI

theorem removeV3Attribute (p : Path) (k : String) :
    Runs I (Stepwise.removeV3Attribute D p k) (Generic.removeV3Attribute p k) := by
  unfold Stepwise.removeV3Attribute Generic.removeV3Attribute
  refine bind (jsonRead _ _) fun o => ?_
  cases o with
  | none => exact pure _
  | some full =>
    show Runs I (match full.find "attributes" with | none => _ | some attrs => _)
      (match full.find "attributes" with | none => _ | some attrs => _)
    cases full.find "attributes" <;> dsimp only <;> runs hI

theorem writeAttributes (p : Path) (z : Bool) (j : Json) :
    Runs I (Stepwise.writeAttributes D p z j) (Generic.writeAttributes p z j) := by
  have := writeV3Attributes hI D p j
  unfold Stepwise.writeAttributes Generic.writeAttributes
  runs hI

theorem removeAttribute (p : Path) (z : Bool) (k : String) :
    Runs I (Stepwise.removeAttribute D p z k) (Generic.removeAttribute p z k) := by
  have := removeV3Attribute hI D p k
  unfold Stepwise.removeAttribute Generic.removeAttribute
  runs hI
  rename_i o
  cases o with
  | none => exact pure _
  | some out => dsimp only; runs hI

theorem target (t : Target) (op : AttrOp) : Runs I (t.steps D op) (t.change op) := by
  have hw := writeAttributes hI D
  have hr := removeAttribute hI D
  cases t <;> cases op <;> dsimp only [Target.steps, Target.change]
  · unfold Stepwise.writeGroupAttributes GroupHandle.writeAttributes
    runs hI; exact hw _ _ _
  · unfold Stepwise.removeGroupAttribute GroupHandle.removeAttribute
    runs hI; exact hr _ _ _
  · unfold Stepwise.writeFileAttributes GroupHandle.writeFileAttributes
    runs hI <;> exact hw _ _ _
  · unfold Stepwise.removeFileAttribute GroupHandle.removeFileAttribute
    runs hI <;> exact hr _ _ _
  · unfold Stepwise.writeDatasetAttributes DatasetHandle.writeAttributes
    runs hI <;> exact hw _ _ _
  · unfold Stepwise.removeDatasetAttribute DatasetHandle.removeAttribute
    runs hI <;> exact hr _ _ _

end Runs

/-! ### directories -/

/-- the directories on the way to `p`, down to depth `k` -/
def Fs.made (σ : Fs) (p : Path) (k : Nat) : Fs := fun q => if q <+: p.take k then some .dir else σ q

theorem take_not_prefix {p : Path} {k : Nat} (h : k < p.length) : ¬ p.take (k + 1) <+: p.take k := fun e => by
  have := e.length_le
  simp only [List.length_take] at this
  omega

theorem prefix_take_succ {q p : Path} {k : Nat} : q <+: p.take (k + 1) ↔ q <+: p.take k ∨ q = p.take (k + 1) := by
  constructor
  · intro h
    by_cases e : q.length ≤ k
    · left
      have h1 : q <+: p := h.trans (List.take_prefix _ _)
      obtain ⟨r, rfl⟩ := h1
      rw [List.take_append, List.take_of_length_le e]
      exact List.prefix_append _ _
    · right
      refine h.eq_of_length ?_
      have := h.length_le
      simp only [List.length_take] at this ⊢
      omega
  · rintro (h | rfl)
    · exact h.trans (List.take_prefix_take_left (Nat.le_succ k))
    · exact List.prefix_refl _

theorem Fs.made_succ {σ : Fs} {p : Path} {k : Nat} (hk : k < p.length) (ho : isOther (σ (p.take (k + 1))) = false) :
    (σ.made p k).mkdir (p.take (k + 1)) = σ.made p (k + 1) := by
  have h1 : σ.made p k (p.take (k + 1)) = σ (p.take (k + 1)) := if_neg (take_not_prefix hk)
  have h2 : (p.take (k + 1)).dropLast = p.take k := by
    rw [List.take_succ_eq_append_getElem hk, List.dropLast_concat]
  have h3 : σ.made p k (p.take k) = some .dir := if_pos (List.prefix_refl _)
  unfold Fs.mkdir
  rw [h1, h2, h3]
  funext q
  have hm : σ.made p (k + 1) q = if q = p.take (k + 1) then some .dir else σ.made p k q := by
    unfold Fs.made
    by_cases e : q = p.take (k + 1)
    · rw [if_pos e, if_pos (prefix_take_succ.2 (.inr e))]
    · rw [if_neg e]
      by_cases e' : q <+: p.take k
      · rw [if_pos e', if_pos (prefix_take_succ.2 (.inl e'))]
      · rw [if_neg e', if_neg fun h => (prefix_take_succ.1 h).elim e' e]
  rw [hm]
  cases e : σ (p.take (k + 1)) with
  | none => rfl
  | some x =>
    cases x with
    | dir =>
      show σ.made p k q = _
      split
      · rename_i e'
        rw [e', h1, e]
      · rfl
    | doc j => rw [e] at ho; cases ho
    | file b => rw [e] at ho; cases ho

theorem Fs.made_eq {σ : Fs} {p : Path} (h0 : σ [] = some .dir) : ∀ {k : Nat}, k ≤ p.length →
    (∀ n ≤ k, isOther (σ (p.take n)) = false) → ((List.range (k + 1)).map p.take).foldl Fs.mkdir σ = σ.made p k
  | 0, _, _ => by
    show σ.mkdir (p.take 0) = _
    have e : σ.made p 0 = σ := by
      funext q
      unfold Fs.made
      split
      · rename_i e
        rw [List.take_zero, List.prefix_nil] at e
        rw [e, h0]
      · rfl
    rw [e]
    unfold Fs.mkdir
    rw [List.take_zero, h0]
    rfl
  | k + 1, hk, ho => by
    rw [List.range_succ, List.map_append, List.foldl_append, Fs.made_eq h0 (by omega) fun n hn => ho n (by omega)]
    exact Fs.made_succ (by omega) (ho _ (Nat.le_refl _))

theorem run_mkdirs {α : Type} (ps : List Path) (c : FsProg α) (σ : Fs) :
    (mkdirs ps c).run σ = c.run (ps.foldl Fs.mkdir σ) := by
  induction ps generalizing σ with
  | nil => rfl
  | cons p ps ih => exact ih (σ.mkdir p)

theorem passes_mkdirs {ps : List Path} {σ σ' : Fs} (h : (mkdirs ps (.ret (.ok ()))).Passes σ σ') :
    ∃ n, σ' = (ps.take n).foldl Fs.mkdir σ := by
  induction ps generalizing σ with
  | nil => exact ⟨0, FsProg.passes_ret h⟩
  | cons p ps ih =>
    rcases FsProg.passes_act h with h | h
    · exact ⟨0, h⟩
    · obtain ⟨n, e⟩ := ih h
      exact ⟨n + 1, e⟩

/-- `createDirectories` of the file system, as `made` -/
theorem FsM.createDirectories_made (p : Path) (σ : Fs) : FsM.createDirectories p σ =
    if (List.range (p.length + 1)).any fun n => isOther (σ (p.take n)) then (.throw .filesystemError, σ)
    else (.ok (), σ.made p p.length) := by
  unfold FsM.createDirectories Fs.made
  rw [List.take_length]

theorem not_any_other {σ : Fs} {p : Path}
    (h : ¬ ((List.range (p.length + 1)).any fun n => isOther (σ (p.take n))) = true) :
    ∀ n ≤ p.length, isOther (σ (p.take n)) = false := by
  intro n hn
  cases e : isOther (σ (p.take n)) with
  | false => rfl
  | true => exact absurd (List.any_eq_true.2 ⟨n, List.mem_range.2 (by omega), e⟩) h

theorem Stepwise.run_createDirectories {p : Path} {σ : Fs} (h0 : σ [] = some .dir) :
    (Stepwise.createDirectories p).run σ = FsM.createDirectories p σ := by
  rw [FsM.createDirectories_made]
  show FsProg.run (if _ then _ else _) σ = _
  split
  · rfl
  · rename_i h
    rw [run_mkdirs, pathsTo, Fs.made_eq h0 (Nat.le_refl _) (not_any_other h)]
    rfl

theorem Stepwise.passes_createDirectories {p : Path} {σ σ' : Fs} (h0 : σ [] = some .dir)
    (h : (Stepwise.createDirectories p).Passes σ σ') :
    σ' = σ ∨ ((∀ n ≤ p.length, isOther (σ (p.take n)) = false) ∧ ∃ k ≤ p.length, σ' = σ.made p k) := by
  rcases FsProg.passes_act h with h | h
  · exact .inl h
  · by_cases c : ((List.range (p.length + 1)).any fun n => isOther (σ (p.take n))) = true
    · simp only [if_pos c] at h
      exact .inl (FsProg.passes_ret h)
    · simp only [if_neg c] at h
      have ho := not_any_other c
      obtain ⟨n, e⟩ := passes_mkdirs h
      rw [pathsTo, ← List.map_take, List.take_range] at e
      cases n with
      | zero => exact .inl (by rw [e, Nat.zero_min]; rfl)
      | succ n =>
        have e' : min (n + 1) (p.length + 1) = min n p.length + 1 := by omega
        rw [e', id, Fs.made_eq h0 (Nat.min_le_right _ _) fun n hn => ho n (by omega)] at e
        exact .inr ⟨ho, _, Nat.min_le_right _ _, e⟩

/-! ### creating nodes -/

/-- There is a root directory. -/
def Fs.HasRoot (σ : Fs) : Prop := σ [] = some .dir

theorem Fs.HasRoot.writeDoc {σ : Fs} (p : Path) (j : Json) (h : σ.HasRoot) : (FsM.writeDoc p j σ).2.HasRoot := by
  unfold Fs.HasRoot at *
  rw [FsM.writeDoc_set]
  split
  · rename_i c
    show Fs.set σ p _ [] = _
    unfold Fs.set
    split
    · rename_i e
      rw [← e, h] at c
      simp [isDirectory] at c
    · exact h
  · exact h

namespace Runs

theorem rooted : ∀ (σ : Fs) p j, σ.HasRoot → (FsM.writeDoc p j σ).2.HasRoot := fun _ p j h => h.writeDoc p j

theorem createDirectories (p : Path) : Runs Fs.HasRoot (Stepwise.createDirectories p) (FsM.createDirectories p) := by
  intro σ h
  rw [Stepwise.run_createDirectories h]
  refine ⟨rfl, ?_⟩
  rw [FsM.createDirectories_made]
  split
  · exact h
  · show Fs.made σ p p.length [] = _
    unfold Fs.made
    split
    · rfl
    · exact h

variable (D : Disk)

theorem groupDir (g : GroupHandle) : Runs Fs.HasRoot (Stepwise.createGroupDir g) g.create := by
  have := createDirectories g.path
  unfold Stepwise.createGroupDir GroupHandle.create
  runs rooted

theorem fileDir (g : GroupHandle) : Runs Fs.HasRoot (Stepwise.createFileDir g) g.createAsFile := by
  have := createDirectories g.path
  unfold Stepwise.createFileDir GroupHandle.createAsFile
  runs rooted

theorem datasetDir (d : DatasetHandle) : Runs Fs.HasRoot (Stepwise.createDatasetDir d) d.create := by
  have := createDirectories d.path
  unfold Stepwise.createDatasetDir DatasetHandle.create
  runs rooted

theorem writeV3GroupMetadata (p : Path) :
    Runs Fs.HasRoot (Stepwise.writeV3GroupMetadata D p) (Z5.writeV3GroupMetadata p) := by
  unfold Stepwise.writeV3GroupMetadata Z5.writeV3GroupMetadata
  runs rooted

theorem writeFileMetadata (p : Path) (z : Bool) (f : Int) :
    Runs Fs.HasRoot (Stepwise.writeFileMetadata D p z f) (Z5.writeFileMetadata p z f) := by
  have := writeV3GroupMetadata D p
  unfold Stepwise.writeFileMetadata Z5.writeFileMetadata
  runs rooted

theorem writeGroupMetadata (p : Path) (z : Bool) (f : Int) :
    Runs Fs.HasRoot (Stepwise.writeGroupMetadata D p z f) (Z5.writeGroupMetadata p z f) := by
  have := writeV3GroupMetadata D p
  unfold Stepwise.writeGroupMetadata Z5.writeGroupMetadata
  runs rooted

theorem writeDatasetMetadata (p : Path) (m : Meta) :
    Runs Fs.HasRoot (Stepwise.writeDatasetMetadata D p m) (Z5.writeDatasetMetadata p m) := by
  unfold Stepwise.writeDatasetMetadata Z5.writeDatasetMetadata
  runs rooted
  rename_i o j
  dsimp only
  cases o.bind fun e => e.find "attributes" <;> dsimp only <;> runs rooted

theorem createFile (g : GroupHandle) (z : Bool) (f : Int) :
    Runs Fs.HasRoot (Stepwise.createFile D g z f) (g.createFile z f) := by
  have h1 := fileDir g
  have h2 := writeFileMetadata D g.path z f
  unfold Stepwise.createFile GroupHandle.createFile
  runs rooted

theorem createGroup (g : GroupHandle) (key : Path) (f : Int) :
    Runs Fs.HasRoot (Stepwise.createGroup D g key f) (g.createGroup key f) := by
  have h1 := groupDir (g.group key)
  have h2 := fun z => writeGroupMetadata D (g.group key).path z f
  unfold Stepwise.createGroup GroupHandle.createGroup
  runs rooted
  exact h2 _

theorem createDataset (g : GroupHandle) (key : Path) (a : CreateArgs) :
    Runs Fs.HasRoot (Stepwise.createDataset D g key a) (g.createDataset key a) := by
  unfold Stepwise.createDataset GroupHandle.createDataset DatasetHandle.createDataset
  runs rooted
  · exact datasetDir _
  · exact writeDatasetMetadata D _ _

end Runs

/-! ### one document is written -/

/-- A program that changes one document, which is one of `P`: the states of a crash -/
def OneDoc (P : Path → Prop) (σ : Fs) {α : Type} (t : FsProg α) : Prop := ∀ σ', t.Passes σ σ' →
  σ' = σ ∨ ∃ q, P q ∧ isDirectory (σ q.dropLast) = true ∧ isDirectory (σ q) = false ∧
    ((∃ b, σ' = σ.set q (some (.file b))) ∨ (∃ j, σ' = σ.set q (some (.doc j))) ∧ σ' = (t.run σ).2)

namespace OneDoc

variable {P : Path → Prop} {σ : Fs} {α β : Type}

theorem ret (r : Res α) : OneDoc P σ (.ret r) := fun _ h => .inl (FsProg.passes_ret h)

theorem lift (r : Res α) : OneDoc P σ (FsProg.lift r) := ret r

theorem pure (a : α) : OneDoc P σ (Pure.pure a) := ret _

theorem look_bind {t : FsProg α} {m : FsM α} [ht : t.Reads m] {g : α → FsProg β}
    (h : ∀ a, (m σ).1 = .ok a → OneDoc P σ (g a)) : OneDoc P σ (t >>= g) := by
  intro σ' h'
  rcases FsProg.passes_look_bind h' with h' | ⟨a, ha, h'⟩
  · exact .inl h'
  · have := h a ha σ' h'
    rwa [FsProg.run_bind, ht.run, ha]

theorem lift_bind {r : Res α} {g : α → FsProg β} (h : ∀ a, r = .ok a → OneDoc P σ (g a)) :
    OneDoc P σ (FsProg.lift r >>= g) := by
  intro σ' h'
  rcases FsProg.passes_lift_bind h' with h' | ⟨a, ha, h'⟩
  · exact .inl h'
  · have := h a ha σ' h'
    rwa [FsProg.run_bind, FsProg.run_lift, ha]

theorem pure_bind {a : α} {g : α → FsProg β} (h : OneDoc P σ (g a)) : OneDoc P σ (Pure.pure a >>= g) := h

theorem ite {c : Prop} [Decidable c] {t t' : FsProg α} (h : c → OneDoc P σ t) (h' : ¬ c → OneDoc P σ t') :
    OneDoc P σ (if c then t else t') := by
  split
  · exact h ‹_›
  · exact h' ‹_›

theorem writeDoc {D : Disk} {q : Path} {j : Json} (hq : P q) : OneDoc P σ (Stepwise.writeDoc D q j) := by
  intro σ' h
  rcases Stepwise.passes_writeDoc h with h | ⟨h1, h2, b, h3⟩ | h
  · exact .inl h
  · exact .inr ⟨q, hq, h1, h2, .inl ⟨b, h3⟩⟩
  · have h' : σ' = ((Stepwise.writeDoc D q j).run σ).2 := by rw [h, Stepwise.run_writeDoc]
    rw [FsM.writeDoc_set] at h
    by_cases c : (isDirectory (σ q.dropLast) && !isDirectory (σ q)) = true
    · rw [if_pos c] at h
      simp only [Bool.and_eq_true, Bool.not_eq_true'] at c
      exact .inr ⟨q, hq, c.1, c.2, .inr ⟨⟨j, h⟩, h'⟩⟩
    · rw [if_neg c] at h
      exact .inl h

/-- Takes a program apart into its steps. -/
syntax "onedoc" : tactic
macro_rules
  | `(tactic| onedoc) => `(tactic| repeat' (first
      | with_reducible exact pure _ | with_reducible exact lift _
      | with_reducible assumption
      | with_reducible refine look_bind fun _ _ => ?_
      | with_reducible refine lift_bind fun _ _ => ?_
      | with_reducible refine pure_bind ?_
      | with_reducible refine ite (fun _ => ?_) (fun _ => ?_)
      | with_reducible refine writeDoc ?_))

theorem writeV3Attributes {D : Disk} {p : Path} {j : Json} (h : P (p ++ ["zarr.json"])) :
    OneDoc P σ (Stepwise.writeV3Attributes D p j) := by
  unfold Stepwise.writeV3Attributes
  onedoc

theorem removeV3Attribute {D : Disk} {p : Path} {k : String} (h : P (p ++ ["zarr.json"])) :
    OneDoc P σ (Stepwise.removeV3Attribute D p k) := by
  unfold Stepwise.removeV3Attribute
  refine look_bind fun o _ => ?_
  cases o with
  | none => exact pure _
  | some full =>
    show OneDoc P σ (match full.find "attributes" with | none => _ | some attrs => _)
    cases full.find "attributes" <;> dsimp only <;> onedoc

theorem writeV3GroupMetadata {D : Disk} {p : Path} (h : P (p ++ ["zarr.json"])) :
    OneDoc P σ (Stepwise.writeV3GroupMetadata D p) := by
  unfold Stepwise.writeV3GroupMetadata
  onedoc

theorem writeFileMetadata {D : Disk} {p : Path} {z : Bool} {f : Int} (h3 : P (p ++ ["zarr.json"])) (h2 : P (p ++ [".zgroup"]))
    (h : P (p ++ ["attributes.json"])) : OneDoc P σ (Stepwise.writeFileMetadata D p z f) := by
  have := writeV3GroupMetadata (P := P) (σ := σ) (D := D) h3
  unfold Stepwise.writeFileMetadata
  onedoc

theorem writeGroupMetadata {D : Disk} {p : Path} {z : Bool} {f : Int} (h3 : P (p ++ ["zarr.json"])) (h2 : P (p ++ [".zgroup"])) :
    OneDoc P σ (Stepwise.writeGroupMetadata D p z f) := by
  have := writeV3GroupMetadata (P := P) (σ := σ) (D := D) h3
  unfold Stepwise.writeGroupMetadata
  onedoc

theorem writeDatasetMetadata {D : Disk} {p : Path} {m : Meta} (h3 : P (p ++ ["zarr.json"])) (h2 : P (p ++ [".zarray"]))
    (h : P (p ++ ["attributes.json"])) : OneDoc P σ (Stepwise.writeDatasetMetadata D p m) := by
  unfold Stepwise.writeDatasetMetadata
  onedoc
  · rename_i o _ j _
    dsimp only
    cases o.bind fun e => e.find "attributes" <;> dsimp only <;> onedoc
  · cases m.isZarr
    · exact h
    · exact h2

/-- the attributes of a node in layout `L` -/
theorem writeAttributes {D : Disk} {p : Path} {L : Layout} {j : Json} (h : σ.Node p L) :
    OneDoc (· = p ++ [L.file]) σ (Stepwise.writeAttributes D p L.isZarr j) := by
  unfold Stepwise.writeAttributes
  cases L with
  | v2 =>
    refine look_bind fun a ha => ?_
    have e : a = false := by
      have := h.v2 rfl
      simp only [FsM.exist, this] at ha
      injection ha with ha
      exact ha.symm
    subst e
    onedoc
    · exact absurd ‹(true && false) = true› (by decide)
    · rfl
  | v3 =>
    refine look_bind fun a ha => ?_
    have e : a = true := by
      obtain ⟨j, hj, _⟩ := h.v3 rfl
      simp only [FsM.exist, hj] at ha
      injection ha with ha
      exact ha.symm
    subst e
    exact writeV3Attributes rfl
  | n5 =>
    refine look_bind fun a ha => ?_
    show OneDoc _ σ (if (false && a) = true then _ else _)
    rw [Bool.false_and]
    onedoc
    · exact writeV3Attributes (absurd ‹false = true› (by decide))
    · rfl

theorem removeAttribute {D : Disk} {p : Path} {L : Layout} {k : String} (h : σ.Node p L) :
    OneDoc (· = p ++ [L.file]) σ (Stepwise.removeAttribute D p L.isZarr k) := by
  have hdoc : ∀ z, (z = false → L.file = "attributes.json") → (z = true → L.file = ".zattrs") →
      OneDoc (· = p ++ [L.file]) σ (do
        match ← Stepwise.jsonRead p [Generic.attributesName z] with
        | none => return ()
        | some out =>
          let out ← FsProg.lift (out.erase k)
          Stepwise.writeDoc D (p ++ [Generic.attributesName z]) out) := by
    intro z h1 h2
    refine look_bind fun o _ => ?_
    cases o with
    | none => exact pure _
    | some out =>
      dsimp only
      onedoc
      cases z
      · rw [h1 rfl]; rfl
      · rw [h2 rfl]; rfl
  unfold Stepwise.removeAttribute
  cases L with
  | v2 =>
    refine look_bind fun a ha => ?_
    have e : a = false := by
      have := h.v2 rfl
      simp only [FsM.exist, this] at ha
      injection ha with ha
      exact ha.symm
    subst e
    exact hdoc true (fun h => by cases h) fun _ => rfl
  | v3 =>
    refine look_bind fun a ha => ?_
    have e : a = true := by
      obtain ⟨j, hj, _⟩ := h.v3 rfl
      simp only [FsM.exist, hj] at ha
      injection ha with ha
      exact ha.symm
    subst e
    exact removeV3Attribute rfl
  | n5 =>
    refine look_bind fun a ha => ?_
    exact hdoc false (fun _ => rfl) fun h => by cases h

theorem target {D : Disk} {t : Target} {op : AttrOp} {L : Layout} (h : t.Refers σ L) :
    OneDoc (· = t.path ++ [L.file]) σ (t.steps D op) := by
  have hw : ∀ a j, (t.isZarr σ).1 = .ok a → OneDoc (· = t.path ++ [L.file]) σ (Stepwise.writeAttributes D t.path a j) := by
    intro a j ha
    rw [h.zarr] at ha
    injection ha with ha
    rw [← ha]
    exact writeAttributes h.node
  have hr : ∀ a k, (t.isZarr σ).1 = .ok a → OneDoc (· = t.path ++ [L.file]) σ (Stepwise.removeAttribute D t.path a k) := by
    intro a j ha
    rw [h.zarr] at ha
    injection ha with ha
    rw [← ha]
    exact removeAttribute h.node
  cases t <;> cases op <;> dsimp only [Target.steps]
  · unfold Stepwise.writeGroupAttributes
    onedoc; exact hw _ _ ‹_›
  · unfold Stepwise.removeGroupAttribute
    onedoc; exact hr _ _ ‹_›
  · unfold Stepwise.writeFileAttributes
    onedoc <;> exact hw _ _ ‹_›
  · unfold Stepwise.removeFileAttribute
    onedoc <;> exact hr _ _ ‹_›
  · unfold Stepwise.writeDatasetAttributes
    onedoc <;> exact hw _ _ ‹_›
  · unfold Stepwise.removeDatasetAttribute
    onedoc <;> exact hr _ _ ‹_›

end OneDoc

end Z5
