import Verif.Model.Steps
import Verif.Proofs.Apart

/-!
# Programs that make the same directory with the same document at the same time (for C96)
-/

namespace Z5

/-- What is made: the directory `P`, and in it the document `J` in the file `F` (if `w`), in the file system `σ₀`; `reads`: the programs read
    the document before they write it; `Done`: the outcomes of the
    programs that have made it. -/
structure Race (α : Type) where
  σ₀ : Fs
  P : Path
  F : Path
  J : Json
  w : Bool
  reads : Bool
  Done : Res α → Prop

namespace Race

variable {α β : Type} (X : Race α)

/-- how far the directory and the document are -/
structure Shape (σ : Fs) : Prop where
  other : ∀ q, ¬ X.P <+: q → σ q = X.σ₀ q
  dir : σ X.P = none ∨ σ X.P = some .dir
  below : ∀ q, X.P <+: q → q ≠ X.P → q ≠ X.F → σ q = none
  doc : σ X.F = none ∨ (∃ b, σ X.F = some (.file b)) ∨ σ X.F = some (.doc X.J)
  inside : σ X.F ≠ none → σ X.P = some .dir ∧ X.w = true

/-- a program that is writing the document -/
def Late : FsProg α → Prop
  | .ret _ => False
  | .act f c => (∃ b, (∀ σ, f σ = σ.set X.F (some (.file b))) ∧ ∀ σ, Late (c σ)) ∨
      ((∀ σ, f σ = σ.set X.F (some (.doc X.J))) ∧ ∀ σ, ∃ r, c σ = .ret r ∧ X.Done r)

/-- A program that is going to make the directory and to write the document (`b`: the file is there; `d`: the directory is there).
    It may fail if it meets a document that is being written. -/
def Mid : FsProg α → Bool → Bool → Prop
  | .ret _, _, _ => False
  | .act f c, b, d => ∀ σ, X.Shape σ → (b = true → σ X.F ≠ none) → (d = true → σ X.P = some .dir) →
      ((f σ = σ ∨ (σ X.P = none ∧ f σ = σ.set X.P (some .dir))) ∧
        ((∃ b' d', (b' = true → σ X.F ≠ none) ∧ (d' = true → f σ X.P = some .dir) ∧ Mid (c σ) b' d') ∨
          (X.reads = true ∧ ∃ v, σ X.F = some (.file v)) ∧ c σ = .ret (.throw .typeError) ∨
          X.w = false ∧ f σ X.P = some .dir ∧ ∃ r, c σ = .ret r ∧ X.Done r)) ∨
      (X.w = true ∧ σ X.P = some .dir ∧ f σ = σ.set X.F (some (.file [])) ∧ X.Late (c σ))

/-- a program that has only looked so far -/
def Early : FsProg α → Prop
  | .ret _ => False
  | .act f c => ∀ σ, X.Shape σ → f σ = σ ∧
      (Early (c σ) ∨ X.Mid (c σ) false false ∨ (σ X.P = some .dir ∧ c σ = .ret (.throw .invalidArgument)))

/-- the outcomes -/
def Outcome (r : Res α) : Prop := X.Done r ∨ r = .throw .invalidArgument ∨ (X.reads = true ∧ r = .throw .typeError)

def IsMid (σ : Fs) (t : FsProg α) : Prop :=
  ∃ b d, (b = true → σ X.F ≠ none) ∧ (d = true → σ X.P = some .dir) ∧ X.Mid t b d

/-- how far a program is -/
inductive Stage where
  | early
  | mid
  | late
  | over
deriving DecidableEq

def At (σ : Fs) (t : FsProg α) : Stage → Prop
  | .early => X.Early t
  | .mid => X.IsMid σ t
  | .late => X.Late t ∧ σ X.F ≠ none
  | .over => ∃ r, t = .ret r ∧ σ X.P = some .dir ∧ X.Outcome r

structure Inv (st : Nat → Stage) (ts : List (FsProg α)) (σ : Fs) : Prop where
  shape : X.Shape σ
  tasks : ∀ (i : Nat) (t : FsProg α), ts[i]? = some t → X.At σ t (st i)
  torn : ∀ v, σ X.F = some (.file v) → ∃ i : Nat, i < ts.length ∧ st i = .late
  empty : σ X.P = some .dir → σ X.F = none →
    (∃ i : Nat, i < ts.length ∧ st i = .mid) ∨ (X.w = false ∧ ∃ (i : Nat) (r : Res α), ts[i]? = some (.ret r) ∧ X.Done r)
  full : σ X.F = some (.doc X.J) → ∃ (i : Nat) (r : Res α), ts[i]? = some (.ret r) ∧ X.Done r

variable {X}

/-- from one state to a later one -/
structure Later (X : Race α) (σ σ' : Fs) : Prop where
  dir : σ X.P = some .dir → σ' X.P = some .dir
  file : σ X.F ≠ none → σ' X.F ≠ none

theorem At.later {σ σ' : Fs} {t : FsProg α} {s : Stage} (h : X.At σ t s) (hl : Later X σ σ') : X.At σ' t s := by
  cases s with
  | early => exact h
  | mid =>
    obtain ⟨b, d, h1, h2, h3⟩ := h
    exact ⟨b, d, fun e => hl.file (h1 e), fun e => hl.dir (h2 e), h3⟩
  | late => exact ⟨h.1, hl.file h.2⟩
  | over =>
    obtain ⟨r, h1, h2, h3⟩ := h
    exact ⟨r, h1, hl.dir h2, h3⟩

theorem getElem?_set_cases {γ : Type} {l : List γ} {i j : Nat} {x y : γ} (h : (l.set i x)[j]? = some y) :
    (j = i ∧ y = x) ∨ (j ≠ i ∧ l[j]? = some y) := by
  by_cases e : j = i
  · subst e
    left
    rw [List.getElem?_set] at h
    simp at h
    exact ⟨rfl, h.2.symm⟩
  · right
    rw [List.getElem?_set_ne (Ne.symm e)] at h
    exact ⟨e, h⟩

def put (st : Nat → Stage) (i : Nat) (s : Stage) : Nat → Stage := fun j => if j = i then s else st j

theorem put_self (st : Nat → Stage) (i : Nat) (s : Stage) : put st i s i = s := if_pos rfl
theorem put_other (st : Nat → Stage) {i j : Nat} (s : Stage) (h : j ≠ i) : put st i s j = st j := if_neg h

variable {st : Nat → Stage} {ts : List (FsProg α)} {σ σ' : Fs} {i : Nat} {f : Fs → Fs} {c : Fs → FsProg α}

/-- the tasks after a step -/
theorem tasks_step (h : X.Inv st ts σ) (hl : Later X σ σ') {x : FsProg α} {s : Stage} (hx : X.At σ' x s) :
    ∀ (j : Nat) (t : FsProg α), (ts.set i x)[j]? = some t → X.At σ' t (put st i s j) := fun j t hj => by
  rcases getElem?_set_cases hj with ⟨rfl, rfl⟩ | ⟨hji, hj⟩
  · rw [put_self]; exact hx
  · rw [put_other _ _ hji]
    exact (h.tasks j t hj).later hl

theorem still {x : FsProg α} {s s' : Stage} (hs : st i = s) {s₁ : Stage} (hne : s ≠ s₁) (h : ∃ j : Nat, j < ts.length ∧ st j = s₁) :
    ∃ j : Nat, j < (ts.set i x).length ∧ put st i s' j = s₁ := by
  obtain ⟨j, h1, h2⟩ := h
  refine ⟨j, by rw [List.length_set]; exact h1, ?_⟩
  rw [put_other _ _ (fun e => hne (by rw [← hs, ← e, h2]))]
  exact h2

theorem still_ret (hi : ts[i]? = some (.act f c)) {x : FsProg α} (h : ∃ (j : Nat) (r : Res α), ts[j]? = some (.ret r) ∧ X.Done r) :
    ∃ (j : Nat) (r : Res α), (ts.set i x)[j]? = some (.ret r) ∧ X.Done r := by
  obtain ⟨j, r, h1, h2⟩ := h
  refine ⟨j, r, ?_, h2⟩
  rw [List.getElem?_set_ne (fun e => by rw [← e, hi] at h1; cases h1), h1]

theorem now {x : FsProg α} {s : Stage} (hi : i < ts.length) : ∃ j : Nat, j < (ts.set i x).length ∧ put st i s j = s :=
  ⟨i, by rw [List.length_set]; exact hi, put_self ..⟩

theorem now_ret {r : Res α} (hi : i < ts.length) (h : X.Done r) :
    ∃ (j : Nat) (r' : Res α), (ts.set i (.ret r))[j]? = some (.ret r') ∧ X.Done r' := ⟨i, r, List.getElem?_set_self hi, h⟩

theorem lt_of_some {γ : Type} {l : List γ} {i : Nat} {x : γ} (h : l[i]? = some x) : i < l.length := by
  rcases Nat.lt_or_ge i l.length with e | e
  · exact e
  · rw [List.getElem?_eq_none e] at h; cases h

/-- the document gets a content -/
theorem Shape.write (hF : X.F ≠ X.P) (hPF : X.P <+: X.F) (h : X.Shape σ) (hw : X.w = true) (hd : σ X.P = some .dir) {e : Entry}
    (he : (∃ b, e = .file b) ∨ e = .doc X.J) : X.Shape (σ.set X.F (some e)) ∧ Later X σ (σ.set X.F (some e)) := by
  have hP : σ.set X.F (some e) X.P = σ X.P := if_neg (Ne.symm hF)
  have hS : σ.set X.F (some e) X.F = some e := if_pos rfl
  refine ⟨⟨fun q hq => ?_, ?_, fun q h1 h2 h3 => ?_, ?_, fun _ => ⟨by rw [hP]; exact hd, hw⟩⟩, ⟨fun e => by rw [hP]; exact e, fun _ => by rw [hS]; exact fun e => by cases e⟩⟩
  · rw [← h.other q hq]
    exact if_neg fun (e : q = X.F) => hq (by rw [e]; exact hPF)
  · rw [hP]; exact h.dir
  · rw [← h.below q h1 h2 h3]
    exact if_neg h3
  · rw [hS]
    rcases he with ⟨b, rfl⟩ | rfl
    · exact .inr (.inl ⟨b, rfl⟩)
    · exact .inr (.inr rfl)

/-- the directory is made -/
theorem Shape.mkdir (hF : X.F ≠ X.P) (h : X.Shape σ) : X.Shape (σ.set X.P (some .dir)) ∧ Later X σ (σ.set X.P (some .dir)) := by
  have hP : σ.set X.P (some .dir) X.P = some .dir := if_pos rfl
  have hS : σ.set X.P (some .dir) X.F = σ X.F := if_neg hF
  refine ⟨⟨fun q hq => ?_, .inr hP, fun q h1 h2 h3 => ?_, by rw [hS]; exact h.doc, fun e => ⟨hP, ?_⟩⟩, ⟨fun _ => hP, fun e => by rw [hS]; exact e⟩⟩
  · rw [← h.other q hq]
    exact if_neg fun (e : q = X.P) => hq (by rw [e]; exact List.prefix_refl _)
  · rw [← h.below q h1 h2 h3]
    exact if_neg h2
  · rw [hS] at e
    exact (h.inside e).2

theorem Later.refl : Later X σ σ := ⟨id, id⟩

/-- one step -/
theorem Inv.act (hF : X.F ≠ X.P) (hPF : X.P <+: X.F) (h : X.Inv st ts σ) (hi : ts[i]? = some (.act f c)) :
    ∃ st', X.Inv st' (ts.set i (c σ)) (f σ) := by
  have hS := h.shape
  have hil := lt_of_some hi
  have hat := h.tasks i _ hi
  cases hs : st i with
  | early =>
    rw [hs] at hat
    obtain ⟨e, hn⟩ := hat σ hS
    rw [e]
    have key : ∀ s, X.At σ (c σ) s → X.Inv (put st i s) (ts.set i (c σ)) σ := fun s hx =>
      ⟨hS, tasks_step h .refl hx, fun v hv => still hs (by decide) (h.torn v hv),
        fun h1 h2 => (h.empty h1 h2).imp (still hs (by decide)) fun ⟨w, g⟩ => ⟨w, still_ret hi g⟩, fun h1 => still_ret hi (h.full h1)⟩
    rcases hn with hn | hn | ⟨hn, e⟩
    · exact ⟨_, key .early hn⟩
    · exact ⟨_, key .mid ⟨false, false, (fun e => by cases e), (fun e => by cases e), hn⟩⟩
    · exact ⟨_, key .over ⟨_, e, hn, .inr (.inl rfl)⟩⟩
  | mid =>
    rw [hs] at hat
    obtain ⟨b, d, hb, hd, hm⟩ := hat
    rcases hm σ hS hb hd with ⟨hf, hn⟩ | ⟨hw, hp, hf, hl⟩
    · obtain ⟨hS', hl, hFF⟩ : X.Shape (f σ) ∧ Later X σ (f σ) ∧ f σ X.F = σ X.F := by
        rcases hf with e | ⟨_, e⟩
        · rw [e]; exact ⟨hS, .refl, rfl⟩
        · rw [e]; exact ⟨(hS.mkdir hF).1, (hS.mkdir hF).2, if_neg hF⟩
      rcases hn with ⟨b', d', h1, h2, h3⟩ | ⟨⟨hrd, v, hv⟩, e⟩ | ⟨hw, hp, r, e, hr⟩
      · exact ⟨put st i .mid, hS', tasks_step h hl ⟨b', d', fun e => by rw [hFF]; exact h1 e, h2, h3⟩,
          fun v hv => still hs (by decide) (h.torn v (by rw [← hFF]; exact hv)), fun _ _ => .inl (now hil),
          fun h1 => still_ret hi (h.full (by rw [← hFF]; exact h1))⟩
      · have hin := hS.inside (by rw [hv]; exact fun e => by cases e)
        exact ⟨put st i .over, hS', tasks_step h hl ⟨_, e, hl.dir hin.1, .inr (.inr ⟨hrd, rfl⟩)⟩,
          fun v hv => still hs (by decide) (h.torn v (by rw [← hFF]; exact hv)),
          (fun _ h2 => by rw [hFF, hv] at h2; cases h2), fun h1 => still_ret hi (h.full (by rw [← hFF]; exact h1))⟩
      · refine ⟨put st i .over, hS', tasks_step h hl ⟨r, e, hp, .inl hr⟩,
          fun v hv => still hs (by decide) (h.torn v (by rw [← hFF]; exact hv)), fun _ _ => .inr ⟨hw, ?_⟩,
          fun h1 => still_ret hi (h.full (by rw [← hFF]; exact h1))⟩
        rw [e]
        exact now_ret hil hr
    · rw [hf]
      obtain ⟨hS', hl'⟩ := hS.write hF hPF hw hp (e := .file []) (.inl ⟨_, rfl⟩)
      have hFF : σ.set X.F (some (.file [])) X.F = some (.file []) := if_pos rfl
      exact ⟨put st i .late, hS', tasks_step h hl' ⟨hl, by rw [hFF]; exact fun e => by cases e⟩, fun _ _ => now hil,
        (fun _ h2 => by rw [hFF] at h2; cases h2), (fun h1 => by rw [hFF] at h1; cases h1)⟩
  | late =>
    rw [hs] at hat
    obtain ⟨hl, hf⟩ := hat
    obtain ⟨hp, hw⟩ := hS.inside hf
    rcases hl with ⟨b, hf, hl⟩ | ⟨hf, hl⟩
    · rw [hf]
      obtain ⟨hS', hl'⟩ := hS.write hF hPF hw hp (e := .file b) (.inl ⟨_, rfl⟩)
      have hFF : σ.set X.F (some (.file b)) X.F = some (.file b) := if_pos rfl
      exact ⟨put st i .late, hS', tasks_step h hl' ⟨hl σ, by rw [hFF]; exact fun e => by cases e⟩, fun _ _ => now hil,
        (fun _ h2 => by rw [hFF] at h2; cases h2), (fun h1 => by rw [hFF] at h1; cases h1)⟩
    · rw [hf]
      obtain ⟨hS', hl'⟩ := hS.write hF hPF hw hp (e := .doc X.J) (.inr rfl)
      have hFF : σ.set X.F (some (.doc X.J)) X.F = some (.doc X.J) := if_pos rfl
      obtain ⟨r, e, hr⟩ := hl σ
      refine ⟨put st i .over, hS', tasks_step h hl' ⟨r, e, hl'.dir hp, .inl hr⟩, (fun v hv => by rw [hFF] at hv; cases hv),
        (fun _ h2 => by rw [hFF] at h2; cases h2), fun _ => ?_⟩
      rw [e]
      exact now_ret hil hr
  | over =>
    rw [hs] at hat
    obtain ⟨r, e, _⟩ := hat
    cases e

theorem Inv.interleave (hF : X.F ≠ X.P) (hPF : X.P <+: X.F) : ∀ (is : List Nat) {st : Nat → Stage} {ts : List (FsProg α)} {σ : Fs},
    X.Inv st ts σ → ∃ st', X.Inv st' (FsProg.interleave is (ts, σ)).1 (FsProg.interleave is (ts, σ)).2
  | [], st, _, _, h => ⟨st, h⟩
  | i :: is, st, ts, σ, h => by
    unfold FsProg.interleave
    have : ∃ st', X.Inv st' (FsProg.step i (ts, σ)).1 (FsProg.step i (ts, σ)).2 := by
      unfold FsProg.step
      simp only
      split
      · exact h.act hF hPF ‹_›
      · exact ⟨st, h⟩
    obtain ⟨st', h'⟩ := this
    exact Inv.interleave hF hPF is h'

theorem finished_eq : ∀ {ts : List (FsProg α)} {rs : List (Res α)}, FsProg.Finished ts rs → ts = rs.map .ret
  | [], [], _ => rfl
  | [], _ :: _, h => by cases h
  | _ :: _, [], h => by cases h
  | t :: ts, r :: rs, h => by
    have h : t.outcome :: ts.map FsProg.outcome = some r :: rs.map some := h
    injection h with h1 h2
    cases t with
    | ret r' => cases h1; rw [List.map_cons, ← finished_eq h2]
    | act f c => cases h1

/-- **The race.**  Programs that start in `σ₀`, where nothing is at `P`. -/
theorem race (hF : X.F ≠ X.P) (hPF : X.P <+: X.F) (h0 : ∀ q, X.P <+: q → X.σ₀ q = none) {ts : List (FsProg α)}
    (ht : ∀ t ∈ ts, X.Early t) (is : List Nat) :
    X.Shape (FsProg.interleave is (ts, X.σ₀)).2 ∧
    (∀ r, FsProg.ret r ∈ (FsProg.interleave is (ts, X.σ₀)).1 → X.Outcome r) ∧
    ∀ rs, FsProg.Finished (FsProg.interleave is (ts, X.σ₀)).1 rs → rs ≠ [] →
      (∃ r ∈ rs, X.Done r) ∧ ∀ q, (FsProg.interleave is (ts, X.σ₀)).2 q =
        if q = X.P then some .dir else if q = X.F ∧ X.w = true then some (.doc X.J) else X.σ₀ q := by
  have hstart : X.Inv (fun _ => .early) ts X.σ₀ :=
    ⟨⟨fun _ _ => rfl, .inl (h0 _ (List.prefix_refl _)), fun q h1 _ _ => h0 q h1, .inl (h0 _ hPF), fun e => absurd (h0 _ hPF) e⟩,
      fun i t e => ht t (List.mem_of_getElem? e), (fun v hv => by rw [h0 _ hPF] at hv; cases hv),
      (fun h1 => by rw [h0 _ (List.prefix_refl _)] at h1; cases h1), (fun h1 => by rw [h0 _ hPF] at h1; cases h1)⟩
  obtain ⟨st, h⟩ := Inv.interleave hF hPF is hstart
  generalize FsProg.interleave is (ts, X.σ₀) = s at h
  have hover : ∀ (i : Nat) (r : Res α), s.1[i]? = some (.ret r) → s.2 X.P = some .dir ∧ X.Outcome r := fun i r e => by
    have := h.tasks i _ e
    revert this
    cases st i with
    | early => exact fun h => False.elim h
    | mid => rintro ⟨_, _, _, _, h⟩; exact False.elim h
    | late => exact fun h => False.elim h.1
    | over => rintro ⟨r', e, h1, h2⟩; cases e; exact ⟨h1, h2⟩
  refine ⟨h.shape, fun r hr => ?_, fun rs hfin hne => ?_⟩
  · obtain ⟨i, hi⟩ := List.mem_iff_getElem?.1 hr
    exact (hover i r hi).2
  · have hfin : s.1 = rs.map .ret := finished_eq hfin
    have hret : ∀ (i : Nat) (t : FsProg α), s.1[i]? = some t → ∃ r, t = .ret r ∧ r ∈ rs := fun i t e => by
      rw [hfin, List.getElem?_map] at e
      cases hr : rs[i]? with
      | none => rw [hr] at e; cases e
      | some r => rw [hr] at e; cases e; exact ⟨r, rfl, List.mem_of_getElem? hr⟩
    have hlt : ∀ i : Nat, i < s.1.length → st i = .over := fun i hi => by
      obtain ⟨r, e, _⟩ := hret i _ (List.getElem?_eq_getElem hi)
      have := h.tasks i _ (List.getElem?_eq_getElem hi)
      rw [e] at this
      revert this
      cases st i with
      | early => exact fun h => False.elim h
      | mid => rintro ⟨_, _, _, _, h⟩; exact False.elim h
      | late => exact fun h => False.elim h.1
      | over => exact fun _ => rfl
    have hP : s.2 X.P = some .dir := by
      cases rs with
      | nil => exact absurd rfl hne
      | cons r rs => exact (hover 0 r (by rw [hfin]; rfl)).1
    have hdone : (∃ (i : Nat) (r : Res α), s.1[i]? = some (.ret r) ∧ X.Done r) → ∃ r ∈ rs, X.Done r := by
      rintro ⟨i, r, e, hr⟩
      obtain ⟨r', e', hm⟩ := hret i _ e
      cases e'
      exact ⟨r, hm, hr⟩
    obtain ⟨hex, hFv⟩ : (∃ r ∈ rs, X.Done r) ∧ s.2 X.F = if X.w = true then some (.doc X.J) else none := by
      rcases h.shape.doc with e | ⟨b, e⟩ | e
      · rcases h.empty hP e with ⟨i, h1, h2⟩ | ⟨hw, g⟩
        · rw [hlt i h1] at h2; cases h2
        · exact ⟨hdone g, by rw [e, hw]; rfl⟩
      · obtain ⟨i, h1, h2⟩ := h.torn b e
        rw [hlt i h1] at h2; cases h2
      · have hw := (h.shape.inside (by rw [e]; exact fun e => by cases e)).2
        exact ⟨hdone (h.full e), by rw [e, if_pos hw]⟩
    refine ⟨hex, fun q => ?_⟩
    by_cases e1 : q = X.P
    · rw [if_pos e1, e1, hP]
    · rw [if_neg e1]
      by_cases e2 : q = X.F
      · rw [e2, hFv, h0 _ hPF]
        by_cases hw : X.w = true <;> simp [hw]
      · rw [if_neg fun h => e2 h.1]
        by_cases e3 : X.P <+: q
        · rw [h.shape.below q e3 e1 e2, h0 q e3]
        · exact h.shape.other q e3

end Race
end Z5
