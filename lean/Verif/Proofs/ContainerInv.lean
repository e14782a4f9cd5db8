import Verif.Proofs.ContainerArray

/-!
# The invariant of containers (for C66)

The tree of a history is what the files of the container represent.
-/

namespace Z5

open Spec

namespace Container

variable {Ty : ElemTypes}

/-- The files of the container represent the tree `T`; the open objects are in `os`. -/
structure Inv (C : Container) (L : Libs) (T : Tree Ty) (os : List (Path × DatasetObj)) (σ : Fs) : Prop where
  wf : σ.WF
  group : ∀ p A, T p = some (.group A) → C.GroupAt σ p A
  array : ∀ p x, T p = some (.array x) → C.ArrayAt L os σ p x
  top : ∃ A, T [] = some (.group A) ∧ (C.isZarr = false → N5Version A)
  closed : ∀ p n, T (p ++ [n]) ≠ none → T.IsGroup p
  names : ∀ p n, T (p ++ [n]) ≠ none → PlainName n
  known : ∀ p n, T.IsGroup p → T (p ++ [n]) = none →
    isDirectory (σ (C.root ++ (p ++ [n]))) = false ∧ (PlainName n → σ (C.root ++ (p ++ [n])) = none)
  objects : ∀ p o, (p, o) ∈ os → ∃ x, T p = some (.array x)

variable {C : Container} {L : Libs} {T T' : Tree Ty} {os os' : List (Path × DatasetObj)} {σ σ' : Fs} {p q : Path}

theorem Inv.above (h : C.Inv L T os σ) : ∀ (k : Nat) {p q : Path}, p.length ≤ k → T p ≠ none → q <+: p → q ≠ p → T.IsGroup q
  | 0, p, q, hk, _, hq, hne => by
    have : p = [] := List.eq_nil_of_length_eq_zero (by omega)
    subst this
    exact absurd (List.prefix_nil.1 hq) hne
  | k + 1, p, q, hk, hp, hq, hne => by
    rcases last_cases p with rfl | ⟨r, n, rfl⟩
    · exact absurd (List.prefix_nil.1 hq) hne
    · have hr := h.closed r n hp
      rcases prefix_concat_iff.1 hq with e | e
      · by_cases he : q = r
        · rw [he]; exact hr
        · obtain ⟨A, hA⟩ := hr
          exact h.above k (by simp at hk; omega) (by rw [hA]; exact fun e => by cases e) e he
      · exact absurd e hne

theorem Inv.parents (h : C.Inv L T os σ) (hp : T p ≠ none) (hq : q <+: p) (hne : q ≠ p) : T.IsGroup q :=
  h.above _ (Nat.le_refl _) hp hq hne

theorem Inv.some_above (h : C.Inv L T os σ) (hp : T p ≠ none) (hq : q <+: p) : T q ≠ none := by
  by_cases e : q = p
  · rw [e]; exact hp
  · obtain ⟨A, hA⟩ := h.parents hp hq e
    rw [hA]
    exact fun e => by cases e

/-- nothing is below an array -/
theorem Inv.leaf (h : C.Inv L T os σ) {x : ArrayItem Ty} (hx : T p = some (.array x)) (hq : p <+: q) (hne : p ≠ q) : T q = none := by
  refine Classical.byContradiction fun e => ?_
  obtain ⟨A, hA⟩ := h.parents e hq hne
  rw [hx] at hA
  cases hA

theorem append_prefix {r x y : Path} : r ++ x <+: r ++ y ↔ x <+: y := List.prefix_append_right_inj r

/-- what is at a path of a tree is kept by a change below `y` elsewhere -/
theorem Inv.keep_group (h : C.Inv L T os σ) {y : Path} (hch : ∀ q, ¬ C.root ++ y <+: q → σ' q = σ q) {A : AttrMap}
    (hp : T p = some (.group A)) (hy : ¬ y <+: p) (hn : ∀ n, y = p ++ [n] → PlainName n) : C.GroupAt σ' p A := by
  refine (h.group p A hp).congr (hch _ fun e => hy (append_prefix.1 e)) fun n hm => hch _ fun e => ?_
  rw [List.append_assoc] at e
  rcases prefix_concat_iff.1 (append_prefix.1 e) with e | e
  · exact hy e
  · exact metaName_iff.1 hm (hn n e)

theorem Inv.keep_array (h : C.Inv L T os σ) {y : Path} (hch : ∀ q, ¬ C.root ++ y <+: q → σ' q = σ q) {x : ArrayItem Ty}
    (hp : T p = some (.array x)) (hy : ¬ y <+: p) (hy' : ¬ p <+: y) (ho : ∀ o, (p, o) ∈ os' → (p, o) ∈ os) :
    C.ArrayAt L os' σ' p x := by
  refine ((h.array p x hp).mono ho).elsewhere fun q hq => hch q fun e => ?_
  rcases hq with e' | e'
  · exact hy (append_prefix.1 (e.trans e'))
  · rcases List.prefix_or_prefix_of_prefix e e' with e | e
    · exact hy (append_prefix.1 e)
    · exact hy' (append_prefix.1 e)

/-- a change of the set of objects -/
theorem Inv.objs (h : C.Inv L T os σ) (ha : ∀ p x, T p = some (.array x) → C.ArrayAt L os' σ p x)
    (ho : ∀ p o, (p, o) ∈ os' → ∃ x, T p = some (.array x)) : C.Inv L T os' σ :=
  { h with array := ha, objects := ho }

theorem Inv.elsewhere (h : C.Inv L T os σ) (hwf : σ'.WF) (he : ∀ q, q <+: C.root ∨ C.root <+: q → σ' q = σ q) :
    C.Inv L T os σ' where
  wf := hwf
  group p A hp := (h.group p A hp).congr (he _ (.inr (List.prefix_append _ _))) fun n _ => he _ (.inr (by
    rw [List.append_assoc]; exact List.prefix_append _ _))
  array p x hp := (h.array p x hp).elsewhere fun q hq => by
    rcases hq with e | e
    · rcases List.prefix_or_prefix_of_prefix e (List.prefix_append C.root p) with e | e
      · exact he q (.inl e)
      · exact he q (.inr e)
    · exact he q (.inr ((List.prefix_append _ _).trans e))
  top := h.top
  closed := h.closed
  names := h.names
  known p n hp hn := by
    rw [he _ (.inr (List.prefix_append _ _))]
    exact h.known p n hp hn
  objects := h.objects

/-! ### The tree -/

theorem put_self (T : Tree Ty) (p : Path) (x : Item Ty) : T.put p x p = some x := if_pos rfl

theorem put_other (T : Tree Ty) {p q : Path} (x : Item Ty) (h : q ≠ p) : T.put p x q = T q := if_neg h

theorem put_isSome {T : Tree Ty} {p q : Path} {x : Item Ty} (h : T.put p x q ≠ none) : q = p ∨ T q ≠ none := by
  by_cases e : q = p
  · exact .inl e
  · rw [put_other T x e] at h
    exact .inr h

/-- the node at a path is replaced by one of the same kind, the change is below it -/
theorem Inv.putArray (h : C.Inv L T os σ) {x x' : ArrayItem Ty} (hp : T p = some (.array x)) (hwf : σ'.WF)
    (hch : ∀ q, ¬ C.root ++ p <+: q → σ' q = σ q) (ha : C.ArrayAt L os σ' p x') : C.Inv L (T.put p (.array x')) os σ' where
  wf := hwf
  group q A hq := by
    by_cases e : q = p
    · rw [e, put_self] at hq; cases hq
    · rw [put_other _ _ e] at hq
      refine h.keep_group hch hq (fun e' => ?_) (fun n e' => h.names q n (by rw [← e', hp]; exact fun e => by cases e))
      rw [h.leaf hp e' (Ne.symm e)] at hq
      cases hq
  array q y hq := by
    by_cases e : q = p
    · subst e
      rw [put_self] at hq
      cases hq
      exact ha
    · rw [put_other _ _ e] at hq
      refine h.keep_array hch hq (fun e' => ?_) (fun e' => ?_) (fun _ e => e)
      · rw [h.leaf hp e' (Ne.symm e)] at hq
        cases hq
      · rw [h.leaf hq e' e] at hp
        cases hp
  top := by
    obtain ⟨A, hA, h5⟩ := h.top
    refine ⟨A, ?_, h5⟩
    rw [put_other, hA]
    rintro rfl
    rw [hA] at hp
    cases hp
  closed q n hn := by
    have hq : T (q ++ [n]) ≠ none := by
      rcases put_isSome hn with e | e
      · rw [e, hp]; exact fun e => by cases e
      · exact e
    obtain ⟨A, hA⟩ := h.closed q n hq
    refine ⟨A, ?_⟩
    rw [put_other, hA]
    rintro rfl
    rw [hA] at hp
    cases hp
  names q n hn := by
    rcases put_isSome hn with e | e
    · exact h.names q n (by rw [e, hp]; exact fun e => by cases e)
    · exact h.names q n e
  known q n hq hn := by
    have hne : q ≠ p := by
      rintro rfl
      obtain ⟨A, hA⟩ := hq
      rw [put_self] at hA
      cases hA
    have hne' : q ++ [n] ≠ p := by
      intro e
      rw [e, put_self] at hn
      cases hn
    have hq : T.IsGroup q := by
      obtain ⟨A, hA⟩ := hq
      exact ⟨A, by rw [put_other _ _ hne] at hA; exact hA⟩
    rw [put_other _ _ hne'] at hn
    rw [hch]
    · exact h.known q n hq hn
    · intro e
      rcases prefix_concat_iff.1 (append_prefix.1 e) with e | e
      · obtain ⟨A, hA⟩ := hq
        rw [h.leaf hp e (Ne.symm hne)] at hA
        cases hA
      · exact hne' e.symm
  objects q o ho := by
    by_cases e : q = p
    · exact ⟨x', by rw [e, put_self]⟩
    · rw [put_other _ _ e]
      exact h.objects q o ho

/-- new attributes of a group -/
theorem Inv.putGroup (h : C.Inv L T os σ) {A A' : AttrMap} (hp : T p = some (.group A)) (hwf : σ'.WF)
    (hch : ∀ q, q ≠ C.root ++ p ++ [C.layout.file] → σ' q = σ q)
    (hd : isDirectory (σ' (C.root ++ p ++ [C.layout.file])) = false) (ha : C.GroupAt σ' p A')
    (htop : p = [] → C.isZarr = false → N5Version A') : C.Inv L (T.put p (.group A')) os σ' where
  wf := hwf
  group q B hq := by
    by_cases e : q = p
    · subst e
      rw [put_self] at hq
      cases hq
      exact ha
    · rw [put_other _ _ e] at hq
      refine (h.group q B hq).congr (hch _ fun e' => ?_) fun n hn => hch _ fun e' => ?_
      · rw [List.append_assoc] at e'
        have : q = p ++ [C.layout.file] := List.append_cancel_left e'
        exact metaName_iff.1 layout_file_meta (h.names p _ (by rw [← this, hq]; exact fun e => by cases e))
      · exact e (List.append_cancel_left (List.append_inj_left' e' rfl))
  array q y hq := by
    have hne : q ≠ p := by
      rintro rfl
      rw [put_self] at hq
      cases hq
    rw [put_other _ _ hne] at hq
    refine (h.array q y hq).elsewhere fun r hr => hch r fun e => ?_
    subst e
    rw [List.append_assoc] at hr
    rcases hr with e | e
    · have := h.some_above (by rw [hq]; exact fun e => by cases e) (append_prefix.1 e)
      exact metaName_iff.1 layout_file_meta (h.names p _ this)
    · rcases prefix_concat_iff.1 (append_prefix.1 e) with e | e
      · rw [h.leaf hq e hne] at hp
        cases hp
      · exact metaName_iff.1 layout_file_meta (h.names p _ (by rw [← e, hq]; exact fun e => by cases e))
  top := by
    by_cases e : p = []
    · exact ⟨A', by rw [e, put_self], htop e⟩
    · obtain ⟨B, hB, h5⟩ := h.top
      exact ⟨B, by rw [put_other _ _ (Ne.symm e)]; exact hB, h5⟩
  closed q n hn := by
    have hq : T (q ++ [n]) ≠ none := by
      rcases put_isSome hn with e | e
      · rw [e, hp]; exact fun e => by cases e
      · exact e
    obtain ⟨B, hB⟩ := h.closed q n hq
    by_cases e : q = p
    · exact ⟨A', by rw [e, put_self]⟩
    · exact ⟨B, by rw [put_other _ _ e]; exact hB⟩
  names q n hn := by
    rcases put_isSome hn with e | e
    · exact h.names q n (by rw [e, hp]; exact fun e => by cases e)
    · exact h.names q n e
  known q n hq hn := by
    have hne' : q ++ [n] ≠ p := by
      intro e
      rw [e, put_self] at hn
      cases hn
    have hq : T.IsGroup q := by
      by_cases e : q = p
      · exact ⟨A, by rw [e]; exact hp⟩
      · obtain ⟨A, hA⟩ := hq
        exact ⟨A, by rw [put_other _ _ e] at hA; exact hA⟩
    rw [put_other _ _ hne'] at hn
    by_cases e : C.root ++ (q ++ [n]) = C.root ++ p ++ [C.layout.file]
    · rw [e]
      refine ⟨hd, fun hpl => absurd hpl (metaName_iff.1 ?_)⟩
      have : n = C.layout.file := by
        rw [List.append_assoc] at e
        exact (List.append_inj' (List.append_cancel_left e) rfl).2 |> List.cons.inj |>.1
      rw [this]
      exact layout_file_meta
    · rw [hch _ e]
      exact h.known q n hq hn
  objects q o ho := by
    obtain ⟨x, hx⟩ := h.objects q o ho
    have hne : q ≠ p := by
      rintro rfl
      rw [hx] at hp
      cases hp
    exact ⟨x, by rw [put_other _ _ hne]; exact hx⟩

/-- the files of a new node: nothing else changes -/
theorem Inv.new_frame (h : C.Inv L T os σ) {n : String} {docs : String → Option Json} (hp : T.IsGroup p)
    (hn : σ.NewNode σ' (C.root ++ (p ++ [n])) docs) : ∀ q, ¬ C.root ++ (p ++ [n]) <+: q → σ' q = σ q := by
  intro q hq
  by_cases e : q <+: C.root ++ (p ++ [n])
  · rw [hn.dirs q e]
    rw [← List.append_assoc] at e
    obtain ⟨A, hA⟩ := hp
    have hd := (h.group p A hA).node.dir
    rcases prefix_concat_iff.1 e with e | e
    · obtain ⟨r, hr⟩ := e
      by_cases h0 : r = []
      · subst h0
        rw [List.append_nil] at hr
        rw [hr, hd]
      · exact (h.wf q r h0 (by rw [hr, hd]; exact fun e => by cases e)).symm
    · exact absurd (by rw [e, List.append_assoc]; exact List.prefix_refl _) hq
  · exact hn.rest q e hq

/-- a new node -/
theorem Inv.putNew (h : C.Inv L T os σ) {n : String} {docs : String → Option Json} {x : Item Ty} (hp : T.IsGroup p)
    (hT : T (p ++ [n]) = none) (hpl : PlainName n) (hn : σ.NewNode σ' (C.root ++ (p ++ [n])) docs)
    (hg : ∀ A, x = .group A → C.GroupAt σ' (p ++ [n]) A ∧ ∀ k, PlainName k → docs k = none)
    (ha : ∀ y, x = .array y → C.ArrayAt L os' σ' (p ++ [n]) y)
    (hos : ∀ q o, (q, o) ∈ os' → q = p ++ [n] ∨ (q, o) ∈ os)
    (hos' : ∀ A, x = .group A → ∀ o, (p ++ [n], o) ∉ os') :
    C.Inv L (T.put (p ++ [n]) x) os' σ' := by
  have hch := h.new_frame hp hn
  have hgp := hp
  obtain ⟨B, hB⟩ := hp
  have hbelow : ∀ q, p ++ [n] <+: q → T q = none := fun q hq =>
    Classical.byContradiction fun e => h.some_above e hq hT
  have hpne : p ≠ p ++ [n] := by simp
  have hmem : ∀ q, q ≠ p ++ [n] → ∀ o, (q, o) ∈ os' → (q, o) ∈ os := fun q hq o ho => by
    rcases hos q o ho with e | e
    · exact absurd e hq
    · exact e
  have hgroup : ∀ q, T.IsGroup q → (T.put (p ++ [n]) x).IsGroup q := by
    rintro q ⟨A, hA⟩
    refine ⟨A, ?_⟩
    rw [put_other, hA]
    rintro rfl
    rw [hT] at hA
    cases hA
  refine ⟨hn.wf h.wf, ?_, ?_, ?_, ?_, ?_, ?_, ?_⟩
  · intro q A hq
    by_cases e : q = p ++ [n]
    · subst e
      rw [put_self] at hq
      exact (hg A (Option.some.inj hq)).1
    · rw [put_other _ _ e] at hq
      refine h.keep_group hch hq (fun e' => ?_) (fun k e' => ?_)
      · rw [hbelow q e'] at hq
        cases hq
      · have : n = k := by
          exact (List.append_inj' e' rfl).2 |> List.cons.inj |>.1
        rw [← this]
        exact hpl
  · intro q y hq
    by_cases e : q = p ++ [n]
    · subst e
      rw [put_self] at hq
      exact ha y (Option.some.inj hq)
    · rw [put_other _ _ e] at hq
      refine h.keep_array hch hq (fun e' => ?_) (fun e' => ?_) (hmem q e)
      · rw [hbelow q e'] at hq
        cases hq
      · rcases prefix_concat_iff.1 e' with e' | e'
        · by_cases e2 : q = p
          · rw [e2, hB] at hq; cases hq
          · rw [h.leaf hq e' e2] at hB
            cases hB
        · exact e e'
  · obtain ⟨A, hA, h5⟩ := h.top
    exact ⟨A, by rw [put_other _ _ (by simp)]; exact hA, h5⟩
  · intro q k hk
    rcases put_isSome hk with e | e
    · have : q = p := List.append_inj_left' e rfl
      rw [this]
      exact hgroup p hgp
    · exact hgroup q (h.closed q k e)
  · intro q k hk
    rcases put_isSome hk with e | e
    · have : k = n := (List.append_inj' e rfl).2 |> List.cons.inj |>.1
      rw [this]
      exact hpl
    · exact h.names q k e
  · intro q k hq hk
    have hne' : q ++ [k] ≠ p ++ [n] := by
      intro e
      rw [e, put_self] at hk
      cases hk
    rw [put_other _ _ hne'] at hk
    by_cases e : q = p ++ [n]
    · subst e
      obtain ⟨A, hA⟩ := hq
      rw [put_self] at hA
      obtain ⟨_, hdocs⟩ := hg A (Option.some.inj hA)
      rw [← List.append_assoc, hn.docs]
      constructor
      · cases docs k <;> rfl
      · intro hk
        rw [hdocs k hk]
        rfl
    · have hq : T.IsGroup q := by
        obtain ⟨A, hA⟩ := hq
        exact ⟨A, by rw [put_other _ _ e] at hA; exact hA⟩
      rw [hch]
      · exact h.known q k hq hk
      · intro e'
        rcases prefix_concat_iff.1 (append_prefix.1 e') with e' | e'
        · obtain ⟨A, hA⟩ := hq
          rw [hbelow q e'] at hA
          cases hA
        · exact hne' e'.symm
  · intro q o ho
    by_cases e : q = p ++ [n]
    · subst e
      cases x with
      | group A => exact absurd ho (hos' A rfl o)
      | array y => exact ⟨y, put_self _ _ _⟩
    · rw [put_other _ _ e]
      exact h.objects q o (hmem q e o ho)

/-- a node is removed -/
theorem Inv.prune (h : C.Inv L T os σ) (hp : p ≠ []) (hT : T p ≠ none) :
    C.Inv L (T.prune p) (os.filter fun e => ¬ p <+: e.1) (σ.without (C.root ++ p)) := by
  obtain ⟨r, n, rfl⟩ : ∃ r n, p = r ++ [n] := by
    rcases last_cases p with e | e
    · exact absurd e hp
    · exact e
  have hch : ∀ q, ¬ C.root ++ (r ++ [n]) <+: q → σ.without (C.root ++ (r ++ [n])) q = σ q := fun q hq => if_neg hq
  have hr := h.closed r n hT
  have hkeep : ∀ q, ¬ r ++ [n] <+: q → T.prune (r ++ [n]) q = T q := fun q hq => if_neg hq
  have hgone : ∀ q, r ++ [n] <+: q → T.prune (r ++ [n]) q = none := fun q hq => if_pos hq
  have hof : ∀ q v, T.prune (r ++ [n]) q = some v → T q = some v ∧ ¬ r ++ [n] <+: q := by
    intro q v hq
    by_cases e : r ++ [n] <+: q
    · rw [hgone q e] at hq; cases hq
    · rw [hkeep q e] at hq; exact ⟨hq, e⟩
  refine ⟨h.wf.without _, ?_, ?_, ?_, ?_, ?_, ?_, ?_⟩
  · intro q A hq
    obtain ⟨hq, e⟩ := hof q _ hq
    refine h.keep_group hch hq e fun k e' => ?_
    have : n = k := (List.append_inj' e' rfl).2 |> List.cons.inj |>.1
    rw [← this]
    exact h.names r n hT
  · intro q y hq
    obtain ⟨hq, e⟩ := hof q _ hq
    refine h.keep_array hch hq e (fun e' => ?_) fun o ho => (List.mem_filter.1 ho).1
    rw [h.leaf hq e' (fun e2 => e (by rw [e2]; exact List.prefix_refl _))] at hT
    exact hT rfl
  · obtain ⟨A, hA, h5⟩ := h.top
    refine ⟨A, ?_, h5⟩
    rw [hkeep, hA]
    intro e
    have := List.prefix_nil.1 e
    simp at this
  · intro q k hk
    have e : ¬ r ++ [n] <+: q ++ [k] := fun e => hk (hgone _ e)
    rw [hkeep _ e] at hk
    obtain ⟨A, hA⟩ := h.closed q k hk
    exact ⟨A, by rw [hkeep _ fun e' => e (prefix_concat_iff.2 (.inl e'))]; exact hA⟩
  · intro q k hk
    have e : ¬ r ++ [n] <+: q ++ [k] := fun e => hk (hgone _ e)
    rw [hkeep _ e] at hk
    exact h.names q k hk
  · rintro q k ⟨A, hA⟩ hk
    obtain ⟨hA, e⟩ := hof q _ hA
    by_cases e' : r ++ [n] <+: q ++ [k]
    · have : σ.without (C.root ++ (r ++ [n])) (C.root ++ (q ++ [k])) = none := if_pos (append_prefix.2 e')
      rw [this]
      exact ⟨rfl, fun _ => rfl⟩
    · rw [hkeep _ e'] at hk
      rw [hch _ fun e2 => e' (append_prefix.1 e2)]
      exact h.known q k ⟨A, hA⟩ hk
  · intro q o ho
    obtain ⟨h1, h2⟩ := List.mem_filter.1 ho
    have h2 : ¬ r ++ [n] <+: q := by simpa using h2
    rw [hkeep q h2]
    exact h.objects q o h1

end Container

end Z5
