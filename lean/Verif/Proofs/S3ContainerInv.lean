import Verif.Proofs.S3ContainerArray

/-!
# The invariant of containers on S3 (for C79)

The tree of a history is what the objects of the container represent.
-/

namespace Z5

open Spec
open Container (put_self put_other put_isSome)

namespace S3Container

variable {Ty : ElemTypes}

/-- The objects below the name of a group are its documents and those of the nodes in it. -/
def Known (C : S3Container) (T : Tree Ty) (b : Bucket) (p : Path) : Prop :=
  ∀ r, C.dir p ++ r ∈ b.keys → (∃ n, MetaName n ∧ r = n.toList) ∨ ∃ n t, T (p ++ [n]) ≠ none ∧ r = n.toList ++ '/' :: t

/-- The objects of the container represent the tree `T`; the open dataset objects are in `os`. -/
structure Inv (C : S3Container) (L : Libs) (T : Tree Ty) (os : List (Path × S3DatasetObj)) (b : Bucket) : Prop where
  wf : b.WF
  group : ∀ p A, T p = some (.group A) → C.GroupAt b p A
  array : ∀ p x, T p = some (.array x) → C.ArrayAt L os b p x
  top : T.IsGroup []
  closed : ∀ p n, T (p ++ [n]) ≠ none → T.IsGroup p
  names : ∀ p n, T (p ++ [n]) ≠ none → NodeName n
  known : ∀ p, T.IsGroup p → C.Known T b p
  objects : ∀ p o, (p, o) ∈ os → ∃ x, T p = some (.array x)

variable {C : S3Container} {L : Libs} {T T' : Tree Ty} {os os' : List (Path × S3DatasetObj)} {b b' : Bucket} {p q : Path}

theorem Inv.above (h : C.Inv L T os b) : ∀ (k : Nat) {p q : Path}, p.length ≤ k → T p ≠ none → q <+: p → q ≠ p → T.IsGroup q
  | 0, p, q, hk, _, hq, hne => by
    have : p = [] := List.eq_nil_of_length_eq_zero (by omega)
    subst this
    exact absurd (List.prefix_nil.1 hq) hne
  | k + 1, p, q, hk, hp, hq, hne => by
    rcases last_cases p with rfl | ⟨r, n, rfl⟩
    · exact absurd (List.prefix_nil.1 hq) hne
    · have hr := h.closed r n hp
      rcases prefix_concat_iff.1 hq with e | e
      · by_cases he : q = r
        · rw [he]; exact hr
        · obtain ⟨A, hA⟩ := hr
          exact h.above k (by simp at hk; omega) (by rw [hA]; exact fun e => by cases e) e he
      · exact absurd e hne

theorem Inv.parents (h : C.Inv L T os b) (hp : T p ≠ none) (hq : q <+: p) (hne : q ≠ p) : T.IsGroup q :=
  h.above _ (Nat.le_refl _) hp hq hne

theorem isGroup_ne {T : Tree Ty} (h : T.IsGroup p) : T p ≠ none := by
  obtain ⟨A, hA⟩ := h
  rw [hA]
  exact fun e => by cases e

theorem Inv.some_above (h : C.Inv L T os b) (hp : T p ≠ none) (hq : q <+: p) : T q ≠ none := by
  by_cases e : q = p
  · rw [e]; exact hp
  · exact isGroup_ne (h.parents hp hq e)

/-- nothing is below an array -/
theorem Inv.leaf (h : C.Inv L T os b) {x : ArrayItem Ty} (hx : T p = some (.array x)) (hq : p <+: q) (hne : p ≠ q) : T q = none := by
  refine Classical.byContradiction fun e => ?_
  obtain ⟨A, hA⟩ := h.parents e hq hne
  rw [hx] at hA
  cases hA

theorem Inv.named (h : C.Inv L T os b) (hp : T p ≠ none) : ∀ n ∈ p, NodeName n := by
  intro n hn
  obtain ⟨s, t, rfl⟩ := List.append_of_mem hn
  exact h.names s n (h.some_above hp ⟨t, by simp⟩)

theorem concat_named {n : String} (hp : ∀ n ∈ p, NodeName n) (hn : NodeName n) : ∀ x ∈ p ++ [n], NodeName x := by
  intro x hx
  rcases List.mem_append.1 hx with h | h
  · exact hp x h
  · rw [List.mem_singleton.1 h]; exact hn

theorem append_named (hp : ∀ n ∈ p, NodeName n) (hq : ∀ n ∈ q, NodeName n) : ∀ x ∈ p ++ q, NodeName x := by
  intro x hx
  rcases List.mem_append.1 hx with h | h
  · exact hp x h
  · exact hq x h

/-- a key below a node is below a node of every group above -/
theorem below_name (hq : q <+: p) (hne : q ≠ p) {r : Key} (hk : C.dir p <+: C.dir q ++ r) :
    ∃ n t, q ++ [n] <+: p ∧ r = n.toList ++ '/' :: t := by
  obtain ⟨n, s, rfl⟩ := proper_prefix hq hne
  obtain ⟨u, hu⟩ := hk
  rw [dir_append, dir_concat] at hu
  refine ⟨n, Path.flat s ++ u, ⟨s, rfl⟩, ?_⟩
  have hu : C.dir q ++ (n.toList ++ '/' :: (Path.flat s ++ u)) = C.dir q ++ r := by
    rw [← hu]
    simp
  exact (List.append_cancel_left hu).symm

theorem meta_below (hp : ∀ n ∈ p, NodeName n) (hq : ∀ n ∈ q, NodeName n) {n : String} (hn : MetaName n)
    (h : C.dir q <+: docKey (C.key p) n) : q <+: p := by
  rw [docKey_key hp] at h
  exact dir_prefix hq hp (meta_slash hn) h

/-- what is at a path of a tree is kept by a change below `y` elsewhere -/
theorem Inv.keep_group (h : C.Inv L T os b) {y : Path} (hyn : ∀ n ∈ y, NodeName n)
    (hch : ∀ k, ¬ C.dir y <+: k → b'.get k = b.get k) {A : AttrMap}
    (hp : T p = some (.group A)) (hy : ¬ y <+: p) : C.GroupAt b' p A := by
  have hpn := h.named (p := p) (by rw [hp]; exact fun e => by cases e)
  exact (h.group p A hp).congr fun n hm => hch _ fun e => hy (meta_below hpn hyn hm e)

theorem Inv.keep_array (h : C.Inv L T os b) {y : Path} (hyn : ∀ n ∈ y, NodeName n)
    (hch : ∀ k, ¬ C.dir y <+: k → b'.get k = b.get k) {x : ArrayItem Ty}
    (hp : T p = some (.array x)) (hy : ¬ y <+: p) (hy' : ¬ p <+: y) (ho : ∀ o, (p, o) ∈ os' → (p, o) ∈ os) :
    C.ArrayAt L os' b' p x := by
  have hpn := h.named (p := p) (by rw [hp]; exact fun e => by cases e)
  refine ((h.array p x hp).mono ho).elsewhere fun k hk => hch k fun e => ?_
  rw [dirPrefix_key hpn] at hk
  rcases dir_comparable hyn hpn e hk with e | e
  · exact hy e
  · exact hy' e

theorem mem_of_get {k : Key} (h : b'.get k = b.get k) (hk : k ∈ b'.keys) : k ∈ b.keys := by
  rw [mem_keys] at hk ⊢
  rwa [← h]

/-- a change of the set of objects -/
theorem Inv.objs (h : C.Inv L T os b) (ha : ∀ p x, T p = some (.array x) → C.ArrayAt L os' b p x)
    (ho : ∀ p o, (p, o) ∈ os' → ∃ x, T p = some (.array x)) : C.Inv L T os' b :=
  { h with array := ha, objects := ho }

theorem root_dir (hp : ∀ n ∈ p, NodeName n) {k : Key} (h : dirPrefix (C.key p) <+: k) : dirPrefix C.root <+: k := by
  rw [dirPrefix_key hp] at h
  exact (List.prefix_append _ _).trans h

theorem Inv.elsewhere (h : C.Inv L T os b) (hwf : b'.WF) (he : ∀ k, dirPrefix C.root <+: k → b'.get k = b.get k) :
    C.Inv L T os b' where
  wf := hwf
  group p A hp := (h.group p A hp).congr fun n _ => he _
    (root_dir (h.named (by rw [hp]; exact fun e => by cases e)) (dirPrefix_docKey _ _))
  array p x hp := (h.array p x hp).elsewhere fun k hk => he k (root_dir (h.named (by rw [hp]; exact fun e => by cases e)) hk)
  top := h.top
  closed := h.closed
  names := h.names
  known p hp r hr := h.known p hp r (mem_of_get (he _ (by
    unfold dir
    rw [List.append_assoc]
    exact List.prefix_append _ _)) hr)
  objects := h.objects

/-- the array at a path is replaced, the change is below it -/
theorem Inv.putArray (h : C.Inv L T os b) {x x' : ArrayItem Ty} (hp : T p = some (.array x)) (hwf : b'.WF)
    (hch : ∀ k, ¬ dirPrefix (C.key p) <+: k → b'.get k = b.get k) (ha : C.ArrayAt L os b' p x') :
    C.Inv L (T.put p (.array x')) os b' := by
  have hne : T p ≠ none := by rw [hp]; exact fun e => by cases e
  have hpn := h.named hne
  rw [dirPrefix_key hpn] at hch
  have htop : ∀ q, T.IsGroup q → q ≠ p := by
    rintro q ⟨A, hA⟩ rfl
    rw [hp] at hA
    cases hA
  refine ⟨hwf, ?_, ?_, ?_, ?_, ?_, ?_, ?_⟩
  · intro q A hq
    by_cases e : q = p
    · rw [e, put_self] at hq; cases hq
    · rw [put_other _ _ e] at hq
      refine h.keep_group hpn hch hq (fun e' => ?_)
      rw [h.leaf hp e' (Ne.symm e)] at hq
      cases hq
  · intro q y hq
    by_cases e : q = p
    · subst e
      rw [put_self] at hq
      cases hq
      exact ha
    · rw [put_other _ _ e] at hq
      refine h.keep_array hpn hch hq (fun e' => ?_) (fun e' => ?_) (fun _ e => e)
      · rw [h.leaf hp e' (Ne.symm e)] at hq
        cases hq
      · rw [h.leaf hq e' e] at hp
        cases hp
  · obtain ⟨A, hA⟩ := h.top
    exact ⟨A, by rw [put_other _ _ (htop _ h.top)]; exact hA⟩
  · intro q n hn
    have hq : T (q ++ [n]) ≠ none := by
      rcases put_isSome hn with e | e
      · rw [e]; exact hne
      · exact e
    have hg := h.closed q n hq
    obtain ⟨A, hA⟩ := hg
    exact ⟨A, by rw [put_other _ _ (htop q ⟨A, hA⟩)]; exact hA⟩
  · intro q n hn
    rcases put_isSome hn with e | e
    · exact h.names q n (by rw [e]; exact hne)
    · exact h.names q n e
  · rintro q ⟨A, hA⟩ r hr
    have hqp : q ≠ p := by
      rintro rfl
      rw [put_self] at hA
      cases hA
    rw [put_other _ _ hqp] at hA
    have hput : ∀ n, T (q ++ [n]) ≠ none → T.put p (.array x') (q ++ [n]) ≠ none := fun n hn => by
      by_cases e : q ++ [n] = p
      · rw [e, put_self]; exact fun e => by cases e
      · rw [put_other _ _ e]; exact hn
    by_cases hk : C.dir p <+: C.dir q ++ r
    · right
      have hqn := h.named (isGroup_ne ⟨A, hA⟩)
      rcases dir_comparable hpn hqn hk (List.prefix_append _ _) with e | e
      · rw [h.leaf hp e (Ne.symm hqp)] at hA
        cases hA
      · obtain ⟨n, t, h1, h2⟩ := below_name e hqp hk
        exact ⟨n, t, hput n (h.some_above hne h1), h2⟩
    · rcases h.known q ⟨A, hA⟩ r (mem_of_get (hch _ hk) hr) with e | ⟨n, t, e1, e2⟩
      · exact .inl e
      · exact .inr ⟨n, t, hput n e1, e2⟩
  · intro q o ho
    by_cases e : q = p
    · exact ⟨x', by rw [e, put_self]⟩
    · rw [put_other _ _ e]
      exact h.objects q o ho

/-- new attributes of a group -/
theorem Inv.putGroup (h : C.Inv L T os b) {A A' : AttrMap} (hp : T p = some (.group A)) (hwf : b'.WF)
    (hch : ∀ k, k ≠ docKey (C.key p) C.layout.file → b'.get k = b.get k) (ha : C.GroupAt b' p A') :
    C.Inv L (T.put p (.group A')) os b' := by
  have hne : T p ≠ none := by rw [hp]; exact fun e => by cases e
  have hpn := h.named hne
  have hkey : docKey (C.key p) C.layout.file = C.dir p ++ C.layout.file.toList := docKey_key hpn _
  have hput : ∀ q, T q ≠ none → T.put p (.group A') q ≠ none := fun q hq => by
    by_cases e : q = p
    · rw [e, put_self]; exact fun e => by cases e
    · rw [put_other _ _ e]; exact hq
  have hgrp : ∀ q, T.IsGroup q → (T.put p (.group A')).IsGroup q := by
    rintro q ⟨B, hB⟩
    by_cases e : q = p
    · exact ⟨A', by rw [e, put_self]⟩
    · exact ⟨B, by rw [put_other _ _ e]; exact hB⟩
  have hgrp' : ∀ q, (T.put p (.group A')).IsGroup q → T.IsGroup q := by
    rintro q ⟨B, hB⟩
    by_cases e : q = p
    · exact ⟨A, by rw [e]; exact hp⟩
    · exact ⟨B, by rw [put_other _ _ e] at hB; exact hB⟩
  refine ⟨hwf, ?_, ?_, hgrp _ h.top, ?_, ?_, ?_, ?_⟩
  · intro q B hq
    by_cases e : q = p
    · subst e
      rw [put_self] at hq
      cases hq
      exact ha
    · rw [put_other _ _ e] at hq
      have hqn := h.named (p := q) (by rw [hq]; exact fun e => by cases e)
      refine (h.group q B hq).congr fun n hn => hch _ fun e' => e ?_
      rw [hkey, docKey_key hqn] at e'
      have h1 : q <+: p := dir_prefix hqn hpn (meta_slash layout_file_meta) ⟨n.toList, e'⟩
      have h2 : p <+: q := dir_prefix hpn hqn (meta_slash hn) ⟨_, e'.symm⟩
      exact h1.eq_of_length (Nat.le_antisymm h1.length_le h2.length_le)
  · intro q y hq
    have hqp : q ≠ p := by
      rintro rfl
      rw [put_self] at hq
      cases hq
    rw [put_other _ _ hqp] at hq
    have hqn := h.named (p := q) (by rw [hq]; exact fun e => by cases e)
    refine (h.array q y hq).elsewhere fun k hk => hch k fun e => ?_
    subst e
    rw [dirPrefix_key hqn] at hk
    have := meta_below hpn hqn layout_file_meta hk
    rw [h.leaf hq this hqp] at hp
    cases hp
  · intro q n hn
    refine hgrp q ?_
    rcases put_isSome hn with e | e
    · exact h.closed q n (by rw [e]; exact hne)
    · exact h.closed q n e
  · intro q n hn
    rcases put_isSome hn with e | e
    · exact h.names q n (by rw [e]; exact hne)
    · exact h.names q n e
  · intro q hq r hr
    have hq := hgrp' q hq
    have hqn := h.named (isGroup_ne hq)
    by_cases e : C.dir q ++ r = docKey (C.key p) C.layout.file
    · rw [hkey] at e
      by_cases hqp : q = p
      · subst hqp
        exact .inl ⟨_, layout_file_meta, List.append_cancel_left e⟩
      · obtain ⟨n, t, h1, h2⟩ := below_name (C := C) (r := r) (dir_prefix hqn hpn (meta_slash layout_file_meta) ⟨r, e⟩) hqp
          ⟨_, e.symm⟩
        exact .inr ⟨n, t, hput _ (h.some_above hne h1), h2⟩
    · rcases h.known q hq r (mem_of_get (hch _ e) hr) with e | ⟨n, t, e1, e2⟩
      · exact .inl e
      · exact .inr ⟨n, t, hput _ e1, e2⟩
  · intro q o ho
    obtain ⟨x, hx⟩ := h.objects q o ho
    have hqp : q ≠ p := by
      rintro rfl
      rw [hx] at hp
      cases hp
    exact ⟨x, by rw [put_other _ _ hqp]; exact hx⟩

/-- a new node -/
theorem Inv.putNew (h : C.Inv L T os b) {n : String} {x : Item Ty} (hp : T.IsGroup p)
    (hT : T (p ++ [n]) = none) (hn : NodeName n) (hwf : b'.WF) (hch : ∀ k, ¬ C.dir (p ++ [n]) <+: k → b'.get k = b.get k)
    (hg : ∀ A, x = .group A → C.GroupAt b' (p ++ [n]) A ∧
      ∀ r, C.dir (p ++ [n]) ++ r ∈ b'.keys → ∃ m, MetaName m ∧ r = m.toList)
    (ha : ∀ y, x = .array y → C.ArrayAt L os' b' (p ++ [n]) y)
    (hos : ∀ q o, (q, o) ∈ os' → q = p ++ [n] ∨ (q, o) ∈ os)
    (hos' : ∀ A, x = .group A → ∀ o, (p ++ [n], o) ∉ os') :
    C.Inv L (T.put (p ++ [n]) x) os' b' := by
  have hpn := concat_named (h.named (isGroup_ne hp)) hn
  have hgp := hp
  obtain ⟨B, hB⟩ := hp
  have hbelow : ∀ q, p ++ [n] <+: q → T q = none := fun q hq =>
    Classical.byContradiction fun e => h.some_above e hq hT
  have hpne : p ≠ p ++ [n] := by simp
  have hmem : ∀ q, q ≠ p ++ [n] → ∀ o, (q, o) ∈ os' → (q, o) ∈ os := fun q hq o ho => by
    rcases hos q o ho with e | e
    · exact absurd e hq
    · exact e
  have hgroup : ∀ q, T.IsGroup q → (T.put (p ++ [n]) x).IsGroup q := by
    rintro q ⟨A, hA⟩
    refine ⟨A, ?_⟩
    rw [put_other, hA]
    rintro rfl
    rw [hT] at hA
    cases hA
  have hput : ∀ q, T q ≠ none ∨ q = p ++ [n] → T.put (p ++ [n]) x q ≠ none := fun q hq => by
    by_cases e : q = p ++ [n]
    · rw [e, put_self]; exact fun e => by cases e
    · rw [put_other _ _ e]; exact hq.resolve_right e
  refine ⟨hwf, ?_, ?_, hgroup _ h.top, ?_, ?_, ?_, ?_⟩
  · intro q A hq
    by_cases e : q = p ++ [n]
    · subst e
      rw [put_self] at hq
      exact (hg A (Option.some.inj hq)).1
    · rw [put_other _ _ e] at hq
      refine h.keep_group hpn hch hq (fun e' => ?_)
      rw [hbelow q e'] at hq
      cases hq
  · intro q y hq
    by_cases e : q = p ++ [n]
    · subst e
      rw [put_self] at hq
      exact ha y (Option.some.inj hq)
    · rw [put_other _ _ e] at hq
      refine h.keep_array hpn hch hq (fun e' => ?_) (fun e' => ?_) (hmem q e)
      · rw [hbelow q e'] at hq
        cases hq
      · rcases prefix_concat_iff.1 e' with e' | e'
        · by_cases e2 : q = p
          · rw [e2, hB] at hq; cases hq
          · rw [h.leaf hq e' e2] at hB
            cases hB
        · exact e e'
  · intro q k hk
    rcases put_isSome hk with e | e
    · have : q = p := List.append_inj_left' e rfl
      rw [this]
      exact hgroup p hgp
    · exact hgroup q (h.closed q k e)
  · intro q k hk
    rcases put_isSome hk with e | e
    · have : k = n := (List.append_inj' e rfl).2 |> List.cons.inj |>.1
      rw [this]
      exact hn
    · exact h.names q k e
  · rintro q ⟨A, hA⟩ r hr
    by_cases e : q = p ++ [n]
    · subst e
      rw [put_self] at hA
      exact .inl ((hg A (Option.some.inj hA)).2 r hr)
    · rw [put_other _ _ e] at hA
      have hqn := h.named (isGroup_ne ⟨A, hA⟩)
      by_cases hk : C.dir (p ++ [n]) <+: C.dir q ++ r
      · right
        rcases dir_comparable hpn hqn hk (List.prefix_append _ _) with e' | e'
        · rw [hbelow q e'] at hA
          cases hA
        · obtain ⟨k, t, h1, h2⟩ := below_name e' e hk
          refine ⟨k, t, hput _ ?_, h2⟩
          rcases prefix_concat_iff.1 h1 with h1 | h1
          · exact .inl (h.some_above (isGroup_ne hgp) h1)
          · exact .inr h1
      · rcases h.known q ⟨A, hA⟩ r (mem_of_get (hch _ hk) hr) with e | ⟨k, t, e1, e2⟩
        · exact .inl e
        · exact .inr ⟨k, t, hput _ (.inl e1), e2⟩
  · intro q o ho
    by_cases e : q = p ++ [n]
    · subst e
      cases x with
      | group A => exact absurd ho (hos' A rfl o)
      | array y => exact ⟨y, put_self _ _ _⟩
    · rw [put_other _ _ e]
      exact h.objects q o (hmem q e o ho)

/-- a node is removed -/
theorem Inv.prune (h : C.Inv L T os b) (hp : p ≠ []) (hT : T p ≠ none) (hwf : b'.WF)
    (hget : ∀ k, b'.get k = if dirPrefix (C.key p) <+: k then none else b.get k) :
    C.Inv L (T.prune p) (os.filter fun e => ¬ p <+: e.1) b' := by
  have hpn := h.named hT
  rw [dirPrefix_key hpn] at hget
  have hch : ∀ k, ¬ C.dir p <+: k → b'.get k = b.get k := fun k hk => by rw [hget, if_neg hk]
  have hkeep : ∀ q, ¬ p <+: q → T.prune p q = T q := fun q hq => if_neg hq
  have hgone : ∀ q, p <+: q → T.prune p q = none := fun q hq => if_pos hq
  have hof : ∀ q v, T.prune p q = some v → T q = some v ∧ ¬ p <+: q := by
    intro q v hq
    by_cases e : p <+: q
    · rw [hgone q e] at hq; cases hq
    · rw [hkeep q e] at hq; exact ⟨hq, e⟩
  refine ⟨hwf, ?_, ?_, ?_, ?_, ?_, ?_, ?_⟩
  · intro q A hq
    obtain ⟨hq, e⟩ := hof q _ hq
    exact h.keep_group hpn hch hq e
  · intro q y hq
    obtain ⟨hq, e⟩ := hof q _ hq
    refine h.keep_array hpn hch hq e (fun e' => ?_) fun o ho => (List.mem_filter.1 ho).1
    rw [h.leaf hq e' (fun e2 => e (by rw [e2]; exact List.prefix_refl _))] at hT
    exact hT rfl
  · obtain ⟨A, hA⟩ := h.top
    exact ⟨A, by rw [hkeep _ fun e => hp (List.prefix_nil.1 e)]; exact hA⟩
  · intro q k hk
    have e : ¬ p <+: q ++ [k] := fun e => hk (hgone _ e)
    rw [hkeep _ e] at hk
    obtain ⟨A, hA⟩ := h.closed q k hk
    exact ⟨A, by rw [hkeep _ fun e' => e (prefix_concat_iff.2 (.inl e'))]; exact hA⟩
  · intro q k hk
    have e : ¬ p <+: q ++ [k] := fun e => hk (hgone _ e)
    rw [hkeep _ e] at hk
    exact h.names q k hk
  · rintro q ⟨A, hA⟩ r hr
    obtain ⟨hA, e⟩ := hof q _ hA
    have hqn := h.named (isGroup_ne ⟨A, hA⟩)
    have hk : ¬ C.dir p <+: C.dir q ++ r := by
      intro hk
      rw [mem_keys, hget, if_pos hk] at hr
      cases hr
    rcases h.known q ⟨A, hA⟩ r (mem_of_get (hch _ hk) hr) with e' | ⟨k, t, e1, e2⟩
    · exact .inl e'
    · refine .inr ⟨k, t, ?_, e2⟩
      rw [hkeep]
      · exact e1
      · intro e'
        rcases prefix_concat_iff.1 e' with e' | e'
        · exact e e'
        · refine hk ?_
          rw [e', dir_concat, e2]
          exact ⟨t, by simp⟩
  · intro q o ho
    obtain ⟨h1, h2⟩ := List.mem_filter.1 ho
    have h2 : ¬ p <+: q := by simpa using h2
    rw [hkeep q h2]
    exact h.objects q o h1

/-! ### What is there -/

/-- where the tree has nothing, there are no objects -/
theorem Inv.absent (h : C.Inv L T os b) : ∀ (l : Nat) {p : Path}, p.length ≤ l → T p = none → T.Clear p →
    (∀ n ∈ p, NodeName n) → (∀ k ∈ b.keys, ¬ C.dir p <+: k) ∧ C.key p ∉ b.keys
  | 0, p, hl, hp, _, _ => by
    have : p = [] := List.eq_nil_of_length_eq_zero (by omega)
    subst this
    exact absurd hp (isGroup_ne h.top)
  | l + 1, p, hl, hp, hc, hn => by
    rcases last_cases p with rfl | ⟨r, n, rfl⟩
    · exact absurd hp (isGroup_ne h.top)
    · have hrn : ∀ x ∈ r, NodeName x := fun x hx => hn x (List.mem_append_left _ hx)
      have hnn : NodeName n := hn n (by simp)
      have hne : r ≠ r ++ [n] := by simp
      rw [key_concat hrn]
      cases e : T r with
      | none =>
        have hc' : T.Clear r := fun q hq hne' a => hc q (hq.trans (List.prefix_append _ _)) (by
          rintro rfl
          exact absurd hq.length_le (by simp)) a
        obtain ⟨h1, _⟩ := h.absent l (by simp at hl; omega) e hc' hrn
        refine ⟨fun k hk hd => h1 k hk ?_, fun hk => h1 _ hk (List.prefix_append _ _)⟩
        exact (dir_mono (List.prefix_append r [n])).trans hd
      | some x =>
        cases x with
        | array x => exact absurd e (hc r (List.prefix_append _ _) hne x)
        | group A =>
          have hk := h.known r ⟨A, e⟩
          refine ⟨fun k hkk hd => ?_, fun hkk => ?_⟩
          · obtain ⟨u, rfl⟩ := hd
            rw [dir_concat] at hkk
            rcases hk (n.toList ++ '/' :: u) (by simpa using hkk) with ⟨m, hm, e1⟩ | ⟨m, t, e1, e2⟩
            · exact meta_slash hm (by rw [← e1]; simp)
            · have := (slash_split hnn.2.1 (h.names r m e1).2.1 e2).1
              rw [← String.toList_inj.1 this] at e1
              exact e1 hp
          · rcases hk n.toList hkk with ⟨m, hm, e1⟩ | ⟨m, t, e1, e2⟩
            · have := String.toList_inj.1 e1
              subst this
              exact metaName_iff.1 hm hnn.2.2
            · exact hnn.2.1 (by rw [e2]; simp)

theorem Inv.not_exists (h : C.Inv L T os b) (hp : T p = none) (hc : T.Clear p) (hn : ∀ n ∈ p, NodeName n) :
    ¬ b.Exists (C.key p) := by
  rintro ⟨k, hk, hd⟩
  rw [dirPrefix_key hn] at hd
  exact (h.absent _ (Nat.le_refl _) hp hc hn).1 k hk hd

theorem Inv.exists_ (hL : L.Lawful) (h : C.Inv L T os b) (hp : T p ≠ none) : b.Exists (C.key p) := by
  cases e : T p with
  | none => exact absurd e hp
  | some x =>
    cases x with
    | group A => exact (h.group p A e).exists_
    | array x => exact (h.array p x e).exists_ hL

/-- `HasNode` is what `in` asks for -/
theorem hasNode_iff (hn : ∀ n ∈ p, NodeName n) (hp : p ≠ []) : b.HasNode (C.key p) ↔ C.key p ∈ b.keys ∨ b.Exists (C.key p) := by
  have hd : dirPrefix (C.key p) = C.key p ++ ['/'] := by
    rw [dirPrefix_key hn]
    obtain ⟨r, n, rfl⟩ : ∃ r n, p = r ++ [n] := by
      rcases last_cases p with e | e
      · exact absurd e hp
      · exact e
    rw [dir_concat, key_concat fun x hx => hn x (List.mem_append_left _ hx)]
  unfold Bucket.HasNode Bucket.Exists
  rw [hd]

theorem Inv.hasNode (hL : L.Lawful) (h : C.Inv L T os b) (hn : ∀ n ∈ p, NodeName n) (hp : p ≠ []) (hc : T.Clear p) :
    b.HasNode (C.key p) ↔ T p ≠ none := by
  rw [hasNode_iff hn hp]
  constructor
  · intro hb e
    obtain ⟨h1, h2⟩ := h.absent _ (Nat.le_refl _) e hc hn
    rcases hb with hb | ⟨k, hk, hd⟩
    · exact h2 hb
    · rw [dirPrefix_key hn] at hd
      exact h1 k hk hd
  · exact fun hp => .inr (h.exists_ hL hp)

theorem Inv.isZarr (h : C.Inv L T os b) (hp : T.IsGroup p) : b.IsZarr (C.key p) := by
  obtain ⟨A, hA⟩ := hp
  exact (h.group p A hA).isZarr

/-- `name in group` -/
theorem Inv.contains (hL : L.Lawful) (h : C.Inv L T os b) {g : Path} {n : Key} {m : FileMode} (hg : T.IsGroup g)
    (hs : Spells n p) (hc : T.Clear (g ++ p)) :
    ((C.group g m).contains n).Does 2 b (.ok (T (g ++ p)).isSome) b := by
  classical
  unfold S3PyGroup.contains
  rw [hs.strip]
  have hgn := h.named (isGroup_ne hg)
  have h1 := has_does (C.group g m).handle p.text b
  have hj : joinKey (C.group g m).handle.name p.text = C.key (g ++ p) := joinKey_key hgn hs.1
  rw [hj] at h1
  have : decide (b.HasNode (C.key (g ++ p))) = (T (g ++ p)).isSome := by
    rw [Bool.eq_iff_iff, decide_eq_true_iff, h.hasNode hL (append_named hgn hs.2.1) (by simp [hs.1]) hc]
    cases T (g ++ p) <;> simp
  rw [this] at h1
  exact h1

end S3Container

end Z5
