import Verif.Spec.NodesCrash
import Verif.Props.Container
import Verif.Props.Steps

/-!
# C95: crashes while nodes of a container on files are created, removed or get attributes
-/

namespace Z5.Props
open Spec

variable {Ty : ElemTypes} {C : Container} {L : Libs} {T : Tree Ty} {os : List (Path × DatasetObj)} {σ σ' : Fs} {D : Disk}

theorem ArrayAt_shows (hL : L.Lawful) {p : Path} {x : ArrayItem Ty} {o : DatasetObj} (ha : C.ArrayAt L os σ p x) (ho : (p, o) ∈ os) :
    C.Shows L σ p x o := by
  refine ⟨?_, ?_⟩
  · rcases ha with ha | ha
    case inr => exact ha.read hL ho
    obtain ⟨o₀, d₀, os', ws, ha⟩ := ha
    obtain ⟨d, A, h1, h2, h3, h4⟩ := c64_read (ha.is.law hL) ha.is.desc ha.is.typed ha.is.wf ha.is.keys ha.sessions (ha.objects o ho)
    rw [ha.is.shape] at h2 h4
    rw [ha.is.fill, ha.content] at h4
    exact ⟨d, A, h1, h2, h3, h4⟩
  · obtain ⟨hr, hp⟩ := ha.refers hL ho
    obtain ⟨j, h1, h2⟩ := Target.read_ok hr
    refine ⟨j, h1, fun k => ?_⟩
    rw [h2]
    show (Target.dataset o.handle).shown C.layout (σ.attributes o.handle.path C.layout) k = _
    rw [hp, ha.attrs]

theorem serves_of (hL : L.Lawful) {P : Path → Prop} (hg : ∀ q A, T q = some (.group A) → P q → C.GroupAt σ q A)
    (ha : ∀ q x, T q = some (.array x) → P q → C.ArrayAt L os σ q x) : C.Serves L T P os σ where
  attributes g A m hT hP := by
    have ha := hg g A hT hP
    obtain ⟨j, h1, h2⟩ := Target.read_ok (ha.refers m)
    refine ⟨j, h1, fun k => ?_⟩
    rw [h2, Container.attrsOf_path, ha.attrs]
    unfold Container.attrsOf
    by_cases hg0 : g = []
    · rw [if_pos hg0]; cases C.layout <;> rfl
    · rw [if_neg hg0]; cases C.layout <;> rfl
  groups g n m A hT hP hT' hP' := by
    obtain ⟨B, hB⟩ := hT
    have hz := (hg g B hB hP).isZarr m
    have ha := hg _ A hT' hP'
    unfold PyGroup.getItem
    rw [FsM.bind_run, contains_run, Container.group_path, ha.node.dir]
    simp only [isDirectory, Bool.not_true, Bool.false_eq_true, if_false]
    rw [FsM.bind_run, ha.isSubGroup hz]
    simp only [if_true]
    unfold Container.group
    rw [← List.append_assoc]
    rfl
  arrays g n m x hT hP hT' hP' := by
    obtain ⟨B, hB⟩ := hT
    have hz := (hg g B hB hP).isZarr m
    have ha := ha _ x hT' hP'
    obtain ⟨o, h1, h2, h3, h4, h5, h6⟩ := ha.opened hL hz
    refine ⟨o, ?_, h2, h3, h4, h5, ArrayAt_shows hL h6 (List.mem_cons_self ..)⟩
    unfold PyGroup.getItem
    rw [FsM.bind_run, contains_run, Container.group_path, ha.dir hL _ (List.prefix_refl _)]
    simp only [isDirectory, Bool.not_true, Bool.false_eq_true, if_false]
    rw [FsM.bind_run, ha.isSubGroup hL hz]
    simp only [Bool.false_eq_true, if_false]
    rw [FsM.bind_run, h1]
    rfl
  objects p o x ho hT hP := ArrayAt_shows hL (ha p x hT hP) ho

/-- a change at and below a node, or where a node may be made -/
theorem serves_below (hL : L.Lawful) (h : History C L Ty T os σ) {r : Path} {n : String} (hn : PlainName n) (hr : T.IsGroup r)
    (hch : ∀ q, ¬ C.root ++ (r ++ [n]) <+: q → σ' q = σ q) : C.Serves L T (fun q => ¬ r ++ [n] <+: q) os σ' := by
  have hI := Container.inv_of_history hL h
  refine serves_of hL (fun q A hq hP => hI.keep_group hch hq hP fun k e => ?_) (fun q x hq hP => hI.keep_array hch hq hP (fun e => ?_) fun _ h => h)
  · obtain ⟨_, e⟩ := List.append_inj' e rfl
    cases e
    exact hn
  · rcases prefix_concat_iff.1 e with e | e
    · obtain ⟨B, hB⟩ := hr
      by_cases e' : q = r
      · rw [e', hB] at hq; cases hq
      · rw [hI.leaf hq e e'] at hB; cases hB
    · exact hP (by rw [e]; exact List.prefix_refl _)

theorem split_last {p : Path} (h : p ≠ []) : ∃ r n, p = r ++ [n] := by
  rcases last_cases p with e | e
  · exact absurd e h
  · exact e

/-- what `del` of a node of the tree leaves, when it completes (with shards it may not) -/
theorem history_prune (hL : L.Lawful) (h : History C L Ty T os σ) {p : Path} (hp : p ≠ []) (hT : T p ≠ none)
    (hsh : ∀ x, T p = some (.array x) → x.shards = none) :
    History C L Ty (T.prune p) (os.filter fun e => ¬ p <+: e.1) (σ.without (C.root ++ p)) := by
  have hI := Container.inv_of_history hL h
  obtain ⟨A, hA, _⟩ := hI.top
  rcases (c66_delete hL h (g := []) ⟨A, hA⟩ ⟨false, p⟩ hp (hI.clear_of_some hT) .a).2.2 (by decide) hT with h' | ⟨⟨x, hx, hne⟩, _⟩
  · exact h'.2
  · exact absurd (hsh x hx) hne

theorem removing_without {c : Bool} {p : Path} (hc : c = true) (hp : σ p ≠ none) : removing c p σ = (.ok (), σ.without p) := by
  subst hc
  unfold removing
  rw [if_neg (by decide), FsM.bind_run, FsM.exist_run]
  cases e : σ p with
  | none => exact absurd e hp
  | some _ => rfl

theorem without_congr {p : Path} (h : ∀ q, ¬ p <+: q → σ' q = σ q) : σ'.without p = σ.without p := funext fun q => by
  unfold Fs.without
  split
  · rfl
  · exact h q ‹_›

theorem without_of_none {p : Path} (hσ : σ.WF) (hd : σ p = none) : σ.without p = σ := funext fun q => by
  unfold Fs.without
  split
  · rename_i hq
    obtain ⟨r, rfl⟩ := hq
    by_cases hr : r = []
    · rw [hr, List.append_nil, hd]
    · refine Eq.symm (Classical.byContradiction fun e => ?_)
      rw [hσ _ r hr e] at hd
      cases hd
  · rfl

/-- **C95, removing a group.**  The process is killed at any point while a group is removed.  All other nodes are there as before.
To remove the group again completes the removal: it succeeds if the directory is still there, and otherwise the group was already removed. -/
theorem c95_remove_group (hL : L.Lawful) (h : History C L Ty T os σ) {p : Path} (hp : p ≠ []) (hT : T.IsGroup p) (m : FileMode)
    (hD : D.Removes σ (C.root ++ p)) (k : Nat) :
    let σ' := (Stepwise.removeGroup D (C.group p m).handle).crash k σ
    C.Serves L T (fun q => ¬ p <+: q) os σ' ∧
    (∀ m', m' ≠ .r → σ' (C.root ++ p) ≠ none → ∃ σ'', (C.group p m').handle.remove σ' = (.ok (), σ'') ∧
      History C L Ty (T.prune p) (os.filter fun e => ¬ p <+: e.1) σ'') ∧
    (σ' (C.root ++ p) = none → History C L Ty (T.prune p) (os.filter fun e => ¬ p <+: e.1) σ') := by
  have hI := Container.inv_of_history hL h
  have hne : T p ≠ none := by
    obtain ⟨A, hA⟩ := hT
    rw [hA]; exact fun e => by cases e
  intro σ'
  obtain ⟨h1, _, h3, _⟩ := c75_remove_group (g := (C.group p m).handle) hD hI.wf k
  have h1 : ∀ q, ¬ C.root ++ p <+: q → σ' q = σ q := h1
  have h3 : σ'.WF := h3
  have hw : σ'.without (C.root ++ p) = σ.without (C.root ++ p) := without_congr h1
  have hH := history_prune hL h hp hne fun x hx => by
    obtain ⟨A, hA⟩ := hT
    rw [hA] at hx; cases hx
  rw [← hw] at hH
  refine ⟨?_, fun m' hm' hd => ⟨_, removing_without (canWrite_of_ne hm') hd, hH⟩, fun hd => ?_⟩
  · obtain ⟨r, n, rfl⟩ := split_last hp
    exact serves_below hL h (hI.names r n hne) (hI.closed r n hne) h1
  · rw [without_of_none h3 hd] at hH
    exact hH

/-- **C95, removing a dataset.**  The same for `remove` of the handle of an array without shards; its objects are those that are open. -/
theorem c95_remove_dataset (hL : L.Lawful) (h : History C L Ty T os σ) {p : Path} {x : ArrayItem Ty} {o : DatasetObj} (hT : T p = some (.array x))
    (ho : (p, o) ∈ os) (hsh : x.shards = none) (hD : D.Removes σ (C.root ++ p)) (k : Nat) :
    let σ' := (Stepwise.removeDataset D o.handle).crash k σ
    C.Serves L T (fun q => q ≠ p) os σ' ∧
    (o.handle.mode ≠ .r → σ' (C.root ++ p) ≠ none → ∃ σ'', o.handle.remove σ' = (.ok (), σ'') ∧
      History C L Ty (T.prune p) (os.filter fun e => ¬ p <+: e.1) σ'') ∧
    (σ' (C.root ++ p) = none → History C L Ty (T.prune p) (os.filter fun e => ¬ p <+: e.1) σ') := by
  have hI := Container.inv_of_history hL h
  have hne : T p ≠ none := by rw [hT]; exact fun e => by cases e
  have hp : p ≠ [] := by
    rintro rfl
    obtain ⟨A, hA, _⟩ := hI.top
    rw [hT] at hA; cases hA
  have hpath := ((hI.array _ _ hT).refers hL ho).2
  intro σ'
  obtain ⟨h1, _, h3, _⟩ := c75_remove_dataset (d := o.handle) (by rw [hpath]; exact hD) hI.wf k
  rw [hpath] at h1
  have h1 : ∀ q, ¬ C.root ++ p <+: q → σ' q = σ q := h1
  have h3 : σ'.WF := h3
  have hw : σ'.without (C.root ++ p) = σ.without (C.root ++ p) := without_congr h1
  have hH := history_prune hL h hp hne fun y hy => by
    rw [hT] at hy; cases hy; exact hsh
  rw [← hw] at hH
  refine ⟨?_, fun hm' hd => ⟨_, ?_, hH⟩, fun hd => ?_⟩
  · obtain ⟨r, n, rfl⟩ := split_last hp
    have hs := serves_below hL h (hI.names r n hne) (hI.closed r n hne) h1
    have hq : ∀ q, T q ≠ none → q ≠ r ++ [n] → ¬ r ++ [n] <+: q := fun q hq hn e => hq (hI.leaf hT e (Ne.symm hn))
    have some_ne : ∀ {q y}, T q = some y → T q ≠ none := fun e => by rw [e]; exact fun e => by cases e
    exact {
      attributes := fun g A m hT hP => hs.attributes g A m hT (hq _ (some_ne hT) hP)
      groups := fun g n m A hg hP hT hP' => hs.groups g n m A hg (hq _ (by obtain ⟨B, hB⟩ := hg; exact some_ne hB) hP) hT (hq _ (some_ne hT) hP')
      arrays := fun g n m A hg hP hT hP' => hs.arrays g n m A hg (hq _ (by obtain ⟨B, hB⟩ := hg; exact some_ne hB) hP) hT (hq _ (some_ne hT) hP')
      objects := fun p o x ho hT hP => hs.objects p o x ho hT (hq _ (some_ne hT) hP) }
  · have := removing_without (p := o.handle.path) (canWrite_of_ne hm') (by rw [hpath]; exact hd)
    rw [hpath] at this
    show removing o.handle.mode.canWrite o.handle.path σ' = _
    rw [hpath]
    exact this
  · rw [without_of_none h3 hd] at hH
    exact hH

/-! ### creating -/

theorem top_dir (hL : L.Lawful) (h : History C L Ty T os σ) : σ [] = some .dir := by
  have hI := Container.inv_of_history hL h
  obtain ⟨A, hA, _⟩ := hI.top
  have hd := hI.dir hL (p := []) (by rw [hA]; exact fun e => by cases e)
  rw [List.append_nil] at hd
  by_cases e : C.root = []
  · rw [e] at hd; exact hd
  · exact hI.wf [] C.root e (by rw [List.nil_append, hd]; exact fun e => by cases e)

/-- what is left of a creation, and its removal -/
theorem onlyNew_without (hL : L.Lawful) (h : History C L Ty T os σ) {r : Path} {n : String} (hr : T.IsGroup r) (hn : PlainName n)
    (hT : T (r ++ [n]) = none) (ho : σ.OnlyNew σ' (C.root ++ (r ++ [n]))) :
    (∀ q, ¬ C.root ++ (r ++ [n]) <+: q → σ' q = σ q) ∧ σ'.without (C.root ++ (r ++ [n])) = σ := by
  have hI := Container.inv_of_history hL h
  have hdir : σ (C.root ++ r) = some .dir := hI.dir hL (by obtain ⟨A, hA⟩ := hr; rw [hA]; exact fun e => by cases e)
  have hab : σ (C.root ++ (r ++ [n])) = none := (hI.known r n hr hT).2 hn
  have h1 : ∀ q, ¬ C.root ++ (r ++ [n]) <+: q → σ' q = σ q := fun q hq => by
    cases e : σ q with
    | some v => rw [ho.kept q (by rw [e]; exact fun e => by cases e), e]
    | none =>
      refine Classical.byContradiction fun hne => ?_
      rcases ho.new q e hne with ⟨e1, _⟩ | ⟨k, _, e1⟩
      · rw [← List.append_assoc] at e1
        rcases prefix_concat_iff.1 e1 with e2 | e2
        · obtain ⟨t, ht⟩ := e2
          by_cases h0 : t = []
          · rw [h0, List.append_nil] at ht
            rw [ht, hdir] at e; cases e
          · rw [hI.wf q t h0 (by rw [ht, hdir]; exact fun e => by cases e)] at e
            cases e
        · exact hq (by rw [e2, List.append_assoc]; exact List.prefix_refl _)
      · exact hq (by rw [e1]; exact List.prefix_append _ _)
  refine ⟨h1, funext fun q => ?_⟩
  unfold Fs.without
  split
  · rename_i hq
    obtain ⟨t, rfl⟩ := hq
    by_cases h0 : t = []
    · rw [h0, List.append_nil, hab]
    · refine Eq.symm (Classical.byContradiction fun e => ?_)
      rw [hI.wf _ t h0 e] at hab
      cases hab
  · exact h1 q ‹_›

theorem serves_all {r : Path} {n : String} (hL : L.Lawful) (h : History C L Ty T os σ) (hT : T (r ++ [n]) = none)
    (hs : C.Serves L T (fun q => ¬ r ++ [n] <+: q) os σ') : C.Serves L T (fun _ => True) os σ' := by
  have hI := Container.inv_of_history hL h
  have hq : ∀ {q y}, T q = some y → ¬ r ++ [n] <+: q := fun e hp => hI.some_above (by rw [e]; exact fun e => by cases e) hp hT
  exact {
    attributes := fun g A m hT _ => hs.attributes g A m hT (hq hT)
    groups := fun g n m A hg _ hT _ => hs.groups g n m A hg (by obtain ⟨B, hB⟩ := hg; exact hq hB) hT (hq hT)
    arrays := fun g n m A hg _ hT _ => hs.arrays g n m A hg (by obtain ⟨B, hB⟩ := hg; exact hq hB) hT (hq hT)
    objects := fun p o x ho hT _ => hs.objects p o x ho hT (hq hT) }

/-- **C95, creating a group.**  The process is killed at any point while the group `name` is created in a group of the container.
All nodes of the container are there as before.  The container is as before, or has the new group, or there is a directory that cannot be read as a group; in that case
(and also if the group is complete) to remove it makes the container what it was. -/
theorem c95_create_group (hL : L.Lawful) (h : History C L Ty T os σ) {g ks : Path} {n : String} (hr : T.IsGroup (g ++ ks)) (hn : PlainName n)
    (hT : T (g ++ ks ++ [n]) = none) (m : FileMode) (k : Nat) :
    let σ' := (Stepwise.createGroup D (C.group g m).handle (ks ++ [n]) C.format).crash k σ
    C.Serves L T (fun _ => True) os σ' ∧
    (σ' = σ ∨ History C L Ty (T.add (g ++ ks ++ [n]) (.group fun _ => none)) os σ' ∨
      ∃ e, (C.group (g ++ ks ++ [n]) m).handle.readMetadata σ' = (.throw e, σ')) ∧
    ∀ m', m' ≠ .r → σ' (C.root ++ (g ++ ks ++ [n])) ≠ none → (C.group (g ++ ks ++ [n]) m').handle.remove σ' = (.ok (), σ) := by
  have hI := Container.inv_of_history hL h
  have hpath : (C.group g m).handle.path ++ (ks ++ [n]) = C.root ++ (g ++ ks ++ [n]) := by
    rw [Container.group_path, List.append_assoc]
  have h0 := top_dir hL h
  intro σ'
  obtain ⟨h1, h2⟩ := c75_create_group (D := D) (root := (C.group g m).handle) (key := ks ++ [n]) (format := C.format) hI.wf h0 k
  rw [hpath] at h1 h2
  obtain ⟨h3, h4⟩ := onlyNew_without hL h hr hn hT h1
  refine ⟨serves_all hL h hT (serves_below hL h hn hr h3), ?_, fun m' hm' hd => ?_⟩
  · rcases h2 with e | e | ⟨_, x, e⟩
    · exact .inl e
    · have e : σ' = ((C.group g m).handle.createGroup (ks ++ [n]) C.format σ).2 := e
      by_cases hm : m = .r
      · left
        rw [e]
        subst hm
        exact (c31_container (op := .createGroup (C.group g .r).handle (ks ++ [n]) C.format) rfl σ).1
      · obtain ⟨σ'', e1, e2⟩ := (c66_create_group hL h hr hn m).2.2 hm hT
        right; left
        unfold PyGroup.createGroup at e1
        split at e1
        · cases e1
        · obtain ⟨_, σ1, e3, e4⟩ := FsM.bind_ok.1 e1
          rw [contains_run] at e3
          cases e3
          split at e4
          · cases e4
          · obtain ⟨_, σ2, e5, e6⟩ := FsM.bind_ok.1 e4
            have e6 : σ2 = σ'' := congrArg Prod.snd e6
            subst e6
            have e5 : (C.group g m).handle.createGroup (ks ++ [n]) C.format σ = (.ok (), σ2) := e5
            rw [e, e5]
            exact e2
    · refine .inr (.inr ⟨x, ?_⟩)
      have : (C.group g m).handle.group (ks ++ [n]) = (C.group (g ++ ks ++ [n]) m).handle := by
        unfold Container.group GroupHandle.group
        simp
      rw [← this]
      exact e
  · have := removing_without (canWrite_of_ne hm') hd
    rw [h4] at this
    exact this

/-- **C95, creating a dataset.**  The same for a dataset, with any arguments: the file system is as before, or that after a complete call, or the
dataset cannot be opened. -/
theorem c95_create_dataset (hL : L.Lawful) (h : History C L Ty T os σ) {g ks : Path} {n : String} (hr : T.IsGroup (g ++ ks)) (hn : PlainName n)
    (hT : T (g ++ ks ++ [n]) = none) (m : FileMode) (a : CreateArgs) (k : Nat) :
    let σ' := (Stepwise.createDataset D (C.group g m).handle (ks ++ [n]) a).crash k σ
    C.Serves L T (fun _ => True) os σ' ∧
    (σ' = σ ∨ σ' = ((C.group g m).handle.createDataset (ks ++ [n]) a σ).2 ∨
      ∃ e, (C.group g m).handle.openDataset (ks ++ [n]) σ' = (.throw e, σ')) ∧
    ∀ m', m' ≠ .r → σ' (C.root ++ (g ++ ks ++ [n])) ≠ none → (C.group (g ++ ks ++ [n]) m').handle.remove σ' = (.ok (), σ) := by
  have hI := Container.inv_of_history hL h
  have hpath : (C.group g m).handle.path ++ (ks ++ [n]) = C.root ++ (g ++ ks ++ [n]) := by
    rw [Container.group_path, List.append_assoc]
  intro σ'
  obtain ⟨h1, h2⟩ := c75_create_dataset (D := D) (root := (C.group g m).handle) (key := ks ++ [n]) (a := a) hI.wf (top_dir hL h) k
  rw [hpath] at h1 h2
  obtain ⟨h3, h4⟩ := onlyNew_without hL h hr hn hT h1
  refine ⟨serves_all hL h hT (serves_below hL h hn hr h3), ?_, fun m' hm' hd => ?_⟩
  · rcases h2 with e | e | ⟨_, e⟩
    · exact .inl e
    · exact .inr (.inl e)
    · exact .inr (.inr e)
  · have := removing_without (canWrite_of_ne hm') hd
    rw [h4] at this
    exact this

/-! ### attributes -/

/-- a change of one document of a node -/
theorem serves_document (hL : L.Lawful) (h : History C L Ty T os σ) {p : Path} (hT : T p ≠ none)
    (hch : ∀ q, q ≠ C.root ++ p ++ [C.layout.file] → σ' q = σ q) : C.Serves L T (fun q => q ≠ p) os σ' := by
  have hI := Container.inv_of_history hL h
  have hfile : ¬ PlainName C.layout.file := fun hp => hp (by cases C.layout <;> simp [Layout.file])
  have hno : T (p ++ [C.layout.file]) = none := Classical.byContradiction fun e => hfile (hI.names p _ e)
  refine serves_of hL (fun q A hq hP => ?_) fun q x hq hP => ?_
  · refine (hI.group q A hq).congr (hch _ fun e => ?_) fun n _ => hch _ fun e => ?_
    · rw [List.append_assoc] at e
      rw [List.append_cancel_left e, hno] at hq
      cases hq
    · exact hP (List.append_cancel_left (List.append_inj' e rfl).1)
  · refine (hI.array q x hq).elsewhere fun s hs => hch s ?_
    rintro rfl
    rw [List.append_assoc] at hs
    rcases hs with e | e
    · have e := Container.append_prefix.1 e
      exact hI.some_above (by rw [hq]; exact fun e => by cases e) e hno
    · rcases prefix_concat_iff.1 (Container.append_prefix.1 e) with e | e
      · exact hT (hI.leaf hq e hP)
      · rw [e, hno] at hq
        cases hq

/-- **C95, attributes of groups.**  The process is killed at any point while an attribute of a group is set or removed.  All other nodes are there as
before.  The container is as before or as after the complete call, or the document of the attributes is damaged: reading the attributes throws. -/
theorem c95_group_attributes (hL : L.Lawful) (h : History C L Ty T os σ) {g : Path} {A : AttrMap} (hg : T g = some (.group A)) (m : FileMode)
    {op : AttrOp} (hv : op.Valid)
    (h5 : C.isZarr = false → op.names ["dimensions", "blockSize", "dataType", "compressionType", "compression"] = false) (k : Nat) :
    let σ' := ((C.attrsOf g m).steps D op).crash k σ
    C.Serves L T (fun q => q ≠ g) os σ' ∧
    (History C L Ty T os σ' ∨ History C L Ty (T.put g (.group (op.apply A))) os σ' ∨
      (C.attrsOf g m).read σ' = (.throw .typeError, σ')) := by
  have hI := Container.inv_of_history hL h
  have ha := hI.group _ _ hg
  intro σ'
  obtain ⟨h1, h2⟩ := c75_attributes (D := D) (op := op) (ha.refers m) k
  rw [Container.attrsOf_path] at h1
  refine ⟨serves_document hL h (by rw [hg]; exact fun e => by cases e) h1, ?_⟩
  rcases h2 with e | e | ⟨e, _⟩
  · exact .inl (by rw [show σ' = σ from e]; exact h)
  · have e : σ' = ((C.attrsOf g m).change op σ).2 := e
    obtain ⟨_, c2⟩ := c66_group_attributes hL h hg m
    obtain ⟨d1, d2, d3⟩ := c2 op hv h5
    by_cases hm : m = .r
    · exact .inl (by rw [e, d1 hm]; exact h)
    · by_cases hb : C.isZarr = false ∧ g = [] ∧ op.names ["n5"] = true
      · exact .inl (by rw [e, d2 hm hb]; exact h)
      · obtain ⟨σ'', e1, e2⟩ := d3 hm hb
        exact .inr (.inl (by rw [e, e1]; exact e2))
  · exact .inr (.inr e)

/-- **C95, attributes of arrays.** -/
theorem c95_array_attributes (hL : L.Lawful) (h : History C L Ty T os σ) {p : Path} {x : ArrayItem Ty} {o : DatasetObj} (ho : (p, o) ∈ os)
    (hx : T p = some (.array x)) {op : AttrOp} (hv : op.Valid) (k : Nat) :
    let σ' := ((Target.dataset o.handle).steps D op).crash k σ
    C.Serves L T (fun q => q ≠ p) os σ' ∧
    (History C L Ty T os σ' ∨ History C L Ty (T.put p (.array { x with attrs := op.apply x.attrs })) os σ' ∨
      (Target.dataset o.handle).read σ' = (.throw .typeError, σ')) := by
  have hI := Container.inv_of_history hL h
  obtain ⟨hr, hp⟩ := (hI.array _ _ hx).refers hL ho
  intro σ'
  obtain ⟨h1, h2⟩ := c75_attributes (D := D) (op := op) hr k
  have h1 : ∀ q, q ≠ o.handle.path ++ [C.layout.file] → σ' q = σ q := h1
  rw [hp] at h1
  refine ⟨serves_document hL h (by rw [hx]; exact fun e => by cases e) h1, ?_⟩
  rcases h2 with e | e | ⟨e, _⟩
  · exact .inl (by rw [show σ' = σ from e]; exact h)
  · have e : σ' = ((Target.dataset o.handle).change op σ).2 := e
    obtain ⟨_, c2⟩ := c66_array_attributes hL h ho hx
    obtain ⟨d1, d2, d3⟩ := c2 op hv
    by_cases hm : o.handle.mode = .r
    · exact .inl (by rw [e, d1 hm]; exact h)
    · by_cases hb : C.isZarr = false ∧ op.names ["dimensions", "blockSize", "dataType", "compressionType", "compression"] = true
      · exact .inl (by rw [e, d2 hm hb]; exact h)
      · obtain ⟨σ'', e1, e2⟩ := d3 hm hb
        exact .inr (.inl (by rw [e, e1]; exact e2))
  · exact .inr (.inr e)

/-! ### Examples -/

/-- A disk that removes the documents of a directory, and then the directory. -/
def exNodeDisk : Disk where
  torn _ := []
  order σ p := (([".zgroup", ".zarray", "zarr.json", "attributes.json"].map fun n => p ++ [n]) ++ [p]).filter fun q => (σ q).isSome

/-- It removes what `create_group` or `create_dataset` has made in a place where nothing was. -/
theorem exNodeDisk_removes {σ σ' : Fs} {p : Path} (h0 : ∀ q, p <+: q → σ q = none) (ho : σ.OnlyNew σ' p) :
    exNodeDisk.Removes σ' p where
  all q := by
    show q ∈ List.filter _ _ ↔ _
    rw [List.mem_filter, Option.isSome_iff_ne_none, List.mem_append, List.mem_map, List.mem_singleton]
    constructor
    · rintro ⟨⟨n, _, rfl⟩ | rfl, h⟩
      · exact ⟨List.prefix_append _ _, h⟩
      · exact ⟨List.prefix_refl _, h⟩
    · rintro ⟨hp, h⟩
      refine ⟨?_, h⟩
      rcases ho.new q (h0 q hp) h with ⟨e, _⟩ | ⟨n, hn, e⟩
      · exact .inr (hp.eq_of_length_le e.length_le).symm
      · exact .inl ⟨n, hn, e.symm⟩
  inner := by
    refine List.Pairwise.sublist List.filter_sublist ?_
    have hp : ∀ n : String, ¬ p ++ [n] <+: p := fun n h => by
      have := h.length_le
      simp at this
      exact Nat.not_succ_le_self _ this
    simp [List.pairwise_cons, hp]

/-- A container with an array `d` and a group `h`.  The process is killed while it creates `x`, or while it removes `h`: at any step, `d`
can be opened and has its elements.  If `h` is still there, removing it again makes the container what a complete removal makes of it. -/
example : ∃ (T : Tree exTypes) (o : DatasetObj) (σ : Fs), History exC exLibs exTypes T [(["d"], o)] σ ∧
    T ["d"] = some (.array exItem) ∧ T.IsGroup ["h"] ∧ T ["x"] = none ∧
    (∀ k, exC.Shows exLibs ((Stepwise.createGroup exNodeDisk (exC.group [] .a).handle ["x"] 2).crash k σ) ["d"] exItem o) ∧
    ∀ k, let σ' := (Stepwise.removeGroup exNodeDisk (exC.group ["h"] .a).handle).crash k σ
      exC.Shows exLibs σ' ["d"] exItem o ∧
      (σ' ["c.zarr", "h"] ≠ none → ∃ σ'', (exC.group ["h"] .a).handle.remove σ' = (.ok (), σ'') ∧
        History exC exLibs exTypes (T.prune ["h"]) [(["d"], o)] σ'') := by
  obtain ⟨o1, σ1, e1, m1, _, _, _, h1⟩ := (c66_create_array (exLibs_lawful _) exCfs_history (g := []) (key := ["d"]) ⟨_, rfl⟩
    (by decide) (by unfold PlainName; decide) ((Container.inv_of_history (exLibs_lawful _) exCfs_history).clear_of_group (p := []) ⟨_, rfl⟩)
    exItem_asked .a).2.2 (by decide) rfl
  obtain ⟨σ2, e2, h2⟩ := (c66_create_group (exLibs_lawful _) h1 (g := []) (ks := []) (n := "h") ⟨_, rfl⟩
    (by unfold PlainName; decide) .a).2.2 (by decide) rfl
  have hI := Container.inv_of_history (exLibs_lawful _) h1
  have h0 : ∀ q, ["c.zarr", "h"] <+: q → σ1 q = none := by
    have hab : σ1 (exC.root ++ ([] ++ ["h"])) = none := (hI.known [] "h" ⟨_, rfl⟩ rfl).2 (by unfold PlainName; decide)
    rintro q ⟨t, rfl⟩
    by_cases ht : t = []
    · rw [ht, List.append_nil]; exact hab
    · refine Classical.byContradiction fun e => ?_
      rw [show σ1 (exC.root ++ ([] ++ ["h"])) = some .dir from hI.wf _ t ht e] at hab
      cases hab
  have ho : σ1.OnlyNew σ2 ["c.zarr", "h"] := by
    have e3 : (exC.group [] .a).handle.createGroup ["h"] 2 σ1 = (.ok (), σ2) := by
      unfold PyGroup.createGroup at e2
      split at e2
      · cases e2
      · obtain ⟨_, σ3, e3, e4⟩ := FsM.bind_ok.1 e2
        rw [contains_run] at e3
        cases e3
        split at e4
        · cases e4
        · obtain ⟨_, σ4, e5, e6⟩ := FsM.bind_ok.1 e4
          have e6 : σ4 = σ2 := congrArg Prod.snd e6
          subst e6
          exact e5
    have htop := top_dir (exLibs_lawful _) h1
    obtain ⟨n, hn⟩ := passes_run (Stepwise.createGroup exNodeDisk (exC.group [] .a).handle ["h"] 2) σ1
    have := (c75_create_group (D := exNodeDisk) (root := (exC.group [] .a).handle) (key := ["h"]) (format := 2) hI.wf htop n).1
    rw [hn, c75_create_group_complete _ _ _ _ htop, e3] at this
    exact this
  refine ⟨_, o1, σ2, h2, rfl, ⟨_, rfl⟩, rfl, fun k => ?_, fun k => ?_⟩
  · exact (c95_create_group (D := exNodeDisk) (exLibs_lawful _) h2 (g := []) (ks := []) (n := "x") ⟨_, rfl⟩
      (by unfold PlainName; decide) rfl .a k).1.objects _ _ _ (List.mem_singleton.2 rfl) rfl trivial
  · obtain ⟨r1, r2, _⟩ := c95_remove_group (exLibs_lawful _) h2 (p := ["h"]) (by decide) ⟨_, rfl⟩ .a
      (exNodeDisk_removes h0 ho) k
    exact ⟨r1.objects _ _ _ (List.mem_singleton.2 rfl) rfl (by decide), r2 .a (by decide)⟩

end Z5.Props
