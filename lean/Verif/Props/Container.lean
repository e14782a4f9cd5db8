import Verif.Proofs.ContainerHist
import Verif.Props.Visit

/-!
# C66: a container is a tree of groups and arrays

At every point in the life of a container the Python module shows the tree that the calls so far have made.
-/

namespace Z5.Props

open Spec

variable {Ty : ElemTypes} {C : Container} {L : Libs} {T : Tree Ty} {os : List (Path × DatasetObj)} {σ : Fs}

/-- **C66, `name in group`.**  The names (that do not lead through an array) are those of the tree. -/
theorem c66_contains (hL : L.Lawful) (h : History C L Ty T os σ) {g : Path} (n : PyName) (hc : T.Clear (g ++ n.parts))
    (m : FileMode) : (C.group g m).contains n σ = (.ok (T (g ++ n.parts)).isSome, σ) :=
  (Container.inv_of_history hL h).contains hL hc m

/-- **C66, `group[name]`.**  It gives the groups and the arrays of the tree, and a `KeyError` for everything else. -/
theorem c66_getitem (hL : L.Lawful) (h : History C L Ty T os σ) {g : Path} (hg : T.IsGroup g) (n : PyName)
    (hc : T.Clear (g ++ n.parts)) (m : FileMode) :
    match T (g ++ n.parts) with
    | none => (C.group g m).getItem n σ = (.throw .keyError, σ)
    | some (.group _) => (C.group g m).getItem n σ = (.ok (.inl (C.group (g ++ n.parts) m)), σ)
    | some (.array x) => ∃ o, (C.group g m).getItem n σ = (.ok (.inr o), σ) ∧ o.handle.mode = m ∧ o.info.dtype = x.dtype ∧
        o.info.shape = x.shape ∧ o.info.chunkShape = x.chunks ∧ History C L Ty T ((g ++ n.parts, o) :: os) σ := by
  have hi := Container.inv_of_history hL h
  have hcn := hi.contains hL hc m
  cases e : T (g ++ n.parts) with
  | none =>
    simp only
    unfold PyGroup.getItem
    rw [FsM.bind_run, hcn, e]
    rfl
  | some y =>
    cases y with
    | group A =>
      simp only
      unfold PyGroup.getItem
      rw [FsM.bind_run, hcn, e]
      simp only [Option.isSome_some, Bool.not_true, Bool.false_eq_true, if_false]
      rw [FsM.bind_run, (hi.group _ _ e).isSubGroup (hi.isZarr hg m)]
      simp only [if_true]
      unfold Container.group GroupHandle.group
      simp only [List.append_assoc]
      rfl
    | array x =>
      obtain ⟨o, h1, h2, h3, h4, h5, _⟩ := hi.getItem_array hL (m := m) hg e
      exact ⟨o, h1, h2, h3, h4, h5, .opened h e hg h1⟩

/-- **C66, `group.keys()`.**  The names of the members are those of the tree. -/
theorem c66_keys (hL : L.Lawful) (h : History C L Ty T os σ) {g : Path} (hg : T.IsGroup g) {entries : Path → List String}
    (hl : σ.Lists entries) (m : FileMode) :
    ∃ ns, (C.group g m).handle.keys entries σ = (.ok ns, σ) ∧ ns.Nodup ∧ ∀ n, n ∈ ns ↔ T (g ++ [n]) ≠ none := by
  have hi := Container.inv_of_history hL h
  have hd : σ (C.group g m).handle.path = some .dir := hi.dir hL (by obtain ⟨A, hA⟩ := hg; rw [hA]; exact fun e => by cases e)
  refine ⟨filesKeys σ entries (C.group g m), ?_, (hl _).1.filter _, fun n => ?_⟩
  · unfold GroupHandle.keys
    rw [hd]
    rfl
  · rw [mem_filesKeys hl, Container.group_path]
    constructor
    · intro hn e
      have := (hi.absent _ (Nat.le_refl _) e (hi.clear_of_group hg)).1
      rw [hn] at this
      cases this
    · exact fun hn => hi.dir hL hn

/-- what `visititems` visits -/
theorem member_iff (hL : L.Lawful) (h : History C L Ty T os σ) {m : FileMode} : ∀ {rel : Path} {g : Path}, T.IsGroup g →
    ∀ obj, σ.Member (C.group g m) rel obj ↔ rel ≠ [] ∧
      ((T.IsGroup (g ++ rel) ∧ obj = .inl (C.group (g ++ rel) m)) ∨
       ∃ x o, T (g ++ rel) = some (.array x) ∧ obj = .inr o ∧ (C.group (g ++ rel.dropLast) m).getItem ⟨false, rel.getLast?.toList⟩ σ = (.ok (.inr o), σ))
  | [], g, hg, obj => ⟨fun h => absurd rfl h.ne_nil, fun h => absurd rfl h.1⟩
  | n :: rel, g, hg, obj => by
    have hi := Container.inv_of_history hL h
    have hgz := hi.isZarr hg m
    have hdirT : σ ((C.group g m).handle.path ++ [n]) = some .dir ↔ T (g ++ [n]) ≠ none := by
      rw [Container.group_path]
      constructor
      · intro hn e
        have := (hi.absent _ (Nat.le_refl _) e (hi.clear_of_group hg)).1
        rw [hn] at this
        cases this
      · exact fun hn => hi.dir hL hn
    have hsub : ∀ A, T (g ++ [n]) = some (.group A) → ((C.group g m).handle.isSubGroup [n] σ).1 = .ok true := fun A hA => by
      rw [(hi.group _ _ hA).isSubGroup hgz]
    have hsub' : ∀ x, T (g ++ [n]) = some (.array x) → ((C.group g m).handle.isSubGroup [n] σ).1 = .ok false := fun A hA => by
      rw [(hi.array _ _ hA).isSubGroup hL hgz]
    have hkind : T (g ++ [n]) ≠ none → ((C.group g m).handle.isSubGroup [n] σ).1 = .ok true → T.IsGroup (g ++ [n]) := by
      intro h1 h2
      cases e : T (g ++ [n]) with
      | none => exact absurd e h1
      | some y =>
        cases y with
        | group A => exact ⟨A, e⟩
        | array x => rw [hsub' x e] at h2; cases h2
    have hchild : (⟨(C.group g m).handle.group [n], (C.group g m).zarrFormat⟩ : PyGroup) = C.group (g ++ [n]) m := by
      unfold Container.group GroupHandle.group
      simp
    have hgl : g ++ n :: rel = g ++ [n] ++ rel := by simp
    constructor
    · intro hm
      refine ⟨List.cons_ne_nil _ _, ?_⟩
      cases hm with
      | group h1 h2 => exact .inl ⟨hkind (hdirT.1 h1) h2, by rw [hchild]⟩
      | dataset h1 h2 h3 =>
        rename_i d
        cases e : T (g ++ [n]) with
        | none => exact absurd e (hdirT.1 h1)
        | some y =>
          cases y with
          | group A => rw [hsub A e] at h2; cases h2
          | array x => exact .inr ⟨x, d, rfl, rfl, by
              show (C.group (g ++ []) m).getItem ⟨false, [n]⟩ σ = _
              rw [List.append_nil]
              exact getItem_member (.dataset h1 h2 h3)⟩
      | deeper h1 h2 h3 =>
        rw [hchild] at h3
        obtain ⟨hne, hr⟩ := (member_iff hL h (hkind (hdirT.1 h1) h2) obj).1 h3
        rw [hgl]
        rcases hr with hr | ⟨x, o, r1, r2, r3⟩
        · exact .inl hr
        · refine .inr ⟨x, o, r1, r2, ?_⟩
          rw [List.dropLast_cons_of_ne_nil hne, List.getLast?_cons_of_ne_nil hne]
          have : g ++ n :: rel.dropLast = g ++ [n] ++ rel.dropLast := by simp
          rw [this]
          exact r3
    · rintro ⟨_, hr⟩
      by_cases hne : rel = []
      · subst hne
        rcases hr with ⟨⟨A, hA⟩, rfl⟩ | ⟨x, o, r1, rfl, r3⟩
        · rw [← hchild]
          exact .group (hdirT.2 (by rw [hA]; exact fun e => by cases e)) (hsub A hA)
        · have r3 : (C.group (g ++ []) m).getItem ⟨false, [n]⟩ σ = (.ok (.inr o), σ) := r3
          rw [List.append_nil] at r3
          refine .dataset (hdirT.2 (by rw [r1]; exact fun e => by cases e)) (hsub' x r1) ?_
          obtain ⟨o', e1, _⟩ := (hi.array _ _ r1).opened hL hgz
          have : (C.group g m).getItem ⟨false, [n]⟩ σ = (.ok (.inr o'), σ) := by
            unfold PyGroup.getItem
            rw [FsM.bind_run, hi.contains hL (hi.clear_of_group hg), r1]
            simp only [Option.isSome_some, Bool.not_true, Bool.false_eq_true, if_false]
            rw [FsM.bind_run, (hi.array _ _ r1).isSubGroup hL hgz]
            simp only [Bool.false_eq_true, if_false]
            rw [FsM.bind_run, e1]
            rfl
          rw [r3] at this
          cases this
          rw [e1]
      · have hmid : T.IsGroup (g ++ [n]) := by
          rw [hgl] at hr
          have : T (g ++ [n] ++ rel) ≠ none := by
            rcases hr with ⟨⟨A, hA⟩, _⟩ | ⟨x, o, r1, _⟩
            · rw [hA]; exact fun e => by cases e
            · rw [r1]; exact fun e => by cases e
          refine hi.parents this (List.prefix_append _ _) fun e => hne ?_
          exact List.self_eq_append_right.1 e
        obtain ⟨A, hA⟩ := hmid
        refine .deeper (hdirT.2 (by rw [hA]; exact fun e => by cases e)) (hsub A hA) ?_
        rw [hchild]
        refine (member_iff hL h ⟨A, hA⟩ obj).2 ⟨hne, ?_⟩
        rw [hgl] at hr
        rcases hr with hr | ⟨x, o, r1, r2, r3⟩
        · exact .inl hr
        · refine .inr ⟨x, o, r1, r2, ?_⟩
          rw [List.dropLast_cons_of_ne_nil hne, List.getLast?_cons_of_ne_nil hne] at r3
          have : g ++ n :: rel.dropLast = g ++ [n] ++ rel.dropLast := by simp
          rw [this] at r3
          exact r3

/-- the last name of a path, in the group that has it -/
theorem group_of_last (hL : L.Lawful) (h : History C L Ty T os σ) {g rel : Path} (hne : rel ≠ []) (hr : T (g ++ rel) ≠ none) :
    T.IsGroup (g ++ rel.dropLast) := by
  have hi := Container.inv_of_history hL h
  have e := List.dropLast_concat_getLast hne
  refine hi.parents (p := g ++ rel) hr ?_ ?_
  · conv => rhs; rw [← e]
    rw [← List.append_assoc]
    exact List.prefix_append _ _
  · intro h'
    have := congrArg List.length (List.append_cancel_left h')
    rw [List.length_dropLast] at this
    have := List.length_pos_iff.2 hne
    omega

/-- **C66, `visititems`.**  From a group of the container, `visititems` calls the function for every group and every array of the
tree below it, once, groups before what is in them, and with the objects that `group[name]` gives, until it returns
something (or the nesting is deeper than Python allows). -/
theorem c66_visititems (hL : L.Lawful) (h : History C L Ty T os σ) {g : Path} (hg : T.IsGroup g) {entries : Path → List String}
    (hl : σ.Lists entries) (m : FileMode) {limit : Nat} (h0 : 0 < limit)
    (hd : ∀ rel, T.IsGroup (g ++ rel) → rel.length < limit) :
    ∃ ms : List (Path × (PyGroup ⊕ DatasetObj)),
      (ms.map (·.1)).Nodup ∧ ms.Pairwise (fun p q => ¬ q.1 <+: p.1) ∧
      (∀ rel, (∃ obj, (rel, obj) ∈ ms) ↔ rel ≠ [] ∧ T (g ++ rel) ≠ none) ∧
      (∀ rel obj, (rel, obj) ∈ ms → (C.group (g ++ rel.dropLast) m).getItem ⟨false, rel.getLast?.toList⟩ σ = (.ok obj, σ)) ∧
      ∀ (s v : Type) (func : Path → PyGroup ⊕ DatasetObj → s → Option v × s) (st : s),
        visitItems (filesMapping entries) (C.group g m) func limit (C.group g m) st σ
          = (.ok (callUntil (fun p => func p.1 p.2) ms st), σ) := by
  have hi := Container.inv_of_history hL h
  have hne : ∀ {p}, T.IsGroup p → T p ≠ none := by
    rintro p ⟨A, hA⟩
    rw [hA]; exact fun e => by cases e
  have hlast : ∀ {rel : Path}, rel ≠ [] → rel.dropLast ++ rel.getLast?.toList = rel := by
    intro rel hr
    rw [List.getLast?_eq_some_getLast hr]
    exact List.dropLast_concat_getLast hr
  have hsound : σ.Sound (C.group g m) := by
    have key : ∀ p, T.IsGroup p → ∀ n, σ ((C.group p m).handle.path ++ [n]) = some .dir →
        ∃ obj, σ.Member (C.group p m) [n] obj := by
      intro p hp n hn
      have hT : T (p ++ [n]) ≠ none := fun e => by
        have := (hi.absent _ (Nat.le_refl _) e (hi.clear_of_group hp)).1
        rw [← Container.group_path (m := m), hn] at this
        cases this
      cases e : T (p ++ [n]) with
      | none => exact absurd e hT
      | some y =>
        cases y with
        | group A => exact ⟨_, (member_iff hL h hp _).2 ⟨by simp, .inl ⟨⟨A, e⟩, rfl⟩⟩⟩
        | array x =>
          obtain ⟨o, h1, _⟩ := hi.getItem_array hL (n := ⟨false, [n]⟩) (m := m) hp e
          refine ⟨_, (member_iff hL h hp (.inr o)).2 ⟨by simp, .inr ⟨x, o, e, rfl, ?_⟩⟩⟩
          show (C.group (p ++ []) m).getItem ⟨false, [n]⟩ σ = _
          rw [List.append_nil]
          exact h1
    rintro g' (rfl | ⟨rel, hm⟩) n hn
    · exact key g hg n hn
    · rcases ((member_iff hL h hg _).1 hm).2 with ⟨hG, e⟩ | ⟨_, _, _, e, _⟩
      · cases e
        exact key _ hG n hn
      · cases e
  obtain ⟨ms, m1, m2, m3, m4⟩ := c58_visititems hl (hi.dir hL (hne hg)) hsound h0 (fun rel g' hm => by
    rcases ((member_iff hL h hg _).1 hm).2 with ⟨hG, e⟩ | ⟨_, _, _, e, _⟩
    · exact hd rel hG
    · cases e)
  refine ⟨ms, m1, m3, fun rel => ⟨?_, ?_⟩, fun rel obj hm => ?_, m4⟩
  · rintro ⟨obj, hm⟩
    obtain ⟨e1, e2⟩ := (member_iff hL h hg _).1 ((m2 rel obj).1 hm)
    refine ⟨e1, ?_⟩
    rcases e2 with ⟨hG, _⟩ | ⟨x, o, e, _⟩
    · exact hne hG
    · rw [e]; exact fun e => by cases e
  · rintro ⟨hr, hT⟩
    cases e : T (g ++ rel) with
    | none => exact absurd e hT
    | some y =>
      cases y with
      | group A => exact ⟨_, (m2 rel _).2 ((member_iff hL h hg _).2 ⟨hr, .inl ⟨⟨A, e⟩, rfl⟩⟩)⟩
      | array x =>
        obtain ⟨o, h1, _⟩ := hi.getItem_array hL (g := g ++ rel.dropLast) (n := ⟨false, rel.getLast?.toList⟩) (m := m)
          (group_of_last hL h hr hT) (by
            show T (g ++ rel.dropLast ++ rel.getLast?.toList) = _
            rw [List.append_assoc, hlast hr]
            exact e)
        exact ⟨_, (m2 rel _).2 ((member_iff hL h hg (.inr o)).2 ⟨hr, .inr ⟨x, o, e, rfl, h1⟩⟩)⟩
  · obtain ⟨e1, e2⟩ := (member_iff hL h hg _).1 ((m2 rel obj).1 hm)
    rcases e2 with ⟨⟨A, hA⟩, rfl⟩ | ⟨x, o, e, rfl, h1⟩
    · have hT : T (g ++ rel.dropLast ++ rel.getLast?.toList) = some (.group A) := by
        rw [List.append_assoc, hlast e1]
        exact hA
      have := c66_getitem hL h (group_of_last hL h e1 (by rw [hA]; exact fun e => by cases e)) ⟨false, rel.getLast?.toList⟩
        (hi.clear_of_some (by rw [hT]; exact fun e => by cases e)) m
      simp only [hT] at this
      rw [this, List.append_assoc, hlast e1]
    · exact h1

/-! ### Changes of the tree -/

theorem createGroup_succeeds {g : GroupHandle} {key : Path} {f : Int} {z : Bool} {σ : Fs} (hσ : σ.WF)
    (hz : g.isZarr σ = (.ok z, σ)) (hm : g.mode ≠ .r) (hp : σ (g.path ++ key) = none)
    (hq : ∀ q, q <+: g.path ++ key → isOther (σ q) = false) : ∃ σ', g.createGroup key f σ = (.ok (), σ') := by
  have hc : (g.group key).create σ = (.ok (), σ.mkdirs (g.path ++ key)) := by
    unfold GroupHandle.create
    have hm : (g.group key).mode ≠ .r := hm
    have hp : σ (g.group key).path = none := hp
    rw [if_neg hm]
    simp only [FsM.bind_run, FsM.exist_run, FsM.ite_run, hp, Option.isSome_none, Bool.false_eq_true, if_false]
    unfold FsM.createDirectories
    rw [if_neg]
    · rfl
    · rw [List.any_eq_true]
      rintro ⟨n, _, hn⟩
      have hn : isOther (σ (List.take n (g.path ++ key))) = true := hn
      rw [hq _ (List.take_prefix n _)] at hn
      cases hn
  unfold GroupHandle.createGroup
  rw [FsM.bind_run, hz]
  show ∃ σ', _ = _
  simp only [FsM.bind_run, hc]
  unfold writeGroupMetadata
  cases z with
  | false => exact ⟨_, rfl⟩
  | true =>
    by_cases hf : f = 3
    · subst hf
      rw [if_pos (by decide)]
      show ∃ σ', writeV3GroupMetadata (g.path ++ key) _ = _
      rw [writeV3Group_new hσ hp]
      exact ⟨_, rfl⟩
    · rw [if_neg (by simpa using hf), if_pos rfl]
      show ∃ σ', FsM.writeDoc (g.path ++ key ++ [".zgroup"]) _ _ = _
      rw [writeDoc_new hσ hp]
      exact ⟨_, rfl⟩

/-- nothing but directories leads to a free name in a group -/
theorem free_above {h : C.Inv L T os σ} {p : Path} {n : String} (hp : T.IsGroup p) (hT : T (p ++ [n]) = none) (hn : PlainName n) :
    σ (C.root ++ (p ++ [n])) = none ∧ ∀ q, q <+: C.root ++ (p ++ [n]) → q ≠ C.root ++ (p ++ [n]) → σ q = some .dir := by
  refine ⟨(h.known p n hp hT).2 hn, fun q hq hne => ?_⟩
  obtain ⟨A, hA⟩ := hp
  have hd := (h.group p A hA).node.dir
  rw [← List.append_assoc] at hq hne
  rcases prefix_concat_iff.1 hq with ⟨r, hr⟩ | e
  · by_cases h0 : r = []
    · subst h0
      rw [List.append_nil] at hr
      rw [hr, hd]
    · exact h.wf q r h0 (by rw [hr, hd]; exact fun e => by cases e)
  · exact absurd e hne

theorem createGroup_free {m : FileMode} (h : C.Inv L T os σ) {g ks : Path} {n : String} (hp : T.IsGroup (g ++ ks)) (hn : PlainName n)
    (hT : T (g ++ ks ++ [n]) = none) (hm : m ≠ .r) :
    ∃ σ', (C.group g m).handle.createGroup (ks ++ [n]) C.format σ = (.ok (), σ') := by
  obtain ⟨h1, h2⟩ := free_above (h := h) hp hT hn
  refine createGroup_succeeds h.wf (h.isZarr (h.group_above hp) m) hm ?_ fun q hq => ?_
  · rw [Container.group_path, ← List.append_assoc g]
    exact h1
  · rw [Container.group_path, ← List.append_assoc g] at hq
    by_cases e : q = C.root ++ (g ++ ks ++ [n])
    · rw [e, h1]; rfl
    · rw [h2 q hq e]; rfl

/-- **C66, `create_group`.**  In a group of the container: a new group, `KeyError` if the name is taken, `ValueError` in read-only
mode. -/
theorem c66_create_group (hL : L.Lawful) (h : History C L Ty T os σ) {g ks : Path} {n : String} (hp : T.IsGroup (g ++ ks))
    (hn : PlainName n) (m : FileMode) :
    (m = .r → (C.group g m).createGroup ⟨false, ks ++ [n]⟩ σ = (.throw .invalidArgument, σ)) ∧
    (m ≠ .r → T (g ++ ks ++ [n]) ≠ none → (C.group g m).createGroup ⟨false, ks ++ [n]⟩ σ = (.throw .keyError, σ)) ∧
    (m ≠ .r → T (g ++ ks ++ [n]) = none → ∃ σ',
      (C.group g m).createGroup ⟨false, ks ++ [n]⟩ σ = (.ok (C.group (g ++ ks ++ [n]) m), σ') ∧
      History C L Ty (T.add (g ++ ks ++ [n]) (.group fun _ => none)) os σ') := by
  have hi := Container.inv_of_history hL h
  have hcn : (C.group g m).contains ⟨false, ks ++ [n]⟩ σ = (.ok (T (g ++ ks ++ [n])).isSome, σ) := by
    rw [List.append_assoc]
    exact hi.contains hL (n := ⟨false, ks ++ [n]⟩) (by
      show T.Clear (g ++ (ks ++ [n]))
      rw [← List.append_assoc]; exact hi.clear_of_group hp) m
  refine ⟨?_, ?_, ?_⟩
  · rintro rfl
    unfold PyGroup.createGroup
    rw [if_pos (by show (!FileMode.canWrite .r) = true; rfl)]
    rfl
  · intro hm hT
    unfold PyGroup.createGroup
    rw [if_neg (by rw [show (C.group g m).handle.mode.canWrite = true from canWrite_of_ne hm]; decide), FsM.bind_run, hcn]
    cases e : T (g ++ ks ++ [n]) with
    | none => exact absurd e hT
    | some _ => rfl
  · intro hm hT
    obtain ⟨σ', hσ'⟩ := createGroup_free (m := m) hi hp hn hT hm
    have hrun : (C.group g m).createGroup ⟨false, ks ++ [n]⟩ σ = (.ok (C.group (g ++ ks ++ [n]) m), σ') := by
      unfold PyGroup.createGroup
      rw [if_neg (by rw [show (C.group g m).handle.mode.canWrite = true from canWrite_of_ne hm]; decide), FsM.bind_run, hcn, hT]
      simp only [Option.isSome_none, Bool.false_eq_true, if_false]
      have : (C.group g m).handle.createGroupAt ⟨false, ks ++ [n]⟩ (C.group g m).zarrFormat σ = (.ok (), σ') := hσ'
      rw [FsM.bind_run, this]
      show (Res.ok _, _) = _
      unfold Container.group
      simp [PyName.under]
    exact ⟨σ', hrun, .createGroup h hp hn hrun⟩

/-- **C66, `require_group`.**  In a group of the container: the group, if there is one (in every mode, and nothing changes);
`TypeError` for an array; a new group otherwise, `ValueError` in read-only mode. -/
theorem c66_require_group (hL : L.Lawful) (h : History C L Ty T os σ) {g ks : Path} {n : String} (hp : T.IsGroup (g ++ ks))
    (hn : PlainName n) (m : FileMode) :
    match T (g ++ ks ++ [n]) with
    | some (.group _) => (C.group g m).requireGroup (ks ++ [n]) σ = (.ok (C.group (g ++ ks ++ [n]) m), σ)
    | some (.array _) => (C.group g m).requireGroup (ks ++ [n]) σ = (.throw .typeError, σ)
    | none => (m = .r → (C.group g m).requireGroup (ks ++ [n]) σ = (.throw .invalidArgument, σ)) ∧
        (m ≠ .r → ∃ σ', (C.group g m).requireGroup (ks ++ [n]) σ = (.ok (C.group (g ++ ks ++ [n]) m), σ') ∧
          History C L Ty (T.add (g ++ ks ++ [n]) (.group fun _ => none)) os σ') := by
  have hi := Container.inv_of_history hL h
  have hcn : (C.group g m).contains { parts := ks ++ [n] } σ = (.ok (T (g ++ ks ++ [n])).isSome, σ) := by
    rw [List.append_assoc]
    exact hi.contains hL (n := ⟨false, ks ++ [n]⟩) (by
      show T.Clear (g ++ (ks ++ [n]))
      rw [← List.append_assoc]; exact hi.clear_of_group hp) m
  have hgz := hi.isZarr (hi.group_above hp) m
  have hres : (⟨(C.group g m).handle.group (ks ++ [n]), (C.group g m).zarrFormat⟩ : PyGroup) = C.group (g ++ ks ++ [n]) m := by
    unfold Container.group GroupHandle.group
    simp
  cases e : T (g ++ ks ++ [n]) with
  | some y =>
    cases y with
    | group A =>
      simp only
      unfold PyGroup.requireGroup
      rw [FsM.bind_run, hcn, e]
      simp only [Option.isSome_some, if_true]
      have := hi.group _ _ e
      rw [List.append_assoc] at this
      rw [FsM.bind_run, this.isSubGroup hgz]
      simp only [Bool.not_true, Bool.false_eq_true, if_false]
      rw [hres]
      rfl
    | array x =>
      simp only
      unfold PyGroup.requireGroup
      rw [FsM.bind_run, hcn, e]
      simp only [Option.isSome_some, if_true]
      have := hi.array _ _ e
      rw [List.append_assoc] at this
      rw [FsM.bind_run, this.isSubGroup hL hgz]
      rfl
  | none =>
    simp only
    refine ⟨?_, ?_⟩
    · rintro rfl
      unfold PyGroup.requireGroup
      rw [FsM.bind_run, hcn, e]
      simp only [Option.isSome_none, Bool.false_eq_true, if_false]
      rw [if_pos (by show (!FileMode.canWrite .r) = true; rfl)]
      rfl
    · intro hm
      obtain ⟨σ', hσ'⟩ := createGroup_free (m := m) hi hp hn e hm
      have hrun : (C.group g m).requireGroup (ks ++ [n]) σ = (.ok (C.group (g ++ ks ++ [n]) m), σ') := by
        unfold PyGroup.requireGroup
        rw [FsM.bind_run, hcn, e]
        simp only [Option.isSome_none, Bool.false_eq_true, if_false]
        rw [if_neg (by rw [show (C.group g m).handle.mode.canWrite = true from canWrite_of_ne hm]; decide), FsM.bind_run]
        have : (C.group g m).handle.createGroup (ks ++ [n]) (C.group g m).zarrFormat σ = (.ok (), σ') := hσ'
        rw [this, hres]
        rfl
      exact ⟨σ', hrun, .requireGroup h hp hn e hrun⟩

/-- `requireGroups` succeeds where no array is in the way. -/
theorem requireGroups_succeeds (hL : L.Lawful) {m : FileMode} (hm : m ≠ .r) : ∀ {ks g : Path} {T : Tree Ty} {σ : Fs},
    History C L Ty T os σ → T.IsGroup g → (∀ n ∈ ks, PlainName n) → T.Clear (g ++ ks) → (∀ x, T (g ++ ks) ≠ some (.array x)) →
    ∃ σ', (C.group g m).requireGroups ks σ = (.ok (C.group (g ++ ks) m), σ')
  | [], g, T, σ, h, hg, _, _, _ => ⟨σ, by rw [List.append_nil]; rfl⟩
  | n :: ks, g, T, σ, h, hg, hn, hc, hx => by
    have hl : g ++ n :: ks = g ++ [n] ++ ks := by simp
    have hg' : T.IsGroup (g ++ []) := by rw [List.append_nil]; exact hg
    have hr := c66_require_group hL h (n := n) hg' (hn n (by simp)) m
    rw [List.append_nil] at hr
    have hnot : ∀ x, T (g ++ [n]) ≠ some (.array x) := by
      intro x
      by_cases e : ks = []
      · subst e; exact hx x
      · exact hc _ (by rw [hl]; exact List.prefix_append _ _) (by rw [hl]; intro h'; exact e (List.self_eq_append_right.1 h')) x
    unfold PyGroup.requireGroups
    rw [FsM.bind_run]
    rw [hl] at hc hx ⊢
    cases e : T (g ++ [n]) with
    | some y =>
      cases y with
      | array x => exact absurd e (hnot x)
      | group A =>
        rw [e] at hr
        have hr : (C.group g m).requireGroup [n] σ = _ := hr
        rw [hr]
        exact requireGroups_succeeds hL hm h ⟨A, e⟩ (fun k hk => hn k (List.mem_cons_of_mem _ hk)) hc hx
    | none =>
      rw [e] at hr
      obtain ⟨σ1, h1, h2⟩ := hr.2 hm
      have h1 : (C.group g m).requireGroup [n] σ = _ := h1
      rw [h1]
      rw [(Container.inv_of_history hL h).add_eq hg] at h2
      refine requireGroups_succeeds hL hm h2 ⟨_, Container.put_self _ _ _⟩ (fun k hk => hn k (List.mem_cons_of_mem _ hk)) ?_ ?_
      · intro q hq hne x hqx
        by_cases e' : q = g ++ [n]
        · rw [e', Container.put_self] at hqx; cases hqx
        · rw [Container.put_other _ _ e'] at hqx
          exact hc q hq hne x hqx
      · intro x hqx
        by_cases e' : g ++ [n] ++ ks = g ++ [n]
        · rw [e', Container.put_self] at hqx; cases hqx
        · rw [Container.put_other _ _ e'] at hqx
          exact hx x hqx

/-- `_create_dataset` in a group does not depend on how much of the path is in the name. -/
theorem newDatasetFull_path {g g' : PyGroup} {n n' : PyName} (hn : n.absolute = false) (hn' : n'.absolute = false)
    (hp : g.handle.path ++ n.parts = g'.handle.path ++ n'.parts) (hm : g.handle.mode = g'.handle.mode)
    (hf : g.zarrFormat = g'.zarrFormat) {σ : Fs} {z : Bool} (hz : g.handle.isZarr σ = (.ok z, σ))
    (hz' : g'.handle.isZarr σ = (.ok z, σ)) (a : PyCreateArgs) : g.newDatasetFull n a σ = g'.newDatasetFull n' a σ := by
  have hu : n.under g.handle.path = n'.under g'.handle.path := by
    unfold PyName.under
    rw [hn, hn']
    exact hp
  unfold PyGroup.newDatasetFull
  rw [FsM.bind_run, FsM.bind_run, hz, hz', hf]
  simp only
  rw [FsM.bind_run, FsM.bind_run, FsM.lift_run]
  cases a.resolve z g'.zarrFormat with
  | ok r =>
    simp only
    unfold GroupHandle.createDatasetJsonAt GroupHandle.createDatasetAt
    simp only [FsM.bind_run, FsM.lift_run, hu, hm]
    cases Meta.atOrRuntime Compressor.stringToCompressor r.fst.compressor with
    | throw e => rfl
    | ub => rfl
    | ok _ =>
      simp only
      generalize (do jsonToOptions (← (Json.obj r.snd).items) [] : Res Opts) = w
      cases w with
      | throw e => rfl
      | ub => rfl
      | ok _ => simp only [hz, hz']
  | throw e => rfl
  | ub => rfl

/-- arguments that make sense are accepted for a free name -/
theorem newDatasetFull_free (h : C.Inv L T os σ) {g ks : Path} {n : String} {m : FileMode} {a : PyCreateArgs}
    {x : ArrayItem Ty} (hp : T.IsGroup (g ++ ks)) (hn : PlainName n) (hT : T (g ++ ks ++ [n]) = none) (hx : a.Asks C.layout x)
    (hm : m ≠ .r) : ∃ o σ', (C.group g m).newDatasetFull { parts := ks ++ [n] } a σ = (.ok o, σ') := by
  obtain ⟨h1, h2⟩ := free_above (h := h) hp hT hn
  obtain ⟨S, hS, hF⟩ := hx.compression
  obtain ⟨v, hv, _⟩ := hx.fill
  have hw : (C.group (g ++ ks) m).handle.mode.canWrite = true := canWrite_of_ne hm
  have hfree : σ ((C.group (g ++ ks) m).handle.path ++ [n]) = none := by rw [Container.group_path]; exact h1
  obtain ⟨o, σ', hc⟩ := c60_succeeds (g := C.group (g ++ ks) m) (k := n) h.wf (h.isZarr hp m) hw hfree
    (fun q hq => h2 q (by rw [← Container.group_path (m := m)]; exact hq.trans (List.prefix_append _ _)) (by
      rw [← Container.group_path (m := m)]
      rintro rfl
      have := hq.length_le
      simp only [List.length_append, List.length_cons, List.length_nil] at this
      omega))
    hx.options hx.shape hx.type hx.chunks hx.axes.1 hx.positive (castFill_fits hv) hx.shards hS hF
  refine ⟨o, σ', ?_⟩
  rw [newDatasetFull_path (g := C.group g m) (n := { parts := ks ++ [n] }) (g' := C.group (g ++ ks) m) (n' := { parts := [n] }) rfl rfl (by
    rw [Container.group_path, Container.group_path, List.append_assoc]) rfl rfl (h.isZarr (h.group_above hp) m) (h.isZarr hp m)]
  unfold PyGroup.createDatasetFull at hc
  rw [if_neg (by rw [hw]; decide), FsM.bind_run, contains_run, hfree] at hc
  exact hc

/-- **C66, `create_dataset`.**  With arguments that ask for the array `x`: a new array, with the groups that lead to it;
`KeyError` if the name is taken, `ValueError` in read-only mode. -/
theorem c66_create_array (hL : L.Lawful) (h : History C L Ty T os σ) {g key : Path} {a : PyCreateArgs} {x : ArrayItem Ty}
    (hg : T.IsGroup g) (hk : key ≠ []) (hn : ∀ n ∈ key, PlainName n) (hc : T.Clear (g ++ key)) (hx : a.Asks C.layout x) (m : FileMode) :
    (m = .r → (C.group g m).createDatasetFull ⟨false, key⟩ a σ = (.throw .invalidArgument, σ)) ∧
    (m ≠ .r → T (g ++ key) ≠ none → (C.group g m).createDatasetFull ⟨false, key⟩ a σ = (.throw .keyError, σ)) ∧
    (m ≠ .r → T (g ++ key) = none → ∃ o σ', (C.group g m).createDatasetFull ⟨false, key⟩ a σ = (.ok o, σ') ∧
      o.handle.mode = m ∧ o.info.dtype = x.dtype ∧ o.info.shape = x.shape ∧ o.info.chunkShape = x.chunks ∧
      History C L Ty (T.add (g ++ key) (.array x)) ((g ++ key, o) :: os) σ') := by
  have hi := Container.inv_of_history hL h
  have hcn : (C.group g m).contains ⟨false, key⟩ σ = (.ok (T (g ++ key)).isSome, σ) := hi.contains hL (n := ⟨false, key⟩) hc m
  refine ⟨?_, ?_, ?_⟩
  · rintro rfl
    unfold PyGroup.createDatasetFull
    rw [if_pos (by show (!FileMode.canWrite .r) = true; rfl)]
    rfl
  · intro hm hT
    unfold PyGroup.createDatasetFull
    rw [if_neg (by rw [show (C.group g m).handle.mode.canWrite = true from canWrite_of_ne hm]; decide), FsM.bind_run, hcn]
    cases e : T (g ++ key) with
    | none => exact absurd e hT
    | some _ => rfl
  · intro hm hT
    have hw : (!(C.group g m).handle.mode.canWrite) = false := by
      rw [show (C.group g m).handle.mode.canWrite = true from canWrite_of_ne hm]; rfl
    have hrun : ∃ o σ', (C.group g m).createDatasetFull ⟨false, key⟩ a σ = (.ok o, σ') := by
      unfold PyGroup.createDatasetFull
      rw [hw, if_neg (by decide), FsM.bind_run, hcn, hT]
      simp only [Option.isSome_none, Bool.false_eq_true, if_false]
      obtain ⟨ks, n, rfl⟩ : ∃ ks n, key = ks ++ [n] := by
        rcases last_cases key with e | e
        · exact absurd e hk
        · exact e
      by_cases hl : (ks ++ [n]).length > 1
      · rw [if_pos hl, FsM.bind_run, List.dropLast_concat]
        have hc' : T.Clear (g ++ ks) := fun q hq hne y => hc q (hq.trans (by rw [← List.append_assoc]; exact List.prefix_append _ _))
          (fun e => by
            have := hq.length_le
            rw [e] at this
            simp only [List.length_append, List.length_cons, List.length_nil] at this
            omega) y
        have hnx : ∀ y, T (g ++ ks) ≠ some (.array y) := fun y => hc _ (by rw [← List.append_assoc]; exact List.prefix_append _ _)
          (by rw [← List.append_assoc]; simp) y
        have hpl : ∀ k ∈ ks, PlainName k := fun k hk => hn k (List.mem_append_left _ hk)
        obtain ⟨σ1, h1⟩ := requireGroups_succeeds hL hm h hg hpl hc' hnx
        obtain ⟨_, i2, i3, i4⟩ := hi.requireGroups hL hg hpl h1
        rw [h1]
        simp only
        have hT' : Container.fill T (g ++ ks) (g ++ ks ++ [n]) = none := by
          unfold Container.fill
          rw [if_neg, List.append_assoc]
          · exact hT
          · rintro ⟨e, _⟩
            have := e.length_le
            simp only [List.length_append, List.length_cons, List.length_nil] at this
            omega
        have hw' : (!(C.group (g ++ ks) m).handle.mode.canWrite) = false := hw
        rw [hw', if_neg (by decide), List.getLast?_concat]
        have hcn' : (C.group (g ++ ks) m).contains { parts := (some n).toList } σ1 = (.ok false, σ1) := by
          have := i2.contains hL (g := g ++ ks) (n := { parts := [n] }) (i2.clear_of_group i3) m
          rw [hT'] at this
          exact this
        rw [FsM.bind_run, hcn']
        simp only [Bool.false_eq_true, if_false]
        have hi3 : (Container.fill T (g ++ ks)).IsGroup (g ++ ks ++ []) := by rw [List.append_nil]; exact i3
        obtain ⟨o, σ', e⟩ := newDatasetFull_free (m := m) i2 hi3 (hn n (by simp)) (by rw [List.append_nil]; exact hT') hx hm
        exact ⟨o, σ', e⟩
      · rw [if_neg hl]
        have hks : ks = [] := List.eq_nil_of_length_eq_zero (by
          simp only [List.length_append, List.length_cons, List.length_nil] at hl
          omega)
        subst hks
        have hg' : T.IsGroup (g ++ []) := by rw [List.append_nil]; exact hg
        obtain ⟨o, σ', e⟩ := newDatasetFull_free (m := m) hi hg' (hn n (by simp)) (by rw [List.append_assoc]; exact hT) hx hm
        exact ⟨o, σ', e⟩
    obtain ⟨o, σ', hrun⟩ := hrun
    obtain ⟨_, j2, j3, j4, j5, _⟩ := hi.createArray hL hg hk hn hx hrun
    exact ⟨o, σ', hrun, j2, j3, j4, j5, .createArray h hg hk hn hx hrun⟩

/-- **C66, `require_dataset`.**  An array that is there is returned if it has the shape, chunks and data type that are given, and
a `TypeError` is raised otherwise, or if a group is there; nothing changes.  If the name is free, a new array is
created (`ValueError` in read-only mode). -/
theorem c66_require_array (hL : L.Lawful) (h : History C L Ty T os σ) {g ks : Path} {n : String} (hp : T.IsGroup (g ++ ks))
    (hn : PlainName n) (m : FileMode) (a : PyCreateArgs) :
    match T (g ++ ks ++ [n]) with
    | some (.group _) => (C.group g m).requireDataset (ks ++ [n]) a σ = (.throw .typeError, σ)
    | some (.array x) =>
        ((∀ s, a.shape = some s → x.shape = s) ∧ (∀ c, a.chunks = some c → x.chunks = c) ∧
          (∀ t, a.dtype = some t → plainTypeName x.dtype = some t) →
          ∃ o, (C.group g m).requireDataset (ks ++ [n]) a σ = (.ok o, σ) ∧ o.handle.mode = m ∧ o.info.dtype = x.dtype ∧
            o.info.shape = x.shape ∧ o.info.chunkShape = x.chunks ∧ History C L Ty T ((g ++ ks ++ [n], o) :: os) σ) ∧
        (¬ ((∀ s, a.shape = some s → x.shape = s) ∧ (∀ c, a.chunks = some c → x.chunks = c) ∧
          (∀ t, a.dtype = some t → plainTypeName x.dtype = some t)) →
          (C.group g m).requireDataset (ks ++ [n]) a σ = (.throw .typeError, σ))
    | none => (m = .r → (C.group g m).requireDataset (ks ++ [n]) a σ = (.throw .invalidArgument, σ)) ∧
        (m ≠ .r → ∀ x : ArrayItem Ty, a.Asks C.layout x → ∃ o σ', (C.group g m).requireDataset (ks ++ [n]) a σ = (.ok o, σ') ∧
          o.handle.mode = m ∧ o.info.dtype = x.dtype ∧ o.info.shape = x.shape ∧ o.info.chunkShape = x.chunks ∧
          History C L Ty (T.add (g ++ ks ++ [n]) (.array x)) ((g ++ ks ++ [n], o) :: os) σ') := by
  have hi := Container.inv_of_history hL h
  have hgz := hi.isZarr (hi.group_above hp) m
  have hpath : (C.group g m).handle.path ++ (ks ++ [n]) = C.root ++ (g ++ ks ++ [n]) := by
    rw [Container.group_path, ← List.append_assoc g]
  cases e : T (g ++ ks ++ [n]) with
  | some y =>
    have hd : isDirectory (σ ((C.group g m).handle.path ++ (ks ++ [n]))) = true := by
      rw [hpath, hi.dir hL (by rw [e]; exact fun e => by cases e)]; rfl
    cases y with
    | group A =>
      have := hi.group _ _ e
      rw [List.append_assoc] at this
      exact c61_group a hd (this.isSubGroup hgz)
    | array x =>
      have ha := hi.array _ _ e
      rw [List.append_assoc] at ha
      obtain ⟨o, h1, h2, h3, h4, h5, _⟩ := ha.opened hL hgz
      obtain ⟨c1, c2⟩ := c61_existing (a := a) hd (ha.isSubGroup hL hgz) h1
      have hiff : a.Matches o ↔ ((∀ s, a.shape = some s → x.shape = s) ∧ (∀ c, a.chunks = some c → x.chunks = c) ∧
          (∀ t, a.dtype = some t → plainTypeName x.dtype = some t)) := by
        rw [← h3, ← h4, ← h5]
        exact Iff.rfl
      refine ⟨fun hm => ⟨o, c1 (hiff.2 hm), h2, h3, h4, h5, ?_⟩, fun hm => c2 fun e => hm (hiff.1 e)⟩
      have hget : (C.group g m).getItem ⟨false, ks ++ [n]⟩ σ = (.ok (.inr o), σ) := by
        unfold PyGroup.getItem
        rw [FsM.bind_run, contains_run, hd]
        simp only [Bool.not_true, Bool.false_eq_true, if_false]
        rw [FsM.bind_run, ha.isSubGroup hL hgz]
        simp only [Bool.false_eq_true, if_false]
        rw [FsM.bind_run, h1]
        rfl
      have := History.opened h (n := ⟨false, ks ++ [n]⟩) (by rw [← List.append_assoc]; exact e) (hi.group_above hp) hget
      rw [List.append_assoc]
      exact this
  | none =>
    simp only
    have hd : isDirectory (σ ((C.group g m).handle.path ++ (ks ++ [n]))) = false := by
      rw [hpath]; exact (hi.absent _ (Nat.le_refl _) e (hi.clear_of_group hp)).1
    refine ⟨?_, ?_⟩
    · rintro rfl
      exact (c61_new hi.wf hd).1 (by show FileMode.canWrite .r = false; rfl)
    · intro hm x hx
      obtain ⟨o, σ', hnew⟩ := newDatasetFull_free hi (m := m) hp hn e hx hm
      have hrun : (C.group g m).requireDataset (ks ++ [n]) a σ = (.ok o, σ') := by
        unfold PyGroup.requireDataset
        rw [FsM.bind_run, has_run, hd]
        simp only [Bool.false_eq_true, if_false]
        rw [if_neg (by rw [show (C.group g m).handle.mode.canWrite = true from canWrite_of_ne hm]; decide)]
        exact hnew
      obtain ⟨_, j2, j3, j4, j5⟩ := hi.requireArray hL hp hn e hx hrun
      exact ⟨o, σ', hrun, j2, j3, j4, j5, .requireArray h hp hn e hx hrun⟩

/-- **C66, `del group[name]`.**  The node goes, with everything below it, and nothing else does.  `KeyError` for names that are
not there, `ValueError` in read-only mode.  For an array with shards the call may fail with a `length_error`, as by the
limit on the size of shards; then the array is damaged at most, and nothing else changes. -/
theorem c66_delete (hL : L.Lawful) (h : History C L Ty T os σ) {g : Path} (hg : T.IsGroup g) (n : PyName) (hn : n.parts ≠ [])
    (hc : T.Clear (g ++ n.parts)) (m : FileMode) :
    (m = .r → (C.group g m).delItem n L Ty σ = (.throw .invalidArgument, σ)) ∧
    (m ≠ .r → T (g ++ n.parts) = none → (C.group g m).delItem n L Ty σ = (.throw .keyError, σ)) ∧
    (m ≠ .r → T (g ++ n.parts) ≠ none →
      ((C.group g m).delItem n L Ty σ = (.ok (), σ.without (C.root ++ (g ++ n.parts))) ∧
        History C L Ty (T.prune (g ++ n.parts)) (os.filter fun e => ¬ g ++ n.parts <+: e.1) (σ.without (C.root ++ (g ++ n.parts)))) ∨
      (∃ x, T (g ++ n.parts) = some (.array x) ∧ x.shards ≠ none) ∧ ∃ σ', (C.group g m).delItem n L Ty σ = (.throw .lengthError, σ') ∧
        ∀ q, ¬ C.root ++ (g ++ n.parts) <+: q → σ' q = σ q) := by
  have hi := Container.inv_of_history hL h
  obtain ⟨r1, r2⟩ := c65_del_refused (L := L) (Ty := Ty) (C.group g m) n σ
  refine ⟨r1, fun hm hT => r2 hm ?_, fun hm hT => ?_⟩
  · rw [hi.contains hL hc m, hT]; rfl
  · cases e : T (g ++ n.parts) with
    | none => exact absurd e hT
    | some y =>
      cases y with
      | group A =>
        left
        have hrun := c65_del_group (L := L) (Ty := Ty) (C.group g m) n σ hm (by rw [Container.group_path]; exact hi.dir hL hT)
          ((hi.group _ _ e).isSubGroup (hi.isZarr hg m))
        rw [Container.group_path] at hrun
        exact ⟨hrun, .deleted h hg hc hn hrun⟩
      | array x =>
        rcases (hi.array _ _ e).del hL (hi.isZarr hg m) hm with hrun | ⟨hsh, hbad⟩
        · exact .inl ⟨hrun, .deleted h hg hc hn hrun⟩
        · exact .inr ⟨⟨x, rfl, hsh⟩, hbad⟩

/-- **C66, reading.**  Through every object that is open for an array, however and whenever it was opened, every read
gives the elements of the array in the tree (up to the identification of elements that are equal to the fill value). -/
theorem c66_read (hL : L.Lawful) (h : History C L Ty T os σ) {p : Path} {o : DatasetObj} {x : ArrayItem Ty} (ho : (p, o) ∈ os)
    (hx : T p = some (.array x)) : ∃ d A, o.typed L (Ty.cast x.dtype) = .ok d ∧ d.base.shape = x.shape ∧
    d.ReadsAs (C.root ++ p) σ A ∧ ∀ i, InBox i x.shape → SameOrFill (Ty.elem x.dtype).ceq x.fill (A i) (x.content i) := by
  have hi := Container.inv_of_history hL h
  rcases hi.array _ _ hx with ha | ha
  case inr => exact ha.read hL ho
  obtain ⟨o₀, d₀, os', ws, ha⟩ := ha
  obtain ⟨d, A, h1, h2, h3, h4⟩ := c64_read (ha.is.law hL) ha.is.desc ha.is.typed ha.is.wf ha.is.keys ha.sessions (ha.objects o ho)
  rw [ha.is.shape] at h2 h4
  rw [ha.is.fill, ha.content] at h4
  exact ⟨d, A, h1, h2, h3, h4⟩

/-- **C66, open objects.**  Every open object belongs to an array of the tree. -/
theorem c66_open (hL : L.Lawful) (h : History C L Ty T os σ) {p : Path} {o : DatasetObj} (ho : (p, o) ∈ os) :
    ∃ x, T p = some (.array x) :=
  (Container.inv_of_history hL h).objects p o ho

/-- **C66, writing.**  Every write of a region through an object that is not read-only succeeds under every schedule (with
shards it may fail with a `length_error`, as by the limit on the size of shards), and if it succeeds the tree has the new elements. -/
theorem c66_write (hL : L.Lawful) (h : History C L Ty T os σ) {p : Path} {o : DatasetObj}
    {x : ArrayItem Ty} (hT : (L.codec (Ty.elem x.dtype).size o.settings).TotalFor (prod x.chunks * (Ty.elem x.dtype).size))
    (ho : (p, o) ∈ os) (hx : T p = some (.array x)) (hm : o.handle.mode ≠ .r) :
    ∃ d, o.typed L (Ty.cast x.dtype) = .ok d ∧ d.base.shape = x.shape ∧
      ∀ (call : RegionCall (Ty.elem x.dtype)) (val : List Nat → (Ty.elem x.dtype).T), call.Valid d.base →
        (∀ i, InBox i call.shape → call.value i = some (val i)) →
        ∀ scratch, ∃ ts, d.start call scratch = .ok ts ∧
          ∀ is rs, FsProg.Finished (FsProg.interleave is (d.onFiles (C.root ++ p) ts, σ)).1 rs →
            ((∀ r ∈ rs, r = .ok ()) →
              History C L Ty (T.put p (.array { x with content := override x.content call.off call.shape val })) os
                (FsProg.interleave is (d.onFiles (C.root ++ p) ts, σ)).2) ∧
            ∀ r ∈ rs, r = .ok () ∨ (r = .throw .lengthError ∧ x.shards ≠ none) := by
  have hi := Container.inv_of_history hL h
  obtain ⟨d', A, h1', h2', _⟩ := c66_read hL h ho hx
  rcases hi.array _ _ hx with ha | ha
  case inr =>
    obtain ⟨d, h1, h2⟩ := ha.write hL ho hT hm
    rw [h1] at h1'
    cases h1'
    refine ⟨_, h1, h2', fun call val hv hval scratch => ?_⟩
    obtain ⟨ts, h3, h4⟩ := h2 call hv scratch
    exact ⟨ts, h3, fun is rs hf => ⟨fun hok => .wrote (w := ⟨call.off, call.shape, val⟩) h ho hx hm h1
      (.region call val scratch ts is hv hval h3 ⟨rs, hf, hok, rfl⟩), h4 is rs hf⟩⟩
  obtain ⟨o₀, d₀, os', ws, ha⟩ := ha
  obtain ⟨d, h1, h2⟩ := c64_write_succeeds (ha.is.law hL) ha.is.desc ha.is.typed ha.is.wf ha.is.keys ha.sessions
    (by rw [ha.is.chunkShape]; exact hT) (ha.objects o ho)
    (canWrite_of_ne hm)
  rw [h1] at h1'
  cases h1'
  refine ⟨_, h1, h2', fun call val hv hval scratch => ?_⟩
  obtain ⟨ts, h3, h4⟩ := h2 call hv scratch
  refine ⟨ts, h3, fun is rs hf => ⟨fun hok => ?_, fun r hr => (h4 is rs hf r hr).imp_right fun ⟨e, sd, hsd⟩ => ⟨e, fun hn => ?_⟩⟩⟩
  · exact .wrote (w := ⟨call.off, call.shape, val⟩) h ho hx hm h1 (.region call val scratch ts is hv hval h3 ⟨rs, hf, hok, rfl⟩)
  · obtain ⟨ds, e⟩ := ha.is.plain hn
    obtain ⟨_, _, d', _, t1, _, _, _, _, _, t2, _⟩ := sessions_object (ha.is.law hL) ha.is.desc ha.is.typed ha.is.wf ha.is.keys ha.is.fit
      ha.sessions (ha.objects o ho) hm
    rw [h1] at t1
    cases t1
    obtain ⟨ds', e'⟩ := t2 ds e
    rw [hsd] at e'
    cases e'

theorem names_nil (op : AttrOp) : op.names [] = false := by cases op <;> rfl

/-- the attributes of nothing can be changed in read-only mode -/
theorem change_read_only {t : Target} (hm : t.mode = .r) (op : AttrOp) (σ : Fs) : t.change op σ = (.throw .invalidArgument, σ) := by
  have hw : (!t.mode.canWrite) = true := by rw [hm]; rfl
  cases t <;> cases op
  all_goals
    simp only [Target.mode] at hw
    simp only [Target.change, GroupHandle.writeAttributes, GroupHandle.removeAttribute, GroupHandle.writeFileAttributes,
      GroupHandle.removeFileAttribute, DatasetHandle.writeAttributes, DatasetHandle.removeAttribute]
    simp only [hw, if_true]
    rfl

/-- **C66, attributes of groups.**  `dict(group.attrs)` shows those of the tree, and a change (unless it names what N5 needs
to tell the version and arrays from groups) makes it a change of the tree; `ValueError` in read-only mode. -/
theorem c66_group_attributes (hL : L.Lawful) (h : History C L Ty T os σ) {g : Path} {A : AttrMap} (hg : T g = some (.group A))
    (m : FileMode) :
    (∃ j, (C.attrsOf g m).read σ = (.ok j, σ) ∧ ∀ k, j.find k = A k) ∧
    ∀ op : AttrOp, op.Valid →
      (C.isZarr = false → op.names ["dimensions", "blockSize", "dataType", "compressionType", "compression"] = false) →
      (m = .r → (C.attrsOf g m).change op σ = (.throw .invalidArgument, σ)) ∧
      (m ≠ .r → C.isZarr = false ∧ g = [] ∧ op.names ["n5"] = true → (C.attrsOf g m).change op σ = (.throw .runtimeError, σ)) ∧
      (m ≠ .r → ¬ (C.isZarr = false ∧ g = [] ∧ op.names ["n5"] = true) → ∃ σ', (C.attrsOf g m).change op σ = (.ok (), σ') ∧
        History C L Ty (T.put g (.group (op.apply A))) os σ') := by
  have hi := Container.inv_of_history hL h
  have ha := hi.group _ _ hg
  have hl : ∀ op : AttrOp, op.names ((C.attrsOf g m).locked C.layout) = true ↔ (C.isZarr = false ∧ g = [] ∧ op.names ["n5"] = true) := by
    intro op
    unfold Container.attrsOf
    by_cases hg0 : g = []
    · rw [if_pos hg0]
      cases hla : C.layout with
      | n5 =>
        have := Container.layout_n5.1 hla
        simp only [Target.locked, this, hg0, true_and]
      | v2 =>
        have : ¬ C.isZarr = false := fun e => by rw [Container.layout_n5.2 e] at hla; cases hla
        simp [Target.locked, names_nil, this]
      | v3 =>
        have : ¬ C.isZarr = false := fun e => by rw [Container.layout_n5.2 e] at hla; cases hla
        simp [Target.locked, names_nil, this]
    · rw [if_neg hg0]
      simp [Target.locked, names_nil, hg0]
  refine ⟨?_, fun op hv h5 => ⟨?_, fun hm hb => ?_, fun hm hb => ?_⟩⟩
  · obtain ⟨j, h1, h2⟩ := Target.read_ok (ha.refers m)
    refine ⟨j, h1, fun k => ?_⟩
    rw [h2, Container.attrsOf_path, ha.attrs]
    unfold Container.attrsOf
    by_cases hg0 : g = []
    · rw [if_pos hg0]; cases C.layout <;> rfl
    · rw [if_neg hg0]; cases C.layout <;> rfl
  · rintro rfl
    exact change_read_only (Container.attrsOf_mode g .r) op σ
  · exact (ha.change hi.wf hm hv h5).1 ((hl op).2 hb)
  · obtain ⟨σ', h1, _⟩ := (ha.change hi.wf hm hv h5).2 (by
      cases e : op.names ((C.attrsOf g m).locked C.layout) with
      | false => rfl
      | true => exact absurd ((hl op).1 e) hb)
    exact ⟨σ', h1, .groupAttrs h hg hv h5 h1⟩

/-- **C66, attributes of arrays.** -/
theorem c66_array_attributes (hL : L.Lawful) (h : History C L Ty T os σ) {p : Path} {o : DatasetObj} {x : ArrayItem Ty}
    (ho : (p, o) ∈ os) (hx : T p = some (.array x)) :
    (∃ j, (Target.dataset o.handle).read σ = (.ok j, σ) ∧ ∀ k, j.find k = x.attrs k) ∧
    ∀ op : AttrOp, op.Valid →
      (o.handle.mode = .r → (Target.dataset o.handle).change op σ = (.throw .invalidArgument, σ)) ∧
      (o.handle.mode ≠ .r →
        C.isZarr = false ∧ op.names ["dimensions", "blockSize", "dataType", "compressionType", "compression"] = true →
        (Target.dataset o.handle).change op σ = (.throw .runtimeError, σ)) ∧
      (o.handle.mode ≠ .r →
        ¬ (C.isZarr = false ∧ op.names ["dimensions", "blockSize", "dataType", "compressionType", "compression"] = true) →
        ∃ σ', (Target.dataset o.handle).change op σ = (.ok (), σ') ∧
          History C L Ty (T.put p (.array { x with attrs := op.apply x.attrs })) os σ') := by
  have hi := Container.inv_of_history hL h
  have ha := hi.array _ _ hx
  have hl : ∀ op : AttrOp, op.names ((Target.dataset o.handle).locked C.layout) = true ↔
      (C.isZarr = false ∧ op.names ["dimensions", "blockSize", "dataType", "compressionType", "compression"] = true) := by
    intro op
    cases hla : C.layout with
    | n5 =>
      have := Container.layout_n5.1 hla
      simp only [Target.locked, this, true_and]
    | v2 =>
      have : ¬ C.isZarr = false := fun e => by rw [Container.layout_n5.2 e] at hla; cases hla
      simp [Target.locked, names_nil, this]
    | v3 =>
      have : ¬ C.isZarr = false := fun e => by rw [Container.layout_n5.2 e] at hla; cases hla
      simp [Target.locked, names_nil, this]
  refine ⟨?_, fun op hv => ⟨?_, fun hm hb => ?_, fun hm hb => ?_⟩⟩
  · obtain ⟨hr, hp⟩ := ha.refers hL ho
    obtain ⟨j, h1, h2⟩ := Target.read_ok hr
    refine ⟨j, h1, fun k => ?_⟩
    rw [h2]
    show (Target.dataset o.handle).shown C.layout (σ.attributes o.handle.path C.layout) k = _
    rw [hp, ha.attrs]
  · exact fun hm => change_read_only (t := .dataset o.handle) hm op σ
  · exact (ha.change hL hi.wf ho hm hv).1 ((hl op).2 hb)
  · obtain ⟨σ', h1, _⟩ := (ha.change hL hi.wf ho hm hv).2 (by
      cases e : op.names ((Target.dataset o.handle).locked C.layout) with
      | false => rfl
      | true => exact absurd ((hl op).1 e) hb)
    exact ⟨σ', h1, .arrayAttrs h ho hx hv h1⟩

/-- The container says which version it is of. -/
theorem supported_of_history (hL : L.Lawful) (hC : C.Ok) (h : History C L Ty T os σ) :
    σ C.root ≠ none ∧ σ.Supported C.root (if C.isZarr then some C.format else none) := by
  have hi := Container.inv_of_history hL h
  obtain ⟨A, hA, hn5⟩ := hi.top
  have ha := hi.group _ _ hA
  have hd : σ C.root ≠ none := by
    have := ha.node.dir
    rw [List.append_nil] at this
    rw [this]; exact fun e => by cases e
  refine ⟨hd, ?_⟩
  have hk := ha.kind
  have hnode := ha.node
  have hat := ha.attrs
  unfold Container.GroupKind at hk
  rw [List.append_nil] at hk hnode hat
  cases hla : C.layout with
  | n5 =>
    have hz := Container.layout_n5.1 hla
    rw [hla] at hk hat
    obtain ⟨c, cs, hc, h5⟩ := hn5 hz
    rw [← hat] at h5
    simp only [hz, Bool.false_eq_true, if_false]
    cases hj : σ.docAt (C.root ++ ["attributes.json"]) with
    | none => unfold Fs.attributes at h5; simp only [Layout.file, hj, Option.bind_none] at h5; cases h5
    | some j =>
      unfold Fs.attributes at h5
      simp only [Layout.file, hj, Option.bind_some] at h5
      exact .n5 (.n5 hd hk.2.1 hk.1 hj h5) hc
  | v2 =>
    have hz : C.isZarr = true := by
      cases e : C.isZarr with
      | true => rfl
      | false => rw [Container.layout_n5.2 e] at hla; cases hla
    rw [hla] at hk
    obtain ⟨j, hk, hf⟩ := hk
    rw [hz, if_pos rfl]
    exact .zarr (.v2 hd (hnode.v2 hla) (docAt_doc hk) hf) (hC hz)
  | v3 =>
    have hz : C.isZarr = true := by
      cases e : C.isZarr with
      | true => rfl
      | false => rw [Container.layout_n5.2 e] at hla; cases hla
    rw [hla] at hk
    obtain ⟨j, h1, h2, h3⟩ := hk
    rw [hz, if_pos rfl]
    have hf : C.format = 3 := by
      rcases hC hz with e | e
      · unfold Container.layout at hla; rw [hz, e] at hla; cases hla
      · exact e
    rw [hf]
    refine .zarr (.v3 hd (j := j) ?_ h3) (.inr rfl)
    unfold Fs.docAt
    rw [h1]

/-- **C66, opening the container again.**  In the modes `r`, `r+` and `a` the file object of an existing container gives its root,
and nothing changes. -/
theorem c66_reopen (hL : L.Lawful) (hC : C.Ok) (h : History C L Ty T os σ) {base : String} {z : Option Bool} {f : Int} {m : FileMode}
    (hm : m = .r ∨ m = .rp ∨ m = .a) (hz : ∀ b, z = some b → b = σ.looksLikeZarr C.root base) :
    pyFile C.root base m z f σ = (.ok ⟨⟨C.root, m⟩, if C.isZarr then C.format else f⟩, σ) := by
  obtain ⟨hd, hs⟩ := supported_of_history hL hC h
  rw [(c42_use hz hm hd).2.1 _ hs]
  cases C.isZarr <;> rfl

/-- The container of the example: a zarr container (version 2) in the directory `c.zarr` -/
def exC : Container := ⟨["c.zarr"], true, 2⟩

/-- A `uint8` array of shape (5, 4) in chunks of (2, 4), filled with 3 -/
def exItem : ArrayItem exTypes := ⟨.uint8, [5, 4], [2, 4], none, exElem (.int 3), fun _ => exElem (.int 3), fun _ => none⟩

/-- `exPyArgs` asks for it. -/
theorem exItem_asked : exPyArgs.Asks exC.layout exItem where
  shape := ⟨fun _ e => by cases e; rfl, (fun _ _ e => by cases e), .inl (by decide)⟩
  type := ⟨fun _ e => by cases e; rfl, (fun _ _ e => by cases e), .inl (by decide)⟩
  chunks := .inl ⟨_, rfl, rfl, rfl⟩
  sharding := rfl
  fill := ⟨.int 3, by decide +kernel, rfl⟩
  content := rfl
  attrs := rfl
  axes := ⟨by decide, by decide⟩
  positive := by decide
  small := by decide
  bytes := by decide
  number := by decide
  representable := ofInt_representable (by decide)
  fillN5 := fun e => by cases e
  shards := fun _ e => by cases e
  slots := fun _ e => by cases e
  separator := by decide
  options := by decide
  compression := ⟨.zlib 7 true, .zlib (fun k v e => by
      have := assocGet_some_mem e
      simp only [exPyArgs, List.mem_cons, List.not_mem_nil, or_false, Prod.mk.injEq] at this
      rw [this.1]
      decide) (.inl ⟨rfl, by decide, by decide⟩), ⟨by decide, fun _ e => absurd e (by decide)⟩⟩

/-- The container is created. -/
theorem exC_start : ∃ σ, History exC exLibs exTypes (fun p => if p = [] then some (.group exC.rootAttrs) else none) [] σ := by
  obtain ⟨σ, h, _⟩ := c42_create (p := ["c.zarr"]) (b := "c.zarr") (m := .a) (u := none) (f := 2) exZarr_wf
    (fun z e => by cases e) (.inr (.inr rfl)) rfl (by
      rintro q ⟨t, ht⟩
      cases q with
      | nil => rfl
      | cons a q =>
        simp only [List.cons_append, List.cons.injEq, List.append_eq_nil_iff] at ht
        obtain ⟨rfl, rfl, rfl⟩ := ht
        rfl)
  exact ⟨σ, .start (C := exC) exZarr_wf (.inl rfl) (by decide +kernel) h⟩

/-- The theorems apply: a container is created, then the array `g/d` (and with it the group `g`) and the group `h`; elements
of the array are written, the array is closed and opened again in read-only mode, and `h` is deleted.  The tree has the
group `g` and the array with its new elements, and not `h`. -/
example : ∃ (T : Tree exTypes) (o : DatasetObj) (σ : Fs) (B : List Nat → U8.T) (d : AnyDataset U8) (A : List Nat → U8.T),
    History exC exLibs exTypes T [(["g", "d"], o)] σ ∧ o.handle.mode = .r ∧ T.IsGroup ["g"] ∧ T ["h"] = none ∧
    T ["g", "d"] = some (.array { exItem with content := B }) ∧ B [2, 1] = (9 : Fin (256 ^ 1)) ∧ B [0, 0] = (3 : Fin (256 ^ 1)) ∧
    o.typed exLibs exElem = .ok d ∧ d.ReadsAs ["c.zarr", "g", "d"] σ A ∧ A [2, 1] = (9 : Fin (256 ^ 1)) := by
  obtain ⟨σ0, h0⟩ := exC_start
  have hclear : ∀ (T : Tree exTypes) (p : Path), T.IsGroup [] → (∀ q ≠ [], T q = none) → T.Clear p := by
    rintro T p ⟨A, hA⟩ hT q _ _ a e
    by_cases hq : q = []
    · rw [hq, hA] at e; cases e
    · rw [hT q hq] at e; cases e
  obtain ⟨o1, σ1, e1, m1, _, _, _, h1⟩ := (c66_create_array (exLibs_lawful _) h0 (g := []) (key := ["g", "d"]) ⟨_, rfl⟩
    (by decide) (by unfold PlainName; decide) (hclear _ _ ⟨_, rfl⟩ fun q hq => if_neg hq) exItem_asked .a).2.2 (by decide) rfl
  obtain ⟨σ2, e2, h2⟩ := (c66_create_group (exLibs_lawful _) h1 (g := []) (ks := []) (n := "h") ⟨_, rfl⟩
    (by unfold PlainName; decide) .rp).2.2 (by decide) rfl
  obtain ⟨d, hd, hs, hw⟩ := c66_write (exLibs_lawful _) h2 (x := exItem) (exLibs_total _ _ _) (List.mem_singleton.2 rfl) rfl (by rw [m1]; decide)
  obtain ⟨ts, hts, hrun⟩ := hw (.scalar [1, 0] [3, 3] (9 : Fin (256 ^ 1))) (fun _ => (9 : Fin (256 ^ 1)))
    ⟨by rw [hs]; decide, trivial⟩ (fun _ _ => rfl) fun _ => []
  obtain ⟨is, rs, hfin⟩ := FsProg.exists_finished (d.onFiles (exC.root ++ ["g", "d"]) ts, σ2)
  obtain ⟨h3, hok⟩ := hrun is rs hfin
  have h4 := h3 fun r hr => (hok r hr).elim id fun ⟨_, e⟩ => absurd rfl e
  have h5 := h4.closed (os' := []) fun _ h => by cases h
  obtain ⟨o, _, m6, _, _, _, h6⟩ := c66_getitem (exLibs_lawful _) h5 (g := []) ⟨_, rfl⟩ ⟨false, ["g", "d"]⟩
    ((Container.inv_of_history (exLibs_lawful _) h5).clear_of_some (by intro e; cases e)) .r
  have hdel := (c66_delete (exLibs_lawful _) h6 (g := []) ⟨_, rfl⟩ ⟨true, ["h"]⟩ (by decide)
    ((Container.inv_of_history (exLibs_lawful _) h6).clear_of_some (by intro e; cases e)) .a).2.2 (by decide)
    (fun e => by cases e)
  obtain ⟨_, h7⟩ := hdel.resolve_right (by rintro ⟨⟨_, e, _⟩, _⟩; cases e)
  obtain ⟨d', A, r1, _, r2, r3⟩ := c66_read (exLibs_lawful _) h7 (p := ["g", "d"]) (o := o) (List.mem_singleton.2 rfl) rfl
  have hex : ∀ a b : U8.T, SameOrFill U8.ceq (exElem (.int 3)) a b → a = b := by
    rintro a b (h | ⟨h1, h2⟩)
    · exact h
    · have hf : ∀ a b : U8.T, U8.ceq a b = true → a = b := fun a b =>
        (@decide_eq_true_iff (a = b) (instDecidableEqFin (256 ^ 1) a b)).1
      exact h2.trans (hf _ _ h1).symm
  exact ⟨_, o, _, _, d', A, h7, m6, ⟨_, rfl⟩, rfl, rfl, rfl, rfl, r1, r2, hex _ _ (r3 [2, 1] (by decide))⟩

/-- The container of the example just after `File("c.zarr", "a")` -/
def exCfs : Fs := (pyFile ["c.zarr"] "c.zarr" .a none 2 exZarr).2

theorem exCfs_history : History exC exLibs exTypes (fun p => if p = [] then some (.group exC.rootAttrs) else none) [] exCfs :=
  .start (C := exC) (base := "c.zarr") (m := .a) (z := none) exZarr_wf (.inl rfl) (by decide +kernel)
    (FsM.run_eq (by decide +kernel : (pyFile ["c.zarr"] "c.zarr" .a none 2 exZarr).1 = .ok ⟨⟨["c.zarr"], .a⟩, 2⟩))

/-- **C66, counterexample: names that lead through an array.**  `f.create_group("d/x")` makes a group in the directory of the
array `d`; afterwards `"d/x" in f` holds.  Arrays are not leaves then. -/
theorem c66_through_array_counterexample : ∃ (T : Tree exTypes) (o : DatasetObj) (σ σ' : Fs),
    History exC exLibs exTypes T [(["d"], o)] σ ∧ T ["d"] = some (.array exItem) ∧
    (exC.group [] .a).createGroup ⟨false, ["d", "x"]⟩ σ = (.ok (exC.group ["d", "x"] .a), σ') ∧
    ((exC.group [] .a).contains ⟨false, ["d", "x"]⟩ σ').1 = .ok true ∧
    ((exC.group [] .a).handle.isSubGroup ["d", "x"] σ').1 = .ok true := by
  obtain ⟨o1, σ1, e1, m1, _, _, _, h1⟩ := (c66_create_array (exLibs_lawful _) exCfs_history (g := []) (key := ["d"]) ⟨_, rfl⟩
    (by decide) (by unfold PlainName; decide) ((Container.inv_of_history (exLibs_lawful _) exCfs_history).clear_of_group (p := []) ⟨_, rfl⟩)
    exItem_asked .a).2.2 (by decide) rfl
  have hσ : σ1 = ((exC.group [] .a).createDatasetFull ⟨false, ["d"]⟩ exPyArgs exCfs).2 := by rw [e1]
  refine ⟨_, o1, σ1, ((exC.group [] .a).createGroup ⟨false, ["d", "x"]⟩ σ1).2, h1, rfl, ?_⟩
  rw [hσ]
  refine ⟨FsM.run_eq (by decide +kernel), by decide +kernel, by decide +kernel⟩

/-- **C66, counterexample: names of metadata files.**  `f.create_group(".zattrs")` succeeds, and then the attributes of the
container cannot be read any more. -/
theorem c66_reserved_name_counterexample : ∃ σ',
    (exC.group [] .a).createGroup ⟨false, [".zattrs"]⟩ exCfs = (.ok (exC.group [".zattrs"] .a), σ') ∧
    (∃ j, ((exC.attrsOf [] .a).read exCfs).1 = .ok j) ∧ ∀ j, ((exC.attrsOf [] .a).read σ').1 ≠ .ok j := by
  refine ⟨_, FsM.run_eq (by decide +kernel), ?_, ?_⟩
  · obtain ⟨j, h, _⟩ := (c66_group_attributes (exLibs_lawful _) exCfs_history (g := []) rfl .a).1
    exact ⟨j, by rw [h]⟩
  intro j e
  have : (match ((exC.attrsOf [] .a).read ((exC.group [] .a).createGroup ⟨false, [".zattrs"]⟩ exCfs).2).1 with
    | .ok _ => true | _ => false) = false := by decide +kernel
  rw [e] at this
  cases this

end Z5.Props
