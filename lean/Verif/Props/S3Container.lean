import Verif.Props.Container
import Verif.Props.PyDataset
import Verif.Props.PyRequire
import Verif.Proofs.S3Delete

/-!
# C79: a container on S3 is a tree of groups and arrays

Whatever calls have been made on a container on S3, by any process and with any handles, `S3History` of
`Spec/S3Container.lean` says which tree of groups and arrays they make; the theorems say that all later calls act on that
tree.
-/

namespace Z5.Props

open Spec
open S3Container (isGroup_ne inv_of_history)
open Container (fill put_fill put_self put_other)

variable {Ty : ElemTypes} {C : S3Container} {L : Libs} {T : Tree Ty} {os : List (Path × S3DatasetObj)} {b : Bucket}

/-- **C79, `name in group`.**  The names (that do not lead through an array) are those of the tree; slashes before the name do not
count. -/
theorem c79_contains (hL : L.Lawful) (h : S3History C L Ty T os b) {g p : Path} {n : Key} (hg : T.IsGroup g) (hs : Spells n p)
    (hc : T.Clear (g ++ p)) (m : FileMode) : ((C.group g m).contains n).Does 2 b (.ok (T (g ++ p)).isSome) b :=
  (inv_of_history hL h).contains hL hg hs hc

/-- **C79, `group[name]`.**  It gives the groups and the arrays of the tree, and a `KeyError` for everything else. -/
theorem c79_getitem (hL : L.Lawful) (h : S3History C L Ty T os b) {g p : Path} {n : Key} (hg : T.IsGroup g) (hs : Spells n p)
    (hc : T.Clear (g ++ p)) (m : FileMode) :
    match T (g ++ p) with
    | none => ((C.group g m).item n).Does 2 b (.throw .keyError) b
    | some (.group _) => ((C.group g m).item n).Does 8 b (.ok (.inl (C.group (g ++ p) m))) b
    | some (.array x) => ∃ o, ((C.group g m).item n).Does 18 b (.ok (.inr o)) b ∧ o.obj.handle.mode = m ∧
        o.obj.info.dtype = x.dtype ∧ o.obj.info.shape = x.shape ∧ o.obj.info.chunkShape = x.chunks ∧
        S3History C L Ty T ((g ++ p, o) :: os) b := by
  obtain ⟨h1, h2, h3⟩ := (inv_of_history hL h).item hL m hg hs hc
  cases e : T (g ++ p) with
  | none => exact h1 e
  | some x =>
    cases x with
    | group A => exact h2 ⟨A, e⟩
    | array x =>
      obtain ⟨o, i1, i2, i3, i4, i5, _⟩ := h3 x e
      refine ⟨o, i1, i2, i3, i4, i5, ?_⟩
      obtain ⟨w, hw, hb⟩ := does_calm i1
      rw [← hb]
      exact .opened h (exS3_calm 18) hg hs e hw

/-! ### Members -/

theorem child_iff (hL : L.Lawful) (h : S3History C L Ty T os b) {g : Path} (hg : T.IsGroup g) {n : Key} :
    b.Child (C.key g) n ↔ ∃ s : String, s.toList = n ∧ T (g ++ [s]) ≠ none := by
  have hi := inv_of_history hL h
  have hgn := hi.named (isGroup_ne hg)
  constructor
  · rintro ⟨hn, r, hr⟩
    rw [S3Container.dirPrefix_key hgn, List.append_assoc] at hr
    rcases hi.known g hg _ hr with ⟨m, hm, e⟩ | ⟨s, t, e1, e2⟩
    · exact absurd (by rw [← e]; simp) (S3Container.meta_slash hm)
    · exact ⟨s, (slash_split hn (hi.names g s e1).2.1 e2).1.symm, e1⟩
  · rintro ⟨s, rfl, hs⟩
    refine ⟨(hi.names g s hs).2.1, ?_⟩
    obtain ⟨k, hk, t, rfl⟩ := hi.exists_ hL hs
    have hsn := hi.named hs
    rw [S3Container.dirPrefix_key hsn, S3Container.dir_concat] at hk
    refine ⟨t, ?_⟩
    rw [S3Container.dirPrefix_key hgn]
    simpa using hk

/-- **C79, `group.keys()`.**  The names of the members are those of the tree. -/
theorem c79_keys (hL : L.Lawful) (h : S3History C L Ty T os b) {g : Path} (hg : T.IsGroup g) (m : FileMode) :
    ∃ ns, (C.group g m).handle.keys.Answers b (.ok ns) ∧ ns.Nodup ∧
      ∀ n, n ∈ ns ↔ ∃ s : String, s.toList = n ∧ T (g ++ [s]) ≠ none := by
  obtain ⟨ns, h1, h2, h3⟩ := keys_answers (h := (C.group g m).handle) (inv_of_history hL h).wf
  exact ⟨ns, h1, h2, fun n => (h3 n).trans (child_iff hL h hg)⟩

theorem answers_unique {α : Type} {x : S3M α} {b : Bucket} {r r' : Res α} (h : x.Answers b r) (h' : x.Answers b r') : r = r' := by
  obtain ⟨n, h⟩ := h
  obtain ⟨n', h'⟩ := h'
  have hes : ∀ e ∈ List.replicate (n + n' + 1) ({} : Event), e.Steady := fun e he => by
    refine ⟨exS3_calm _ e he, ?_⟩
    rw [List.eq_of_mem_replicate he]
  have hno : ¬ ∃ e ∈ List.replicate (n + n' + 1) ({} : Event), ∃ kind, e.error kind ≠ none := by
    rintro ⟨e, he, k, hk⟩
    rw [List.eq_of_mem_replicate he] at hk
    exact hk rfl
  rcases h _ hes with ⟨_, _, _, e⟩ | ⟨_, _, _, e⟩ | ⟨e, _⟩
  · rcases h' _ hes with ⟨_, _, _, e'⟩ | ⟨_, _, _, e'⟩ | ⟨e', _⟩
    · rw [e] at e'
      cases e'
      rfl
    · exact absurd e' hno
    · simp at e'
      omega
  · exact absurd e hno
  · simp at e
    omega

theorem one_named {n : String} (hn : NodeName n) : ∀ x ∈ [n], NodeName x := fun x hx => by
  rw [List.mem_singleton.1 hx]; exact hn

theorem spells_one {n : String} (hn : NodeName n) : Spells n.toList [n] := ⟨by simp, one_named hn, 0, rfl⟩

/-- what a name of a group is -/
theorem subGroup_iff (hL : L.Lawful) (h : S3History C L Ty T os b) {g : Path} (hg : T.IsGroup g) (m : FileMode) {n : String}
    (hn : T (g ++ [n]) ≠ none) (t : Bool) :
    ((C.group g m).handle.isSubGroup n.toList).Answers b (.ok t) ↔ (t = true ↔ T.IsGroup (g ++ [n])) := by
  have hi := inv_of_history hL h
  have hgn := hi.named (isGroup_ne hg)
  have hnn := hi.names g n hn
  have hz := hi.isZarr hg
  cases e : T (g ++ [n]) with
  | none => exact absurd e hn
  | some x =>
    cases x with
    | group A =>
      have := S3M.Answers.of_does ((hi.group _ _ e).isSubGroup hgn (by simp) (one_named hnn) (m := m) hz)
      constructor
      · intro ha
        have := Res.ok.inj (answers_unique ha this)
        exact ⟨fun _ => ⟨A, e⟩, fun _ => this⟩
      · intro ht
        rw [ht.2 ⟨A, e⟩]
        exact this
    | array x =>
      have := S3M.Answers.of_does ((hi.array _ _ e).isSubGroup hL hgn (by simp) (one_named hnn) (m := m) hz)
      have hng : ¬ T.IsGroup (g ++ [n]) := by
        rintro ⟨A, hA⟩
        rw [e] at hA
        cases hA
      constructor
      · intro ha
        have := Res.ok.inj (answers_unique ha this)
        exact ⟨fun ht => by (rw [ht] at this; cases this), fun hg => absurd hg hng⟩
      · intro ht
        have : t = false := by
          cases t with
          | false => rfl
          | true => exact absurd (ht.1 rfl) hng
        rw [this]
        assumption

theorem item_one (hL : L.Lawful) (h : S3History C L Ty T os b) {g : Path} (hg : T.IsGroup g) (m : FileMode) {n : String}
    (hn : T (g ++ [n]) ≠ none) :
    (∀ A, T (g ++ [n]) = some (.group A) → ((C.group g m).item n.toList).Answers b (.ok (.inl (C.group (g ++ [n]) m)))) ∧
    ∀ x, T (g ++ [n]) = some (.array x) → ∃ o, ((C.group g m).handle.openDataset n.toList).Answers b (.ok o) ∧
      ((C.group g m).item n.toList).Answers b (.ok (.inr o)) := by
  have hi := inv_of_history hL h
  have hgn := hi.named (isGroup_ne hg)
  have hnn := hi.names g n hn
  have hz := hi.isZarr hg
  obtain ⟨_, h2, h3⟩ := hi.item hL m hg (spells_one hnn) (hi.clear_of_group hg)
  refine ⟨fun A hA => .of_does (h2 ⟨A, hA⟩), fun x hx => ?_⟩
  obtain ⟨o, i1, _⟩ := h3 x hx
  obtain ⟨o', j1, _⟩ := (hi.array _ _ hx).opened hL hgn (ks := [n]) (by simp) (m := m) hz
  obtain ⟨w, hw, _⟩ := does_calm i1
  have : o' = o := by
    unfold S3PyGroup.item S3PyGroup.getItem at hw
    rw [(spells_one hnn).strip] at hw
    have hh := hi.has_in hL m (ks := []) (n := n) (by rw [List.append_nil]; exact hg) hnn
    obtain ⟨t, es1, e1, hs1, hw⟩ := hh.step (exS3_calm 18) hw
    rw [List.append_nil, hx] at e1
    cases e1
    simp only [Option.isSome_some, Bool.not_true, Bool.false_eq_true, if_false] at hw
    have hes1 : ∀ e ∈ es1, e.Reliable := fun e he => exS3_calm 18 e (hs1.subset he)
    obtain ⟨t, es2, e2, hs2, hw⟩ := ((hi.array _ _ hx).isSubGroup hL hgn (ks := [n]) (by simp) (one_named hnn) (m := m) hz).step hes1 hw
    cases e2
    rw [if_neg (by decide)] at hw
    obtain ⟨t, es3, e3, hs3, hw⟩ := j1.step (fun e he => hes1 e (hs2.subset he)) hw
    cases e3
    cases hw
    rfl
  subst this
  exact ⟨o', .of_does j1, .of_does i1⟩

/-- what `visititems` visits -/
theorem member_iff_s3 (hL : L.Lawful) (h : S3History C L Ty T os b) {m : FileMode} : ∀ {ks : List Key} {g : Path}, T.IsGroup g →
    ∀ obj, b.Member (C.group g m) ks obj ↔ ∃ rel : Path, ks = rel.map String.toList ∧ rel ≠ [] ∧ T (g ++ rel) ≠ none ∧
      ((C.group (g ++ rel.dropLast) m).item (Path.text rel.getLast?.toList)).Answers b (.ok obj)
  | [], g, hg, obj => by
    constructor
    · intro h
      cases h
    · rintro ⟨rel, e, hne, _⟩
      exact absurd (List.map_eq_nil_iff.1 e.symm) hne
  | k :: ks, g, hg, obj => by
    have hi := inv_of_history hL h
    have hgn := hi.named (isGroup_ne hg)
    have hch : ∀ n : Key, b.Child (C.group g m).handle.name n ↔ ∃ s : String, s.toList = n ∧ T (g ++ [s]) ≠ none := fun n => child_iff hL h hg
    have hres : ∀ n : String, (⟨(C.group g m).handle.child n.toList, (C.group g m).zarrFormat⟩ : S3PyGroup) = C.group (g ++ [n]) m :=
      fun n => S3Container.child_group (ks := [n]) hgn (by simp)
    constructor
    · intro hm
      cases hm with
      | group h1 h2 =>
        obtain ⟨n, rfl, hn⟩ := (hch k).1 h1
        obtain ⟨A, hA⟩ := ((subGroup_iff hL h hg m hn true).1 h2).1 rfl
        refine ⟨[n], rfl, by simp, hn, ?_⟩
        rw [hres]
        show ((C.group (g ++ []) m).item n.toList).Answers b _
        rw [List.append_nil]
        exact (item_one hL h hg m hn).1 A hA
      | dataset h1 h2 h3 =>
        obtain ⟨n, rfl, hn⟩ := (hch k).1 h1
        refine ⟨[n], rfl, by simp, hn, ?_⟩
        show ((C.group (g ++ []) m).item n.toList).Answers b _
        rw [List.append_nil]
        cases e : T (g ++ [n]) with
        | none => exact absurd e hn
        | some x =>
          cases x with
          | group A => exact absurd (((subGroup_iff hL h hg m hn false).1 h2).2 ⟨A, e⟩) (by decide)
          | array x =>
            obtain ⟨o, i1, i2⟩ := (item_one hL h hg m hn).2 x e
            have := answers_unique h3 i1
            cases this
            exact i2
      | deeper h1 h2 h3 =>
        obtain ⟨n, rfl, hn⟩ := (hch k).1 h1
        have hG := ((subGroup_iff hL h hg m hn true).1 h2).1 rfl
        rw [hres] at h3
        obtain ⟨rel, rfl, r1, r2, r3⟩ := (member_iff_s3 hL h hG obj).1 h3
        refine ⟨n :: rel, rfl, by simp, by simpa using r2, ?_⟩
        rw [List.dropLast_cons_of_ne_nil r1, List.getLast?_cons_of_ne_nil r1]
        have : g ++ n :: rel.dropLast = g ++ [n] ++ rel.dropLast := by simp
        rw [this]
        exact r3
    · rintro ⟨rel, hks, r1, r2, r3⟩
      cases rel with
      | nil => exact absurd rfl r1
      | cons n rel =>
        rw [List.map_cons] at hks
        obtain ⟨rfl, rfl⟩ := List.cons.inj hks
        have hn : T (g ++ [n]) ≠ none := hi.some_above r2 ⟨rel, by simp⟩
        have h1 := (hch n.toList).2 ⟨n, rfl, hn⟩
        by_cases hrel : rel = []
        · subst hrel
          have r3 : ((C.group (g ++ []) m).item n.toList).Answers b (.ok obj) := r3
          rw [List.append_nil] at r3
          cases e : T (g ++ [n]) with
          | none => exact absurd e hn
          | some x =>
            cases x with
            | group A =>
              have := answers_unique r3 ((item_one hL h hg m hn).1 A e)
              cases this
              rw [← hres]
              exact .group h1 ((subGroup_iff hL h hg m hn true).2 ⟨fun _ => ⟨A, e⟩, fun _ => rfl⟩)
            | array x =>
              obtain ⟨o, i1, i2⟩ := (item_one hL h hg m hn).2 x e
              have := answers_unique r3 i2
              cases this
              refine .dataset h1 ((subGroup_iff hL h hg m hn false).2 ⟨(fun e => by cases e), ?_⟩) i1
              rintro ⟨A, hA⟩
              rw [e] at hA
              cases hA
        · have hG : T.IsGroup (g ++ [n]) := hi.parents r2 ⟨rel, by simp⟩ (by simpa using hrel)
          refine .deeper h1 ((subGroup_iff hL h hg m hn true).2 ⟨fun _ => hG, fun _ => rfl⟩) ?_
          rw [hres]
          refine (member_iff_s3 hL h hG obj).2 ⟨rel, rfl, hrel, by simpa using r2, ?_⟩
          rw [List.dropLast_cons_of_ne_nil hrel, List.getLast?_cons_of_ne_nil hrel] at r3
          have : g ++ n :: rel.dropLast = g ++ [n] ++ rel.dropLast := by simp
          rw [this] at r3
          exact r3

theorem map_toList_inj : ∀ {p q : Path}, p.map String.toList = q.map String.toList → p = q
  | [], [], _ => rfl
  | [], _ :: _, h => by simp at h
  | _ :: _, [], h => by simp at h
  | a :: p, c :: q, h => by
    rw [List.map_cons, List.map_cons] at h
    obtain ⟨h1, h2⟩ := List.cons.inj h
    rw [String.toList_inj.1 h1, map_toList_inj h2]

theorem callUntil_map {A B s v : Type} {f : A → s → Option v × s} {c : A → B} {k : B → s → Option v × s} :
    ∀ (ms : List A), (∀ p ∈ ms, f p = k (c p)) → ∀ st, callUntil f ms st = callUntil k (ms.map c) st
  | [], _, _ => rfl
  | p :: ms, h, st => by
    rw [List.map_cons]
    unfold callUntil
    rw [h p (by simp)]
    cases k (c p) st with
    | mk r st' =>
      cases r with
      | some _ => rfl
      | none => exact callUntil_map ms (fun q hq => h q (List.mem_cons_of_mem _ hq)) st'

theorem item_answers (hL : L.Lawful) (h : S3History C L Ty T os b) {g rel : Path} (hr : rel ≠ []) (hT : T (g ++ rel) ≠ none)
    (m : FileMode) : ∃ obj, ((C.group (g ++ rel.dropLast) m).item (Path.text rel.getLast?.toList)).Answers b (.ok obj) ∧
      ((∃ g', obj = .inl g') ↔ T.IsGroup (g ++ rel)) := by
  have hi := inv_of_history hL h
  obtain ⟨ks, n, rfl⟩ : ∃ ks n, rel = ks ++ [n] := by
    rcases last_cases rel with e | e
    · exact absurd e hr
    · exact e
  rw [List.dropLast_concat, List.getLast?_concat]
  rw [← List.append_assoc] at hT ⊢
  have hp : T.IsGroup (g ++ ks) := hi.parents hT (List.prefix_append _ _) (by simp)
  cases e : T (g ++ ks ++ [n]) with
  | none => exact absurd e hT
  | some x =>
    cases x with
    | group A => exact ⟨_, (item_one hL h hp m hT).1 A e, fun _ => ⟨A, e⟩, fun _ => ⟨_, rfl⟩⟩
    | array x =>
      obtain ⟨o, _, i2⟩ := (item_one hL h hp m hT).2 x e
      exact ⟨_, i2, (fun ⟨g', h'⟩ => by cases h'), (fun ⟨A, h'⟩ => by (rw [e] at h'; cases h'))⟩

/-- **C79, `visititems`.**  Every member of the tree below the group is visited once, under its path, with the object that
`[]` gives for it, groups before their members. -/
theorem c79_visititems (hL : L.Lawful) (h : S3History C L Ty T os b) {g : Path} (hg : T.IsGroup g) (m : FileMode) {limit : Nat}
    (h0 : 0 < limit) (hd : ∀ rel, T.IsGroup (g ++ rel) → rel.length < limit) :
    ∃ ms : List (Path × (S3PyGroup ⊕ S3DatasetObj)),
      (ms.map (·.1)).Nodup ∧ ms.Pairwise (fun p q => ¬ q.1 <+: p.1) ∧
      (∀ rel, (∃ obj, (rel, obj) ∈ ms) ↔ rel ≠ [] ∧ T (g ++ rel) ≠ none) ∧
      (∀ rel obj, (rel, obj) ∈ ms →
        ((C.group (g ++ rel.dropLast) m).item (Path.text rel.getLast?.toList)).Answers b (.ok obj)) ∧
      ∀ (s v : Type) (func : Key → S3PyGroup ⊕ S3DatasetObj → s → Option v × s) (st : s),
        (visitItems s3Mapping (C.group g m) func limit (C.group g m) st).Answers b
          (.ok (callUntil (fun p => func p.1.text p.2) ms st)) := by
  have hi := inv_of_history hL h
  have hgrp : ∀ {rel : List Key} {g'}, b.Member (C.group g m) rel (.inl g') →
      ∃ p : Path, rel = p.map String.toList ∧ T.IsGroup (g ++ p) ∧ g' = C.group (g ++ p) m := by
    intro rel g' hm
    obtain ⟨p, rfl, r1, r2, r3⟩ := (member_iff_s3 hL h hg _).1 hm
    obtain ⟨obj, i1, i2⟩ := item_answers hL h r1 r2 m
    have := Res.ok.inj (answers_unique r3 i1)
    have hG := i2.1 ⟨_, this.symm⟩
    refine ⟨p, rfl, hG, ?_⟩
    obtain ⟨ks, n, rfl⟩ : ∃ ks n, p = ks ++ [n] := by
      rcases last_cases p with e | e
      · exact absurd e r1
      · exact e
    rw [List.dropLast_concat, List.getLast?_concat] at r3
    rw [← List.append_assoc] at hG r2 ⊢
    obtain ⟨A, hA⟩ := hG
    have := answers_unique r3 ((item_one hL h (hi.parents r2 (List.prefix_append _ _) (by simp)) m r2).1 A hA)
    cases this
    rfl
  have hsound : b.Sound (C.group g m) := by
    have key : ∀ p, T.IsGroup p → ∀ n, b.Child (C.group p m).handle.name n → n ≠ [] ∧ ∃ obj, b.Member (C.group p m) [n] obj := by
      intro p hp n hn
      obtain ⟨s, rfl, hs⟩ := (child_iff hL h hp).1 hn
      refine ⟨fun e => (hi.names p s hs).1 (String.toList_inj.1 e), ?_⟩
      obtain ⟨obj, i1, _⟩ := item_answers hL h (g := p) (rel := [s]) (by simp) hs m
      exact ⟨obj, (member_iff_s3 hL h hp obj).2 ⟨[s], rfl, by simp, hs, i1⟩⟩
    intro g' hg' n hn
    rcases hg' with rfl | ⟨rel, hm⟩
    · exact key g hg n hn
    · obtain ⟨p, _, hp, rfl⟩ := hgrp hm
      exact key _ hp n hn
  obtain ⟨ms, m1, m2, m3, m4⟩ := c58_s3 (limit := limit) hi.wf hsound h0 (fun rel g' hm => by
    obtain ⟨p, rfl, hp, _⟩ := hgrp hm
    rw [List.length_map]
    exact hd p hp)
  have hback : ∀ p ∈ ms, ∃ q : Path, p.1 = q.map String.toList := fun p hp => by
    obtain ⟨q, hq, _⟩ := (member_iff_s3 hL h hg _).1 ((m2 p.1 p.2).1 hp)
    exact ⟨q, hq⟩
  let conv : List Key → Path := fun ks => ks.map String.ofList
  have hconv : ∀ q : Path, conv (q.map String.toList) = q := fun q => by
    show (q.map String.toList).map String.ofList = q
    rw [List.map_map]
    exact (List.map_congr_left fun x _ => String.ofList_toList).trans (List.map_id _)
  have hinv : ∀ p ∈ ms, (conv p.1).map String.toList = p.1 := fun p hp => by
    obtain ⟨q, hq⟩ := hback p hp
    rw [hq, hconv]
  have hmem : ∀ rel obj, (rel, obj) ∈ ms.map (fun p => (conv p.1, p.2)) ↔ b.Member (C.group g m) (rel.map String.toList) obj := by
    intro rel obj
    rw [List.mem_map]
    constructor
    · rintro ⟨p, hp, e⟩
      have e1 : conv p.1 = rel := congrArg Prod.fst e
      have e2 : p.2 = obj := congrArg Prod.snd e
      rw [← e1, ← e2, hinv p hp]
      exact (m2 _ _).1 hp
    · intro hm
      exact ⟨(rel.map String.toList, obj), (m2 _ _).2 hm, by rw [hconv]⟩
  have hM : ∀ rel obj, (rel, obj) ∈ ms.map (fun p => (conv p.1, p.2)) ↔ rel ≠ [] ∧ T (g ++ rel) ≠ none ∧
      ((C.group (g ++ rel.dropLast) m).item (Path.text rel.getLast?.toList)).Answers b (.ok obj) := by
    intro rel obj
    rw [hmem, member_iff_s3 hL h hg]
    constructor
    · rintro ⟨p, hp, r⟩
      rw [map_toList_inj hp]
      exact r
    · intro r
      exact ⟨rel, rfl, r⟩
  have hord : (ms.map (fun p => (conv p.1, p.2))).Pairwise (fun p q => ¬ q.1 <+: p.1) := by
    rw [List.pairwise_map]
    refine (List.pairwise_iff_forall_sublist.2 fun {p q} hs => ?_)
    have hpq := List.pairwise_iff_forall_sublist.1 m3 hs
    intro hpre
    refine hpq ?_
    rw [← hinv p (hs.subset (by simp)), ← hinv q (hs.subset (by simp))]
    exact hpre.map _
  refine ⟨ms.map (fun p => (conv p.1, p.2)), ?_, hord, fun rel => ?_, fun rel obj ho => ((hM rel obj).1 ho).2.2,
    fun s v func st => ?_⟩
  · rw [List.Nodup, List.pairwise_map]
    exact hord.imp fun {p q} h (e : p.1 = q.1) => h (by rw [e]; exact List.prefix_rfl)
  · constructor
    · rintro ⟨obj, ho⟩
      exact ⟨((hM rel obj).1 ho).1, ((hM rel obj).1 ho).2.1⟩
    · rintro ⟨r1, r2⟩
      obtain ⟨obj, i1, _⟩ := item_answers hL h r1 r2 m
      exact ⟨obj, (hM rel obj).2 ⟨r1, r2, i1⟩⟩
  · have := m4 s v func st
    have e := callUntil_map (f := fun p => func (slashed p.1) p.2) (c := fun p => (conv p.1, p.2))
      (k := fun p : Path × (S3PyGroup ⊕ S3DatasetObj) => func p.1.text p.2) ms (fun p hp => by
        show func (slashed p.1) p.2 = func (slashed ((conv p.1).map String.toList)) p.2
        rw [hinv p hp]) st
    rw [← e]
    exact this

/-! ### Creation -/

/-- **C79, `create_group`.**  In a group of the container: a new group, `KeyError` if the name is taken, `ValueError` in read-only
mode. -/
theorem c79_create_group (hL : L.Lawful) (h : S3History C L Ty T os b) {g ks : Path} {n : String} (hp : T.IsGroup (g ++ ks))
    (hn : NodeName n) (m : FileMode) :
    (m = .r → ((C.group g m).createGroup (Path.text (ks ++ [n]))).Does 0 b (.throw .invalidArgument) b) ∧
    (m ≠ .r → T (g ++ ks ++ [n]) ≠ none → ((C.group g m).createGroup (Path.text (ks ++ [n]))).Does 2 b (.throw .keyError) b) ∧
    (m ≠ .r → T (g ++ ks ++ [n]) = none → ∃ b',
      ((C.group g m).createGroup (Path.text (ks ++ [n]))).Does 9 b (.ok (C.group (g ++ ks ++ [n]) m)) b' ∧
      S3History C L Ty (T.add (g ++ ks ++ [n]) (.group fun _ => none)) os b') := by
  obtain ⟨h1, h2, h3⟩ := (inv_of_history hL h).createGroup hL m hp hn
  refine ⟨h1, h2, fun hm hT => ?_⟩
  obtain ⟨b', i1, _⟩ := h3 hm hT
  obtain ⟨w, hw, hb⟩ := does_calm i1
  refine ⟨b', i1, ?_⟩
  rw [← hb]
  exact .createGroup h (exS3_calm 9) hp hn hw

/-- **C79, `require_group`.**  In a group of the container: the group, if there is one (in every mode, and nothing changes);
`TypeError` for an array; a new group otherwise, `ValueError` in read-only mode. -/
theorem c79_require_group (hL : L.Lawful) (h : S3History C L Ty T os b) {g ks : Path} {n : String} (hp : T.IsGroup (g ++ ks))
    (hn : NodeName n) (m : FileMode) :
    match T (g ++ ks ++ [n]) with
    | some (.group _) => ((C.group g m).requireGroup (Path.text (ks ++ [n]))).Does 8 b (.ok (C.group (g ++ ks ++ [n]) m)) b
    | some (.array _) => ((C.group g m).requireGroup (Path.text (ks ++ [n]))).Does 8 b (.throw .typeError) b
    | none => (m = .r → ((C.group g m).requireGroup (Path.text (ks ++ [n]))).Does 2 b (.throw .invalidArgument) b) ∧
        (m ≠ .r → ∃ b', ((C.group g m).requireGroup (Path.text (ks ++ [n]))).Does 9 b (.ok (C.group (g ++ ks ++ [n]) m)) b' ∧
          S3History C L Ty (T.add (g ++ ks ++ [n]) (.group fun _ => none)) os b') := by
  obtain ⟨h1, h2, h3, h4⟩ := (inv_of_history hL h).requireGroup hL m hp hn
  cases e : T (g ++ ks ++ [n]) with
  | some y =>
    cases y with
    | group A => exact h1 ⟨A, e⟩
    | array x => exact h2 ⟨x, e⟩
  | none =>
    refine ⟨fun hm => h3 hm e, fun hm => ?_⟩
    obtain ⟨b', i1, _⟩ := h4 hm e
    obtain ⟨w, hw, hb⟩ := does_calm i1
    refine ⟨b', i1, ?_⟩
    rw [← hb]
    exact .requireGroup h (exS3_calm 9) hp hn e hw

/-- arguments that make sense are accepted for a free name -/
theorem newDataset_does (hL : L.Lawful) (h : S3History C L Ty T os b) {g ks : Path} {n : String} {m : FileMode} {a : PyCreateArgs}
    {x : ArrayItem Ty} (hp : T.IsGroup (g ++ ks)) (hn : NodeName n) (hT : T (g ++ ks ++ [n]) = none) (hx : a.Asks C.layout x)
    (hcx : x.dtype.isComplex = false) (hm : m ≠ .r) :
    ∃ o b', ((C.group g m).newDataset (Path.text (ks ++ [n])) a).Does 11 b (.ok o) b' := by
  classical
  have hi := inv_of_history hL h
  obtain ⟨hgn, hksn⟩ := hi.names_of hp hn
  obtain ⟨S, hS, hF⟩ := hx.compression
  obtain ⟨v, hv, _⟩ := hx.fill
  obtain ⟨args, O, r, mt, j, a1, a2, a3, a4, a5, a6, a7⟩ := args_accepted (z := true) (zf := C.format) hx.options hx.shape hx.type hx.chunks
    hx.axes.1 hx.positive (castFill_fits hv) hx.shards hS hF
  have hz := hi.isZarr (hi.group_above hp)
  have hj : joinKey (C.group g m).handle.name (Path.text (ks ++ [n])) = C.key (g ++ ks ++ [n]) := by
    rw [List.append_assoc]
    exact S3Container.joinKey_key hgn (by simp)
  have hnn : ∀ x ∈ g ++ ks ++ [n], NodeName x := by
    rw [List.append_assoc]
    exact S3Container.append_named hgn hksn
  have he : ¬ b.Exists (C.key (g ++ ks ++ [n])) := hi.not_exists hT (hi.clear_of_group hp) hnn
  have hcd := createDataset_does (C.group g m).handle (Path.text (ks ++ [n])) { args with options := r } b
  unfold createOutcome at hcd
  rw [show decide (b.IsZarr (C.group g m).handle.name) = true from decide_eq_true hz, a4] at hcd
  dsimp only at hcd
  have hno : ¬ ((C.group g m).handle.mode = .r ∨ b.Exists (joinKey (C.group g m).handle.name (Path.text (ks ++ [n])))) :=
    not_or.2 ⟨hm, by rw [hj]; exact he⟩
  rw [if_neg hno, a5] at hcd
  dsimp only at hcd
  obtain ⟨ds, hds⟩ := a7 ((C.group g m).handle.dataset (Path.text (ks ++ [n])) mt.delimiter mt.zarrFormat mt.encoding).base
  have hmk : makeS3Dataset ((C.group g m).handle.dataset (Path.text (ks ++ [n])) mt.delimiter mt.zarrFormat mt.encoding) mt
      = .ok ⟨((C.group g m).handle.dataset (Path.text (ks ++ [n])) mt.delimiter mt.zarrFormat mt.encoding).name, ds⟩ := by
    unfold makeS3Dataset
    rw [a6, hcx, hds]
    rfl
  rw [hmk] at hcd
  refine ⟨⟨((C.group g m).handle.dataset (Path.text (ks ++ [n])) mt.delimiter mt.zarrFormat mt.encoding).name, ds⟩,
    b.put (docKey (joinKey (C.group g m).handle.name (Path.text (ks ++ [n]))) mt.fileName) (.doc j), ?_⟩
  · unfold S3PyGroup.newDataset
    have hzd := root_isZarr (C.group g m).handle b
    rw [show decide (b.IsZarr (C.group g m).handle.name) = true from decide_eq_true hz] at hzd
    refine hzd.bind (m := 7) ?_
    have l1 : (S3M.lift (a.resolve true (C.group g m).zarrFormat)).Does 0 b (.ok (args, O)) b := by
      rw [show a.resolve true (C.group g m).zarrFormat = .ok (args, O) from a1]
      exact .lift _ _
    refine (l1.bind (m := 7) ?_).mono (by omega)
    dsimp only
    unfold S3Handle.createDatasetJson
    have l2 : (S3M.lift (Meta.atOrRuntime Compressor.stringToCompressor args.compressor)).Does 0 b (.ok mt.compressor) b := by
      rw [a2]
      exact .lift _ _
    refine (l2.bind (m := 7) ?_).mono (by omega)
    have l3 : (S3M.lift (do jsonToOptions (← (Json.obj O).items) [] : Res Opts)).Does 0 b (.ok r) b := by
      rw [show (do jsonToOptions (← (Json.obj O).items) [] : Res Opts) = .ok r from a3]
      exact .lift _ _
    exact (l3.bind (m := 7) hcd).mono (by omega)

/-- **C79, `require_dataset`.**  An array that is there is returned if it has the shape, chunks and data type that are given, and
a `TypeError` is raised otherwise, or if a group is there; nothing changes.  If the name is free, a new array is
created (`ValueError` in read-only mode). -/
theorem c79_require_array (hL : L.Lawful) (h : S3History C L Ty T os b) {g ks : Path} {n : String} (hp : T.IsGroup (g ++ ks))
    (hn : NodeName n) (m : FileMode) (a : PyCreateArgs) :
    match T (g ++ ks ++ [n]) with
    | some (.group _) => ((C.group g m).requireDataset (Path.text (ks ++ [n])) a).Does 8 b (.throw .typeError) b
    | some (.array x) =>
        ((∀ s, a.shape = some s → x.shape = s) ∧ (∀ c, a.chunks = some c → x.chunks = c) ∧
          (∀ t, a.dtype = some t → plainTypeName x.dtype = some t) →
          ∃ o, ((C.group g m).requireDataset (Path.text (ks ++ [n])) a).Does 18 b (.ok o) b ∧ o.obj.handle.mode = m ∧
            o.obj.info.dtype = x.dtype ∧ o.obj.info.shape = x.shape ∧ o.obj.info.chunkShape = x.chunks ∧
            S3History C L Ty T ((g ++ ks ++ [n], o) :: os) b) ∧
        (¬ ((∀ s, a.shape = some s → x.shape = s) ∧ (∀ c, a.chunks = some c → x.chunks = c) ∧
          (∀ t, a.dtype = some t → plainTypeName x.dtype = some t)) →
          ((C.group g m).requireDataset (Path.text (ks ++ [n])) a).Does 18 b (.throw .typeError) b)
    | none => (m = .r → ((C.group g m).requireDataset (Path.text (ks ++ [n])) a).Does 2 b (.throw .invalidArgument) b) ∧
        (m ≠ .r → ∀ x : ArrayItem Ty, a.Asks C.layout x → x.dtype.isComplex = false →
          ∃ o b', ((C.group g m).requireDataset (Path.text (ks ++ [n])) a).Does 13 b (.ok o) b' ∧
          o.obj.handle.mode = m ∧ o.obj.info.dtype = x.dtype ∧ o.obj.info.shape = x.shape ∧ o.obj.info.chunkShape = x.chunks ∧
          S3History C L Ty (T.add (g ++ ks ++ [n]) (.array x)) ((g ++ ks ++ [n], o) :: os) b') := by
  have hi := inv_of_history hL h
  obtain ⟨hgn, hksn⟩ := hi.names_of hp hn
  have hz := hi.isZarr (hi.group_above hp)
  have hh := hi.has_in hL m hp hn
  cases e : T (g ++ ks ++ [n]) with
  | some y =>
    rw [e] at hh
    cases y with
    | group A =>
      have hG := hi.group _ _ e
      rw [List.append_assoc] at hG
      unfold S3PyGroup.requireDataset
      refine hh.bind (m := 6) ?_
      simp only [Option.isSome_some, if_true]
      exact (hG.isSubGroup hgn (by simp) hksn (m := m) hz).bind_lift (r := .throw .typeError) rfl
    | array x =>
      have ha := hi.array _ _ e
      rw [List.append_assoc] at ha
      obtain ⟨o, h1, h2, h3, h4, h5, _⟩ := ha.opened hL hgn (ks := ks ++ [n]) (by simp) (m := m) hz
      have hrun : ∀ r : Res S3DatasetObj, (∀ w, (if a.shape.any (· != o.obj.info.shape) then (S3M.lift (.throw .typeError) : S3M S3DatasetObj)
          else if a.chunks.any (· != o.obj.info.chunkShape) then S3M.lift (.throw .typeError)
          else if a.dtype.any (fun t => !decide (enumAt Datatype.dtypeToN5 o.obj.info.dtype = .ok t)) then
            S3M.lift (.throw .typeError)
          else return o) w = S3M.lift r w) →
          ((C.group g m).requireDataset (Path.text (ks ++ [n])) a).Does 18 b r b := by
        intro r hr
        unfold S3PyGroup.requireDataset
        refine hh.bind (m := 16) ?_
        simp only [Option.isSome_some, if_true]
        refine (ha.isSubGroup hL hgn (by simp) hksn (m := m) hz).bind (m := 10) ?_
        rw [if_neg (by decide)]
        exact h1.bind_lift (r := r) (funext hr)
      have k1 : a.shape.any (· != o.obj.info.shape) = true ↔ ¬ ∀ s, a.shape = some s → x.shape = s := by
        rw [h4]
        cases a.shape with
        | none => simp
        | some s =>
          simp only [Option.any_some, bne_iff_ne, ne_eq, Option.some.injEq, forall_eq']
          exact not_congr eq_comm
      have k2 : a.chunks.any (· != o.obj.info.chunkShape) = true ↔ ¬ ∀ s, a.chunks = some s → x.chunks = s := by
        rw [h5]
        cases a.chunks with
        | none => simp
        | some s =>
          simp only [Option.any_some, bne_iff_ne, ne_eq, Option.some.injEq, forall_eq']
          exact not_congr eq_comm
      have k3 : a.dtype.any (fun t => !decide (enumAt Datatype.dtypeToN5 o.obj.info.dtype = .ok t)) = true ↔
          ¬ ∀ t, a.dtype = some t → plainTypeName x.dtype = some t := by
        rw [h3]
        cases a.dtype with
        | none => simp
        | some s => simp [plainName_eq]
      refine ⟨fun hm => ⟨o, ?_, h2, h3, h4, h5, ?_⟩, fun hm => ?_⟩
      · refine hrun _ fun w => ?_
        rw [if_neg (fun e => k1.1 e hm.1), if_neg (fun e => k2.1 e hm.2.1), if_neg (fun e => k3.1 e hm.2.2)]
        rfl
      · have hget : ((C.group g m).item (Path.text (ks ++ [n]))).Does 18 b (.ok (.inr o)) b := by
          unfold S3PyGroup.item S3PyGroup.getItem
          rw [(hi.spells hp hn).strip]
          refine hh.bind (m := 16) ?_
          simp only [Option.isSome_some, Bool.not_true, Bool.false_eq_true, if_false]
          refine (ha.isSubGroup hL hgn (by simp) hksn (m := m) hz).bind (m := 10) ?_
          rw [if_neg (by decide)]
          exact h1.bind_lift (r := .ok _) rfl
        obtain ⟨w, hw, hb⟩ := does_calm hget
        have := S3History.opened h (exS3_calm 18) (hi.group_above hp) (hi.spells hp hn) (by rw [← List.append_assoc]; exact e) hw
        rw [hb, ← List.append_assoc] at this
        exact this
      · refine hrun _ fun w => ?_
        by_cases c1 : a.shape.any (· != o.obj.info.shape) = true
        · rw [if_pos c1]
        by_cases c2 : a.chunks.any (· != o.obj.info.chunkShape) = true
        · rw [if_neg c1, if_pos c2]
        by_cases c3 : a.dtype.any (fun t => !decide (enumAt Datatype.dtypeToN5 o.obj.info.dtype = .ok t)) = true
        · rw [if_neg c1, if_neg c2, if_pos c3]
        · exact absurd ⟨Classical.not_not.1 fun e => c1 (k1.2 e), Classical.not_not.1 fun e => c2 (k2.2 e),
            Classical.not_not.1 fun e => c3 (k3.2 e)⟩ hm
  | none =>
    rw [e] at hh
    refine ⟨?_, fun hm x hx hcx => ?_⟩
    · rintro rfl
      unfold S3PyGroup.requireDataset
      refine hh.bind_lift (r := .throw .invalidArgument) ?_
      simp only [Option.isSome_none, Bool.false_eq_true, if_false]
      rw [if_pos S3Container.mode_read]
    · obtain ⟨o, b', hnew⟩ := newDataset_does hL h (m := m) hp hn e hx hcx hm
      have hrun : ((C.group g m).requireDataset (Path.text (ks ++ [n])) a).Does 13 b (.ok o) b' := by
        unfold S3PyGroup.requireDataset
        refine hh.bind (m := 11) ?_
        simp only [Option.isSome_none, Bool.false_eq_true, if_false]
        rw [if_neg (S3Container.mode_write hm)]
        exact hnew
      obtain ⟨w, hw, hb⟩ := does_calm hrun
      obtain ⟨_, j2, j3, j4, j5⟩ := hi.requireArray hL (exS3_calm 13) hp hn e hx hw
      refine ⟨o, b', hrun, j2, j3, j4, j5, ?_⟩
      rw [← hb]
      exact .requireArray h (exS3_calm 13) hp hn e hx hw

/-- the groups that lead to an array -/
theorem requireGroups_ends (hL : L.Lawful) {m : FileMode} (hm : m ≠ .r) : ∀ {ks g : Path} {T : Tree Ty} {b : Bucket},
    S3History C L Ty T os b → T.IsGroup g → (∀ n ∈ ks, NodeName n) → T.Clear (g ++ ks) → (∀ x, T (g ++ ks) ≠ some (.array x)) →
    ((C.group g m).requireGroups (ks.map String.toList)).Ends (9 * ks.length) b
      (fun g' b' => g' = C.group (g ++ ks) m ∧ S3History C L Ty (fill T (g ++ ks)) os b')
      (fun b' => ∃ T', S3History C L Ty T' os b' ∧ ∀ q, T' q = T q ∨ T' q = fill T (g ++ ks) q)
  | [], g, T, b, h, hg, _, _, _ => by
    refine (S3M.Ends.of_does (a := C.group g m) (b' := b) (.pure _ _) ?_ ⟨T, h, fun q => .inl rfl⟩ ⟨T, h, fun q => .inl rfl⟩)
    rw [List.append_nil, (inv_of_history hL h).fill_group hg]
    exact ⟨rfl, h⟩
  | n :: ks, g, T, b, h, hg, hn, hc, hx => by
    have hl : g ++ n :: ks = g ++ [n] ++ ks := by simp
    have hg' : T.IsGroup (g ++ []) := by rw [List.append_nil]; exact hg
    have hr := c79_require_group hL h (n := n) hg' (hn n (by simp)) m
    rw [List.append_nil] at hr
    have hnot : ∀ x, T (g ++ [n]) ≠ some (.array x) := by
      intro x
      by_cases e : ks = []
      · subst e; exact hx x
      · exact hc _ (by rw [hl]; exact List.prefix_append _ _) (by rw [hl]; intro h'; exact e (List.self_eq_append_right.1 h')) x
    rw [List.map_cons]
    unfold S3PyGroup.requireGroups
    rw [hl] at hc hx ⊢
    have hlen : 9 * (n :: ks).length = 9 + 9 * ks.length := by simp only [List.length_cons]; omega
    rw [hlen]
    have hks : ∀ k ∈ ks, NodeName k := fun k hk => hn k (List.mem_cons_of_mem _ hk)
    cases e : T (g ++ [n]) with
    | some y =>
      cases y with
      | array x => exact absurd e (hnot x)
      | group A =>
        rw [e] at hr
        have hr : ((C.group g m).requireGroup n.toList).Does 8 b (.ok (C.group (g ++ [n]) m)) b := hr
        refine S3M.Ends.bind (P := fun g' b' => g' = C.group (g ++ [n]) m ∧ b' = b) (Q := fun b' => b' = b)
          (.of_does (hr.mono (by omega)) ⟨rfl, rfl⟩ rfl rfl) ?_ ?_
        · rintro _ _ ⟨rfl, rfl⟩
          exact requireGroups_ends hL hm h ⟨A, e⟩ hks hc hx
        · rintro _ rfl
          exact ⟨T, h, fun q => .inl rfl⟩
    | none =>
      rw [e] at hr
      obtain ⟨b1, h1, h2⟩ := hr.2 hm
      have h1 : ((C.group g m).requireGroup n.toList).Does 9 b (.ok (C.group (g ++ [n]) m)) b1 := h1
      rw [(inv_of_history hL h).add_eq hg] at h2
      refine S3M.Ends.bind (P := fun g' b' => g' = C.group (g ++ [n]) m ∧ b' = b1) (Q := fun b' => b' = b ∨ b' = b1)
        (.of_does h1 ⟨rfl, rfl⟩ (.inl rfl) (.inr rfl)) ?_ ?_
      · rintro _ _ ⟨rfl, rfl⟩
        refine (requireGroups_ends hL hm h2 ⟨_, put_self _ _ _⟩ hks ?_ ?_).mono (Nat.le_refl _) ?_ ?_
        · intro q hq hne x hqx
          by_cases e' : q = g ++ [n]
          · rw [e', put_self] at hqx; cases hqx
          · rw [put_other _ _ e'] at hqx
            exact hc q hq hne x hqx
        · intro x hqx
          by_cases e' : g ++ [n] ++ ks = g ++ [n]
          · rw [e', put_self] at hqx; cases hqx
          · rw [put_other _ _ e'] at hqx
            exact hx x hqx
        · rintro g' c ⟨rfl, i⟩
          rw [S3Container.fill_put e] at i
          exact ⟨rfl, i⟩
        · rintro c ⟨T', i1, i2⟩
          refine ⟨T', i1, fun q => ?_⟩
          rcases i2 q with i | i
          · by_cases e' : q = g ++ [n]
            · right
              rw [i, e', put_self]
              unfold fill
              rw [if_pos ⟨List.prefix_append _ _, by rw [e]; rfl⟩]
            · left
              rw [i, put_other _ _ e']
          · right
            rw [i, S3Container.fill_put e]
      · rintro c (rfl | rfl)
        · exact ⟨T, h, fun q => .inl rfl⟩
        · refine ⟨_, h2, fun q => ?_⟩
          by_cases e' : q = g ++ [n]
          · right
            rw [e', put_self]
            unfold fill
            rw [if_pos ⟨List.prefix_append _ _, by rw [e]; rfl⟩]
          · left
            rw [put_other _ _ e']

/-- **C79, `create_dataset`.**  With arguments that ask for the array `x`: a new array, with the groups that lead to it;
`KeyError` if the name is taken, `ValueError` in read-only mode.  If a request fails, every node of the tree is as it was or as
it should be. -/
theorem c79_create_array (hL : L.Lawful) (h : S3History C L Ty T os b) {g key : Path} {a : PyCreateArgs} {x : ArrayItem Ty}
    (hg : T.IsGroup g) (hk : key ≠ []) (hn : ∀ n ∈ key, NodeName n) (hc : T.Clear (g ++ key)) (hx : a.Asks C.layout x)
    (hcx : x.dtype.isComplex = false) (m : FileMode) :
    (m = .r → ((C.group g m).createDataset key.text a).Does 0 b (.throw .invalidArgument) b) ∧
    (m ≠ .r → T (g ++ key) ≠ none → ((C.group g m).createDataset key.text a).Does 2 b (.throw .keyError) b) ∧
    (m ≠ .r → T (g ++ key) = none → ((C.group g m).createDataset key.text a).Ends (9 * key.length + 6) b
      (fun o b' => o.obj.handle.mode = m ∧ o.obj.info.dtype = x.dtype ∧ o.obj.info.shape = x.shape ∧
        o.obj.info.chunkShape = x.chunks ∧ S3History C L Ty (T.add (g ++ key) (.array x)) ((g ++ key, o) :: os) b')
      (fun b' => ∃ T', S3History C L Ty T' os b' ∧ ∀ q, T' q = T q ∨ T' q = T.add (g ++ key) (.array x) q)) := by
  have hi := inv_of_history hL h
  have hs : Spells key.text key := ⟨hk, hn, 0, rfl⟩
  have hcn := hi.contains hL (m := m) hg hs hc
  refine ⟨?_, fun hm hT => ?_, fun hm hT => ?_⟩
  · rintro rfl
    unfold S3PyGroup.createDataset
    rw [if_pos S3Container.mode_read]
    exact .lift _ _
  · unfold S3PyGroup.createDataset
    rw [if_neg (S3Container.mode_write hm)]
    refine hcn.bind_lift (r := .throw .keyError) ?_
    cases e : T (g ++ key) with
    | none => exact absurd e hT
    | some _ => rfl
  · refine S3M.Ends.returns (P := fun _ _ => True) ?_ (fun es o w hes hw => ?_)
    rotate_left
    · obtain ⟨_, j2, j3, j4, j5⟩ := hi.createArray hL hes hg hk hn hx hw
      exact ⟨j2, j3, j4, j5, .createArray h hes hg hk hn hx hw⟩
    -- the last step
    have hnew : ∀ {g' : Path} {n : String} {T₁ : Tree Ty} {b₁ : Bucket}, S3History C L Ty T₁ os b₁ → T₁.IsGroup g' → NodeName n →
        T₁ (g' ++ [n]) = none → ((C.group g' m).newDataset n.toList a).Ends 11 b₁ (fun _ _ => True)
          (fun b' => b' = b₁ ∨ S3History C L Ty (T₁.put (g' ++ [n]) (.array x)) os b') := by
      intro g' n T₁ b₁ h₁ hg₁ hn₁ hT₁
      have hg₁' : T₁.IsGroup (g' ++ []) := by rw [List.append_nil]; exact hg₁
      have hT₁' : T₁ (g' ++ [] ++ [n]) = none := by rw [List.append_nil]; exact hT₁
      have i₁ := inv_of_history hL h₁
      obtain ⟨o, b', hd⟩ := newDataset_does hL h₁ (m := m) hg₁' hn₁ hT₁' hx hcx hm
      have hrun : ((C.group g' m).requireDataset (Path.text ([] ++ [n])) a).Does 13 b₁ (.ok o) b' := by
        have hh := i₁.has_in hL m hg₁' hn₁
        rw [hT₁'] at hh
        unfold S3PyGroup.requireDataset
        refine hh.bind (m := 11) ?_
        simp only [Option.isSome_none, Bool.false_eq_true, if_false]
        rw [if_neg (S3Container.mode_write hm)]
        exact hd
      obtain ⟨w, hw, hb⟩ := does_calm hrun
      have hh := S3History.requireArray h₁ (exS3_calm 13) hg₁' hn₁ hT₁' hx hw
      rw [List.append_nil, i₁.add_eq hg₁, hb] at hh
      exact .of_does hd trivial (.inl rfl) (.inr (.closed hh fun e he => List.mem_cons_of_mem _ he))
    unfold S3PyGroup.createDataset
    rw [if_neg (S3Container.mode_write hm), hs.strip, pySplit_text hk hn]
    rw [hT] at hcn
    have hsame : ∃ T', S3History C L Ty T' os b ∧ ∀ q, T' q = T q ∨ T' q = T.add (g ++ key) (.array x) q := ⟨T, h, fun q => .inl rfl⟩
    obtain ⟨ks, n, rfl⟩ : ∃ ks n, key = ks ++ [n] := by
      rcases last_cases key with e | e
      · exact absurd e hk
      · exact e
    refine (S3M.Ends.bind (P' := fun _ _ => True) (P := fun t b' => t = false ∧ b' = b) (Q := fun b' => b' = b) (n := 2) (k := 9 * ks.length + 13)
      (.of_does hcn ⟨rfl, rfl⟩ rfl rfl) ?_ (by rintro _ rfl; exact hsame)).mono ?_ (fun _ _ _ => trivial) (fun _ e => e)
    rotate_left
    · simp only [List.length_append, List.length_cons, List.length_nil]
      omega
    rintro _ _ ⟨rfl, rfl⟩
    simp only [Bool.false_eq_true, if_false, List.length_map]
    by_cases hl : (ks ++ [n]).length > 1
    · rw [if_pos hl, List.map_append, List.map_cons, List.map_nil, List.dropLast_concat, List.getLast?_concat]
      have hc' : T.Clear (g ++ ks) := fun q hq hne y => hc q (hq.trans (by rw [← List.append_assoc]; exact List.prefix_append _ _))
        (fun e => by
          have := hq.length_le
          rw [e] at this
          simp only [List.length_append, List.length_cons, List.length_nil] at this
          omega) y
      have hnx : ∀ y, T (g ++ ks) ≠ some (.array y) := fun y => hc _ (by rw [← List.append_assoc]; exact List.prefix_append _ _)
        (by rw [← List.append_assoc]; simp) y
      have hpl : ∀ k ∈ ks, NodeName k := fun k hk => hn k (List.mem_append_left _ hk)
      have hfill : ∀ q, fill T (g ++ ks) q = T q ∨ fill T (g ++ ks) q = T.add (g ++ (ks ++ [n])) (.array x) q := by
        intro q
        rw [← List.append_assoc, ← put_fill]
        by_cases e : q = g ++ ks ++ [n]
        · left
          unfold fill
          rw [if_neg]
          rintro ⟨e', _⟩
          have := e'.length_le
          rw [e] at this
          simp only [List.length_append, List.length_cons, List.length_nil] at this
          omega
        · right
          rw [put_other _ _ e]
      refine S3M.Ends.bind (requireGroups_ends hL hm h hg hpl hc' hnx) ?_ ?_
      · rintro _ c ⟨rfl, i⟩
        have ii := inv_of_history hL i
        have hT' : fill T (g ++ ks) (g ++ ks ++ [n]) = none := by
          unfold fill
          rw [if_neg, List.append_assoc]
          · exact hT
          · rintro ⟨e, _⟩
            have := e.length_le
            simp only [List.length_append, List.length_cons, List.length_nil] at this
            omega
        have i3 : (fill T (g ++ ks)).IsGroup (g ++ ks) := by
          cases e : T (g ++ ks) with
          | none =>
            refine ⟨fun _ => none, ?_⟩
            unfold fill
            rw [if_pos ⟨List.prefix_rfl, by rw [e]; rfl⟩]
          | some y =>
            cases y with
            | array y => exact absurd e (hnx y)
            | group A => exact ⟨A, by rw [S3Container.fill_keep _ _ _ (by rw [e]; exact fun e => by cases e), e]⟩
        rw [if_neg (S3Container.mode_write hm)]
        have hcn' := ii.contains hL (g := g ++ ks) (p := [n]) (m := m) i3 (spells_one (hn n (by simp))) (ii.clear_of_group i3)
        rw [hT'] at hcn'
        refine S3M.Ends.bind (P := fun t b' => t = false ∧ b' = c) (Q := fun b' => b' = c) (n := 2) (k := 11)
          (.of_does hcn' ⟨rfl, rfl⟩ rfl rfl) ?_ (by rintro _ rfl; exact ⟨_, i, hfill⟩)
        rintro _ _ ⟨rfl, rfl⟩
        simp only [Bool.false_eq_true, if_false]
        refine (hnew i i3 (hn n (by simp)) hT').mono (Nat.le_refl _) (fun _ _ _ => trivial) ?_
        rintro c' (rfl | hh)
        · exact ⟨_, i, hfill⟩
        · rw [put_fill, List.append_assoc] at hh
          exact ⟨_, hh, fun q => .inr rfl⟩
      · rintro c ⟨T', i1, i2⟩
        refine ⟨T', i1, fun q => ?_⟩
        rcases i2 q with e | e
        · exact .inl e
        · rw [e]; exact hfill q
    · rw [if_neg hl]
      have hks : ks = [] := List.eq_nil_of_length_eq_zero (by
        simp only [List.length_append, List.length_cons, List.length_nil] at hl
        omega)
      subst hks
      refine (hnew h hg (hn n (by simp)) hT).mono (by omega) (fun _ _ _ => trivial) ?_
      rintro c' (rfl | hh)
      · exact hsame
      · rw [← hi.add_eq hg] at hh
        exact ⟨_, hh, fun q => .inr rfl⟩

/-- **C79, `del group[name]`.**  `ValueError` in read-only mode, `KeyError` for names that are not there.  Otherwise,
if the service answers and deletes what it is told to, exactly the objects below the name of the node go; for an array with shards
the call may fail with a `length_error`, as by the limit on the size of shards.  Whatever happens nothing outside the node changes. -/
theorem c79_delete (hL : L.Lawful) (h : S3History C L Ty T os b) {g p : Path} {n : Key} (hg : T.IsGroup g) (hs : Spells n p)
    (hc : T.Clear (g ++ p)) (m : FileMode) :
    (m = .r → ((C.group g m).delItem n L Ty).Does 0 b (.throw .invalidArgument) b) ∧
    (m ≠ .r → T (g ++ p) = none → ((C.group g m).delItem n L Ty).Does 2 b (.throw .keyError) b) ∧
    (m ≠ .r → T (g ++ p) ≠ none → ∃ N, ∀ es, Healthy es → N < es.length →
      (∃ w, (C.group g m).delItem n L Ty ⟨es, b⟩ = (some (.ok ()), w)) ∨
      (∃ x, T (g ++ p) = some (.array x) ∧ x.shards ≠ none) ∧
        ∃ w, (C.group g m).delItem n L Ty ⟨es, b⟩ = (some (.throw .lengthError), w)) ∧
    (∀ es w, (∀ e ∈ es, e.Reliable ∧ e.failed = []) → (C.group g m).delItem n L Ty ⟨es, b⟩ = (some (.ok ()), w) →
      T (g ++ p) ≠ none ∧ (∀ k, w.bucket.get k = if dirPrefix (C.key (g ++ p)) <+: k then none else b.get k) ∧
      S3History C L Ty (T.prune (g ++ p)) (os.filter fun e => ¬ g ++ p <+: e.1) w.bucket) ∧
    ∀ es, (∀ e ∈ es, e.Reliable) → ∀ k, ¬ dirPrefix (C.key (g ++ p)) <+: k →
      ((C.group g m).delItem n L Ty ⟨es, b⟩).2.bucket.get k = b.get k := by
  have hi := inv_of_history hL h
  refine ⟨?_, fun hm hT => ?_, fun hm hT => hi.deletes hL hg hs hm hT, fun es w hes hd => ?_, fun es hes k hk =>
    hi.delete_keeps hL hes hg hs hc hk⟩
  · rintro rfl
    unfold S3PyGroup.delItem
    rw [if_pos S3Container.mode_read]
    exact .lift _ _
  · have hcon := hi.contains hL (m := m) hg hs hc
    rw [hT] at hcon
    unfold S3PyGroup.delItem
    rw [if_neg (S3Container.mode_write hm)]
    exact hcon.bind_lift (r := .throw .keyError) rfl
  · obtain ⟨h1, h2, _⟩ := hi.deleted hL hes hg hs hc hd
    exact ⟨h1, h2, .deleted h hes hg hs hc hd⟩

/-- **C79, reading.**  Through every object that is open for an array, however and whenever it was opened, every read gives
the elements of the array in the tree (up to the identification of elements that are equal to the fill value). -/
theorem c79_read (hL : L.Lawful) (h : S3History C L Ty T os b) {p : Path} {o : S3DatasetObj} {x : ArrayItem Ty} (ho : (p, o) ∈ os)
    (hx : T p = some (.array x)) : ∃ d A, o.typed L (Ty.cast x.dtype) = .ok d ∧ d.base.shape = x.shape ∧
    d.ReadsAsS3 (C.key p) b A ∧ ∀ i, InBox i x.shape → SameOrFill (Ty.elem x.dtype).ceq x.fill (A i) (x.content i) := by
  exact ((inv_of_history hL h).array _ _ hx).read hL ho

/-- **C79, open objects.**  Every open object belongs to an array of the tree. -/
theorem c79_open (hL : L.Lawful) (h : S3History C L Ty T os b) {p : Path} {o : S3DatasetObj} (ho : (p, o) ∈ os) :
    ∃ x, T p = some (.array x) :=
  (inv_of_history hL h).objects p o ho

/-- **C79, writing.**  Every write of a region through an object that is not read-only succeeds under every schedule (with
shards it may fail with a `length_error`, as by the limit on the size of shards), and if it succeeds the tree has the new elements. -/
theorem c79_write (hL : L.Lawful) (h : S3History C L Ty T os b) {p : Path} {o : S3DatasetObj}
    {x : ArrayItem Ty} (hT : (L.codec (Ty.elem x.dtype).size o.obj.settings).TotalFor (prod x.chunks * (Ty.elem x.dtype).size))
    (ho : (p, o) ∈ os) (hx : T p = some (.array x)) (hm : o.obj.handle.mode ≠ .r) :
    ∃ d, o.typed L (Ty.cast x.dtype) = .ok d ∧ d.base.shape = x.shape ∧
      ∀ (call : RegionCall (Ty.elem x.dtype)) (val : List Nat → (Ty.elem x.dtype).T), call.Valid d.base →
        (∀ i, InBox i call.shape → call.value i = some (val i)) →
        ∀ scratch, ∃ ts, d.start call scratch = .ok ts ∧
          ∀ is rs, Prog.Finished (Prog.interleaveS3 (C.key p) is (ts, b)).1 rs →
            ((∀ r ∈ rs, r = .ok ()) →
              S3History C L Ty (T.put p (.array { x with content := override x.content call.off call.shape val })) os
                (Prog.interleaveS3 (C.key p) is (ts, b)).2) ∧
            ∀ r ∈ rs, r = .ok () ∨ (r = .throw .lengthError ∧ x.shards ≠ none) := by
  obtain ⟨d, h1, h2⟩ := ((inv_of_history hL h).array _ _ hx).write hL ho hT hm
  obtain ⟨d', A, h1', h2', _⟩ := c79_read hL h ho hx
  rw [h1] at h1'
  cases h1'
  refine ⟨d, h1, h2', fun call val hv hval scratch => ?_⟩
  obtain ⟨ts, h3, h4⟩ := h2 call hv scratch
  exact ⟨ts, h3, fun is rs hf => ⟨fun hok =>
    .wrote (w := ⟨call.off, call.shape, val⟩) h ho hx hm h1 (.region call val scratch ts is hv hval h3 ⟨rs, hf, hok, rfl⟩),
    h4 is rs hf⟩⟩

/-- **C79, attributes of groups.**  `dict(group.attrs)` shows those of the tree, and a change makes it a change of the tree;
`ValueError` in read-only mode. -/
theorem c79_group_attributes (hL : L.Lawful) (h : S3History C L Ty T os b) {g : Path} {A : AttrMap} (hg : T g = some (.group A))
    (m : FileMode) :
    (∃ j, (C.attrsOf g m).read.Does 6 b (.ok j) b ∧ ∀ k, j.find k = A k) ∧
    ∀ op : AttrOp, op.Valid →
      (m = .r → ((C.attrsOf g m).change op).Does 0 b (.throw .invalidArgument) b) ∧
      (m ≠ .r → ∃ b', ((C.attrsOf g m).change op).Does 11 b (.ok ()) b' ∧ S3History C L Ty (T.put g (.group (op.apply A))) os b') := by
  have hi := inv_of_history hL h
  have ha := hi.group _ _ hg
  refine ⟨?_, fun op hv => ⟨?_, fun hm => ?_⟩⟩
  · obtain ⟨j, h1, h2⟩ := c56_read (ha.refers m)
    refine ⟨j, h1, fun k => ?_⟩
    rw [h2, S3Container.attrsOf_name, ha.attrs, S3Container.attrsOf_shown]
  · rintro rfl
    rw [show (C.attrsOf g .r).change op = S3M.lift (.throw .invalidArgument) from
      funext fun w => c56_readonly (by rw [S3Container.attrsOf_mode]; rfl) w]
    exact .lift _ _
  · obtain ⟨b', h1, _⟩ := hi.groupAttrs hg hv hm
    obtain ⟨w, h2, h3⟩ := does_calm h1
    exact ⟨b', h1, h3 ▸ .groupAttrs h (exS3_calm 11) hg hv h2⟩

/-- **C79, attributes of arrays.** -/
theorem c79_array_attributes (hL : L.Lawful) (h : S3History C L Ty T os b) {p : Path} {o : S3DatasetObj} {x : ArrayItem Ty}
    (ho : (p, o) ∈ os) (hx : T p = some (.array x)) :
    (∃ j, (S3Target.dataset ⟨o.name, o.obj.handle⟩).read.Does 6 b (.ok j) b ∧ ∀ k, j.find k = x.attrs k) ∧
    ∀ op : AttrOp, op.Valid →
      (o.obj.handle.mode = .r → ((S3Target.dataset ⟨o.name, o.obj.handle⟩).change op).Does 0 b (.throw .invalidArgument) b) ∧
      (o.obj.handle.mode ≠ .r → ∃ b', ((S3Target.dataset ⟨o.name, o.obj.handle⟩).change op).Does 11 b (.ok ()) b' ∧
        S3History C L Ty (T.put p (.array { x with attrs := op.apply x.attrs })) os b') := by
  have hi := inv_of_history hL h
  have ha := hi.array _ _ hx
  refine ⟨?_, fun op hv => ⟨fun hm => ?_, fun hm => ?_⟩⟩
  · obtain ⟨hr, hp⟩ := ha.refers hL ho
    obtain ⟨j, h1, h2⟩ := c56_read hr
    refine ⟨j, h1, fun k => ?_⟩
    rw [h2, S3Container.array_shown, show (S3Target.dataset ⟨o.name, o.obj.handle⟩).name = C.key p from hp]
    rw [← ha.attrs]
  · rw [show (S3Target.dataset ⟨o.name, o.obj.handle⟩).change op = S3M.lift (.throw .invalidArgument) from
      funext fun w => c56_readonly (by show o.obj.handle.mode.canWrite = false; rw [hm]; rfl) w]
    exact .lift _ _
  · obtain ⟨b', h1, _⟩ := hi.arrayAttrs hL ho hx hv hm
    obtain ⟨w, h2, h3⟩ := does_calm h1
    exact ⟨b', h1, h3 ▸ .arrayAttrs h (exS3_calm 11) ho hx hv h2⟩

/-- **C79, opening the container again.**  In the modes `r`, `r+` and `a` the file object of an existing container gives its root,
and nothing changes. -/
theorem c79_reopen (hL : L.Lawful) (h : S3History C L Ty T os b) {a : S3FileArgs} (hz : a.useZarr ≠ some false)
    (hn : a.name = C.root) (hf : a.zarrFormat = C.format) (hm : a.mode ∈ ["r", "r+", "a"]) :
    ∃ f m, (s3File a).Does 5 b (.ok f) b ∧ f.group = C.group [] m ∧ (m = .r ↔ a.mode = "r") := by
  have hi := inv_of_history hL h
  obtain ⟨A, hA⟩ := hi.top
  have he : b.Exists a.name := by
    have := (hi.group _ _ hA).exists_
    rw [hn]
    rwa [S3Container.key_nil] at this
  obtain ⟨f, hd, hdo⟩ := (c77_open hz).2.2.1 hm he
  refine ⟨f, f.group.handle.mode, hdo, ?_, ?_⟩
  · obtain ⟨⟨⟨nm, mo⟩, fmt⟩, sep, ia⟩ := f
    have h1 := hd.name
    have h2 := hd.format
    dsimp only at h1 h2
    rw [h1, h2, hn, hf]
    unfold S3Container.group
    rw [S3Container.key_nil]
  · have := hd.write
    generalize f.group.handle.mode = m at this ⊢
    constructor
    · rintro rfl
      exact Decidable.byContradiction fun e => by cases this.2 e
    · intro e
      have : ¬ m.canWrite = true := fun h => this.1 h e
      cases m <;> first | rfl | exact absurd rfl this

/-- The container of the example -/
def exS3C : S3Container := ⟨"c".toList, 2⟩

/-- An empty bucket, after `S3File("bucket", "c", "a")` -/
def exS3Start : World := (s3File { name := "c".toList, mode := "a" } ⟨List.replicate 5 {}, []⟩).2

theorem exS3Start_history : S3History exS3C exLibs exTypes (fun p => if p = [] then some (.group fun _ => none) else none) []
    exS3Start.bucket := by
  refine .start (C := exS3C) (a := { name := "c".toList, mode := "a" }) (b := []) (es := List.replicate 5 {}) (w := exS3Start) .nil ?_ rfl rfl (.inl ?_)
    (S3M.run_eq (r := some (.ok ⟨⟨⟨"c".toList, .a⟩, 2⟩, ".", ⟨"c".toList, "a", 2, "."⟩⟩)) ?_)
  · intro e he
    refine ⟨exS3_calm 5 e he, ?_⟩
    rw [List.eq_of_mem_replicate he]
  · rintro ⟨k, hk, _⟩
    cases hk
  · rfl

/-- `exPyArgs` asks for `exItem`. -/
theorem exS3Item_asked : exPyArgs.Asks exS3C.layout exItem := exItem_asked

/-- The theorems apply: a container is created, then the array `g/d` (and with it the group `g`) and the group `h`; elements
of the array are written, the array is closed and opened again in read-only mode, and `h` is deleted.  The tree has the
group `g` and the array with its new elements, and not `h`. -/
example : ∃ (T : Tree exTypes) (o : S3DatasetObj) (b : Bucket) (B : List Nat → U8.T) (d : AnyDataset U8) (A : List Nat → U8.T),
    S3History exS3C exLibs exTypes T [(["g", "d"], o)] b ∧ o.obj.handle.mode = .r ∧ T.IsGroup ["g"] ∧ T ["h"] = none ∧
    T ["g", "d"] = some (.array { exItem with content := B }) ∧ B [2, 1] = (9 : Fin (256 ^ 1)) ∧ B [0, 0] = (3 : Fin (256 ^ 1)) ∧
    o.typed exLibs exElem = .ok d ∧ d.ReadsAsS3 "c/g/d".toList b A ∧ A [2, 1] = (9 : Fin (256 ^ 1)) := by
  have h0 := exS3Start_history
  have hgd : ∀ n ∈ ["g", "d"], NodeName n := by unfold NodeName PlainName; decide
  have hh : ∀ n ∈ ["h"], NodeName n := by unfold NodeName PlainName; decide
  have hclear : ∀ (T : Tree exTypes) (p : Path), T.IsGroup [] → (∀ q ≠ [], T q = none) → T.Clear p := by
    rintro T p ⟨A, hA⟩ hT q _ _ a e
    by_cases hq : q = []
    · rw [hq, hA] at e; cases e
    · rw [hT q hq] at e; cases e
  have c1 := (c79_create_array (exLibs_lawful _) h0 (g := []) (key := ["g", "d"]) ⟨_, rfl⟩
    (by decide) hgd
    (hclear _ _ ⟨_, rfl⟩ fun q hq => if_neg hq) exS3Item_asked (by decide) .a).2.2 (by decide) rfl
  obtain ⟨o1, b1, m1, _, _, _, h1⟩ : ∃ o1 b1, _ := by
    rcases c1 (List.replicate 24 {}) (exS3_calm 24) with ⟨o1, es', b1, _, _, _, h⟩ | ⟨_, _, _, _, e, he, k, hk⟩ | ⟨h, _⟩
    · exact ⟨o1, b1, h⟩
    · rw [List.eq_of_mem_replicate he] at hk
      exact absurd rfl hk
    · simp at h
  obtain ⟨b2, e2, h2⟩ := (c79_create_group (exLibs_lawful _) h1 (g := []) (ks := []) (n := "h") ⟨_, rfl⟩
    (hh _ (by simp)) .rp).2.2 (by decide) rfl
  obtain ⟨d, hd, hs, hw⟩ := c79_write (exLibs_lawful _) h2 (x := exItem) (exLibs_total _ _ _) (List.mem_singleton.2 rfl) rfl (by rw [m1]; decide)
  obtain ⟨ts, hts, hrun⟩ := hw (.scalar [1, 0] [3, 3] (9 : Fin (256 ^ 1))) (fun _ => (9 : Fin (256 ^ 1)))
    ⟨by rw [hs]; decide, trivial⟩ (fun _ _ => rfl) fun _ => []
  obtain ⟨is, rs, hfin⟩ := Prog.exists_finished (ts, b2.chunks (exS3C.key ["g", "d"]))
  rw [← (interleaveS3_eq _ is ts b2).1] at hfin
  obtain ⟨h3, hok⟩ := hrun is rs hfin
  have h4 := h3 fun r hr => (hok r hr).elim id fun ⟨_, e⟩ => absurd rfl e
  have h5 := h4.closed (os' := []) fun _ h => by cases h
  obtain ⟨o, _, m6, _, _, _, h6⟩ := c79_getitem (exLibs_lawful _) h5 (g := []) (p := ["g", "d"]) (n := "g/d".toList) ⟨_, rfl⟩
    ⟨by decide, hgd, 0, by decide +kernel⟩
    ((inv_of_history (exLibs_lawful _) h5).clear_of_some (by intro e; cases e)) .r
  obtain ⟨_, _, d3, d4, _⟩ := c79_delete (exLibs_lawful _) h6 (g := []) (p := ["h"]) (n := "/h".toList) ⟨_, rfl⟩
    ⟨by decide, hh, 1, by decide +kernel⟩
    ((inv_of_history (exLibs_lawful _) h6).clear_of_some (by intro e; cases e)) .a
  obtain ⟨N, hN⟩ := d3 (by decide) (fun e => by cases e)
  have hhe : Healthy (List.replicate (N + 1) ({} : Event)) := fun e he => by
    rw [List.eq_of_mem_replicate he]
    exact ⟨rfl, fun _ => rfl, by decide, rfl⟩
  obtain ⟨w, hw⟩ := (hN _ hhe (by simp)).resolve_right (by rintro ⟨⟨_, e, _⟩, _⟩; cases e)
  obtain ⟨_, _, h7⟩ := d4 _ w hhe.calm hw
  obtain ⟨d', A, r1, _, r2, r3⟩ := c79_read (exLibs_lawful _) h7 (p := ["g", "d"]) (o := o) (List.mem_singleton.2 rfl) rfl
  have hex : ∀ a b : U8.T, SameOrFill U8.ceq (exElem (.int 3)) a b → a = b := by
    rintro a b (h | ⟨h1, h2⟩)
    · exact h
    · have hf : ∀ a b : U8.T, U8.ceq a b = true → a = b := fun a b =>
        (@decide_eq_true_iff (a = b) (instDecidableEqFin (256 ^ 1) a b)).1
      exact h2.trans (hf _ _ h1).symm
  exact ⟨_, o, _, _, d', A, h7, m6, ⟨_, rfl⟩, rfl, rfl, rfl, rfl, r1, r2, hex _ _ (r3 [2, 1] (by decide))⟩

/-- **C79, counterexample: slashes before the name of a new group.**  `f.create_group("/x")` succeeds, but the group is stored
as `c//x`; afterwards `"/x" in f` is false, and the same call succeeds again. -/
theorem c79_slash_counterexample : ∃ w : World,
    (exS3C.group [] .a).createGroup "/x".toList ⟨List.replicate 9 {}, exS3Start.bucket⟩ =
      (some (.ok ⟨⟨"c//x".toList, .a⟩, 2⟩), w) ∧
    ((exS3C.group [] .a).contains "/x".toList ⟨List.replicate 2 {}, w.bucket⟩).1 = some (.ok false) ∧
    ((exS3C.group [] .a).contains "x".toList ⟨List.replicate 2 {}, w.bucket⟩).1 = some (.ok false) := by
  refine ⟨((exS3C.group [] .a).createGroup "/x".toList ⟨List.replicate 9 {}, exS3Start.bucket⟩).2, ?_, ?_, ?_⟩
  · exact S3M.run_eq rfl
  · rfl
  · rfl

end Z5.Props
