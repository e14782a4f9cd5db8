import Verif.Proofs.ContainerInv

/-!
# Every history keeps the invariant of containers (for C66)
-/

namespace Z5

open Spec

namespace Container

variable {Ty : ElemTypes} {C : Container} {L : Libs} {T T' : Tree Ty} {os os' : List (Path × DatasetObj)} {σ σ' : Fs} {p q : Path}

theorem group_path (g key : Path) (m : FileMode) : (C.group g m).handle.path ++ key = C.root ++ (g ++ key) :=
  List.append_assoc ..

theorem groupDocs_plain (L : Layout) (f : Int) (b : Bool) {k : String} (hk : PlainName k) : groupDocs L f b k = none := by
  unfold groupDocs
  cases L <;> simp only
  · rw [if_neg (by rintro rfl; exact hk (by simp))]
  · rw [if_neg (by rintro rfl; exact hk (by simp))]
  · split
    · rename_i h
      exact absurd (by rw [h.2]; simp) hk
    · rfl

/-- a new container -/
theorem start_inv (hσ : σ.WF) (hn : σ.NewNode σ' C.root (groupDocs C.layout C.format true)) :
    C.Inv L (fun p => if p = [] then some (.group C.rootAttrs) else none : Tree Ty) [] σ' where
  wf := hn.wf hσ
  group p A h := by
    by_cases e : p = []
    · subst e
      rw [if_pos rfl] at h
      cases h
      have : C.rootAttrs = fun k => if C.isZarr = false ∧ true = true ∧ k = "n5" then some (.str "2.0.0") else none := by
        funext k
        simp [rootAttrs]
      rw [this]
      exact newGroup_at true (by rw [List.append_nil]; exact hn)
    · rw [if_neg e] at h
      cases h
  array p x h := by
    by_cases e : p = []
    · rw [if_pos e] at h; cases h
    · rw [if_neg e] at h; cases h
  top := ⟨C.rootAttrs, if_pos rfl, fun h => ⟨'2', ".0.0".toList, by simp, by simp [rootAttrs, h]⟩⟩
  closed p n h := by rw [if_neg (by simp)] at h; exact absurd rfl h
  names p n h := by rw [if_neg (by simp)] at h; exact absurd rfl h
  known p n hp h := by
    have : p = [] := by
      obtain ⟨A, hA⟩ := hp
      by_cases e : p = []
      · exact e
      · simp only [if_neg e] at hA; cases hA
    subst this
    rw [List.nil_append, hn.docs]
    constructor
    · cases groupDocs C.layout C.format true n <;> rfl
    · intro hk
      rw [groupDocs_plain _ _ _ hk]
      rfl
  objects p o h := by cases h

/-! ### Containers of other programs -/

theorem hasText_isObject {R : RawFs} {q : Path} {j : Json} (h : R.HasText q j) {k : String} {v : Json} (hf : j.find k = some v) :
    j.IsObject := by
  obtain ⟨bom, t, _, ⟨_, w, _, _, hw, _⟩, _⟩ := h
  have hpl := JsonText.plain_of_denotes rfl hw
  cases j with
  | obj l => exact ⟨l, rfl, hpl.1⟩
  | _ => cases hf

theorem file_mem (La : Layout) : La.file ∈ documentFiles := by cases La <;> decide

theorem hasAttributes_node {R : RawFs} {p : Path} {La : Layout} {A : AttrMap} (h : R.HasAttributes p La A) (hd : R p = some .dir)
    (h2 : La = .v2 → R (p ++ ["zarr.json"]) = none)
    (h3 : La = .v3 → ∃ j k v, R.HasText (p ++ ["zarr.json"]) j ∧ j.find k = some v) :
    R.view.Node p La ∧ R.view.attributes p La = A := by
  have hplain : ∀ La : Layout, La ≠ .v3 → ((R (p ++ [La.file]) = none ∧ A = fun _ => none) ∨
      ∃ j, R.HasText (p ++ [La.file]) j ∧ j.IsObject ∧ A = j.find) →
      (R.view (p ++ [La.file]) = none ∨ ∃ j, R.view (p ++ [La.file]) = some (.doc j) ∧ j.IsObject) ∧ R.view.attributes p La = A := by
    intro La hLa h
    have ha : R.view.attributes p La = fun k => (R.view.docAt (p ++ [La.file])).bind (·.find k) := by
      cases La <;> first | rfl | exact absurd rfl hLa
    rw [ha]
    rcases h with ⟨e1, rfl⟩ | ⟨j, e1, e2, rfl⟩
    · have := RawFs.view_none.2 e1
      refine ⟨.inl this, ?_⟩
      unfold Fs.docAt
      rw [this]
      rfl
    · have := e1.view (file_mem La)
      refine ⟨.inr ⟨j, this, e2⟩, ?_⟩
      rw [docAt_doc this]
      rfl
  have hdir := RawFs.view_dir.2 hd
  cases La with
  | v2 =>
    obtain ⟨e1, e2⟩ := hplain .v2 (fun e => by cases e) h
    exact ⟨⟨hdir, e1, (fun e => by cases e), fun _ => RawFs.view_none.2 (h2 rfl)⟩, e2⟩
  | n5 =>
    obtain ⟨e1, e2⟩ := hplain .n5 (fun e => by cases e) h
    exact ⟨⟨hdir, e1, (fun e => by cases e), (fun e => by cases e)⟩, e2⟩
  | v3 =>
    obtain ⟨j, hj, hA⟩ := h
    obtain ⟨j', k, v, hj', hf⟩ := h3 rfl
    have e1 := hj.view (by decide)
    have e2 := hj'.view (by decide)
    rw [e1] at e2
    cases e2
    have ho := hasText_isObject hj hf
    refine ⟨⟨hdir, .inr ⟨j, e1, ho⟩, fun _ => ⟨j, e1, ho, fun b hb => ?_⟩, (fun e => by cases e)⟩, ?_⟩
    · rcases hA with ⟨e, _⟩ | ⟨b', e, hb', _⟩
      · rw [e] at hb; cases hb
      · rw [e] at hb; cases hb; exact hb'
    · funext k
      unfold Fs.attributes
      simp only
      rw [docAt_doc e1, Option.bind_some]
      rcases hA with ⟨e, rfl⟩ | ⟨b', e, hb', rfl⟩
      · rw [e]; rfl
      · rw [e]; rfl

/-- a group of another program -/
theorem foundGroup {R : RawFs} {A : AttrMap} (hC : C.Ok) (h : R.HoldsGroup (C.root ++ p) C.layout A) : C.GroupAt R.view p A := by
  have hdoc := h.document
  obtain ⟨h1, h2⟩ := hasAttributes_node h.attributes h.dir (fun e => by rw [e] at hdoc; exact hdoc.1)
    (fun e => by rw [e] at hdoc; obtain ⟨j, hj, hf, _⟩ := hdoc; exact ⟨j, _, _, hj, hf⟩)
  refine ⟨h1, ?_, h2⟩
  unfold GroupKind
  cases e : C.layout with
  | v2 =>
    rw [e] at hdoc
    obtain ⟨_, j, hj, hf⟩ := hdoc
    have hf' : C.format = 2 := by
      have hz : C.isZarr = true := by rw [← layout_isZarr, e]; rfl
      rcases hC hz with e' | e'
      · exact e'
      · unfold layout at e; rw [hz, e'] at e; cases e
    exact ⟨j, hj.view (by decide), by rw [hf']; exact hf⟩
  | v3 =>
    rw [e] at hdoc
    obtain ⟨j, hj, hf, hn⟩ := hdoc
    exact ⟨j, hj.view (by decide), hn, hf⟩
  | n5 =>
    rw [e] at hdoc h2
    refine ⟨RawFs.view_none.2 hdoc.1, RawFs.view_none.2 hdoc.2.1, fun k hk => ?_⟩
    rw [h2]
    exact hdoc.2.2 k hk

/-- an array of another program -/
theorem foundArray {R : RawFs} {x : ArrayItem Ty} {a : ArrayDesc} {A : AttrMap} (hx : x.IsDescribed a C.layout)
    (h : R.HoldsArray (C.root ++ p) C.layout a (Ty.elem x.dtype) (L.codec (Ty.elem x.dtype).size a.compression) x.fill x.content)
    (hn : R.NoGroup (C.root ++ p) C.layout) (hA : R.HasAttributes (C.root ++ p) C.layout A)
    (hat : ∀ k, x.attrs k = if C.layout = .n5 ∧ k ∈ ["dimensions", "blockSize", "dataType", "compressionType", "compression"] then none
      else A k) : C.ArrayFound L [] R.view p x := by
  obtain ⟨j, hj, hsay⟩ := h.document
  obtain ⟨h1, h2⟩ := hasAttributes_node hA (h.above _ (List.prefix_refl _)) (fun e => h.others "zarr.json" (by simp) (by rw [e]; decide))
    (fun e => by rw [e] at hj hsay; exact ⟨j, _, _, hj, ZarrV3.Describes.node hsay⟩)
  refine ⟨R.view, a, x.content, [], [], hx, h.view hx.supported, h1, .start, rfl, fun dh => ?_, ?_, fun o ho => by cases ho⟩
  · funext k
    rw [hat, h2]
    unfold Target.shown
    cases e : C.layout with
    | v2 => simp [Target.hidden]
    | v3 => simp [Target.hidden]
    | n5 => simp [Target.hidden]
  · have hv := hj.view (ArrayDesc.datasetFile_mem C.layout)
    cases e : C.layout with
    | v2 =>
      rw [e] at hn
      exact RawFs.view_none.2 hn
    | v3 =>
      rw [e] at hv hsay
      have hv : R.view (C.root ++ p ++ ["zarr.json"]) = some (.doc j) := hv
      unfold Fs.NotGroup
      simp only
      rw [docAt_doc hv]
      exact ZarrV3.Describes.node hsay
    | n5 =>
      rw [e] at hv hsay hn hj
      have hv : R.view (C.root ++ p ++ ["attributes.json"]) = some (.doc j) := hv
      have hc := Layout.Says.count hsay (hn j hj)
      have ha : ∀ k, R.view.attributes (C.root ++ p) .n5 k = j.find k := by
        intro k
        unfold Fs.attributes
        simp only [Layout.file]
        rw [docAt_doc hv]
        rfl
      unfold Fs.NotGroup
      simp only [ha]
      rw [hc]
      rfl

theorem view_wf {R : RawFs} (h : ∀ p n, R (p ++ [n]) ≠ none → R p = some .dir) : R.view.WF := by
  have key : ∀ (k : Nat) (p q : Path), q.length ≤ k → q ≠ [] → R (p ++ q) ≠ none → R p = some .dir := by
    intro k
    induction k with
    | zero => intro p q hk hq; exact absurd (List.eq_nil_of_length_eq_zero (by omega)) hq
    | succ k ih =>
      intro p q hk hq hne
      rcases last_cases q with rfl | ⟨r, n, rfl⟩
      · exact absurd rfl hq
      · rw [← List.append_assoc] at hne
        have := h _ _ hne
        by_cases hr : r = []
        · subst hr; rw [List.append_nil] at this; exact this
        · exact ih p r (by simp at hk; omega) hr (by rw [this]; exact fun e => by cases e)
  intro p q hq hne
  exact RawFs.view_dir.2 (key _ p q (Nat.le_refl _) hq fun e => hne (RawFs.view_none.2 e))

theorem found_inv {R : RawFs} (h : R.HoldsContainer C L T) (hC : C.Ok) : C.Inv L T [] R.view where
  wf := view_wf h.inDirs
  group p A hp := foundGroup hC (h.group p A hp)
  array p x hp := by
    obtain ⟨a, A, h1, h2, h3, h4, h5⟩ := h.array p x hp
    exact .inr (foundArray h1 h2 h3 h4 h5)
  top := h.root
  closed := h.closed
  names := h.names
  known p n hp hn := by
    refine ⟨?_, fun hk => RawFs.view_none.2 (h.nothing p n hp hn hk)⟩
    have hd : R (C.root ++ (p ++ [n])) ≠ some .dir := by
      by_cases hk : PlainName n
      · rw [h.nothing p n hp hn hk]; exact fun e => by cases e
      · exact h.documents p n hp hk
    cases e : R.view (C.root ++ (p ++ [n])) with
    | none => rfl
    | some y =>
      cases y with
      | dir => exact absurd (RawFs.view_dir.1 e) hd
      | _ => rfl
  objects p o h := by cases h

theorem Inv.isZarr (h : C.Inv L T os σ) (hp : T.IsGroup p) (m : FileMode) :
    (C.group p m).handle.isZarr σ = (.ok C.isZarr, σ) := by
  obtain ⟨A, hA⟩ := hp
  exact (h.group p A hA).isZarr m

/-- where the tree has a node, a directory is -/
theorem Inv.dir (hL : L.Lawful) (h : C.Inv L T os σ) (hp : T p ≠ none) : σ (C.root ++ p) = some .dir := by
  cases e : T p with
  | none => exact absurd e hp
  | some x =>
    cases x with
    | group A => exact (h.group p A e).node.dir
    | array x => exact (h.array p x e).dir hL _ (List.prefix_refl _)

/-- where the tree has none, there is no directory, and, for plain names, nothing -/
theorem Inv.absent (h : C.Inv L T os σ) : ∀ (k : Nat) {p : Path}, p.length ≤ k → T p = none → T.Clear p →
    isDirectory (σ (C.root ++ p)) = false ∧ ((∀ n ∈ p, PlainName n) → σ (C.root ++ p) = none)
  | k, p, hk, hp, hc => by
    rcases last_cases p with rfl | ⟨r, n, rfl⟩
    · obtain ⟨A, hA, _⟩ := h.top
      rw [hA] at hp
      cases hp
    · cases k with
      | zero => simp at hk
      | succ k =>
        cases e : T r with
        | none =>
          have hr := h.absent k (p := r) (by simp at hk; omega) e fun q hq hne x =>
            hc q (hq.trans (List.prefix_append _ _)) (fun e => by
              have := hq.length_le
              rw [e] at this
              simp only [List.length_append, List.length_cons, List.length_nil] at this
              omega) x
          have : σ (C.root ++ (r ++ [n])) = none := by
            refine Classical.byContradiction fun hx => ?_
            rw [← List.append_assoc] at hx
            have := h.wf (C.root ++ r) [n] (by simp) hx
            rw [this] at hr
            exact absurd hr.1 (by decide)
          rw [this]
          exact ⟨rfl, fun _ => rfl⟩
        | some x =>
          cases x with
          | array x => exact absurd e (hc r (List.prefix_append _ _) (by simp) x)
          | group A =>
            obtain ⟨h1, h2⟩ := h.known r n ⟨A, e⟩ hp
            exact ⟨h1, fun hn => h2 (hn n (by simp))⟩

theorem Inv.contains (hL : L.Lawful) (h : C.Inv L T os σ) {g : Path} {n : PyName} (hc : T.Clear (g ++ n.parts)) (m : FileMode) :
    (C.group g m).contains n σ = (.ok (T (g ++ n.parts)).isSome, σ) := by
  rw [Props.contains_run, group_path]
  cases e : T (g ++ n.parts) with
  | none => rw [(h.absent _ (Nat.le_refl _) e hc).1]; rfl
  | some x => rw [h.dir hL (by rw [e]; exact fun e => by cases e)]; rfl

theorem Inv.clear_of_group (h : C.Inv L T os σ) {n : String} (hp : T.IsGroup p) : T.Clear (p ++ [n]) := by
  intro q hq hne x hx
  rcases prefix_concat_iff.1 hq with e | e
  · obtain ⟨A, hA⟩ := hp
    by_cases e' : q = p
    · rw [e', hA] at hx; cases hx
    · rw [h.leaf hx e e'] at hA
      cases hA
  · exact hne e

theorem Inv.clear_of_some (h : C.Inv L T os σ) (hp : T p ≠ none) : T.Clear p := by
  intro q hq hne x hx
  exact hp (h.leaf hx hq hne)

/-- `add` of a node in a group -/
theorem Inv.add_eq (h : C.Inv L T os σ) {n : String} (hp : T.IsGroup p) (x : Item Ty) :
    T.add (p ++ [n]) x = T.put (p ++ [n]) x := by
  funext q
  unfold Tree.add Tree.put
  split
  · rfl
  · rename_i hne
    rw [if_neg]
    rintro ⟨h1, h2⟩
    rcases prefix_concat_iff.1 h1 with e | e
    · obtain ⟨A, hA⟩ := hp
      have := h.some_above (by rw [hA]; exact fun e => by cases e) e
      cases e : T q with
      | none => exact this e
      | some _ => rw [e] at h2; cases h2
    · exact hne e

/-- a new group -/
theorem Inv.newGroup (h : C.Inv L T os σ) {g ks : Path} {n : String} {m : FileMode} (hg : T.IsGroup g) (hp : T.IsGroup (g ++ ks))
    (hT : T (g ++ ks ++ [n]) = none) (hn : PlainName n)
    (hc : (C.group g m).handle.createGroup (ks ++ [n]) C.format σ = (.ok (), σ')) :
    C.Inv L (T.put (g ++ ks ++ [n]) (.group fun _ => none)) os σ' := by
  obtain ⟨z, hz, hm, hnew⟩ := createGroup_ok h.wf hc
  rw [h.isZarr hg] at hz
  cases hz
  rw [group_path, ← List.append_assoc g] at hnew
  refine h.putNew hp hT hn hnew (fun A e => ?_) (fun y e => by cases e) (fun _ _ e => .inr e) (fun A e o ho => ?_)
  · cases e
    refine ⟨?_, fun k hk => groupDocs_plain _ _ _ hk⟩
    have := newGroup_at false hnew
    simpa using this
  · obtain ⟨x, hx⟩ := h.objects _ _ ho
    rw [hT] at hx
    cases hx

theorem Inv.group_above (h : C.Inv L T os σ) {g ks : Path} (hp : T.IsGroup (g ++ ks)) : T.IsGroup g := by
  by_cases e : g = g ++ ks
  · rw [e]; exact hp
  · obtain ⟨A, hA⟩ := hp
    exact h.parents (by rw [hA]; exact fun e => by cases e) (List.prefix_append _ _) e

theorem Inv.createGroup (hL : L.Lawful) (h : C.Inv L T os σ) {g ks : Path} {n : String} {m : FileMode} {g' : PyGroup}
    (hp : T.IsGroup (g ++ ks)) (hn : PlainName n) (hc : (C.group g m).createGroup ⟨false, ks ++ [n]⟩ σ = (.ok g', σ')) :
    C.Inv L (T.put (g ++ ks ++ [n]) (.group fun _ => none)) os σ' ∧ T (g ++ ks ++ [n]) = none ∧ g' = C.group (g ++ ks ++ [n]) m := by
  unfold PyGroup.createGroup at hc
  split at hc
  · cases hc
  · rw [FsM.bind_run, h.contains hL (by
      show T.Clear (g ++ (ks ++ [n]))
      rw [← List.append_assoc]
      exact h.clear_of_group hp)] at hc
    simp only [← List.append_assoc] at hc
    cases e : T (g ++ ks ++ [n]) with
    | some x => rw [e] at hc; simp only [Option.isSome_some, if_true] at hc; cases hc
    | none =>
      rw [e] at hc
      simp only [Option.isSome_none, Bool.false_eq_true, if_false] at hc
      obtain ⟨_, σ1, h1, h2⟩ := FsM.bind_ok.1 hc
      cases h2
      refine ⟨h.newGroup (m := m) (h.group_above hp) hp e hn h1, rfl, ?_⟩
      unfold Container.group
      simp [PyName.under]

theorem Inv.requireGroup (hL : L.Lawful) (h : C.Inv L T os σ) {g ks : Path} {n : String} {m : FileMode} {g' : PyGroup}
    (hp : T.IsGroup (g ++ ks)) (hn : PlainName n)
    (hc : (C.group g m).requireGroup (ks ++ [n]) σ = (.ok g', σ')) :
    g' = C.group (g ++ ks ++ [n]) m ∧ (T (g ++ ks ++ [n]) = none ∧ C.Inv L (T.put (g ++ ks ++ [n]) (.group fun _ => none)) os σ' ∨
      T.IsGroup (g ++ ks ++ [n]) ∧ σ' = σ) := by
  have e0 : g' = C.group (g ++ ks ++ [n]) m := by
    rw [requireGroup_ok hc]
    unfold Container.group GroupHandle.group
    simp
  refine ⟨e0, ?_⟩
  unfold PyGroup.requireGroup at hc
  rw [FsM.bind_run, h.contains hL (by
    show T.Clear (g ++ (ks ++ [n]))
    rw [← List.append_assoc]
    exact h.clear_of_group hp)] at hc
  simp only [← List.append_assoc] at hc
  have hgz := h.isZarr (h.group_above hp) m
  cases e : T (g ++ ks ++ [n]) with
  | some x =>
    rw [e] at hc
    simp only [Option.isSome_some, if_true] at hc
    rw [FsM.bind_run] at hc
    cases x with
    | array x =>
      have := (h.array _ _ e)
      rw [List.append_assoc] at this
      rw [this.isSubGroup hL hgz] at hc
      simp only [Bool.not_false, if_true] at hc
      cases hc
    | group A =>
      have := (h.group _ _ e)
      rw [List.append_assoc] at this
      rw [this.isSubGroup hgz] at hc
      simp only [Bool.not_true, Bool.false_eq_true, if_false] at hc
      cases hc
      exact .inr ⟨⟨A, e⟩, rfl⟩
  | none =>
    rw [e] at hc
    simp only [Option.isSome_none, Bool.false_eq_true, if_false] at hc
    split at hc
    · cases hc
    · obtain ⟨_, σ1, h1, h2⟩ := FsM.bind_ok.1 hc
      cases h2
      exact .inl ⟨rfl, h.newGroup (m := m) (h.group_above hp) hp e hn h1⟩

/-- The groups that lead to a path are there. -/
def fill (T : Tree Ty) (p : Path) : Tree Ty := fun q =>
  if q <+: p ∧ (T q).isNone then some (.group fun _ => none) else T q

theorem Inv.fill_group (h : C.Inv L T os σ) (hp : T.IsGroup p) : fill T p = T := by
  funext q
  unfold fill
  rw [if_neg]
  rintro ⟨h1, h2⟩
  obtain ⟨A, hA⟩ := hp
  have := h.some_above (by rw [hA]; exact fun e => by cases e) h1
  cases e : T q with
  | none => exact this e
  | some _ => rw [e] at h2; cases h2

theorem Inv.requireGroups (hL : L.Lawful) : ∀ {ks : Path} {g : Path} {T : Tree Ty} {σ : Fs} {m : FileMode} {g' : PyGroup},
    C.Inv L T os σ → T.IsGroup g → (∀ n ∈ ks, PlainName n) → (C.group g m).requireGroups ks σ = (.ok g', σ') →
    g' = C.group (g ++ ks) m ∧ C.Inv L (fill T (g ++ ks)) os σ' ∧ (fill T (g ++ ks)).IsGroup (g ++ ks) ∧
    ∀ q, T q ≠ none → fill T (g ++ ks) q = T q
  | [], g, T, σ, m, g', h, hg, _, hc => by
    cases hc
    rw [List.append_nil, h.fill_group hg]
    exact ⟨rfl, h, hg, fun _ _ => rfl⟩
  | n :: ks, g, T, σ, m, g', h, hg, hn, hc => by
    unfold PyGroup.requireGroups at hc
    obtain ⟨g1, σ1, h1, h2⟩ := FsM.bind_ok.1 hc
    have h1 : (C.group g m).requireGroup ([] ++ [n]) σ = (.ok g1, σ1) := h1
    obtain ⟨rfl, e⟩ := h.requireGroup hL (ks := []) (by rw [List.append_nil]; exact hg) (hn n (by simp)) h1
    rw [List.append_nil] at e h2
    have hl : g ++ n :: ks = g ++ [n] ++ ks := by simp
    rw [hl]
    have hkeep : ∀ q, T q ≠ none → fill T (g ++ [n] ++ ks) q = T q := by
      intro q hq
      unfold fill
      rw [if_neg]
      rintro ⟨_, h2⟩
      cases e : T q with
      | none => exact hq e
      | some _ => rw [e] at h2; cases h2
    rcases e with ⟨e, hi⟩ | ⟨e, rfl⟩
    · obtain ⟨i1, i2, i3, i4⟩ := hi.requireGroups hL ⟨_, put_self _ _ _⟩ (fun k hk => hn k (List.mem_cons_of_mem _ hk)) h2
      have : fill (T.put (g ++ [n]) (.group fun _ => none)) (g ++ [n] ++ ks) = fill T (g ++ [n] ++ ks) := by
        funext q
        unfold fill
        by_cases hq : q = g ++ [n]
        · subst hq
          rw [put_self, e, if_neg (by simp), if_pos ⟨List.prefix_append _ _, rfl⟩]
        · rw [put_other _ _ hq]
      rw [this] at i2 i3
      exact ⟨i1, i2, i3, hkeep⟩
    · exact h.requireGroups hL e (fun k hk => hn k (List.mem_cons_of_mem _ hk)) h2

theorem put_fill (T : Tree Ty) (p : Path) (n : String) (x : Item Ty) :
    (fill T p).put (p ++ [n]) x = T.add (p ++ [n]) x := by
  funext q
  unfold fill Tree.put Tree.add
  split
  · rfl
  · rename_i hne
    have : q <+: p ++ [n] ↔ q <+: p := by
      rw [prefix_concat_iff]
      exact ⟨fun e => e.resolve_right hne, .inl⟩
    simp only [this]

/-- a new array in a group -/
theorem Inv.newArray (hL : L.Lawful) (h : C.Inv L T os σ) {g ks : Path} {n : String} {m : FileMode} {a : PyCreateArgs}
    {x : ArrayItem Ty} {o : DatasetObj} (hp : T.IsGroup (g ++ ks)) (hn : PlainName n) (hT : T (g ++ ks ++ [n]) = none)
    (hx : a.Asks C.layout x) (hc : (C.group g m).newDatasetFull { parts := ks ++ [n] } a σ = (.ok o, σ')) :
    C.Inv L (T.put (g ++ ks ++ [n]) (.array x)) ((g ++ ks ++ [n], o) :: os) σ' ∧ o.handle.mode = m ∧ o.info.dtype = x.dtype ∧
    o.info.shape = x.shape ∧ o.info.chunkShape = x.chunks := by
  obtain ⟨⟨docs, hnew⟩, h1, h2, h3, h4, ha⟩ := newArray_at (os := os) h.wf hL (h.isZarr (h.group_above hp) m) hx hc fun o' ho => by
    obtain ⟨y, hy⟩ := h.objects _ _ ho
    rw [← List.append_assoc, hT] at hy
    cases hy
  rw [← List.append_assoc g] at ha hnew
  refine ⟨h.putNew hp hT hn hnew (fun A e => by cases e) (fun y e => ?_) (fun q o' ho => ?_) (fun A e => by cases e), h1, h2, h3, h4⟩
  · cases e
    exact .inl ha
  · rcases List.mem_cons.1 ho with e | e
    · cases e; exact .inl rfl
    · exact .inr e

theorem Inv.createArray (hL : L.Lawful) (h : C.Inv L T os σ) {g key : Path} {m : FileMode} {a : PyCreateArgs}
    {x : ArrayItem Ty} {o : DatasetObj} (hg : T.IsGroup g) (hk : key ≠ []) (hn : ∀ n ∈ key, PlainName n) (hx : a.Asks C.layout x)
    (hc : (C.group g m).createDatasetFull ⟨false, key⟩ a σ = (.ok o, σ')) :
    C.Inv L (T.add (g ++ key) (.array x)) ((g ++ key, o) :: os) σ' ∧ o.handle.mode = m ∧ o.info.dtype = x.dtype ∧
    o.info.shape = x.shape ∧ o.info.chunkShape = x.chunks ∧ isDirectory (σ (C.root ++ (g ++ key))) = false ∧
    T.Clear (g ++ key) ∧ T (g ++ key) = none := by
  have hpar : ∀ (T : Tree Ty), T (g ++ key) ≠ none → C.Inv L T os σ → isDirectory (σ (C.root ++ (g ++ key))) = true := by
    intro T h1 h2
    rw [h2.dir hL h1]
    rfl
  unfold PyGroup.createDatasetFull at hc
  split at hc
  · cases hc
  rw [FsM.bind_run, Props.contains_run, group_path] at hc
  cases hd : isDirectory (σ (C.root ++ (g ++ key))) with
  | true => rw [hd] at hc; simp only [if_true] at hc; cases hc
  | false =>
    have hT : T (g ++ key) = none := Classical.byContradiction fun e => by
      rw [hpar T e h] at hd; cases hd
    rw [hd] at hc
    simp only [Bool.false_eq_true, if_false] at hc
    obtain ⟨ks, n, rfl⟩ : ∃ ks n, key = ks ++ [n] := by
      rcases last_cases key with e | e
      · exact absurd e hk
      · exact e
    by_cases hl : (ks ++ [n]).length > 1
    · rw [if_pos hl] at hc
      obtain ⟨g', σ2, h3, h4⟩ := FsM.bind_ok.1 hc
      rw [List.dropLast_concat] at h3
      obtain ⟨rfl, i2, i3, i4⟩ := h.requireGroups hL hg (fun k hk => hn k (List.mem_append_left _ hk)) h3
      split at h4
      · cases h4
      obtain ⟨b, σ3, h5, h6⟩ := FsM.bind_ok.1 h4
      rw [List.getLast?_concat] at h5 h6
      rw [Props.contains_run, group_path] at h5
      cases h5
      have h6 : (if isDirectory (σ2 (C.root ++ (g ++ ks ++ [n]))) = true then FsM.lift (.throw .keyError)
        else (C.group (g ++ ks) m).newDatasetFull { parts := [n] } a) σ2 = (.ok o, σ') := h6
      have hi3 : (fill T (g ++ ks)).IsGroup (g ++ ks ++ []) := by rw [List.append_nil]; exact i3
      cases hd' : isDirectory (σ2 (C.root ++ (g ++ ks ++ [n]))) with
      | true => rw [if_pos hd'] at h6; cases h6
      | false =>
        rw [if_neg (fun e => by rw [hd'] at e; cases e)] at h6
        have hT' : fill T (g ++ ks) (g ++ ks ++ [] ++ [n]) = none := Classical.byContradiction fun e => by
          rw [List.append_nil] at e
          rw [i2.dir hL e] at hd'
          cases hd'
        obtain ⟨j1, j2, j3, j4, j5⟩ := i2.newArray hL hi3 (hn n (by simp)) hT' hx h6
        rw [List.append_nil, put_fill, List.append_assoc] at j1
        refine ⟨j1, j2, j3, j4, j5, rfl, ?_, hT⟩
        rw [← List.append_assoc]
        intro q hq hne y hy
        exact i2.clear_of_group (n := n) i3 q hq hne y (by rw [i4 q (by rw [hy]; exact fun e => by cases e)]; exact hy)
    · rw [if_neg hl] at hc
      have hks : ks = [] := List.eq_nil_of_length_eq_zero (by
        simp only [List.length_append, List.length_cons, List.length_nil] at hl
        omega)
      subst hks
      have hg' : T.IsGroup (g ++ []) := by rw [List.append_nil]; exact hg
      have hT' : T (g ++ [] ++ [n]) = none := by rw [List.append_assoc]; exact hT
      obtain ⟨j1, j2, j3, j4, j5⟩ := h.newArray hL hg' (hn n (by simp)) hT' hx hc
      rw [List.append_nil] at j1
      refine ⟨?_, j2, j3, j4, j5, rfl, h.clear_of_group hg, hT⟩
      show C.Inv L (T.add (g ++ [n]) _) _ _
      rw [h.add_eq hg]
      exact j1

theorem Inv.requireArray (hL : L.Lawful) (h : C.Inv L T os σ) {g ks : Path} {n : String} {m : FileMode} {a : PyCreateArgs}
    {x : ArrayItem Ty} {o : DatasetObj} (hp : T.IsGroup (g ++ ks)) (hn : PlainName n) (hT : T (g ++ ks ++ [n]) = none)
    (hx : a.Asks C.layout x) (hc : (C.group g m).requireDataset (ks ++ [n]) a σ = (.ok o, σ')) :
    C.Inv L (T.put (g ++ ks ++ [n]) (.array x)) ((g ++ ks ++ [n], o) :: os) σ' ∧ o.handle.mode = m ∧ o.info.dtype = x.dtype ∧
    o.info.shape = x.shape ∧ o.info.chunkShape = x.chunks := by
  unfold PyGroup.requireDataset at hc
  have hd := (h.absent _ (Nat.le_refl _) hT (h.clear_of_group hp)).1
  rw [FsM.bind_run, has_run, group_path, ← List.append_assoc g, hd] at hc
  simp only [Bool.false_eq_true, if_false] at hc
  split at hc
  · cases hc
  exact h.newArray hL hp hn hT hx hc

theorem Inv.getItem_array (hL : L.Lawful) (h : C.Inv L T os σ) {g : Path} {n : PyName} {m : FileMode} {x : ArrayItem Ty}
    (hg : T.IsGroup g) (hx : T (g ++ n.parts) = some (.array x)) :
    ∃ o, (C.group g m).getItem n σ = (.ok (.inr o), σ) ∧ o.handle.mode = m ∧ o.info.dtype = x.dtype ∧
      o.info.shape = x.shape ∧ o.info.chunkShape = x.chunks ∧ C.Inv L T ((g ++ n.parts, o) :: os) σ := by
  have hgz := h.isZarr hg m
  have ha := h.array _ _ hx
  obtain ⟨o, h1, h2, h3, h4, h5, h6⟩ := ha.opened hL hgz
  refine ⟨o, ?_, h2, h3, h4, h5, h.objs (fun q y hq => ?_) (fun q o' ho => ?_)⟩
  · unfold PyGroup.getItem
    rw [FsM.bind_run, h.contains hL (h.clear_of_some (by rw [hx]; exact fun e => by cases e)), hx]
    simp only [Option.isSome_some, Bool.not_true, Bool.false_eq_true, if_false]
    rw [FsM.bind_run, ha.isSubGroup hL hgz]
    simp only [Bool.false_eq_true, if_false]
    rw [FsM.bind_run, h1]
    rfl
  · by_cases e : q = g ++ n.parts
    · subst e
      rw [hx] at hq
      cases hq
      exact h6
    · exact (h.array q y hq).mono fun o' ho' => by
        rcases List.mem_cons.1 ho' with e' | e'
        · cases e'; exact absurd rfl e
        · exact e'
  · rcases List.mem_cons.1 ho with e | e
    · cases e; exact ⟨x, hx⟩
    · exact h.objects q o' e

/-- what `del` of an array does when it succeeds -/
theorem ArrayAt.del (hL : L.Lawful) {g : Path} {n : PyName} {x : ArrayItem Ty} (h : C.ArrayAt L os σ (g ++ n.parts) x) {m : FileMode}
    (hz : (C.group g m).handle.isZarr σ = (.ok C.isZarr, σ)) (hm : m ≠ .r) :
    (C.group g m).delItem n L Ty σ = (.ok (), σ.without (C.root ++ (g ++ n.parts))) ∨
    x.shards ≠ none ∧
    ∃ σ', (C.group g m).delItem n L Ty σ = (.throw .lengthError, σ') ∧ ∀ q, ¬ C.root ++ (g ++ n.parts) <+: q → σ' q = σ q := by
  rcases h with h | h
  case inr => exact h.del hL hz hm
  obtain ⟨o₀, d₀, os', ws, h⟩ := h
  obtain ⟨dt, sh, ch, sd, fl, co, at'⟩ := x
  have e := h.is.dtype
  simp only at e
  subst e
  rcases Props.c65_del_dataset (h.is.law hL) h.is.desc h.is.typed h.is.wf h.is.keys h.is.fit h.sessions (g := C.group g m) (n := n)
    (group_path ..) (fun e => by rw [hz, ← h.is.isZarr, e]) hm with e | ⟨_, σ', e0, e1, e2⟩
  · exact .inl e
  · refine .inr ⟨fun hn => ?_, σ', e1, e2⟩
    obtain ⟨ds, e⟩ := h.is.plain hn
    rw [e0] at e
    cases e

theorem Inv.deleted (hL : L.Lawful) (h : C.Inv L T os σ) {g : Path} {n : PyName} {m : FileMode} (hg : T.IsGroup g)
    (hc : T.Clear (g ++ n.parts)) (hn : n.parts ≠ []) (hd : (C.group g m).delItem n L Ty σ = (.ok (), σ')) :
    T (g ++ n.parts) ≠ none ∧ σ' = σ.without (C.root ++ (g ++ n.parts)) ∧
    C.Inv L (T.prune (g ++ n.parts)) (os.filter fun e => ¬ g ++ n.parts <+: e.1) σ' := by
  have hm : (C.group g m).handle.mode ≠ .r := by
    intro e
    rw [(Props.c65_del_refused _ n σ).1 e] at hd
    cases hd
  have hne : T (g ++ n.parts) ≠ none := by
    intro e
    rw [(Props.c65_del_refused _ n σ).2 hm (by rw [h.contains hL hc, e]; rfl)] at hd
    cases hd
  have hσ : σ' = σ.without (C.root ++ (g ++ n.parts)) := by
    cases e : T (g ++ n.parts) with
    | none => exact absurd e hne
    | some x =>
      cases x with
      | group A =>
        rw [Props.c65_del_group _ n σ hm (by rw [group_path]; exact h.dir hL hne)
          ((h.group _ _ e).isSubGroup (h.isZarr hg m)), group_path] at hd
        cases hd
        rfl
      | array x =>
        rcases (h.array _ _ e).del hL (h.isZarr hg m) hm with e' | ⟨_, σ', e', _⟩
        · rw [e'] at hd; cases hd; rfl
        · rw [e'] at hd; cases hd
  subst hσ
  exact ⟨hne, rfl, h.prune (by simp [hn]) hne⟩

theorem change_mode {t : Target} {op : AttrOp} (h : t.change op σ = (.ok (), σ')) : t.mode ≠ .r := by
  intro hm
  obtain ⟨_, e⟩ := c31_container (op := .change t op) hm σ
  exact e rfl () (congrArg Prod.fst h)

theorem Inv.wrote (hL : L.Lawful) (h : C.Inv L T os σ) {o : DatasetObj} {x : ArrayItem Ty} {d : AnyDataset (Ty.elem x.dtype)}
    {w : Write (Ty.elem x.dtype).T} (ho : (p, o) ∈ os) (hx : T p = some (.array x)) (hm : o.handle.mode ≠ .r)
    (hd : o.typed L (Ty.cast x.dtype) = .ok d) (hp : d.Performs (C.root ++ p) w σ σ') :
    C.Inv L (T.put p (.array { x with content := override x.content w.off w.shape w.val })) os σ' := by
  obtain ⟨h1, h2⟩ := (h.array p x hx).wrote hL ho hm hd hp
  exact h.putArray hx (performs_wf hp h.wf) h2 h1

theorem Inv.arrayAttrs (hL : L.Lawful) (h : C.Inv L T os σ) {o : DatasetObj} {x : ArrayItem Ty} {op : AttrOp} (ho : (p, o) ∈ os)
    (hx : T p = some (.array x)) (hv : op.Valid) (hc : (Target.dataset o.handle).change op σ = (.ok (), σ')) :
    C.Inv L (T.put p (.array { x with attrs := op.apply x.attrs })) os σ' := by
  obtain ⟨h1, h2⟩ := (h.array p x hx).change hL h.wf ho (change_mode hc) hv
  cases e : op.names ((Target.dataset o.handle).locked C.layout) with
  | true => rw [h1 e] at hc; cases hc
  | false =>
    obtain ⟨σ1, e1, e2, e3, e4⟩ := h2 e
    rw [e1] at hc
    cases hc
    refine h.putArray hx e2 (fun q hq => e3 q fun e => hq ?_) e4
    rw [e]
    exact List.prefix_append _ _

theorem Inv.groupAttrs (h : C.Inv L T os σ) {g : Path} {m : FileMode} {A : AttrMap} {op : AttrOp}
    (hg : T g = some (.group A)) (hv : op.Valid)
    (h5 : C.isZarr = false → op.names ["dimensions", "blockSize", "dataType", "compressionType", "compression"] = false)
    (hc : (C.attrsOf g m).change op σ = (.ok (), σ')) : C.Inv L (T.put g (.group (op.apply A))) os σ' := by
  have hm : m ≠ .r := by
    have := change_mode hc
    rwa [attrsOf_mode] at this
  obtain ⟨h1, h2⟩ := (h.group g A hg).change h.wf hm hv h5
  cases e : op.names ((C.attrsOf g m).locked C.layout) with
  | true => rw [h1 e] at hc; cases hc
  | false =>
    obtain ⟨σ1, e1, e2, e3, e4, e5⟩ := h2 e
    rw [e1] at hc
    cases hc
    refine h.putGroup hg e2 e3 e4 e5 ?_
    rintro rfl hz
    obtain ⟨B, hB, hn⟩ := h.top
    rw [hg] at hB
    cases hB
    obtain ⟨c, cs, h1, h2⟩ := hn hz
    refine ⟨c, cs, h1, ?_⟩
    rw [AttrOp.apply_of_not_names e]
    · exact h2
    · unfold attrsOf
      rw [if_pos rfl, layout_n5.2 hz]
      exact List.mem_singleton.2 rfl

theorem start_newNode {base : String} {m : FileMode} {z : Option Bool} {g : PyGroup} (hσ : σ.WF)
    (hs : σ C.root = none ∨ m = .w) (hz : (pyInferFormat C.root base σ).1 = .ok C.isZarr)
    (h : pyFile C.root base m z C.format σ = (.ok g, σ')) :
    ∃ τ : Fs, τ.WF ∧ τ.NewNode σ' C.root (groupDocs C.layout C.format true) ∧ g = C.group [] m := by
  rw [pyInferFormat_run] at hz
  have hz : σ.looksLikeZarr C.root base = C.isZarr := Res.ok.inj hz
  have hu : ∀ u, z = some u → u = σ.looksLikeZarr C.root base := by
    rintro u rfl
    refine Decidable.byContradiction fun hz => ?_
    rw [c42_conflict hz] at h
    cases h
  have hg : (⟨⟨C.root, m⟩, C.format⟩ : PyGroup) = C.group [] m := by
    unfold Container.group
    rw [List.append_nil]
  by_cases he : σ C.root = none
  · have hc : m.canCreate = true := by
      refine Decidable.byContradiction fun hn => ?_
      have hm : m = .r ∨ m = .rp := by cases m <;> first | exact .inl rfl | exact .inr rfl | (exact absurd rfl hn)
      rw [c42_missing hu hm he] at h
      cases h
    rw [pyFile_start hu] at h
    simp only [FsM.bind_run, FsM.exist_run, FsM.ite_run, he, Option.isSome_none, Bool.false_and,
      Bool.false_eq_true, if_false, hc, FsM.pure_run, Bool.not_true] at h
    split at h
    · rename_i a σ1 h1
      cases h
      refine ⟨σ, hσ, ?_, hg⟩
      have := (createFile_ok hσ h1).2
      rw [hz] at this
      exact this
    · cases h
    · cases h
  · have hm := hs.resolve_left he
    subst hm
    obtain ⟨σ1, h1, h2⟩ := c42_truncate hσ hu he (f := C.format)
    rw [h1] at h
    cases h
    rw [hz] at h2
    exact ⟨_, hσ.without _, h2, hg⟩

/-- Every history keeps the invariant. -/
theorem inv_of_history (hL : L.Lawful) (h : History C L Ty T os σ) : C.Inv L T os σ := by
  induction h with
  | start hσ hs hz h =>
    obtain ⟨τ, h1, h2, _⟩ := start_newNode hσ hs hz h
    exact start_inv h1 h2
  | found h hC => exact found_inv h hC
  | createGroup _ hp hn hc ih => rw [ih.add_eq hp]; exact (ih.createGroup hL hp hn hc).1
  | requireGroup _ hp hn hT hc ih =>
    rw [ih.add_eq hp]
    rcases (ih.requireGroup hL hp hn hc).2 with ⟨_, e⟩ | ⟨⟨A, e⟩, _⟩
    · exact e
    · rw [hT] at e; cases e
  | createArray _ hg hk hn hx hc ih => exact (ih.createArray hL hg hk hn hx hc).1
  | requireArray _ hp hn hT hx hc ih => rw [ih.add_eq hp]; exact (ih.requireArray hL hp hn hT hx hc).1
  | opened _ hx hg hc ih =>
    obtain ⟨o, h1, _, _, _, _, h2⟩ := ih.getItem_array hL hg hx
    rw [h1] at hc
    cases hc
    exact h2
  | closed _ ho ih => exact ih.objs (fun p x hx => (ih.array p x hx).mono fun o e => ho _ e) fun p o e => ih.objects p o (ho _ e)
  | deleted _ hg hc hn hd ih => exact (ih.deleted hL hg hc hn hd).2.2
  | wrote _ ho hx hm hd hp ih => exact ih.wrote hL ho hx hm hd hp
  | arrayAttrs _ ho hx hv hc ih => exact ih.arrayAttrs hL ho hx hv hc
  | groupAttrs _ hg hv h5 hc ih => exact ih.groupAttrs hg hv h5 hc
  | elsewhere _ hwf he ih => exact ih.elsewhere hwf he

end Container

end Z5
