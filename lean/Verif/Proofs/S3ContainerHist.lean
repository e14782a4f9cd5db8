import Verif.Proofs.S3ContainerInv

/-!
# Every history keeps the invariant of containers on S3 (for C79)
-/

namespace Z5

open Spec
open Container (put_self put_other put_isSome fill put_fill)

/-! ### Deleting -/

theorem onS3_frame {α : Type} (name : Key) : ∀ (t : Prog α) (w : World), (t.onS3 name w).2.events = w.events ∧
    (w.bucket.WF → (t.onS3 name w).2.bucket.WF) ∧
    ∀ k, ¬ dirPrefix name <+: k → (t.onS3 name w).2.bucket.get k = w.bucket.get k
  | .ret _, _ => ⟨rfl, id, fun _ _ => rfl⟩
  | .act k f cont, w => by
    obtain ⟨h1, h2, h3⟩ := onS3_frame name (cont (w.bucket.chunks name k)) ⟨w.events, w.bucket.onChunk name k f⟩
    refine ⟨h1, fun hw => h2 (onChunk_wf hw), fun q hq => (h3 q hq).trans (onChunk_get ?_)⟩
    rintro rfl
    exact hq (dirPrefix_chunk _ _)

theorem eachOnS3_frame (name : Key) : ∀ (ts : List (Prog Unit)) (w : World), (Prog.eachOnS3 name ts w).2.events = w.events ∧
    (w.bucket.WF → (Prog.eachOnS3 name ts w).2.bucket.WF) ∧
    ∀ k, ¬ dirPrefix name <+: k → (Prog.eachOnS3 name ts w).2.bucket.get k = w.bucket.get k
  | [], _ => ⟨rfl, id, fun _ _ => rfl⟩
  | t :: ts, w => by
    obtain ⟨h1, h2, h3⟩ := onS3_frame name t w
    unfold Prog.eachOnS3
    rcases h : t.onS3 name w with ⟨r, w1⟩
    rw [h] at h1 h2 h3
    rcases r with _ | r
    · rw [S3M.bind_eq, h]
      exact ⟨h1, h2, h3⟩
    cases r with
    | ok a =>
      rw [S3M.run_bind h]
      obtain ⟨i1, i2, i3⟩ := eachOnS3_frame name ts w1
      exact ⟨i1.trans h1, fun hw => i2 (h2 hw), fun k hk => (i3 k hk).trans (h3 k hk)⟩
    | throw e =>
      rw [S3M.bind_eq, h]
      exact ⟨h1, h2, h3⟩
    | ub =>
      rw [S3M.bind_eq, h]
      exact ⟨h1, h2, h3⟩

/-- what a removal leaves -/
theorem remove_gone {h : S3Handle} {es : List Event} {b : Bucket} {w : World} (hes : ∀ e ∈ es, e.Reliable ∧ e.failed = [])
    (hb : b.WF) (hr : h.remove ⟨es, b⟩ = (some (.ok ()), w)) :
    w.bucket.WF ∧ ∀ k, w.bucket.get k = if dirPrefix h.name <+: k then none else b.get k := by
  have h1 := remove_wf (h := h) (w := ⟨es, b⟩) (fun e he => (hes e he).1) hb
  rw [hr] at h1
  refine ⟨h1, fun k => c50_remove_exact (w := ⟨es, b⟩) ⟨hb, fun e he b' hb' => ?_⟩ (fun e he => (hes e he).1.1) (fun e he => (hes e he).2) hr k⟩
  rw [(hes e he).1.1]
  exact hb'

theorem removeDataset_gone {E : Elem} {o : S3DatasetObj} {L : Libs} {elem : FillVal → E.T} {es : List Event} {b : Bucket} {w : World}
    (hes : ∀ e ∈ es, e.Reliable ∧ e.failed = []) (hb : b.WF) (hr : o.removeDataset L elem ⟨es, b⟩ = (some (.ok ()), w)) :
    w.bucket.WF ∧ ∀ k, w.bucket.get k = if dirPrefix o.name <+: k then none else b.get k := by
  unfold S3DatasetObj.removeDataset at hr
  obtain ⟨d, w1, h1, hr⟩ := S3M.bind_ok hr
  obtain ⟨_, rfl⟩ := S3M.lift_ok h1
  obtain ⟨ts, w2, h2, hr⟩ := S3M.bind_ok hr
  obtain ⟨_, rfl⟩ := S3M.lift_ok h2
  obtain ⟨_, w3, h3, hr⟩ := S3M.bind_ok hr
  obtain ⟨f1, f2, f3⟩ := eachOnS3_frame o.name ts ⟨es, b⟩
  rw [h3] at f1 f2 f3
  dsimp only at f1 f2 f3
  obtain ⟨g1, g2⟩ := remove_gone (es := w3.events) (b := w3.bucket) (by rw [f1]; exact hes) (f2 hb) hr
  refine ⟨g1, fun k => ?_⟩
  rw [g2]
  dsimp only
  split
  · rfl
  · rename_i hk
    exact f3 k hk

namespace S3Container

variable {Ty : ElemTypes} {C : S3Container} {L : Libs} {T T' : Tree Ty} {os os' : List (Path × S3DatasetObj)} {b b' : Bucket} {p q : Path}

/-! ### New containers -/

theorem key_nil : C.key [] = C.root := if_pos rfl

theorem dir_nil : C.dir [] = dirPrefix C.root := by
  unfold dir
  exact List.append_nil _

theorem start_inv (hwf : b'.WF)
    (hget : ∀ k, b'.get k = if k = docKey C.root (s3FileDoc C.format).1 then some (.doc (s3FileDoc C.format).2)
      else if dirPrefix C.root <+: k then none else b.get k) :
    C.Inv L (fun p => if p = [] then some (.group fun _ => none) else none : Tree Ty) [] b' where
  wf := hwf
  group p A h := by
    by_cases e : p = []
    · subst e
      rw [if_pos rfl] at h
      cases h
      have he : ¬ Bucket.Exists [] (C.key []) := by
        rintro ⟨k, hk, _⟩
        cases hk
      refine (newGroup_at (C := C) (b := []) (isFile := true) he).congr fun n _ => ?_
      have : Bucket.withGroup [] (C.key []) C.layout C.format true = Bucket.put [] (docKey C.root (s3FileDoc C.format).1) (.doc (s3FileDoc C.format).2) := by
        rw [key_nil]
        exact newDoc [] C.root C.format
      rw [this, hget, key_nil, if_pos (dirPrefix_docKey C.root n)]
      split
      · rename_i e
        rw [e, get_put_self]
      · rename_i e
        rw [get_put_ne e]
        rfl
    · rw [if_neg e] at h
      cases h
  array p x h := by
    by_cases e : p = []
    · rw [if_pos e] at h; cases h
    · rw [if_neg e] at h; cases h
  top := ⟨_, if_pos rfl⟩
  closed p n h := by rw [if_neg (by simp)] at h; exact absurd rfl h
  names p n h := by rw [if_neg (by simp)] at h; exact absurd rfl h
  known p hp r hr := by
    have : p = [] := by
      obtain ⟨A, hA⟩ := hp
      by_cases e : p = []
      · exact e
      · simp only [if_neg e] at hA; cases hA
    subst this
    rw [mem_keys, hget, dir_nil, if_pos (List.prefix_append _ _)] at hr
    left
    by_cases e : dirPrefix C.root ++ r = docKey C.root (s3FileDoc C.format).1
    · have hd : docKey C.root (s3FileDoc C.format).1 = dirPrefix C.root ++ (s3FileDoc C.format).1.toList := by
        have := docKey_key (C := C) (p := []) (fun n hn => by cases hn) (s3FileDoc C.format).1
        rwa [key_nil, dir_nil] at this
      rw [hd] at e
      refine ⟨_, ?_, List.append_cancel_left e⟩
      unfold s3FileDoc
      split <;> simp [MetaName]
    · rw [if_neg e] at hr
      cases hr
  objects p o h := by cases h

theorem start_facts {a : S3FileArgs} {es : List Event} {f : S3PyFile} {w : World} (hb : b.WF)
    (hes : ∀ e ∈ es, e.Reliable ∧ e.failed = []) (hn : a.name = C.root) (hf : a.zarrFormat = C.format)
    (hs : ¬ b.Exists C.root ∨ a.mode = "w") (h : s3File a ⟨es, b⟩ = (some (.ok f), w)) :
    a.Describes f ∧ C.Inv L (fun p => if p = [] then some (.group fun _ => none) else none : Tree Ty) [] w.bucket := by
  have hr : ∀ e ∈ es, e.Reliable := fun e he => (hes e he).1
  have hwf := s3File_wf (a := a) (w := ⟨es, b⟩) hr hb
  rw [h] at hwf
  have hz : a.useZarr ≠ some false := by
    intro hz
    rw [(c77_refused ⟨es, b⟩).1 hz] at h
    cases h
  have key : a.Describes f ∧ ∀ k, w.bucket.get k =
      if k = docKey a.name (s3FileDoc a.zarrFormat).1 then some (.doc (s3FileDoc a.zarrFormat).2)
      else if dirPrefix a.name <+: k then none else b.get k := by
    by_cases hw : a.mode = "w"
    · exact c77_truncated (w := ⟨es, b⟩) hz hw ⟨hb, fun e he b' hb' => by rw [(hr e he).1]; exact hb'⟩ hes h
    · have he := hs.resolve_right hw
      rw [← hn] at he
      by_cases hm : a.mode ∈ ["r", "r+", "w", "w-", "x", "a"]
      · by_cases hc : a.mode ∈ ["r", "r+"]
        · obtain ⟨e, _⟩ := ((c77_open (b := b) hz).1 hc he).rest hr h
          cases e
        · obtain ⟨f', h1, h2⟩ := (c77_open (b := b) hz).2.2.2 (by
            simp only [List.mem_cons, List.not_mem_nil, or_false, not_or] at hm hc ⊢
            rcases hm with e | e | e | e | e | e <;> simp_all) he
          obtain ⟨e, e2, _⟩ := h2.rest hr h
          cases e
          refine ⟨h1, fun k => ?_⟩
          rw [e2]
          by_cases hk : k = docKey a.name (s3FileDoc a.zarrFormat).1
          · rw [if_pos hk, hk, get_put_self]
          · rw [if_neg hk, get_put_ne hk]
            split
            · rename_i hd
              rw [get_none]
              exact fun hmem => he ⟨k, hmem, hd⟩
            · rfl
      · rw [(c77_refused ⟨es, b⟩).2 hz hm] at h
        cases h
  rw [hn, hf] at key
  exact ⟨key.1, start_inv hwf key.2⟩

/-! ### Trees -/

theorem Inv.clear_of_group (h : C.Inv L T os b) {n : String} (hp : T.IsGroup p) : T.Clear (p ++ [n]) := by
  intro q hq hne x hx
  rcases prefix_concat_iff.1 hq with e | e
  · obtain ⟨A, hA⟩ := hp
    by_cases e' : q = p
    · rw [e', hA] at hx; cases hx
    · rw [h.leaf hx e e'] at hA
      cases hA
  · exact hne e

theorem Inv.clear_of_some (h : C.Inv L T os b) (hp : T p ≠ none) : T.Clear p := by
  intro q hq hne x hx
  exact hp (h.leaf hx hq hne)

theorem Inv.fill_group (h : C.Inv L T os b) (hp : T.IsGroup p) : fill T p = T := by
  funext q
  unfold fill
  rw [if_neg]
  rintro ⟨h1, h2⟩
  have := h.some_above (isGroup_ne hp) h1
  cases e : T q with
  | none => exact this e
  | some _ => rw [e] at h2; cases h2

theorem Inv.add_eq (h : C.Inv L T os b) {n : String} (hp : T.IsGroup p) (x : Item Ty) :
    T.add (p ++ [n]) x = T.put (p ++ [n]) x := by
  rw [← put_fill, h.fill_group hp]

theorem Inv.group_above (h : C.Inv L T os b) {g ks : Path} (hp : T.IsGroup (g ++ ks)) : T.IsGroup g := by
  by_cases e : g = g ++ ks
  · rw [e]; exact hp
  · exact h.parents (isGroup_ne hp) (List.prefix_append _ _) e

/-! ### Groups -/

theorem Inv.names_of (h : C.Inv L T os b) {g ks : Path} (hp : T.IsGroup (g ++ ks)) {n : String} (hn : NodeName n) :
    (∀ x ∈ g, NodeName x) ∧ ∀ x ∈ ks ++ [n], NodeName x := by
  have h1 := h.named (isGroup_ne hp)
  exact ⟨fun x hx => h1 x (List.mem_append_left _ hx),
    concat_named (fun x hx => h1 x (List.mem_append_right _ hx)) hn⟩

theorem Inv.spells (h : C.Inv L T os b) {g ks : Path} (hp : T.IsGroup (g ++ ks)) {n : String} (hn : NodeName n) :
    Spells (Path.text (ks ++ [n])) (ks ++ [n]) :=
  ⟨by simp, (h.names_of hp hn).2, 0, rfl⟩

theorem Inv.contains_in (hL : L.Lawful) (h : C.Inv L T os b) {g ks : Path} {n : String} (m : FileMode)
    (hp : T.IsGroup (g ++ ks)) (hn : NodeName n) :
    ((C.group g m).contains (Path.text (ks ++ [n]))).Does 2 b (.ok (T (g ++ ks ++ [n])).isSome) b := by
  rw [List.append_assoc]
  refine h.contains hL (h.group_above hp) (h.spells hp hn) ?_
  rw [← List.append_assoc]
  exact h.clear_of_group hp

theorem child_group {g ks : Path} {m : FileMode} (hg : ∀ n ∈ g, NodeName n) (hks : ks ≠ []) :
    (⟨(C.group g m).handle.child ks.text, (C.group g m).zarrFormat⟩ : S3PyGroup) = C.group (g ++ ks) m := by
  have hj : joinKey (C.group g m).handle.name ks.text = C.key (g ++ ks) := joinKey_key hg hks
  show (⟨⟨joinKey (C.group g m).handle.name ks.text, m⟩, C.format⟩ : S3PyGroup) = _
  rw [hj]
  rfl

/-- a new group -/
theorem Inv.newGroup (h : C.Inv L T os b) {g ks : Path} {n : String} {m : FileMode}
    (hp : T.IsGroup (g ++ ks)) (hT : T (g ++ ks ++ [n]) = none) (hn : NodeName n) (hm : m ≠ .r) :
    ∃ b', ((C.group g m).handle.createGroup (Path.text (ks ++ [n])) C.format).Does 7 b (.ok ()) b' ∧
      C.Inv L (T.put (g ++ ks ++ [n]) (.group fun _ => none)) os b' ∧
      ∀ k, ¬ dirPrefix (C.key (g ++ ks ++ [n])) <+: k → b'.get k = b.get k := by
  obtain ⟨hgn, hksn⟩ := h.names_of hp hn
  have hj : joinKey (C.group g m).handle.name (Path.text (ks ++ [n])) = C.key (g ++ ks ++ [n]) := by
    rw [List.append_assoc]
    exact joinKey_key hgn (by simp)
  have hnn : ∀ x ∈ g ++ ks ++ [n], NodeName x := by
    rw [List.append_assoc]
    exact append_named hgn hksn
  have he : ¬ b.Exists (C.key (g ++ ks ++ [n])) := h.not_exists hT (h.clear_of_group hp) hnn
  have hz : true = true ↔ b.IsZarr (C.group g m).handle.name := ⟨fun _ => h.isZarr (h.group_above hp), fun _ => rfl⟩
  obtain ⟨h1, _⟩ := c57_group (root := (C.group g m).handle) (zarrFormat := C.format) hz hm (by rw [hj]; exact he)
  rw [hj] at h1
  obtain ⟨d, o, hd, hwg⟩ := withGroup_get (C := C) b (C.key (g ++ ks ++ [n])) false
  have hwg' : b.withGroup (C.key (g ++ ks ++ [n])) (Layout.of true C.format) C.format false =
    b.put (docKey (C.key (g ++ ks ++ [n])) d) o := hwg
  have hch : ∀ k, ¬ dirPrefix (C.key (g ++ ks ++ [n])) <+: k → (b.withGroup (C.key (g ++ ks ++ [n])) (Layout.of true C.format) C.format false).get k = b.get k := by
    intro k hk
    rw [hwg']
    refine get_put_ne ?_
    rintro rfl
    exact hk (dirPrefix_docKey _ _)
  refine ⟨_, h1, h.putNew hp hT hn (by rw [hwg']; exact put_wf h.wf) ?_ (fun A e => ?_) (fun y e => by cases e)
    (fun _ _ e => .inr e) (fun A e o ho => ?_), hch⟩
  · rw [← dirPrefix_key hnn]
    exact hch
  · cases e
    refine ⟨newGroup_at he, fun r hr => ⟨d, hd, ?_⟩⟩
    have h2 := dirPrefix_key hnn (C := C)
    rw [mem_keys, hwg'] at hr
    by_cases e : C.dir (g ++ ks ++ [n]) ++ r = docKey (C.key (g ++ ks ++ [n])) d
    · rw [docKey_key hnn] at e
      exact List.append_cancel_left e
    · rw [get_put_ne e] at hr
      exact absurd ⟨_, mem_keys.2 hr, by rw [h2]; exact List.prefix_append _ _⟩ he
  · obtain ⟨x, hx⟩ := h.objects _ _ ho
    rw [hT] at hx
    cases hx

theorem mode_write {g : Path} {m : FileMode} (hm : m ≠ .r) : ¬ (!(C.group g m).handle.mode.canWrite) = true := by
  show ¬ (!m.canWrite) = true
  rw [Props.canWrite_of_ne hm]
  decide

theorem mode_read {g : Path} : (!(C.group g .r).handle.mode.canWrite) = true := by
  show (!FileMode.canWrite .r) = true
  decide

theorem Inv.createGroup (hL : L.Lawful) (h : C.Inv L T os b) {g ks : Path} {n : String} (m : FileMode)
    (hp : T.IsGroup (g ++ ks)) (hn : NodeName n) :
    (m = .r → ((C.group g m).createGroup (Path.text (ks ++ [n]))).Does 0 b (.throw .invalidArgument) b) ∧
    (m ≠ .r → T (g ++ ks ++ [n]) ≠ none → ((C.group g m).createGroup (Path.text (ks ++ [n]))).Does 2 b (.throw .keyError) b) ∧
    (m ≠ .r → T (g ++ ks ++ [n]) = none → ∃ b',
      ((C.group g m).createGroup (Path.text (ks ++ [n]))).Does 9 b (.ok (C.group (g ++ ks ++ [n]) m)) b' ∧
      C.Inv L (T.put (g ++ ks ++ [n]) (.group fun _ => none)) os b') := by
  have hc := h.contains_in hL (m := m) hp hn
  refine ⟨?_, fun hm hT => ?_, fun hm hT => ?_⟩
  · rintro rfl
    unfold S3PyGroup.createGroup
    rw [if_pos mode_read]
    exact .lift _ _
  · unfold S3PyGroup.createGroup
    rw [if_neg (mode_write hm)]
    refine hc.bind_lift (r := .throw .keyError) ?_
    cases e : T (g ++ ks ++ [n]) with
    | none => exact absurd e hT
    | some x => rfl
  · obtain ⟨b', h1, h2, _⟩ := h.newGroup (m := m) hp hT hn hm
    refine ⟨b', ?_, h2⟩
    unfold S3PyGroup.createGroup
    rw [if_neg (mode_write hm)]
    rw [hT] at hc
    refine hc.bind (m := 7) ?_
    refine h1.bind_lift (r := .ok _) ?_
    rw [child_group (h.names_of hp hn).1 (by simp), List.append_assoc]
    rfl

theorem Inv.requireGroup (hL : L.Lawful) (h : C.Inv L T os b) {g ks : Path} {n : String} (m : FileMode)
    (hp : T.IsGroup (g ++ ks)) (hn : NodeName n) :
    (T.IsGroup (g ++ ks ++ [n]) →
      ((C.group g m).requireGroup (Path.text (ks ++ [n]))).Does 8 b (.ok (C.group (g ++ ks ++ [n]) m)) b) ∧
    ((∃ x, T (g ++ ks ++ [n]) = some (.array x)) →
      ((C.group g m).requireGroup (Path.text (ks ++ [n]))).Does 8 b (.throw .typeError) b) ∧
    (m = .r → T (g ++ ks ++ [n]) = none →
      ((C.group g m).requireGroup (Path.text (ks ++ [n]))).Does 2 b (.throw .invalidArgument) b) ∧
    (m ≠ .r → T (g ++ ks ++ [n]) = none → ∃ b',
      ((C.group g m).requireGroup (Path.text (ks ++ [n]))).Does 9 b (.ok (C.group (g ++ ks ++ [n]) m)) b' ∧
      C.Inv L (T.put (g ++ ks ++ [n]) (.group fun _ => none)) os b') := by
  have hc := h.contains_in hL (m := m) hp hn
  obtain ⟨hgn, hksn⟩ := h.names_of hp hn
  have hres := child_group (C := C) (m := m) hgn (ks := ks ++ [n]) (by simp)
  have hz := h.isZarr (h.group_above hp)
  refine ⟨?_, ?_, ?_, fun hm hT => ?_⟩
  · rintro ⟨A, hA⟩
    unfold S3PyGroup.requireGroup
    have hg := h.group _ _ hA
    rw [hA] at hc
    rw [List.append_assoc] at hg
    refine hc.bind (m := 6) ?_
    simp only [Option.isSome_some, if_true]
    refine (hg.isSubGroup hgn (by simp) hksn (m := m) hz).bind_lift (r := .ok _) ?_
    rw [List.append_assoc, ← hres]
    rfl
  · rintro ⟨x, hx⟩
    unfold S3PyGroup.requireGroup
    have ha := h.array _ _ hx
    rw [hx] at hc
    rw [List.append_assoc] at ha
    refine hc.bind (m := 6) ?_
    simp only [Option.isSome_some, if_true]
    exact (ha.isSubGroup hL hgn (by simp) hksn (m := m) hz).bind_lift (r := .throw .typeError) rfl
  · rintro rfl hT
    unfold S3PyGroup.requireGroup
    rw [hT] at hc
    refine hc.bind_lift (r := .throw .invalidArgument) ?_
    simp only [Option.isSome_none, Bool.false_eq_true, if_false]
    rw [if_pos mode_read]
  · obtain ⟨b', h1, h2, _⟩ := h.newGroup (m := m) hp hT hn hm
    refine ⟨b', ?_, h2⟩
    unfold S3PyGroup.requireGroup
    rw [hT] at hc
    refine hc.bind (m := 7) ?_
    simp only [Option.isSome_none, Bool.false_eq_true, if_false]
    rw [if_neg (mode_write hm)]
    refine h1.bind_lift (r := .ok _) ?_
    rw [hres, List.append_assoc]
    rfl

theorem Inv.requireGroup_ok (hL : L.Lawful) (h : C.Inv L T os b) {g ks : Path} {n : String} {m : FileMode} {g' : S3PyGroup}
    {es : List Event} {w : World} (hes : ∀ e ∈ es, e.Reliable)
    (hp : T.IsGroup (g ++ ks)) (hn : NodeName n)
    (hc : (C.group g m).requireGroup (Path.text (ks ++ [n])) ⟨es, b⟩ = (some (.ok g'), w)) :
    g' = C.group (g ++ ks ++ [n]) m ∧ w.events <:+ es ∧
      (T (g ++ ks ++ [n]) = none ∧ C.Inv L (T.put (g ++ ks ++ [n]) (.group fun _ => none)) os w.bucket ∨
      T.IsGroup (g ++ ks ++ [n]) ∧ w.bucket = b) := by
  obtain ⟨r1, r2, r3, r4⟩ := h.requireGroup hL m hp hn
  cases e : T (g ++ ks ++ [n]) with
  | none =>
    by_cases hm : m = .r
    · obtain ⟨e1, _⟩ := (r3 hm e).rest hes hc
      cases e1
    · obtain ⟨b', h1, h2⟩ := r4 hm e
      obtain ⟨e1, e2, e3⟩ := h1.rest hes hc
      cases e1
      exact ⟨rfl, e3, .inl ⟨rfl, by rw [e2]; exact h2⟩⟩
  | some x =>
    cases x with
    | array x =>
      obtain ⟨e1, _⟩ := (r2 ⟨x, e⟩).rest hes hc
      cases e1
    | group A =>
      obtain ⟨e1, e2, e3⟩ := (r1 ⟨A, e⟩).rest hes hc
      cases e1
      exact ⟨rfl, e3, .inr ⟨⟨A, e⟩, e2⟩⟩

theorem text_one (n : String) : Path.text [n] = n.toList := rfl

theorem fill_keep (T : Tree Ty) (p q : Path) (hq : T q ≠ none) : fill T p q = T q := by
  unfold fill
  rw [if_neg]
  rintro ⟨_, h2⟩
  cases e : T q with
  | none => exact hq e
  | some _ => rw [e] at h2; cases h2

theorem fill_put {n : String} {g ks : Path} (e : T (g ++ [n]) = none) :
    fill (T.put (g ++ [n]) (.group fun _ => none)) (g ++ [n] ++ ks) = fill T (g ++ [n] ++ ks) := by
  funext q
  unfold fill
  by_cases hq : q = g ++ [n]
  · subst hq
    rw [put_self, e, if_neg (by simp), if_pos ⟨List.prefix_append _ _, rfl⟩]
  · rw [put_other _ _ hq]

theorem Inv.requireGroups (hL : L.Lawful) : ∀ {ks : Path} {g : Path} {T : Tree Ty} {b : Bucket} {m : FileMode} {g' : S3PyGroup}
    {es : List Event} {w : World}, (∀ e ∈ es, e.Reliable) → C.Inv L T os b → T.IsGroup g → (∀ n ∈ ks, NodeName n) →
    (C.group g m).requireGroups (ks.map String.toList) ⟨es, b⟩ = (some (.ok g'), w) →
    g' = C.group (g ++ ks) m ∧ w.events <:+ es ∧ C.Inv L (fill T (g ++ ks)) os w.bucket ∧ (fill T (g ++ ks)).IsGroup (g ++ ks)
  | [], g, T, b, m, g', es, w, _, h, hg, _, hc => by
    cases hc
    rw [List.append_nil, h.fill_group hg]
    exact ⟨rfl, List.suffix_rfl, h, hg⟩
  | n :: ks, g, T, b, m, g', es, w, hes, h, hg, hn, hc => by
    rw [List.map_cons] at hc
    unfold S3PyGroup.requireGroups at hc
    obtain ⟨g1, w1, h1, h2⟩ := S3M.bind_ok hc
    have h1 : (C.group g m).requireGroup (Path.text ([] ++ [n])) ⟨es, b⟩ = (some (.ok g1), w1) := h1
    obtain ⟨rfl, hs, e⟩ := h.requireGroup_ok hL hes (ks := []) (by rw [List.append_nil]; exact hg) (hn n (by simp)) h1
    rw [List.append_nil] at e h2
    have hl : g ++ n :: ks = g ++ [n] ++ ks := by simp
    rw [hl]
    have hes1 : ∀ e ∈ w1.events, e.Reliable := fun e he => hes e (hs.subset he)
    rcases e with ⟨e, hi⟩ | ⟨e, hb⟩
    · obtain ⟨i1, i2, i3, i4⟩ := hi.requireGroups hL hes1 ⟨_, put_self _ _ _⟩ (fun k hk => hn k (List.mem_cons_of_mem _ hk)) h2
      rw [fill_put e] at i3 i4
      exact ⟨i1, i2.trans hs, i3, i4⟩
    · obtain ⟨es1, b1⟩ := w1
      cases hb
      obtain ⟨i1, i2, i3, i4⟩ := h.requireGroups hL hes1 e (fun k hk => hn k (List.mem_cons_of_mem _ hk)) h2
      exact ⟨i1, i2.trans hs, i3, i4⟩

/-! ### Arrays -/

/-- a new array in a group -/
theorem Inv.newArray (hL : L.Lawful) (h : C.Inv L T os b) {g ks : Path} {n : String} {m : FileMode} {a : PyCreateArgs}
    {x : ArrayItem Ty} {o : S3DatasetObj} {es : List Event} {w : World} (hes : ∀ e ∈ es, e.Reliable) (hp : T.IsGroup (g ++ ks))
    (hn : NodeName n) (hT : T (g ++ ks ++ [n]) = none) (hx : a.Asks C.layout x)
    (hc : (C.group g m).newDataset (Path.text (ks ++ [n])) a ⟨es, b⟩ = (some (.ok o), w)) :
    C.Inv L (T.put (g ++ ks ++ [n]) (.array x)) ((g ++ ks ++ [n], o) :: os) w.bucket ∧ o.obj.handle.mode = m ∧
    o.obj.info.dtype = x.dtype ∧ o.obj.info.shape = x.shape ∧ o.obj.info.chunkShape = x.chunks := by
  obtain ⟨hgn, hksn⟩ := h.names_of hp hn
  obtain ⟨_, ⟨d, j, hnew⟩, h1, h2, h3, h4, ha⟩ := newArray_at (os := os) hL hes hgn (ks := ks ++ [n]) (by simp)
    (h.isZarr (h.group_above hp)) hx hc fun o' ho => by
      obtain ⟨y, hy⟩ := h.objects _ _ ho
      rw [← List.append_assoc, hT] at hy
      cases hy
  rw [← List.append_assoc g] at ha hnew
  have hnn : ∀ x ∈ g ++ ks ++ [n], NodeName x := by
    rw [List.append_assoc]
    exact append_named hgn hksn
  refine ⟨h.putNew hp hT hn (by rw [hnew.eq]; exact put_wf h.wf) (fun k hk => ?_) (fun A e => by cases e) (fun y e => ?_)
    (fun q o' ho => ?_) (fun A e => by cases e), h1, h2, h3, h4⟩
  · rw [hnew.eq]
    refine get_put_ne ?_
    rintro rfl
    rw [← dirPrefix_key hnn] at hk
    exact hk (dirPrefix_docKey _ _)
  · cases e
    exact .inl ha
  · rcases List.mem_cons.1 ho with e | e
    · cases e; exact .inl rfl
    · exact .inr e

theorem Inv.createArray (hL : L.Lawful) (h : C.Inv L T os b) {g key : Path} {m : FileMode} {a : PyCreateArgs}
    {x : ArrayItem Ty} {o : S3DatasetObj} {es : List Event} {w : World} (hes : ∀ e ∈ es, e.Reliable) (hg : T.IsGroup g)
    (hk : key ≠ []) (hn : ∀ n ∈ key, NodeName n) (hx : a.Asks C.layout x)
    (hc : (C.group g m).createDataset key.text a ⟨es, b⟩ = (some (.ok o), w)) :
    C.Inv L (T.add (g ++ key) (.array x)) ((g ++ key, o) :: os) w.bucket ∧ o.obj.handle.mode = m ∧ o.obj.info.dtype = x.dtype ∧
    o.obj.info.shape = x.shape ∧ o.obj.info.chunkShape = x.chunks := by
  classical
  have hgn := h.named (isGroup_ne hg)
  have hs : Spells key.text key := ⟨hk, hn, 0, rfl⟩
  have hstrip := hs.strip
  unfold S3PyGroup.createDataset at hc
  rw [hstrip, pySplit_text hk hn] at hc
  split at hc
  · cases hc
  have hhas := has_does (C.group g m).handle key.text b
  have hj : joinKey (C.group g m).handle.name key.text = C.key (g ++ key) := joinKey_key hgn hk
  rw [hj] at hhas
  have hcon : ((C.group g m).contains key.text).Does 2 b (.ok (decide (b.HasNode (C.key (g ++ key))))) b := by
    unfold S3PyGroup.contains
    rw [hstrip]
    exact hhas
  obtain ⟨t, es1, e1, hs1, hc⟩ := hcon.step hes hc
  have hes1 : ∀ e ∈ es1, e.Reliable := fun e he => hes e (hs1.subset he)
  cases t with
  | true => cases hc
  | false =>
    have hT : T (g ++ key) = none := Classical.byContradiction fun e => by
      have := of_decide_eq_false (Res.ok.inj e1)
      exact this ((hasNode_iff (append_named hgn hn) (by simp [hk])).2 (.inr (h.exists_ hL e)))
    simp only [Bool.false_eq_true, if_false, List.length_map] at hc
    obtain ⟨ks, n, rfl⟩ : ∃ ks n, key = ks ++ [n] := by
      rcases last_cases key with e | e
      · exact absurd e hk
      · exact e
    by_cases hl : (ks ++ [n]).length > 1
    · rw [if_pos hl] at hc
      obtain ⟨g', w2, h3, h4⟩ := S3M.bind_ok hc
      rw [List.map_append, List.map_cons, List.map_nil, List.dropLast_concat] at h3
      obtain ⟨rfl, hs2, i2, i3⟩ := h.requireGroups hL hes1 hg (fun k hk => hn k (List.mem_append_left _ hk)) h3
      have hes2 : ∀ e ∈ w2.events, e.Reliable := fun e he => hes1 e (hs2.subset he)
      split at h4
      · cases h4
      rw [List.map_append, List.map_cons, List.map_nil, List.getLast?_concat] at h4
      have hi3 : (fill T (g ++ ks)).IsGroup (g ++ ks ++ []) := by rw [List.append_nil]; exact i3
      have hc2 := i2.contains_in hL (m := m) (n := n) hi3 (hn n (by simp))
      rw [List.append_nil] at hc2
      obtain ⟨t2, es3, e3, hs3, h5⟩ := hc2.step hes2 h4
      have hes3 : ∀ e ∈ es3, e.Reliable := fun e he => hes2 e (hs3.subset he)
      cases t2 with
      | true => cases h5
      | false =>
        have hT' : fill T (g ++ ks) (g ++ ks ++ [] ++ [n]) = none := by
          rw [List.append_nil]
          cases e : fill T (g ++ ks) (g ++ ks ++ [n]) with
          | none => rfl
          | some y => rw [e] at e3; cases e3
        obtain ⟨j1, j2, j3, j4, j5⟩ := i2.newArray hL hes3 hi3 (hn n (by simp)) hT' hx h5
        rw [List.append_nil, put_fill, List.append_assoc] at j1
        exact ⟨j1, j2, j3, j4, j5⟩
    · rw [if_neg hl] at hc
      have hks : ks = [] := List.eq_nil_of_length_eq_zero (by
        simp only [List.length_append, List.length_cons, List.length_nil] at hl
        omega)
      subst hks
      have hg' : T.IsGroup (g ++ []) := by rw [List.append_nil]; exact hg
      have hT' : T (g ++ [] ++ [n]) = none := by rw [List.append_assoc]; exact hT
      obtain ⟨j1, j2, j3, j4, j5⟩ := h.newArray hL hes1 hg' (hn n (by simp)) hT' hx hc
      rw [List.append_nil] at j1
      refine ⟨?_, j2, j3, j4, j5⟩
      show C.Inv L (T.add (g ++ [n]) _) _ _
      rw [h.add_eq hg]
      exact j1

theorem Inv.has_in (hL : L.Lawful) (h : C.Inv L T os b) {g ks : Path} {n : String} (m : FileMode)
    (hp : T.IsGroup (g ++ ks)) (hn : NodeName n) :
    ((C.group g m).handle.has (Path.text (ks ++ [n]))).Does 2 b (.ok (T (g ++ ks ++ [n])).isSome) b := by
  have := h.contains_in hL m hp hn
  unfold S3PyGroup.contains at this
  rwa [(h.spells hp hn).strip] at this

theorem Inv.requireArray (hL : L.Lawful) (h : C.Inv L T os b) {g ks : Path} {n : String} {m : FileMode} {a : PyCreateArgs}
    {x : ArrayItem Ty} {o : S3DatasetObj} {es : List Event} {w : World} (hes : ∀ e ∈ es, e.Reliable) (hp : T.IsGroup (g ++ ks))
    (hn : NodeName n) (hT : T (g ++ ks ++ [n]) = none) (hx : a.Asks C.layout x)
    (hc : (C.group g m).requireDataset (Path.text (ks ++ [n])) a ⟨es, b⟩ = (some (.ok o), w)) :
    C.Inv L (T.put (g ++ ks ++ [n]) (.array x)) ((g ++ ks ++ [n], o) :: os) w.bucket ∧ o.obj.handle.mode = m ∧
    o.obj.info.dtype = x.dtype ∧ o.obj.info.shape = x.shape ∧ o.obj.info.chunkShape = x.chunks := by
  unfold S3PyGroup.requireDataset at hc
  obtain ⟨t, es1, e1, hs1, hc⟩ := (h.has_in hL m hp hn).step hes hc
  rw [hT] at e1
  cases e1
  simp only [Option.isSome_none, Bool.false_eq_true, if_false] at hc
  split at hc
  · cases hc
  exact h.newArray hL (fun e he => hes e (hs1.subset he)) hp hn hT hx hc

theorem Inv.add_object (h : C.Inv L T os b) {o : S3DatasetObj} {x : ArrayItem Ty} (hx : T p = some (.array x))
    (ha : C.ArrayAt L ((p, o) :: os) b p x) : C.Inv L T ((p, o) :: os) b := by
  refine h.objs (fun q y hq => ?_) (fun q o' ho => ?_)
  · by_cases e : q = p
    · subst e
      rw [hx] at hq
      cases hq
      exact ha
    · exact (h.array q y hq).mono fun o' ho' => by
        rcases List.mem_cons.1 ho' with e' | e'
        · cases e'; exact absurd rfl e
        · exact e'
  · rcases List.mem_cons.1 ho with e | e
    · cases e; exact ⟨x, hx⟩
    · exact h.objects q o' e

/-- `group[name]` -/
theorem Inv.item (hL : L.Lawful) (h : C.Inv L T os b) {g : Path} {n : Key} (m : FileMode) (hg : T.IsGroup g)
    (hs : Spells n p) (hc : T.Clear (g ++ p)) :
    (T (g ++ p) = none → ((C.group g m).item n).Does 2 b (.throw .keyError) b) ∧
    (T.IsGroup (g ++ p) → ((C.group g m).item n).Does 8 b (.ok (.inl (C.group (g ++ p) m))) b) ∧
    (∀ x, T (g ++ p) = some (.array x) → ∃ o, ((C.group g m).item n).Does 18 b (.ok (.inr o)) b ∧ o.obj.handle.mode = m ∧
      o.obj.info.dtype = x.dtype ∧ o.obj.info.shape = x.shape ∧ o.obj.info.chunkShape = x.chunks ∧ o.name = C.key (g ++ p) ∧
      C.Inv L T ((g ++ p, o) :: os) b) := by
  have hgn := h.named (isGroup_ne hg)
  have hz := h.isZarr hg
  have hcn := h.contains hL (m := m) hg hs hc
  unfold S3PyGroup.contains at hcn
  unfold S3PyGroup.item S3PyGroup.getItem
  rw [hs.strip] at hcn ⊢
  refine ⟨fun hT => ?_, ?_, fun x hx => ?_⟩
  · rw [hT] at hcn
    exact hcn.bind_lift (r := .throw .keyError) rfl
  · rintro ⟨A, hA⟩
    rw [hA] at hcn
    refine hcn.bind (m := 6) ?_
    simp only [Option.isSome_some, Bool.not_true, Bool.false_eq_true, if_false]
    refine ((h.group _ _ hA).isSubGroup hgn hs.1 hs.2.1 (m := m) hz).bind_lift (r := .ok _) ?_
    rw [child_group hgn hs.1]
    rfl
  · have ha := h.array _ _ hx
    obtain ⟨o, h1, h2, h3, h4, h5, h6⟩ := ha.opened hL hgn hs.1 (m := m) hz
    have hname : o.name = C.key (g ++ p) := (h6.refers hL (by simp)).2
    refine ⟨o, ?_, h2, h3, h4, h5, hname, h.add_object hx h6⟩
    rw [hx] at hcn
    refine hcn.bind (m := 16) ?_
    simp only [Option.isSome_some, Bool.not_true, Bool.false_eq_true, if_false]
    refine (ha.isSubGroup hL hgn hs.1 hs.2.1 (m := m) hz).bind (m := 10) ?_
    rw [if_neg (by decide)]
    exact h1.bind_lift (r := .ok _) rfl

/-- `del group[name]` -/
theorem Inv.deleted (hL : L.Lawful) (h : C.Inv L T os b) {g : Path} {n : Key} {m : FileMode} {es : List Event} {w : World}
    (hes : ∀ e ∈ es, e.Reliable ∧ e.failed = []) (hg : T.IsGroup g) (hs : Spells n p) (hc : T.Clear (g ++ p))
    (hd : (C.group g m).delItem n L Ty ⟨es, b⟩ = (some (.ok ()), w)) :
    T (g ++ p) ≠ none ∧ (∀ k, w.bucket.get k = if dirPrefix (C.key (g ++ p)) <+: k then none else b.get k) ∧
    C.Inv L (T.prune (g ++ p)) (os.filter fun e => ¬ g ++ p <+: e.1) w.bucket := by
  have hr : ∀ e ∈ es, e.Reliable := fun e he => (hes e he).1
  have hgn := h.named (isGroup_ne hg)
  have hz := h.isZarr hg
  have hj : joinKey (C.group g m).handle.name p.text = C.key (g ++ p) := joinKey_key hgn hs.1
  unfold S3PyGroup.delItem at hd
  split at hd
  · cases hd
  obtain ⟨t, es1, e1, hs1, hd⟩ := (h.contains hL (m := m) hg hs hc).step hr hd
  have hes1 : ∀ e ∈ es1, e.Reliable ∧ e.failed = [] := fun e he => hes e (hs1.subset he)
  have hr1 : ∀ e ∈ es1, e.Reliable := fun e he => (hes1 e he).1
  cases t with
  | false => cases hd
  | true =>
    have hne : T (g ++ p) ≠ none := by
      intro e
      rw [e] at e1
      cases e1
    rw [if_neg (by decide), hs.strip] at hd
    have key : w.bucket.WF ∧ ∀ k, w.bucket.get k = if dirPrefix (C.key (g ++ p)) <+: k then none else b.get k := by
      cases e : T (g ++ p) with
      | none => exact absurd e hne
      | some x =>
        cases x with
        | group A =>
          obtain ⟨t, es2, e2, hs2, hd⟩ := ((h.group _ _ e).isSubGroup hgn hs.1 hs.2.1 (m := m) hz).step hr1 hd
          cases e2
          rw [if_pos rfl] at hd
          have := remove_gone (fun e he => hes1 e (hs2.subset he)) h.wf hd
          rw [← hj]
          exact this
        | array x =>
          obtain ⟨t, es2, e2, hs2, hd⟩ := ((h.array _ _ e).isSubGroup hL hgn hs.1 hs.2.1 (m := m) hz).step hr1 hd
          cases e2
          rw [if_neg (by decide)] at hd
          obtain ⟨o, h1, _, _, _, _, hname, _⟩ := (h.item hL m hg hs hc).2.2 x e
          obtain ⟨t, es3, e3, hs3, hd⟩ := h1.step (fun e he => hr1 e (hs2.subset he)) hd
          cases e3
          rw [← hname]
          exact removeDataset_gone (fun e he => hes1 e (hs2.subset (hs3.subset he))) h.wf hd
    exact ⟨hne, key.2, h.prune (by simp [hs.1]) hne key.1 key.2⟩

theorem change_mode {t : S3Target} {op : AttrOp} {w w' : World} (h : t.change op w = (some (.ok ()), w')) : t.mode ≠ .r := by
  intro hm
  rw [c56_readonly (by rw [hm]; rfl)] at h
  cases h

theorem Inv.wrote (hL : L.Lawful) (h : C.Inv L T os b) {o : S3DatasetObj} {x : ArrayItem Ty} {d : AnyDataset (Ty.elem x.dtype)}
    {w : Write (Ty.elem x.dtype).T} (ho : (p, o) ∈ os) (hx : T p = some (.array x)) (hm : o.obj.handle.mode ≠ .r)
    (hd : o.typed L (Ty.cast x.dtype) = .ok d) (hp : d.PerformsS3 (C.key p) w b b') :
    C.Inv L (T.put p (.array { x with content := override x.content w.off w.shape w.val })) os b' := by
  obtain ⟨h1, h2⟩ := (h.array p x hx).wrote hL ho hm hd hp
  exact h.putArray hx (performsS3_wf hp h.wf) h2 h1

theorem Inv.arrayAttrs (hL : L.Lawful) (h : C.Inv L T os b) {o : S3DatasetObj} {x : ArrayItem Ty} {op : AttrOp} (ho : (p, o) ∈ os)
    (hx : T p = some (.array x)) (hv : op.Valid) (hm : o.obj.handle.mode ≠ .r) :
    ∃ b', ((S3Target.dataset ⟨o.name, o.obj.handle⟩).change op).Does 11 b (.ok ()) b' ∧
      C.Inv L (T.put p (.array { x with attrs := op.apply x.attrs })) os b' := by
  obtain ⟨b', h1, h2, h3, h4⟩ := (h.array p x hx).change hL ho hm hv
  exact ⟨b', h1, h.putArray hx (h2 h.wf) h3 h4⟩

theorem Inv.groupAttrs (h : C.Inv L T os b) {g : Path} {m : FileMode} {A : AttrMap} {op : AttrOp}
    (hg : T g = some (.group A)) (hv : op.Valid) (hm : m ≠ .r) :
    ∃ b', ((C.attrsOf g m).change op).Does 11 b (.ok ()) b' ∧ C.Inv L (T.put g (.group (op.apply A))) os b' := by
  obtain ⟨b', h1, h2, h3, h4⟩ := (h.group g A hg).change hm hv
  exact ⟨b', h1, h.putGroup hg (h2 h.wf) h3 h4⟩

/-! ### Containers of other programs -/

theorem isDocument_docKey (name : Key) {n : String} (h : n ∈ documentFiles) : RawBucket.IsDocument (docKey name n) := by
  unfold docKey joinKey
  split
  · exact ⟨n, h, .inl rfl⟩
  · exact ⟨n, h, .inr ⟨name, rfl⟩⟩

theorem view_none {R : RawBucket} {k : Key} : R.view.get k = none ↔ R.content k = none := by
  rw [RawBucket.view_get]
  cases R.content k <;> simp

theorem s3_docAt_doc {k : Key} {j : Json} (h : b.get k = some (.doc j)) : b.docAt k = some j := by
  unfold Bucket.docAt
  rw [h]

theorem hasText_isObject {R : RawBucket} {q : Key} {j : Json} (h : R.HasText q j) {k : String} {v : Json} (hf : j.find k = some v) :
    j.IsObject := by
  obtain ⟨bom, t, _, ⟨_, w, _, _, hw, _⟩, _⟩ := h
  have hpl := JsonText.plain_of_denotes rfl hw
  cases j with
  | obj l => exact ⟨l, rfl, hpl.1⟩
  | _ => cases hf

theorem hasAttributes_node {R : RawBucket} {name : Key} {La : Layout} {A : AttrMap} (h : R.HasAttributes name La A)
    (h2 : La = .v2 → R.content (docKey name "zarr.json") = none)
    (h3 : La = .v3 → ∃ j k v, R.HasText (docKey name "zarr.json") j ∧ j.find k = some v) :
    R.view.Node name La ∧ R.view.attributes name La = A ∧ R.view.get (docKey name La.file) ≠ some (.file []) := by
  have hplain : ∀ La : Layout, La ≠ .v3 → ((R.content (docKey name La.file) = none ∧ A = fun _ => none) ∨
      ∃ j, R.HasText (docKey name La.file) j ∧ j.IsObject ∧ A = j.find) →
      (R.view.get (docKey name La.file) = none ∨ ∃ j, R.view.docAt (docKey name La.file) = some j ∧ j.IsObject) ∧
      R.view.attributes name La = A ∧ R.view.get (docKey name La.file) ≠ some (.file []) := by
    intro La hLa h
    have ha : R.view.attributes name La = fun k => (R.view.docAt (docKey name La.file)).bind (·.find k) := by
      cases La <;> first | rfl | exact absurd rfl hLa
    rw [ha]
    rcases h with ⟨e1, rfl⟩ | ⟨j, e1, e2, rfl⟩
    · have := view_none.2 e1
      refine ⟨.inl this, ?_, by rw [this]; exact fun e => by cases e⟩
      rw [s3_docAt_none this]
      rfl
    · have := e1.view (isDocument_docKey name (Container.file_mem La))
      refine ⟨.inr ⟨j, s3_docAt_doc this, e2⟩, ?_, by rw [this]; exact fun e => by cases e⟩
      rw [s3_docAt_doc this]
      rfl
  cases La with
  | v2 =>
    obtain ⟨e1, e2⟩ := hplain .v2 (fun e => by cases e) h
    exact ⟨⟨e1, (fun e => by cases e), fun _ => view_none.2 (h2 rfl)⟩, e2⟩
  | n5 =>
    obtain ⟨e1, e2⟩ := hplain .n5 (fun e => by cases e) h
    exact ⟨⟨e1, (fun e => by cases e), (fun e => by cases e)⟩, e2⟩
  | v3 =>
    obtain ⟨j, hj, hA⟩ := h
    obtain ⟨j', k, v, hj', hf⟩ := h3 rfl
    have e1 := hj.view (isDocument_docKey name (by decide))
    have e2 := hj'.view (isDocument_docKey name (by decide))
    rw [e1] at e2
    cases e2
    have ho := hasText_isObject hj hf
    refine ⟨⟨.inr ⟨j, s3_docAt_doc e1, ho⟩, fun _ => ⟨j, s3_docAt_doc e1, ho, fun b hb => ?_⟩, (fun e => by cases e)⟩, ?_, ?_⟩
    · rcases hA with ⟨e, _⟩ | ⟨b', e, hb', _⟩
      · rw [e] at hb; cases hb
      · rw [e] at hb; cases hb; exact hb'
    · funext k
      unfold Bucket.attributes
      simp only
      rw [s3_docAt_doc e1, Option.bind_some]
      rcases hA with ⟨e, rfl⟩ | ⟨b', e, hb', rfl⟩
      · rw [e]; rfl
      · rw [e]; rfl
    · show R.view.get (docKey name "zarr.json") ≠ _
      rw [e1]
      exact fun e => by cases e

/-- a group of another program -/
theorem foundGroup {R : RawBucket} {A : AttrMap} (hC : C.Ok) (h : R.SaysGroup (C.key p) C.layout)
    (hA : R.HasAttributes (C.key p) C.layout A) : C.GroupAt R.view p A := by
  obtain ⟨h1, h2, h3⟩ := hasAttributes_node hA (fun e => by rw [e] at h; exact h.1)
    (fun e => by rw [e] at h; obtain ⟨j, hj, hf, _⟩ := h; exact ⟨j, _, _, hj, hf⟩)
  refine ⟨h1, ?_, h2, h3⟩
  unfold GroupKind
  cases e : C.layout with
  | v2 =>
    rw [e] at h
    obtain ⟨_, j, hj, hf⟩ := h
    have hf' : C.format = 2 := by
      rcases hC with e' | e'
      · exact e'
      · unfold layout Layout.of at e; rw [e'] at e; cases e
    exact ⟨j, hj.view (isDocument_docKey _ (by decide)), by rw [hf']; exact hf⟩
  | v3 =>
    rw [e] at h
    obtain ⟨j, hj, hf, hn⟩ := h
    have := s3_docAt_doc (hj.view (isDocument_docKey _ (by decide)))
    simp only
    rw [this]
    exact ⟨hn, hf⟩
  | n5 =>
    rw [e] at h
    exact h

/-- an array of another program -/
theorem foundArray {R : RawBucket} {x : ArrayItem Ty} {a : ArrayDesc} (hx : x.IsDescribed a C.layout) (hc : x.dtype.isComplex = false)
    (h : R.HoldsArray (C.key p) C.layout a (Ty.elem x.dtype) (L.codec (Ty.elem x.dtype).size a.compression) x.fill x.content)
    (hn : R.NoGroup (C.key p) C.layout) (hA : R.HasAttributes (C.key p) C.layout x.attrs) : C.ArrayFound L [] R.view p x := by
  obtain ⟨j, hj, hsay⟩ := h.document
  have hdk : ∀ n, docKey (C.key p) n = C.key p ++ '/' :: n.toList := docKey_named h.named
  rw [← hdk] at hj
  obtain ⟨h1, h2, h3⟩ := hasAttributes_node hA
    (fun e => by rw [hdk]; exact h.others "zarr.json" (by simp) (by rw [e]; decide))
    (fun e => by rw [e] at hj hsay; exact ⟨j, _, _, hj, ZarrV3.Describes.node hsay⟩)
  refine ⟨R.view, a, x.content, [], [], hx, hc, h.view hx.supported, h1, .start, rfl, h2, h3, ?_, fun o ho => by cases ho⟩
  have hv := hj.view (isDocument_docKey _ (ArrayDesc.datasetFile_mem C.layout))
  cases e : C.layout with
  | v2 =>
    rw [e] at hn
    have : R.content (docKey (C.key p) ".zgroup") = none := by rw [hdk]; exact hn
    exact view_none.2 this
  | v3 =>
    rw [e] at hv hsay
    have hv : R.view.get (docKey (C.key p) "zarr.json") = some (.doc j) := hv
    unfold Bucket.NotGroup
    simp only
    rw [s3_docAt_doc hv]
    exact ZarrV3.Describes.node hsay
  | n5 =>
    have := layout_isZarr (C := C)
    rw [e] at this
    cases this

theorem named_of (hc : ∀ p n, T (p ++ [n]) ≠ none → T.IsGroup p) (hn : ∀ p n, T (p ++ [n]) ≠ none → NodeName n) :
    ∀ (k : Nat) (p : Path), p.length ≤ k → T p ≠ none → ∀ n ∈ p, NodeName n
  | 0, p, hk, _ => by
    have : p = [] := List.eq_nil_of_length_eq_zero (by omega)
    subst this
    exact fun _ h => by cases h
  | k + 1, p, hk, hp => by
    rcases last_cases p with rfl | ⟨r, n, rfl⟩
    · exact fun _ h => by cases h
    · obtain ⟨A, hA⟩ := hc r n hp
      have ih := named_of hc hn k r (by simp at hk; omega) (by rw [hA]; exact fun e => by cases e)
      intro m hm
      rcases List.mem_append.1 hm with h | h
      · exact ih m h
      · rw [List.mem_singleton.1 h]; exact hn r n hp

theorem found_inv {R : RawBucket} (h : R.HoldsContainer C L T) (hC : C.Ok) : C.Inv L T [] R.view where
  wf := by
    unfold Bucket.WF RawBucket.view
    rw [List.pairwise_map]
    exact h.ordered
  group p A hp := foundGroup hC (h.group p A hp).1 (h.group p A hp).2
  array p x hp := by
    obtain ⟨hc, a, h1, h2, h3, h4⟩ := h.array p x hp
    exact .inr (foundArray h1 hc h2 h3 h4)
  top := h.root
  closed := h.closed
  names := h.names
  known p hp r hr := by
    have hnm := named_of h.closed h.names _ p (Nat.le_refl _) (isGroup_ne hp)
    rw [← dirPrefix_key hnm, mem_keys] at hr
    rcases h.nothing p r hp (fun e => by rw [view_none.2 e] at hr; cases hr) with ⟨n, hn, e⟩ | e
    · refine .inl ⟨n, ?_, e⟩
      simp only [documentFiles, List.mem_cons, List.not_mem_nil, or_false] at hn
      unfold MetaName
      rcases hn with h | h | h | h | h <;> simp [h]
    · exact .inr e
  objects p o h := by cases h

/-- Every history keeps the invariant. -/
theorem inv_of_history (hL : L.Lawful) (h : S3History C L Ty T os b) : C.Inv L T os b := by
  induction h with
  | start hb hes hn hf hs h => exact (start_facts hb hes hn hf hs h).2
  | found h hC => exact found_inv h hC
  | @createGroup T os b es g ks n m g' w _ hes hp hn hc ih =>
    rw [ih.add_eq hp]
    obtain ⟨r1, r2, r3⟩ := ih.createGroup hL m hp hn
    by_cases hm : m = .r
    · obtain ⟨e, _⟩ := (r1 hm).rest hes hc
      cases e
    · by_cases hT : T (g ++ ks ++ [n]) = none
      · obtain ⟨b', h1, h2⟩ := r3 hm hT
        obtain ⟨_, e, _⟩ := h1.rest hes hc
        rw [e]
        exact h2
      · obtain ⟨e, _⟩ := (r2 hm hT).rest hes hc
        cases e
  | requireGroup _ hes hp hn hT hc ih =>
    rw [ih.add_eq hp]
    obtain ⟨_, _, ⟨_, e⟩ | ⟨⟨A, e⟩, _⟩⟩ := ih.requireGroup_ok hL hes hp hn hc
    · exact e
    · rw [hT] at e; cases e
  | createArray _ hes hg hk hn hx hc ih => exact (ih.createArray hL hes hg hk hn hx hc).1
  | requireArray _ hes hp hn hT hx hc ih => rw [ih.add_eq hp]; exact (ih.requireArray hL hes hp hn hT hx hc).1
  | @opened T os b es g p n m x o w _ hes hg hs hx hc ih =>
    obtain ⟨o', h1, _, _, _, _, _, h2⟩ := (ih.item hL m hg hs (ih.clear_of_some (by rw [hx]; exact fun e => by cases e))).2.2 x hx
    obtain ⟨e1, e2, _⟩ := h1.rest hes hc
    cases e1
    rw [e2]
    exact h2
  | closed _ ho ih => exact ih.objs (fun p x hx => (ih.array p x hx).mono fun o e => ho _ e) fun p o e => ih.objects p o (ho _ e)
  | deleted _ hes hg hs hc hd ih => exact (ih.deleted hL hes hg hs hc hd).2.2
  | wrote _ ho hx hm hd hp ih => exact ih.wrote hL ho hx hm hd hp
  | arrayAttrs _ hes ho hx hv hc ih =>
    obtain ⟨b', h1, h2⟩ := ih.arrayAttrs hL ho hx hv (change_mode hc)
    obtain ⟨_, e, _⟩ := h1.rest hes hc
    rw [e]
    exact h2
  | groupAttrs _ hes hg hv hc ih =>
    have := change_mode hc
    rw [attrsOf_mode] at this
    obtain ⟨b', h1, h2⟩ := ih.groupAttrs hg hv this
    obtain ⟨_, e, _⟩ := h1.rest hes hc
    rw [e]
    exact h2
  | elsewhere _ hwf he ih => exact ih.elsewhere hwf he

end S3Container

end Z5
