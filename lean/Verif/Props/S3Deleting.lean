import Verif.Props.S3Crash

/-!
# C94: deleting from a container on S3 that fails or is interrupted
-/

namespace Z5.Props
open Spec Prog S3Container

variable {Ty : ElemTypes} {C : S3Container} {L : Libs} {T : Tree Ty} {os : List (Path × S3DatasetObj)} {b : Bucket}

/-- objects are only removed -/
theorem remove_only {h : S3Handle} {es : List Event} {b : Bucket} (hes : ∀ e ∈ es, e.Reliable) (k : Key) :
    (h.remove ⟨es, b⟩).2.bucket.get k = b.get k ∨ (h.remove ⟨es, b⟩).2.bucket.get k = none := by
  have hc : ∀ e ∈ es, ∀ c : Bucket, (c.get k = b.get k ∨ c.get k = none) → ((e.change c).get k = b.get k ∨ (e.change c).get k = none) :=
    fun e he c hb => by rw [(hes e he).1]; exact hb
  have : (h.remove).Keeps es fun c => c.get k = b.get k ∨ c.get k = none := by
    unfold S3Handle.remove
    split
    · exact .lift _ _ _
    · refine (listAllKeys_keeps hc).bind fun _ => deleteFrom_keeps hc (fun ks _ c hb => ?_) 0
      by_cases hk : k ∈ ks
      · right
        cases e : (c.erase ks).get k with
        | none => rfl
        | some o =>
          have : k ∈ (c.erase ks).keys := mem_keys.2 (by rw [e]; rfl)
          exact absurd hk (mem_keys_erase.1 this).2
      · rw [get_erase hk]
        exact hb
  exact (this ⟨es, b⟩ List.suffix_rfl (.inl rfl)).2

/-- **C94, what is kept.**  `del group[name]`, whatever requests fail and wherever it is interrupted: objects outside the node are as
before.  Of a group, every object is as before or gone. -/
theorem c94_kept (hL : L.Lawful) (h : S3History C L Ty T os b) {g p : Path} {n : Key} {m : FileMode} (hg : T.IsGroup g)
    (hs : Spells n p) (hc : T.Clear (g ++ p)) {es : List Event} (hes : ∀ e ∈ es, e.Reliable) :
    (∀ k, ¬ dirPrefix (C.key (g ++ p)) <+: k → ((C.group g m).delItem n L Ty ⟨es, b⟩).2.bucket.get k = b.get k) ∧
    (T.IsGroup (g ++ p) → ∀ k, ((C.group g m).delItem n L Ty ⟨es, b⟩).2.bucket.get k = b.get k ∨
      ((C.group g m).delItem n L Ty ⟨es, b⟩).2.bucket.get k = none) := by
  have hI := inv_of_history hL h
  refine ⟨fun k hk => hI.delete_keeps hL hes hg hs hc hk, ?_⟩
  rintro ⟨A, hA⟩ k
  have hgn := hI.named (isGroup_ne hg)
  unfold S3PyGroup.delItem
  split
  · exact .inl rfl
  refine (hI.contains hL (m := m) hg hs hc).then_bucket (R := fun c => c.get k = b.get k ∨ c.get k = none) hes (.inl rfl) fun t ht es1 s1 => ?_
  have hes1 : ∀ e ∈ es1, e.Reliable := fun e he => hes e (s1.subset he)
  rw [hA] at ht
  cases ht
  rw [if_neg (by simp), hs.strip]
  refine ((hI.group _ _ hA).isSubGroup hgn hs.1 hs.2.1 (m := m) (hI.isZarr hg)).then_bucket
    (R := fun c => c.get k = b.get k ∨ c.get k = none) hes1 (.inl rfl) fun t ht es2 s2 => ?_
  cases ht
  rw [if_pos rfl]
  exact remove_only (fun e he => hes1 e (s2.subset he)) k

/-- the bucket after `del` -/
theorem delItem_wf (hL : L.Lawful) (h : S3History C L Ty T os b) {g p : Path} {n : Key} {m : FileMode} (hg : T.IsGroup g)
    (hs : Spells n p) (hc : T.Clear (g ++ p)) {es : List Event} (hes : ∀ e ∈ es, e.Reliable) :
    ((C.group g m).delItem n L Ty ⟨es, b⟩).2.bucket.WF := by
  have hI := inv_of_history hL h
  have hgn := hI.named (isGroup_ne hg)
  unfold S3PyGroup.delItem
  split
  · exact hI.wf
  refine (hI.contains hL (m := m) hg hs hc).then_bucket (R := fun c => c.WF) hes hI.wf fun t ht es1 s1 => ?_
  have hes1 : ∀ e ∈ es1, e.Reliable := fun e he => hes e (s1.subset he)
  cases e : T (g ++ p) with
  | none =>
    rw [e] at ht
    cases ht
    exact hI.wf
  | some y =>
    rw [e] at ht
    cases ht
    rw [if_neg (by simp), hs.strip]
    cases y with
    | group A =>
      refine ((hI.group _ _ e).isSubGroup hgn hs.1 hs.2.1 (m := m) (hI.isZarr hg)).then_bucket (R := fun c => c.WF) hes1 hI.wf
        fun t ht es2 s2 => ?_
      cases ht
      rw [if_pos rfl]
      exact remove_wf (w := ⟨es2, b⟩) (fun e he => hes1 e (s2.subset he)) hI.wf
    | array x =>
      refine ((hI.array _ _ e).isSubGroup hL hgn hs.1 hs.2.1 (m := m) (hI.isZarr hg)).then_bucket (R := fun c => c.WF) hes1 hI.wf
        fun t ht es2 s2 => ?_
      cases ht
      rw [if_neg (by decide)]
      obtain ⟨o, h1, _⟩ := (hI.item hL m hg hs hc).2.2 x e
      have hes2 : ∀ e ∈ es2, e.Reliable := fun e he => hes1 e (s2.subset he)
      refine h1.then_bucket (R := fun c => c.WF) hes2 hI.wf fun t ht es3 s3 => ?_
      cases ht
      have hes3 : ∀ e ∈ es3, e.Reliable := fun e he => hes2 e (s3.subset he)
      show (o.removeDataset L _ ⟨es3, b⟩).2.bucket.WF
      unfold S3DatasetObj.removeDataset
      refine (S3M.Does.lift (o.typed L _) b).then_bucket (R := fun c => c.WF) hes3 hI.wf fun d _ es4 h4 => ?_
      have hes4 : ∀ e ∈ es4, e.Reliable := fun e he => hes3 e (h4.subset he)
      refine (S3M.Does.lift d.removeDataset b).then_bucket (R := fun c => c.WF) hes4 hI.wf fun ts _ es5 h5 => ?_
      have hes5 : ∀ e ∈ es5, e.Reliable := fun e he => hes4 e (h5.subset he)
      obtain ⟨f1, f2, _⟩ := eachOnS3_frame o.name ts ⟨es5, b⟩
      rw [S3M.bind_eq]
      rcases hr : Prog.eachOnS3 o.name ts ⟨es5, b⟩ with ⟨r, es6, b6⟩
      rw [hr] at f1 f2
      dsimp only at f1 f2
      subst f1
      rcases r with _ | r
      · exact f2 hI.wf
      cases r with
      | ok _ => exact remove_wf (w := ⟨es6, b6⟩) hes5 (f2 hI.wf)
      | throw e => exact f2 hI.wf
      | ub => exact f2 hI.wf

/-- **C94, the other nodes.**  After a `del` that failed or was interrupted, the other groups have their attributes, and
the other arrays are read as before, through every open object. -/
theorem c94_others (hL : L.Lawful) (h : S3History C L Ty T os b) {g p : Path} {n : Key} {m : FileMode} (hg : T.IsGroup g)
    (hs : Spells n p) (hT : T (g ++ p) ≠ none) {es : List Event} (hes : ∀ e ∈ es, e.Reliable) :
    let b' := ((C.group g m).delItem n L Ty ⟨es, b⟩).2.bucket
    (∀ q A m', T q = some (.group A) → ¬ g ++ p <+: q → ∃ j, (C.attrsOf q m').read.Does 6 b' (.ok j) b' ∧ ∀ k, j.find k = A k) ∧
    ∀ q x o, T q = some (.array x) → ¬ g ++ p <+: q → (q, o) ∈ os → ∃ d A, o.typed L (Ty.cast x.dtype) = .ok d ∧
      d.base.shape = x.shape ∧ d.ReadsAsS3 (C.key q) b' A ∧
      ∀ i, InBox i x.shape → SameOrFill (Ty.elem x.dtype).ceq x.fill (A i) (x.content i) := by
  have hI := inv_of_history hL h
  have hc := hI.clear_of_some hT
  intro b'
  have hch : ∀ k, ¬ C.dir (g ++ p) <+: k → b'.get k = b.get k := fun k hk =>
    hI.delete_keeps hL hes hg hs hc (by rw [dirPrefix_key (hI.named hT)]; exact hk)
  refine ⟨fun q A m' hq hn => ?_, fun q x o hq hn ho => ?_⟩
  · have ha := hI.keep_group (hI.named hT) hch hq hn
    obtain ⟨j, h1, h2⟩ := c56_read (ha.refers m')
    refine ⟨j, h1, fun k => ?_⟩
    rw [h2, attrsOf_name, ha.attrs, attrsOf_shown]
  · refine (hI.keep_array (hI.named hT) hch hq hn (fun e' => ?_) fun o ho => ho).read hL ho
    rw [hI.leaf hq e' (fun e2 => hn (by rw [e2]; exact List.prefix_refl _))] at hT
    exact hT rfl

/-- a bucket without the node -/
theorem history_without (hL : L.Lawful) (h : S3History C L Ty T os b) {g p : Path} {n : Key} (hg : T.IsGroup g)
    (hs : Spells n p) (hT : T (g ++ p) ≠ none) (hsh : ∀ x, T (g ++ p) = some (.array x) → x.shards = none) {b' : Bucket} (hwf : b'.WF)
    (hb : ∀ k, b'.get k = if dirPrefix (C.key (g ++ p)) <+: k then none else b.get k) :
    S3History C L Ty (T.prune (g ++ p)) (os.filter fun e => ¬ g ++ p <+: e.1) b' := by
  obtain ⟨_, _, h3, h4, _⟩ := c79_delete hL h hg hs ((inv_of_history hL h).clear_of_some hT) .a
  obtain ⟨N, hN⟩ := h3 (by decide) hT
  have hH : Healthy (List.replicate (N + 1) ({} : Event)) := fun e he => by
    rw [List.eq_of_mem_replicate he]
    exact ⟨rfl, fun _ => rfl, by decide, rfl⟩
  rcases hN _ hH (by rw [List.length_replicate]; omega) with ⟨w, hw⟩ | ⟨⟨x, hx, hne⟩, _⟩
  · obtain ⟨_, e1, e2⟩ := h4 _ w hH.calm hw
    exact .elsewhere e2 hwf fun k _ => by rw [hb, e1]
  · exact absurd (hsh x hx) hne

/-- **C94, deleting again.**  After a `del` of a node (not an array with shards) that failed or was interrupted, the handle of the
node can remove what is left: `remove` succeeds if the service answers, and if it does and the service has deleted
what it was told to, the container is what a successful `del` would have made of it. -/
theorem c94_again (hL : L.Lawful) (h : S3History C L Ty T os b) {g p : Path} {n : Key} {m m' : FileMode} (hg : T.IsGroup g)
    (hs : Spells n p) (hT : T (g ++ p) ≠ none) (hsh : ∀ x, T (g ++ p) = some (.array x) → x.shards = none) (hm : m' ≠ .r)
    {es : List Event} (hes : ∀ e ∈ es, e.Reliable) :
    let b' := ((C.group g m).delItem n L Ty ⟨es, b⟩).2.bucket
    let node : S3Handle := (C.group g m').handle.child p.text
    (∀ es', Healthy es' → 2 * b'.length < es'.length → ∃ w, node.remove ⟨es', b'⟩ = (some (.ok ()), w)) ∧
    ∀ es' w, (∀ e ∈ es', e.Reliable ∧ e.failed = []) → node.remove ⟨es', b'⟩ = (some (.ok ()), w) →
      S3History C L Ty (T.prune (g ++ p)) (os.filter fun e => ¬ g ++ p <+: e.1) w.bucket := by
  have hI := inv_of_history hL h
  have hc := hI.clear_of_some hT
  intro b' node
  have hwf : b'.WF := delItem_wf hL h hg hs hc hes
  have hj : node.name = C.key (g ++ p) := joinKey_key (hI.named (isGroup_ne hg)) hs.1
  refine ⟨fun es' hh hlen => ?_, fun es' w hes' hw => ?_⟩
  · obtain ⟨w, hw, _⟩ := c50_remove_ends (h := node) (canWrite_of_ne hm) (w := ⟨es', b'⟩) hwf hh hlen
    exact ⟨w, hw⟩
  · obtain ⟨w1, w2⟩ := remove_gone hes' hwf hw
    refine history_without hL h hg hs hT hsh w1 fun k => ?_
    rw [w2, hj]
    split
    · rfl
    · rename_i hk
      exact hI.delete_keeps hL hes hg hs hc hk

/-- **C94, `del` of a group again.**  If the `del` of a group failed or was interrupted and the documents of the group itself are still there,
the same call of `del` completes it. -/
theorem c94_group_again (hL : L.Lawful) (h : S3History C L Ty T os b) {g p : Path} {n : Key} {m m' : FileMode} (hg : T.IsGroup g)
    (hs : Spells n p) (hT : T.IsGroup (g ++ p)) (hm : m' ≠ .r) {es : List Event} (hes : ∀ e ∈ es, e.Reliable) :
    let b' := ((C.group g m).delItem n L Ty ⟨es, b⟩).2.bucket
    (∀ f ∈ documentFiles, b'.get (docKey (C.key (g ++ p)) f) = b.get (docKey (C.key (g ++ p)) f)) →
    (∃ N, ∀ es', Healthy es' → N < es'.length → ∃ w, (C.group g m').delItem n L Ty ⟨es', b'⟩ = (some (.ok ()), w)) ∧
    ∀ es' w, (∀ e ∈ es', e.Reliable ∧ e.failed = []) → (C.group g m').delItem n L Ty ⟨es', b'⟩ = (some (.ok ()), w) →
      S3History C L Ty (T.prune (g ++ p)) (os.filter fun e => ¬ g ++ p <+: e.1) w.bucket := by
  classical
  have hI := inv_of_history hL h
  have hTn := isGroup_ne hT
  have hc := hI.clear_of_some hTn
  intro b' hdoc
  obtain ⟨A, hA⟩ := hT
  have hgn := hI.named (isGroup_ne hg)
  have hch : ∀ k, ¬ C.dir (g ++ p) <+: k → b'.get k = b.get k := fun k hk =>
    hI.delete_keeps hL hes hg hs hc (by rw [dirPrefix_key (hI.named hTn)]; exact hk)
  have hGA : C.GroupAt b' (g ++ p) A := (hI.group _ _ hA).congr fun f hf => hdoc f (by
    unfold documentFiles
    rcases hf with h | h | h | h | h <;> simp [h])
  have hz : b'.IsZarr (C.key g) := by
    obtain ⟨B, hB⟩ := hg
    refine (hI.keep_group (hI.named hTn) hch hB fun e => ?_).isZarr
    have := e.length_le
    have := List.length_pos_iff.2 hs.1
    simp only [List.length_append] at *
    omega
  have hj : joinKey (C.group g m').handle.name p.text = C.key (g ++ p) := joinKey_key hgn hs.1
  have hcon : ((C.group g m').contains n).Does 2 b' (.ok true) b' := by
    have h1 := has_does (C.group g m').handle p.text b'
    unfold S3PyGroup.contains
    rw [hs.strip]
    rw [hj, decide_eq_true ((hasNode_iff (hI.named hTn) (by simp [hs.1])).2 (.inr hGA.exists_))] at h1
    exact h1
  have hsub := hGA.isSubGroup hgn hs.1 hs.2.1 (m := m') hz
  obtain ⟨a1, a2⟩ := c94_again hL h (m := m) (m' := m') hg hs hTn (fun x hx => by rw [hA] at hx; cases hx) hm hes
  refine ⟨⟨8 + 2 * b'.length, fun es' hh hlen => ?_⟩, fun es' w hes' hw => ?_⟩
  · obtain ⟨es1, s1, l1, r1⟩ := hcon.healthy hh (by omega)
    obtain ⟨es2, s2, l2, r2⟩ := hsub.healthy (hh.mono s1) (by omega)
    obtain ⟨w, hw⟩ := a1 es2 ((hh.mono s1).mono s2) (by show 2 * b'.length < es2.length; omega)
    refine ⟨w, ?_⟩
    unfold S3PyGroup.delItem
    rw [if_neg (mode_write hm), S3M.run_bind r1, if_neg (by simp), hs.strip, S3M.run_bind r2, if_pos rfl]
    exact hw
  · have hr : ∀ e ∈ es', e.Reliable := fun e he => (hes' e he).1
    unfold S3PyGroup.delItem at hw
    rw [if_neg (mode_write hm)] at hw
    obtain ⟨t, es1, e1, s1, hw⟩ := hcon.step hr hw
    cases e1
    rw [if_neg (by simp), hs.strip] at hw
    obtain ⟨t, es2, e2, s2, hw⟩ := hsub.step (fun e he => hr e (s1.subset he)) hw
    cases e2
    rw [if_pos rfl] at hw
    exact a2 es2 w (fun e he => hes' e (s1.subset (s2.subset he))) hw

/-- **C94, what is left is seen.**  After a `del` of a node (not an array with shards) that failed or was interrupted, either the
container is what a successful `del` makes of it, or the name is still in the group, and nothing can be created there. -/
theorem c94_left (hL : L.Lawful) (h : S3History C L Ty T os b) {g p : Path} {n : Key} {m m' : FileMode} (hg : T.IsGroup g)
    (hs : Spells n p) (hT : T (g ++ p) ≠ none) (hsh : ∀ x, T (g ++ p) = some (.array x) → x.shards = none) (hm : m' ≠ .r)
    {es : List Event} (hes : ∀ e ∈ es, e.Reliable) :
    let b' := ((C.group g m).delItem n L Ty ⟨es, b⟩).2.bucket
    S3History C L Ty (T.prune (g ++ p)) (os.filter fun e => ¬ g ++ p <+: e.1) b' ∨
    ((C.group g m').contains n).Does 2 b' (.ok true) b' ∧ ((C.group g m').createGroup n).Does 2 b' (.throw .keyError) b' ∧
      ∀ a, ((C.group g m').createDataset n a).Does 2 b' (.throw .keyError) b' := by
  classical
  have hI := inv_of_history hL h
  have hc := hI.clear_of_some hT
  have hgn := hI.named (isGroup_ne hg)
  intro b'
  by_cases he : b'.Exists (C.key (g ++ p))
  · right
    have hcon : ((C.group g m').contains n).Does 2 b' (.ok true) b' := by
      have h1 := has_does (C.group g m').handle p.text b'
      unfold S3PyGroup.contains
      rw [hs.strip]
      rw [show joinKey (C.group g m').handle.name p.text = C.key (g ++ p) from joinKey_key hgn hs.1,
        decide_eq_true ((hasNode_iff (hI.named hT) (by simp [hs.1])).2 (.inr he))] at h1
      exact h1
    refine ⟨hcon, ?_, fun a => ?_⟩
    · unfold S3PyGroup.createGroup
      rw [if_neg (mode_write hm)]
      exact hcon.bind_lift (r := .throw .keyError) rfl
    · unfold S3PyGroup.createDataset
      rw [if_neg (mode_write hm)]
      exact hcon.bind_lift (r := .throw .keyError) rfl
  · left
    refine history_without hL h hg hs hT hsh (delItem_wf hL h hg hs hc hes) fun k => ?_
    split
    · rename_i hk
      refine get_none.2 fun hm => he ⟨k, hm, hk⟩
    · rename_i hk
      exact hI.delete_keeps hL hes hg hs hc hk

/-! ### Examples -/

/-- The service deletes the document of the group, and not the array in it; the response is lost. -/
def exLostBatch : Event :=
  { error := fun k => if k = .deleteBatch then some (.other, true) else none
    failed := ["c/g/d/.zarray".toList, "c/g/d/.zattrs".toList, "c/g/d/0".toList] }

theorem exLostBatch_reliable : ∀ e ∈ List.replicate 20 exLostBatch, e.Reliable := by
  intro e he
  rw [List.eq_of_mem_replicate he]
  exact ⟨rfl, rfl, (fun d e => by cases e), by decide⟩

/-- **C94, counterexample.**  `del` of a group reports that a request has failed; the document of the group is gone, and what it contained is
left.  The group is still in the container, but neither can it be opened nor `del` remove it: it fails, though no request does. -/
theorem c94_stuck_counterexample : ∃ (C : S3Container) (T : Tree exTypes) (b : Bucket) (es : List Event),
    S3History C exLibs exTypes T [] b ∧ T.IsGroup ["g"] ∧ (∀ e ∈ es, e.Reliable) ∧
    ((C.group [] .a).delItem "g".toList exLibs exTypes ⟨es, b⟩).1 = some (.throw .runtimeError) ∧
    let b' := ((C.group [] .a).delItem "g".toList exLibs exTypes ⟨es, b⟩).2.bucket
    let calm := List.replicate 50 ({} : Event)
    ((C.group [] .a).contains "g".toList ⟨calm, b'⟩).1 = some (.ok true) ∧
    (∀ i, ((C.group [] .a).item "g".toList ⟨calm, b'⟩).1 ≠ some (.ok i)) ∧
    ((C.group [] .a).delItem "g".toList exLibs exTypes ⟨calm, b'⟩).1 = some (.throw .runtimeError) := by
  refine ⟨exS3FoundC, exS3FoundTree, exS3Found.view, List.replicate 20 exLostBatch, .found exS3Found_holds (.inl rfl), ⟨_, rfl⟩,
    exLostBatch_reliable, by decide +kernel, by decide +kernel, fun i hi => ?_, by decide +kernel⟩
  have : (match ((exS3FoundC.group [] .a).item "g".toList ⟨List.replicate 50 {}, ((exS3FoundC.group [] .a).delItem "g".toList exLibs exTypes
      ⟨List.replicate 20 exLostBatch, exS3Found.view⟩).2.bucket⟩).1 with
    | some (.ok _) => false
    | _ => true) = true := by decide +kernel
  rw [hi] at this
  cases this

theorem exS3Found_g : Spells "g".toList ["g"] := ⟨by decide, by unfold NodeName PlainName; decide, 0, by decide +kernel⟩

/-- In that case the attributes of the container are as before, and the handle of the group removes what is left. -/
example : ∃ w, let b' := ((exS3FoundC.group [] .a).delItem "g".toList exLibs exTypes ⟨List.replicate 20 exLostBatch, exS3Found.view⟩).2.bucket
    (∃ j, (exS3FoundC.attrsOf [] .r).read.Does 6 b' (.ok j) b' ∧ j.find "by" = some (.str "zarr-python")) ∧
    b' ≠ exS3Found.view ∧
    S3Handle.remove ⟨"c/g".toList, .a⟩ ⟨List.replicate 50 {}, b'⟩ = (some (.ok ()), w) ∧
    S3History exS3FoundC exLibs exTypes (exS3FoundTree.prune ["g"]) [] w.bucket := by
  have h : S3History exS3FoundC exLibs exTypes exS3FoundTree [] exS3Found.view := .found exS3Found_holds (.inl rfl)
  have hlen : 2 * ((exS3FoundC.group [] .a).delItem "g".toList exLibs exTypes
      ⟨List.replicate 20 exLostBatch, exS3Found.view⟩).2.bucket.length < 50 := by decide +kernel
  have hlt : ((exS3FoundC.group [] .a).delItem "g".toList exLibs exTypes
      ⟨List.replicate 20 exLostBatch, exS3Found.view⟩).2.bucket.length < exS3Found.view.length := by decide +kernel
  obtain ⟨a1, a2⟩ := c94_again (exLibs_lawful _) h (g := []) (m := .a) (m' := .a) ⟨_, rfl⟩ exS3Found_g (by intro e; cases e)
    (fun x hx => by cases hx) (by decide) exLostBatch_reliable
  obtain ⟨o1, _⟩ := c94_others (exLibs_lawful _) h (g := []) (m := .a) ⟨_, rfl⟩ exS3Found_g (by intro e; cases e) exLostBatch_reliable
  have hH : Healthy (List.replicate 50 ({} : Event)) := fun e he => by
    rw [List.eq_of_mem_replicate he]
    exact ⟨rfl, fun _ => rfl, by decide, rfl⟩
  obtain ⟨w, hw⟩ := a1 _ hH hlen
  obtain ⟨j, j1, j2⟩ := o1 [] _ .r rfl (by decide)
  refine ⟨w, ⟨j, j1, j2 _⟩, fun e => ?_, hw, a2 _ w hH.calm hw⟩
  rw [e] at hlt
  exact absurd hlt (Nat.lt_irrefl _)

/-- The service deletes the array, and not the document of the group; the response is lost. -/
def exLateBatch : Event := { exLostBatch with failed := ["c/g/.zgroup".toList] }

/-- Then `del` can be called again, and the group is gone. -/
example : ∃ N, ∀ es', Healthy es' → N < es'.length → ∃ w,
    let b' := ((exS3FoundC.group [] .a).delItem "g".toList exLibs exTypes ⟨List.replicate 20 exLateBatch, exS3Found.view⟩).2.bucket
    b' ≠ exS3Found.view ∧ (exS3FoundC.group [] .a).delItem "g".toList exLibs exTypes ⟨es', b'⟩ = (some (.ok ()), w) ∧
    S3History exS3FoundC exLibs exTypes (exS3FoundTree.prune ["g"]) [] w.bucket := by
  have h : S3History exS3FoundC exLibs exTypes exS3FoundTree [] exS3Found.view := .found exS3Found_holds (.inl rfl)
  have hlt : ((exS3FoundC.group [] .a).delItem "g".toList exLibs exTypes
      ⟨List.replicate 20 exLateBatch, exS3Found.view⟩).2.bucket.length < exS3Found.view.length := by decide +kernel
  have hes : ∀ e ∈ List.replicate 20 exLateBatch, e.Reliable := fun e he => by
    rw [List.eq_of_mem_replicate he]
    exact ⟨rfl, rfl, (fun d e => by cases e), by decide⟩
  have hdoc : ∀ f ∈ documentFiles, (((exS3FoundC.group [] .a).delItem "g".toList exLibs exTypes
      ⟨List.replicate 20 exLateBatch, exS3Found.view⟩).2.bucket.get (docKey (exS3FoundC.key ["g"]) f)).isNone =
      (exS3Found.view.get (docKey (exS3FoundC.key ["g"]) f)).isNone := by decide +kernel
  have hk := (c94_kept (exLibs_lawful _) h (g := []) (m := .a) ⟨_, rfl⟩ exS3Found_g
    ((inv_of_history (exLibs_lawful _) h).clear_of_some (by intro e; cases e)) hes).2 ⟨_, rfl⟩
  obtain ⟨⟨N, hN⟩, a2⟩ := c94_group_again (exLibs_lawful _) h (g := []) (m := .a) (m' := .a) ⟨_, rfl⟩ exS3Found_g ⟨_, rfl⟩ (by decide)
    hes fun f hf => by
      rcases hk (docKey (exS3FoundC.key ["g"]) f) with e | e
      · exact e
      · have := hdoc f hf
        rw [e] at this
        exact e.trans (Option.isNone_iff_eq_none.1 this.symm).symm
  refine ⟨N, fun es' hh hl => ?_⟩
  obtain ⟨w, hw⟩ := hN es' hh hl
  refine ⟨w, fun e => ?_, hw, a2 _ w hh.calm hw⟩
  rw [e] at hlt
  exact absurd hlt (Nat.lt_irrefl _)

end Z5.Props
