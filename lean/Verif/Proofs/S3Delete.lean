import Verif.Proofs.Remove
import Verif.Proofs.S3Ends

/-!
# Deleting on S3
-/

namespace Z5
open Spec Prog

/-- on a healthy service a call does what it should -/
theorem S3M.Does.healthy {α : Type} {x : S3M α} {n : Nat} {b b' : Bucket} {r : Res α} (h : x.Does n b r b') {es : List Event}
    (hes : Healthy es) (hn : n ≤ es.length) :
    ∃ es', es' <:+ es ∧ es.length ≤ n + es'.length ∧ x ⟨es, b⟩ = (some r, ⟨es', b'⟩) := by
  have hr : ∀ e ∈ es, e.Reliable := fun e he => by
    obtain ⟨h1, h2, h3, _⟩ := hes e he
    exact ⟨h1, h2 _, (fun d e => by rw [h2] at e; cases e), h3⟩
  rcases h es hr with h | ⟨_, _, _, _, _, e, he, k, hk⟩ | ⟨h, _⟩
  · exact h
  · exact absurd ((hes e he).2.1 k) hk
  · omega

theorem Healthy.mono {es es' : List Event} (h : Healthy es) (hs : es' <:+ es) : Healthy es' := fun e he => h e (hs.subset he)

theorem Healthy.calm {es : List Event} (h : Healthy es) : ∀ e ∈ es, e.Reliable ∧ e.failed = [] := fun e he => by
  obtain ⟨h1, h2, h3, h4⟩ := h e he
  exact ⟨⟨h1, h2 _, (fun d e => by rw [h2] at e; cases e), h3⟩, h4⟩

/-- a step that only reads, and then another -/
theorem S3M.Does.then_bucket {α β : Type} {x : S3M α} {f : α → S3M β} {n : Nat} {b : Bucket} {r : Res α} (h : x.Does n b r b)
    {es : List Event} (hes : ∀ e ∈ es, e.Reliable) {R : Bucket → Prop} (hb : R b)
    (hf : ∀ a, r = .ok a → ∀ es', es' <:+ es → R (f a ⟨es', b⟩).2.bucket) : R ((x >>= f) ⟨es, b⟩).2.bucket := by
  rcases h es hes with ⟨es', h1, _, h3⟩ | ⟨es', b'', h1, h2, h3, _⟩ | ⟨_, h2⟩
  · cases r with
    | ok a => rw [S3M.run_bind h3]; exact hf a rfl es' h1
    | throw e => rw [S3M.bind_eq, h3]; exact hb
    | ub => rw [S3M.bind_eq, h3]; exact hb
  · rw [S3M.bind_eq, h2]
    have : b'' = b := by rcases h3 with e | e <;> exact e
    show R b''
    rw [this]
    exact hb
  · rw [S3M.bind_eq, h2]
    exact hb

theorem onS3_run {α : Type} (name : Key) : ∀ (t : Prog α) (w : World), (t.onS3 name w).1 = some (Prog.run t (w.bucket.chunks name)).1 ∧
    (t.onS3 name w).2.bucket.chunks name = (Prog.run t (w.bucket.chunks name)).2
  | .ret _, _ => ⟨rfl, rfl⟩
  | .act k f cont, w => by
    have := onS3_run name (cont (w.bucket.chunks name k)) ⟨w.events, w.bucket.onChunk name k f⟩
    rw [onChunk_chunks] at this
    exact this

theorem onS3_bucket {α : Type} (name : Key) : ∀ (t : Prog α) {b : Bucket} (es es' : List Event),
    (t.onS3 name ⟨es, b⟩).2.bucket = (t.onS3 name ⟨es', b⟩).2.bucket
  | .ret _, _, _, _ => rfl
  | .act k f cont, b, es, es' => onS3_bucket name (cont (b.chunks name k)) (b := b.onChunk name k f) es es'

theorem S3M.bind_lift_eq {α β : Type} (a : α) (f : α → S3M β) (w : World) : (S3M.lift (.ok a) >>= f) w = f a w := rfl

theorem eachOnS3_calls {E : Elem} {d : AnyDataset E} {name : Key} : ∀ {ts : List (Prog Unit)},
    (∀ t ∈ ts, ∃ κ, d.IsKey κ ∧ TouchesOnly κ t ∧ ∀ τ, d.Intact τ →
      ((Prog.run t τ).1 = .ok () ∧ d.Intact (Prog.run t τ).2) ∨
      ((Prog.run t τ).1 = .throw .lengthError ∧ ∃ sd, d = .sharded sd)) →
    ∀ {b : Bucket}, d.Intact (b.chunks name) →
    ∃ r b', (∀ es, Prog.eachOnS3 name ts ⟨es, b⟩ = (some r, ⟨es, b'⟩)) ∧
      (r = .ok () ∨ (r = .throw .lengthError ∧ ∃ sd, d = .sharded sd))
  | [], _, b, _ => ⟨.ok (), b, fun _ => rfl, .inl rfl⟩
  | t :: ts, hall, b, hi => by
    obtain ⟨κ, _, _, hrun⟩ := hall t (List.mem_cons_self ..)
    have hb : ∀ es, ∃ b1, t.onS3 name ⟨es, b⟩ = (some (Prog.run t (b.chunks name)).1, ⟨es, b1⟩) ∧
        b1.chunks name = (Prog.run t (b.chunks name)).2 := by
      intro es
      obtain ⟨h1, h2⟩ := onS3_run name t ⟨es, b⟩
      have h3 := (onS3_frame name t ⟨es, b⟩).1
      rcases h : t.onS3 name ⟨es, b⟩ with ⟨r, es', b1⟩
      rw [h] at h1 h2 h3
      cases h3
      cases h1
      exact ⟨b1, rfl, h2⟩
    have hsame := onS3_bucket name t (b := b)
    obtain ⟨b1, h1, h2⟩ := hb []
    have hb1 : ∀ es, t.onS3 name ⟨es, b⟩ = (some (Prog.run t (b.chunks name)).1, ⟨es, b1⟩) := by
      intro es
      obtain ⟨b2, h3, _⟩ := hb es
      have := hsame es []
      rw [h3, h1] at this
      cases this
      exact h3
    rcases hrun _ hi with ⟨e, hi'⟩ | ⟨e, hsd⟩
    · obtain ⟨r, b', g1, g2⟩ := eachOnS3_calls (fun t ht => hall t (List.mem_cons_of_mem _ ht)) (b := b1) (by rw [h2]; exact hi')
      refine ⟨r, b', fun es => ?_, g2⟩
      unfold Prog.eachOnS3
      rw [S3M.run_bind (a := ()) (by rw [hb1 es, e])]
      exact g1 es
    · refine ⟨.throw .lengthError, b1, fun es => ?_, .inr ⟨rfl, hsd⟩⟩
      unfold Prog.eachOnS3
      rw [S3M.bind_eq, hb1 es, e]

theorem remove_keeps {h : S3Handle} {es : List Event} {b : Bucket} (hes : ∀ e ∈ es, e.Reliable) (hb : b.WF) {k : Key}
    (hk : ¬ dirPrefix h.name <+: k) : (h.remove ⟨es, b⟩).2.bucket.get k = b.get k := by
  refine c50_others_kept h (w := ⟨es, b⟩) ⟨hb, fun e he b' hb' => ?_⟩ hk fun e he b' => ?_
  · rw [(hes e he).1]
    exact hb'
  · rw [(hes e he).1]
    rfl

/-- `removeDataset` leaves other objects alone, whatever happens. -/
theorem removeDataset_keeps {E : Elem} {o : S3DatasetObj} {L : Libs} {elem : FillVal → E.T} {es : List Event} {b : Bucket}
    (hes : ∀ e ∈ es, e.Reliable) (hb : b.WF) {k : Key} (hk : ¬ dirPrefix o.name <+: k) :
    (o.removeDataset L elem ⟨es, b⟩).2.bucket.get k = b.get k := by
  unfold S3DatasetObj.removeDataset
  refine (S3M.Does.lift (o.typed L elem) b).then_bucket (R := fun c => c.get k = b.get k) hes rfl fun d _ es1 h1 => ?_
  have hes1 : ∀ e ∈ es1, e.Reliable := fun e he => hes e (h1.subset he)
  refine (S3M.Does.lift d.removeDataset b).then_bucket (R := fun c => c.get k = b.get k) hes1 rfl fun ts _ es2 h2 => ?_
  have hes2 : ∀ e ∈ es2, e.Reliable := fun e he => hes1 e (h2.subset he)
  obtain ⟨f1, f2, f3⟩ := eachOnS3_frame o.name ts ⟨es2, b⟩
  rw [S3M.bind_eq]
  rcases h : Prog.eachOnS3 o.name ts ⟨es2, b⟩ with ⟨r, es3, b3⟩
  rw [h] at f1 f2 f3
  dsimp only at f1 f2 f3
  subst f1
  rcases r with _ | r
  · exact f3 k hk
  cases r with
  | ok _ => exact (remove_keeps (h := ⟨o.name, o.obj.handle.mode⟩) hes2 (f2 hb) hk).trans (f3 k hk)
  | throw e => exact f3 k hk
  | ub => exact f3 k hk

namespace S3Container

variable {Ty : ElemTypes} {C : S3Container} {L : Libs} {T : Tree Ty} {os : List (Path × S3DatasetObj)} {b : Bucket} {p : Path}

/-- `removeDataset` of the dataset object `o` -/
theorem removes_typed {x : ArrayItem Ty} {o : S3DatasetObj} {d : AnyDataset (Ty.elem x.dtype)} (hn : o.name = C.key p)
    (t1 : o.typed L (Ty.cast x.dtype) = .ok d) (hwf : d.WF) (hcan : d.base.canWrite = true) (hw : o.obj.handle.mode.canWrite = true)
    (hfit : prod (blocksPerDimension d.base.shape d.base.chunkShape) < 2 ^ 64) (hI : d.Intact (b.chunks (C.key p))) (hb : b.WF)
    (hsh : ∀ sd, d = .sharded sd → x.shards ≠ none) :
    (∃ N, ∀ es, Healthy es → N < es.length → ∃ w, o.removeDataset L (Ty.cast x.dtype) ⟨es, b⟩ = (some (.ok ()), w)) ∨
    x.shards ≠ none ∧ ∃ b', ∀ es, o.removeDataset L (Ty.cast x.dtype) ⟨es, b⟩ = (some (.throw .lengthError), ⟨es, b'⟩) := by
  obtain ⟨ts, h4, h5⟩ := AnyDataset.removeDataset_calls hwf hcan hfit
  obtain ⟨r, b', e1, e2⟩ := eachOnS3_calls (name := C.key p) h5 hI
  have hrun : ∀ es, o.removeDataset L (Ty.cast x.dtype) ⟨es, b⟩ =
      ((S3M.lift r : S3M Unit) >>= fun _ => S3Handle.remove ⟨o.name, o.obj.handle.mode⟩) ⟨es, b'⟩ := by
    intro es
    unfold S3DatasetObj.removeDataset
    rw [t1, S3M.bind_lift_eq, h4, S3M.bind_lift_eq, hn, S3M.bind_eq, e1 es, S3M.bind_eq]
    rfl
  have hwf' : b'.WF := by
    have := (eachOnS3_frame (C.key p) ts ⟨[], b⟩).2.1 hb
    rw [e1 []] at this
    exact this
  rcases e2 with rfl | ⟨rfl, sd, hsd⟩
  · refine .inl ⟨2 * b'.length, fun es hh hlen => ?_⟩
    obtain ⟨w, hw', _⟩ := c50_remove_ends (h := ⟨o.name, o.obj.handle.mode⟩) hw (w := ⟨es, b'⟩) hwf' hh hlen
    exact ⟨w, by rw [hrun es, S3M.bind_lift_eq]; exact hw'⟩
  · exact .inr ⟨hsh sd hsd, b', fun es => hrun es⟩

theorem intact_of_inStore {E : Elem} {d : AnyDataset E} {τ : Store} {S : List Nat → E.T} (h : d.InStore τ S) : d.Intact τ := by
  cases d with
  | plain ds => trivial
  | sharded sd => exact And.left h

/-- `removeDataset` of an array of the container -/
theorem ArrayAt.removes (hL : L.Lawful) {x : ArrayItem Ty} {o : S3DatasetObj} (h : C.ArrayAt L os b p x) (ho : (p, o) ∈ os)
    (hm : o.obj.handle.mode ≠ .r) (hb : b.WF) :
    (∃ N, ∀ es, Healthy es → N < es.length → ∃ w, o.removeDataset L (Ty.cast x.dtype) ⟨es, b⟩ = (some (.ok ()), w)) ∨
    x.shards ≠ none ∧ ∃ b', ∀ es, o.removeDataset L (Ty.cast x.dtype) ⟨es, b⟩ = (some (.throw .lengthError), ⟨es, b'⟩) := by
  have hw : o.obj.handle.mode.canWrite = true := Props.canWrite_of_ne hm
  rcases h with h | ⟨b₀, a, A₀, os', ws, h⟩
  · obtain ⟨o₀, d₀, mt, cfg, h0, h1, _, h2, h3⟩ := h.carries hL
    obtain ⟨hn, hs⟩ := h3 o ho
    obtain ⟨t1, t2, _, _⟩ := hs.typed h1.self h1.shard (h0.law hL) h0.typed
    have hS := (AnyDataset.variant_inStore (w := o.obj.handle.mode.canWrite) t2).2 h2.holds
    refine removes_typed hn t1 (AnyDataset.variant_wf t2 h0.wf) (by rw [AnyDataset.variant_base]; exact hw) hw
      (by rw [AnyDataset.variant_base]; exact h0.fit) (intact_of_inStore hS) hb fun sd hsd hno => ?_
    obtain ⟨ds, e⟩ := h0.plain hno
    rw [e] at hsd
    cases hsd
  · obtain ⟨f, v, e⟩ := h.now hL
    obtain ⟨A', e1, e2⟩ := e.holds
    obtain ⟨d, g⟩ := e.objects o (h.objects o ho)
    obtain ⟨S, hS, _⟩ := AnyDataset.Files.inStore g.stands.wf ((g.files _ _).2 e1.elements)
    refine removes_typed g.stands.name g.stands.typed g.stands.wf (g.stands.base.2.2.trans hw) hw ?_ (intact_of_inStore hS) hb
      fun sd hsd => ?_
    · rw [g.stands.base.1, g.stands.base.2.1, h.is.shape, h.is.chunks]
      exact h.is.number
    · rw [h.is.shards, if_neg (g.shards sd hsd)]
      exact fun e => by cases e

/-- `del group[name]` succeeds -/
theorem Inv.deletes (hL : L.Lawful) (h : C.Inv L T os b) {g : Path} {n : Key} {m : FileMode} (hg : T.IsGroup g) (hs : Spells n p)
    (hm : m ≠ .r) (hT : T (g ++ p) ≠ none) :
    ∃ N, ∀ es, Healthy es → N < es.length →
      (∃ w, (C.group g m).delItem n L Ty ⟨es, b⟩ = (some (.ok ()), w)) ∨
      (∃ x, T (g ++ p) = some (.array x) ∧ x.shards ≠ none) ∧
        ∃ w, (C.group g m).delItem n L Ty ⟨es, b⟩ = (some (.throw .lengthError), w) := by
  have hc : T.Clear (g ++ p) := h.clear_of_some hT
  have hgn := h.named (isGroup_ne hg)
  have hz := h.isZarr hg
  have hj : joinKey (C.group g m).handle.name p.text = C.key (g ++ p) := joinKey_key hgn hs.1
  have hcon := h.contains hL (m := m) hg hs hc
  cases e : T (g ++ p) with
  | none => exact absurd e hT
  | some y =>
    rw [e] at hcon
    cases y with
    | group A =>
      refine ⟨8 + 2 * b.length, fun es hh hlen => .inl ?_⟩
      obtain ⟨es1, s1, l1, r1⟩ := hcon.healthy hh (by omega)
      obtain ⟨es2, s2, l2, r2⟩ := ((h.group _ _ e).isSubGroup hgn hs.1 hs.2.1 (m := m) hz).healthy (hh.mono s1) (by omega)
      obtain ⟨w, hw, _⟩ := c50_remove_ends (h := (C.group g m).handle.child p.text) (Props.canWrite_of_ne hm) (w := ⟨es2, b⟩) h.wf
        ((hh.mono s1).mono s2) (by show 2 * b.length < es2.length; omega)
      refine ⟨w, ?_⟩
      unfold S3PyGroup.delItem
      rw [if_neg (mode_write hm), S3M.run_bind r1, if_neg (by simp), hs.strip, S3M.run_bind r2, if_pos rfl]
      exact hw
    | array x =>
      obtain ⟨o, h1, h2, h3, h4, h5, hname, hi⟩ := (h.item hL m hg hs hc).2.2 x e
      have hfin := (hi.array _ _ e).removes hL (o := o) (by simp) (by rw [h2]; exact hm) h.wf
      have hrun : ∀ N es, Healthy es → 26 + N < es.length → ∃ es3, Healthy es3 ∧ N < es3.length ∧
          (C.group g m).delItem n L Ty ⟨es, b⟩ = o.removeDataset L (Ty.cast o.obj.info.dtype) ⟨es3, b⟩ := by
        intro N es hh hlen
        obtain ⟨es1, s1, l1, r1⟩ := hcon.healthy hh (by omega)
        obtain ⟨es2, s2, l2, r2⟩ := ((h.array _ _ e).isSubGroup hL hgn hs.1 hs.2.1 (m := m) hz).healthy (hh.mono s1) (by omega)
        obtain ⟨es3, s3, l3, r3⟩ := h1.healthy ((hh.mono s1).mono s2) (by omega)
        refine ⟨es3, ((hh.mono s1).mono s2).mono s3, by omega, ?_⟩
        unfold S3PyGroup.delItem
        rw [if_neg (mode_write hm), S3M.run_bind r1, if_neg (by simp), hs.strip, S3M.run_bind r2, if_neg (by decide),
          S3M.run_bind r3]
      rw [← h3] at hfin
      rcases hfin with ⟨N, hN⟩ | ⟨hsh, b', hN⟩
      · refine ⟨26 + N, fun es hh hlen => .inl ?_⟩
        obtain ⟨es3, hh3, l3, r⟩ := hrun N es hh hlen
        rw [r]
        exact hN es3 hh3 l3
      · refine ⟨26, fun es hh hlen => .inr ⟨⟨x, rfl, hsh⟩, ?_⟩⟩
        obtain ⟨es3, hh3, l3, r⟩ := hrun 0 es hh hlen
        rw [r]
        exact ⟨_, hN es3⟩

/-- `del group[name]` leaves other objects alone, whatever happens. -/
theorem Inv.delete_keeps (hL : L.Lawful) (h : C.Inv L T os b) {g : Path} {n : Key} {m : FileMode} {es : List Event}
    (hes : ∀ e ∈ es, e.Reliable) (hg : T.IsGroup g) (hs : Spells n p) (hc : T.Clear (g ++ p)) {k : Key}
    (hk : ¬ dirPrefix (C.key (g ++ p)) <+: k) : ((C.group g m).delItem n L Ty ⟨es, b⟩).2.bucket.get k = b.get k := by
  have hgn := h.named (isGroup_ne hg)
  have hz := h.isZarr hg
  have hj : joinKey (C.group g m).handle.name p.text = C.key (g ++ p) := joinKey_key hgn hs.1
  unfold S3PyGroup.delItem
  split
  · rfl
  refine (h.contains hL (m := m) hg hs hc).then_bucket (R := fun c => c.get k = b.get k) hes rfl fun t ht es1 s1 => ?_
  have hes1 : ∀ e ∈ es1, e.Reliable := fun e he => hes e (s1.subset he)
  cases e : T (g ++ p) with
  | none =>
    rw [e] at ht
    cases ht
    rfl
  | some y =>
    rw [e] at ht
    cases ht
    rw [if_neg (by simp), hs.strip]
    cases y with
    | group A =>
      refine ((h.group _ _ e).isSubGroup hgn hs.1 hs.2.1 (m := m) hz).then_bucket (R := fun c => c.get k = b.get k) hes1 rfl
        fun t ht es2 s2 => ?_
      cases ht
      rw [if_pos rfl]
      exact remove_keeps (h := (C.group g m).handle.child p.text) (fun e he => hes1 e (s2.subset he)) h.wf (by
        show ¬ dirPrefix (joinKey (C.group g m).handle.name p.text) <+: k
        rw [hj]
        exact hk)
    | array x =>
      refine ((h.array _ _ e).isSubGroup hL hgn hs.1 hs.2.1 (m := m) hz).then_bucket (R := fun c => c.get k = b.get k) hes1 rfl
        fun t ht es2 s2 => ?_
      cases ht
      rw [if_neg (by decide)]
      obtain ⟨o, h1, _, _, _, _, hname, _⟩ := (h.item hL m hg hs hc).2.2 x e
      have hes2 : ∀ e ∈ es2, e.Reliable := fun e he => hes1 e (s2.subset he)
      refine h1.then_bucket (R := fun c => c.get k = b.get k) hes2 rfl fun t ht es3 s3 => ?_
      cases ht
      exact removeDataset_keeps (fun e he => hes2 e (s3.subset he)) h.wf (by rw [hname]; exact hk)

end S3Container

end Z5
