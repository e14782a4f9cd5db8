import Verif.Props.S3Deleting

namespace Z5.Props
open Spec Prog S3Container

variable {Ty : ElemTypes} {C : S3Container} {L : Libs} {T : Tree Ty} {os : List (Path × S3DatasetObj)} {b : Bucket} {p : Path}

theorem onS3_bind {α β : Type} (name : Key) (f : α → Prog β) : ∀ (t : Prog α) (w : World),
    (t >>= f).onS3 name w = (t.onS3 name >>= fun a => (f a).onS3 name) w
  | .ret (.ok _), _ => rfl
  | .ret (.throw _), _ => rfl
  | .ret .ub, _ => rfl
  | .act k g c, w => onS3_bind name f (c (w.bucket.chunks name k)) ⟨w.events, w.bucket.onChunk name k g⟩

theorem onS3_readOnly {α : Type} (name : Key) : ∀ {t : Prog α}, ReadOnly t → ∀ w : World, (t.onS3 name w).2 = w
  | .ret _, _, _ => rfl
  | .act k f c, h, w => by
    have hb : w.bucket.onChunk name k f = w.bucket := by
      unfold Bucket.onChunk
      rw [if_pos (h.1 _)]
    show ((c (w.bucket.chunks name k)).onS3 name ⟨w.events, w.bucket.onChunk name k f⟩).2 = w
    rw [hb]
    exact onS3_readOnly name (h.2 _) w

/-- a program that runs alone -/
theorem onS3_alone {α : Type} (name : Key) : ∀ (t : Prog α) {b : Bucket} {es : List Event} {r : Res α} {w : World},
    t.onS3 name ⟨es, b⟩ = (some r, w) → ∃ is, interleaveS3 name is ([t], b) = ([.ret r], w.bucket)
  | .ret r', b, es, r, w, h => by
    have h : (some r', (⟨es, b⟩ : World)) = (some r, w) := h
    cases h
    exact ⟨[], rfl⟩
  | .act k f c, b, es, r, w, h => by
    obtain ⟨is, his⟩ := onS3_alone name (c (b.chunks name k)) (b := b.onChunk name k f) (es := es) h
    exact ⟨0 :: is, his⟩

theorem readOnly_exists {E : Elem} (d : AnyDataset E) : ∀ {ts}, d.WF → d.base.canWrite = true →
    prod (blocksPerDimension d.base.shape d.base.chunkShape) < 2 ^ 64 → d.removeDataset = .ok ts →
    ∀ t ∈ ts, ∃ (e : Prog Bool) (c : List Nat), ReadOnly e ∧ InGrid d.base.shape d.base.chunkShape c ∧ t = removeTask e (d.removeChunk c) := by
  intro ts h hw hfit hts t ht
  cases d with
  | plain ds =>
    have hw : ds.canWrite = true := hw
    unfold AnyDataset.removeDataset Dataset.removeDataset at hts
    simp only at hts
    rw [if_neg (by simp [hw]), eachChunk_eq h hfit] at hts
    cases hts
    obtain ⟨c, hc, rfl⟩ := List.mem_map.1 ht
    exact ⟨_, c, readOnly_chunkExists ds c, (mem_gridList h).1 hc, rfl⟩
  | sharded sd =>
    have hw : sd.canWrite = true := hw
    have h : sd.WF := h
    unfold AnyDataset.removeDataset ShardedDataset.removeDataset at hts
    simp only at hts
    rw [if_neg (by simp [hw]), eachChunk_eq h.base hfit] at hts
    cases hts
    obtain ⟨c, hc, rfl⟩ := List.mem_map.1 ht
    exact ⟨_, c, readOnly_shardChunkExists sd c, (mem_gridList h.base).1 hc, rfl⟩

/-- the dataset of an open object of an array -/
theorem array_object (hL : L.Lawful) {x : ArrayItem Ty} {o : S3DatasetObj} (h : C.ArrayAt L os b p x) (ho : (p, o) ∈ os)
    (hm : o.obj.handle.mode ≠ .r) : ∃ d, o.typed L (Ty.cast x.dtype) = .ok d ∧ d.WF ∧ d.base.canWrite = true ∧
      prod (blocksPerDimension d.base.shape d.base.chunkShape) < 2 ^ 64 ∧ o.name = C.key p ∧ d.base.fill = x.fill ∧
      d.Intact (b.chunks (C.key p)) ∧ ∀ sd, d = .sharded sd → x.shards ≠ none := by
  have hw : o.obj.handle.mode.canWrite = true := canWrite_of_ne hm
  rcases h with h | ⟨b₀, a, A₀, os', ws, h⟩
  · obtain ⟨o₀, d₀, mt, cfg, h0, h1, _, h2, h3⟩ := h.carries hL
    obtain ⟨hn, hs⟩ := h3 o ho
    obtain ⟨t1, t2, _, _⟩ := hs.typed h1.self h1.shard (h0.law hL) h0.typed
    have hS := (AnyDataset.variant_inStore (w := o.obj.handle.mode.canWrite) t2).2 h2.holds
    refine ⟨_, t1, AnyDataset.variant_wf t2 h0.wf, by rw [AnyDataset.variant_base]; exact hw, by rw [AnyDataset.variant_base]; exact h0.fit, hn, ?_, intact_of_inStore hS, fun sd hsd hno => ?_⟩
    · rw [AnyDataset.variant_base]
      exact (typed_fields h0.typed).2.1.trans h0.fill
    · obtain ⟨ds, e⟩ := h0.plain hno
      rw [e] at hsd
      cases hsd
  · obtain ⟨f, v, e⟩ := h.now hL
    obtain ⟨d, g⟩ := e.objects o (h.objects o ho)
    obtain ⟨A', e1, e2⟩ := e.holds
    obtain ⟨S, hS, _⟩ := AnyDataset.Files.inStore g.stands.wf ((g.files _ _).2 e1.elements)
    refine ⟨d, g.stands.typed, g.stands.wf, g.stands.base.2.2.trans hw, ?_, g.stands.name, g.fill.trans e.value.symm,
      intact_of_inStore hS, fun sd hsd => ?_⟩
    · rw [g.stands.base.1, g.stands.base.2.1, h.is.shape, h.is.chunks]
      exact h.is.number
    · rw [h.is.shards, if_neg (g.shards sd hsd)]
      exact fun e => by cases e

theorem chunks_removed (hL : L.Lawful) {x : ArrayItem Ty} {o : S3DatasetObj} {d : AnyDataset (Ty.elem x.dtype)} (ho : (p, o) ∈ os)
    (hm : o.obj.handle.mode ≠ .r) (hd : o.typed L (Ty.cast x.dtype) = .ok d) : ∀ {ts : List (Prog Unit)},
    (∀ t ∈ ts, ∃ (e : Prog Bool) (c : List Nat), ReadOnly e ∧ InGrid d.base.shape d.base.chunkShape c ∧ t = removeTask e (d.removeChunk c)) →
    ∀ {T : Tree Ty} {b : Bucket} {B : List Nat → (Ty.elem x.dtype).T} {es : List Event} {w : World}, S3History C L Ty T os b →
    T p = some (.array { x with content := B }) → eachOnS3 (C.key p) ts ⟨es, b⟩ = (some (.ok ()), w) →
    ∃ T' A, S3History C L Ty T' os w.bucket ∧ T' p = some (.array { x with content := A }) ∧ (∀ q, q ≠ p → T' q = T q) ∧
      ∀ y, A y = B y ∨ A y = d.base.fill
  | [], _, T, b, B, es, w, h, hT, hw => by
    have hw : (some (Res.ok ()), (⟨es, b⟩ : World)) = (some (Res.ok ()), w) := hw
    cases hw
    exact ⟨T, B, h, hT, fun _ _ => rfl, fun _ => .inl rfl⟩
  | t :: ts, hts, T, b, B, es, w, h, hT, hw => by
    unfold eachOnS3 at hw
    obtain ⟨_, w1, h1, h2⟩ := S3M.bind_ok hw
    obtain ⟨e, c, he, hc, rfl⟩ := hts _ (List.mem_cons_self ..)
    have hrest := fun t ht => hts t (List.mem_cons_of_mem _ ht)
    unfold removeTask at h1
    rw [onS3_bind] at h1
    obtain ⟨t, w2, h3, h4⟩ := S3M.bind_ok h1
    have e2 := onS3_readOnly (C.key p) he ⟨es, b⟩
    rw [h3] at e2
    have e2 : w2 = ⟨es, b⟩ := e2
    subst e2
    cases t with
    | false =>
      have h4 : (some (Res.ok ()), (⟨es, b⟩ : World)) = (some (Res.ok ()), w1) := h4
      cases h4
      exact chunks_removed hL ho hm hd hrest h hT h2
    | true =>
      have h4 : (d.removeChunk c).onS3 (C.key p) ⟨es, b⟩ = (some (.ok ()), w1) := h4
      obtain ⟨is, his⟩ := onS3_alone _ _ h4
      have hp : d.PerformsS3 (C.key p) ⟨mulV c d.base.chunkShape, d.stored c, fun _ => d.base.fill⟩ b w1.bucket :=
        .remove c is hc ⟨[.ok ()], by rw [his]; rfl, (fun r hr => List.mem_singleton.1 hr), by rw [his]⟩
      have hh := S3History.wrote h ho hT hm hd hp
      obtain ⟨T', A, g1, g2, g3, g4⟩ := chunks_removed hL ho hm hd hrest (b := w1.bucket) (es := w1.events) hh (Container.put_self _ _ _) h2
      refine ⟨T', A, g1, g2, fun q hq => ?_, fun y => ?_⟩
      · rw [g3 q hq, Container.put_other _ _ hq]
      · rcases g4 y with e | e
        · rw [e]
          unfold override
          split
          · exact .inr rfl
          · exact .inl rfl
        · exact .inr e

/-- **C94, the chunks.**  Deleting an array first deletes its chunks one after the other, and then everything else with it.
(Each of these deletions succeeds if the array has no shards.)  If it is interrupted while it deletes the chunks, the container is intact: it has the same nodes and attributes, and every element of the array
is as before or the fill value. -/
theorem c94_chunks (hL : L.Lawful) (h : S3History C L Ty T os b) {x : ArrayItem Ty} {o : S3DatasetObj} (ho : (p, o) ∈ os)
    (hT : T p = some (.array x)) (hm : o.obj.handle.mode ≠ .r) : ∃ ts : List (Prog Unit),
    (∀ w, o.removeDataset L (Ty.cast x.dtype) w =
      (eachOnS3 (C.key p) ts >>= fun _ => S3Handle.remove ⟨C.key p, o.obj.handle.mode⟩) w) ∧
    (x.shards = none → ∀ n es, ∃ w, eachOnS3 (C.key p) (ts.take n) ⟨es, b⟩ = (some (.ok ()), w)) ∧
    ∀ n es w, eachOnS3 (C.key p) (ts.take n) ⟨es, b⟩ = (some (.ok ()), w) → ∃ A,
      S3History C L Ty (T.put p (.array { x with content := A })) os w.bucket ∧ ∀ y, A y = x.content y ∨ A y = x.fill := by
  obtain ⟨d, h1, h2, h3, h4, hn, hf, hI, hsd⟩ := array_object hL ((inv_of_history hL h).array _ _ hT) ho hm
  obtain ⟨ts, h5, h6⟩ := AnyDataset.removeDataset_calls h2 h3 h4
  refine ⟨ts, fun w => ?_, fun hx n es => ?_, fun n es w hw => ?_⟩
  · unfold S3DatasetObj.removeDataset
    rw [h1, S3M.bind_lift_eq, h5, S3M.bind_lift_eq, hn]
  · obtain ⟨r, b', e1, e2⟩ := eachOnS3_calls (name := C.key p) (fun t ht => h6 t (List.mem_of_mem_take (i := n) ht)) hI
    rcases e2 with rfl | ⟨_, sd, e⟩
    · exact ⟨_, e1 es⟩
    · exact absurd hx (hsd sd e)
  · obtain ⟨T', A, g1, g2, g3, g4⟩ := chunks_removed hL ho hm h1 (fun t ht => readOnly_exists d h2 h3 h4 h5 t (List.mem_of_mem_take ht)) h hT hw
    rw [hf] at g4
    refine ⟨A, ?_, g4⟩
    have : T.put p (.array { x with content := A }) = T' := funext fun q => by
      by_cases e : q = p
      · rw [e, Container.put_self, g2]
      · rw [Container.put_other _ _ e, g3 q e]
    rw [this]
    exact g1

/-- The array `g/d` of the container of another program of C86, which has the elements 5, 6 and 0: if deleting it is interrupted before the other objects
are deleted, its elements are those or 0. -/
example : ∃ (o : S3DatasetObj) (ts : List (Prog Unit)), ∀ n es, ∃ (w : World) (A : List Nat → U8.T),
    eachOnS3 (exS3FoundC.key ["g", "d"]) (ts.take n) ⟨es, exS3Found.view⟩ = (some (.ok ()), w) ∧
    S3History exS3FoundC exLibs exTypes (exS3FoundTree.put ["g", "d"] (.array { exFoundItem with content := A })) [(["g", "d"], o)] w.bucket ∧
    ∀ y, A y = exFoundItem.content y ∨ A y = exFoundItem.fill := by
  have hL := exLibs_lawful
  have hC : exS3FoundC.Ok := .inl rfl
  have h0 : S3History exS3FoundC exLibs exTypes exS3FoundTree [] exS3Found.view := .found exS3Found_holds hC
  have hc : exS3FoundTree.Clear ([] ++ ["g", "d"]) := (S3Container.found_inv exS3Found_holds hC).clear_of_some (fun e => by cases e)
  have hx : exS3FoundTree ([] ++ ["g", "d"]) = some (.array exFoundItem) := rfl
  have hg := c79_getitem (hL _) h0 (g := []) (p := ["g", "d"]) ⟨_, rfl⟩ exS3Found_spells hc .a
  rw [hx] at hg
  obtain ⟨o, _, hm, _, _, _, h1⟩ := hg
  generalize exS3Found.view = b at *
  obtain ⟨ts, _, k2, k3⟩ := c94_chunks (hL _) h1 (p := ["g", "d"]) (o := o) (x := exFoundItem) (List.mem_cons_self ..) hx (by rw [hm]; decide)
  refine ⟨o, ts, fun n es => ?_⟩
  obtain ⟨w, hw⟩ := k2 rfl n es
  obtain ⟨A, a1, a2⟩ := k3 n es w hw
  exact ⟨w, A, hw, a1, a2⟩

end Z5.Props
