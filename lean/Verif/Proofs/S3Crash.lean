import Verif.Proofs.S3TogetherRun
import Verif.Props.S3Store

/-!
# Tasks on S3 that are interrupted (for C91)
-/

namespace Z5
open Spec Prog Props

variable {E : Elem} {α : Type}

/-! ### Every task changes its object in one step -/

theorem oneStep_writeChunk {ds : Dataset E} (hs : ds.backend = .s3) (c : List Nat) (data : List E.T) (vl : Bool) (n : Nat) :
    OneStep (ds.writeChunk c data vl n) := by
  unfold Dataset.writeChunk
  split
  · trivial
  · refine OneStep.after (ReadOnly.ret _) fun _ => OneStep.after (ReadOnly.ret _) fun _ =>
      OneStep.after (ReadOnly.ret _) fun o => ?_
    rw [hs]
    cases o
    · exact OneStep.erase _
    · exact OneStep.write _ _

theorem oneStep_writeShardBlobs {sd : ShardedDataset E} (hs : sd.backend = .s3) (s : List Nat) (bs : List Bytes) :
    OneStep (sd.writeShardBlobs s bs) := by
  unfold ShardedDataset.writeShardBlobs
  split
  · trivial
  · refine OneStep.after (ReadOnly.ret _) fun k => ?_
    rw [hs]
    split
    · exact OneStep.erase _
    · exact OneStep.after (ReadOnly.ret _) fun out => OneStep.write _ _

theorem AnyDataset.Starts.oneStep {d : AnyDataset E} (hs : d.base.backend = .s3) {w : Write E.T} {ts : List (Prog Unit)}
    (h : d.Starts w ts) (hwf : d.WF) : ∀ t ∈ ts, OneStep t := by
  cases h with
  | region call val scratch _ hv hval hts =>
    cases d with
    | plain ds =>
      have hts' : ds.writeRegion call.request call.off call.shape scratch = .ok ts := by cases call <;> exact hts
      rw [writeRegion_jobs hwf hv.1] at hts'
      cases hts'
      intro t ht
      obtain ⟨j, hj, rfl⟩ := List.mem_map.1 ht
      obtain ⟨c, _, i, rfl⟩ := mem_jobs hj
      exact OneStep.after (readOnly_prepareBuffer ds _ _ _ c _ _ (readOnly_readExisting ds c)) fun buf =>
        oneStep_writeChunk hs c buf _ _
    | sharded sd =>
      have hts' : sd.writeRegion call.request call.off call.shape scratch = .ok ts := by cases call <;> exact hts
      have hw : sd.canWrite = true := by
        cases hw : sd.canWrite with
        | true => rfl
        | false =>
          unfold ShardedDataset.writeRegion at hts'
          rw [hwf.base.requestChunks_ok hv.1, Res.ok_bind, hw] at hts'
          cases hts'
      rw [ShardedDataset.writeRegion_jobs hwf hw hv.1] at hts'
      cases hts'
      intro t ht
      obtain ⟨j, hj, rfl⟩ := List.mem_map.1 ht
      obtain ⟨g, _, i, rfl⟩ := ShardedDataset.mem_jobs hj
      exact OneStep.after (ShardedDataset.readOnly_readShardBlobs _) fun bs =>
        OneStep.after (ShardedDataset.readOnly_updateSlots ..) fun bs => oneStep_writeShardBlobs hs _ bs
  | chunk c data val hc hl hval =>
    intro t ht
    rw [List.mem_singleton.1 ht]
    cases d with
    | plain ds => exact oneStep_writeChunk hs c data _ _
    | sharded sd =>
      show OneStep (sd.writeChunk c data)
      unfold ShardedDataset.writeChunk
      split
      · trivial
      · exact OneStep.after (ReadOnly.ret _) fun _ => OneStep.after (ReadOnly.ret _) fun _ =>
          OneStep.after (ReadOnly.ret _) fun o => oneStep_writeInnerBlob hs c _
  | remove c hc =>
    intro t ht
    rw [List.mem_singleton.1 ht]
    cases d with
    | plain ds =>
      show OneStep (ds.removeChunk c)
      unfold Dataset.removeChunk
      refine OneStep.after (ReadOnly.ret _) fun _ => ?_
      split
      · trivial
      · exact .inr fun _ => ⟨_, rfl⟩
    | sharded sd => exact oneStep_writeInnerBlob hs c _

theorem S3DatasetObj.typed_backend {o : S3DatasetObj} {L : Libs} {elem : FillVal → E.T} {d : AnyDataset E} (h : o.typed L elem = .ok d) :
    d.base.backend = .s3 := by
  unfold S3DatasetObj.typed DatasetObj.typed at h
  simp only at h
  split at h
  · obtain ⟨sd, h1, h2⟩ := Res.bind_eq_ok.1 h
    have h2 : AnyDataset.sharded sd = d := Res.ok.inj h2
    subst h2
    unfold ShardedDataset.make Dataset.make at h1
    obtain ⟨d, h3, h4⟩ := Res.bind_eq_ok.1 h1
    obtain ⟨c, h5, h6⟩ := Res.bind_eq_ok.1 h4
    obtain ⟨B, h7, h8⟩ := Res.bind_eq_ok.1 h3
    have h6 := Res.ok.inj h6
    have h8 := Res.ok.inj h8
    subst h6 h8
    rfl
  · obtain ⟨ds, h1, h2⟩ := Res.bind_eq_ok.1 h
    have h2 : AnyDataset.plain ds = d := Res.ok.inj h2
    subst h2
    unfold Dataset.make at h1
    obtain ⟨B, h3, h4⟩ := Res.bind_eq_ok.1 h1
    have h4 := Res.ok.inj h4
    subst h4
    rfl

theorem oneStep_onObjects (name : Key) : ∀ {p : Prog α}, OneStep p → OneStep (p.onObjects name)
  | .ret _, _ => trivial
  | .act _ _ _, h => h.imp (fun h => ⟨h.1, fun v => oneStep_onObjects name (h.2 v)⟩) fun h v => by
    obtain ⟨r, hr⟩ := h v
    exact ⟨r, by show ((_ : Prog α).onObjects name) = _; rw [hr]; rfl⟩

/-! ### Where the requests stop -/

theorem afterOf_id (o : Option S3Obj) : afterOf id o = o := by
  unfold afterOf
  exact if_pos rfl

theorem step_oneStep {ks : List Key} (hn : ks.Nodup) {ts : List (Prog α)} {b : Bucket}
    (ht : ∀ (i : Nat) k t, ks[i]? = some k → ts[i]? = some t → TouchesOnly k t) (hl : ts.length = ks.length)
    (ho : ∀ t ∈ ts, OneStep t) (i : Nat) : (∀ t ∈ (stepObjects i (ts, b)).1, OneStep t) ∧
    ∀ (j : Nat) k t, ks[j]? = some k → ts[j]? = some t →
      (stepObjects i (ts, b)).2.get k = b.get k ∨ (stepObjects i (ts, b)).2.get k = (t.alone (b.get k)).2 := by
  unfold stepObjects
  split
  · next k f c h =>
    simp only at h ⊢
    have hi : i < ts.length := (List.getElem?_eq_some_iff.1 h).1
    have hk : ks[i]? = some k := by
      rw [List.getElem?_eq_getElem (hl ▸ hi)]
      exact congrArg some (ht i _ _ (List.getElem?_eq_getElem (hl ▸ hi)) h).1.symm
    have hone : OneStep (.act k f c) := ho _ (List.mem_of_getElem? h)
    refine ⟨fun t ht => ?_, fun j l t hj hg => ?_⟩
    · rcases List.mem_or_eq_of_mem_set ht with ht | rfl
      · exact ho t ht
      · rcases hone with h | h
        · exact h.2 _
        · obtain ⟨r, hr⟩ := h (b.content k)
          rw [hr]
          trivial
    · by_cases hij : i = j
      · subst hij
        rw [hk] at hj
        cases hj
        rw [h] at hg
        cases hg
        rw [onObject_self]
        rcases hone with ⟨rfl, _⟩ | h
        · exact .inl (afterOf_id _)
        · obtain ⟨r, hr⟩ := h (bytesOf (b.get k))
          refine .inr ?_
          show _ = ((c (bytesOf (b.get k))).alone _).2
          rw [hr]
          rfl
      · refine .inl (onObject_other ?_)
        rintro rfl
        obtain ⟨h1, h2⟩ := List.getElem?_eq_some_iff.1 hj
        obtain ⟨h3, h4⟩ := List.getElem?_eq_some_iff.1 hk
        exact hij ((List.getElem_inj hn).1 (h4.trans h2.symm))
  · exact ⟨ho, fun _ _ _ _ _ => .inl rfl⟩

theorem interleave_oneStep {ks : List Key} (hn : ks.Nodup) : ∀ (is : List Nat) {ts : List (Prog α)} {b : Bucket},
    (∀ (i : Nat) k t, ks[i]? = some k → ts[i]? = some t → TouchesOnly k t) → ts.length = ks.length → (∀ t ∈ ts, OneStep t) →
    ∀ (j : Nat) k t, ks[j]? = some k → ts[j]? = some t →
      (interleaveObjects is (ts, b)).2.get k = b.get k ∨ (interleaveObjects is (ts, b)).2.get k = (t.alone (b.get k)).2
  | [], _, _, _, _, _, _, _, _, _, _ => .inl rfl
  | i :: is, ts, b, ht, hl, ho, j, k, t, hj, hg => by
    obtain ⟨s1, s2, s3, s4, s5⟩ := step_alone hn (b := b) ht hl i
    obtain ⟨o1, o2⟩ := step_oneStep hn (b := b) ht hl ho i
    rw [interleaveObjects]
    generalize stepObjects i (ts, b) = c at s1 s2 s3 s4 s5 o1 o2 ⊢
    obtain ⟨ts', b'⟩ := c
    obtain ⟨t', h1, h2⟩ := s4 j k t hj hg
    rcases interleave_oneStep hn is (b := b') s3 s1 o1 j k t' hj h1 with e | e
    · rcases o2 j k t hj hg with e' | e'
      · exact .inl (e.trans e')
      · exact .inr (e.trans e')
    · exact .inr (e.trans (congrArg Prod.snd h2))

/-- Requests that stop anywhere: every object of a task is as before or as the task leaves it, all others are as before. -/
theorem stopped_objects {js : List (Key × Prog α)} (h : JobsOk js) (ho : ∀ j ∈ js, OneStep j.2) {b : Bucket} (hb : b.WF) (is : List Nat) :
    (interleaveObjects is (js.map Prod.snd, b)).2.WF ∧
    (∀ j ∈ js, (interleaveObjects is (js.map Prod.snd, b)).2.get j.1 = b.get j.1 ∨
      (interleaveObjects is (js.map Prod.snd, b)).2.get j.1 = (j.2.alone (b.get j.1)).2) ∧
    ∀ q, (∀ j ∈ js, q ≠ j.1) → (interleaveObjects is (js.map Prod.snd, b)).2.get q = b.get q := by
  have ht : ∀ (i : Nat) k t, (js.map Prod.fst)[i]? = some k → (js.map Prod.snd)[i]? = some t → TouchesOnly k t := by
    intro i k t hk ht
    rw [List.getElem?_map] at hk ht
    obtain ⟨j, hj, rfl⟩ := Option.map_eq_some_iff.1 hk
    rw [hj] at ht
    cases ht
    exact h.touches j (List.mem_of_getElem? hj)
  obtain ⟨k1, k2, k3, k4⟩ := interleave_alone (ks := js.map Prod.fst) h.nodup is (ts := js.map Prod.snd) (b := b) ht (by simp)
  refine ⟨k2 hb, fun j hj => ?_, fun q hq => k4 q fun hm => ?_⟩
  · obtain ⟨i, hi⟩ := List.getElem?_of_mem hj
    refine interleave_oneStep (ks := js.map Prod.fst) h.nodup is ht (by simp) (fun t ht => ?_) i j.1 j.2
      (by rw [List.getElem?_map, hi]; rfl) (by rw [List.getElem?_map, hi]; rfl)
    obtain ⟨j, hj, rfl⟩ := List.mem_map.1 ht
    exact ho j hj
  · obtain ⟨j, hj, e⟩ := List.mem_map.1 hm
    exact hq j hj e.symm

end Z5
