import Verif.Spec.Together
import Verif.Proofs.Together
import Verif.Proofs.ContainerBytes
import Verif.Proofs.ContainerHist

/-!
# Calls on the arrays of a container at the same time (for C88)
-/

namespace Z5
open Spec Prog

theorem inRegion_of_inChunk : ∀ {shape b c x : List Nat}, InChunk shape b c x → InRegion x (mulV c b) b
  | [], [], [], [], _ => trivial
  | s :: ss, b :: bs, c :: cs, x :: xs, h => by
    have h1 : c * b ≤ x ∧ x < (c + 1) * b ∧ x < s := h.1
    refine ⟨?_, inRegion_of_inChunk h.2⟩
    rw [Nat.add_mul, Nat.one_mul] at h1
    exact ⟨h1.1, h1.2.1⟩

namespace AnyDataset

variable {E : Elem} {d : AnyDataset E}

/-- the tasks of a call have a file each -/
theorem Starts.jobs (h : d.WF) {w : Write E.T} {ts : List (Prog Unit)} (hs : d.Starts w ts) :
    ∃ ks : List (Key × Prog Unit), ts = ks.map Prod.snd ∧ JobsOk ks ∧ ∀ k ∈ ks, d.Touched w.off w.shape k.1 := by
  have one : ∀ {κ : Key} {s : Prog Unit} {off shape : List Nat}, d.Touched off shape κ → TouchesOnly κ s →
      ∃ ks : List (Key × Prog Unit), [s] = ks.map Prod.snd ∧ JobsOk ks ∧ ∀ k ∈ ks, d.Touched off shape k.1 := by
    intro κ s off shape h1 h2
    exact ⟨[(κ, s)], rfl, ⟨fun j hj => by rw [List.mem_singleton.1 hj]; exact h2, by simp⟩,
      fun k hk => by rw [List.mem_singleton.1 hk]; exact h1⟩
  cases hs with
  | region call val scratch _ hv hval hts =>
    cases d with
    | plain ds =>
      have hts' : ds.writeRegion call.request call.off call.shape scratch = .ok ts := by cases call <;> exact hts
      rw [writeRegion_jobs h hv.1] at hts'
      cases hts'
      refine ⟨_, rfl, jobsOk h hv.1 _ _, fun j hj => ?_⟩
      obtain ⟨c, hc, i, rfl⟩ := mem_jobs hj
      obtain ⟨x, h1, h2⟩ := (h.mem_overlap hv.1).1 hc
      exact ⟨c, x, h1, h2, rfl⟩
    | sharded sd =>
      have hts' : sd.writeRegion call.request call.off call.shape scratch = .ok ts := by cases call <;> exact hts
      have hw : sd.canWrite = true := by
        cases hw : sd.canWrite with
        | true => rfl
        | false =>
          unfold ShardedDataset.writeRegion at hts'
          rw [h.base.requestChunks_ok hv.1, Res.ok_bind, hw] at hts'
          cases hts'
      rw [ShardedDataset.writeRegion_jobs h hw hv.1] at hts'
      cases hts'
      refine ⟨_, rfl, ShardedDataset.jobsOk h hv.1 _ _, fun j hj => ?_⟩
      obtain ⟨g, hg, i, rfl⟩ := ShardedDataset.mem_jobs hj
      obtain ⟨x, h1, h2⟩ := (h.mem_group_ids hv.1).1 (List.mem_map.2 ⟨g, hg, rfl⟩)
      exact ⟨g.1, x, h1, h2, rfl⟩
  | chunk c data val hc hl hval =>
    cases d with
    | plain ds =>
      have hx := exists_inChunk h.dims.axes hc
      exact one ⟨c, _, InStored.of_inChunk hx, hx, rfl⟩ (touches_writeChunk ..)
    | sharded sd =>
      have hx := exists_inChunk h.base.dims.axes hc
      refine one ⟨sd.shardOf c, _, inRegion_of_inChunk hx, h.inChunk_shard hx, rfl⟩ ?_
      show TouchesOnly _ (sd.writeChunk c data)
      unfold ShardedDataset.writeChunk
      split
      · trivial
      · exact TouchesOnly.bind (TouchesOnly.ret _) fun _ => TouchesOnly.bind (TouchesOnly.ret _) fun _ =>
          TouchesOnly.bind (TouchesOnly.ret _) fun _ => ShardedDataset.touches_writeInnerBlob h hc _
  | remove c hc =>
    cases d with
    | plain ds =>
      have hx := exists_inChunk h.dims.axes hc
      exact one ⟨c, _, InStored.of_inChunk hx, hx, rfl⟩ (Props.touches_removeChunk ..)
    | sharded sd =>
      have hx := exists_inChunk h.base.dims.axes hc
      exact one ⟨sd.shardOf c, _, inRegion_of_inChunk hx, h.inChunk_shard hx, rfl⟩
        (ShardedDataset.touches_writeInnerBlob h hc _)

theorem Starts.performs {w : Write E.T} {ts : List (Prog Unit)} (hs : d.Starts w ts) {p : Path} {is : List Nat} {σ σ' : Fs}
    (hc : d.Completes p ts is σ σ') : d.Performs p w σ σ' := by
  cases hs with
  | region call val scratch _ hv hval hts => exact .region call val scratch ts is hv hval hts hc
  | chunk c data val h hl hval => exact .chunk c data val is h hl hval hc
  | remove c h => exact .remove c is h hc

theorem WF.fileKey_inj (h : d.WF) {a b : List Nat} (ha : InGrid d.base.shape d.fileShape a) (hb : InGrid d.base.shape d.fileShape b)
    (he : d.fileKey a = d.fileKey b) : a = b := by
  cases d with
  | plain ds => exact Dataset.WF.key_inj h ha hb he
  | sharded sd => exact ShardedDataset.WF.skey_inj h ha hb he

/-- the part of an element -/
theorem WF.exists_part (h : d.WF) {y : List Nat} (hy : InBox y d.base.shape) : ∃ c, InChunk d.base.shape d.fileShape c y := by
  cases d with
  | plain ds => exact ⟨_, (inChunk_iff_div (c := divV y ds.chunkShape) h.dims.axes).2 ⟨hy, rfl⟩⟩
  | sharded sd =>
    obtain ⟨c, hc⟩ := ShardedDataset.WF.exists_chunk h hy
    exact ⟨_, h.inChunk_shard hc⟩

end AnyDataset

/-! ### What the objects of an array have in common -/

/-- the objects of an array, and its files -/
structure ArrayFacts {Ty : ElemTypes} (C : Container) (p : Path) (x : ArrayItem Ty) (σ : Fs) (fk : List Nat → Key)
    (o : DatasetObj) (d : AnyDataset (Ty.elem x.dtype)) : Prop where
  wf : d.WF
  plain : d.PlainKeys
  mode : d.base.canWrite = o.handle.mode.canWrite
  shape : d.base.shape = x.shape
  part : d.fileShape = x.shards.getD x.chunks
  keys : ∀ c, d.fileKey c = fk c
  tidy : Tidy (C.root ++ p) d.IsKey σ

namespace Container

variable {Ty : ElemTypes} {C : Container} {L : Libs} {os : List (Path × DatasetObj)} {σ σ' : Fs} {p : Path} {x : ArrayItem Ty}

theorem part_getD {x : ArrayItem Ty} {a : ArrayDesc} (h1 : a.chunks = x.chunks)
    (h2 : x.shards = if a.shards = [] then none else some a.shards) : a.part = x.shards.getD x.chunks := by
  unfold ArrayDesc.part
  rw [h2]
  split
  · exact h1
  · rfl

theorem ArrayAt.facts (hL : L.Lawful) (h : C.ArrayAt L os σ p x) : ∃ fk : List Nat → Key, ∀ o, (p, o) ∈ os → ∀ d,
    o.typed L (Ty.cast x.dtype) = .ok d → ArrayFacts C p x σ fk o d := by
  rcases h with h | h
  · obtain ⟨o₀, d₀, os', ws, h⟩ := h
    obtain ⟨m, cfg, h1, h2, h3⟩ := h.sessions.carries (h.is.law hL) h.is.desc h.is.typed h.is.wf h.is.keys
    obtain ⟨a, f, s, _⟩ := h.sessions.stated (h.is.law hL) h.is.desc h.is.typed h.is.wf h.is.keys
    refine ⟨d₀.fileKey, fun o ho d hd => ?_⟩
    obtain ⟨t1, t2, t3, t4⟩ := (h3 o (h.objects o ho)).typed h1.self h1.shard (h.is.law hL) h.is.typed
    rw [t1] at hd
    have hd := Res.ok.inj hd
    subst hd
    refine ⟨AnyDataset.variant_wf t2 h.is.wf, AnyDataset.variant_plainKeys t2 h.is.keys, by rw [AnyDataset.variant_base]; rfl, ?_, ?_,
      fun c => ?_, by rw [AnyDataset.variant_isKey t2]; exact h2.tidy⟩
    · rw [AnyDataset.variant_base, ← h.is.shape, ← t3]; rfl
    · rw [← part_getD (a := a) (s.chunks.trans h.is.chunks) (by rw [s.shards]; exact h.is.sharding), ← s.part]
      cases d₀ <;> rfl
    · unfold AnyDataset.fileKey
      rw [AnyDataset.variant_base]
      exact t2.keys c
  · obtain ⟨σ₀, a, A₀, os', ws, h⟩ := h
    obtain ⟨f, v, e⟩ := h.now hL
    obtain ⟨A', e1, _⟩ := e.holds
    refine ⟨a.fileName C.layout, fun o ho d hd => ?_⟩
    obtain ⟨d', g⟩ := e.objects o (h.objects o ho)
    have := g.stands.typed
    rw [hd] at this
    cases this
    exact ⟨g.stands.wf, g.stands.plain, g.stands.base.2.2, g.stands.base.1.trans h.is.shape,
      g.part.trans (part_getD h.is.chunks h.is.shards), fun c => congrFun g.names c, g.key ▸ e1.tidy⟩

end Container
end Z5
