import Verif.Model.Remove
import Verif.Props.Persist
import Verif.Props.ShardedFunctions
import Verif.Props.Files
import Verif.Props.Classify

/-!
# Lemmas for C65
-/

namespace Z5
open Spec Prog

variable {E : Elem} {p : Path} {α : Type}

/-! ### Running a program alone is a schedule -/

theorem FsProg.run_schedule : ∀ (t : FsProg α) (σ : Fs),
    ∃ n, FsProg.interleave (List.replicate n 0) ([t], σ) = ([.ret (t.run σ).1], (t.run σ).2)
  | .ret r, σ => ⟨0, rfl⟩
  | .act f c, σ => by
    obtain ⟨n, hn⟩ := run_schedule (c σ) (f σ)
    exact ⟨n + 1, hn⟩

namespace AnyDataset
variable {d : AnyDataset E}

/-- a program on one file, on the file system and on the store -/
theorem run_onFiles (hk : d.PlainKeys) {σ : Fs} (ht : Tidy p d.IsKey σ) {s : Prog α} {κ : Key} (hκ : d.IsKey κ)
    (hs : TouchesOnly κ s) :
    ((s.onFiles p d.base.key.nested).run σ).1 = (Prog.run s (σ.chunks p)).1 ∧
    Tidy p d.IsKey ((s.onFiles p d.base.key.nested).run σ).2 ∧
    OnlyChunks p d.IsKey σ ((s.onFiles p d.base.key.nested).run σ).2 ∧
    ((s.onFiles p d.base.key.nested).run σ).2.chunks p = (Prog.run s (σ.chunks p)).2 := by
  obtain ⟨n, hn⟩ := FsProg.run_schedule (s.onFiles p d.base.key.nested) σ
  obtain ⟨h1, h2, js, h3, h4⟩ := onFiles_sim hk ht (ts := [s]) (fun _ hk => hk)
    (fun s' hs' => by rw [List.mem_singleton.1 hs']; exact within_of_touches hκ hs) (List.replicate n 0)
  have e : d.onFiles p [s] = [s.onFiles p d.base.key.nested] := rfl
  rw [e, hn] at h1 h2 h3 h4
  obtain ⟨h5, h6⟩ := finished_one hs (h4 [_] rfl)
  exact ⟨(List.cons.inj h5).1, h1, h2, by rw [← h3, h6]⟩

end AnyDataset

theorem OnlyChunks.frame {K : Key → Prop} {σ σ' : Fs} (h : OnlyChunks p K σ σ') {q : Path} (hq : ¬ p <+: q) :
    σ' q = σ q := by
  rcases h q with ⟨k, _, e⟩ | e | ⟨_, _, k, _, h1, _, _⟩
  · exact absurd (by rw [e]; unfold chunkFile; exact List.prefix_append _ _) hq
  · exact e
  · exact absurd h1 hq

theorem without_eq {σ σ' : Fs} (h : ∀ q, ¬ p <+: q → σ' q = σ q) : σ'.without p = σ.without p := by
  funext q
  unfold Fs.without
  by_cases hq : p <+: q
  · rw [if_pos hq, if_pos hq]
  · rw [if_neg hq, if_neg hq, h q hq]

theorem DatasetHandle.remove_run {g : DatasetHandle} {σ : Fs} (hw : g.mode.canWrite = true) (he : σ g.path ≠ none) :
    g.remove σ = (.ok (), σ.without g.path) := by
  have : (σ g.path).isSome = true := by
    cases h : σ g.path with
    | none => exact absurd h he
    | some _ => rfl
  unfold DatasetHandle.remove
  simp only [hw, FsM.bind_run, FsM.exist_run, FsM.ite_run, this, Bool.not_true, Bool.false_eq_true, if_false]
  rfl

/-! ### The calls of `removeDataset` -/

/-- chunks of shards: the call for one chunk -/
theorem ShardedDataset.run_removeTask {sd : ShardedDataset E} (h : sd.WF) (hw : sd.canWrite = true) {c : List Nat}
    (hc : InGrid sd.shape sd.chunkShape c) {σ : Store} (hval : sd.Valid σ) :
    (Prog.run (removeTask (sd.chunkExists c) (sd.removeChunk c)) σ).1 = .throw .lengthError ∨
    ((Prog.run (removeTask (sd.chunkExists c) (sd.removeChunk c)) σ).1 = .ok () ∧
      sd.Valid (Prog.run (removeTask (sd.chunkExists c) (sd.removeChunk c)) σ).2) := by
  unfold removeTask
  rw [Z5.run_bind_ok (run_readRawChunk h hval hc).2]
  cases (sd.blobAt σ c).isSome with
  | false => exact .inr ⟨rfl, hval⟩
  | true =>
    simp only [Bool.not_true, Bool.false_eq_true, if_false]
    have hlen : (Prog.run (sd.removeChunk c) σ).1 = .ok () ∨
        (Prog.run (sd.removeChunk c) σ).1 = .throw .lengthError := by
      obtain ⟨bs, hbs⟩ := hval _ (h.shard_inGrid hc)
      have hlt := h.slot_lt hc
      have hl := hbs.length
      show (Prog.run (sd.writeInnerBlob c none) σ).1 = _ ∨ (Prog.run (sd.writeInnerBlob c none) σ).1 = _
      rw [run_of_touches (touches_writeInnerBlob h hc none)]
      unfold writeInnerBlob
      rw [h.shardId_ok hc, bind_ok, h.shardSlot_ok hc, bind_ok,
        exec1_bind_ok (readShardBlobs_exec h (h.shard_inGrid hc) hbs), if_neg (by omega)]
      exact writeShardBlobs_total h hw (h.shard_inGrid hc) _
    rcases writeInnerBlob_effect h hw hc none hval with ⟨e, he⟩ | ⟨σ', he, hv, _⟩
    · left
      have he : Prog.run (sd.removeChunk c) σ = (.throw e, σ) := he
      rw [he] at hlen ⊢
      rcases hlen with h | h
      · cases h
      · exact h
    · right
      have he : Prog.run (sd.removeChunk c) σ = (.ok (), σ') := he
      rw [he]
      exact ⟨rfl, hv.1⟩

theorem ShardedDataset.touches_removeTask {sd : ShardedDataset E} (h : sd.WF) {c : List Nat}
    (hc : InGrid sd.shape sd.chunkShape c) :
    TouchesOnly (sd.skey (sd.shardOf c)) (removeTask (sd.chunkExists c) (sd.removeChunk c)) := by
  unfold removeTask
  refine TouchesOnly.bind (touches_chunkExists h hc) fun b => ?_
  split
  · exact TouchesOnly.ret _
  · exact touches_writeInnerBlob h hc none

/-- What the calls need: the shards are intact. -/
def AnyDataset.Intact (d : AnyDataset E) (τ : Store) : Prop :=
  match d with
  | .plain _ => True
  | .sharded sd => sd.Valid τ

/-- The calls of the loop: each works on one file of the dataset, and on intact shards it succeeds and leaves them
    intact (a shard could only become too large). -/
theorem AnyDataset.removeDataset_calls {d : AnyDataset E} (h : d.WF) (hw : d.base.canWrite = true)
    (hfit : prod (blocksPerDimension d.base.shape d.base.chunkShape) < 2 ^ 64) :
    ∃ ts, d.removeDataset = .ok ts ∧ ∀ t ∈ ts, ∃ κ, d.IsKey κ ∧ TouchesOnly κ t ∧ ∀ τ, d.Intact τ →
      ((Prog.run t τ).1 = .ok () ∧ d.Intact (Prog.run t τ).2) ∨
      ((Prog.run t τ).1 = .throw .lengthError ∧ ∃ sd, d = .sharded sd) := by
  cases d with
  | plain ds =>
    have hw : ds.canWrite = true := hw
    unfold AnyDataset.removeDataset Dataset.removeDataset
    simp only
    rw [if_neg (by simp [hw]), Props.eachChunk_eq h hfit]
    refine ⟨_, rfl, fun t ht => ?_⟩
    obtain ⟨c, hc, rfl⟩ := List.mem_map.1 ht
    have hc := (Props.mem_gridList h).1 hc
    refine ⟨ds.chunkKey c, ⟨c, hc, rfl⟩, Props.touches_removeTask ds c, fun τ _ => .inl ⟨?_, trivial⟩⟩
    rw [run_of_touches (Props.touches_removeTask ds c), Props.exec_removeTask h hw hc]
  | sharded sd =>
    have hw : sd.canWrite = true := hw
    have h : sd.WF := h
    unfold AnyDataset.removeDataset ShardedDataset.removeDataset
    simp only
    rw [if_neg (by simp [hw]), Props.eachChunk_eq h.base hfit]
    refine ⟨_, rfl, fun t ht => ?_⟩
    obtain ⟨c, hc, rfl⟩ := List.mem_map.1 ht
    have hc := (Props.mem_gridList h.base).1 hc
    refine ⟨_, ⟨_, h.shard_inGrid hc, rfl⟩, ShardedDataset.touches_removeTask h hc, fun τ hτ => ?_⟩
    rcases ShardedDataset.run_removeTask h hw hc hτ with h1 | h1
    · exact .inr ⟨h1, sd, rfl⟩
    · exact .inl h1

theorem runEach_calls {d : AnyDataset E} (hk : d.PlainKeys) : ∀ {ts : List (Prog Unit)},
    (∀ t ∈ ts, ∃ κ, d.IsKey κ ∧ TouchesOnly κ t ∧ ∀ τ, d.Intact τ →
      ((Prog.run t τ).1 = .ok () ∧ d.Intact (Prog.run t τ).2) ∨
      ((Prog.run t τ).1 = .throw .lengthError ∧ ∃ sd, d = .sharded sd)) →
    ∀ {σ : Fs}, Tidy p d.IsKey σ → d.Intact (σ.chunks p) →
    ∃ r σ', FsProg.runEach (ts.map (·.onFiles p d.base.key.nested)) σ = (r, σ') ∧ Tidy p d.IsKey σ' ∧
      OnlyChunks p d.IsKey σ σ' ∧ (r = .ok () ∨ (r = .throw .lengthError ∧ ∃ sd, d = .sharded sd))
  | [], _, σ, ht, _ => ⟨.ok (), σ, rfl, ht, .refl σ, .inl rfl⟩
  | t :: ts, hall, σ, ht, hi => by
    obtain ⟨κ, hκ, hto, hrun⟩ := hall t (List.mem_cons_self ..)
    obtain ⟨h1, h2, h3, h4⟩ := AnyDataset.run_onFiles hk ht hκ hto
    have hstep : FsProg.runEach ((t :: ts).map (·.onFiles p d.base.key.nested)) σ =
        (match ((t.onFiles p d.base.key.nested).run σ).1 with
        | .ok _ => FsProg.runEach (ts.map (·.onFiles p d.base.key.nested)) ((t.onFiles p d.base.key.nested).run σ).2
        | .throw e => (.throw e, ((t.onFiles p d.base.key.nested).run σ).2)
        | .ub => (.ub, ((t.onFiles p d.base.key.nested).run σ).2)) := by
      rw [List.map_cons, FsProg.runEach, FsM.bind_run]
      unfold FsProg.alone
      cases (t.onFiles p d.base.key.nested).run σ with
      | mk r σ1 => cases r <;> rfl
    rw [hstep, h1]
    rcases hrun _ hi with ⟨e, hi'⟩ | ⟨e, hsd⟩
    · rw [e]
      obtain ⟨r, σ', g1, g2, g3, g4⟩ := runEach_calls hk (fun t ht => hall t (List.mem_cons_of_mem _ ht)) h2
        (by rw [h4]; exact hi')
      exact ⟨r, σ', g1, g2, h3.trans g3, g4⟩
    · rw [e]
      exact ⟨_, _, rfl, h2, h3, .inr ⟨rfl, hsd⟩⟩

/-! ### The documents of the dataset -/

theorem Carries.isSubGroup {o₀ : DatasetObj} {m : Meta} {cfg : ChunkConfig} {d : AnyDataset E} {S : List Nat → E.T}
    {σ : Fs} (h : Carries p o₀ m cfg d S σ) {g : GroupHandle} {key : Path} (hp : g.path ++ key = p)
    (hz : o₀.info.isZarr = true → g.isZarr σ = (.ok true, σ)) :
    ∃ b, g.isSubGroup key σ = (.ok b, σ) ∧ (g.isZarr σ = (.ok o₀.info.isZarr, σ) → b = false) := by
  have hdir : σ (g.path ++ key) = some .dir := by rw [hp]; exact h.tidy.above _ (List.prefix_refl _)
  obtain ⟨z, hz'⟩ : ∃ z, g.isZarr σ = (.ok z, σ) := by
    rw [group_isZarr, h.tidy.above _ (by rw [← hp]; exact List.prefix_append _ _)]
    exact ⟨_, rfl⟩
  have hlz := o₀.layout_isZarr
  have hk := h.kind
  have hnode := h.node
  cases hL : o₀.layout with
  | v2 =>
    rw [hL] at hlz hk hnode
    have hzz := hz hlz.symm
    refine ⟨false, ?_, fun _ => rfl⟩
    have hk : σ (p ++ [".zgroup"]) = none := hk
    rw [isSubGroup_zarr hzz, hdir, hp, hnode.v2 rfl, hk]
    rfl
  | v3 =>
    rw [hL] at hlz hk hnode
    have hzz := hz hlz.symm
    refine ⟨false, ?_, fun _ => rfl⟩
    obtain ⟨j, hj, ⟨l, rfl, _⟩, _⟩ := hnode.v3 rfl
    have hk : (σ.docAt (p ++ ["zarr.json"])).bind (·.find "node_type") = some (.str "array") := hk
    have hd : σ.docAt (p ++ ["zarr.json"]) = some (.obj l) := by
      unfold Fs.docAt
      rw [hj]
    rw [hd] at hk
    have hk : assocGet l "node_type" = some (.str "array") := hk
    rw [isSubGroup_zarr hzz, hdir, hp, hd, hj]
    simp only [Option.isSome_some, if_true]
    refine Prod.ext ?_ rfl
    show (Json.valueStr (.obj l) "node_type" "group").bind _ = _
    unfold Json.valueStr
    simp only [hk]
    rfl
  | n5 =>
    rw [hL] at hlz hk hnode
    have hn : σ (p ++ ["attributes.json"]) ≠ none := h.n5 hL
    cases z with
    | false =>
      refine ⟨false, ?_, fun _ => rfl⟩
      rw [isSubGroup_attributes_n5 (by rw [hp]; exact hnode) hz', hp]
      rw [show ((n5DatasetKeys.filter fun k => (σ.attributes p .n5 k).isSome).length == 4) = true from hk]
      rfl
    | true =>
      have hinfo := h.info
      have hv : σ (p ++ ["zarr.json"]) = none := by
        rw [readDatasetMetadata_run] at hinfo
        cases hv : σ (p ++ ["zarr.json"]) with
        | none => rfl
        | some x =>
          cases hna : σ (p ++ ["attributes.json"]) with
          | none => exact absurd hna hn
          | some y =>
            rw [hv, hna] at hinfo
            simp at hinfo
      refine ⟨(σ (p ++ [".zgroup"])).isSome, ?_, fun e => ?_⟩
      · rw [isSubGroup_zarr hz', hdir, hp, hv]
        rfl
      · rw [hz', ← hlz] at e
        cases e

end Z5
