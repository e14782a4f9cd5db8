import Verif.Proofs.FileStore
import Verif.Spec.FileStore
import Verif.Props.Schedule
import Verif.Props.Sharded
import Verif.Props.Functions

/-!
# Datasets in directories (C63)
-/

namespace Z5
open Spec Prog

variable {α : Type} {E : Elem} {p : Path} {σ : Fs}

theorem within_of_touches {κ : Key} {K : Key → Prop} (hk : K κ) : ∀ {s : Prog α}, TouchesOnly κ s → s.Within K
  | .ret _, _ => trivial
  | .act _ _ _, h => ⟨h.1 ▸ hk, fun v => within_of_touches hk (h.2 v)⟩

theorem Prog.Within.mono {K K' : Key → Prop} (hk : ∀ k, K k → K' k) : ∀ {s : Prog α}, s.Within K → s.Within K'
  | .ret _, _ => trivial
  | .act _ _ _, h => ⟨hk _ h.1, fun v => Within.mono hk (h.2 v)⟩

theorem Tidy.mono {K K' : Key → Prop} (h : Tidy p K σ) (hk : ∀ k, K' k → K k) : Tidy p K' σ :=
  ⟨h.above, fun k hk' => h.files k (hk k hk'), fun k hk' => h.dirs k (hk k hk')⟩

theorem KeysFit.mono {n : Bool} {K K' : Key → Prop} (h : KeysFit n K) (hk : ∀ k, K' k → K k) : KeysFit n K' :=
  ⟨fun k k' a b => h.level k k' (hk k a) (hk k' b), fun hn k a => h.flat hn k (hk k a)⟩

theorem OnlyChunks.mono {K K' : Key → Prop} {σ' : Fs} (h : OnlyChunks p K σ σ') (hk : ∀ k, K k → K' k) :
    OnlyChunks p K' σ σ' := by
  intro q
  rcases h q with ⟨k, h1, h2⟩ | h1 | ⟨h1, h2, k, h3, h4⟩
  · exact .inl ⟨k, hk k h1, h2⟩
  · exact .inr (.inl h1)
  · exact .inr (.inr ⟨h1, h2, k, hk k h3, h4⟩)

theorem all₂_inGrid_length {shape b c : List Nat} (h : InGrid shape b c) : c.length = shape.length := by
  have := All₃.length_eq h
  omega

theorem getChunkKey_flat {k : KeyCfg} (hn : k.nested = false) (hd : '/' ∉ k.delimiter) (c : List Nat) :
    (getChunkKey k c).count '/' = 0 := by
  have hz : k.isZarr = true := by
    cases hz : k.isZarr with
    | true => rfl
    | false => unfold KeyCfg.nested at hn; rw [hz] at hn; simp at hn
  have hc : k.delimiter.count '/' = 0 := List.count_eq_zero.2 hd
  have htail : ∀ is : List Nat, (tailStr k.delimiter is).count '/' = 0 := fun is => by
    rw [count_tailStr (by decide), hc, Nat.mul_zero]
  unfold getChunkKey
  rw [if_pos hz]
  split
  · rw [v3KeyLoop_eq, List.count_append, htail]
    rfl
  · cases c with
    | nil => rfl
    | cons i is =>
      rw [join_cons, List.count_append, htail, count_digit (by decide)]

/-! ### Programs that only read -/

theorem step_readOnly_files {nested : Bool} {c : List (FsProg α) × Fs} (h : ∀ t ∈ c.1, ∃ s : Prog α, ReadOnly s ∧
    (t = s.onFiles p nested)) (i : Nat) :
    (FsProg.step i c).2 = c.2 ∧ ∀ t ∈ (FsProg.step i c).1, ∃ s : Prog α, ReadOnly s ∧ (t = s.onFiles p nested) := by
  unfold FsProg.step
  split
  · next f cont hi =>
    obtain ⟨s, hs, he⟩ := h _ (List.mem_of_getElem? hi)
    cases s with
    | ret r => cases he
    | act k g c' =>
      unfold Prog.onFiles at he
      dsimp only at he
      rw [if_neg (by rw [hs.1]; decide)] at he
      cases he
      refine ⟨?_, ?_⟩
      · show (if _ then _ else _) = _
        split
        · rfl
        · next hf =>
          funext q
          show (if _ then _ else _) = _
          split
          · next hq =>
            subst hq
            rw [hs.1]
            revert hf
            cases c.2 (chunkFile p k) with
            | none => exact fun _ => rfl
            | some e => cases e <;> intro hf <;> first | rfl | exact absurd rfl hf
          · rfl
      · intro t ht
        rcases List.mem_or_eq_of_mem_set ht with ht | rfl
        · exact h t ht
        · by_cases hf : isForeign (c.2 (chunkFile p k)) = true
          · exact ⟨.ret _, trivial, if_pos hf⟩
          · exact ⟨_, hs.2 _, if_neg hf⟩
  · exact ⟨rfl, h⟩

theorem interleave_readOnly_files {nested : Bool} : ∀ (is : List Nat) {c : List (FsProg α) × Fs},
    (∀ t ∈ c.1, ∃ s : Prog α, ReadOnly s ∧ (t = s.onFiles p nested)) → (FsProg.interleave is c).2 = c.2
  | [], _, _ => rfl
  | i :: is, c, h => by
    obtain ⟨h1, h2⟩ := step_readOnly_files h i
    rw [FsProg.interleave, interleave_readOnly_files is h2, h1]

/-! ### Datasets -/

namespace AnyDataset

variable {d : AnyDataset E}

theorem keysFit (hk : d.PlainKeys) : KeysFit d.base.key.nested d.IsKey := by
  constructor
  · rintro _ _ ⟨a, ha, rfl⟩ ⟨b, hb, rfl⟩
    exact count_key (by decide) _ (by rw [all₂_inGrid_length ha, all₂_inGrid_length hb])
  · rintro hn _ ⟨a, ha, rfl⟩
    rcases hk with hk | hk
    · rw [hn] at hk; cases hk
    · exact getChunkKey_flat hn hk a

theorem Touched.isKey {off shape : List Nat} {k : Key} (h : d.Touched off shape k) : d.IsKey k := by
  obtain ⟨c, x, _, h2, rfl⟩ := h
  exact ⟨c, inGrid_of_inChunk h2, rfl⟩

theorem start_within (h : d.WF) {call : RegionCall E} (hv : call.Valid d.base) {scratch : Nat → List E.T}
    {ts : List (Prog Unit)} (hts : d.start call scratch = .ok ts) :
    ∀ s ∈ ts, s.Within (d.Touched call.off call.shape) := by
  cases d with
  | plain ds =>
    have hts' : ds.writeRegion call.request call.off call.shape scratch = .ok ts := by cases call <;> exact hts
    rw [writeRegion_jobs h hv.1] at hts'
    cases hts'
    intro s hs
    obtain ⟨j, hj, rfl⟩ := List.mem_map.1 hs
    obtain ⟨c, hc, i, rfl⟩ := mem_jobs hj
    obtain ⟨x, h1, h2⟩ := (h.mem_overlap hv.1).1 hc
    exact within_of_touches (κ := ds.chunkKey c) ⟨c, x, h1, h2, rfl⟩ (touches_writeTask ..)
  | sharded sd =>
    have hts' : sd.writeRegion call.request call.off call.shape scratch = .ok ts := by cases call <;> exact hts
    have hw : sd.canWrite = true := by
      cases hw : sd.canWrite with
      | true => rfl
      | false =>
        unfold ShardedDataset.writeRegion at hts'
        rw [h.base.requestChunks_ok hv.1, Res.ok_bind, hw] at hts'
        cases hts'
    rw [ShardedDataset.writeRegion_jobs h hw hv.1] at hts'
    cases hts'
    intro s hs
    obtain ⟨j, hj, rfl⟩ := List.mem_map.1 hs
    obtain ⟨g, hg, i, rfl⟩ := ShardedDataset.mem_jobs hj
    obtain ⟨x, h1, h2⟩ := (h.mem_group_ids hv.1).1 (List.mem_map.2 ⟨g, hg, rfl⟩)
    exact within_of_touches (κ := sd.skey g.1) ⟨g.1, x, h1, h2, rfl⟩ (ShardedDataset.touches_writeShardTask ..)

theorem read_within (h : d.WF) {out : View} {off : List Nat} (hr : RegionOk d.base.shape off out.shape)
    {scratch : Nat → List E.T} {ts : List (Prog (List (Nat × E.T)))} (hts : d.readSubarray out off scratch = .ok ts) :
    ∀ s ∈ ts, s.Within d.IsKey ∧ ReadOnly s := by
  cases d with
  | plain ds =>
    intro s hs
    refine ⟨?_, Props.readSubarray_readOnly hts s hs⟩
    change ds.readSubarray out off scratch = .ok ts at hts
    rw [Dataset.readSubarray, h.requestChunks_ok hr, Res.ok_bind] at hts
    cases hts
    obtain ⟨i, hi, rfl⟩ := List.getElem_of_mem hs
    rw [List.getElem_mapIdx]
    refine within_of_touches (κ := ds.chunkKey _) ⟨_, ?_, rfl⟩ (touches_readTask ..)
    obtain ⟨x, h1, h2⟩ := (h.mem_overlap hr).1 (List.getElem_mem (by simpa using hi))
    exact inGrid_of_inChunk h2
  | sharded sd =>
    intro s hs
    refine ⟨?_, Props.shardedRead_readOnly hts s hs⟩
    change sd.readSubarray out off scratch = .ok ts at hts
    rw [ShardedDataset.readSubarray, h.base.requestChunks_ok hr, Res.ok_bind, h.cps_ok, Res.ok_bind,
      (h.groups_ok hr).1] at hts
    cases hts
    obtain ⟨i, hi, rfl⟩ := List.getElem_of_mem hs
    rw [List.getElem_mapIdx]
    exact within_of_touches (κ := sd.skey _) ⟨_, h.group_inGrid hr (List.getElem_mem (by simpa using hi)), rfl⟩
      (ShardedDataset.touches_readShardTask ..)

theorem writeChunk_touches (h : d.WF) {c : List Nat} (hc : InGrid d.base.shape d.base.chunkShape c) (data : List E.T) :
    ∃ κ, d.IsKey κ ∧ TouchesOnly κ (d.writeChunk c data) := by
  cases d with
  | plain ds => exact ⟨ds.chunkKey c, ⟨c, hc, rfl⟩, touches_writeChunk ..⟩
  | sharded sd =>
    refine ⟨sd.skey (sd.shardOf c), ⟨_, h.shard_inGrid hc, rfl⟩, ?_⟩
    show TouchesOnly _ (sd.writeChunk c data)
    unfold ShardedDataset.writeChunk
    split
    · trivial
    · exact TouchesOnly.bind (TouchesOnly.ret _) fun _ => TouchesOnly.bind (TouchesOnly.ret _) fun _ =>
        TouchesOnly.bind (TouchesOnly.ret _) fun _ => ShardedDataset.touches_writeInnerBlob h hc _

theorem removeChunk_touches (h : d.WF) {c : List Nat} (hc : InGrid d.base.shape d.base.chunkShape c) :
    ∃ κ, d.IsKey κ ∧ TouchesOnly κ (d.removeChunk c) := by
  cases d with
  | plain ds => exact ⟨ds.chunkKey c, ⟨c, hc, rfl⟩, Props.touches_removeChunk ..⟩
  | sharded sd => exact ⟨sd.skey (sd.shardOf c), ⟨_, h.shard_inGrid hc, rfl⟩, ShardedDataset.touches_writeInnerBlob h hc _⟩

/-! ### Refinement -/

/-- the dataset in directory `p` holds the array `S` -/
def Holds (d : AnyDataset E) (p : Path) (σ : Fs) (S : List Nat → E.T) : Prop :=
  match d with
  | plain ds => Refines ds (σ.chunks p) S
  | sharded sd => sd.SRefines (σ.chunks p) S

theorem onFiles_sim (hk : d.PlainKeys) {σ : Fs} (ht : Tidy p d.IsKey σ) {ts : List (Prog α)} {K : Key → Prop}
    (hK : ∀ k, K k → d.IsKey k) (hw : ∀ s ∈ ts, s.Within K) (is : List Nat) :
    Tidy p d.IsKey (FsProg.interleave is (d.onFiles p ts, σ)).2 ∧
    OnlyChunks p K σ (FsProg.interleave is (d.onFiles p ts, σ)).2 ∧
    ∃ js, (Prog.interleave js (ts, σ.chunks p)).2 = (FsProg.interleave is (d.onFiles p ts, σ)).2.chunks p ∧
      ∀ rs, FsProg.Finished (FsProg.interleave is (d.onFiles p ts, σ)).1 rs →
        Prog.Finished (Prog.interleave js (ts, σ.chunks p)).1 rs := by
  obtain ⟨h1, _, h3⟩ := onFiles_interleave (keysFit hk) ht (fun s hs => (hw s hs).mono hK) is rfl
  obtain ⟨_, h2, _⟩ := onFiles_interleave ((keysFit hk).mono hK) (ht.mono hK) hw is rfl
  exact ⟨h1, h2, h3⟩

theorem finished_one {s : Prog α} {κ : Key} (h : TouchesOnly κ s) {σ : Store} {js : List Nat} {rs : List (Res α)}
    (hf : Prog.Finished (Prog.interleave js ([s], σ)).1 rs) :
    rs = [(Prog.run s σ).1] ∧ (Prog.interleave js ([s], σ)).2 = (Prog.run s σ).2 := by
  have hj : JobsOk [(κ, s)] := ⟨fun j hj => by rw [List.mem_singleton.1 hj]; exact h, by simp⟩
  obtain ⟨h1, h2⟩ := finished_jobs hj hf
  rw [run_of_touches h]
  refine ⟨h2, h1.trans ?_⟩
  funext k
  by_cases hk : k = κ
  · subst hk
    show _ = σ.upd _ _ _
    rw [upd_same]
    exact finalOf_mem hj (List.mem_singleton.2 rfl) σ
  · show _ = σ.upd _ _ _
    rw [upd_other _ _ hk]
    exact finalOf_not_mem (fun j hj => by rw [List.mem_singleton.1 hj]; exact fun e => hk e.symm) σ

/-- What a successful call does. -/
theorem Performs.effect (h : d.WF) (hk : d.PlainKeys) (hw : d.base.canWrite = true) {w : Write E.T} {σ σ' : Fs}
    (ht : Tidy p d.IsKey σ) (hp : d.Performs p w σ σ') :
    Tidy p d.IsKey σ' ∧ OnlyChunks p d.IsKey σ σ' ∧
    ∀ S, d.Holds p σ S → d.Holds p σ' (override S w.off w.shape w.val) := by
  cases hp with
  | region call val scratch ts is hv hval hts hcomp =>
    obtain ⟨rs, hfin, hall, rfl⟩ := hcomp
    have hwi := start_within h hv hts
    obtain ⟨h1, h2, js, h3, h4⟩ := onFiles_sim hk ht (fun _ => Touched.isKey) hwi is
    refine ⟨h1, h2.mono fun _ => Touched.isKey, fun S hS => ?_⟩
    have hf := h4 rs hfin
    cases d with
    | plain ds =>
      have hts' : ds.writeRegion call.request call.off call.shape scratch = .ok ts := by cases call <;> exact hts
      have := (writeRegion_refines h hw hv.1 (ShardedDataset.request_spec hv hval) hS hts' hf).2.2 hall
      show Refines ds _ _
      rw [← h3]
      exact this
    | sharded sd =>
      have hts' : sd.writeRegion call.request call.off call.shape scratch = .ok ts := by cases call <;> exact hts
      have := (ShardedDataset.writeRegion_refines h hw hv.1 (ShardedDataset.request_spec hv hval) hS hts' hf).2.2 hall
      show sd.SRefines _ _
      rw [← h3]
      exact this
  | chunk c data val is hc hl hval hcomp =>
    obtain ⟨rs, hfin, hall, rfl⟩ := hcomp
    obtain ⟨κ, hκ, htc⟩ := writeChunk_touches h hc data
    obtain ⟨h1, h2, js, h3, h4⟩ := onFiles_sim hk ht (fun _ hk => hk)
      (fun s hs => by rw [List.mem_singleton.1 hs]; exact within_of_touches hκ htc) is
    refine ⟨h1, h2, fun S hS => ?_⟩
    obtain ⟨h5, h6⟩ := finished_one htc (h4 rs hfin)
    have h7 : (Prog.run (d.writeChunk c data) (σ.chunks p)).1 = .ok () := hall _ (by rw [h5]; simp)
    cases d with
    | plain ds =>
      show Refines ds _ _
      rw [← h3, h6]
      exact performs_refines h (.chunk c data val hl hval (Prod.ext h7 rfl)) hw hS
    | sharded sd =>
      show sd.SRefines _ _
      rw [← h3, h6]
      exact ShardedDataset.performs_refines h (.chunk c data val hl hval (Prod.ext h7 rfl)) hw hS
  | remove c is hc hcomp =>
    obtain ⟨rs, hfin, hall, rfl⟩ := hcomp
    obtain ⟨κ, hκ, htc⟩ := removeChunk_touches h hc
    obtain ⟨h1, h2, js, h3, h4⟩ := onFiles_sim hk ht (fun _ hk => hk)
      (fun s hs => by rw [List.mem_singleton.1 hs]; exact within_of_touches hκ htc) is
    refine ⟨h1, h2, fun S hS => ?_⟩
    obtain ⟨h5, h6⟩ := finished_one htc (h4 rs hfin)
    have h7 : (Prog.run (d.removeChunk c) (σ.chunks p)).1 = .ok () := hall _ (by rw [h5]; simp)
    cases d with
    | plain ds =>
      show Refines ds _ _
      rw [← h3, h6]
      exact performs_refines h (.remove c hc (Prod.ext h7 rfl)) hw hS
    | sharded sd =>
      show sd.SRefines _ _
      rw [← h3, h6]
      exact ShardedDataset.performs_refines h (.remove c hc (Prod.ext h7 rfl)) hw hS

theorem chunks_none {σ : Fs} {k : Key} (h : σ (chunkFile p k) = none) : σ.chunks p k = none := by
  rw [chunks_eq, h]
  rfl

theorem holds_empty (h : d.WF) {σ : Fs} (he : ∀ k, d.IsKey k → σ (chunkFile p k) = none) :
    d.Holds p σ fun _ => d.base.fill := by
  cases d with
  | plain ds =>
    refine ⟨fun _ => ds.fill, ?_, fun _ _ _ _ => Or.inl rfl⟩
    intro c hc
    rw [chunks_none (he (ds.chunkKey c) ⟨c, hc, rfl⟩)]
    exact fun _ _ => rfl
  | sharded sd => exact ShardedDataset.srefines_empty h fun s hs => chunks_none (he _ ⟨s, hs, rfl⟩)

theorem Reaches.effect (h : d.WF) (hk : d.PlainKeys) (hw : d.base.canWrite = true) {ws : List (Write E.T)} {σ : Fs}
    (hr : d.Reaches p ws σ) : Tidy p d.IsKey σ ∧ d.Holds p σ (replay (fun _ => d.base.fill) ws) := by
  induction hr with
  | empty ht he => exact ⟨ht, holds_empty h he⟩
  | step _ hp ih =>
    obtain ⟨h1, _, h3⟩ := hp.effect h hk hw ih.1
    exact ⟨h1, by rw [replay_append]; exact h3 _ ih.2⟩

theorem Holds.readsAs (h : d.WF) (hk : d.PlainKeys) {σ : Fs} (ht : Tidy p d.IsKey σ) {S : List Nat → E.T}
    (hS : d.Holds p σ S) : ∃ A, d.ReadsAs p σ A ∧ ∀ x, InBox x d.base.shape → SameOrFill E.ceq d.base.fill (A x) (S x) := by
  have hA : ∃ A, (match d with | plain ds => Z5.ReadsAs ds (σ.chunks p) A | sharded sd => ShardedReadsAs sd (σ.chunks p) A) ∧
      ∀ x, InBox x d.base.shape → SameOrFill E.ceq d.base.fill (A x) (S x) := by
    cases d with
    | plain ds => exact Props.refines_readsAs h hS
    | sharded sd => exact Props.srefines_readsAs h hS
  obtain ⟨A, hA, hAS⟩ := hA
  refine ⟨A, ?_, hAS⟩
  intro off out outBuf scratch hr hfit hna
  have hts : ∃ ts, d.readSubarray out off scratch = .ok ts ∧
      ∀ is rs, Prog.Finished (Prog.interleave is (ts, σ.chunks p)).1 rs →
        (Prog.interleave is (ts, σ.chunks p)).2 = σ.chunks p ∧ (∃ out', Delivers outBuf rs out') ∧
        ∀ out', Delivers outBuf rs out' → out'.length = outBuf.length ∧
          (∀ i, InBox i out.shape → out'[out.base + dot i out.strides]? = some (A (addV off i))) ∧
          (∀ a, (∀ i, InBox i out.shape → out.base + dot i out.strides ≠ a) →
            out'[a]? = outBuf[a]?) := by
    cases d with
    | plain ds => exact hA off out outBuf scratch hr hfit hna
    | sharded sd => exact hA off out outBuf scratch hr hfit hna
  obtain ⟨ts, hts, hread⟩ := hts
  refine ⟨ts, hts, fun is rs hfin => ?_⟩
  have hwi := read_within h hr hts
  obtain ⟨_, _, js, h3, h4⟩ := onFiles_sim hk ht (fun _ hk => hk) (fun s hs => (hwi s hs).1) is
  refine ⟨?_, (hread js rs (h4 rs hfin)).2⟩
  exact interleave_readOnly_files is fun t ht => by
    obtain ⟨s, hs, rfl⟩ := List.mem_map.1 ht
    exact ⟨s, (hwi s hs).2, rfl⟩

end AnyDataset
end Z5
