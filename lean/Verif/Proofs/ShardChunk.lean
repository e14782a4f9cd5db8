import Verif.Proofs.ShardRegion

/-!
# Inner chunks of a shard: reading them, what is stored, crash states
-/

namespace Z5

namespace ShardedDataset
open Spec Prog

variable {E : Elem} {sd : ShardedDataset E} {off size c d s : List Nat}

theorem entry_facts {b : Bytes} {es : List ShardEntry} {bs : List Bytes}
    (h4 : extractShardBlobs b es = .ok bs)
    (h5 : es.map ShardEntry.empty = bs.map (fun b => decide (b = [])))
    (h6 : ∀ e ∈ es, e.empty = true ∨ e.offset + e.nbytes ≤ b.length) {i : Nat} {x : Bytes}
    (hx : bs[i]? = some x) :
    ∃ e, es[i]? = some e ∧ e.empty = decide (x = []) ∧
      (e.empty = false → slice b e.offset e.nbytes = .ok x) := by
  rw [extract_total b es h6] at h4
  have h4 := Res.ok.inj h4
  rw [← h4, List.getElem?_map] at hx
  cases he : es[i]? with
  | none => rw [he] at hx; simp at hx
  | some e =>
    rw [he, Option.map_some, Option.some.injEq] at hx
    have h7 : e.empty = decide (x = []) := by
      have := congrArg (fun l => l[i]?) h5
      simp only [List.getElem?_map, he, Option.map_some] at this
      rw [← h4, List.getElem?_map, he, Option.map_some, Option.map_some, hx] at this
      exact Option.some.inj this
    refine ⟨e, rfl, h7, fun hem => ?_⟩
    rw [if_neg (by simp [hem])] at hx
    rcases h6 e (List.mem_of_getElem? he) with hm | hm
    · rw [hem] at hm; simp at hm
    · unfold slice
      rw [if_pos hm, hx]

/-- the bytes of the inner chunk, empty if it is absent -/
theorem readRawChunk_exec (h : sd.WF) (hc : InGrid sd.shape sd.chunkShape c) {v : Option Bytes}
    {bs : List Bytes} (hv : ShardOk sd v bs) {x : Bytes} (hx : bs[sd.slotOf c]? = some x) :
    exec1 (sd.readRawChunk c) v = (.ok x, v) ∧
    exec1 (sd.chunkExists c) v = (.ok (!decide (x = [])), v) := by
  unfold readRawChunk chunkExists
  rw [h.shardId_ok hc, bind_ok, bind_ok]
  rcases readShard_exec h (h.shard_inGrid hc) hv with ⟨_, h2, h3⟩ | ⟨b, es, _, h3, h4, h5, h6⟩
  · rw [exec1_bind_ok h3, exec1_bind_ok h3]
    have : x = [] := by
      rw [h2] at hx
      exact (List.mem_replicate.1 (List.mem_of_getElem? hx)).2
    subst this
    exact ⟨rfl, rfl⟩
  · rw [exec1_bind_ok h3, exec1_bind_ok h3]
    simp only
    obtain ⟨e, he, hem, hsl⟩ := entry_facts h4 h5 h6 hx
    rw [h.shardSlot_ok hc, bind_ok, bind_ok, entryAt, he]
    simp only [bind_ok]
    constructor
    · cases hh : e.empty with
      | true =>
        rw [if_pos rfl]
        rw [hh] at hem
        rw [of_decide_eq_true hem.symm]
        rfl
      | false =>
        rw [if_neg (by decide), hsl hh]
        rfl
    · rw [hem]; rfl

theorem readOnly_readShard (s : List Nat) : ReadOnly (sd.readShard s) := by
  unfold readShard
  repeat' first
    | exact ReadOnly.ret _ | exact readOnly_read _ _
    | refine ReadOnly.bind ?_ (fun _ => ?_) | split | dsimp only | exact trivial

theorem touches_readShard (s : List Nat) : TouchesOnly (sd.skey s) (sd.readShard s) := by
  unfold readShard
  rcases shardKey_cases sd s with hk | hk
  · rw [hk]; exact trivial
  · rw [hk, bind_ok]
    repeat' first
      | exact TouchesOnly.ret _ | exact touches_read _ _
      | refine TouchesOnly.bind ?_ (fun _ => ?_) | split | dsimp only | exact trivial

theorem readOnly_readRawChunk (c : List Nat) : ReadOnly (sd.readRawChunk c) := by
  unfold readRawChunk
  repeat' first
    | exact ReadOnly.ret _ | exact readOnly_readShard _
    | refine ReadOnly.bind ?_ (fun _ => ?_) | split | dsimp only | exact trivial

theorem touches_readRawChunk (h : sd.WF) (hc : InGrid sd.shape sd.chunkShape c) :
    TouchesOnly (sd.skey (sd.shardOf c)) (sd.readRawChunk c) := by
  unfold readRawChunk
  rw [h.shardId_ok hc, bind_ok]
  repeat' first
    | exact TouchesOnly.ret _ | exact touches_readShard _
    | refine TouchesOnly.bind ?_ (fun _ => ?_) | split | dsimp only | exact trivial

theorem touches_chunkExists (h : sd.WF) (hc : InGrid sd.shape sd.chunkShape c) :
    TouchesOnly (sd.skey (sd.shardOf c)) (sd.chunkExists c) := by
  unfold chunkExists
  rw [h.shardId_ok hc, bind_ok]
  repeat' first
    | exact TouchesOnly.ret _ | exact touches_readShard _
    | refine TouchesOnly.bind ?_ (fun _ => ?_) | split | dsimp only | exact trivial

/-- the calls on inner chunks of a store with intact shards -/
theorem run_readRawChunk (h : sd.WF) {σ : Store} (hval : sd.Valid σ)
    (hc : InGrid sd.shape sd.chunkShape c) :
    run (sd.readRawChunk c) σ = (.ok ((sd.blobAt σ c).getD []), σ) ∧
    run (sd.chunkExists c) σ = (.ok (sd.blobAt σ c).isSome, σ) := by
  obtain ⟨bs, hbs⟩ := hval _ (h.shard_inGrid hc)
  have hlt := h.slot_lt hc
  have hl := hbs.length
  have hx : bs[sd.slotOf c]? = some (bs[sd.slotOf c]'(by omega)) := List.getElem?_eq_getElem _
  generalize bs[sd.slotOf c]'(by omega) = x at hx
  obtain ⟨h1, h2⟩ := readRawChunk_exec h hc hbs hx
  rw [run_of_touches (touches_readRawChunk h hc), run_of_touches (touches_chunkExists h hc), h1, h2,
    upd_self, blobAt_eq hbs, hx, Option.bind_some]
  unfold present
  by_cases hx' : x = []
  · simp [hx']
  · simp [hx']

theorem run_readChunk (h : sd.WF) {σ : Store} (hval : sd.Valid σ)
    (hc : InGrid sd.shape sd.chunkShape c) {b : Bytes} (hb : sd.blobAt σ c = some b)
    {content : List E.T} (hd : Decodes sd.toDataset c b content) (dest : List E.T)
    (hl : dest.length = prod sd.chunkShape) :
    run (sd.readChunk c dest) σ = (.ok (false, content), σ) := by
  have h1 := (run_readRawChunk h hval hc).1
  rw [hb] at h1
  unfold readChunk
  have hcs : sd.chunkSize = prod sd.chunkShape := h.base.chunkSize_eq
  have := hd.zarr h.isZarr dest (by rw [hl]; exact congrArg prod (stored_eq h c).symm)
  rw [show prod (sd.toDataset.stored c) = sd.chunkSize by rw [hcs]; exact congrArg prod (stored_eq h c)]
    at this
  have hro := readOnly_readRawChunk (sd := sd) c
  have ht := touches_readRawChunk h hc
  have hb' : TouchesOnly (sd.skey (sd.shardOf c)) (sd.readRawChunk c >>= fun b => do
      let out ← .ret (decompress E sd.codec b dest sd.chunkSize)
      return (false, out)) := by
    refine TouchesOnly.bind ht fun _ => ?_
    refine TouchesOnly.bind (TouchesOnly.ret _) fun _ => trivial
  have he : exec1 (sd.readRawChunk c) (σ (sd.skey (sd.shardOf c))) = (.ok b, σ (sd.skey (sd.shardOf c))) := by
    have h2 := run_of_touches ht σ
    rw [h1] at h2
    simp only [Prod.mk.injEq, Option.getD_some] at h2
    exact Prod.ext h2.1.symm (exec1_readOnly hro _)
  rw [run_of_touches hb', exec1_bind_ok he, this, bind_ok]
  simp only [pure_def, exec1_ret, upd_self]

/-! ### Shards and chunks -/

/-- an element of a chunk is an element of the chunk's shard -/
theorem inChunk_shard_aux : ∀ {shape b S c x : List Nat},
    All₂ (fun S b => 0 < b ∧ 0 < S ∧ S % b = 0) S b → InChunk shape b c x →
    InChunk shape S (List.zipWith (· / ·) c (List.zipWith (· / ·) S b)) x
  | [], [], [], [], [], _, _ => trivial
  | n :: ns, b :: bs, S :: Ss, c :: cs, x :: xs, hs, hx => by
    refine ⟨?_, inChunk_shard_aux hs.2 hx.2⟩
    obtain ⟨hb, hS, hm⟩ := hs.1
    have hx1 : c * b ≤ x ∧ x < (c + 1) * b ∧ x < n := hx.1
    show (c / (S / b)) * S ≤ x ∧ x < (c / (S / b) + 1) * S ∧ x < n
    obtain ⟨q, rfl⟩ := Nat.dvd_of_mod_eq_zero hm
    have hq : 0 < q := by
      rcases Nat.eq_zero_or_pos q with rfl | h
      · simp at hS
      · exact h
    rw [Nat.mul_div_cancel_left q hb]
    have h1 := Nat.div_mul_le_self c q
    have h2 : c < (c / q + 1) * q := by
      have := Nat.div_add_mod c q
      have := Nat.mod_lt c hq
      rw [Nat.add_mul, Nat.mul_comm (c / q)]
      omega
    refine ⟨?_, ?_, hx1.2.2⟩
    · calc c / q * (b * q) = (c / q * q) * b := by rw [Nat.mul_comm b, Nat.mul_assoc]
        _ ≤ c * b := Nat.mul_le_mul_right _ h1
        _ ≤ x := hx1.1
    · calc x < (c + 1) * b := hx1.2.1
        _ ≤ ((c / q + 1) * q) * b := Nat.mul_le_mul_right _ h2
        _ = (c / q + 1) * (b * q) := by rw [Nat.mul_assoc, Nat.mul_comm q]
  | [], _ :: _, _, _, _, _, hx => by cases ‹List Nat› <;> exact hx.elim

theorem WF.inChunk_shard (h : sd.WF) {x : List Nat} (hx : InChunk sd.shape sd.chunkShape c x) :
    InChunk sd.shape sd.shardShape (sd.shardOf c) x := by
  have := inChunk_shard_aux h.shards hx
  rw [shardOf, h.made_eqs.2.1]
  exact this

theorem inChunk_unique : ∀ {shape b s t x : List Nat}, InChunk shape b s x → InChunk shape b t x → s = t
  | [], [], [], [], [], _, _ => rfl
  | n :: ns, b :: bs, s :: ss, t :: ts, x :: xs, hs, ht => by
    rw [inChunk_unique hs.2 ht.2]
    have h1 : s * b ≤ x ∧ x < (s + 1) * b ∧ x < n := hs.1
    have h2 : t * b ≤ x ∧ x < (t + 1) * b ∧ x < n := ht.1
    have hst : s < t + 1 := Nat.lt_of_mul_lt_mul_right (Nat.lt_of_le_of_lt h1.1 h2.2.1)
    have hts : t < s + 1 := Nat.lt_of_mul_lt_mul_right (Nat.lt_of_le_of_lt h2.1 h1.2.1)
    rw [show s = t by omega]

/-- the chunk of an element -/
theorem WF.exists_chunk (h : sd.WF) {x : List Nat} (hx : InBox x sd.shape) :
    ∃ c, InChunk sd.shape sd.chunkShape c x :=
  ⟨_, (inChunk_iff_div (c := divV x sd.chunkShape) h.base.dims.axes).2 ⟨hx, rfl⟩⟩

theorem inBox_of_inChunk : ∀ {shape b s x : List Nat}, InChunk shape b s x → InBox x shape
  | [], [], [], [], _ => trivial
  | _ :: _, _ :: _, _ :: _, _ :: _, h => ⟨h.1.2.2, inBox_of_inChunk h.2⟩

/-- the chunk of an element of a shard -/
theorem WF.exists_chunk_of_shard (h : sd.WF) {x : List Nat} (hx : InChunk sd.shape sd.shardShape s x) :
    ∃ c, InChunk sd.shape sd.chunkShape c x ∧ sd.shardOf c = s := by
  obtain ⟨c, hc⟩ := h.exists_chunk (inBox_of_inChunk hx)
  exact ⟨c, hc, inChunk_unique (h.inChunk_shard hc) hx⟩

/-- the shards of the groups are the shards that overlap the region -/
theorem WF.mem_group_ids (h : sd.WF) (hr : RegionOk sd.shape off size) :
    s ∈ (sd.groups off size).map Prod.fst ↔
      ∃ x, InRegion x off size ∧ InChunk sd.shape sd.shardShape s x := by
  constructor
  · intro hs
    obtain ⟨g, hg, rfl⟩ := List.mem_map.1 hs
    obtain ⟨c, hc⟩ := List.exists_mem_of_ne_nil _ ((h.groups_ok hr).2.nonempty g hg)
    obtain ⟨⟨x, h1, h2⟩, h3⟩ := h.group_touches hr hg c hc
    exact ⟨x, h1, h3 ▸ h.inChunk_shard h2⟩
  · rintro ⟨x, h1, h2⟩
    obtain ⟨c, hc, hs⟩ := h.exists_chunk_of_shard h2
    obtain ⟨g, hg, _, he⟩ := h.exists_group hr ⟨x, h1, hc⟩
    exact List.mem_map.2 ⟨g, hg, by rw [← he, hs]⟩

/-- a file exists iff one of the chunks of the shard is stored -/
theorem file_iff (h : sd.WF) {σ : Store} (hval : sd.Valid σ) (htidy : sd.Tidy σ) (hs : InGrid sd.shape sd.shardShape s) :
    σ (sd.skey s) ≠ none ↔
      ∃ c, InGrid sd.shape sd.chunkShape c ∧ sd.shardOf c = s ∧ sd.blobAt σ c ≠ none := by
  obtain ⟨bs, hbs⟩ := hval s hs
  constructor
  · intro hn
    cases hv : σ (sd.skey s) with
    | none => exact absurd hv hn
    | some b =>
      obtain ⟨hedge, x, hx, hne⟩ := htidy s hs b bs hv hbs
      rw [hv] at hbs
      obtain ⟨i, hi, rfl⟩ := List.getElem_of_mem hx
      have hi' := List.getElem?_eq_getElem hi
      obtain ⟨c, h1, h2, h3⟩ := hedge i _ hi' hne
      refine ⟨c, h1, h2, ?_⟩
      rw [blobAt_eq (bs := bs) (by rw [h2, hv]; exact hbs), h3, hi', Option.bind_some, present, if_neg hne]
      simp
  · rintro ⟨c, h1, h2, h3⟩ hn
    rw [blobAt_eq (bs := bs) (by rw [h2]; exact hbs)] at h3
    rw [hn] at hbs
    have : bs = List.replicate sd.nSlots [] := hbs
    apply h3
    have hlt := h.slot_lt h1
    rw [this, List.getElem?_replicate, if_pos hlt]
    rfl

/-! ### Scratch buffers -/

theorem finalOf_scratch (h : sd.WF) (hr : RegionOk sd.shape off size)
    {fr : FillRequest E} {val : List Nat → E.T} (hfr : FillSpec fr size val)
    {σ : Store} {A : List Nat → E.T} (hval : sd.Valid σ) (hA : HoldsB sd.toDataset (sd.blobAt σ) A)
    (s1 s2 : Nat → List E.T) :
    finalOf (sd.jobs fr off size s1) σ = finalOf (sd.jobs fr off size s2) σ ∧
    (sd.jobs fr off size s1).map (fun j => (exec1 j.2 (σ j.1)).1) =
      (sd.jobs fr off size s2).map (fun j => (exec1 j.2 (σ j.1)).1) := by
  have hex : ∀ g ∈ sd.groups off size, ∀ t1 t2 : List E.T,
      exec1 (sd.writeShardTask fr off size g.1 g.2 t1) (σ (sd.skey g.1)) =
      exec1 (sd.writeShardTask fr off size g.1 g.2 t2) (σ (sd.skey g.1)) := by
    intro g hg t1 t2
    have hs := h.group_inGrid hr hg
    obtain ⟨bs, hbs⟩ := hval _ hs
    have ht := h.group_touches hr hg
    exact writeShardTask_scratch h hr hfr hs t1 t2 (fun c hc => (ht c hc).1) hbs fun c hc =>
      SRefines.blobs hA hbs c (ht c hc).1.inGrid (ht c hc).2
  refine ⟨finalOf_congr (jobsOk h hr fr s1) (jobsOk h hr fr s2) ?_ ?_, ?_⟩
  · intro j hj
    obtain ⟨g, hg, i, rfl⟩ := mem_jobs hj
    obtain ⟨i', hj'⟩ := exists_job (fr := fr) s2 hg
    exact ⟨_, hj', rfl, hex g hg _ _⟩
  · intro j hj
    obtain ⟨g, hg, i, rfl⟩ := mem_jobs hj
    obtain ⟨i', hj'⟩ := exists_job (fr := fr) s1 hg
    exact ⟨_, hj', rfl⟩
  · unfold jobs
    rw [map_mapIdx', map_mapIdx']
    apply List.ext_getElem?
    intro i
    rw [List.getElem?_mapIdx, List.getElem?_mapIdx]
    cases hg : (sd.groups off size)[i]? with
    | none => rfl
    | some g =>
      simp only [Option.map_some]
      rw [hex g (List.mem_of_getElem? hg) (s1 i) (s2 i)]

/-! ### Crash states -/

theorem states_writeShardBlobs (s : List Nat) (bs : List Bytes) {v w : Option Bytes}
    (hs : w ∈ states (sd.writeShardBlobs s bs) v) : Torn sd.backend v (exec1 (sd.writeShardBlobs s bs) v).2 w := by
  have hret : ∀ {r : Res Unit}, w ∈ states (.ret r) v → Torn sd.backend v (exec1 (.ret r : Prog Unit) v).2 w := by
    intro r h
    left
    simpa [states] using h
  unfold writeShardBlobs at hs ⊢
  split at hs
  · next hw => rw [if_pos hw]; exact hret hs
  · next hw =>
    rw [if_neg hw]
    cases h1 : sd.shardKey s with
    | throw e => rw [h1] at hs; exact hret hs
    | ub => rw [h1] at hs; exact hret hs
    | ok k =>
      rw [h1, bind_ok] at hs
      rw [bind_ok]
      split at hs
      · next he =>
        rw [if_pos he]
        simp only [exec1_erase] at hs ⊢
        exact states_erase _ _ _ _ hs
      · next he =>
        rw [if_neg he]
        cases h2 : buildShard bs with
        | throw e => rw [h2] at hs; exact hret hs
        | ub => rw [h2] at hs; exact hret hs
        | ok out =>
          rw [h2, bind_ok] at hs
          rw [bind_ok]
          simp only [exec1_write] at hs ⊢
          exact states_write _ _ _ _ _ hs

theorem states_readOnly_bind {α : Type} {b : Backend} {p : Prog α} {g : α → Prog Unit} (hro : ReadOnly p)
    (hg : ∀ a v w, w ∈ states (g a) v → Torn b v (exec1 (g a) v).2 w) {v w : Option Bytes}
    (hs : w ∈ states (p >>= g) v) : Torn b v (exec1 (p >>= g) v).2 w := by
  have hv := exec1_readOnly hro v
  rcases mem_states_bind _ _ _ _ hs with hs | ⟨a, ha, hs⟩
  · left
    exact states_readOnly hro _ _ hs
  · rw [hv] at hs
    rw [exec1_bind_ok (Prod.ext ha hv)]
    exact hg a _ _ hs

theorem states_writeShardTask (fr : FillRequest E) (off size s : List Nat) (cs : List (List Nat))
    (scratch : List E.T) {v w : Option Bytes}
    (hs : w ∈ states (sd.writeShardTask fr off size s cs scratch) v) :
    Torn sd.backend v (exec1 (sd.writeShardTask fr off size s cs scratch) v).2 w := by
  unfold writeShardTask at hs ⊢
  refine states_readOnly_bind (readOnly_readShardBlobs s) (fun bs v w hs => ?_) hs
  refine states_readOnly_bind (readOnly_updateSlots fr off size cs scratch bs) (fun bs v w hs => ?_) hs
  exact states_writeShardBlobs s bs hs

end ShardedDataset

end Z5
