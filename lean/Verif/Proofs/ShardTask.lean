import Verif.Spec.Sharded
import Verif.Proofs.Region
import Verif.Proofs.Sharding

/-!
# What one shard task does to the shard's file
-/

namespace Z5
open Spec Prog

variable {E : Elem} {sd : ShardedDataset E}

/-- the shard of chunk `c` -/
def ShardedDataset.shardOf (sd : ShardedDataset E) (c : List Nat) : List Nat :=
  List.zipWith (· / ·) c sd.cps

/-- the slot of chunk `c` in its shard -/
def ShardedDataset.slotOf (sd : ShardedDataset E) (c : List Nat) : Nat :=
  ravel sd.cps (List.zipWith (· % ·) c sd.cps)

/-- the file of a shard -/
def ShardedDataset.skey (sd : ShardedDataset E) (s : List Nat) : Key := getChunkKey sd.key s

namespace ShardedDataset

theorem WF.made_eqs (h : sd.WF) : sd.isZarr = true ∧
    sd.cps = List.zipWith (· / ·) sd.shardShape sd.chunkShape ∧ sd.nSlots = numShardSlots sd.cps := by
  have hm := h.made
  rw [ShardedDataset.make] at hm
  cases hd : (Dataset.make sd.shape sd.chunkShape { sd.key with isZarr := true } sd.codec sd.fill
      sd.canWrite sd.backend : Res (Dataset E)) with
  | throw e => rw [hd] at hm; simp at hm
  | ub => rw [hd] at hm; simp at hm
  | ok d =>
    rw [hd, Res.ok_bind, (chunksPerShard_eq h.shards).1, Res.ok_bind] at hm
    have hm := Res.ok.inj hm
    have h1 : d.key = { sd.key with isZarr := true } := by
      rw [Dataset.make] at hd
      cases hb : Blocking.make sd.shape sd.chunkShape with
      | throw e => rw [hb] at hd; simp at hd
      | ub => rw [hb] at hd; simp at hd
      | ok B => rw [hb, Res.ok_bind] at hd; rw [← Res.ok.inj hd]
    have h2 : sd.cps = List.zipWith (· / ·) sd.shardShape sd.chunkShape := (congrArg cps hm).symm
    refine ⟨?_, h2, ?_⟩
    · have : d.key = sd.key := congrArg (fun x => x.toDataset.key) hm
      show sd.key.isZarr = true
      rw [← this, h1]
    · rw [h2]; exact (congrArg nSlots hm).symm

theorem WF.isZarr (h : sd.WF) : sd.isZarr = true := h.made_eqs.1

theorem WF.cps_pos (h : sd.WF) : AllPos sd.cps := by
  rw [h.made_eqs.2.1]; exact (chunksPerShard_eq h.shards).2.1

theorem WF.cps_length (h : sd.WF) : sd.cps.length = sd.chunkShape.length := by
  rw [h.made_eqs.2.1]; exact (chunksPerShard_eq h.shards).2.2

theorem WF.slots_lt (h : sd.WF) : prod sd.cps < 2 ^ 59 := by
  rw [h.made_eqs.2.1]; exact h.slots

theorem WF.nSlots_eq (h : sd.WF) : sd.nSlots = prod sd.cps := by
  rw [h.made_eqs.2.2]; exact numShardSlots_eq (by have := h.slots_lt; omega)

theorem WF.cps_ok (h : sd.WF) : chunksPerShard sd.shardShape sd.chunkShape = .ok sd.cps := by
  rw [h.made_eqs.2.1]; exact (chunksPerShard_eq h.shards).1

variable {c d : List Nat}

theorem WF.grid_length (h : sd.WF) (hc : InGrid sd.shape sd.chunkShape c) : c.length = sd.cps.length := by
  rw [h.cps_length]; exact (dims_length hc).1

theorem WF.shardId_ok (h : sd.WF) (hc : InGrid sd.shape sd.chunkShape c) :
    shardId c sd.cps = .ok (sd.shardOf c) := shardId_eq (h.grid_length hc) h.cps_pos

theorem WF.shardSlot_ok (h : sd.WF) (hc : InGrid sd.shape sd.chunkShape c) :
    shardSlot c sd.cps = .ok (sd.slotOf c) :=
  shardSlot_eq (h.grid_length hc) h.cps_pos (by have := h.slots_lt; omega)

theorem WF.slot_lt (h : sd.WF) (hc : InGrid sd.shape sd.chunkShape c) : sd.slotOf c < sd.nSlots := by
  rw [h.nSlots_eq]; exact ravel_lt (inBox_mod (h.grid_length hc) h.cps_pos)

theorem WF.slot_inj (h : sd.WF) (hc : InGrid sd.shape sd.chunkShape c)
    (hd : InGrid sd.shape sd.chunkShape d) (hs : sd.shardOf c = sd.shardOf d)
    (he : sd.slotOf c = sd.slotOf d) : c = d :=
  divmod_inj (h.grid_length hc) (h.grid_length hd) hs
    (ravel_inj (inBox_mod (h.grid_length hc) h.cps_pos) (inBox_mod (h.grid_length hd) h.cps_pos) he)

theorem inGrid_shard : ∀ {shape b S c : List Nat},
    All₂ (fun S b => 0 < b ∧ 0 < S ∧ S % b = 0) S b → InGrid shape b c →
    InGrid shape S (List.zipWith (· / ·) c (List.zipWith (· / ·) S b))
  | [], [], [], [], _, _ => trivial
  | s :: ss, b :: bs, S :: Ss, c :: cs, hS, hc => by
    refine ⟨?_, inGrid_shard hS.2 hc.2⟩
    have h1 : 0 < b ∧ 0 < S ∧ S % b = 0 := hS.1
    have h2 : c * b < s := hc.1
    show c / (S / b) * S < s
    have h3 : S / b * b = S := Nat.div_mul_cancel (Nat.dvd_of_mod_eq_zero h1.2.2)
    have h4 : c / (S / b) * (S / b) ≤ c := Nat.div_mul_le_self _ _
    calc c / (S / b) * S = c / (S / b) * (S / b) * b := by rw [Nat.mul_assoc, h3]
      _ ≤ c * b := Nat.mul_le_mul_right _ h4
      _ < s := h2

theorem WF.shard_inGrid (h : sd.WF) (hc : InGrid sd.shape sd.chunkShape c) :
    InGrid sd.shape sd.shardShape (sd.shardOf c) := by
  unfold shardOf
  rw [h.made_eqs.2.1]
  exact inGrid_shard h.shards hc

theorem WF.skey_inj (h : sd.WF) {s t : List Nat} (hs : InGrid sd.shape sd.shardShape s)
    (ht : InGrid sd.shape sd.shardShape t) (he : sd.skey s = sd.skey t) : s = t :=
  Props.c25_keys_distinct sd.key h.base.keyOk hs ht he

theorem shardKey_cases (sd : ShardedDataset E) (s : List Nat) :
    sd.shardKey s = .ub ∨ sd.shardKey s = .ok (sd.skey s) := by
  unfold ShardedDataset.shardKey computeBoundedShape
  split
  · exact Or.inl rfl
  · exact Or.inr rfl

theorem WF.shardKey_ok (h : sd.WF) {s : List Nat} (hs : InGrid sd.shape sd.shardShape s) :
    sd.shardKey s = .ok (sd.skey s) := by
  have := All₃.length_eq hs
  unfold ShardedDataset.shardKey computeBoundedShape
  rw [if_neg (by omega)]
  rfl

/-- the file of a shard is absent or has a valid index with the slot contents `bs` -/
def ShardOk (sd : ShardedDataset E) (v : Option Bytes) (bs : List Bytes) : Prop :=
  match v with
  | none => bs = List.replicate sd.nSlots []
  | some b => ∃ es, parseShardIndex b sd.nSlots = .ok (some es) ∧ extractShardBlobs b es = .ok bs ∧
      es.map ShardEntry.empty = (bs.map fun b => decide (b = [])) ∧
      ∀ e ∈ es, e.empty = true → e = ⟨shardEmpty, shardEmpty⟩

theorem ShardOk.unique {v : Option Bytes} {a b : List Bytes} (ha : ShardOk sd v a)
    (hb : ShardOk sd v b) : a = b := by
  cases v with
  | none => exact Eq.trans (α := List Bytes) ha (Eq.symm (α := List Bytes) hb)
  | some x =>
    obtain ⟨es, h1, h2, _⟩ := ha
    obtain ⟨es', h1', h2', _⟩ := hb
    rw [h1] at h1'
    simp only [Res.ok.injEq, Option.some.injEq] at h1'
    subst h1'
    rw [h2] at h2'
    exact Res.ok.inj h2'

theorem ShardOk.length {v : Option Bytes} {bs : List Bytes} (h : ShardOk sd v bs) :
    bs.length = sd.nSlots := by
  cases v with
  | none => rw [show bs = _ from h]; simp
  | some x =>
    obtain ⟨es, h1, h2, h3, _⟩ := h
    have h4 : es.length = bs.length := by simpa using congrArg List.length h3
    rcases parse_safe x sd.nSlots with hp | ⟨hp, _⟩ | ⟨es', hp, hl, _⟩
    · rw [hp] at h1; simp at h1
    · rw [hp] at h1; simp at h1
    · rw [hp] at h1
      simp only [Res.ok.injEq, Option.some.injEq] at h1
      subst h1; omega

/-- the slots of a shard file (junk for an invalid file) -/
def blobsOf (sd : ShardedDataset E) : Option Bytes → List Bytes
  | none => List.replicate sd.nSlots []
  | some b =>
    match parseShardIndex b sd.nSlots with
    | .ok (some es) =>
      match extractShardBlobs b es with
      | .ok bs => bs
      | _ => []
    | _ => []

theorem ShardOk.eq {v : Option Bytes} {bs : List Bytes} (h : ShardOk sd v bs) : sd.blobsOf v = bs := by
  cases v with
  | none => exact Eq.symm (α := List Bytes) h
  | some x =>
    obtain ⟨es, h1, h2, _⟩ := h
    simp only [blobsOf, h1, h2]

/-- an empty slot stores no chunk -/
def present (b : Bytes) : Option Bytes := if b = [] then none else some b

/-- the stored bytes of chunk `c` -/
def blobAt (sd : ShardedDataset E) (σ : Store) (c : List Nat) : Option Bytes :=
  (sd.blobsOf (σ (sd.skey (sd.shardOf c))))[sd.slotOf c]?.bind present

/-- slots of shard `s` that belong to no chunk of the grid are empty -/
def EdgeOk (sd : ShardedDataset E) (s : List Nat) (bs : List Bytes) : Prop :=
  ∀ (i : Nat) (x : Bytes), bs[i]? = some x → x ≠ [] →
    ∃ c, InGrid sd.shape sd.chunkShape c ∧ sd.shardOf c = s ∧ sd.slotOf c = i

/-- all shard files are absent or have a valid index -/
def Valid (sd : ShardedDataset E) (σ : Store) : Prop :=
  ∀ s, InGrid sd.shape sd.shardShape s → ∃ bs, ShardOk sd (σ (sd.skey s)) bs

/-- a shard file holds a chunk, and no chunk outside of the array -/
def TidyShard (sd : ShardedDataset E) (s : List Nat) (v : Option Bytes) : Prop :=
  ∀ b bs, v = some b → ShardOk sd v bs → EdgeOk sd s bs ∧ ∃ x ∈ bs, x ≠ []

/-- so do all -/
def Tidy (sd : ShardedDataset E) (σ : Store) : Prop :=
  ∀ s, InGrid sd.shape sd.shardShape s → TidyShard sd s (σ (sd.skey s))

theorem TidyShard.edge {s : List Nat} {v : Option Bytes} {bs : List Bytes} (ht : TidyShard sd s v)
    (hv : ShardOk sd v bs) : EdgeOk sd s bs := by
  cases v with
  | none =>
    intro i x hx hne
    rw [show bs = _ from hv] at hx
    exact absurd (List.mem_replicate.1 (List.mem_of_getElem? hx)).2 hne
  | some b => exact (ht b bs rfl hv).1

/-- the shard files represent `S`, up to elided fill values -/
def SRefines (sd : ShardedDataset E) (σ : Store) (S : List Nat → E.T) : Prop :=
  sd.Valid σ ∧ RefinesB sd.toDataset (sd.blobAt σ) S

/-! ### Reading and writing the slots -/

theorem readShardBlobs_exec (h : sd.WF) {s : List Nat} (hs : InGrid sd.shape sd.shardShape s)
    {v : Option Bytes} {bs : List Bytes} (hv : ShardOk sd v bs) :
    exec1 (sd.readShardBlobs s) v = (.ok bs, v) := by
  unfold readShardBlobs
  rw [h.shardKey_ok hs, bind_ok, exec1_bind_ok (exec1_read ..)]
  cases v with
  | none => rw [show bs = _ from hv]; rfl
  | some b =>
    obtain ⟨es, h1, h2, _⟩ := hv
    simp only [h1, bind_ok, h2]
    rfl

theorem readShard_exec (h : sd.WF) {s : List Nat} (hs : InGrid sd.shape sd.shardShape s)
    {v : Option Bytes} {bs : List Bytes} (hv : ShardOk sd v bs) :
    (v = none ∧ bs = List.replicate sd.nSlots [] ∧ exec1 (sd.readShard s) v = (.ok none, v)) ∨
    ∃ b es, v = some b ∧ exec1 (sd.readShard s) v = (.ok (some (b, es)), v) ∧
      extractShardBlobs b es = .ok bs ∧ es.map ShardEntry.empty = bs.map (fun b => decide (b = [])) ∧
      ∀ e ∈ es, e.empty = true ∨ e.offset + e.nbytes ≤ b.length := by
  unfold readShard
  rw [h.shardKey_ok hs, bind_ok, exec1_bind_ok (exec1_read ..)]
  cases v with
  | none => exact Or.inl ⟨rfl, hv, rfl⟩
  | some b =>
    obtain ⟨es, h1, h2, h3, _⟩ := hv
    refine Or.inr ⟨b, es, rfl, ?_, h2, h3, ?_⟩
    · simp only [h1, bind_ok]; rfl
    · rcases parse_safe b sd.nSlots with hp | ⟨hp, _⟩ | ⟨es', hp, _, _, _, _, he⟩
      · rw [hp] at h1; simp at h1
      · rw [hp] at h1; simp at h1
      · rw [hp] at h1
        simp only [Res.ok.injEq, Option.some.injEq] at h1
        subst h1
        intro e hm
        rcases he e hm with h4 | h4
        · exact Or.inl h4
        · exact Or.inr (by omega)

theorem shardOk_build {bs : List Bytes} {out : Bytes} (hl : bs.length = sd.nSlots)
    (hb : buildShard bs = .ok out) : ShardOk sd (some out) bs := by
  obtain ⟨h1, h2⟩ := parse_build hb
  rw [hl] at h1
  have hlt : ([] : Bytes).length + bs.flatten.length < 2 ^ 63 := by
    rw [buildShard_eq] at hb
    split at hb
    · simp only [List.length_nil]; omega
    · simp at hb
  exact ⟨_, h1, h2, buildEntries_empty bs [] hlt, buildEntries_absent bs [] hlt⟩

theorem writeShardBlobs_exec (h : sd.WF) (hw : sd.canWrite = true) {s : List Nat}
    (hs : InGrid sd.shape sd.shardShape s) {bs : List Bytes} (hl : bs.length = sd.nSlots)
    (v : Option Bytes) :
    (∃ e, exec1 (sd.writeShardBlobs s bs) v = (.throw e, v)) ∨
    ∃ v', exec1 (sd.writeShardBlobs s bs) v = (.ok (), v') ∧ ShardOk sd v' bs ∧ (v' ≠ none → ∃ x ∈ bs, x ≠ []) := by
  unfold writeShardBlobs
  rw [hw, if_neg (by decide), h.shardKey_ok hs, bind_ok]
  by_cases he : allSlotsEmpty bs = true
  · right
    rw [if_pos he]
    refine ⟨none, exec1_erase _ _ v, ?_, fun hh => absurd rfl hh⟩
    show bs = List.replicate sd.nSlots []
    rw [List.eq_replicate_iff]
    refine ⟨hl, fun b hb => ?_⟩
    unfold allSlotsEmpty at he
    simpa using List.all_eq_true.1 he b hb
  · rw [if_neg he]
    cases hb : buildShard bs with
    | throw e => exact Or.inl ⟨e, rfl⟩
    | ub =>
      rw [buildShard_eq] at hb
      split at hb <;> simp at hb
    | ok out =>
      right
      exact ⟨some out, by rw [bind_ok]; exact exec1_write _ _ out v, shardOk_build hl hb, fun _ => (by
        apply Classical.byContradiction
        intro hn
        refine he (List.all_eq_true.2 fun b hb' => ?_)
        have : b = [] := Classical.byContradiction fun hb'' => hn ⟨b, hb', hb''⟩
        rw [this]
        rfl)⟩

/-! ### The write task -/

/-- `readExisting` of the sharded write path -/
def slotExisting (sd : ShardedDataset E) (bs : List Bytes) (slot : Nat) (buf : List E.T) :
    Prog (Option (List E.T)) :=
  match bs[slot]? with
  | none => .ret .ub
  | some [] => return none
  | some blob => do
    let buf ← .ret (decompress E sd.codec blob buf buf.length)
    return some buf

theorem slotExisting_exec (h : sd.WF) (hc : InGrid sd.shape sd.chunkShape c) {bs : List Bytes}
    {A : List Nat → E.T} (hl : bs.length = sd.nSlots)
    (hv : BlobOk sd.toDataset c (bs[sd.slotOf c]?.bind present) A) (w : Option Bytes) :
    ∃ old, Repr sd.toDataset c old A ∧ ∀ buf : List E.T, buf.length = prod (sd.stored c) →
      exec1 (slotExisting sd bs (sd.slotOf c) buf) w = (.ok old, w) := by
  have hlt := h.slot_lt hc
  unfold slotExisting
  cases hb : bs[sd.slotOf c]? with
  | none => rw [List.getElem?_eq_none_iff] at hb; omega
  | some blob =>
    rw [hb] at hv
    cases blob with
    | nil => exact ⟨none, hv, fun buf _ => rfl⟩
    | cons x blob =>
      obtain ⟨content, hd, hrep⟩ := hv
      refine ⟨some content, hrep, fun buf hbuf => ?_⟩
      simp only [hbuf, hd.zarr h.isZarr buf hbuf, bind_ok]
      rfl

theorem touches_slotExisting (κ : Key) (bs : List Bytes) (slot : Nat) (buf : List E.T) :
    TouchesOnly κ (slotExisting sd bs slot buf) := by
  unfold slotExisting
  touches

theorem readOnly_slotExisting (bs : List Bytes) (slot : Nat) (buf : List E.T) :
    ReadOnly (slotExisting sd bs slot buf) := by
  unfold slotExisting
  read_only

theorem updateSlots_cons (fr : FillRequest E) (off size : List Nat) (c : List Nat)
    (cs : List (List Nat)) (scratch : List E.T) (bs : List Bytes) :
    sd.updateSlots fr off size (c :: cs) scratch bs = (do
      let slot ← .ret (shardSlot c sd.cps)
      let buffer ← sd.prepareBuffer fr off size c scratch (slotExisting sd bs slot)
      let blob ← .ret (sd.makeChunkBlob c buffer)
      if bs.length ≤ slot then .ret .ub
      else sd.updateSlots fr off size cs buffer (bs.set slot (blob.getD []))) := by
  rw [updateSlots]
  rfl

theorem touches_prepareBuffer (κ : Key) (ds : Dataset E) (fr : FillRequest E) (rb rs c : List Nat)
    (scratch : List E.T) (rE : List E.T → Prog (Option (List E.T))) (hrE : ∀ b, TouchesOnly κ (rE b)) :
    TouchesOnly κ (ds.prepareBuffer fr rb rs c scratch rE) := by
  unfold Dataset.prepareBuffer
  repeat' first
    | exact TouchesOnly.ret _ | exact hrE _
    | refine TouchesOnly.bind ?_ (fun _ => ?_) | split | dsimp only | exact trivial

theorem touches_updateSlots (κ : Key) (fr : FillRequest E) (off size : List Nat) :
    ∀ (cs : List (List Nat)) (scratch : List E.T) (bs : List Bytes),
      TouchesOnly κ (sd.updateSlots fr off size cs scratch bs)
  | [], _, _ => trivial
  | c :: cs, scratch, bs => by
    rw [updateSlots_cons]
    refine TouchesOnly.bind trivial fun slot => TouchesOnly.bind
      (touches_prepareBuffer _ _ _ _ _ _ _ _ fun b => touches_slotExisting _ _ _ _) fun buffer =>
      TouchesOnly.bind trivial fun blob => ?_
    split
    · trivial
    · exact touches_updateSlots κ fr off size cs _ _

theorem readOnly_updateSlots (fr : FillRequest E) (off size : List Nat) :
    ∀ (cs : List (List Nat)) (scratch : List E.T) (bs : List Bytes),
      ReadOnly (sd.updateSlots fr off size cs scratch bs)
  | [], _, _ => trivial
  | c :: cs, scratch, bs => by
    rw [updateSlots_cons]
    refine ReadOnly.bind trivial fun slot => ReadOnly.bind
      (readOnly_prepareBuffer _ _ _ _ _ _ _ fun b => readOnly_slotExisting _ _ _) fun buffer =>
      ReadOnly.bind trivial fun blob => ?_
    split
    · trivial
    · exact readOnly_updateSlots fr off size cs _ _

/-- One inner chunk of a region write: the new buffer and the new slot content. -/
theorem slot_update (h : sd.WF) {off size : List Nat} (hr : RegionOk sd.shape off size)
    (hc : Touches sd.toDataset off size c) {fr : FillRequest E} {val : List Nat → E.T}
    (hfr : FillSpec fr size val) (scratch : List E.T) {bs : List Bytes} {A : List Nat → E.T}
    (hl : bs.length = sd.nSlots)
    (hv : BlobOk sd.toDataset c (bs[sd.slotOf c]?.bind present) A) (w : Option Bytes) :
    ∃ buf, Repr sd.toDataset c (some buf) (override A off size val) ∧
      exec1 (sd.prepareBuffer fr off size c scratch (slotExisting sd bs (sd.slotOf c))) w
        = (.ok buf, w) := by
  obtain ⟨old, hold, hrE⟩ := slotExisting_exec h hc.inGrid hl hv w
  obtain ⟨buf, hb, hrep⟩ := prepareBuffer_exec h.base hr hc hfr scratch hold hrE
  exact ⟨buf, hrep, hb⟩

theorem makeChunkBlob_cases (h : sd.WF) (hc : InGrid sd.shape sd.chunkShape c) {data : List E.T}
    {A : List Nat → E.T} (hr : Repr sd.toDataset c (some data) A) :
    (∃ e, sd.makeChunkBlob c data = .throw e) ∨
    ∃ b, sd.makeChunkBlob c data = .ok b ∧ Written sd.toDataset c (present (b.getD [])) A := by
  have heq : sd.makeChunkBlob c data = dataToBuffer E sd.codec
      ⟨sd.isZarr, sd.chunkShape, extV sd.shape sd.chunkShape c⟩ data sd.fill false 0 := by
    unfold makeChunkBlob
    rw [h.base.handle_eq hc, Res.ok_bind]
  rw [heq]
  rcases dataToBuffer_cases h.base hc data hr.1 with ⟨h1, h2⟩ | ⟨h2, ⟨e, he⟩ | ⟨b, hb, hne, hd⟩⟩
  · right
    exact ⟨none, h1, fun x hx => h2 _ (repr_mem hr hx)⟩
  · left; exact ⟨e, he⟩
  · right
    refine ⟨some b, hb, ?_⟩
    show Written _ _ (if b = [] then none else some b) _
    rw [if_neg hne]
    exact ⟨data, hd, hr, h2⟩

theorem updateSlots_exec (h : sd.WF) {off size : List Nat} (hr : RegionOk sd.shape off size)
    {fr : FillRequest E} {val : List Nat → E.T} (hfr : FillSpec fr size val) {s : List Nat}
    {A : List Nat → E.T} (w : Option Bytes) :
    ∀ (cs : List (List Nat)) (scratch : List E.T) (bs : List Bytes), cs.Nodup →
      (∀ c ∈ cs, Touches sd.toDataset off size c ∧ sd.shardOf c = s) → bs.length = sd.nSlots →
      (∀ c ∈ cs, BlobOk sd.toDataset c (bs[sd.slotOf c]?.bind present) A) →
      (∃ e, exec1 (sd.updateSlots fr off size cs scratch bs) w = (.throw e, w)) ∨
      ∃ bs', exec1 (sd.updateSlots fr off size cs scratch bs) w = (.ok bs', w) ∧
        bs'.length = sd.nSlots ∧
        (∀ c ∈ cs, Written sd.toDataset c (bs'[sd.slotOf c]?.bind present) (override A off size val)) ∧
        ∀ i, (∀ c ∈ cs, sd.slotOf c ≠ i) → bs'[i]? = bs[i]?
  | [], _, bs, _, _, hl, _ => Or.inr ⟨bs, rfl, hl, by simp, fun _ _ => rfl⟩
  | c :: cs, scratch, bs, hn, ht, hl, hv => by
    obtain ⟨htc, hsc⟩ := ht c (by simp)
    have hg := htc.inGrid
    have hlt := h.slot_lt hg
    obtain ⟨buf, hrep, hb⟩ := slot_update h hr htc hfr scratch hl (hv c (by simp)) w
    rw [updateSlots_cons, h.shardSlot_ok hg, bind_ok, exec1_bind_ok hb]
    rcases makeChunkBlob_cases h hg hrep with ⟨e, he⟩ | ⟨b, hb, hwr⟩
    · left; exact ⟨e, by rw [he]; rfl⟩
    rw [hb, bind_ok, if_neg (by omega)]
    have hother : ∀ d ∈ cs, sd.slotOf d ≠ sd.slotOf c := by
      intro d hd he
      obtain ⟨htd, hsd⟩ := ht d (by simp [hd])
      have := h.slot_inj htd.inGrid hg (by rw [hsd, hsc]) he
      subst this
      exact (List.nodup_cons.1 hn).1 hd
    have ih := updateSlots_exec h hr hfr w cs buf (bs.set (sd.slotOf c) (b.getD []))
      (s := s) (A := A) (List.nodup_cons.1 hn).2 (fun d hd => ht d (by simp [hd]))
      (by rw [List.length_set]; exact hl) (fun d hd => by
        rw [List.getElem?_set_ne (hother d hd).symm]
        exact hv d (by simp [hd]))
    rcases ih with he | ⟨bs', h1, h2, h3, h4⟩
    · exact Or.inl he
    · right
      refine ⟨bs', h1, h2, ?_, ?_⟩
      · intro d hd
        rcases List.mem_cons.1 hd with rfl | hd
        · rw [h4 _ hother, List.getElem?_set_self (by omega)]
          exact hwr
        · exact h3 d hd
      · intro i hi
        rw [h4 i fun d hd => hi d (by simp [hd]), List.getElem?_set_ne (hi c (by simp))]

/-- Reused buffers do not matter. -/
theorem updateSlots_scratch (h : sd.WF) {off size : List Nat} (hr : RegionOk sd.shape off size)
    {fr : FillRequest E} {val : List Nat → E.T} (hfr : FillSpec fr size val)
    {A : List Nat → E.T} (w : Option Bytes) (cs : List (List Nat)) (s1 s2 : List E.T) (bs : List Bytes)
    (ht : ∀ c ∈ cs, Touches sd.toDataset off size c) (hl : bs.length = sd.nSlots)
    (hv : ∀ c ∈ cs, BlobOk sd.toDataset c (bs[sd.slotOf c]?.bind present) A) :
    exec1 (sd.updateSlots fr off size cs s1 bs) w = exec1 (sd.updateSlots fr off size cs s2 bs) w := by
  cases cs with
  | nil => rfl
  | cons c cs =>
    have htc := ht c (by simp)
    obtain ⟨b1, r1, e1⟩ := slot_update h hr htc hfr s1 hl (hv c (by simp)) w
    obtain ⟨b2, r2, e2⟩ := slot_update h hr htc hfr s2 hl (hv c (by simp)) w
    rw [updateSlots_cons, updateSlots_cons, h.shardSlot_ok htc.inGrid, bind_ok, bind_ok,
      exec1_bind_ok e1, exec1_bind_ok e2, r1.unique htc.inGrid r2]

theorem touches_readShardBlobs (s : List Nat) : TouchesOnly (sd.skey s) (sd.readShardBlobs s) := by
  unfold readShardBlobs
  rcases shardKey_cases sd s with hk | hk <;> rw [hk]
  · exact trivial
  · rw [bind_ok]
    touches

theorem readOnly_readShardBlobs (s : List Nat) : ReadOnly (sd.readShardBlobs s) := by
  unfold readShardBlobs
  rcases shardKey_cases sd s with hk | hk <;> rw [hk]
  · exact trivial
  · rw [bind_ok]
    read_only

theorem touches_writeShardBlobs (s : List Nat) (bs : List Bytes) :
    TouchesOnly (sd.skey s) (sd.writeShardBlobs s bs) := by
  unfold writeShardBlobs
  split
  · exact trivial
  rcases shardKey_cases sd s with hk | hk <;> rw [hk]
  · exact trivial
  · rw [bind_ok]
    touches

theorem touches_writeShardTask (fr : FillRequest E) (off size s : List Nat) (cs : List (List Nat))
    (scratch : List E.T) : TouchesOnly (sd.skey s) (sd.writeShardTask fr off size s cs scratch) :=
  TouchesOnly.bind (touches_readShardBlobs s) fun bs =>
    TouchesOnly.bind (touches_updateSlots _ fr off size cs scratch bs) fun bs' =>
      touches_writeShardBlobs s bs'

/-- The task of a region write on one shard. -/
theorem writeShardTask_exec (h : sd.WF) (hw : sd.canWrite = true) {off size : List Nat}
    (hr : RegionOk sd.shape off size) {fr : FillRequest E} {val : List Nat → E.T}
    (hfr : FillSpec fr size val) {s : List Nat} (hs : InGrid sd.shape sd.shardShape s)
    {cs : List (List Nat)} (scratch : List E.T) (hn : cs.Nodup)
    (ht : ∀ c ∈ cs, Touches sd.toDataset off size c ∧ sd.shardOf c = s) {v : Option Bytes}
    {bs : List Bytes} (hv : ShardOk sd v bs) {A : List Nat → E.T}
    (hA : ∀ c ∈ cs, BlobOk sd.toDataset c (bs[sd.slotOf c]?.bind present) A) :
    (∃ e, exec1 (sd.writeShardTask fr off size s cs scratch) v = (.throw e, v)) ∨
    ∃ v' bs', exec1 (sd.writeShardTask fr off size s cs scratch) v = (.ok (), v') ∧
      ShardOk sd v' bs' ∧ (v' ≠ none → ∃ x ∈ bs', x ≠ []) ∧
      (∀ c ∈ cs, Written sd.toDataset c (bs'[sd.slotOf c]?.bind present) (override A off size val)) ∧
      ∀ i, (∀ c ∈ cs, sd.slotOf c ≠ i) → bs'[i]? = bs[i]? := by
  unfold writeShardTask
  rw [exec1_bind_ok (readShardBlobs_exec h hs hv)]
  rcases updateSlots_exec h hr hfr v cs scratch bs hn ht hv.length hA with
    ⟨e, he⟩ | ⟨bs', h1, h2, h3, h4⟩
  · left; exact ⟨e, exec1_bind_throw he⟩
  · rw [exec1_bind_ok h1]
    rcases writeShardBlobs_exec h hw hs h2 v with he | ⟨v', h5, h6, h7⟩
    · exact Or.inl he
    · exact Or.inr ⟨v', bs', h5, h6, h7, h3, h4⟩

theorem writeShardTask_scratch (h : sd.WF) {off size : List Nat}
    (hr : RegionOk sd.shape off size) {fr : FillRequest E} {val : List Nat → E.T}
    (hfr : FillSpec fr size val) {s : List Nat} (hs : InGrid sd.shape sd.shardShape s)
    {cs : List (List Nat)} (s1 s2 : List E.T)
    (ht : ∀ c ∈ cs, Touches sd.toDataset off size c) {v : Option Bytes}
    {bs : List Bytes} (hv : ShardOk sd v bs) {A : List Nat → E.T}
    (hA : ∀ c ∈ cs, BlobOk sd.toDataset c (bs[sd.slotOf c]?.bind present) A) :
    exec1 (sd.writeShardTask fr off size s cs s1) v =
      exec1 (sd.writeShardTask fr off size s cs s2) v := by
  unfold writeShardTask
  rw [exec1_bind_ok (readShardBlobs_exec h hs hv), exec1_bind_ok (readShardBlobs_exec h hs hv),
    exec1_bind, exec1_bind, updateSlots_scratch h hr hfr v cs s1 s2 bs ht hv.length hA]

end ShardedDataset
end Z5
