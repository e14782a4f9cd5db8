import Verif.Props.Factory
import Verif.Props.Confined
import Verif.Spec.Persist
import Verif.Proofs.Opened

/-!
# Datasets that differ in nothing that matters for stored data, and the invariant of `Sessions`
-/

namespace Z5

open Spec AnyDataset

variable {E : Elem}

/-! ### Objects for the same dataset -/

/-- `o` is an object for the dataset `o₀`, at path `p`. -/
structure Sibling (p : Path) (o₀ o : DatasetObj) : Prop where
  path : o.handle.path = p
  cache : o.handle.cache = some o.info.isZarr
  isZarr : o.info.isZarr = o₀.info.isZarr
  dtype : o.info.dtype = o₀.info.dtype
  shape : o.info.shape = o₀.info.shape
  chunkShape : o.info.chunkShape = o₀.info.chunkShape
  shardShape : o.info.shardShape = o₀.info.shardShape
  sharded : o.sharded = o₀.sharded
  keys : ∀ c, getChunkKey o.keyCfg c = getChunkKey o₀.keyCfg c
  fill : o.fill = o₀.fill
  compressor : o.settings.compressor = o₀.settings.compressor

theorem initCompressor_compressor {c : Compressor} {o : Opts} {s : Settings} (h : initCompressor c o = .ok s) :
    s.compressor = c := by
  cases c with
  | raw => cases h; rfl
  | blosc =>
    unfold initCompressor at h
    simp only [Res.bind_eq_ok] at h
    obtain ⟨_, _, _, _, _, _, _, _, h⟩ := h
    split at h
    · cases h; rfl
    · cases h; rfl
    · cases h
  | zlib =>
    unfold initCompressor at h
    simp only [Res.bind_eq_ok] at h
    obtain ⟨_, _, _, _, h⟩ := h
    cases h; rfl
  | bzip2 | lz4 | xz | zstd =>
    unfold initCompressor at h
    simp only [Res.bind_eq_ok] at h
    obtain ⟨_, _, h⟩ := h
    cases h; rfl

theorem Settings.compressor_raw {s : Settings} : s.compressor = .raw ↔ s = .raw := by
  cases s <;> simp [Settings.compressor]

/-- zarr keys show the delimiter -/
theorem delimiter_of_keys {k k' : KeyCfg} (hz : k.isZarr = true) (hz' : k'.isZarr = true)
    (h : ∀ c, getChunkKey k' c = getChunkKey k c) : k'.delimiter = k.delimiter := by
  have h1 := h [0]
  have h2 := h [0, 0]
  unfold getChunkKey at h1 h2
  rw [if_pos hz, if_pos hz'] at h1 h2
  have e0 : toStr 0 = ['0'] := by decide
  have hj : ∀ d, joinLoop d [0] [] = ['0'] := fun d => by simp [joinLoop, e0]
  have hj2 : ∀ d, joinLoop d [0, 0] [] = '0' :: (d ++ ['0']) := fun d => by simp [joinLoop, e0]
  split at h1 <;> split at h1
  · simp only [v3KeyLoop, e0] at h1
    exact List.append_cancel_right (List.append_cancel_left h1)
  · rw [join, hj] at h1
    simp [v3KeyLoop, e0] at h1
  · rw [join, hj] at h1
    simp [v3KeyLoop, e0] at h1
  · rename_i c c'
    rw [if_neg c, if_neg c', join, join, hj2, hj2] at h2
    exact List.append_cancel_right (List.cons.inj h2).2

/-! ### Dataset objects that decode alike -/

/-- two codecs with the same decoder -/
def Codec.SameDecoder : Codec → Codec → Prop
  | .raw, .raw => True
  | .lib _ d, .lib _ d' => d = d'
  | _, _ => False

theorem Codec.SameDecoder.decompress {C C' : Codec} (h : C.SameDecoder C') (b : Bytes) (dest : List E.T) (n : Nat) :
    Z5.decompress E C b dest n = Z5.decompress E C' b dest n := by
  cases C <;> cases C'
  · rfl
  · exact h.elim
  · exact h.elim
  · cases h
    rfl

theorem Codec.SameDecoder.encodes {C C' : Codec} (h : C.SameDecoder C') (y x : Bytes) :
    Encodes C y x ↔ Encodes C' y x := by
  cases C <;> cases C'
  · rfl
  · exact h.elim
  · exact h.elim
  · cases h
    rfl

theorem Libs.sameDecoder (L : Libs) (size : Nat) {s s' : Settings} (h : s.compressor = s'.compressor) :
    (L.codec size s).SameDecoder (L.codec size s') := by
  unfold Libs.codec
  by_cases e : s = .raw
  · have e' : s' = .raw := Settings.compressor_raw.1 (h ▸ Settings.compressor_raw.2 e)
    rw [if_pos e, if_pos e']
    trivial
  · have e' : s' ≠ .raw := fun e' => e (Settings.compressor_raw.1 (h ▸ Settings.compressor_raw.2 e'))
    rw [if_neg e, if_neg e']
    exact congrArg _ h

/-- the same dataset with other key settings, another compressor and another mode -/
def Dataset.variant (ds : Dataset E) (k : KeyCfg) (C : Codec) (w : Bool) : Dataset E :=
  { ds with key := k, codec := C, canWrite := w }

/-- Keys and decoder are the same. -/
structure Dataset.Alike (ds : Dataset E) (k : KeyCfg) (C : Codec) : Prop where
  isZarr : k.isZarr = ds.key.isZarr
  keys : ∀ c, getChunkKey k c = getChunkKey ds.key c
  decoder : C.SameDecoder ds.codec
  lawful : C.LawfulFor (prod ds.chunkShape * E.size)

namespace Dataset.Alike

variable {ds : Dataset E} {k : KeyCfg} {C : Codec} {w : Bool}

theorem delimiter (h : ds.Alike k C) (hz : ds.key.isZarr = true) : k.delimiter = ds.key.delimiter :=
  delimiter_of_keys hz (h.isZarr.trans hz) h.keys

theorem stored (h : ds.Alike k C) (c : List Nat) : (ds.variant k C w).stored c = ds.stored c := by
  unfold Dataset.stored Dataset.isZarr
  show (if k.isZarr = true then _ else _) = _
  rw [h.isZarr]
  rfl

theorem wf (h : ds.Alike k C) (hd : ds.WF) : (ds.variant k C w).WF where
  made := by
    have := hd.made
    unfold Dataset.make at this ⊢
    obtain ⟨B, h1, h2⟩ := Res.bind_eq_ok.1 this
    refine Res.bind_eq_ok.2 ⟨B, h1, ?_⟩
    have := Res.ok.inj h2
    show Res.ok _ = Res.ok (ds.variant k C w)
    rw [← this]
    rfl
  dims := hd.dims
  small := hd.small
  bytes := hd.bytes
  codec := h.lawful
  keyOk := fun e => by
    have e' : ds.key.isZarr = true := h.isZarr.symm.trans e
    show Separates k.delimiter
    rw [h.delimiter e']
    exact hd.keyOk e'
  n5 := fun e => hd.n5 (h.isZarr.symm.trans e)

theorem nested (h : ds.Alike k C) : k.nested = ds.key.nested := by
  unfold KeyCfg.nested
  rw [h.isZarr]
  cases e : ds.key.isZarr with
  | true => rw [h.delimiter e]
  | false => rfl

theorem decodes (h : ds.Alike k C) {c : List Nat} {b : Bytes} {content : List E.T} :
    Decodes (ds.variant k C w) c b content ↔ Decodes ds c b content := by
  have hz : (ds.variant k C w).isZarr = ds.isZarr := h.isZarr
  have hd : ∀ b dest n, Z5.decompress E (ds.variant k C w).codec b dest n = Z5.decompress E ds.codec b dest n :=
    h.decoder.decompress
  have hs : (ds.variant k C w).stored c = ds.stored c := h.stored c
  have he : ∀ y x, Encodes (ds.variant k C w).codec y x ↔ Encodes ds.codec y x := h.decoder.encodes
  constructor
  · rintro ⟨h1, h2, h3, h4, h5, h6⟩
    simp only [hz, hs, hd, he] at h1 h2 h3 h4 h5 h6
    exact ⟨h1, h2, h3, h4, h5, h6⟩
  · rintro ⟨h1, h2, h3, h4, h5, h6⟩
    constructor <;> simp only [hz, hs, hd, he] <;> assumption

theorem inStored (h : ds.Alike k C) (c x : List Nat) : InStored (ds.variant k C w) c x ↔ InStored ds c x := by
  unfold InStored
  rw [h.stored]
  rfl

theorem repr (h : ds.Alike k C) {c : List Nat} {old : Option (List E.T)} {A : List Nat → E.T} :
    Repr (ds.variant k C w) c old A ↔ Repr ds c old A := by
  cases old with
  | none =>
    show (∀ x, InStored (ds.variant k C w) c x → A x = ds.fill) ↔ ∀ x, InStored ds c x → A x = ds.fill
    simp only [h.inStored]
  | some content =>
    unfold Repr
    simp only [h.inStored, h.stored]
    rfl

theorem blobOk (h : ds.Alike k C) {c : List Nat} {v : Option Bytes} {A : List Nat → E.T} :
    BlobOk (ds.variant k C w) c v A ↔ BlobOk ds c v A := by
  cases v with
  | none => exact h.repr (old := none)
  | some b =>
    unfold BlobOk
    simp only [h.repr, h.decodes]

theorem refinesB (h : ds.Alike k C) {β : List Nat → Option Bytes} {S : List Nat → E.T} :
    RefinesB (ds.variant k C w) β S ↔ RefinesB ds β S := by
  unfold RefinesB HoldsB
  simp only [h.inStored, h.blobOk]
  rfl

theorem refines (h : ds.Alike k C) {σ : Store} {S : List Nat → E.T} :
    Refines (ds.variant k C w) σ S ↔ Refines ds σ S := by
  unfold Refines Holds
  have hk : ∀ c, (ds.variant k C w).chunkKey c = ds.chunkKey c := h.keys
  simp only [h.inStored, h.blobOk, hk]
  rfl

end Dataset.Alike

def ShardedDataset.variant (sd : ShardedDataset E) (k : KeyCfg) (C : Codec) (w : Bool) : ShardedDataset E :=
  { sd with key := k, codec := C, canWrite := w }

theorem ShardedDataset.variant_wf {sd : ShardedDataset E} {k : KeyCfg} {C : Codec} {w : Bool}
    (h : sd.toDataset.Alike k C) (hd : sd.WF) : (sd.variant k C w).WF where
  made := by
    have hz : sd.key.isZarr = true := hd.isZarr
    have hz' : k.isZarr = true := h.isZarr.trans hz
    have hb := (h.wf (w := w) hd.base).made
    have := hd.made
    unfold ShardedDataset.make at this ⊢
    obtain ⟨d, h1, h2⟩ := Res.bind_eq_ok.1 this
    obtain ⟨c, h3, h4⟩ := Res.bind_eq_ok.1 h2
    refine Res.bind_eq_ok.2 ⟨sd.toDataset.variant k C w, ?_, Res.bind_eq_ok.2 ⟨c, h3, ?_⟩⟩
    · have e : ({ k with isZarr := true } : KeyCfg) = k := by
        cases k; cases hz'; rfl
      show Dataset.make sd.shape sd.chunkShape { k with isZarr := true } C sd.fill w sd.backend = _
      rw [e]
      exact hb
    · have h4 := Res.ok.inj h4
      show Res.ok _ = Res.ok (sd.variant k C w)
      rw [← h4]
      rfl
  base := h.wf hd.base
  shards := hd.shards
  slots := hd.slots

theorem ShardedDataset.variant_srefines {sd : ShardedDataset E} {k : KeyCfg} {C : Codec} {w : Bool}
    (h : sd.toDataset.Alike k C) {σ : Store} {S : List Nat → E.T} :
    (sd.variant k C w).SRefines σ S ↔ sd.SRefines σ S := by
  have hk : ∀ s, (sd.variant k C w).skey s = sd.skey s := h.keys
  have hb : (sd.variant k C w).blobAt σ = sd.blobAt σ := by
    funext c
    unfold ShardedDataset.blobAt
    rw [hk]
    rfl
  have hv : (sd.variant k C w).Valid σ ↔ sd.Valid σ := by
    unfold ShardedDataset.Valid
    simp only [hk]
    rfl
  unfold ShardedDataset.SRefines
  rw [hb, hv]
  exact and_congr_right fun _ => h.refinesB

namespace AnyDataset

/-- the same dataset with other key settings, another compressor and another mode -/
def variant (d : AnyDataset E) (k : KeyCfg) (C : Codec) (w : Bool) : AnyDataset E :=
  match d with
  | plain ds => plain (ds.variant k C w)
  | sharded sd => sharded (sd.variant k C w)

variable {d : AnyDataset E} {k : KeyCfg} {C : Codec} {w : Bool}

theorem variant_base : (d.variant k C w).base = d.base.variant k C w := by cases d <;> rfl

theorem variant_wf (h : d.base.Alike k C) (hd : d.WF) : (d.variant k C w).WF := by
  cases d with
  | plain ds => exact h.wf hd
  | sharded sd => exact ShardedDataset.variant_wf h hd

theorem variant_holds (h : d.base.Alike k C) {p : Path} {σ : Fs} {S : List Nat → E.T} :
    (d.variant k C w).Holds p σ S ↔ d.Holds p σ S := by
  cases d with
  | plain ds => exact h.refines
  | sharded sd => exact ShardedDataset.variant_srefines h

theorem variant_isKey (h : d.base.Alike k C) : (d.variant k C w).IsKey = d.IsKey := by
  funext x
  have : ∀ c, (d.variant k C w).fileKey c = d.fileKey c := by
    intro c
    unfold fileKey
    rw [variant_base]
    exact h.keys c
  unfold IsKey
  simp only [this]
  cases d <;> rfl

theorem variant_plainKeys (h : d.base.Alike k C) (hk : d.PlainKeys) : (d.variant k C w).PlainKeys := by
  unfold PlainKeys at *
  rw [variant_base]
  show k.nested = true ∨ _
  rw [h.nested]
  cases e : d.base.key.isZarr with
  | true =>
    rw [show (d.base.variant k C w).key.delimiter = d.base.key.delimiter from h.delimiter e]
    exact hk
  | false => exact .inl (by unfold KeyCfg.nested; rw [e]; rfl)

end AnyDataset

/-! ### The typed objects of siblings -/

theorem Sibling.keyCfg_isZarr {p : Path} {o₀ o : DatasetObj} (h : Sibling p o₀ o) : o.keyCfg.isZarr = o.info.isZarr := by
  unfold DatasetObj.keyCfg
  rw [h.cache]
  rfl

theorem Sibling.typed {p : Path} {o₀ o : DatasetObj} (h : Sibling p o₀ o) (h₀ : Sibling p o₀ o₀)
    (hs : o₀.sharded = true → o₀.info.isZarr = true) {L : Libs}
    {elem : FillVal → E.T} {d₀ : AnyDataset E} {B : Backend} (hL : L.LawfulFor (prod d₀.base.chunkShape * E.size))
    (hd : o₀.typed L elem B = .ok d₀) :
    o.typed L elem B = .ok (d₀.variant o.keyCfg (L.codec E.size o.settings) o.handle.mode.canWrite) ∧
    d₀.base.Alike o.keyCfg (L.codec E.size o.settings) ∧ d₀.base.shape = o₀.info.shape ∧ d₀.base.fill = elem o₀.fill := by
  unfold DatasetObj.typed at hd ⊢
  have e0 : o₀.keyCfg = ⟨o₀.handle.cache.getD o₀.info.isZarr, o₀.handle.delimiter.toList, o₀.handle.zarrFormat.toNat,
    o₀.handle.encoding.toList⟩ := rfl
  have e1 : o.keyCfg = ⟨o.handle.cache.getD o.info.isZarr, o.handle.delimiter.toList, o.handle.zarrFormat.toNat,
    o.handle.encoding.toList⟩ := rfl
  rw [← e0] at hd
  rw [← e1]
  have hkz := h.keyCfg_isZarr
  have hkz0 := h₀.keyCfg_isZarr
  have hz : o.keyCfg.isZarr = o₀.keyCfg.isZarr := by rw [hkz, hkz0, h.isZarr]
  rw [h.sharded]
  cases hsh : o₀.sharded with
  | false =>
    simp only [hsh, Bool.false_eq_true, if_false] at hd ⊢
    obtain ⟨ds, h1, h2⟩ := Res.bind_eq_ok.1 hd
    have h2 : AnyDataset.plain ds = d₀ := Res.ok.inj h2
    subst h2
    unfold Dataset.make at h1
    obtain ⟨B, h3, h4⟩ := Res.bind_eq_ok.1 h1
    have h4 := Res.ok.inj h4
    subst h4
    refine ⟨?_, ⟨hz, h.keys, L.sameDecoder _ h.compressor, hL _ _⟩, rfl, rfl⟩
    rw [h.shape, h.chunkShape, h.fill]
    unfold Dataset.make
    rw [h3]
    rfl
  | true =>
    simp only [hsh, if_true] at hd ⊢
    obtain ⟨sd, h1, h2⟩ := Res.bind_eq_ok.1 hd
    have h2 : AnyDataset.sharded sd = d₀ := Res.ok.inj h2
    subst h2
    have hz0 : o₀.keyCfg.isZarr = true := hkz0.trans (hs hsh)
    have e2 : ({ o₀.keyCfg with isZarr := true } : KeyCfg) = o₀.keyCfg := by
      generalize o₀.keyCfg = k at hz0
      cases k; cases hz0; rfl
    have e3 : ({ o.keyCfg with isZarr := true } : KeyCfg) = o.keyCfg := by
      have hz' := hz.trans hz0
      generalize o.keyCfg = k at hz'
      cases k; cases hz'; rfl
    unfold ShardedDataset.make Dataset.make at h1
    rw [e2] at h1
    obtain ⟨d, h3, h4⟩ := Res.bind_eq_ok.1 h1
    obtain ⟨c, h5, h6⟩ := Res.bind_eq_ok.1 h4
    obtain ⟨B, h7, h8⟩ := Res.bind_eq_ok.1 h3
    have h6 := Res.ok.inj h6
    have h8 := Res.ok.inj h8
    subst h8
    subst h6
    refine ⟨?_, ⟨hz, h.keys, L.sameDecoder _ h.compressor, hL _ _⟩, rfl, rfl⟩
    rw [h.shape, h.chunkShape, h.fill, h.shardShape]
    unfold ShardedDataset.make Dataset.make
    rw [e3, h7]
    show (chunksPerShard o₀.info.shardShape o₀.info.chunkShape >>= _) >>= _ = _
    rw [h5]
    rfl

/-! ### Names of chunks and of metadata documents -/

/-- the documents of a node: not the beginning of any chunk key -/
def MetaName (n : String) : Prop := n = ".zarray" ∨ n = "zarr.json" ∨ n = "attributes.json" ∨ n = ".zattrs" ∨ n = ".zgroup"

theorem keyNames_head : ∀ (k acc : List Char), ∃ l m, keyNames k acc = String.ofList (acc.reverse ++ m) :: l ∧ m <+: k
  | [], acc => ⟨[], [], by simp [keyNames], List.prefix_refl _⟩
  | c :: cs, acc => by
    unfold keyNames
    split
    · exact ⟨keyNames cs [], [], by simp, List.nil_prefix⟩
    · obtain ⟨l, m, h1, h2⟩ := keyNames_head cs (c :: acc)
      refine ⟨l, c :: m, ?_, ?_⟩
      · rw [h1]; simp
      · exact (List.cons_prefix_cons).2 ⟨rfl, h2⟩

theorem metaName_key {n : String} (hn : MetaName n) {k : KeyCfg} {c : List Nat} {l : Path} :
    keyNames (getChunkKey k c) [] ≠ n :: l := by
  intro he
  obtain ⟨l', m, h1, h2⟩ := keyNames_head (getChunkKey k c) []
  rw [h1] at he
  have he := (List.cons.inj he).1
  have hm : m = n.toList := by rw [← he]; simp
  have hx : ∃ x r, n.toList = x :: r ∧ x ≠ 'c' ∧ x.isDigit = false := by
    rcases hn with rfl | rfl | rfl | rfl | rfl <;> exact ⟨_, _, rfl, by decide, by decide⟩
  obtain ⟨x, r, hx, hx1, hx2⟩ := hx
  rw [hm, hx] at h2
  obtain ⟨t, ht⟩ := h2
  by_cases hc : c = []
  · subst hc
    have : getChunkKey k [] = [] ∨ getChunkKey k [] = ['c'] := by
      unfold getChunkKey
      split
      · split
        · exact .inr rfl
        · exact .inl rfl
      · exact .inl rfl
    rcases this with e | e
    · rw [e] at ht; cases ht
    · rw [e] at ht
      exact hx1 (List.cons.inj ht).1
  · obtain ⟨y, r', hy, hy'⟩ := key_head k hc
    rw [hy] at ht
    have := (List.cons.inj ht).1
    subst this
    rcases hy' with e | e
    · exact hx1 e
    · rw [hx2] at e; cases e

theorem AnyDataset.IsKey.ne_meta {d : AnyDataset E} {k : Key} (h : d.IsKey k) {p : Path} {n : String} (hn : MetaName n) {q : Path}
    (hq : q <+: chunkFile p k) (hp : p <+: q) : q ≠ p ++ [n] := by
  rintro rfl
  obtain ⟨c, _, rfl⟩ := h
  unfold chunkFile at hq
  have := (List.prefix_append_right_inj p).1 hq
  obtain ⟨l, hl⟩ := this
  exact metaName_key hn (k := d.base.key) (c := c) (l := l) hl.symm

/-- Writing chunks changes no document. -/
theorem AnyDataset.onlyChunks_meta {d : AnyDataset E} {p : Path} {σ σ' : Fs} (h : OnlyChunks p d.IsKey σ σ') {n : String}
    (hn : MetaName n) : σ' (p ++ [n]) = σ (p ++ [n]) := by
  rcases h (p ++ [n]) with ⟨k, hk, e⟩ | e | ⟨_, _, k, hk, h1, h2, _⟩
  · exact absurd e.symm (hk.ne_meta hn (List.prefix_refl _) (by unfold chunkFile; exact List.prefix_append _ _))
  · exact e
  · exact absurd rfl (hk.ne_meta hn h2 h1)

/-! ### Opening -/

/-- `openDataset` depends on two documents, and on the format that the group has. -/
theorem openDataset_run {root : GroupHandle} {key : Path} {m : Meta} {cfg : ChunkConfig} {z : Bool} {σ : Fs}
    (hz : root.isZarr σ = (.ok z, σ)) (hp : σ (root.path ++ key) = some .dir)
    (hc : z = true → readChunkConfig (root.path ++ key) σ = (.ok cfg, σ)) (hi : z = false → cfg = ChunkConfig.initial)
    (hm : readDatasetMetadata (root.path ++ key) σ = (.ok m, σ)) :
    root.openDataset key σ = (makeDataset (root.dataset key cfg.delimiter cfg.zarrFormat cfg.encoding) m, σ) := by
  have hopen : (root.dataset key cfg.delimiter cfg.zarrFormat cfg.encoding).openDataset σ
      = (makeDataset (root.dataset key cfg.delimiter cfg.zarrFormat cfg.encoding) m, σ) := by
    unfold DatasetHandle.openDataset
    have hp' : σ (root.dataset key cfg.delimiter cfg.zarrFormat cfg.encoding).path = some .dir := hp
    have hr' : readDatasetMetadata (root.dataset key cfg.delimiter cfg.zarrFormat cfg.encoding).path σ
      = (.ok m, σ) := hm
    simp only [FsM.bind_run, FsM.exist_run, hp']
    simp only [Option.isSome_some, Bool.not_true, Bool.false_eq_true, if_false, FsM.bind_run, hr', FsM.lift_run]
  unfold GroupHandle.openDataset
  cases z with
  | true => simp only [FsM.bind_run, hz, if_true, hc rfl, hopen]
  | false =>
    simp only [FsM.bind_run, hz, Bool.false_eq_true, if_false, FsM.pure_run]
    rw [← hi rfl]
    exact hopen

/-- `makeDataset` with a handle in another mode -/
theorem makeDataset_mode {d : DatasetHandle} {m : Meta} {o : DatasetObj} (h : makeDataset d m = .ok o) (mode : FileMode) :
    makeDataset { d with mode := mode } m = .ok { o with handle := { o.handle with mode := mode } } := by
  obtain ⟨B, f, s, h1, h2, h3, ⟨h4, h5, h6, rfl⟩ | ⟨h4, rfl⟩⟩ := makeDataset_ok.1 h
  · exact makeDataset_ok.2 ⟨B, f, s, h1, h2, h3, .inl ⟨h4, h5, h6, rfl⟩⟩
  · exact makeDataset_ok.2 ⟨B, f, s, h1, h2, h3, .inr ⟨h4, rfl⟩⟩

theorem makeDataset_facts {d : DatasetHandle} {m : Meta} {o : DatasetObj} (h : makeDataset d m = .ok o) :
    o.info = m ∧ o.settings.compressor = m.compressor ∧ o.handle.path = d.path ∧
    (o.sharded = true → m.shardShape ≠ []) := by
  obtain ⟨B, f, s, h1, h2, h3, ⟨h4, h5, h6, rfl⟩ | ⟨h4, rfl⟩⟩ := makeDataset_ok.1 h
  · exact ⟨rfl, initCompressor_compressor h3, rfl, fun _ => h4⟩
  · exact ⟨rfl, initCompressor_compressor h3, rfl, fun e => by cases e⟩

/-! ### The invariant -/

/-- the layout of the dataset -/
def DatasetObj.layout (o : DatasetObj) : Layout := .of o.info.isZarr o.info.zarrFormat

theorem DatasetObj.layout_isZarr (o : DatasetObj) : o.layout.isZarr = o.info.isZarr := by
  unfold DatasetObj.layout Layout.of
  cases o.info.isZarr with
  | false => rfl
  | true => by_cases h : o.info.zarrFormat = 3 <;> simp [h, Layout.isZarr]

/-- What opening the dataset gives: with these metadata and this chunk configuration, objects like `o₀`. -/
structure Opens (p : Path) (o₀ : DatasetObj) (m : Meta) (cfg : ChunkConfig) : Prop where
  self : Sibling p o₀ o₀
  shard : o₀.sharded = true → o₀.info.isZarr = true
  initial : o₀.info.isZarr = false → cfg = ChunkConfig.initial
  make : ∀ mode, ∃ o, makeDataset ⟨p, mode, cfg.delimiter, cfg.zarrFormat, cfg.encoding, none⟩ m = .ok o ∧
    Sibling p o₀ o ∧ o.handle.mode = mode

/-- The documents at `p` are not those of a group. -/
def Fs.NotGroup (σ : Fs) (p : Path) : Layout → Prop
  | .v2 => σ (p ++ [".zgroup"]) = none
  | .v3 => (σ.docAt (p ++ ["zarr.json"])).bind (·.find "node_type") = some (.str "array")
  | .n5 => ((n5DatasetKeys.filter fun k => (σ.attributes p .n5 k).isSome).length == 4) = true

/-- The directory `p` holds the dataset. -/
structure Carries (p : Path) (o₀ : DatasetObj) (m : Meta) (cfg : ChunkConfig) (d : AnyDataset E) (S : List Nat → E.T)
    (σ : Fs) : Prop where
  tidy : Tidy p d.IsKey σ
  holds : d.Holds p σ S
  node : σ.Node p o₀.layout
  n5 : o₀.layout = .n5 → σ (p ++ ["attributes.json"]) ≠ none
  kind : σ.NotGroup p o₀.layout
  info : readDatasetMetadata p σ = (.ok m, σ)
  names : readChunkConfig p σ = (.ok cfg, σ)

theorem readDatasetMetadata_congr {p : Path} {σ σ' : Fs} (h : ∀ n, MetaName n → σ' (p ++ [n]) = σ (p ++ [n])) :
    (readDatasetMetadata p σ').1 = (readDatasetMetadata p σ).1 := by
  have h1 := h ".zarray" (.inl rfl)
  have h2 := h "zarr.json" (.inr (.inl rfl))
  have h3 := h "attributes.json" (.inr (.inr (.inl rfl)))
  rw [readDatasetMetadata_run, readDatasetMetadata_run]
  unfold Fs.docAt
  generalize hv : (σ (p ++ ["zarr.json"])).isSome = v
  generalize hz : (σ (p ++ [".zarray"])).isSome = z
  rw [h1, h2, h3, hv, hz]
  cases v <;> cases z <;> simp [h1, h2, h3]

theorem readChunkConfig_congr {p : Path} {σ σ' : Fs} (h : ∀ n, MetaName n → σ' (p ++ [n]) = σ (p ++ [n])) :
    (readChunkConfig p σ').1 = (readChunkConfig p σ).1 := by
  have h1 := h ".zarray" (.inl rfl)
  have h2 := h "zarr.json" (.inr (.inl rfl))
  rw [readChunkConfig_run, readChunkConfig_run]
  unfold Fs.docAt
  rw [h1, h2]

theorem Fs.Node.congr {p : Path} {L : Layout} {σ σ' : Fs} (hn : σ.Node p L) (hd : σ' p = σ p)
    (h : ∀ n, MetaName n → σ' (p ++ [n]) = σ (p ++ [n])) : σ'.Node p L := by
  have hf : MetaName L.file := by cases L <;> simp [MetaName, Layout.file]
  have h2 := h "zarr.json" (.inr (.inl rfl))
  refine ⟨hd.trans hn.dir, ?_, ?_, ?_⟩
  · rw [h _ hf]; exact hn.doc
  · rw [h2]; exact hn.v3
  · rw [h2]; exact hn.v2

theorem Fs.NotGroup.congr {p : Path} {L : Layout} {σ σ' : Fs} (h : σ.NotGroup p L)
    (hd : ∀ n, MetaName n → σ' (p ++ [n]) = σ (p ++ [n])) : σ'.NotGroup p L := by
  cases L with
  | v2 =>
    unfold Fs.NotGroup
    rw [hd ".zgroup" (.inr (.inr (.inr (.inr rfl))))]
    exact h
  | v3 =>
    unfold Fs.NotGroup Fs.docAt
    rw [hd "zarr.json" (.inr (.inl rfl))]
    exact h
  | n5 =>
    have e : σ'.docAt (p ++ ["attributes.json"]) = σ.docAt (p ++ ["attributes.json"]) := by
      unfold Fs.docAt
      rw [hd "attributes.json" (.inr (.inr (.inl rfl)))]
    show ((n5DatasetKeys.filter fun k => ((σ'.docAt (p ++ ["attributes.json"])).bind (·.find k)).isSome).length == 4) = true
    rw [e]
    exact h

theorem Fs.NotGroup.attributes {p : Path} {L : Layout} {A : AttrMap} {σ σ' : Fs} (h : σ.NotGroup p L)
    (ho : σ.OnlyAttributes σ' p L A) (hA : L = .n5 → ∀ k ∈ n5DatasetKeys, A k = σ.attributes p .n5 k) :
    σ'.NotGroup p L := by
  cases L with
  | v2 =>
    unfold Fs.NotGroup
    rw [ho.files _ (by simp [Layout.file])]
    exact h
  | v3 =>
    unfold Fs.NotGroup
    rw [ho.rest rfl _ (by decide)]
    exact h
  | n5 =>
    unfold Fs.NotGroup
    have e := ho.attributes
    rw [e, List.filter_congr (fun k hk => by rw [hA rfl k hk])]
    exact h

section
variable {p : Path} {o₀ : DatasetObj} {m : Meta} {cfg : ChunkConfig} {d : AnyDataset E} {S : List Nat → E.T} {σ σ' : Fs}

/-- If the documents stay, what they say stays. -/
theorem Carries.docs (h : Carries p o₀ m cfg d S σ) {S' : List Nat → E.T}
    (hd : ∀ n, MetaName n → σ' (p ++ [n]) = σ (p ++ [n])) (ht : Tidy p d.IsKey σ') (hS : d.Holds p σ' S') :
    Carries p o₀ m cfg d S' σ' where
  tidy := ht
  holds := hS
  node := h.node.congr ((ht.above p (List.prefix_refl _)).trans (h.tidy.above p (List.prefix_refl _)).symm) hd
  n5 := fun e => by rw [hd "attributes.json" (.inr (.inr (.inl rfl)))]; exact h.n5 e
  kind := h.kind.congr hd
  info := by
    have := readDatasetMetadata_congr hd
    rw [h.info] at this
    rw [readDatasetMetadata_run] at this ⊢
    exact Prod.ext this rfl
  names := by
    have := readChunkConfig_congr hd
    rw [h.names] at this
    rw [readChunkConfig_run] at this ⊢
    exact Prod.ext this rfl

theorem Carries.elsewhere (h : Carries p o₀ m cfg d S σ) (he : ∀ q, q <+: p ∨ p <+: q → σ' q = σ q) :
    Carries p o₀ m cfg d S σ' := by
  have hb : ∀ q, σ' (p ++ q) = σ (p ++ q) := fun q => he _ (.inr (List.prefix_append _ _))
  refine h.docs (fun n _ => hb [n]) ⟨?_, ?_, ?_⟩ ?_
  · intro q hq
    rw [he q (.inl hq)]
    exact h.tidy.above q hq
  · intro k hk
    unfold chunkFile
    rw [hb]
    exact h.tidy.files k hk
  · intro k hk q h1 h2 h3
    rw [he q (.inr h1)]
    exact h.tidy.dirs k hk q h1 h2 h3
  · have : σ'.chunks p = σ.chunks p := by
      funext k
      unfold Fs.chunks
      rw [hb]
    have hS := h.holds
    unfold AnyDataset.Holds at hS ⊢
    rw [this]
    exact hS

/-- What the documents of a dataset say depends on nothing but the metadata in them. -/
theorem chunkConfig_attributes {L : Layout} {A : AttrMap} (hn : σ.Node p L) (ho : σ.OnlyAttributes σ' p L A) :
    (readChunkConfig p σ').1 = (readChunkConfig p σ).1 := by
  obtain ⟨_, hf, hz⟩ := ho.exists_same hn
  have e1 : σ' (p ++ [".zarray"]) = σ (p ++ [".zarray"]) := hf _ (by cases L <;> decide)
  rw [readChunkConfig_run, readChunkConfig_run]
  cases L with
  | v3 =>
    obtain ⟨j, hj, _, _⟩ := hn.v3 rfl
    obtain ⟨j', hj', _, _⟩ := ho.node.v3 rfl
    have hr := ho.rest rfl "chunk_key_encoding" (by decide)
    unfold Fs.docAt at hr ⊢
    simp only [hj, hj', Option.isSome_some, if_true] at hr ⊢
    have hr : j'.find "chunk_key_encoding" = j.find "chunk_key_encoding" := hr
    unfold getZarrChunkConfig
    simp only [hr]
  | v2 =>
    have e2 : σ' (p ++ ["zarr.json"]) = σ (p ++ ["zarr.json"]) := hf _ (by decide)
    unfold Fs.docAt
    rw [e1, e2]
  | n5 =>
    have e2 : σ' (p ++ ["zarr.json"]) = σ (p ++ ["zarr.json"]) := hf _ (by decide)
    unfold Fs.docAt
    rw [e1, e2]

theorem Carries.attributes (h : Carries p o₀ m cfg d S σ) {o : DatasetObj} (hs : Sibling p o₀ o) {op : AttrOp}
    (hv : op.Valid) : Carries p o₀ m cfg d S ((Target.dataset o.handle).change op σ).2 := by
  cases hw : o.handle.mode.canWrite with
  | false =>
    have hm : o.handle.mode = .r := by
      revert hw
      cases o.handle.mode <;> decide
    have : ((Target.dataset o.handle).change op σ).2 = σ :=
      (c31_container (op := .change (.dataset o.handle) op) hm σ).1
    rw [this]
    exact h
  | true =>
    have hr : (Target.dataset o.handle).Refers σ o₀.layout := by
      refine ⟨?_, ?_, ?_⟩
      · show σ.Node o.handle.path _
        rw [hs.path]
        exact h.node
      · show o.handle.isZarr σ = _
        rw [dataset_isZarr, hs.cache, o₀.layout_isZarr, hs.isZarr]
      · intro _ _ e
        show σ (o.handle.path ++ _) ≠ none
        rw [hs.path]
        exact h.n5 e
    obtain ⟨c1, c2⟩ := c29_change (t := .dataset o.handle) hw hr hv
    cases hnm : op.names ((Target.dataset o.handle).locked o₀.layout) with
    | true => rw [c1 hnm]; exact h
    | false =>
      obtain ⟨σ', e, ho, hr'⟩ := c2 hnm
      rw [e]
      show Carries p o₀ m cfg d S σ'
      have hinfo := ho.metadata hr fun hL k hk => AttrOp.apply_of_not_names (h := hnm) (by rw [hL]; exact hk)
      have hpath : (Target.dataset o.handle).path = p := hs.path
      rw [hpath] at ho
      have hpath : o.handle.path = p := hs.path
      rw [hpath] at hinfo
      have hf : MetaName o₀.layout.file := by cases o₀.layout <;> simp [MetaName, Layout.file]
      have hk : ∀ k, d.IsKey k → ∀ q, q <+: chunkFile p k → p <+: q → σ' q = σ q := fun k hk q h1 h2 =>
        ho.files q (hk.ne_meta hf h1 h2)
      have hpp : ∀ q, q <+: p → σ' q = σ q := fun q hq => ho.files q fun e => by
        have := hq.length_le
        rw [e] at this
        simp at this
        omega
      have hkind : σ'.NotGroup p o₀.layout := h.kind.attributes ho fun e k hk => by
        rw [← e]
        exact AttrOp.apply_of_not_names (h := hnm) (by rw [e]; exact hk)
      refine ⟨⟨?_, ?_, ?_⟩, ?_, ho.node, ?_, hkind, ?_, ?_⟩
      · intro q hq
        rw [hpp q hq]
        exact h.tidy.above q hq
      · intro k hk'
        rw [hk k hk' _ (List.prefix_refl _) (by unfold chunkFile; exact List.prefix_append _ _)]
        exact h.tidy.files k hk'
      · intro k hk' q h1 h2 h3
        rw [hk k hk' q h2 h1]
        exact h.tidy.dirs k hk' q h1 h2 h3
      · have : σ'.chunks p = σ.chunks p := by
          funext k
          rw [chunks_eq, chunks_eq]
          by_cases e : chunkFile p k = p ++ [o₀.layout.file]
          · rw [e]
            have e1 : contentOf (σ (p ++ [o₀.layout.file])) = none := by
              rcases h.node.doc with e | ⟨j, e, _⟩ <;> rw [e] <;> rfl
            have e2 : contentOf (σ' (p ++ [o₀.layout.file])) = none := by
              rcases ho.node.doc with e | ⟨j, e, _⟩ <;> rw [e] <;> rfl
            rw [e1, e2]
          · rw [ho.files _ e]
        have hS := h.holds
        unfold AnyDataset.Holds at hS ⊢
        rw [this]
        exact hS
      · intro e
        have := ho.kept
        rw [e] at this
        exact this (h.n5 e)
      · rw [h.info] at hinfo
        rw [readDatasetMetadata_run] at hinfo ⊢
        exact Prod.ext hinfo rfl
      · have := chunkConfig_attributes h.node ho
        rw [h.names] at this
        rw [readChunkConfig_run] at this ⊢
        exact Prod.ext this rfl

end

/-- what the new documents say -/
theorem NewNode.documents {m m' : Meta} {p : Path} {j : Json} {cfg : ChunkConfig} {σ σ' : Fs}
    (hn : σ.NewNode σ' p (fun n => if n = m.fileName then some j else none))
    (hf : Meta.fromJson j m.isZarr = .ok m')
    (hc : m.isZarr = true → getZarrChunkConfig (if m.fileName = "zarr.json" then some j else none)
      (if m.fileName = ".zarray" then some j else none) = .ok cfg)
    (hi : m.isZarr = false → cfg = ChunkConfig.initial) :
    readDatasetMetadata p σ' = (.ok m', σ') ∧ readChunkConfig p σ' = (.ok cfg, σ') := by
  have hfile : m.fileName = "zarr.json" ∧ m.isZarr = true ∨ m.fileName = ".zarray" ∧ m.isZarr = true ∨
      m.fileName = "attributes.json" ∧ m.isZarr = false := by
    unfold Meta.fileName
    cases m.isZarr with
    | false => exact .inr (.inr ⟨rfl, rfl⟩)
    | true =>
      by_cases hf : m.zarrFormat = 3
      · exact .inl ⟨by simp [hf], rfl⟩
      · exact .inr (.inl ⟨by simp [hf], rfl⟩)
  constructor
  · rw [readDatasetMetadata_run]
    simp only [hn.isSome, hn.docAt]
    rcases hfile with ⟨e1, e2⟩ | ⟨e1, e2⟩ | ⟨e1, e2⟩ <;> rw [e1] <;> rw [e2] at hf <;> exact Prod.ext hf rfl
  · rw [readChunkConfig_run]
    simp only [hn.isSome, hn.docAt]
    rcases hfile with ⟨e1, e2⟩ | ⟨e1, e2⟩ | ⟨e1, e2⟩
    · have := hc e2
      rw [e1] at this
      rw [e1]
      exact Prod.ext this rfl
    · have := hc e2
      rw [e1] at this
      rw [e1]
      exact Prod.ext this rfl
    · rw [hi e2, e1]
      rfl

/-- What a dataset was created with, opening it finds. -/
theorem created_opens {p : Path} {mode : FileMode} {z : Bool} {a : CreateArgs} {o₀ : DatasetObj} {j : Json}
    (hm : a.toMeta z = .ok o₀.info)
    (hmk : makeDataset ⟨p, mode, a.delimiter, a.zarrFormat, a.encoding, none⟩ o₀.info = .ok o₀)
    (hh : o₀.handle.cache = some z) (hj : o₀.info.toJson = .ok j) (hd : o₀.Describable) :
    ∃ m' cfg, Opens p o₀ m' cfg ∧ Meta.fromJson j o₀.info.isZarr = .ok m' ∧
      (o₀.info.isZarr = true → getZarrChunkConfig (if o₀.info.fileName = "zarr.json" then some j else none)
        (if o₀.info.fileName = ".zarray" then some j else none) = .ok cfg) ∧
      (o₀.info.isZarr = false → cfg = ChunkConfig.initial) := by
  obtain ⟨e1, e2, _, _, _, _, _, _, _, _, _, e3⟩ := createMeta_ok hm
  obtain ⟨m', cfg, o, h1, h2, h3, h4, h5⟩ := reopen_pure hm hmk hj hd.typed (fun e => by rw [← e2]; exact hd.version e)
  obtain ⟨_, hc, hp, hsh⟩ := makeDataset_facts hmk
  obtain ⟨hi', hc', hp', hsh'⟩ := makeDataset_facts h4
  have hcache : o₀.handle.cache = some o₀.info.isZarr := by rw [hh, e1]
  have hcache' : o.handle.cache = some o.info.isZarr := by
    have := (makeDataset_info h4 (fun e => by
      have : o.info.shardShape ≠ [] := by rw [hi']; exact e
      rw [h5.shardShape] at this
      rw [← hi', h5.isZarr, e1]
      exact (e3 this).1)).2
    rw [this, hi']
  have hself : Sibling p o₀ o₀ :=
    ⟨hp, hcache, rfl, rfl, rfl, rfl, rfl, rfl, fun _ => rfl, rfl, rfl⟩
  have hsib : Sibling p o₀ o :=
    { path := hp'
      cache := hcache'
      isZarr := h5.isZarr
      dtype := h5.dtype
      shape := h5.shape
      chunkShape := h5.chunkShape
      shardShape := h5.shardShape
      sharded := h5.sharded
      keys := h5.keys
      fill := h5.fill hd.fill
      compressor := by rw [hc', ← hi', h5.compressor, hc] }
  refine ⟨m', cfg, ⟨hself, fun e => by rw [e1]; exact (e3 (hsh e)).1, h3, ?_⟩, h1, h2, h3⟩
  intro mode
  refine ⟨_, makeDataset_mode h4 mode, ?_, rfl⟩
  exact { hsib with keys := hsib.keys }

/-- A new dataset. -/
theorem created_carries {root : GroupHandle} {key : Path} {a : CreateArgs} {o₀ : DatasetObj} {σ σ' : Fs} (hσ : σ.WF)
    (h : root.createDataset key a σ = (.ok o₀, σ')) (hd : o₀.Describable) {d : AnyDataset E} (hwf : d.WF) :
    ∃ m cfg, Opens (root.path ++ key) o₀ m cfg ∧
      Carries (root.path ++ key) o₀ m cfg d (fun _ => d.base.fill) σ' := by
  obtain ⟨z, m, j, h0, hr, hm, rfl, hmk, hh, hj, hn⟩ := GroupHandle.createDataset_ok hσ h
  obtain ⟨e1, e2, _, _, _, _, _, _, _, _, _, e3⟩ := createMeta_ok hm
  obtain ⟨m', cfg, ho, h1, h2, h3⟩ := created_opens hm hmk (by rw [hh]) hj hd
  obtain ⟨i1, i2⟩ := NewNode.documents hn h1 h2 h3
  obtain ⟨_, _, hp, _⟩ := makeDataset_facts hmk
  refine ⟨m', cfg, ho, ?_⟩
  · obtain ⟨z', h0', href, _⟩ := c29_created_dataset hσ h
    have hzz : z' = z := by
      rw [h0] at h0'
      exact ((Res.ok.inj (Prod.mk.inj h0').1)).symm
    subst hzz
    have hL : o₀.layout = Layout.of z' a.zarrFormat := by unfold DatasetObj.layout; rw [e1, e2]
    have hnone : ∀ k, d.IsKey k → ∀ q, q <+: chunkFile (root.path ++ key) k → root.path ++ key <+: q →
        q ≠ root.path ++ key → σ' q = none := by
      intro k hk q hq hpq hne
      obtain ⟨r, rfl⟩ := hpq
      match r with
      | [] => simp at hne
      | [n] =>
        rw [hn.docs]
        have : n ≠ o₀.info.fileName := by
          rintro rfl
          have hmn : MetaName o₀.info.fileName := by
            unfold Meta.fileName
            split
            · split
              · exact .inr (.inl rfl)
              · exact .inl rfl
            · exact .inr (.inr (.inl rfl))
          exact hk.ne_meta hmn hq (List.prefix_append _ _) rfl
        rw [if_neg this]
        rfl
      | a :: b :: l => exact hn.below _ (by simp)
    have hcf : ∀ k, d.IsKey k → σ' (chunkFile (root.path ++ key) k) = none := fun k hk =>
      hnone k hk _ (List.prefix_refl _) (by unfold chunkFile; exact List.prefix_append _ _) (by
        unfold chunkFile
        intro e
        have := congrArg List.length e
        obtain ⟨l, _, e', _⟩ := keyNames_head k []
        rw [e'] at this
        simp at this)
    have hkind : σ'.NotGroup (root.path ++ key) o₀.layout := by
      rw [hL]
      cases hz : z' with
      | true =>
        rw [hz] at e1
        by_cases hf : a.zarrFormat = 3
        · have hfn : o₀.info.fileName = "zarr.json" := by
            unfold Meta.fileName
            rw [e1, e2, hf]
            rfl
          obtain ⟨s, fl, l, _, _, _, rfl⟩ := (toJson_v3 e1 (by rw [e2, hf])).1 hj
          rw [hf]
          show (σ'.docAt _).bind _ = _
          rw [hn.docAt, hfn]
          rfl
        · have hfn : o₀.info.fileName = ".zarray" := by
            unfold Meta.fileName
            rw [e1, e2, if_neg hf]
            rfl
          have : Layout.of true a.zarrFormat = .v2 := by simp [Layout.of, hf]
          rw [this]
          show σ' _ = none
          rw [hn.docs, hfn]
          rfl
      | false =>
        rw [hz] at e1
        have hfn : o₀.info.fileName = "attributes.json" := by
          unfold Meta.fileName
          rw [e1]
          rfl
        obtain ⟨s, c, _, _, rfl⟩ := (toJson_n5 e1).1 hj
        show ((n5DatasetKeys.filter fun k => ((σ'.docAt _).bind fun j => j.find k).isSome).length == 4) = true
        rw [hn.docAt, hfn]
        rfl
    refine ⟨⟨hn.dirs, fun k hk => ?_, fun k hk q h1 h2 h3 => ?_⟩, holds_empty hwf hcf, ?_, ?_, hkind, i1, i2⟩
    · rw [hcf k hk]; rfl
    · by_cases e : q = root.path ++ key
      · rw [e, hn.dirs _ (List.prefix_refl _)]; rfl
      · rw [hnone k hk q h2 h1 e]; rfl
    · have hp0 : o₀.handle.path = root.path ++ key := hp
      have := href.node
      rw [show (Target.dataset o₀.handle).path = root.path ++ key from hp0] at this
      rw [hL]
      exact this
    · intro e
      rw [hL] at e
      have := href.dataset _ rfl e
      show σ' (root.path ++ key ++ _) ≠ none
      have hp : (Target.dataset o₀.handle).path = root.path ++ key := hp
      rw [hp] at this
      exact this

/-- The invariant of sessions. -/
theorem Sessions.carries {L : Libs} {elem : FillVal → E.T} {p : Path} {o₀ : DatasetObj} {d₀ : AnyDataset E}
    (hL : L.LawfulFor (prod d₀.base.chunkShape * E.size)) (hdesc : o₀.Describable) (hd : o₀.typed L elem = .ok d₀) (hwf : d₀.WF) (hk : d₀.PlainKeys)
    {os : List DatasetObj} {ws : List (Write E.T)} {σ : Fs} (h : Sessions L elem p o₀ os ws σ) :
    ∃ m cfg, Opens p o₀ m cfg ∧ Carries p o₀ m cfg d₀ (replay (fun _ => d₀.base.fill) ws) σ ∧
      ∀ o ∈ os, Sibling p o₀ o := by
  induction h with
  | created hσ hp hc =>
    subst hp
    obtain ⟨m, cfg, h1, h2⟩ := created_carries hσ hc hdesc hwf
    exact ⟨m, cfg, h1, h2, fun o ho => by rw [List.mem_singleton.1 ho]; exact h1.self⟩
  | @opened root key os ws σ σ' o _ hp hz ho ih =>
    obtain ⟨m, cfg, h1, h2, h3⟩ := ih
    subst hp
    have hroot : ∃ z, root.isZarr σ = (.ok z, σ) := by
      rw [group_isZarr, h2.tidy.above _ (List.prefix_append _ _)]
      exact ⟨_, rfl⟩
    obtain ⟨z, hz'⟩ := hroot
    have hi : z = false → cfg = ChunkConfig.initial := fun e => h1.initial (by
      cases hzz : o₀.info.isZarr with
      | false => rfl
      | true =>
        have := hz hzz
        rw [hz', e] at this
        cases this)
    rw [openDataset_run hz' (h2.tidy.above _ (List.prefix_refl _)) (fun _ => h2.names) hi h2.info] at ho
    obtain ⟨o', h4, h5, _⟩ := h1.make root.mode
    have h4 : makeDataset (root.dataset key cfg.delimiter cfg.zarrFormat cfg.encoding) m = .ok o' := h4
    rw [h4] at ho
    cases ho
    refine ⟨m, cfg, h1, h2, fun x hx => ?_⟩
    rcases List.mem_cons.1 hx with rfl | hx
    · exact h5
    · exact h3 x hx
  | closed _ hs ih =>
    obtain ⟨m, cfg, h1, h2, h3⟩ := ih
    exact ⟨m, cfg, h1, h2, fun o ho => h3 o (hs o ho)⟩
  | @wrote os ws σ σ' o d w _ ho hw hty hp ih =>
    obtain ⟨m, cfg, h1, h2, h3⟩ := ih
    obtain ⟨t1, t2, _, _⟩ := (h3 o ho).typed h1.self h1.shard hL hd
    rw [t1] at hty
    have hty := Res.ok.inj hty
    subst hty
    have hcan : (d₀.variant o.keyCfg (L.codec E.size o.settings) o.handle.mode.canWrite).base.canWrite = true := by
      rw [variant_base]
      exact hw
    obtain ⟨p1, p2, p3⟩ := hp.effect (variant_wf t2 hwf) (variant_plainKeys t2 hk) hcan
      (by rw [variant_isKey t2]; exact h2.tidy)
    rw [variant_isKey t2] at p1 p2
    refine ⟨m, cfg, h1, ?_, h3⟩
    refine h2.docs (fun n hn => onlyChunks_meta p2 hn) p1 ?_
    rw [replay_append]
    exact (variant_holds t2).1 (p3 _ ((variant_holds t2).2 h2.holds))
  | annotated _ ho hv ih =>
    obtain ⟨m, cfg, h1, h2, h3⟩ := ih
    exact ⟨m, cfg, h1, h2.attributes (h3 _ ho) hv, h3⟩
  | elsewhere _ he ih =>
    obtain ⟨m, cfg, h1, h2, h3⟩ := ih
    exact ⟨m, cfg, h1, h2.elsewhere he, h3⟩

end Z5
