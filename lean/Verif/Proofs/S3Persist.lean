import Verif.Proofs.Persist
import Verif.Props.FileStore
import Verif.Props.S3Factory
import Verif.Spec.S3Persist

/-!
# Datasets on S3 over sessions (C78)
-/

namespace Z5
open Spec Prog AnyDataset

variable {α : Type} {E : Elem}

/-! ### Requests on chunks -/

theorem chunkObject_inj {name k k' : Key} (h : chunkObject name k = chunkObject name k') : k = k' := by
  have := List.append_cancel_left h
  exact (List.cons.inj this).2

theorem dirPrefix_chunk (name k : Key) : dirPrefix name <+: chunkObject name k := by
  unfold dirPrefix chunkObject
  split
  · exact List.nil_prefix
  · exact ⟨k, by simp⟩

theorem get_erase_self {b : Bucket} {k : Key} : (b.erase [k]).get k = none := by
  cases e : (b.erase [k]).get k with
  | none => rfl
  | some o =>
    have : k ∈ (b.erase [k]).keys := mem_keys.2 (by rw [e]; rfl)
    exact absurd (List.mem_singleton.2 rfl) (mem_keys_erase.1 this).2

theorem onChunk_get {b : Bucket} {name k : Key} {f : Option Bytes → Option Bytes} {q : Key} (hq : q ≠ chunkObject name k) :
    (b.onChunk name k f).get q = b.get q := by
  unfold Bucket.onChunk
  split
  · rfl
  · split
    · exact get_put_ne hq
    · exact get_erase (by simpa using hq)

theorem onChunk_chunks (b : Bucket) (name k : Key) (f : Option Bytes → Option Bytes) :
    (b.onChunk name k f).chunks name = (b.chunks name).upd k (f (b.chunks name k)) := by
  funext k'
  unfold Store.upd
  by_cases h : k' = k
  · subst h
    rw [if_pos rfl]
    unfold Bucket.onChunk
    split
    · next e => exact e.symm
    · cases e : f (b.chunks name k') with
      | some bytes =>
        show (match (b.put _ _).get _ with | some (S3Obj.file bytes) => some bytes | _ => none) = _
        rw [get_put_self]
      | none =>
        show (match (b.erase _).get _ with | some (S3Obj.file bytes) => some bytes | _ => none) = _
        rw [get_erase_self]
  · rw [if_neg h]
    unfold Bucket.chunks
    rw [onChunk_get fun e => h (chunkObject_inj e)]

/-- The tasks do the same as on the store of the chunks. -/
theorem interleaveS3_eq (name : Key) : ∀ (is : List Nat) (ts : List (Prog α)) (b : Bucket),
    (interleaveS3 name is (ts, b)).1 = (interleave is (ts, b.chunks name)).1 ∧
    (interleaveS3 name is (ts, b)).2.chunks name = (interleave is (ts, b.chunks name)).2
  | [], _, _ => ⟨rfl, rfl⟩
  | i :: is, ts, b => by
    have hs : ∃ ts' b', stepS3 name i (ts, b) = (ts', b') ∧ step i (ts, b.chunks name) = (ts', b'.chunks name) := by
      unfold stepS3 step
      split
      · next k f c h =>
        simp only at h
        simp only [h]
        exact ⟨_, _, rfl, by rw [onChunk_chunks]⟩
      · next h =>
        refine ⟨ts, b, rfl, ?_⟩
        split
        · next h' => exact absurd h' (h _ _ _)
        · rfl
    obtain ⟨ts', b', h1, h2⟩ := hs
    rw [interleaveS3, interleave, h1, h2]
    exact interleaveS3_eq name is ts' b'

/-- Only the objects that the tasks work on change. -/
theorem interleaveS3_frame {name : Key} {K : Key → Prop} : ∀ (is : List Nat) {c : List (Prog α) × Bucket},
    (∀ s ∈ c.1, s.Within K) → ∀ q, (∀ k, K k → q ≠ chunkObject name k) → (interleaveS3 name is c).2.get q = c.2.get q
  | [], _, _, _, _ => rfl
  | i :: is, (ts, b), hw, q, hq => by
    rw [interleaveS3]
    cases hi : ts[i]? with
    | none =>
      have e : stepS3 name i (ts, b) = (ts, b) := by simp [stepS3, hi]
      rw [e]
      exact interleaveS3_frame is hw q hq
    | some t =>
      cases t with
      | ret r =>
        have e : stepS3 name i (ts, b) = (ts, b) := by simp [stepS3, hi]
        rw [e]
        exact interleaveS3_frame is hw q hq
      | act k f cont =>
        have e : stepS3 name i (ts, b) = (ts.set i (cont (b.chunks name k)), b.onChunk name k f) := by simp [stepS3, hi]
        have h := hw _ (List.mem_of_getElem? hi)
        rw [e, interleaveS3_frame is (c := (ts.set i (cont (b.chunks name k)), b.onChunk name k f)) ?_ q hq]
        · exact onChunk_get (hq k h.1)
        · intro s hs
          rcases List.mem_or_eq_of_mem_set hs with hs | rfl
          · exact hw s hs
          · exact h.2 _

/-- Tasks that only read leave the bucket as it is. -/
theorem interleaveS3_readOnly {name : Key} : ∀ (is : List Nat) {c : List (Prog α) × Bucket},
    (∀ s ∈ c.1, ReadOnly s) → (interleaveS3 name is c).2 = c.2
  | [], _, _ => rfl
  | i :: is, (ts, b), hw => by
    rw [interleaveS3]
    cases hi : ts[i]? with
    | none =>
      have e : stepS3 name i (ts, b) = (ts, b) := by simp [stepS3, hi]
      rw [e]
      exact interleaveS3_readOnly is hw
    | some t =>
      cases t with
      | ret r =>
        have e : stepS3 name i (ts, b) = (ts, b) := by simp [stepS3, hi]
        rw [e]
        exact interleaveS3_readOnly is hw
      | act k f cont =>
        have e : stepS3 name i (ts, b) = (ts.set i (cont (b.chunks name k)), b.onChunk name k f) := by simp [stepS3, hi]
        have h := hw _ (List.mem_of_getElem? hi)
        have hb : b.onChunk name k f = b := if_pos (h.1 _)
        rw [e, hb, interleaveS3_readOnly is (c := (ts.set i (cont (b.chunks name k)), b))]
        intro s hs
        rcases List.mem_or_eq_of_mem_set hs with hs | rfl
        · exact hw s hs
        · exact h.2 _

/-! ### Calls -/

/-- the store holds the array `S` -/
def AnyDataset.InStore (d : AnyDataset E) (τ : Store) (S : List Nat → E.T) : Prop :=
  match d with
  | plain ds => Refines ds τ S
  | sharded sd => sd.SRefines τ S

theorem AnyDataset.variant_inStore {d : AnyDataset E} {k : KeyCfg} {C : Codec} {w : Bool} (h : d.base.Alike k C)
    {τ : Store} {S : List Nat → E.T} : (d.variant k C w).InStore τ S ↔ d.InStore τ S := by
  cases d with
  | plain ds => exact h.refines
  | sharded sd => exact ShardedDataset.variant_srefines h

theorem AnyDataset.inStore_empty {d : AnyDataset E} (h : d.WF) {τ : Store} (he : ∀ k, d.IsKey k → τ k = none) :
    d.InStore τ fun _ => d.base.fill := by
  cases d with
  | plain ds =>
    refine ⟨fun _ => ds.fill, ?_, fun _ _ _ _ => Or.inl rfl⟩
    intro c hc
    rw [he (ds.chunkKey c) ⟨c, hc, rfl⟩]
    exact fun _ _ => rfl
  | sharded sd => exact ShardedDataset.srefines_empty h fun s hs => he _ ⟨s, hs, rfl⟩

theorem AnyDataset.InStore.congr {d : AnyDataset E} (h : d.WF) {τ τ' : Store} {S : List Nat → E.T} (hS : d.InStore τ S)
    (he : ∀ k, d.IsKey k → τ' k = τ k) : d.InStore τ' S := by
  cases d with
  | plain ds =>
    obtain ⟨A, h1, h2⟩ := hS
    refine ⟨A, fun c hc => ?_, h2⟩
    rw [he (ds.chunkKey c) ⟨c, hc, rfl⟩]
    exact h1 c hc
  | sharded sd =>
    have he' : ∀ s, InGrid sd.shape sd.shardShape s → τ' (sd.skey s) = τ (sd.skey s) := fun s hs => he _ ⟨s, hs, rfl⟩
    obtain ⟨hv, A, h1, h2⟩ := hS
    refine ⟨fun s hs => ?_, A, fun c hc => ?_, h2⟩
    · rw [he' s hs]
      exact hv s hs
    · unfold ShardedDataset.blobAt
      rw [he' _ (ShardedDataset.WF.shard_inGrid h hc)]
      exact h1 c hc

/-- What a successful call does. -/
theorem AnyDataset.PerformsS3.effect {d : AnyDataset E} (h : d.WF) (hw : d.base.canWrite = true) {name : Key}
    {w : Write E.T} {b b' : Bucket} (hp : d.PerformsS3 name w b b') :
    (∀ q, (∀ k, d.IsKey k → q ≠ chunkObject name k) → b'.get q = b.get q) ∧
    ∀ S, d.InStore (b.chunks name) S → d.InStore (b'.chunks name) (override S w.off w.shape w.val) := by
  cases hp with
  | region call val scratch ts is hv hval hts hcomp =>
    obtain ⟨rs, hfin, hall, rfl⟩ := hcomp
    obtain ⟨e1, e2⟩ := interleaveS3_eq name is ts b
    refine ⟨fun q hq => interleaveS3_frame is (c := (ts, b))
      (fun s hs => (start_within h hv hts s hs).mono fun _ => Touched.isKey) q hq, fun S hS => ?_⟩
    rw [e1] at hfin
    rw [e2]
    cases d with
    | plain ds =>
      have hts' : ds.writeRegion call.request call.off call.shape scratch = .ok ts := by cases call <;> exact hts
      exact (writeRegion_refines h hw hv.1 (ShardedDataset.request_spec hv hval) hS hts' hfin).2.2 hall
    | sharded sd =>
      have hts' : sd.writeRegion call.request call.off call.shape scratch = .ok ts := by cases call <;> exact hts
      exact (ShardedDataset.writeRegion_refines h hw hv.1 (ShardedDataset.request_spec hv hval) hS hts' hfin).2.2 hall
  | chunk c data val is hc hl hval hcomp =>
    obtain ⟨rs, hfin, hall, rfl⟩ := hcomp
    obtain ⟨κ, hκ, htc⟩ := writeChunk_touches h hc data
    obtain ⟨e1, e2⟩ := interleaveS3_eq name is [d.writeChunk c data] b
    refine ⟨fun q hq => interleaveS3_frame is (c := ([d.writeChunk c data], b))
      (fun s hs => by rw [List.mem_singleton.1 hs]; exact within_of_touches hκ htc) q hq, fun S hS => ?_⟩
    rw [e1] at hfin
    obtain ⟨h5, h6⟩ := finished_one htc hfin
    have h7 : (Prog.run (d.writeChunk c data) (b.chunks name)).1 = .ok () := hall _ (by rw [h5]; simp)
    rw [e2, h6]
    cases d with
    | plain ds => exact performs_refines h (.chunk c data val hl hval (Prod.ext h7 rfl)) hw hS
    | sharded sd => exact ShardedDataset.performs_refines h (.chunk c data val hl hval (Prod.ext h7 rfl)) hw hS
  | remove c is hc hcomp =>
    obtain ⟨rs, hfin, hall, rfl⟩ := hcomp
    obtain ⟨κ, hκ, htc⟩ := removeChunk_touches h hc
    obtain ⟨e1, e2⟩ := interleaveS3_eq name is [d.removeChunk c] b
    refine ⟨fun q hq => interleaveS3_frame is (c := ([d.removeChunk c], b))
      (fun s hs => by rw [List.mem_singleton.1 hs]; exact within_of_touches hκ htc) q hq, fun S hS => ?_⟩
    rw [e1] at hfin
    obtain ⟨h5, h6⟩ := finished_one htc hfin
    have h7 : (Prog.run (d.removeChunk c) (b.chunks name)).1 = .ok () := hall _ (by rw [h5]; simp)
    rw [e2, h6]
    cases d with
    | plain ds => exact performs_refines h (.remove c hc (Prod.ext h7 rfl)) hw hS
    | sharded sd => exact ShardedDataset.performs_refines h (.remove c hc (Prod.ext h7 rfl)) hw hS

theorem AnyDataset.InStore.readsAs {d : AnyDataset E} (h : d.WF) {name : Key} {b : Bucket} {S : List Nat → E.T}
    (hS : d.InStore (b.chunks name) S) :
    ∃ A, d.ReadsAsS3 name b A ∧ ∀ x, InBox x d.base.shape → SameOrFill E.ceq d.base.fill (A x) (S x) := by
  have hA : ∃ A, (match d with
        | plain ds => Z5.ReadsAs ds (b.chunks name) A
        | sharded sd => ShardedReadsAs sd (b.chunks name) A) ∧
      ∀ x, InBox x d.base.shape → SameOrFill E.ceq d.base.fill (A x) (S x) := by
    cases d with
    | plain ds => exact Props.refines_readsAs h hS
    | sharded sd => exact Props.srefines_readsAs h hS
  obtain ⟨A, hA, hAS⟩ := hA
  refine ⟨A, ?_, hAS⟩
  intro off out outBuf scratch hr hfit hna
  have hts : ∃ ts, d.readSubarray out off scratch = .ok ts ∧
      ∀ is rs, Prog.Finished (Prog.interleave is (ts, b.chunks name)).1 rs →
        (Prog.interleave is (ts, b.chunks name)).2 = b.chunks name ∧ (∃ out', Delivers outBuf rs out') ∧
        ∀ out', Delivers outBuf rs out' → out'.length = outBuf.length ∧
          (∀ i, InBox i out.shape → out'[out.base + dot i out.strides]? = some (A (addV off i))) ∧
          (∀ a, (∀ i, InBox i out.shape → out.base + dot i out.strides ≠ a) →
            out'[a]? = outBuf[a]?) := by
    cases d with
    | plain ds => exact hA off out outBuf scratch hr hfit hna
    | sharded sd => exact hA off out outBuf scratch hr hfit hna
  obtain ⟨ts, hts, hread⟩ := hts
  refine ⟨ts, hts, fun is rs hfin => ?_⟩
  rw [(interleaveS3_eq name is ts b).1] at hfin
  exact ⟨interleaveS3_readOnly is fun s hs => (read_within h hr hts s hs).2, (hread is rs hfin).2⟩

theorem AnyDataset.InStore.write_succeeds {d : AnyDataset E} (h : d.WF) (hw : d.base.canWrite = true)
    (hC : d.base.codec.TotalFor (prod d.base.chunkShape * E.size)) {name : Key} {b : Bucket} {S : List Nat → E.T}
    (hS : d.InStore (b.chunks name) S) {call : RegionCall E} (hv : call.Valid d.base) (scratch : Nat → List E.T) :
    ∃ ts, d.start call scratch = .ok ts ∧
      ∀ is rs, Prog.Finished (Prog.interleaveS3 name is (ts, b)).1 rs →
        ∀ r ∈ rs, r = .ok () ∨ (r = .throw .lengthError ∧ ∃ sd, d = .sharded sd) := by
  cases d with
  | plain ds =>
    have hts : (AnyDataset.plain ds).start call scratch =
        .ok ((ds.jobs call.request call.off call.shape scratch).map Prod.snd) := by
      rw [← writeRegion_jobs h hv.1]; cases call <;> rfl
    refine ⟨_, hts, fun is rs hfin r hr => .inl ?_⟩
    rw [(interleaveS3_eq name is _ b).1] at hfin
    exact writeRegion_total h hw hC hv.1 (RegionCall.spec hv) hS hfin r hr
  | sharded sd =>
    have hts : (AnyDataset.sharded sd).start call scratch =
        .ok ((sd.jobs call.request call.off call.shape scratch).map Prod.snd) := by
      rw [← ShardedDataset.writeRegion_jobs h hw hv.1]; cases call <;> rfl
    refine ⟨_, hts, fun is rs hfin r hr => ?_⟩
    rw [(interleaveS3_eq name is _ b).1] at hfin
    rcases ShardedDataset.writeRegion_total h hw hC hv.1 (RegionCall.spec hv) hS hfin r hr with e | e
    · exact .inl e
    · exact .inr ⟨e, sd, rfl⟩

/-! ### Documents -/

theorem chunk_ne_doc {d : AnyDataset E} {k name : Key} {n : String} (h : d.IsKey k) (hn : MetaName n) :
    docKey name n ≠ chunkObject name k := by
  intro e
  obtain ⟨c, _, rfl⟩ := h
  unfold docKey joinKey chunkObject at e
  by_cases hb : name.isEmpty = true
  · rw [if_pos hb] at e
    have : name = [] := List.isEmpty_iff.1 hb
    subst this
    rcases hn with rfl | rfl | rfl | rfl | rfl <;> cases e
  · rw [if_neg hb] at e
    have e := (List.cons.inj (List.append_cancel_left e)).2
    have hk : keyNames n.toList [] = n :: [] := by rcases hn with rfl | rfl | rfl | rfl | rfl <;> decide
    rw [e] at hk
    exact metaName_key hn hk

/-- what `readS3ChunkConfig` reads -/
def Bucket.chunkConfig (b : Bucket) (base : Key) : Res ChunkConfig :=
  match b.get (docKey base "zarr.json") with
  | some (.doc j) => getZarrChunkConfig (some j) none
  | some (.file _) => .throw .typeError
  | none =>
    match b.get (docKey base ".zarray") with
    | some (.doc j) => getZarrChunkConfig none (some j)
    | some (.file _) => .throw .typeError
    | none => getZarrChunkConfig none none

theorem readS3ChunkConfig_does (base : Key) (b : Bucket) : (readS3ChunkConfig base).Does 2 b (b.chunkConfig base) b := by
  unfold readS3ChunkConfig Bucket.chunkConfig
  refine (getObject_does _ b).bind (m := 1) ?_
  cases b.get (docKey base "zarr.json") with
  | some o => cases o <;> exact (S3M.Does.lift _ _).mono (by omega)
  | none =>
    refine (getObject_does _ b).bind (m := 0) ?_
    cases b.get (docKey base ".zarray") with
    | some o => cases o <;> exact .lift _ _
    | none => exact .lift _ _

/-- the documents at `name` are not those of a group -/
def Bucket.NotGroup (b : Bucket) (name : Key) : Layout → Prop
  | .v2 => b.get (docKey name ".zgroup") = none
  | .v3 => (b.docAt (docKey name "zarr.json")).bind (·.find "node_type") = some (.str "array")
  | .n5 => ((n5DatasetKeys.filter fun k => (b.attributes name .n5 k).isSome).length == 4) = true

theorem metadata_exists {b : Bucket} {name : Key} {m : Meta} (h : b.metadata name = .ok m) : b.Exists name := by
  unfold Bucket.metadata at h
  dsimp only at h
  generalize hn : (if (b.get (docKey name "zarr.json")).isSome = true then "zarr.json"
    else if (!(b.get (docKey name "zarr.json")).isSome && (b.get (docKey name ".zarray")).isSome) = true then ".zarray"
    else "attributes.json") = n at h
  cases e : b.get (docKey name n) with
  | none => rw [e] at h; cases h
  | some o => exact ⟨docKey name n, mem_keys.2 (by rw [e]; rfl), dirPrefix_docKey name n⟩

/-- `openDataset` depends on two documents, and on the format that the group has. -/
theorem s3OpenDataset_does {root : S3Handle} {key name : Key} {m : Meta} {cfg : ChunkConfig} {o : DatasetObj} {b : Bucket}
    (hn : joinKey root.name key = name) (hi : b.metadata name = .ok m) (hc : b.chunkConfig name = .ok cfg)
    (hz : ¬ b.IsZarr root.name → cfg = ChunkConfig.initial)
    (hmk : makeDataset ⟨[], root.mode, cfg.delimiter, cfg.zarrFormat, cfg.encoding, none⟩ m = .ok o)
    (hx : m.dtype.isComplex = false) : (root.openDataset key).Does 10 b (.ok ⟨name, o⟩) b := by
  classical
  subst hn
  unfold S3Handle.openDataset
  refine (root_isZarr root b).bind (m := 6) ?_
  have tail : ((root.dataset key cfg.delimiter cfg.zarrFormat cfg.encoding).openDataset).Does 4 b
      (.ok ⟨joinKey root.name key, o⟩) b := by
    unfold S3DatasetHandle.openDataset
    have he := exist_does ⟨joinKey root.name key, root.mode⟩ b
    rw [decide_eq_true (metadata_exists hi)] at he
    refine he.bind (m := 3) ?_
    have hmd := readS3Metadata_does (joinKey root.name key) b
    rw [hi] at hmd
    refine hmd.bind (m := 0) ?_
    have e : makeS3Dataset (root.dataset key cfg.delimiter cfg.zarrFormat cfg.encoding) m
        = .ok ⟨joinKey root.name key, o⟩ := by
      unfold makeS3Dataset
      rw [hx]
      show (makeDataset ⟨[], root.mode, cfg.delimiter, cfg.zarrFormat, cfg.encoding, none⟩ m >>= fun o =>
        (Res.ok ⟨joinKey root.name key, o⟩ : Res S3DatasetObj)) = _
      rw [hmk]
      rfl
    rw [e]
    exact .lift _ _
  by_cases hzz : b.IsZarr root.name
  · rw [decide_eq_true hzz]
    have := readS3ChunkConfig_does (joinKey root.name key) b
    rw [hc] at this
    exact this.bind (m := 4) tail
  · rw [decide_eq_false hzz]
    rw [hz hzz] at tail
    exact ((S3M.Does.pure ChunkConfig.initial b).bind (m := 4) tail).mono (by omega)

/-- The bucket holds the dataset. -/
structure S3Carries (name : Key) (o₀ : DatasetObj) (m : Meta) (cfg : ChunkConfig) (d : AnyDataset E) (S : List Nat → E.T)
    (b : Bucket) : Prop where
  holds : d.InStore (b.chunks name) S
  node : b.Node name o₀.layout
  n5 : o₀.layout = .n5 → b.get (docKey name "attributes.json") ≠ none
  kind : b.NotGroup name o₀.layout
  info : b.metadata name = .ok m
  names : b.chunkConfig name = .ok cfg

section
variable {name : Key} {o₀ : DatasetObj} {m : Meta} {cfg : ChunkConfig} {d : AnyDataset E} {S S' : List Nat → E.T}
  {b b' : Bucket}

theorem metadata_congr (h : ∀ n, MetaName n → b'.get (docKey name n) = b.get (docKey name n)) :
    b'.metadata name = b.metadata name := by
  have h1 := h ".zarray" (.inl rfl)
  have h2 := h "zarr.json" (.inr (.inl rfl))
  have h3 := h "attributes.json" (.inr (.inr (.inl rfl)))
  unfold Bucket.metadata
  dsimp only
  rw [h1, h2]
  cases (b.get (docKey name "zarr.json")).isSome <;> cases (b.get (docKey name ".zarray")).isSome <;>
    simp [h1, h2, h3]

theorem chunkConfig_congr (h : ∀ n, MetaName n → b'.get (docKey name n) = b.get (docKey name n)) :
    b'.chunkConfig name = b.chunkConfig name := by
  unfold Bucket.chunkConfig
  rw [h ".zarray" (.inl rfl), h "zarr.json" (.inr (.inl rfl))]

theorem Bucket.Node.congr {L : Layout} (hn : b.Node name L)
    (h : ∀ n, MetaName n → b'.get (docKey name n) = b.get (docKey name n)) : b'.Node name L := by
  have hf : MetaName L.file := by cases L <;> simp [MetaName, Layout.file]
  have h2 := h "zarr.json" (.inr (.inl rfl))
  refine ⟨?_, ?_, ?_⟩
  · unfold Bucket.docAt
    rw [h _ hf]
    exact hn.doc
  · unfold Bucket.docAt
    rw [h2]
    exact hn.v3
  · rw [h2]; exact hn.v2

theorem Bucket.attributes_congr {L : Layout} (h : ∀ n, MetaName n → b'.get (docKey name n) = b.get (docKey name n)) :
    b'.attributes name L = b.attributes name L := by
  have hd : ∀ n, MetaName n → b'.docAt (docKey name n) = b.docAt (docKey name n) := fun n hn => by
    unfold Bucket.docAt; rw [h n hn]
  funext k
  cases L with
  | v2 => show (b'.docAt (docKey name ".zattrs")).bind _ = _; rw [hd _ (.inr (.inr (.inr (.inl rfl))))]; rfl
  | v3 => show ((b'.docAt (docKey name "zarr.json")).bind _).bind _ = _; rw [hd _ (.inr (.inl rfl))]; rfl
  | n5 => show (b'.docAt (docKey name "attributes.json")).bind _ = _; rw [hd _ (.inr (.inr (.inl rfl)))]; rfl

theorem Bucket.NotGroup.congr {L : Layout} (h : b.NotGroup name L)
    (hd : ∀ n, MetaName n → b'.get (docKey name n) = b.get (docKey name n)) : b'.NotGroup name L := by
  cases L with
  | v2 =>
    unfold Bucket.NotGroup
    rw [hd ".zgroup" (.inr (.inr (.inr (.inr rfl))))]
    exact h
  | v3 =>
    unfold Bucket.NotGroup Bucket.docAt
    rw [hd "zarr.json" (.inr (.inl rfl))]
    exact h
  | n5 =>
    unfold Bucket.NotGroup
    rw [Bucket.attributes_congr hd]
    exact h

/-- If the documents stay, what they say stays. -/
theorem S3Carries.docs (h : S3Carries name o₀ m cfg d S b)
    (hd : ∀ n, MetaName n → b'.get (docKey name n) = b.get (docKey name n)) (hS : d.InStore (b'.chunks name) S') :
    S3Carries name o₀ m cfg d S' b' where
  holds := hS
  node := h.node.congr hd
  n5 := fun e => by rw [hd "attributes.json" (.inr (.inr (.inl rfl)))]; exact h.n5 e
  kind := h.kind.congr hd
  info := (metadata_congr hd).trans h.info
  names := (chunkConfig_congr hd).trans h.names

theorem S3Carries.elsewhere (h : S3Carries name o₀ m cfg d S b) (he : ∀ k, dirPrefix name <+: k → b'.get k = b.get k) :
    S3Carries name o₀ m cfg d S b' := by
  refine h.docs (fun n _ => he _ (dirPrefix_docKey name n)) ?_
  have : b'.chunks name = b.chunks name := by
    funext k
    unfold Bucket.chunks
    rw [he _ (dirPrefix_chunk name k)]
  rw [this]
  exact h.holds

theorem S3Carries.refers (h : S3Carries name o₀ m cfg d S b) {o : DatasetObj} (hs : Sibling [] o₀ o) :
    (S3Target.dataset ⟨name, o.handle⟩).Refers b o₀.layout := by
  refine ⟨h.node, fun e => ?_, fun z e => ?_, fun _ _ e => h.n5 e⟩
  · have e : o.handle.cache = none := e
    rw [hs.cache] at e
    cases e
  · have e : o.handle.cache = some z := e
    rw [hs.cache] at e
    cases e
    rw [o₀.layout_isZarr, hs.isZarr]

theorem fromJson_empty (m : Meta) : Meta.fromJson (.obj []) true ≠ .ok m := by
  intro h
  cases h

/-- The `zarr.json` of an array is not an empty object. -/
theorem metadata_v3 (h : b.metadata name = .ok m)
    (hn : ∃ j, b.docAt (docKey name "zarr.json") = some j ∧ j.IsObject ∧ ∀ a, j.find "attributes" = some a → a.IsObject) :
    ∃ j, b.get (docKey name "zarr.json") = some (.doc j) ∧ b.docAt (docKey name "zarr.json") = some j := by
  obtain ⟨j, hj, _⟩ := hn
  refine ⟨j, ?_, hj⟩
  unfold Bucket.docAt at hj
  split at hj
  · next e => cases hj; exact e
  · next e =>
    unfold Bucket.metadata at h
    rw [e] at h
    dsimp only [Option.isSome_some] at h
    rw [if_pos rfl, e] at h
    exact absurd h (fromJson_empty m)
  · cases hj

/-- Changes of attributes do not change what the metadata say. -/
theorem S3Carries.onlyAttributes (hwf : d.WF) (h : S3Carries name o₀ m cfg d S b) {o : DatasetObj} (hs : Sibling [] o₀ o) {A : AttrMap}
    (ho : b.OnlyAttributes b' name o₀.layout A)
    (hA : o₀.layout = .n5 → ∀ k ∈ n5DatasetKeys, A k = b.attributes name .n5 k) : S3Carries name o₀ m cfg d S b' := by
  have hinfo : b'.metadata name = b.metadata name := ho.metadata (h.refers hs) fun e k hk => by rw [hA e k hk, e]
  refine ⟨?_, ho.node, fun e => ?_, ?_, hinfo.trans h.info, ?_⟩
  · have hf : MetaName o₀.layout.file := by cases o₀.layout <;> simp [MetaName, Layout.file]
    refine h.holds.congr hwf fun k hk => ?_
    unfold Bucket.chunks
    rw [ho.objects _ (chunk_ne_doc hk hf).symm]
  · have := ho.kept
    rw [e] at this
    exact this (h.n5 e)
  · have hk := h.kind
    revert hk ho hA
    cases o₀.layout with
    | v2 =>
      intro ho hA hk
      unfold Bucket.NotGroup
      rw [ho.objects _ (by intro e; exact absurd (docKey_inj e) (by decide))]
      exact hk
    | v3 =>
      intro ho hA hk
      unfold Bucket.NotGroup
      rw [ho.rest rfl _ (by decide)]
      exact hk
    | n5 =>
      intro ho hA hk
      unfold Bucket.NotGroup
      rw [ho.attributes, List.filter_congr (fun k hk => by rw [hA rfl k hk])]
      exact hk
  · rw [← h.names]
    have ob : ∀ n, n ≠ o₀.layout.file → b'.get (docKey name n) = b.get (docKey name n) :=
      fun n hne => ho.objects _ fun e => hne (docKey_inj e)
    cases hL : o₀.layout with
    | v2 =>
      unfold Bucket.chunkConfig
      rw [ob "zarr.json" (by rw [hL]; decide), ob ".zarray" (by rw [hL]; decide)]
    | n5 =>
      unfold Bucket.chunkConfig
      rw [ob "zarr.json" (by rw [hL]; decide), ob ".zarray" (by rw [hL]; decide)]
    | v3 =>
      have hr := ho.rest hL "chunk_key_encoding" (by decide)
      obtain ⟨j, hj, ej⟩ := metadata_v3 h.info (h.node.v3 hL)
      obtain ⟨j', hj', ej'⟩ := metadata_v3 (hinfo.trans h.info) (ho.node.v3 hL)
      rw [ej, ej'] at hr
      have hr : j'.find "chunk_key_encoding" = j.find "chunk_key_encoding" := hr
      unfold Bucket.chunkConfig
      rw [hj, hj']
      dsimp only
      unfold getZarrChunkConfig
      simp only [hr]

theorem S3Carries.attributes (hwf : d.WF) (h : S3Carries name o₀ m cfg d S b) {o : DatasetObj} (hs : Sibling [] o₀ o)
    {op : AttrOp} (hv : op.Valid) {es : List Event} (hes : ∀ e ∈ es, e.Reliable) :
    S3Carries name o₀ m cfg d S ((S3Target.dataset ⟨name, o.handle⟩).change op ⟨es, b⟩).2.bucket := by
  cases hw : o.handle.mode.canWrite with
  | false =>
    have := c56_readonly (t := .dataset ⟨name, o.handle⟩) (op := op) hw ⟨es, b⟩
    rw [this]
    exact h
  | true =>
    obtain ⟨eff, _, ho, _⟩ := S3Target.change_step (t := .dataset ⟨name, o.handle⟩) hw (h.refers hs) hv hes
    refine h.onlyAttributes hwf hs ho fun e k hk => ?_
    split
    · next hc =>
      have hnm : op.names ((S3Target.dataset ⟨name, o.handle⟩).locked o₀.layout) = false := by
        cases hx : op.names ((S3Target.dataset ⟨name, o.handle⟩).locked o₀.layout) with
        | false => rfl
        | true => rw [hx] at hc; simp at hc
      rw [AttrOp.apply_of_not_names (h := hnm) (by rw [e]; exact hk), e]
      rfl
    · rw [e]
      rfl

end

/-- A new dataset. -/
theorem created_s3Carries {root : S3Handle} {key : Key} {a : CreateArgs} {o₀ : S3DatasetObj} {b : Bucket}
    {es : List Event} {w : World} (hes : ∀ e ∈ es, e.Reliable)
    (h : root.createDataset key a ⟨es, b⟩ = (some (.ok o₀), w)) (hd : o₀.obj.Describable) {d : AnyDataset E} (hwf : d.WF) :
    ∃ m cfg, Opens [] o₀.obj m cfg ∧ o₀.name = joinKey root.name key ∧ m.dtype.isComplex = false ∧
      S3Carries (joinKey root.name key) o₀.obj m cfg d (fun _ => d.base.fill) w.bucket := by
  obtain ⟨z, j, hz, hr, hm, hc, hmk, hn, hh, hj, hnn⟩ := createDataset_returned hes h
  obtain ⟨e1, e2, _⟩ := createMeta_ok hm
  obtain ⟨m', cfg, ho, h1, h2, h3⟩ := created_opens hm hmk (by rw [hh]) hj hd
  obtain ⟨href, _, _⟩ := c57_created_attributes hes h
  have hL : o₀.obj.layout = Layout.of o₀.obj.info.isZarr a.zarrFormat := by unfold DatasetObj.layout; rw [e2]
  rw [← hL] at href
  have hname : (S3Target.dataset ⟨o₀.name, o₀.obj.handle⟩).name = joinKey root.name key := hn
  have hcfg : w.bucket.chunkConfig (joinKey root.name key) = .ok cfg := by
    unfold Bucket.chunkConfig
    rw [hnn.get_doc, hnn.get_doc]
    rcases fileName_cases o₀.obj.info with ⟨e, ez⟩ | ⟨e, ez⟩ | ⟨e, ez⟩
    · have := h2 ez
      rw [e] at this ⊢
      exact this
    · have := h2 ez
      rw [e] at this ⊢
      exact this
    · rw [h3 ez, e]
      rfl
  have hcx : m'.dtype.isComplex = false := by
    obtain ⟨o, hmk', hs, _⟩ := ho.make root.mode
    have hi : o.info = m' := (makeDataset_facts hmk').1
    rw [← hi, hs.dtype]
    exact hc
  refine ⟨m', cfg, ho, hn, hcx, ?_, ?_, ?_, ?_, ?_, hcfg⟩
  · rw [hnn.chunks]
    exact inStore_empty hwf fun _ _ => rfl
  · have := href.node
    rw [hname] at this
    exact this
  · intro e
    have := href.dataset _ rfl e
    rw [hname] at this
    exact this
  · rw [hL]
    cases hz : o₀.obj.info.isZarr with
    | true =>
      by_cases hf : a.zarrFormat = 3
      · have hfn : o₀.obj.info.fileName = "zarr.json" := by
          unfold Meta.fileName
          rw [hz, e2, hf]
          rfl
        obtain ⟨s, fl, l, _, _, _, rfl⟩ := (toJson_v3 hz (by rw [e2, hf])).1 hj
        rw [hf]
        show (w.bucket.docAt _).bind _ = _
        rw [hnn.docAt, hfn]
        rfl
      · have hfn : o₀.obj.info.fileName = ".zarray" := by
          unfold Meta.fileName
          rw [hz, e2, if_neg hf]
          rfl
        have : Layout.of true a.zarrFormat = .v2 := by simp [Layout.of, hf]
        rw [this]
        show w.bucket.get _ = none
        rw [hnn.get_doc, hfn]
        rfl
    | false =>
      have hfn : o₀.obj.info.fileName = "attributes.json" := by
        unfold Meta.fileName
        rw [hz]
        rfl
      obtain ⟨s, c, _, _, rfl⟩ := (toJson_n5 hz).1 hj
      show ((n5DatasetKeys.filter fun k => ((w.bucket.docAt _).bind fun j => j.find k).isSome).length == 4) = true
      rw [hnn.docAt, hfn]
      rfl
  · rw [metadata_new hnn]
    exact h1

/-- `openDataset` finds it. -/
theorem S3Carries.open {name : Key} {o₀ : DatasetObj} {m : Meta} {cfg : ChunkConfig} {d : AnyDataset E}
    {S : List Nat → E.T} {b : Bucket} (h : S3Carries name o₀ m cfg d S b) (ho : Opens [] o₀ m cfg)
    (hx : m.dtype.isComplex = false) {root : S3Handle} {key : Key} (hn : joinKey root.name key = name)
    (hz : o₀.info.isZarr = true → b.IsZarr root.name) :
    ∃ o, (root.openDataset key).Does 10 b (.ok ⟨name, o⟩) b ∧ Sibling [] o₀ o ∧ o.handle.mode = root.mode := by
  obtain ⟨o, h4, h5, h6⟩ := ho.make root.mode
  refine ⟨o, s3OpenDataset_does hn h.info h.names (fun hb => ho.initial ?_) h4 hx, h5, h6⟩
  cases hzz : o₀.info.isZarr with
  | false => rfl
  | true => exact absurd (hz hzz) hb

/-- The invariant of sessions. -/
theorem S3Sessions.carries {L : Libs} {elem : FillVal → E.T} {name : Key} {o₀ : S3DatasetObj} {d₀ : AnyDataset E}
    (hL : L.LawfulFor (prod d₀.base.chunkShape * E.size)) (hdesc : o₀.obj.Describable) (hd : o₀.typed L elem = .ok d₀)
    (hwf : d₀.WF) {os : List S3DatasetObj} {ws : List (Write E.T)} {b : Bucket}
    (h : S3Sessions L elem name o₀ os ws b) :
    ∃ m cfg, Opens [] o₀.obj m cfg ∧ m.dtype.isComplex = false ∧
      S3Carries name o₀.obj m cfg d₀ (replay (fun _ => d₀.base.fill) ws) b ∧
      ∀ o ∈ os, o.name = name ∧ Sibling [] o₀.obj o.obj := by
  induction h with
  | created hes hp hc =>
    subst hp
    obtain ⟨m, cfg, h1, hn, hx, h2⟩ := created_s3Carries hes hc hdesc hwf
    exact ⟨m, cfg, h1, hx, h2, fun o ho => by rw [List.mem_singleton.1 ho]; exact ⟨hn, h1.self⟩⟩
  | @opened root key os ws b es w o _ hes hp hz ho ih =>
    obtain ⟨m, cfg, h1, hx, h2, h3⟩ := ih
    obtain ⟨o', h4, h5, _⟩ := h2.open h1 hx hp hz
    obtain ⟨e1, e2⟩ := h4.ok hes ho
    rw [e2]
    refine ⟨m, cfg, h1, hx, h2, fun x hx => ?_⟩
    rcases List.mem_cons.1 hx with rfl | hx
    · cases e1
      exact ⟨rfl, h5⟩
    · exact h3 x hx
  | closed _ hs ih =>
    obtain ⟨m, cfg, h1, hx, h2, h3⟩ := ih
    exact ⟨m, cfg, h1, hx, h2, fun o ho => h3 o (hs o ho)⟩
  | @wrote os ws b b' o d w _ ho hw hty hp ih =>
    obtain ⟨m, cfg, h1, hx, h2, h3⟩ := ih
    obtain ⟨hn, hs⟩ := h3 o ho
    obtain ⟨t1, t2, _, _⟩ := hs.typed h1.self h1.shard hL hd
    have hty := Res.ok.inj (t1.symm.trans hty)
    subst hty
    have hcan : (d₀.variant o.obj.keyCfg (L.codec E.size o.obj.settings) o.obj.handle.mode.canWrite).base.canWrite = true := by
      rw [variant_base]
      exact hw
    obtain ⟨p1, p2⟩ := hp.effect (variant_wf t2 hwf) hcan
    rw [variant_isKey t2] at p1
    rw [hn] at p1 p2
    refine ⟨m, cfg, h1, hx, ?_, h3⟩
    refine h2.docs (fun n hn => p1 _ fun k hk => chunk_ne_doc hk hn) ?_
    rw [replay_append]
    exact (variant_inStore t2).1 (p2 _ ((variant_inStore t2).2 h2.holds))
  | annotated _ hes ho hv ih =>
    obtain ⟨m, cfg, h1, hx, h2, h3⟩ := ih
    obtain ⟨hn, hs⟩ := h3 _ ho
    rw [hn]
    exact ⟨m, cfg, h1, hx, h2.attributes hwf hs hv hes, h3⟩
  | elsewhere _ he ih =>
    obtain ⟨m, cfg, h1, hx, h2, h3⟩ := ih
    exact ⟨m, cfg, h1, hx, h2.elsewhere he, h3⟩

end Z5
