import Verif.Proofs.Foreign
import Verif.Props.Container
import Verif.Props.JsonText

/-!
# C83: directories of other programs

`RawFs` is a tree of files with bytes.  `R.HoldsArray p La a E C fill A` (`Spec/Foreign`) says, in the terms of the formats, that the
directory `p` has an array of zarr v2, zarr v3 (also with shards) or N5: a JSON text that describes the array, and files with its
elements.  The theorems put together C82 (texts), C59 (documents), C81 (elements) and C46 (files).
-/

namespace Z5.Props
open Spec

variable {E : Elem} {p : Path} {R : RawFs} {La : Layout} {a : ArrayDesc} {L : Libs} {elem : FillVal → E.T} {x : Dbl} {v : FillVal}
  {A : List Nat → E.T} {root : GroupHandle} {key : Path}

theorem isGroup_isZarr {g : GroupHandle} (h : R.IsGroup g.path La) : g.isZarr R.view = (.ok La.isZarr, R.view) := by
  rw [group_isZarr, RawFs.view_dir.2 h.1]
  have h1 : ∀ q, (R.view q).isSome = true ↔ R q ≠ none := by
    intro q
    rw [Option.isSome_iff_ne_none, ne_eq, RawFs.view_none]
  have : ((R.view (g.path ++ [".zgroup"])).isSome || (R.view (g.path ++ ["zarr.json"])).isSome) = La.isZarr := by
    rw [Bool.eq_iff_iff, Bool.or_eq_true, h1, h1]
    exact h.2.symm
  rw [this]
  rfl

theorem open_fs {σ : Fs} (hL : L.Lawful) (h : σ.HoldsArray p La a E (L.codec E.size a.compression) (elem v) A)
    (hs : a.Supported La E.size) (hx : a.fill = some x) (hv : a.dtype.castFill x = .ok v)
    (hp : root.path ++ key = p) (hz : root.isZarr σ = (.ok La.isZarr, σ)) :
    ∃ o d, root.openDataset key σ = (.ok o, σ) ∧ o.StandsFor d L elem a p root.mode ∧ d.ReadsAs p σ A := by
  obtain ⟨o, d, h1, h2, h3, h4, h5, h6, h7, h8, h9, h10, h11, h12, h13, h14, h15, h16⟩ :=
    document_open hL (h.tidy.above p (List.prefix_refl _)) h.document h.others hs hx hv hp hz
  exact ⟨o, d, h1, ⟨h6, h2, h3, h4.dtype, h4.shape, h4.chunks, h4.shards, h7, h8, h9, h10, h13⟩,
    AnyDataset.Files.readsAs h7 h8 (h14 ▸ h.tidy) ((h15 _ _).2 h.elements)⟩

/-- **C83, reading.** Whoever made the files: if the directory holds an array in one of the formats (within the limits of the
implementation), `openDataset` succeeds with an object of the data type, shape, chunks and shards of the array, nothing is changed, and
every region that is read, under every schedule, has exactly the elements of the array. -/
theorem c83_open (hL : L.Lawful) (h : R.HoldsArray p La a E (L.codec E.size a.compression) (elem v) A)
    (hs : a.Supported La E.size) (hx : a.fill = some x) (hv : a.dtype.castFill x = .ok v)
    (hp : root.path ++ key = p) (hg : R.IsGroup root.path La) :
    ∃ o d, root.openDataset key R.view = (.ok o, R.view) ∧ o.StandsFor d L elem a p root.mode ∧ d.ReadsAs p R.view A :=
  open_fs hL (h.view hs) hs hx hv hp (isGroup_isZarr hg)

/-- **C83, Python.** `f[name]` is the array. -/
theorem c83_getitem {g : PyGroup} {n : PyName} (hL : L.Lawful)
    (h : R.HoldsArray p La a E (L.codec E.size a.compression) (elem v) A)
    (hs : a.Supported La E.size) (hx : a.fill = some x) (hv : a.dtype.castFill x = .ok v)
    (hp : g.handle.path ++ n.parts = p) (hg : R.IsGroup g.handle.path La) (hn : R.NoGroup p La) :
    ∃ o d, g.getItem n R.view = (.ok (.inr o), R.view) ∧ o.StandsFor d L elem a p g.handle.mode ∧ d.ReadsAs p R.view A := by
  obtain ⟨o, d, h1, h2, h3⟩ := c83_open hL h hs hx hv hp hg
  refine ⟨o, d, ?_, h2, h3⟩
  have hz := isGroup_isZarr hg
  have hdir : R.view (g.handle.path ++ n.parts) = some .dir := by
    rw [hp]; exact RawFs.view_dir.2 (h.above p (List.prefix_refl _))
  have hsub : g.handle.isSubGroup n.parts R.view = (.ok false, R.view) := by
    obtain ⟨j, hj, hsay⟩ := h.document
    have hv := hj.view (ArrayDesc.datasetFile_mem La)
    cases La with
    | v2 =>
      have hv : R.view (p ++ [".zarray"]) = some (.doc j) := hv
      have h1 : R.view (p ++ ["zarr.json"]) = none := RawFs.view_none.2 (h.others "zarr.json" (by simp) (by decide))
      have h2 : R.view (p ++ [".zgroup"]) = none := RawFs.view_none.2 hn
      rw [isSubGroup_zarr hz, hdir, hp, h1, h2]
      rfl
    | v3 =>
      have hv : R.view (p ++ ["zarr.json"]) = some (.doc j) := hv
      have hnode := ZarrV3.Describes.node hsay
      rw [isSubGroup_zarr hz, hdir, hp, Fs.docAt, hv]
      simp only [Option.isSome_some, if_true]
      rw [valueStr_of_find hnode]
      rfl
    | n5 =>
      have hv : R.view (p ++ ["attributes.json"]) = some (.doc j) := hv
      rw [isSubGroup_n5 hz, hdir, hp, Fs.docAt, hv]
      simp only [Option.isSome_some, if_true]
      have hobj : j.IsObject := by
        obtain ⟨bom, t, _, ⟨_, w, _, _, hw, _⟩, _⟩ := hj
        have hpl := JsonText.plain_of_denotes rfl hw
        have hf : (j.find "dimensions").isSome = true := by
          rcases hsay with hh | hh
          · rw [show j.find "dimensions" = _ from hh.shape]; rfl
          · rw [show j.find "dimensions" = _ from hh.shape]; rfl
        cases j with
        | obj l => exact ⟨l, rfl, hpl.1⟩
        | _ => cases hf
      rw [hasAll_count hobj]
      have hcount : (n5DatasetKeys.filter fun k => (j.find k).isSome).length = 4 := by
        have hno := hn j hj
        have f1 : (j.find "dimensions").isSome = true ∧ (j.find "blockSize").isSome = true ∧ (j.find "dataType").isSome = true := by
          rcases hsay with hh | hh
          · obtain ⟨s, _, hs⟩ := hh.dtype
            rw [show j.find "dimensions" = _ from hh.shape, show j.find "blockSize" = _ from hh.chunks, show j.find "dataType" = _ from hs]
            exact ⟨rfl, rfl, rfl⟩
          · obtain ⟨s, _, hs⟩ := hh.dtype
            rw [show j.find "dimensions" = _ from hh.shape, show j.find "blockSize" = _ from hh.chunks, show j.find "dataType" = _ from hs]
            exact ⟨rfl, rfl, rfl⟩
        have f2 : ((j.find "compressionType").isSome = false ∧ (j.find "compression").isSome = true) ∨
            ((j.find "compressionType").isSome = true ∧ (j.find "compression").isSome = false) := by
          rcases hsay with hh | hh
          · obtain ⟨c, hc, _⟩ := hh.compression
            rcases hno with e | e
            · rw [hc] at e; cases e
            · left; rw [hc, e]; exact ⟨rfl, rfl⟩
          · obtain ⟨t, ht, _⟩ := hh.compression
            right
            rw [show j.find "compressionType" = _ from ht, hh.noCompression]
            exact ⟨rfl, rfl⟩
        unfold n5DatasetKeys
        rcases f2 with ⟨e1, e2⟩ | ⟨e1, e2⟩ <;>
          simp only [List.filter_cons, List.filter_nil, f1.1, f1.2.1, f1.2.2, e1, e2, if_true, Bool.false_eq_true, if_false] <;> rfl
      rw [hcount]
      rfl
  unfold PyGroup.getItem PyGroup.contains GroupHandle.has
  simp only [FsM.bind_run, FsM.isDir, hdir, isDirectory]
  simp only [FsM.bind_run, FsM.pure_run, hsub, h1, Bool.not_true, Bool.false_eq_true, if_false, FsM.ite_run]

/-- **C83, writing.** Any sequence of successful calls on the array (region writes, chunk writes, removals of chunks, each under any
schedule) leaves an array of the same format and description, whose elements are the previous ones with the writes applied (up to
negative zeros next to the fill value zero, C06).  So it can be opened and read again, by this theorem or by other programs. -/
theorem c83_update {σ σ' : Fs} (hL : L.Lawful) (h : σ.HoldsArray p La a E (L.codec E.size a.compression) (elem v) A)
    (hs : a.Supported La E.size) (hx : a.fill = some x) (hv : a.dtype.castFill x = .ok v)
    (hp : root.path ++ key = p) (hz : root.isZarr σ = (.ok La.isZarr, σ)) (hm : root.mode.canWrite = true)
    {o : DatasetObj} {d : AnyDataset E} (ho : root.openDataset key σ = (.ok o, σ)) (ht : o.typed L elem = .ok d)
    {ws : List (Write E.T)} (hd : d.Does p ws σ σ') :
    ∃ A', σ'.HoldsArray p La a E (L.codec E.size a.compression) (elem v) A' ∧
      (∀ y, InBox y a.shape → SameOrFill E.ceq (elem v) (A' y) (replay A ws y)) ∧
      d.ReadsAs p σ' A' ∧ ∀ n, MetaName n → σ' (p ++ [n]) = σ (p ++ [n]) := by
  obtain ⟨o', d', h1, h2, h3, h4, h5, h6, h7, h8, h9, h10, h11, h12, h13, h14, h15, h16⟩ :=
    document_open hL (h.tidy.above p (List.prefix_refl _)) h.document h.others hs hx hv hp hz
  rw [ho] at h1
  cases h1
  rw [ht] at h6
  cases h6
  rw [← h11, ← h12] at h h15 ⊢
  obtain ⟨A', i1, i2⟩ := h.does h7 h8 (h13.trans hm) h9 h14 h15 hd
  exact ⟨A', i1, i2, AnyDataset.Files.readsAs h7 h8 (h14 ▸ i1.tidy) ((h15 _ _).2 i1.elements), (hd.effect h7 h8 (h13.trans hm) (h14 ▸ h.tidy)).2.1⟩

/-- **C83, writing succeeds.** Every valid region write to the array succeeds, under every schedule, unless a compressor fails or a
shard exceeds its size. -/
theorem c83_write_succeeds {σ : Fs} (hL : L.Lawful) (hT : (L.codec E.size a.compression).TotalFor (prod a.chunks * E.size))
    (h : σ.HoldsArray p La a E (L.codec E.size a.compression) (elem v) A)
    (hs : a.Supported La E.size) (hx : a.fill = some x) (hv : a.dtype.castFill x = .ok v)
    (hp : root.path ++ key = p) (hz : root.isZarr σ = (.ok La.isZarr, σ)) (hm : root.mode.canWrite = true)
    {o : DatasetObj} {d : AnyDataset E} (ho : root.openDataset key σ = (.ok o, σ)) (ht : o.typed L elem = .ok d)
    {call : RegionCall E} (hc : call.Valid d.base) (scratch : Nat → List E.T) :
    ∃ ts, d.start call scratch = .ok ts ∧
      ∀ is rs, FsProg.Finished (FsProg.interleave is (d.onFiles p ts, σ)).1 rs →
        ∀ r ∈ rs, r = .ok () ∨ (r = .throw .lengthError ∧ a.shards ≠ []) := by
  obtain ⟨o', d', h1, h2, h3, h4, h5, h6, h7, h8, h9, h10, h11, h12, h13, h14, h15, h16⟩ :=
    document_open hL (h.tidy.above p (List.prefix_refl _)) h.document h.others hs hx hv hp hz
  rw [ho] at h1
  cases h1
  rw [ht] at h6
  cases h6
  obtain ⟨S, hS, _⟩ := AnyDataset.Files.holds h7 ((h15 _ _).2 h.elements)
  obtain ⟨ts, t1, t2⟩ := holds_write_succeeds h7 h8 (h13.trans hm) (by rw [h12, h10]; exact hT) (h14 ▸ h.tidy) hS hc scratch
  refine ⟨ts, t1, fun is rs hf r hr => ?_⟩
  rcases t2 is rs hf r hr with e | ⟨e, sd, hsd⟩
  · exact .inl e
  · exact .inr ⟨e, h16.1 sd hsd⟩

/-- **C83, creating.** What was written to an array that the library made is an array of the format, with the data type, shape, chunks
and shards that were asked for, and the elements that were written.  So it is read by programs that know the format, and by
`c83_open`. -/
theorem c83_created {args : CreateArgs} {o : DatasetObj} {σ σ' σ'' : Fs} {d : AnyDataset E} {ws : List (Write E.T)} (hσ : σ.WF)
    (h : root.createDataset key args σ = (.ok o, σ')) (hdesc : o.Describable) (hL : L.LawfulFor (prod d.base.chunkShape * E.size))
    (ht : o.typed L elem = .ok d) (hwf : d.WF) (hk : d.PlainKeys) (hw : d.Does (root.path ++ key) ws σ' σ'') :
    ∃ a x A, σ''.HoldsArray (root.path ++ key) o.layout a E (L.codec E.size a.compression) (elem o.fill) A ∧
      a.shape = args.shape ∧ a.chunks = args.chunkShape ∧ a.shards = args.shardShape ∧
      assocGet Datatype.n5ToDtype args.dtype = some a.dtype ∧ a.fill = some x ∧ a.dtype.castFill x = .ok o.fill ∧
      ∀ y, InBox y a.shape → SameOrFill E.ceq (elem o.fill) (A y) (replay (fun _ => elem o.fill) ws y) := by
  obtain ⟨a, x, A, h1, h2, h3, h4, h5, h6, h7, h8⟩ := created_holds hσ h hdesc hL ht hwf hk hw
  obtain ⟨z, m, j, _, _, hm, rfl, _⟩ := GroupHandle.createDataset_ok hσ h
  obtain ⟨_, _, e3, e4, e5, _, _, _, e9, _⟩ := createMeta_ok hm
  exact ⟨a, x, A, h1, h3.trans e3, h4.trans e4, h5.trans e5, h2 ▸ e9, h6, h7, h8⟩

/-- **C83, bytes.** The last two theorems are about documents; the bytes in the files, whatever texts stand for the documents, are an
array of the format. -/
theorem c83_bytes {σ : Fs} {C : Codec} {fill : E.T} (h : σ.HoldsArray p La a E C fill A) (hs : a.Supported La E.size)
    (hR : R.Stores σ) : R.HoldsArray p La a E C fill A where
  above q hq := by
    have := hR q
    rw [h.tidy.above q hq] at this
    exact this
  document := by
    obtain ⟨j, h1, h2⟩ := h.document
    have := hR (p ++ [La.datasetFile])
    have hj : σ (p ++ [La.datasetFile]) = some (.doc j) := by
      revert h1
      unfold Fs.docAt
      cases σ (p ++ [La.datasetFile]) with
      | none => intro e; cases e
      | some y => cases y <;> intro e <;> cases e; rfl
    rw [hj] at this
    exact ⟨j, this, h2⟩
  others n hn hne := by
    have := hR (p ++ [n])
    rw [h.others n hn hne] at this
    exact this
  files k hk := by
    have h1 := hR (chunkFile p k)
    have h2 := h.tidy.files k hk
    revert h1 h2
    cases σ (chunkFile p k) with
    | none => intro h1 _ e; rw [h1] at e; cases e
    | some y => cases y with
      | dir => intro _ h2; cases h2
      | doc j => intro _ h2; cases h2
      | file b => intro h1 _ e; rw [h1] at e; cases e
  dirs k hk q h1 h2 h3 b e := by
    have h4 := hR q
    have h5 := h.tidy.dirs k hk q h1 h2 h3
    revert h4 h5
    cases σ q with
    | none => intro h1 _; rw [h1] at e; cases e
    | some y => cases y with
      | dir => intro h1 _; rw [h1] at e; cases e
      | doc j => intro _ h2; cases h2
      | file b => intro _ h2; cases h2
  elements := by
    obtain ⟨j, _, h2⟩ := h.document
    refine h.elements.congr (fun k hk => ?_) hs fun e => h2.v3_of_shards e
    have h1 := hR (chunkFile p k)
    have h2 := h.tidy.files k hk
    unfold Fs.chunks RawFs.content
    show _ = (match σ (chunkFile p k) with | some (.file b) => some b | _ => none)
    revert h1 h2
    cases σ (chunkFile p k) with
    | none => intro h1 _; rw [h1]
    | some y => cases y with
      | dir => intro _ h2; cases h2
      | doc j => intro _ h2; cases h2
      | file b => intro h1 _; rw [h1]

/-- **C83, bytes.** In particular the texts that the library writes (and Python's `json.dumps`) will do for documents. -/
theorem c83_text {dg : JsonText.Digits} (hd : dg.Lawful) {j : Json} (hj : JsonText.Plain j) {st : JsonText.Style}
    (hst : st = JsonText.compact ∨ st = JsonText.pretty ∨ st = JsonText.dumps) {q : Path}
    (hq : R.content q = some (Utf8.encode (JsonText.text st dg j))) : R.HasText q j :=
  ⟨[], _, .inl rfl, c82_written hd hj hst, hq⟩

/-! ### Examples -/

/-- A document of N5; `more` are further attributes -/
def exForeignDoc (more : List (String × Json)) : Json := .obj ([("dataType", .str "uint8"), ("dimensions", .arr [.int 3]),
  ("blockSize", .arr [.int 2]), ("compression", .obj [("type", .str "raw")])] ++ more)

/-- A directory with an N5 array `d` of three elements in two blocks; the second block is not there. -/
def exForeign (more : List (String × Json)) : RawFs := fun q =>
  if q = [] ∨ q = ["d"] then some .dir
  else if q = ["d", "attributes.json"] then
    some (.file (Utf8.encode (JsonText.text JsonText.dumps exactDigits (exForeignDoc more))))
  else if q = ["d", "0"] then some (.file [0, 0, 0, 1, 0, 0, 0, 2, 5, 6])
  else none

/-- what the document says -/
def exForeignDesc : ArrayDesc := ⟨.uint8, [3], [2], [], .raw, some .zero, ".", "default"⟩

/-- and the elements -/
def exForeignElems : List Nat → U8.T
  | [0] => (5 : Fin (256 ^ 1))
  | [1] => (6 : Fin (256 ^ 1))
  | _ => (0 : Fin (256 ^ 1))

theorem exForeign_grid {c : List Nat} (h : InGrid [3] [2] c) : c = [0] ∨ c = [1] := by
  cases c with
  | nil => cases h
  | cons i is =>
    obtain ⟨h1, h2⟩ := h
    cases is with
    | cons _ _ => cases h2
    | nil =>
      have : i * 2 < 3 := h1
      have : i = 0 ∨ i = 1 := by omega
      rcases this with rfl | rfl
      · exact .inl rfl
      · exact .inr rfl

theorem exForeign_supported : exForeignDesc.Supported .n5 U8.size where
  axes := by decide
  positive := by decide
  small := by decide
  bytes := by decide
  shards := fun h => absurd rfl h
  separator := fun h => absurd rfl h

theorem exForeign_text {more : List (String × Json)} (h : JsonText.Plain (exForeignDoc more)) :
    (exForeign more).HasText ["d", "attributes.json"] (exForeignDoc more) :=
  c83_text exactDigits_lawful h (.inr (.inr rfl)) rfl

theorem exForeign_holds {more : List (String × Json)} (h : JsonText.Plain (exForeignDoc more)) :
    (exForeign more).HoldsArray ["d"] .n5 exForeignDesc U8 (exLibs.codec U8.size .raw) (exElem (.int 0)) exForeignElems where
  above q hq := by
    obtain ⟨t, ht⟩ := hq
    cases q with
    | nil => rfl
    | cons b q =>
      cases q with
      | nil => cases ht; rfl
      | cons c q => simp at ht
  document := ⟨_, exForeign_text h, .inl ⟨⟨"uint8", rfl, rfl⟩, rfl, rfl, ⟨_, rfl, .raw rfl⟩, rfl, rfl⟩⟩
  others n hn hne := by
    simp only [List.mem_cons, List.not_mem_nil, or_false] at hn
    rcases hn with rfl | rfl | rfl
    · rfl
    · rfl
    · exact absurd rfl hne
  files k hk := by
    intro e
    have hl : 0 < (keyNames k []).length := by rw [keyNames_length]; omega
    have hn : (chunkFile ["d"] k).length ≥ 2 := by
      unfold chunkFile; rw [List.length_append]; simp only [List.length_cons, List.length_nil]; omega
    unfold exForeign at e
    split at e
    · rename_i h'
      rcases h' with h' | h' <;> rw [h'] at hn <;> simp at hn
    · split at e
      · cases e
      · split at e <;> cases e
  dirs k hk q h1 h2 h3 b e := by
    obtain ⟨c, hc, rfl⟩ := hk
    have hl : ∃ n, chunkFile ["d"] (exForeignDesc.fileName .n5 c) = ["d", n] := by
      rcases exForeign_grid hc with rfl | rfl
      · exact ⟨"0", by decide +kernel⟩
      · exact ⟨"1", by decide +kernel⟩
    obtain ⟨n, hl⟩ := hl
    rw [hl] at h2 h3
    obtain ⟨u, rfl⟩ := h1
    obtain ⟨w, hw⟩ := h2
    cases u with
    | nil => cases e
    | cons u us =>
      cases us with
      | nil =>
        simp only [List.cons_append, List.nil_append, List.cons.injEq, true_and] at hw h3
        exact h3 (by rw [hw.1])
      | cons _ _ => simp at hw
  elements := by
    intro g hg
    rcases exForeign_grid hg with rfl | rfl <;> dsimp only
    · rw [show (exForeign more).content (chunkFile ["d"] (n5Name [0])) = some [0, 0, 0, 1, 0, 0, 0, 2, 5, 6] by
        rw [show chunkFile ["d"] (n5Name [0]) = ["d", "0"] by decide +kernel]; rfl]
      exact ⟨[5, 6], by decide +kernel, show [5, 6] = _ by decide +kernel⟩
    · rw [show (exForeign more).content (chunkFile ["d"] (n5Name [1])) = none by
        rw [show chunkFile ["d"] (n5Name [1]) = ["d", "1"] by decide +kernel]; rfl]
      intro i hi
      cases i with
      | nil => cases hi
      | cons i is =>
        obtain ⟨h1, h2⟩ := hi
        cases is with
        | cons _ _ => cases h2
        | nil =>
          have : i = 0 := by
            have : i < 1 := h1
            omega
          subst this
          rfl

theorem exists_performs_scalar {d : AnyDataset E} {σ : Fs} {off shape : List Nat} {v : E.T}
    (hc : (RegionCall.scalar off shape v).Valid d.base) {ts : List (Prog Unit)} (h1 : d.start (.scalar off shape v) (fun _ => []) = .ok ts)
    (h2 : ∀ is rs, FsProg.Finished (FsProg.interleave is (d.onFiles p ts, σ)).1 rs → ∀ r ∈ rs, r = .ok ()) :
    ∃ σ', d.Performs p ⟨off, shape, fun _ => v⟩ σ σ' := by
  obtain ⟨is, rs, hfin⟩ := FsProg.exists_finished (d.onFiles p ts, σ)
  exact ⟨_, .region (.scalar off shape v) (fun _ => v) (fun _ => []) ts is hc (fun _ _ => rfl) h1 ⟨rs, hfin, h2 is rs hfin, rfl⟩⟩

theorem exForeign_plain : JsonText.Plain (exForeignDoc []) :=
  ⟨by decide, trivial, ⟨⟨by decide, by decide⟩, trivial⟩, ⟨⟨by decide, by decide⟩, trivial⟩, ⟨by decide, trivial, trivial⟩, trivial⟩

theorem exForeign_plain_unit : JsonText.Plain (exForeignDoc [("unit", .str "nm")]) :=
  ⟨by decide, trivial, ⟨⟨by decide, by decide⟩, trivial⟩, ⟨⟨by decide, by decide⟩, trivial⟩, ⟨by decide, trivial, trivial⟩, trivial, trivial⟩

/-- The theorems apply: the array is read. -/
example : ∃ o d, (GroupHandle.mk [] .r).openDataset ["d"] (exForeign []).view = (.ok o, (exForeign []).view) ∧
    o.StandsFor d exLibs exElem exForeignDesc ["d"] .r ∧ d.ReadsAs ["d"] (exForeign []).view exForeignElems :=
  c83_open (exLibs_lawful _) (exForeign_holds exForeign_plain) exForeign_supported rfl (by decide +kernel) rfl
    ⟨rfl, by decide⟩

/-- In Python, with other attributes next to the ones of the format -/
example : ∃ o d, (PyGroup.mk ⟨[], .a⟩ 2).getItem ⟨false, ["d"]⟩ (exForeign [("unit", .str "nm")]).view =
      (.ok (.inr o), (exForeign [("unit", .str "nm")]).view) ∧
    o.StandsFor d exLibs exElem exForeignDesc ["d"] .a ∧ d.ReadsAs ["d"] (exForeign [("unit", .str "nm")]).view exForeignElems :=
  c83_getitem (exLibs_lawful _) (exForeign_holds exForeign_plain_unit) exForeign_supported rfl (by decide +kernel) rfl
    ⟨rfl, by decide⟩ (by
      intro j hj
      have h1 := hj.view (p := ["d"]) (n := "attributes.json") (by decide)
      have h2 := (exForeign_text exForeign_plain_unit).view (p := ["d"]) (n := "attributes.json") (by decide)
      have h3 : some (Entry.doc j) = _ := h1.symm.trans h2
      cases h3
      exact .inr rfl)

/-- The array is opened for writing and the element of the missing block is written; then this is an array of the format, for any texts
that stand for the document. -/
example : ∃ (A' : List Nat → U8.T) (σ' : Fs), A' [0] = (5 : Fin (256 ^ 1)) ∧ A' [2] = (9 : Fin (256 ^ 1)) ∧
    ∀ R : RawFs, R.Stores σ' → R.HoldsArray ["d"] .n5 exForeignDesc U8 (exLibs.codec U8.size .raw) (exElem (.int 0)) A' := by
  have h := (exForeign_holds exForeign_plain).view exForeign_supported
  have hz := isGroup_isZarr (La := .n5) (g := ⟨[], .a⟩) (R := exForeign []) ⟨rfl, by decide⟩
  obtain ⟨o, d, ho, hst, hr⟩ := c83_open (p := ["d"]) (La := .n5) (a := exForeignDesc) (root := ⟨[], .a⟩) (key := ["d"]) (exLibs_lawful _)
    (exForeign_holds exForeign_plain) exForeign_supported rfl (by decide +kernel) rfl ⟨rfl, by decide⟩
  generalize (exForeign []).view = σ at h hz ho hr
  have hc : (RegionCall.scalar (E := U8) [2] [1] (9 : Fin (256 ^ 1))).Valid d.base :=
    ⟨by rw [hst.base.1]; decide, trivial⟩
  obtain ⟨ts, h1, h2⟩ := c83_write_succeeds (E := U8) (L := exLibs) (a := exForeignDesc) (La := .n5) (elem := exElem) (v := .int 0) (x := .zero)
    (root := ⟨[], .a⟩) (key := ["d"]) (exLibs_lawful _) (exLibs_total _ _ _) h exForeign_supported rfl (by decide +kernel) rfl hz rfl
    ho hst.typed hc fun _ => []
  obtain ⟨σ', hp⟩ := exists_performs_scalar hc h1 fun is rs hfin r hr' => (h2 is rs hfin r hr').elim id fun ⟨_, e⟩ => absurd rfl e
  obtain ⟨A', i1, i2, _⟩ := c83_update (E := U8) (L := exLibs) (a := exForeignDesc) (La := .n5) (elem := exElem) (v := .int 0) (x := .zero)
    (root := ⟨[], .a⟩) (key := ["d"]) (exLibs_lawful _) h exForeign_supported rfl (by decide +kernel) rfl hz rfl ho hst.typed (.step .nil hp)
  have e0 : A' [0] = (5 : Fin (256 ^ 1)) := by
    rcases i2 [0] (by decide) with e | ⟨e, _⟩
    · exact e
    · exact absurd e (by decide +kernel)
  have e2 : A' [2] = (9 : Fin (256 ^ 1)) := by
    rcases i2 [2] (by decide) with e | ⟨e, _⟩
    · exact e
    · exact absurd e (by decide +kernel)
  exact ⟨A', _, e0, e2, fun R hR => c83_bytes i1 exForeign_supported hR⟩

/-- A dataset is created, and a value is written: `c83_created`. -/
example : ∃ (a : ArrayDesc) (A : List Nat → U8.T) (σ : Fs),
    σ.HoldsArray ["raw", "d"] .v2 a U8 (exLibs.codec U8.size a.compression) (exElem exDs.fill) A ∧ a.shape = [5, 4] ∧
    A [2, 1] = (9 : Fin (256 ^ 1)) := by
  have h0 := FsM.run_eq (by decide +kernel : (exRoot.createDataset ["raw", "d"] exArgs exZarr).1 = .ok exDs)
  obtain ⟨d, hty, hall⟩ := c64_write_succeeds (exLibs_lawful _) exDs_describable exDs_typed_eq exDsTyped_wf exDs_plainKeys
    (.created exZarr_wf rfl h0) (exLibs_total _ _ _) (List.mem_singleton.2 rfl) rfl
  rw [exDs_typed_eq] at hty
  cases hty
  generalize (exRoot.createDataset ["raw", "d"] exArgs exZarr).2 = σ at h0 hall
  have hc : (RegionCall.scalar (E := U8) [2, 1] [1, 2] (9 : Fin (256 ^ 1))).Valid (AnyDataset.plain exDsTyped).base :=
    ⟨show RegionOk [5, 4] [2, 1] [1, 2] by decide, trivial⟩
  obtain ⟨ts, h1, h2⟩ := hall _ hc fun _ => []
  obtain ⟨σ', hp⟩ := exists_performs_scalar hc h1 fun is rs hfin r hr' => (h2 is rs hfin r hr').elim id fun ⟨_, sd, e⟩ => nomatch e
  obtain ⟨a, x, A, i1, i2, _, _, _, _, _, i3⟩ := c83_created exZarr_wf h0 exDs_describable (exLibs_lawful _) exDs_typed_eq exDsTyped_wf
    exDs_plainKeys (.step .nil hp)
  refine ⟨a, A, _, i1, i2, ?_⟩
  have i4 := i3 [2, 1] (by rw [i2]; decide)
  rcases i4 with e | ⟨e, _⟩
  · exact e
  · exact absurd e (by decide +kernel)

/-! ### Where the library does not read an array -/

/-- `.zarray` of an array of bytes without a fill value -/
def exNullDoc : Json := .obj [("chunks", .arr [.int 2]), ("compressor", .null), ("dtype", .str "|u1"), ("fill_value", .null),
  ("filters", .null), ("order", .str "C"), ("shape", .arr [.int 2]), ("zarr_format", .int 2)]

/-- A zarr group with this array, which has one chunk -/
def exNull : RawFs := fun q =>
  if q = [] ∨ q = ["d"] then some .dir
  else if q = [".zgroup"] then some (.file [])
  else if q = ["d", ".zarray"] then some (.file (Utf8.encode (JsonText.text JsonText.dumps exactDigits exNullDoc)))
  else if q = ["d", "0"] then some (.file [5, 6])
  else none

/-- **C83, negation**: an array of integers may have no fill value (`null`); zarr v2 allows it, and the array is complete without it.
To open it is undefined behaviour: `null` is read as NaN, which is converted to an integer. -/
theorem c83_null_fill_counterexample : ∃ (R : RawFs) (a : ArrayDesc) (A : List Nat → U8.T),
    (∀ fill, R.HoldsArray ["d"] .v2 a U8 .raw fill A) ∧ a.Supported .v2 U8.size ∧ R.IsGroup [] .v2 ∧
    ((GroupHandle.mk [] .r).openDataset ["d"] R.view).1 = .ub := by
  have hplain : JsonText.Plain exNullDoc :=
    ⟨by decide, ⟨⟨by decide, by decide⟩, trivial⟩, trivial, trivial, trivial, trivial, trivial, ⟨⟨by decide, by decide⟩, trivial⟩,
      ⟨by decide, by decide⟩, trivial⟩
  have htext : exNull.HasText (["d"] ++ [".zarray"]) exNullDoc :=
    c83_text exactDigits_lawful hplain (.inr (.inr rfl)) rfl
  have hgrid : ∀ {c}, InGrid [2] [2] c → c = [0] := by
    intro c h
    cases c with
    | nil => cases h
    | cons i is =>
      obtain ⟨h1, h2⟩ := h
      cases is with
      | cons _ _ => cases h2
      | nil =>
        have : i * 2 < 2 := h1
        have : i = 0 := by omega
        rw [this]
  have hfile : ∀ {k}, ArrayDesc.IsFile ⟨.uint8, [2], [2], [], .raw, none, ".", "default"⟩ .v2 k → chunkFile ["d"] k = ["d", "0"] := by
    rintro k ⟨c, hc, rfl⟩
    rw [hgrid hc]
    decide +kernel
  refine ⟨exNull, ⟨.uint8, [2], [2], [], .raw, none, ".", "default"⟩, fun x => if x = [0] then (5 : Fin (256 ^ 1)) else (6 : Fin (256 ^ 1)),
    fun fill => ⟨?_, ?_, ?_, ?_, ?_, ?_⟩, ?_, ⟨rfl, by decide⟩, ?_⟩
  · intro q hq
    obtain ⟨t, ht⟩ := hq
    cases q with
    | nil => rfl
    | cons b q =>
      cases q with
      | nil => cases ht; rfl
      | cons c q => simp at ht
  · exact ⟨_, htext, ⟨rfl, rfl, rfl, rfl, rfl, .inl rfl, ⟨_, rfl, .raw⟩, .inr ⟨rfl, rfl⟩, .inr ⟨rfl, rfl⟩, rfl, rfl⟩⟩
  · intro n hn hne
    simp only [List.mem_cons, List.not_mem_nil, or_false] at hn
    rcases hn with rfl | rfl | rfl
    · exact absurd rfl hne
    · rfl
    · rfl
  · intro k hk
    rw [hfile hk]
    intro e
    cases e
  · intro k hk q h1 h2 h3 b e
    rw [hfile hk] at h2 h3
    obtain ⟨u, rfl⟩ := h1
    obtain ⟨w, hw⟩ := h2
    cases u with
    | nil => cases e
    | cons u us =>
      cases us with
      | nil =>
        simp only [List.cons_append, List.nil_append, List.cons.injEq, true_and] at hw h3
        exact h3 (by rw [hw.1])
      | cons _ _ => simp at hw
  · refine ⟨_, fun _ _ => rfl, fun c hc => ?_⟩
    rw [hgrid hc]
    dsimp only
    rw [hfile ⟨[0], by decide, rfl⟩]
    show [5, 6] = _
    decide +kernel
  · exact { axes := by decide, positive := by decide, small := by decide, bytes := by decide, shards := fun h => absurd rfl h,
            separator := fun _ => by decide }
  · have hv : exNull.view ["d", ".zarray"] = some (.doc exNullDoc) := htext.view (by decide)
    have hview : exNull.view = fun q =>
        if q = [] ∨ q = ["d"] then some .dir
        else if q = [".zgroup"] then some (.file [])
        else if q = ["d", ".zarray"] then some (.doc exNullDoc)
        else if q = ["d", "0"] then some (.file [5, 6])
        else none := by
      funext q
      by_cases e1 : q = [] ∨ q = ["d"]
      · rcases e1 with rfl | rfl <;> rfl
      by_cases e2 : q = [".zgroup"]
      · subst e2; rfl
      by_cases e3 : q = ["d", ".zarray"]
      · subst e3; exact hv
      by_cases e4 : q = ["d", "0"]
      · subst e4; rfl
      rw [if_neg e1, if_neg e2, if_neg e3, if_neg e4]
      apply RawFs.view_none.2
      unfold exNull
      rw [if_neg e1, if_neg e2, if_neg e3, if_neg e4]
    rw [hview]
    decide +kernel

end Z5.Props
