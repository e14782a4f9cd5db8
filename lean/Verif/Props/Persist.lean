import Verif.Proofs.Persist
import Verif.Props.FileStore
import Verif.Props.Varlen

/-!
# C64: data outlive the objects they were written with

A dataset is created, closed, opened again by other handles, in other modes and other processes; it is written through all of
them, attributes are set, other things happen in the container.  What is read is always what was written.
-/

namespace Z5.Props
open Z5 Spec

variable {E : Elem} {L : Libs} {elem : FillVal → E.T} {p : Path} {o₀ : DatasetObj} {d₀ : AnyDataset E}
  {os : List DatasetObj} {ws : List (Write E.T)} {σ : Fs}

/-- **C64, reading.** Through every open object every region reads as what all objects together wrote, and as the fill value
of the creation where nothing was written. -/
theorem c64_read (hL : L.LawfulFor (prod d₀.base.chunkShape * E.size)) (hdesc : o₀.Describable) (hd : o₀.typed L elem = .ok d₀) (hwf : d₀.WF)
    (hk : d₀.PlainKeys) (h : Sessions L elem p o₀ os ws σ) {o : DatasetObj} (ho : o ∈ os) :
    ∃ d A, o.typed L elem = .ok d ∧ d.base.shape = o₀.info.shape ∧ d.ReadsAs p σ A ∧
      ∀ x, InBox x o₀.info.shape → SameOrFill E.ceq (elem o₀.fill) (A x) (replay (fun _ => elem o₀.fill) ws x) := by
  obtain ⟨m, cfg, h1, h2, h3⟩ := h.carries hL hdesc hd hwf hk
  obtain ⟨t1, t2, t3, t4⟩ := (h3 o ho).typed h1.self h1.shard hL hd
  have hS := (AnyDataset.variant_holds (w := o.handle.mode.canWrite) t2).2 h2.holds
  obtain ⟨A, hA, hx⟩ := AnyDataset.Holds.readsAs (AnyDataset.variant_wf t2 hwf) (AnyDataset.variant_plainKeys t2 hk)
    (by rw [AnyDataset.variant_isKey t2]; exact h2.tidy) hS
  rw [AnyDataset.variant_base] at hx
  have hx : ∀ x, InBox x d₀.base.shape → SameOrFill E.ceq d₀.base.fill (A x) (replay (fun _ => d₀.base.fill) ws x) := hx
  rw [t3, t4] at hx
  refine ⟨_, A, t1, ?_, hA, hx⟩
  rw [AnyDataset.variant_base]
  exact t3

/-- **C64, opening again.** At any time the dataset can be opened, from any group above it and in any mode; it has the shape,
the chunks and the fill value with which it was created and reads as what was written. -/
theorem c64_reopen (hL : L.LawfulFor (prod d₀.base.chunkShape * E.size)) (hdesc : o₀.Describable) (hd : o₀.typed L elem = .ok d₀) (hwf : d₀.WF)
    (hk : d₀.PlainKeys) (h : Sessions L elem p o₀ os ws σ) {root : GroupHandle} {key : Path} (hp : root.path ++ key = p)
    (hz : o₀.info.isZarr = true → root.isZarr σ = (.ok true, σ)) :
    ∃ o, root.openDataset key σ = (.ok o, σ) ∧ o.handle.mode = root.mode ∧ o.info.shape = o₀.info.shape ∧
      o.info.chunkShape = o₀.info.chunkShape ∧ o.info.dtype = o₀.info.dtype ∧ o.fill = o₀.fill ∧
      ∃ d A, o.typed L elem = .ok d ∧ d.ReadsAs p σ A ∧
        ∀ x, InBox x o₀.info.shape → SameOrFill E.ceq (elem o₀.fill) (A x) (replay (fun _ => elem o₀.fill) ws x) := by
  obtain ⟨m, cfg, h1, h2, _⟩ := h.carries hL hdesc hd hwf hk
  obtain ⟨o, h4, h5, h6⟩ := h1.make root.mode
  have hroot : ∃ z, root.isZarr σ = (.ok z, σ) := by
    rw [group_isZarr, h2.tidy.above _ (by rw [← hp]; exact List.prefix_append _ _)]
    exact ⟨_, rfl⟩
  obtain ⟨z, hz'⟩ := hroot
  have hi : z = false → cfg = ChunkConfig.initial := fun e => h1.initial (by
    cases hzz : o₀.info.isZarr with
    | false => rfl
    | true =>
      have := hz hzz
      rw [hz', e] at this
      cases this)
  have hopen : root.openDataset key σ = (.ok o, σ) := by
    rw [openDataset_run (m := m) hz' (by rw [hp]; exact h2.tidy.above _ (List.prefix_refl _))
      (fun _ => by rw [hp]; exact h2.names) hi (by rw [hp]; exact h2.info)]
    rw [← hp] at h4
    exact Prod.ext h4 rfl
  obtain ⟨d, A, g1, _, g3, g4⟩ := c64_read hL hdesc hd hwf hk (.opened h hp hz hopen) (List.mem_cons_self ..)
  exact ⟨o, hopen, h6, h5.shape, h5.chunkShape, h5.dtype, h5.fill, d, A, g1, g3, g4⟩

/-- **C64, writing.** Every region write through an open object that is not read-only succeeds under every schedule (if the
compressors never fail; a shard may exceed 2^63 bytes), so that it can be the next step of the sessions. -/
theorem c64_write_succeeds (hL : L.LawfulFor (prod d₀.base.chunkShape * E.size)) (hdesc : o₀.Describable)
    (hd : o₀.typed L elem = .ok d₀) (hwf : d₀.WF) (hk : d₀.PlainKeys) (h : Sessions L elem p o₀ os ws σ) {o : DatasetObj}
    (hT : (L.codec E.size o.settings).TotalFor (prod d₀.base.chunkShape * E.size)) (ho : o ∈ os)
    (hw : o.handle.mode.canWrite = true) :
    ∃ d, o.typed L elem = .ok d ∧ ∀ (call : RegionCall E), call.Valid d.base → ∀ scratch : Nat → List E.T,
      ∃ ts, d.start call scratch = .ok ts ∧
        ∀ is rs, FsProg.Finished (FsProg.interleave is (d.onFiles p ts, σ)).1 rs →
          ∀ r ∈ rs, r = .ok () ∨ (r = .throw .lengthError ∧ ∃ sd, d = .sharded sd) := by
  obtain ⟨m, cfg, h1, h2, h3⟩ := h.carries hL hdesc hd hwf hk
  obtain ⟨t1, t2, t3, t4⟩ := (h3 o ho).typed h1.self h1.shard hL hd
  have hS := (AnyDataset.variant_holds (w := o.handle.mode.canWrite) t2).2 h2.holds
  refine ⟨_, t1, fun call hv scratch => ?_⟩
  refine holds_write_succeeds (AnyDataset.variant_wf t2 hwf) (AnyDataset.variant_plainKeys t2 hk)
    (by rw [AnyDataset.variant_base]; exact hw) (by rw [AnyDataset.variant_base]; exact hT)
    (by rw [AnyDataset.variant_isKey t2]; exact h2.tidy) hS hv scratch

/-- **C64, other nodes.** A write changes nothing outside the directory of the dataset. -/
theorem c64_write_frame (hL : L.LawfulFor (prod d₀.base.chunkShape * E.size)) (hdesc : o₀.Describable) (hd : o₀.typed L elem = .ok d₀) (hwf : d₀.WF)
    (hk : d₀.PlainKeys) (h : Sessions L elem p o₀ os ws σ) {o : DatasetObj} (ho : o ∈ os)
    (hw : o.handle.mode.canWrite = true) {d : AnyDataset E} (hty : o.typed L elem = .ok d) {w : Write E.T} {σ' : Fs}
    (hp : d.Performs p w σ σ') : ∀ q, ¬ p <+: q → σ' q = σ q := by
  obtain ⟨m, cfg, h1, h2, h3⟩ := h.carries hL hdesc hd hwf hk
  obtain ⟨t1, t2, t3, t4⟩ := (h3 o ho).typed h1.self h1.shard hL hd
  rw [t1] at hty
  have hty := Res.ok.inj hty
  subst hty
  obtain ⟨_, p2, _⟩ := hp.effect (AnyDataset.variant_wf t2 hwf) (AnyDataset.variant_plainKeys t2 hk)
    (by rw [AnyDataset.variant_base]; exact hw) (by rw [AnyDataset.variant_isKey t2]; exact h2.tidy)
  intro q hq
  rcases p2 q with ⟨k, _, e⟩ | e | ⟨_, _, k, _, h1, _, _⟩
  · exact absurd (by rw [e]; unfold chunkFile; exact List.prefix_append _ _) hq
  · exact e
  · exact absurd h1 hq

/-! ### A session -/

/-- A stand-in for the compression libraries: one byte in front of the data -/
def exLibs : Libs where
  compress _ _ x := .ok (7 :: x)
  decompress _ _ y cap := match y with
    | _ :: x => if x.length ≤ cap then .ok x else .throw .runtimeError
    | [] => .throw .runtimeError

theorem exLibs_lawful (N : Nat) : exLibs.LawfulFor N := by
  intro _ s
  unfold Libs.codec
  split
  · trivial
  · refine ⟨?_, ?_, ?_⟩
    · intro x y _ _ h
      cases h
      exact if_pos (Nat.le_refl _)
    · intro x y _ _ h
      cases h
      simp
    · intro x _ _ h; cases h

theorem exLibs_total (N : Nat) : exLibs.TotalFor N := by
  intro _ s
  unfold Libs.codec
  split
  · trivial
  · exact fun x _ _ => ⟨_, rfl⟩

/-- `static_cast<uint8_t>` of the fill value -/
def exElem : FillVal → U8.T
  | .int i => ⟨(i % 256).toNat, by
      show _ < 256
      omega⟩
  | .dbl _ => (0 : Fin (256 ^ 1))

theorem exDs_describable : exDs.Describable := ⟨exDs_typed, fun _ => .inl rfl, .inl rfl⟩

def exDsTyped : Dataset U8 :=
  { shape := [5, 4], chunkShape := [2, 3], chunkSize := 6, chunking := ⟨[5, 4], [2, 3], [3, 2], [2, 1], 6⟩,
    key := ⟨true, ['/'], 2, "default".toList⟩, codec := exLibs.codec 1 (.zlib 5 true), fill := (0 : Fin (256 ^ 1)),
    canWrite := true, backend := .files }

theorem exDs_typed_eq : exDs.typed exLibs exElem = .ok (.plain exDsTyped) := rfl

theorem exDsTyped_wf : exDsTyped.WF where
  made := rfl
  dims := ⟨by simp [exDsTyped], by simp [exDsTyped]⟩
  small := by intro s hs; simp [exDsTyped] at hs; rcases hs with rfl | rfl <;> decide
  bytes := by show 6 * 1 < 2 ^ 64; decide
  codec := exLibs_lawful _ 1 (.zlib 5 true)
  keyOk := by intro _; exact ⟨'/', by show '/' ∈ ['/']; decide, by decide⟩
  n5 := by intro h; cases h

theorem exDs_plainKeys : (AnyDataset.plain exDsTyped).PlainKeys := .inl (by decide)

/-- A value can be written to any region through any open object. -/
theorem exists_session_write {os : List DatasetObj} {ws : List (Write U8.T)} {σ : Fs}
    (h : Sessions exLibs exElem ["raw", "d"] exDs os ws σ) {o : DatasetObj} (ho : o ∈ os)
    (hw : o.handle.mode.canWrite = true) {off shape : List Nat} (hr : RegionOk [5, 4] off shape) (v : U8.T) :
    ∃ σ', Sessions exLibs exElem ["raw", "d"] exDs os (ws ++ [⟨off, shape, fun _ => v⟩]) σ' ∧
      ∀ q, ¬ ["raw", "d"] <+: q → σ' q = σ q := by
  obtain ⟨d, hty, hall⟩ := c64_write_succeeds (exLibs_lawful _) exDs_describable exDs_typed_eq exDsTyped_wf
    exDs_plainKeys h (exLibs_total _ _ _) ho hw
  obtain ⟨d', _, hty', hshape, _⟩ := c64_read (exLibs_lawful _) exDs_describable exDs_typed_eq exDsTyped_wf exDs_plainKeys h ho
  rw [hty] at hty'
  cases hty'
  have hv : (RegionCall.scalar (E := U8) off shape v).Valid d.base := ⟨by rw [hshape]; exact hr, trivial⟩
  obtain ⟨ts, hts, hok⟩ := hall (.scalar off shape v) hv fun _ => []
  obtain ⟨is, rs, hfin⟩ := FsProg.exists_finished (d.onFiles ["raw", "d"] ts, σ)
  have hpl : ∀ sd, d ≠ .sharded sd := by
    intro sd e
    obtain ⟨m, cfg, h1, _, h3⟩ := h.carries (exLibs_lawful _) exDs_describable exDs_typed_eq exDsTyped_wf exDs_plainKeys
    obtain ⟨t1, _⟩ := (h3 o ho).typed h1.self h1.shard (exLibs_lawful _) (elem := exElem) exDs_typed_eq
    rw [t1] at hty
    rw [e] at hty
    cases hty
  have hp : d.Performs ["raw", "d"] ⟨off, shape, fun _ => v⟩ σ
      (FsProg.interleave is (d.onFiles ["raw", "d"] ts, σ)).2 :=
    .region (.scalar off shape v) (fun _ => v) (fun _ => []) ts is hv (fun _ _ => rfl) hts
      ⟨rs, hfin, fun r hr' => (hok is rs hfin r hr').elim id fun ⟨_, sd, e⟩ => absurd e (hpl sd), rfl⟩
  exact ⟨_, .wrote h ho hw hty hp, c64_write_frame (exLibs_lawful _) exDs_describable exDs_typed_eq exDsTyped_wf
    exDs_plainKeys h ho hw hty hp⟩

theorem exSessions_dirs {os : List DatasetObj} {ws : List (Write U8.T)} {σ : Fs}
    (h : Sessions exLibs exElem ["raw", "d"] exDs os ws σ) : ∀ q, q <+: ["raw", "d"] → σ q = some .dir := by
  obtain ⟨_, _, _, h2, _⟩ := h.carries (exLibs_lawful _) exDs_describable exDs_typed_eq exDsTyped_wf exDs_plainKeys
  exact h2.tidy.above

/-- The theorems apply: a compressed zarr dataset in nested directories is created, gets an attribute, is written, and all
objects are destroyed.  It is opened from the same group in mode `r+` and written again, and then opened in mode `r`. -/
example : ∃ o σ, Sessions exLibs exElem ["raw", "d"] exDs [o]
      [⟨[1, 0], [3, 3], fun _ => (4 : Fin (256 ^ 1))⟩, ⟨[2, 1], [1, 2], fun _ => (9 : Fin (256 ^ 1))⟩] σ ∧
    o.handle.mode = .r ∧ o.info.shape = [5, 4] ∧
    ∃ d A, o.typed exLibs exElem = .ok d ∧ d.ReadsAs ["raw", "d"] σ A ∧ A [2, 1] = (9 : Fin (256 ^ 1)) ∧
      A [1, 1] = (4 : Fin (256 ^ 1)) ∧ A [0, 0] = (0 : Fin (256 ^ 1)) := by
  have h0 : Sessions exLibs exElem ["raw", "d"] exDs [exDs] [] _ := .created exZarr_wf rfl (FsM.run_eq (by decide +kernel :
    (exRoot.createDataset ["raw", "d"] exArgs exZarr).1 = .ok exDs))
  have h1 := Sessions.annotated (op := .write (.obj [("unit", .str "nm")])) h0 (List.mem_singleton.2 rfl)
    ⟨_, rfl, by decide⟩
  have hz1 : (((Target.dataset exDs.handle).change (.write (.obj [("unit", .str "nm")]))
    (exRoot.createDataset ["raw", "d"] exArgs exZarr).2).2 [".zgroup"]).isSome = true := by decide +kernel
  obtain ⟨σ2, h2, e2⟩ := exists_session_write h1 (List.mem_singleton.2 rfl) rfl (off := [1, 0]) (shape := [3, 3])
    (by decide) (4 : Fin (256 ^ 1))
  have h3 := h2.closed (os' := []) (fun _ h => by cases h)
  have hroot : ∀ {σ' : Fs} {os ws} (m : FileMode), Sessions exLibs exElem ["raw", "d"] exDs os ws σ' →
      σ' [".zgroup"] ≠ none → (⟨[], m⟩ : GroupHandle).isZarr σ' = (.ok true, σ') := by
    intro σ' _ _ m hs h
    have h' := exSessions_dirs hs [] (by decide)
    rw [group_isZarr]
    cases e : σ' [".zgroup"] with
    | none => exact absurd e h
    | some x => simp [h', e]
  have hz2 : σ2 [".zgroup"] ≠ none := by rw [e2 _ (by decide)]; intro e; rw [e] at hz1; cases hz1
  obtain ⟨o, ho, hm, _⟩ := c64_reopen (exLibs_lawful _) exDs_describable exDs_typed_eq exDsTyped_wf exDs_plainKeys h3
    (root := ⟨[], .rp⟩) (key := ["raw", "d"]) rfl fun _ => hroot _ h3 hz2
  have h4 := Sessions.opened (root := ⟨[], .rp⟩) h3 rfl (fun _ => hroot _ h3 hz2) ho
  obtain ⟨σ5, h5, e5⟩ := exists_session_write h4 (List.mem_singleton.2 rfl) (by rw [hm]; rfl) (off := [2, 1])
    (shape := [1, 2]) (by decide) (9 : Fin (256 ^ 1))
  have hz5 : σ5 [".zgroup"] ≠ none := by rw [e5 _ (by decide)]; exact hz2
  have h6 := h5.closed (os' := []) (fun _ h => by cases h)
  obtain ⟨o', ho', hm', hsh, _, _, _, d, A, hd, hA, hx⟩ := c64_reopen (exLibs_lawful _) exDs_describable exDs_typed_eq exDsTyped_wf
    exDs_plainKeys h6 (root := ⟨[], .r⟩) (key := ["raw", "d"]) rfl fun _ => hroot _ h6 hz5
  have h7 := Sessions.opened (root := ⟨[], .r⟩) h6 rfl (fun _ => hroot _ h6 hz5) ho'
  have hex : ∀ (a b : U8.T), SameOrFill U8.ceq (exElem exDs.fill) a b → a = b := by
    rintro a b (h | ⟨h1, h2⟩)
    · exact h
    · have hf : ∀ a b : U8.T, U8.ceq a b = true → a = b := fun a b =>
        (@decide_eq_true_iff (a = b) (instDecidableEqFin (256 ^ 1) a b)).1
      exact h2.trans (hf _ _ h1).symm
  refine ⟨o', σ5, h7, hm', hsh, d, A, hd, hA, ?_, ?_, ?_⟩
  · rw [hex _ _ (hx [2, 1] (by decide))]; rfl
  · rw [hex _ _ (hx [1, 1] (by decide))]; rfl
  · rw [hex _ _ (hx [0, 0] (by decide))]; rfl

/-- **C64, counterexample.** `createDataset` with the key `raw/d` makes the directory `raw` without saying that it is a zarr
group.  Opened from the root, the dataset has its chunks in nested directories; opened from `raw`, which succeeds too, it
has other names for all chunks, and everything reads as the fill value. -/
theorem c64_intermediate_group_counterexample : ∃ (o : DatasetObj) (σ : Fs),
    Sessions exLibs exElem ["raw", "d"] exDs [exDs] [] σ ∧
    ((⟨["raw"], .a⟩ : GroupHandle).openDataset ["d"] σ).1 = .ok o ∧
    o.info.isZarr = true ∧ o.info.shape = exDs.info.shape ∧
    getChunkKey exDs.keyCfg [0, 0] = "0/0".toList ∧ getChunkKey o.keyCfg [0, 0] = "0.0".toList :=
  ⟨{ exDs with handle := { exDs.handle with delimiter := "." } }, _,
    .created exZarr_wf rfl (FsM.run_eq (by decide +kernel :
      (exRoot.createDataset ["raw", "d"] exArgs exZarr).1 = .ok exDs)),
    by decide +kernel, rfl, rfl, by decide +kernel, by decide +kernel⟩

end Z5.Props
